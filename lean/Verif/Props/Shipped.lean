import Verif.Lemmas.CertPoint
import Verif.Lemmas.CertPoly
import Verif.Lemmas.ShippedPrimes
import Verif.Lemmas.ShippedText
import Verif.Props.SessionStart
import Verif.Props.Orders
import Mathlib.Tactic.ComputeDegree

/-! # C140: the parameter files that come with the library -/

set_option autoImplicit false

namespace Pbc.Shipped

open Pbc.Param Pbc.Certify
open Pbc.Curve (Pt)
open Pbc.CmGen (scalar genNqr)
open Pbc.Setup (Sampled Base Complete)
open Pbc.Session
open Spec (EC PtRep Works)
open Polynomial (X C)

/-! ## What is claimed -/

/-- `pairing_init_set_str` and `pairing_init_set_buf` read the text as these parameters, whatever is behind it in memory. -/
def Reads (t : String) (p : Par) : Prop := ∀ junk,
  pairingInit (t.toList ++ '\x00' :: junk) 0 = some (some (0, some p)) ∧
    pairingInit (t.toList ++ junk) t.toList.length = some (some (0, some p))

/-- Type A pairings set up with these parameters work on all elements that are made, and only the neutral elements pair to
1; and there are set-ups with a generator other than `O`. -/
def GoodA (q r h exp2 exp1 : ℕ) (sign1 : ℤ) : Prop :=
  r.Prime ∧ q + 1 = h * r ∧ ∃ _ : Fact q.Prime, ∀ nds nqr, genNqr (fpIsSqr q) nds = some nqr →
    (∃ draws G, Setup.typeA (fpIsSqr q) (fpSqrt q nqr) r h draws = some G ∧ G.gen.inf = false) ∧
    ∀ draws G, Setup.typeA (fpIsSqr q) (fpSqrt q nqr) r h draws = some G → ∀ sgn,
      Works (ops (Sampled (fpIsSqr q) (fpSqrt q nqr) sgn G) G.a) (ops (Sampled (fpIsSqr q) (fpSqrt q nqr) sgn G) G.a)
        (PairingA.pairingApply (PairingA.pairingProj (·⁻¹) ⟨exp2, exp1, sign1, h⟩)) (Quad.alg (-1)) r ∧
      ∀ p p', Made (Sampled (fpIsSqr q) (fpSqrt q nqr) sgn G) G.a p → Made (Sampled (fpIsSqr q) (fpSqrt q nqr) sgn G) G.a p' →
        (PairingA.pairingApply (PairingA.pairingProj (·⁻¹) ⟨exp2, exp1, sign1, h⟩) p p' = some PairingA.one2 ↔
          p.inf = true ∨ p'.inf = true)

/-- Type D with `k = 6`: the curve has `n = h r` points, `r` is prime, the polynomial for the field of `q³` elements is
irreducible, `nqr` is not a square in this field; and with any implementation of the field, pairings that are set up work on
all elements that are made, every point of the first group other than `O` has a point with which it does not pair to 1, with
points of order `r` only `O` pairs to 1, elements of the second group compare as equal exactly if they pair to the same with
any (and every) element of the first group other than `O`, and there are set-ups whose generators do not pair to 1.  Over the field of `q⁶` elements the curve has `nk = hk r²` points. -/
def GoodD (q n h r a b nk hk c0 c1 c2 v : ℕ) : Prop :=
  r.Prime ∧ n = h * r ∧ nk = hk * r ^ 2 ∧ ∃ _ : Fact q.Prime, Nat.card (EC (a : ZMod q) b).Point = n ∧
    (∀ (L : Type) [Field L] [DecidableEq L] [Fintype L] [Algebra (ZMod q) L], Fintype.card L = q ^ 6 →
      Nat.card (EC (algebraMap (ZMod q) L a) (algebraMap (ZMod q) L b)).Point = nk) ∧
    Irreducible (X ^ 3 + (c2 : Polynomial (ZMod q)) * X ^ 2 + (c1 : Polynomial (ZMod q)) * X + (c0 : Polynomial (ZMod q))) ∧
    ∀ (K : Type) [Field K] [DecidableEq K] [Fintype K] [Algebra (ZMod q) K] (E : PairingD.Ext (ZMod q) K) (ξ : K),
      E.Ok ξ → E.d = 3 → Fintype.card K = q ^ 3 → ξ ^ 3 + c2 * ξ ^ 2 + c1 * ξ + c0 = 0 →
      ∃ _ : Fact (∀ s : K, s ^ 2 ≠ algebraMap (ZMod q) K v + 0 * s),
      ∀ nds nqr, genNqr (fpIsSqr q) nds = some nqr → ∀ isSqr (sq : K → K), Base isSqr sq →
        ((∀ y, isSqr (y ^ 2) = true) → ∃ draws draws₂ draws' G₁ G₂ p,
          Setup.typeD1 (fpIsSqr q) (fpSqrt q nqr) (a : ZMod q) b r h draws = some G₁ ∧
          Setup.typeD2 isSqr sq E q n r 3 (a : ZMod q) b v draws₂ draws' = some G₂ ∧
          PairingD.initD E q 6 r (a : ZMod q) b v = some p ∧ ∃ p₁ p₂ g,
            Setup.random (fpIsSqr q) (fpSqrt q nqr) G₁ [] 1 = some p₁ ∧ Setup.random isSqr sq G₂ [] 1 = some p₂ ∧
            PairingD.apply (PairingD.pairing p PairingD.millerAffine PairingD.tatepowerD) p₁ p₂ = some g ∧
            g ≠ PairingD.one2) ∧
        ∀ draws draws₂ draws' G₁ G₂, Setup.typeD1 (fpIsSqr q) (fpSqrt q nqr) (a : ZMod q) b r h draws = some G₁ →
          Setup.typeD2 isSqr sq E q n r 3 (a : ZMod q) b v draws₂ draws' = some G₂ → ∀ sgn₁ sgn₂,
          ∃ p, PairingD.initD E q 6 r (a : ZMod q) b v = some p ∧
            Works (ops (Sampled (fpIsSqr q) (fpSqrt q nqr) sgn₁ G₁) G₁.a) (ops (Sampled isSqr sq sgn₂ G₂) G₂.a)
              (PairingD.apply (PairingD.pairing p PairingD.millerAffine PairingD.tatepowerD))
              (Quad.alg (algebraMap (ZMod q) K v)) r ∧
            (∀ p', Made (Sampled (fpIsSqr q) (fpSqrt q nqr) sgn₁ G₁) G₁.a p' → p'.inf = false →
              ∃ q', Spec.OnCurve (algebraMap (ZMod q) K v ^ 2 * algebraMap (ZMod q) K a)
                  (algebraMap (ZMod q) K v ^ 3 * algebraMap (ZMod q) K b) q' ∧
                ∃ g, PairingD.apply (PairingD.pairing p PairingD.millerAffine PairingD.tatepowerD) p' q' = some g ∧
                  g ≠ PairingD.one2) ∧
            (∀ p', Made (Sampled (fpIsSqr q) (fpSqrt q nqr) sgn₁ G₁) G₁.a p' →
              ∀ q', Spec.InGroup (algebraMap (ZMod q) K v ^ 2 * algebraMap (ZMod q) K a)
                (algebraMap (ZMod q) K v ^ 3 * algebraMap (ZMod q) K b) r q' →
              (PairingD.apply (PairingD.pairing p PairingD.millerAffine PairingD.tatepowerD) p' q' = some PairingD.one2 ↔
                p'.inf = true ∨ q'.inf = true)) ∧
            ∀ p', Made (Sampled (fpIsSqr q) (fpSqrt q nqr) sgn₁ G₁) G₁.a p' → p'.inf = false → ∀ (m : Curve.Mem K) i j,
              Made (Sampled isSqr sq sgn₂ G₂) G₂.a (m i) → Made (Sampled isSqr sq sgn₂ G₂) G₂.a (m j) →
              (PairingD.apply (PairingD.pairing p PairingD.millerAffine PairingD.tatepowerD) p' (m i) =
                PairingD.apply (PairingD.pairing p PairingD.millerAffine PairingD.tatepowerD) p' (m j) ↔
                Curve.cmp G₂.a G₂.quotient m i j = some false)

/-! ## Fields -/

theorem exists_field_of {K : Type} [Field K] [Fintype K] {f : Polynomial K} (hirr : Irreducible f) :
    ∃ (L : Type) (_ : Field L) (_ : DecidableEq L) (_ : Fintype L) (_ : Algebra K L) (E : PairingD.Ext K L) (ξ : L),
      E.Ok ξ ∧ E.d = f.natDegree ∧ Fintype.card L = Fintype.card K ^ f.natDegree ∧ Polynomial.aeval ξ f = 0 := by
  classical
  have hfact : Fact (Irreducible f) := ⟨hirr⟩
  have h0 : f ≠ 0 := hirr.ne_zero
  have hfr : Module.finrank K (AdjoinRoot f) = f.natDegree := by
    rw [(AdjoinRoot.powerBasis h0).finrank, AdjoinRoot.powerBasis_dim]
  have hfd : FiniteDimensional K (AdjoinRoot f) := Module.finite_of_finrank_pos (by rw [hfr]; exact hirr.natDegree_pos)
  have hfin : Finite (AdjoinRoot f) := Module.finite_of_finite K
  have hft := Fintype.ofFinite (AdjoinRoot f)
  obtain ⟨E, hE, hd⟩ := PairingF.exists_ext_gen (AdjoinRoot.root f) AdjoinRoot.adjoinRoot_eq_top
  refine ⟨_, inferInstance, Classical.decEq _, hft, inferInstance, E, _, hE, hd.trans hfr, ?_, ?_⟩
  · have := Module.natCard_eq_pow_finrank (K := K) (V := AdjoinRoot f)
    rwa [hfr, Nat.card_eq_fintype_card, Nat.card_eq_fintype_card] at this
  · rw [AdjoinRoot.aeval_eq, AdjoinRoot.mk_self]

/-- There is a field as `GoodD` asks for. -/
theorem GoodD.field {q n h r a b nk hk c0 c1 c2 v : ℕ} (H : GoodD q n h r a b nk hk c0 c1 c2 v) :
    ∃ _ : Fact q.Prime, ∃ (K : Type) (_ : Field K) (_ : DecidableEq K) (_ : Fintype K) (_ : Algebra (ZMod q) K)
      (E : PairingD.Ext (ZMod q) K) (ξ : K),
      E.Ok ξ ∧ E.d = 3 ∧ Fintype.card K = q ^ 3 ∧ ξ ^ 3 + c2 * ξ ^ 2 + c1 * ξ + c0 = 0 := by
  obtain ⟨-, -, -, i1, -, -, hirr, -⟩ := H
  obtain ⟨K, j1, j2, j3, j4, E, ξ, hok, hd, hc, hξ⟩ := exists_field_of hirr
  have hdeg : (X ^ 3 + (c2 : Polynomial (ZMod q)) * X ^ 2 + (c1 : Polynomial (ZMod q)) * X +
      (c0 : Polynomial (ZMod q))).natDegree = 3 := by
    rw [← Polynomial.C_eq_natCast, ← Polynomial.C_eq_natCast, ← Polynomial.C_eq_natCast]
    compute_degree!
  rw [hdeg] at hd hc
  refine ⟨i1, K, j1, j2, j3, j4, E, ξ, hok, hd, by rw [hc, ZMod.card], ?_⟩
  simpa using hξ

/-! ## Reading -/

theorem reads {t : String} {l : List Char} (e : t.toList = l) {p : Par} (h : checkText (pairUp (wordsOf l)) l p = true)
    (hs : Sane p) : Reads t p := by
  intro junk
  rw [e]
  exact (C106_read (checkText_sound h).1 (checkText_sound h).2 hs junk).2.2

theorem a_reads : Reads aText aPar := reads a_chars a_check (by simp [Sane, aPar])
theorem a1_reads : Reads a1Text a1Par := reads a1_chars a1_check (by simp [Sane, a1Par])
theorem e_reads : Reads eText ePar := reads e_chars e_check (by simp [Sane, ePar])
theorem f_reads : Reads fText fPar := reads f_chars f_check trivial
theorem g149_reads : Reads g149Text g149Par := reads g149_chars g149_check trivial
theorem i_reads : Reads iText iPar := reads i_chars i_check (by simp [Sane, iPar])
theorem d159_reads : Reads d159Text d159Par := reads d159_chars d159_check (by simp [Sane, d159Par])
theorem d201_reads : Reads d201Text d201Par := reads d201_chars d201_check (by simp [Sane, d201Par])
theorem d224_reads : Reads d224Text d224Par := reads d224_chars d224_check (by simp [Sane, d224Par])
theorem d105171_reads : Reads d105171Text d105171Par := reads d105171_chars d105171_check (by simp [Sane, d105171Par])
theorem d277699_reads : Reads d277699Text d277699Par := reads d277699_chars d277699_check (by simp [Sane, d277699Par])
theorem d278027_reads : Reads d278027Text d278027Par := reads d278027_chars d278027_check (by simp [Sane, d278027Par])

/-! ## Type A -/

theorem goodA {q r h exp2 exp1 : ℕ} {sign1 : ℤ} (hq : q.Prime) (hr : r.Prime) (hc : q + 1 = h * r)
    (hv : PairingA.ValidA ⟨exp2, exp1, sign1, h⟩ r) (h4 : 4 ∣ q + 1) (hh : ¬ r ∣ h) : GoodA q r h exp2 exp1 sign1 := by
  have i1 : Fact q.Prime := ⟨hq⟩
  have i2 : Fact (∀ x : ZMod q, x ^ 2 ≠ -1 + 0 * x) := ⟨ParamGen.neg_one_nonsquare h4⟩
  have ht : PairingA.TypeA (ZMod q) ⟨exp2, exp1, sign1, h⟩ r (·⁻¹) := ⟨hv, hr, by rw [ZMod.card]; exact hc, fun _ _ => rfl⟩
  have h2 : q ≠ 2 := by rintro rfl; omega
  refine ⟨hr, hc, i1, fun nds nqr hn => ?_⟩
  obtain ⟨hba, -⟩ := fp_base h2 hn
  refine ⟨?_, fun draws G hi sgn => ⟨typeA_works ht hba hi, fun p p' hp hp' => ?_⟩⟩
  · have hs : ∀ y : ZMod q, fpIsSqr q (y ^ 2) = true := fun y => (fpIsSqr_iff _).2 ⟨y, sq y⟩
    have hr' : Fact r.Prime := ⟨hr⟩
    have hcard : Nat.card (EC (1 : ZMod q) 0).Point = h * r := by
      rw [Tate.card_typeA (fun z hz => i2.out z (by rw [hz]; ring))]
      exact ht.cof
    obtain ⟨S, hS⟩ := exists_prime_addOrderOf_dvd_card' r (hcard ▸ dvd_mul_left _ _)
    have hhS : h • S ≠ 0 := by
      rw [Ne, ← addOrderOf_dvd_iff_nsmul_eq_zero, hS]
      exact hh
    have hS0 : S ≠ 0 := by rintro rfl; exact hhS (nsmul_zero _)
    obtain ⟨draws, G, R, hi, -, hRS, hg, -⟩ := init_starts (r := r) (h := h) hba hS0 hs
    have hhR : h • R ≠ 0 := by
      rcases hRS with rfl | rfl
      · exact hhS
      · rwa [smul_neg, neg_ne_zero]
    refine ⟨draws, G, hi, ?_⟩
    by_contra hc
    exact hhR ((Props.rep_inf hg).1 (by simpa using hc))
  · have hsd := (Setup.initCurve_sound hba (Setup.typeA_disc hba.two) hi).1
    have hin : ∀ p, Sampled (fpIsSqr q) (fpSqrt q nqr) sgn G p →
        ∃ P ∈ Spec.tors (A := (EC (1 : ZMod q) 0).Point) r, PtRep p P := fun p hp => by
      obtain ⟨P, h1, h2⟩ := Setup.C120_typeA ht hba hi hp
      exact ⟨P, h2, h1⟩
    obtain ⟨P, hP, hp⟩ := made_mem' hsd.ha hba.two _ hin hp
    obtain ⟨Q, hQ, hq⟩ := made_mem' hsd.ha hba.two _ hin hp'
    exact NonDeg.C107_typeA ht hh hp hq hP hQ

/-! ## Type D -/

theorem nonsquare_of {q v d : ℕ} [hp : Fact q.Prime] (hv : (v : ZMod q) ^ ((q - 1) / 2) = -1) (h2 : q ≠ 2) (hd : Odd d)
    {K : Type*} [Field K] [Fintype K] [Algebra (ZMod q) K] (hK : Fintype.card K = q ^ d) :
    ∀ s : K, s ^ 2 ≠ algebraMap (ZMod q) K v + 0 * s := by
  intro s hs
  rw [zero_mul, add_zero] at hs
  have hodd : Odd q := hp.out.odd_of_ne_two h2
  obtain ⟨m, hm⟩ := hodd
  have hv0 : (v : ZMod q) ≠ 0 := fun h0 => by
    rw [h0, zero_pow (by have := hp.out.two_le; omega)] at hv
    exact one_ne_zero (α := ZMod q) (by linear_combination hv)
  have hs0 : s ≠ 0 := fun h0 => by
    rw [h0, zero_pow (by norm_num)] at hs
    exact hv0 ((algebraMap (ZMod q) K).injective (by rw [← hs, map_zero]))
  have h1 := FiniteField.pow_card_sub_one_eq_one s hs0
  rw [hK] at h1
  -- `q^d - 1 = (q - 1) t` with `t` odd
  have ht := geom_sum_mul_add (2 * m) d
  rw [← hm] at ht
  set t := ∑ i ∈ Finset.range d, q ^ i with htd
  have htodd : Odd t := by
    have : ∀ d, (∑ i ∈ Finset.range d, q ^ i) % 2 = d % 2 := fun d => by
      induction d with
      | zero => rfl
      | succ d ih =>
        have : q ^ d % 2 = 1 := by rw [Nat.pow_mod, show q % 2 = 1 by omega, one_pow]; rfl
        rw [Finset.sum_range_succ]
        omega
    rw [Nat.odd_iff, htd, this, ← Nat.odd_iff]
    exact hd
  have h3 : (algebraMap (ZMod q) K v) ^ (m * t) = 1 := by
    rw [← hs, ← pow_mul, show 2 * (m * t) = q ^ d - 1 by rw [← ht, Nat.add_sub_cancel]; ring, h1]
  rw [pow_mul, ← map_pow, show m = (q - 1) / 2 by omega, hv, map_neg, map_one, htodd.neg_one_pow] at h3
  have : (2 : ZMod q) = 0 := (algebraMap (ZMod q) K).injective (by
    rw [map_ofNat, map_zero]; linear_combination -h3)
  have h2' := (ZMod.natCast_eq_zero_iff 2 q).1 (by exact_mod_cast this)
  exact h2 ((Nat.prime_dvd_prime_iff_eq hp.out Nat.prime_two).1 h2')

/-- The numbers `n = h r` and `q` with a point `(x, y)` of order `r`. -/
def checkCurve (q a b h r x y kq kr : ℕ) [Fact q.Prime] : Bool :=
  16 * q < r ^ 2 && ((h * r : ℕ) - (q + 1) : ℤ) ^ 2 ≤ 4 * q && (4 * a ^ 3 + 27 * b ^ 2) % q ≠ 0 &&
    y * y % q = (x ^ 3 + a * x + b) % q && (zmodArith q kq).checkOrder a (x, y) kr r

theorem card_of {q a b h r x y kq kr : ℕ} [hp : Fact q.Prime] (h2 : q ≠ 2) (hr : r.Prime)
    (hc : checkCurve q a b h r x y kq kr = true) :
    (4 * (a : ZMod q) ^ 3 + 27 * (b : ZMod q) ^ 2) ≠ 0 ∧ Nat.card (EC (a : ZMod q) b).Point = h * r := by
  simp only [checkCurve, Bool.and_eq_true, decide_eq_true_eq] at hc
  obtain ⟨⟨⟨⟨hbig, hint⟩, hD⟩, he⟩, ho⟩ := hc
  have h20 : (2 : ZMod q) ≠ 0 := fun h0 => h2 ((Nat.prime_dvd_prime_iff_eq hp.out Nat.prime_two).1
    ((ZMod.natCast_eq_zero_iff 2 q).1 (by exact_mod_cast h0)))
  have hD' : (4 * (a : ZMod q) ^ 3 + 27 * (b : ZMod q) ^ 2) ≠ 0 := fun h0 => hD (Nat.mod_eq_zero_of_dvd
    ((ZMod.natCast_eq_zero_iff _ q).1 (by push_cast; exact h0)))
  have he' : (y : ZMod q) ^ 2 = (x : ZMod q) ^ 3 + a * x + b := by
    have := (ZMod.natCast_eq_natCast_iff' _ _ q).2 he
    push_cast at this
    rw [sq, this]
  have hn := Hasse.nonsing_of_disc h20 hD' _ _ he'
  obtain ⟨h1, h0⟩ := checkOrder_sound (A := zmodArith q kq) (a := (a : ZMod q)) (b := (b : ZMod q)) (ca := a) rfl
    (p := (x, y)) (P := .some (x : ZMod q) (y : ZMod q) hn) ⟨hn, rfl⟩ ho
  have hr' : Fact r.Prime := ⟨hr⟩
  have hdvd : r ∣ Nat.card (EC (a : ZMod q) b).Point := by
    rw [← addOrderOf_eq_prime h1 h0]
    exact addOrderOf_dvd_natCard _
  refine ⟨hD', ?_⟩
  have hH := Props.C123_interval h20 hD'
  rw [ZMod.card] at hH
  have := Props.interval_unique (q := q) (r := r) (by positivity) (by exact_mod_cast hbig) hH hint
    (by exact_mod_cast hdvd) (by push_cast; exact dvd_mul_left _ _)
  exact_mod_cast this

theorem goodD {q n h r a b nk hk c0 c1 c2 v : ℕ} (hq : q.Prime) (hr : r.Prime) (hn : n = h * r) (h6 : 61 < q)
    (hdv : r ∣ q ^ 2 - q + 1) (hh : ¬ r ∣ h) (hquo : ¬ r ∣ (PairingD.quotient q n r 3).1.natAbs)
    (hD : ∀ _ : Fact q.Prime, (4 * (a : ZMod q) ^ 3 + 27 * (b : ZMod q) ^ 2) ≠ 0)
    (hcard : ∀ _ : Fact q.Prime, Nat.card (EC (a : ZMod q) b).Point = h * r)
    (hirr : ∀ _ : Fact q.Prime, Irreducible (X ^ 3 + (c2 : Polynomial (ZMod q)) * X ^ 2 + (c1 : Polynomial (ZMod q)) * X +
      (c0 : Polynomial (ZMod q))))
    (hv : ∀ _ : Fact q.Prime, (v : ZMod q) ^ ((q - 1) / 2) = -1) (h3r : 3 ≤ r)
    (hnk0 : nk = hk * r ^ 2) (hnk : Curve.orderExtn q (q + 1 - n) 6 = nk) : GoodD q n h r a b nk hk c0 c1 c2 v := by
  have i1 : Fact q.Prime := ⟨hq⟩
  have h20 : (2 : ZMod q) ≠ 0 := fun h0 => by
    have := (Nat.prime_dvd_prime_iff_eq hq Nat.prime_two).1 ((ZMod.natCast_eq_zero_iff 2 q).1 (by exact_mod_cast h0))
    omega
  refine ⟨hr, hn, hnk0, i1, by rw [hcard, hn], fun L _ _ _ _ hL => ?_, hirr i1, ?_⟩
  · have := Props.C40_points (K := L) h20 (hD i1) (k := 6) (by norm_num) (by rw [ZMod.card]; exact hL)
      (t := q + 1 - n) (by rw [ZMod.card, hcard, hn])
    rw [ZMod.card, hnk] at this
    exact_mod_cast this.symm
  intro K _ _ _ _ E ξ hok hd hK hξ
  have i2 : Fact (∀ s : K, s ^ 2 ≠ algebraMap (ZMod q) K v + 0 * s) := ⟨nonsquare_of (hv i1) (by omega) (by decide) hK⟩
  have hd6 : r ∣ q ^ 3 + 1 := hdv.trans ⟨q + 1, by
    have : q ≤ q ^ 2 := by nlinarith
    zify [this]; ring⟩
  have ht : PairingD.TypeD E ξ q 6 r := ⟨hok, ZMod.card q, by rw [hd]; exact hK, by rw [hd], hr, h3r, fun _ => hdv, by
    rw [hd]; exact hd6⟩
  have h30 : (3 : ZMod q) ≠ 0 := fun h0 => by
    have := (Nat.prime_dvd_prime_iff_eq hq Nat.prime_three).1 ((ZMod.natCast_eq_zero_iff 3 q).1 (by exact_mod_cast h0))
    omega
  have hQ : 61 < q ^ E.d := by
    rw [hd]
    calc 61 < q := h6
      _ = q ^ 1 := (pow_one q).symm
      _ ≤ q ^ 3 := Nat.pow_le_pow_right (by omega) (by norm_num)
  refine ⟨i2, fun nds nqr hnq isSqr sq' hb₂ => ?_⟩
  obtain ⟨hb₁, -⟩ := fp_base (show q ≠ 2 by omega) hnq
  have hs₁ : ∀ y : ZMod q, fpIsSqr q (y ^ 2) = true := fun y => (fpIsSqr_iff _).2 ⟨y, sq y⟩
  refine ⟨fun hs₂ => C121_typeD_starts ht h30 hQ (hD i1) (hcard i1) hh hb₁ hb₂ hs₁ hs₂, ?_⟩
  intro draws draws₂ draws' G₁ G₂ hi₁ hi₂ sgn₁ sgn₂
  obtain ⟨p, e, hw, -, hnd⟩ := C121_typeD_partial (sgn₁ := sgn₁) (sgn₂ := sgn₂) ht h30 hQ (hD i1) (hcard i1) hb₁ hb₂ hi₁ hi₂
  have hv0 : algebraMap (ZMod q) K v ≠ 0 := fun h0 => i2.out 0 (by rw [h0]; ring)
  have hs₁ := (Setup.initCurve_sound hb₁ (hD i1) hi₁).1
  have hs₂ := (Setup.typeD2_sound ht.ok hv0 (hD i1) hb₂ hi₂).1
  have hin : ∀ p, Sampled (fpIsSqr q) (fpSqrt q nqr) sgn₁ G₁ p →
      ∃ P ∈ Spec.tors (A := (EC (a : ZMod q) b).Point) r, PtRep p P := fun p hp => by
    obtain ⟨P, h1, h2⟩ := Setup.C120_typeD (hD i1) (hcard i1) hb₁ hi₁ hp
    exact ⟨P, h2, h1⟩
  have hin₂ : ∀ p, Sampled isSqr sq' sgn₂ G₂ p → ∃ P ∈ (⊤ : AddSubgroup (EC (algebraMap (ZMod q) K v ^ 2 * algebraMap (ZMod q) K a)
      (algebraMap (ZMod q) K v ^ 3 * algebraMap (ZMod q) K b)).Point), PtRep p P := fun p hp => by
    obtain ⟨P, h1⟩ := hs₂.sampled hb₂ (Setup.twist_disc hv0 (hD i1)) hp
    exact ⟨_, AddSubgroup.mem_top _, h1⟩
  have htw := (Props.C92_typeD_points (K := K) (hD i1) (Props.nonsq_iff.2 i2.out) (q := q) (n := n) (r := r) (d := 3) (by decide)
    (ZMod.card q) hK (by rw [hcard i1, hn]) (hn ▸ dvd_mul_left _ _) hd6).2
  refine ⟨p, e, hw, fun p' hp' hinf => ?_, fun p' hp' q' ⟨Q, hq, hrQ⟩ => ?_, fun p' hp' hinf m i j h₁ h₂ => ?_⟩
  · obtain ⟨Q, hQ'⟩ := hnd p' hp' hinf
    obtain ⟨q', hq'⟩ := PairingD.exists_rep Q
    exact ⟨q', (Props.onCurve_iff_rep hb₂.two (Setup.twist_disc hv0 (hD i1)) q').2 ⟨Q, hq'⟩, hQ' q' hq'⟩
  · obtain ⟨P, hP, hp⟩ := made_mem' hs₁.ha hb₁.two _ hin hp'
    exact NonDeg.C107_typeD_iff ht e h30 (hD i1) hQ htw hquo hp hq hP hrQ
  · obtain ⟨P, hP, hp⟩ := made_mem' hs₁.ha hb₁.two _ hin hp'
    obtain ⟨Q₁, -, hQ₁⟩ := made_mem' hs₂.ha hb₂.two _ hin₂ h₁
    obtain ⟨Q₂, -, hQ₂⟩ := made_mem' hs₂.ha hb₂.two _ hin₂ h₂
    rw [hs₂.ha, hs₂.hq]
    exact NonDeg.C107_cmp ht e h30 (hD i1) hQ htw ((hr.coprime_iff_not_dvd.2 hquo).symm) hQ₁ hQ₂ hp (fun h0 => by
      rw [(Props.rep_inf hp).2 h0] at hinf
      cases hinf) hP

/-- Everything about the numbers of type D, except that `q` and `r` are prime; `(x, y)` is a point of order `r`, and `w` an
inverse of `t^q - t` modulo the polynomial. -/
def checkD (q n h r a b nk hk c0 c1 c2 v x y kq kr : ℕ) (w : List ℕ) [Fact q.Prime] : Bool :=
  n = h * r && nk = hk * r ^ 2 && Curve.orderExtn q (q + 1 - n) 6 = nk && 61 < q && (q ^ 2 - q + 1) % r = 0 && h % r ≠ 0 &&
    (PairingD.quotient q n r 3).1.natAbs % r ≠ 0 && 3 ≤ r && checkCurve q a b h r x y kq kr &&
    c0 ≤ q && c1 ≤ q && c2 ≤ q && checkIrred q kq [q - c0, q - c1, q - c2] [w] && (q - 1) / 2 < 2 ^ kq &&
    powBy (fun x y => x * y % q) kq v ((q - 1) / 2) 1 = q - 1

theorem nqr_of {q v k : ℕ} [hp : Fact q.Prime] (h1 : (q - 1) / 2 < 2 ^ k)
    (h : powBy (fun x y => x * y % q) k v ((q - 1) / 2) 1 = q - 1) : (v : ZMod q) ^ ((q - 1) / 2) = -1 := by
  have := powBy_eq (fun x y => x * y % q) (fun x : ℕ => (x : ZMod q)) (fun x y => by
    rw [ZMod.natCast_mod, Nat.cast_mul]) k v ((q - 1) / 2) 1 h1
  rw [h, Nat.cast_one, one_mul, Nat.cast_sub hp.out.one_lt.le, ZMod.natCast_self, Nat.cast_one, zero_sub] at this
  exact this.symm

theorem goodD_of_check {q n h r a b nk hk c0 c1 c2 v x y kq kr : ℕ} {w : List ℕ} (hp : Fact q.Prime) (hr : r.Prime)
    (hc : checkD q n h r a b nk hk c0 c1 c2 v x y kq kr w = true) : GoodD q n h r a b nk hk c0 c1 c2 v := by
  simp only [checkD, Bool.and_eq_true, decide_eq_true_eq] at hc
  obtain ⟨⟨⟨⟨⟨⟨⟨⟨⟨⟨⟨⟨⟨⟨hn, hnk⟩, hnk'⟩, h6⟩, hdv⟩, hh⟩, hquo⟩, h3⟩, hcv⟩, l0⟩, l1⟩, l2⟩, hirr⟩, hk⟩, hv⟩ := hc
  obtain ⟨hD, hcard⟩ := card_of (by omega) hr hcv
  refine goodD hp.out hr hn h6 (Nat.dvd_of_mod_eq_zero hdv) (fun hd => hh (Nat.mod_eq_zero_of_dvd hd))
    (fun hd => hquo (Nat.mod_eq_zero_of_dvd hd)) (fun _ => hD)
    (fun _ => hcard) (fun _ => ?_) (fun _ => nqr_of hk hv) h3 hnk hnk'
  have := irreducible_of_check hirr
  rw [monicOf] at this
  convert this using 1
  have hc : ∀ c, c ≤ q → ((q - c : ℕ) : Polynomial (ZMod q)) = -c := fun c hc => by
    rw [Nat.cast_sub hc, CharP.cast_eq_zero, zero_sub]
  simp only [ev, List.length_cons, List.length_nil, hc _ l0, hc _ l1, hc _ l2]
  ring

end Pbc.Shipped
