import Verif.Props.Shipped

/-! # C140, type F: `f.param` -/

set_option autoImplicit false
set_option linter.style.longLine false

namespace Pbc.Shipped

open Pbc.Param Pbc.Certify
open Pbc.Curve (Pt)
open Pbc.CmGen (scalar genNqr)
open Pbc.Setup (Sampled SampledAvoiding Avoids Base Complete)
open Pbc.Session
open Spec (EC PtRep Works)

/-- Type F: `r` is prime, the curve has `r` points, `beta` is not a square, `x⁶ + alpha` is irreducible over the field of `q²`
elements, `r` divides the number of points of the twist over this field; and with any implementation of the field of `q^12`
elements pairings that are set up, without taking square roots of elements of the base field (C26), work on all elements that
are made in this way, and only the neutral elements pair to 1; and there are set-ups with elements other than `O` in both groups. -/
def GoodF (q r b beta alpha0 alpha1 : ℕ) : Prop :=
  r.Prime ∧ ∃ _ : Fact q.Prime, Nat.card (EC (0 : ZMod q) b).Point = r ∧
    ∃ _ : Fact (∀ s : ZMod q, s ^ 2 ≠ (beta : ZMod q) + 0 * s),
    Irreducible (Polynomial.X ^ 6 + Polynomial.C (⟨alpha0, alpha1⟩ : Fq2 q beta)) ∧
    r ∣ Nat.card (EC (0 : Fq2 q beta) (-(algebraMap (ZMod q) (Fq2 q beta) b * ⟨alpha0, alpha1⟩))).Point ∧
    ∀ (L : Type) [Field L] [DecidableEq L] [Fintype L] [Algebra (Fq2 q beta) L] (E12 : PairingD.Ext (Fq2 q beta) L) (ξ : L),
      E12.Ok ξ → E12.d = 6 → Fintype.card L = q ^ 12 → ξ ^ 6 + algebraMap _ L (⟨alpha0, alpha1⟩ : Fq2 q beta) = 0 →
      (∃ draws₁ G₁ draws₂ G₂, Setup.typeF1 (fpIsSqr q) (fpSqrt q beta) b r draws₁ = some G₁ ∧
        Avoids inBase 0 (-⟨alpha0, alpha1⟩ * algebraMap (ZMod q) (Fq2 q beta) b) draws₂ ∧
        Setup.typeF2 (fqIsSqr q beta) (fqSqrt q beta) (ext2 q beta) q r b alpha0 alpha1 draws₂ = some G₂ ∧
        ∃ p p', Setup.random (fpIsSqr q) (fpSqrt q beta) G₁ [] 1 = some p ∧ p.inf = false ∧
          Setup.random (fqIsSqr q beta) (fqSqrt q beta) G₂ [] 1 = some p' ∧ p'.inf = false) ∧
      ∀ draws₁ G₁ draws₂ G₂, Setup.typeF1 (fpIsSqr q) (fpSqrt q beta) b r draws₁ = some G₁ →
        Avoids inBase 0 (-⟨alpha0, alpha1⟩ * algebraMap (ZMod q) (Fq2 q beta) b) draws₂ →
        Setup.typeF2 (fqIsSqr q beta) (fqSqrt q beta) (ext2 q beta) q r b alpha0 alpha1 draws₂ = some G₂ → ∀ sgn₁ sgn₂,
        ∃ p, PairingF.init (ext2 q beta) E12 q r b alpha0 alpha1 = some p ∧
          Works (ops (Sampled (fpIsSqr q) (fpSqrt q beta) sgn₁ G₁) G₁.a)
            (ops (SampledAvoiding inBase (fqIsSqr q beta) (fqSqrt q beta) sgn₂ G₂) G₂.a)
            (PairingF.apply (PairingF.pairing p)) id r ∧
          ∀ p', Made (Sampled (fpIsSqr q) (fpSqrt q beta) sgn₁ G₁) G₁.a p' →
            ∀ q', Spec.InGroup (0 : Fq2 q beta) (-⟨alpha0, alpha1⟩ * algebraMap (ZMod q) (Fq2 q beta) b) r q' →
              (PairingF.apply (PairingF.pairing p) p' q' = some 1 ↔ p'.inf = true ∨ q'.inf = true)

/-- There is a field as `GoodF` asks for. -/
theorem GoodF.field {q r b beta alpha0 alpha1 : ℕ} (H : GoodF q r b beta alpha0 alpha1) :
    ∃ _ : Fact q.Prime, ∃ _ : Fact (∀ s : ZMod q, s ^ 2 ≠ (beta : ZMod q) + 0 * s),
      ∃ (L : Type) (_ : Field L) (_ : DecidableEq L) (_ : Fintype L) (_ : Algebra (Fq2 q beta) L)
        (E12 : PairingD.Ext (Fq2 q beta) L) (ξ : L), E12.Ok ξ ∧ E12.d = 6 ∧ Fintype.card L = q ^ 12 ∧
        ξ ^ 6 + algebraMap _ L (⟨alpha0, alpha1⟩ : Fq2 q beta) = 0 := by
  obtain ⟨-, i1, -, i2, hirr, -⟩ := H
  obtain ⟨L, j1, j2, j3, j4, E, ξ, hok, hd, hc, hξ⟩ := NonDeg.exists_field hirr
  exact ⟨i1, i2, L, j1, j2, j3, j4, E, ξ, hok, hd, by rw [hc, card_quad, ← pow_mul], hξ⟩

/-- Arithmetic in the field of `q²` elements, on pairs of natural numbers. -/
def quadArith (q β k : ℕ) [Fact q.Prime] [Fact (∀ s : ZMod q, s ^ 2 ≠ (β : ZMod q) + 0 * s)] : Arith (Fq2 q β) where
  C := ℕ × ℕ
  dec := inferInstance
  rep x := ⟨x.1, x.2⟩
  one := (1, 0)
  add x y := ((x.1 + y.1) % q, (x.2 + y.2) % q)
  neg x := ((q - x.1 % q) % q, (q - x.2 % q) % q)
  mul x y := ((x.1 * y.1 + β * (x.2 * y.2)) % q, (x.1 * y.2 + x.2 * y.1) % q)
  inv x :=
    let i := powBy (fun x y => x * y % q) k ((x.1 * x.1 + (q - β % q) * (x.2 * x.2)) % q) (q - 2) 1
    (x.1 * i % q, (q - x.2 % q) * i % q)
  rep_one := by
    rw [Nat.cast_one, Nat.cast_zero]
    rfl
  rep_add x y := by ext <;> simp
  rep_neg x := by
    have h : ∀ y : ℕ, ((q - y % q : ℕ) : ZMod q) = -y := fun y => by
      rw [Nat.cast_sub (Nat.mod_lt _ (Fact.out : q.Prime).pos).le, ZMod.natCast_self, ZMod.natCast_mod, zero_sub]
    ext <;> simp [h]
  rep_mul x y := by
    ext
    · simp
      ring
    · simp

/-- Everything about the numbers of type F, except that `q` and `r` are prime; `(px, py)` and `(qx, qy)` are points of order `r`
on the curve and its twist, `x` the argument at which the polynomials for `q` and `r` are evaluated. -/
def checkF1 (q r b beta px py kq kr : ℕ) (x : ℤ) [Fact q.Prime] : Bool :=
  x ≠ 0 && (q : ℤ) = Tate.bnQ x && (r : ℤ) = Tate.bnR x && 2 < q && b % q ≠ 0 && checkCurve q 0 b 1 r px py kq kr &&
    (q - 1) / 2 < 2 ^ kq && powBy (fun x y => x * y % q) kq beta ((q - 1) / 2) 1 = q - 1

/-- See `checkF1`. -/
def checkF2 (q r b beta alpha0 alpha1 kq kr : ℕ) (qx qy : ℕ × ℕ) [Fact q.Prime]
    [Fact (∀ s : ZMod q, s ^ 2 ≠ (beta : ZMod q) + 0 * s)] : Bool :=
  let A := quadArith q beta kq
  let na : ℕ × ℕ := ((q - alpha0 % q) % q, (q - alpha1 % q) % q)
  let bt : ℕ × ℕ := A.mul ((b, 0) : ℕ × ℕ) na
  let z2 : ℕ × ℕ := powBy A.mul (2 * kq) na ((q ^ 2 - 1) / 2) A.one
  let z3 : ℕ × ℕ := powBy A.mul (2 * kq) na ((q ^ 2 - 1) / 3) A.one
  (q ^ 2 - 1) % 6 = 0 && q < 2 ^ kq && alpha1 % q ≠ 0 && (z2.1 % q ≠ 1 || z2.2 % q ≠ 0) && (z3.1 % q ≠ 1 || z3.2 % q ≠ 0) &&
    A.mul qy qy = A.add (A.mul (A.mul qx qx) qx) bt && A.checkOrder (0, 0) (qx, qy) kr r

theorem quad_rep_ne {q β k : ℕ} [hp : Fact q.Prime] [Fact (∀ s : ZMod q, s ^ 2 ≠ (β : ZMod q) + 0 * s)] {z : ℕ × ℕ}
    (h : z.1 % q ≠ 1 ∨ z.2 % q ≠ 0) : (quadArith q β k).rep z ≠ 1 := by
  intro h1
  have h1 : (⟨z.1, z.2⟩ : Fq2 q β) = ⟨1, 0⟩ := h1
  injection h1 with h2 h3
  rcases h with h | h
  · refine h ?_
    rw [← Nat.mod_eq_of_lt hp.out.one_lt]
    exact (ZMod.natCast_eq_natCast_iff' _ _ q).1 (by rw [h2, Nat.cast_one])
  · exact h (Nat.mod_eq_zero_of_dvd ((ZMod.natCast_eq_zero_iff _ q).1 h3))

theorem not_power_of {K : Type*} [Field K] [Fintype K] {a : K} {m : ℕ} (hm : m ∣ Fintype.card K - 1) (hm0 : m ≠ 0) (ha : a ≠ 0)
    (h : a ^ ((Fintype.card K - 1) / m) ≠ 1) (c : K) : c ^ m ≠ a := by
  rintro rfl
  have hc : c ≠ 0 := fun h0 => ha (by rw [h0, zero_pow hm0])
  rw [← pow_mul, Nat.mul_div_cancel' hm] at h
  exact h (FiniteField.pow_card_sub_one_eq_one c hc)

theorem goodF1 {q r b beta px py kq kr : ℕ} {x : ℤ} [hp : Fact q.Prime] (hr : r.Prime)
    (hc : checkF1 q r b beta px py kq kr x = true) :
    (x ≠ 0 ∧ (q : ℤ) = Tate.bnQ x ∧ (r : ℤ) = Tate.bnR x ∧ q ≠ 2 ∧ (b : ZMod q) ≠ 0) ∧
      Nat.card (EC (0 : ZMod q) b).Point = r ∧ ∀ s : ZMod q, s ^ 2 ≠ (beta : ZMod q) + 0 * s := by
  simp only [checkF1, Bool.and_eq_true, decide_eq_true_eq] at hc
  obtain ⟨⟨⟨⟨⟨⟨⟨h1, h2⟩, h3⟩, h4⟩, h5⟩, h6⟩, h7⟩, h8⟩ := hc
  have hcard := (card_of (by omega) hr h6).2
  rw [Nat.cast_zero, one_mul] at hcard
  refine ⟨⟨h1, h2, h3, by omega, fun h0 => h5 (Nat.mod_eq_zero_of_dvd ((ZMod.natCast_eq_zero_iff _ q).1 h0))⟩, hcard, ?_⟩
  have := nonsquare_of (nqr_of h7 h8) (show q ≠ 2 by omega) odd_one (K := ZMod q) (by rw [ZMod.card, pow_one])
  simpa using this

theorem goodF2 {q r b beta alpha0 alpha1 kq kr : ℕ} {qx qy : ℕ × ℕ} [hp : Fact q.Prime]
    [Fact (∀ s : ZMod q, s ^ 2 ≠ (beta : ZMod q) + 0 * s)] (h2 : q ≠ 2) (hb : (b : ZMod q) ≠ 0) (hr : r.Prime)
    (hc : checkF2 q r b beta alpha0 alpha1 kq kr qx qy = true) :
    Irreducible (Polynomial.X ^ 6 + Polynomial.C (⟨alpha0, alpha1⟩ : Fq2 q beta)) ∧
    r ∣ Nat.card (EC (0 : Fq2 q beta) (-(algebraMap (ZMod q) (Fq2 q beta) b * ⟨alpha0, alpha1⟩))).Point := by
  simp only [checkF2, Bool.and_eq_true, Bool.or_eq_true, decide_eq_true_eq] at hc
  obtain ⟨⟨⟨⟨⟨⟨h6, hk⟩, hα⟩, hz2⟩, hz3⟩, he⟩, ho⟩ := hc
  set A := quadArith q beta kq with hA
  set α : Fq2 q beta := ⟨alpha0, alpha1⟩ with hαd
  have hc : Fintype.card (Fq2 q beta) = q ^ 2 := card_quad
  have hna : A.rep ((q - alpha0 % q) % q, (q - alpha1 % q) % q) = -α := A.rep_neg (alpha0, alpha1)
  have hα0 : -α ≠ 0 := fun h0 => hα (Nat.mod_eq_zero_of_dvd ((ZMod.natCast_eq_zero_iff _ q).1
    (congrArg QuadraticAlgebra.im (neg_eq_zero.1 h0))))
  have hpow : ∀ m, 1 ≤ m → A.rep (powBy A.mul (2 * kq) ((q - alpha0 % q) % q, (q - alpha1 % q) % q) ((q ^ 2 - 1) / m) A.one) =
      (-α) ^ ((Fintype.card (Fq2 q beta) - 1) / m) := fun m hm => by
    have : q ^ 2 < 2 ^ (2 * kq) := by
      rw [mul_comm, pow_mul]
      exact Nat.pow_lt_pow_left hk (by norm_num)
    refine (powBy_eq A.mul A.rep A.rep_mul _ _ _ _ (((Nat.div_le_self _ _).trans (Nat.sub_le _ _)).trans_lt this)).trans ?_
    rw [A.rep_one, one_mul, hc]
    exact congrArg (· ^ _) hna
  have d6 : 6 ∣ Fintype.card (Fq2 q beta) - 1 := by rw [hc]; exact Nat.dvd_of_mod_eq_zero h6
  refine ⟨?_, ?_⟩
  · have := Props.irreducible_of_not_power
      (not_power_of (a := -α) (m := 2) (dvd_trans (by norm_num) d6) (by norm_num) hα0 (by
        rw [← hpow 2 (by norm_num)]; exact quad_rep_ne hz2))
      (not_power_of (a := -α) (m := 3) (dvd_trans (by norm_num) d6) (by norm_num) hα0 (by
        rw [← hpow 3 (by norm_num)]; exact quad_rep_ne hz3))
    rwa [map_neg, sub_neg_eq_add] at this
  · have hb1 : A.rep ((b, 0) : ℕ × ℕ) = algebraMap (ZMod q) (Fq2 q beta) b := by
      ext
      · rfl
      · exact Nat.cast_zero
    have hbt : A.rep (A.mul ((b, 0) : ℕ × ℕ) ((q - alpha0 % q) % q, (q - alpha1 % q) % q)) =
        -(algebraMap (ZMod q) (Fq2 q beta) b * α) := by
      refine (A.rep_mul _ _).trans ?_
      rw [← mul_neg]
      exact congrArg₂ (· * ·) hb1 hna
    have hq0 : ∀ n : ℕ, n ≠ 0 → n < q → (n : Fq2 q beta) ≠ 0 := fun n hn hlt h0 => by
      have h1 : (n : ZMod q) = 0 := by
        refine (map_eq_zero (algebraMap (ZMod q) (Fq2 q beta))).1 ?_
        rw [map_natCast]
        exact h0
      exact absurd (Nat.le_of_dvd (by omega) ((ZMod.natCast_eq_zero_iff _ q).1 h1)) (by omega)
    have hq3 : 3 < q := by
      have := hp.out.two_le
      by_contra hlt
      obtain rfl : q = 3 := by omega
      omega
    have h20 : (2 : Fq2 q beta) ≠ 0 := by exact_mod_cast hq0 2 (by norm_num) (by omega)
    have h30 : (3 : Fq2 q beta) ≠ 0 := by exact_mod_cast hq0 3 (by norm_num) (by omega)
    have hB : -(algebraMap (ZMod q) (Fq2 q beta) b * α) ≠ 0 := by
      rw [← mul_neg]
      exact mul_ne_zero (fun h0 => hb ((map_eq_zero _).1 h0)) hα0
    have he' : A.rep qy ^ 2 = A.rep qx ^ 3 + 0 * A.rep qx + -(algebraMap (ZMod q) (Fq2 q beta) b * α) := by
      have h1 : A.rep qy * A.rep qy = A.rep qx * A.rep qx * A.rep qx + -(algebraMap (ZMod q) (Fq2 q beta) b * α) := by
        refine (A.rep_mul _ _).symm.trans ((congrArg A.rep he).trans ((A.rep_add _ _).trans ?_))
        exact congrArg₂ (· + ·) ((A.rep_mul _ _).trans (congrArg (· * _) (A.rep_mul _ _))) hbt
      linear_combination h1
    have hn := Hasse.nonsing_of_disc h20 (by
      rw [show (4 * 0 ^ 3 + 27 * (-(algebraMap (ZMod q) (Fq2 q beta) b * α)) ^ 2 : Fq2 q beta) =
        3 ^ 3 * (-(algebraMap (ZMod q) (Fq2 q beta) b * α)) ^ 2 by ring]
      exact mul_ne_zero (pow_ne_zero _ h30) (pow_ne_zero _ hB)) _ _ he'
    obtain ⟨h1, h0⟩ := checkOrder_sound (A := A) (a := (0 : Fq2 q beta)) (ca := ((0, 0) : ℕ × ℕ)) (by
        ext
        · exact Nat.cast_zero
        · exact Nat.cast_zero)
      (p := (qx, qy)) (P := .some (A.rep qx) (A.rep qy) hn) ⟨hn, rfl⟩ ho
    have hr' : Fact r.Prime := ⟨hr⟩
    rw [← addOrderOf_eq_prime h1 h0]
    exact addOrderOf_dvd_natCard _

theorem goodF {q r b beta alpha0 alpha1 : ℕ} {x : ℤ} [i1 : Fact q.Prime] (pr : r.Prime) (hx : x ≠ 0) (eq : (q : ℤ) = Tate.bnQ x)
    (er : (r : ℤ) = Tate.bnR x) (h2 : q ≠ 2) (hb0 : (b : ZMod q) ≠ 0) (hN : Nat.card (EC (0 : ZMod q) b).Point = r)
    (hfn : Fact (∀ s : ZMod q, s ^ 2 ≠ (beta : ZMod q) + 0 * s))
    (hirr : Irreducible (Polynomial.X ^ 6 + Polynomial.C (⟨alpha0, alpha1⟩ : Fq2 q beta)))
    (hT : r ∣ Nat.card (EC (0 : Fq2 q beta) (-(algebraMap (ZMod q) (Fq2 q beta) b * ⟨alpha0, alpha1⟩))).Point) :
    GoodF q r b beta alpha0 alpha1 := by
  have hns : ¬ IsSquare (beta : ZMod q) := by
    rintro ⟨s, hs⟩
    exact hfn.out s (by rw [hs]; ring)
  have hn : genNqr (fpIsSqr q) [(beta : ZMod q)] = some (beta : ZMod q) := by
    rw [genNqr, if_neg (fun h => hns ((fpIsSqr_iff _).1 h))]
  obtain ⟨hba, -⟩ := fp_base h2 hn
  have hbK := fq_base h2 hn
  refine ⟨pr, i1, hN, hfn, hirr, hT, ?_⟩
  intro L _ _ _ _ E12 ξ hok hd hcL hξ
  obtain ⟨ht, hfam⟩ := typeF_of (α' := (⟨alpha0, alpha1⟩ : Fq2 q beta)) hx eq er pr hb0 hN hT hok hd hcL hξ
  have hna := nalpha_quad (⟨alpha0, alpha1⟩ : Fq2 q beta)
  refine ⟨?_, ?_⟩
  · have i2 : Fact r.Prime := ⟨pr⟩
    obtain ⟨S, hS⟩ := exists_prime_addOrderOf_dvd_card' (G := (EC (0 : ZMod q) b).Point) r (by rw [hN])
    obtain ⟨draws₁, G₁, p, hi₁, hp, hp0⟩ : ∃ draws₁ G₁ p, Setup.typeF1 (fpIsSqr q) (fpSqrt q beta) (b : ZMod q) r draws₁ = some G₁ ∧
        Setup.random (fpIsSqr q) (fpSqrt q beta) G₁ [] 1 = some p ∧ p.inf = false := by
      cases S with
      | zero =>
        rw [show (WeierstrassCurve.Affine.Point.zero : (EC (0 : ZMod q) b).Point) = 0 from rfl, addOrderOf_zero] at hS
        exact absurd hS pr.one_lt.ne
      | some x y hns =>
        obtain ⟨g, R, e, hR, hc⟩ := Setup.exists_draw hba hns ((fpIsSqr_iff _).2 ⟨y, sq y⟩)
        have hi : Setup.typeF1 (fpIsSqr q) (fpSqrt q beta) (b : ZMod q) r [x] = some ⟨0, b, r, none, g, g, none, false⟩ := by
          rw [Setup.typeF1, Setup.initCurve, Setup.generators, e]
        obtain ⟨p, ep, hp⟩ := random_one (isSqr := fpIsSqr q) (sq := fpSqrt q beta)
          (G := ⟨0, b, r, none, g, g, none, false⟩) hba.two rfl rfl hR
        refine ⟨_, _, p, hi, ep, ?_⟩
        rw [Bool.eq_false_iff, Ne, Props.rep_inf hp]
        rcases hc with rfl | rfl
        · exact WeierstrassCurve.Affine.Point.some_ne_zero hns
        · rw [neg_eq_zero]; exact WeierstrassCurve.Affine.Point.some_ne_zero hns
    let _ : Algebra (ZMod q) L := ((algebraMap (Fq2 q beta) L).comp (algebraMap (ZMod q) (Fq2 q beta))).toAlgebra
    have : IsScalarTower (ZMod q) (Fq2 q beta) L := IsScalarTower.of_algebraMap_eq fun _ => rfl
    obtain ⟨draws₂, G₂, q', p'', ha₂, hi₂, hq', hp'', hinf⟩ := Setup.C120_typeF_G2_fails (bad := inBase) ht hfam hbK
      (fun a _ => (fqIsSqr_iff hns _).2 ⟨a, sq a⟩) fun u hu => (inBase_iff u).1 hu
    rw [hna] at ha₂
    refine ⟨draws₁, G₁, draws₂, G₂, hi₁, ha₂, hi₂, p, q', hp, hp0, hq', ?_⟩
    rw [Bool.eq_false_iff]
    intro hqi
    have hz : PtRep q' (0 : (EC G₂.a 0).Point) := hqi
    obtain ⟨p₃, e₃, h₃⟩ := Props.scalar_spec hbK.two hz G₂.order
    obtain rfl := Option.some.inj (hp''.symm.trans e₃)
    rw [nsmul_zero] at h₃
    rw [(Props.rep_inf h₃).2 rfl] at hinf
    cases hinf
  · intro draws₁ G₁ draws₂ G₂ hi₁ ha₂ hi₂ sgn₁ sgn₂
    have := typeF_works (sgn₁ := sgn₁) (sgn₂ := sgn₂) ht hfam hba hbK (by rw [hna]; exact ha₂) hi₁ hi₂
    rw [hna] at this
    obtain ⟨p, h1, h2, h3⟩ := this
    exact ⟨p, h1, h2, fun p' hp' q' ⟨Q, hQ, hr⟩ => h3 p' hp' Q q' hQ hr⟩

/-! ## The file -/

theorem f_fact : Fact (Nat.Prime 205523667896953300194896352429254920972540065223) := ⟨f_q⟩

set_option maxRecDepth 20000 in
theorem f_check1 : let _ := f_fact; checkF1 205523667896953300194896352429254920972540065223 205523667896953300194895899082072403858390252929 40218105156867728698573668525883168222119515413 115334401956802802075595682801335644058796914268 1 191054773325768024657601203882194039123866520827 158 157 274877906993 = true := by
  decide +kernel

theorem f_nonsquare : let _ := f_fact; Fact (∀ s : ZMod 205523667896953300194896352429254920972540065223, s ^ 2 ≠ ((115334401956802802075595682801335644058796914268 : ℕ) : ZMod 205523667896953300194896352429254920972540065223) + 0 * s) := by
  have i1 := f_fact
  exact ⟨(goodF1 f_r f_check1).2.2⟩

set_option maxRecDepth 20000 in
theorem f_check2 : let _ := f_fact; let _ := f_nonsquare
    checkF2 205523667896953300194896352429254920972540065223 205523667896953300194895899082072403858390252929 40218105156867728698573668525883168222119515413 115334401956802802075595682801335644058796914268 191079354656274778837764015557338301375963168470 71445317903696340296199556072836940741717506375 158 157 (2478033197129209843032032139220795487130588375, 154372005779453519628726064686605270381431439870) (189412476376095447597152661541535901925630202764, 184456560502664163967866104448851713422309725638) = true := by
  decide +kernel

theorem f_good : GoodF 205523667896953300194896352429254920972540065223 205523667896953300194895899082072403858390252929 40218105156867728698573668525883168222119515413 115334401956802802075595682801335644058796914268 191079354656274778837764015557338301375963168470 71445317903696340296199556072836940741717506375 := by
  have i1 := f_fact
  obtain ⟨⟨hx, eq, er, h2, hb⟩, hN, -⟩ := goodF1 f_r f_check1
  have i2 := f_nonsquare
  obtain ⟨hirr, hT⟩ := goodF2 h2 hb f_r f_check2
  exact goodF f_r hx eq er h2 hb hN i2 hirr hT

/-- **C140** for `f.param`: it is read as what it says, and gives a working pairing. -/
theorem C140_f : Reads fText fPar ∧ ∃ q r b beta alpha0 alpha1 : ℕ,
    fPar = .f q r b beta alpha0 alpha1 ∧ GoodF q r b beta alpha0 alpha1 :=
  ⟨f_reads, _, _, _, _, _, _, rfl, f_good⟩

end Pbc.Shipped
