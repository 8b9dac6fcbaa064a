import Verif.Props.Shipped
import Verif.Lemmas.CertPairing
import Verif.Lemmas.ShippedPrimes2
import Mathlib.GroupTheory.Index

/-! # C140, type E: `e.param`

The curve of the file has `q - 1 = h r²` points.  That all points killed by `r` have coordinates in the field is shown by the
values of the pairing at two points `P` and `Q` of order `r`: `e(P, Q) = 1`, while `e(P, P) ≠ 1` and `e(Q, Q) = e(P, P)⁷`. -/

set_option autoImplicit false
set_option linter.style.longLine false

namespace Pbc.Shipped

open Pbc.Param Pbc.Certify
open Pbc.Curve (Pt)
open Pbc.CmGen (scalar genNqr)
open Pbc.Setup (Sampled Base Complete)
open Pbc.Session
open Spec (EC PtRep Works Bilinear TypeE GoodShift tors mem_tors)
open WeierstrassCurve.Affine (Point)

/-! ## Two points with known pairings -/

section gram

variable {A : Type*} [AddCommGroup A] {L : Type*} [Field L] {e : A → A → L} {r : ℕ} {P Q : A}

/-- Two points of order `r` that are orthogonal, and how they pair with themselves. -/
structure Gram (e : A → A → L) (r : ℕ) (P Q : A) : Prop where
  prime : r.Prime
  bil : Bilinear r e
  hP : r • P = 0
  hQ : r • Q = 0
  hPQ : e P Q = 1
  hQP : e Q P = 1
  ne : e P P ≠ 1
  hQQ : e Q Q = e P P ^ 7
  seven : r ≠ 7

namespace Gram

variable (g : Gram e r P Q)

include g

theorem smulP (x : ℤ) : r • x • P = 0 := by rw [smul_comm, g.hP, smul_zero]

theorem smulQ (x : ℤ) : r • x • Q = 0 := by rw [smul_comm, g.hQ, smul_zero]

theorem eval (x y x' y' : ℤ) : e (x • P + y • Q) (x' • P + y' • Q) = e P P ^ (x * x' + 7 * (y * y')) := by
  have h0 := g.prime.ne_zero
  have hne := g.bil.ne_zero h0 g.hP g.hP
  rw [g.bil.add_left _ _ _ (g.smulP x) (g.smulQ y) (by rw [smul_add, g.smulP, g.smulQ, add_zero]),
    g.bil.add_right _ _ _ (g.smulP x) (g.smulP x') (g.smulQ y'), g.bil.add_right _ _ _ (g.smulQ y) (g.smulP x') (g.smulQ y'),
    g.bil.smul_smul h0 g.hP g.hP, g.bil.smul_smul h0 g.hP g.hQ, g.bil.smul_smul h0 g.hQ g.hP, g.bil.smul_smul h0 g.hQ g.hQ,
    g.hPQ, g.hQP, g.hQQ, one_zpow, one_zpow, mul_one, one_mul, zpow_add₀ hne, zpow_mul (e P P) 7]
  norm_cast

theorem zpow_eq_one {m : ℤ} : e P P ^ m = 1 ↔ (r : ℤ) ∣ m := by
  have : Fact r.Prime := ⟨g.prime⟩
  have ho : orderOf (e P P) = r := orderOf_eq_prime (g.bil.root P P g.hP g.hP) g.ne
  have hu := orderOf_dvd_iff_zpow_eq_one (x := Units.mk0 (e P P) (g.bil.ne_zero g.prime.ne_zero g.hP g.hP)) (i := m)
  rw [← orderOf_units, Units.val_mk0, ho] at hu
  rw [hu, Units.ext_iff]
  simp

theorem indep {x y : ℤ} (h : x • P + y • Q = 0) : (r : ℤ) ∣ x ∧ (r : ℤ) ∣ y := by
  have h1 := g.eval 1 0 x y
  have h2 := g.eval 0 1 x y
  have h0 := g.prime.ne_zero
  simp only [one_smul, zero_smul, add_zero, zero_add, h, one_mul, zero_mul, mul_zero] at h1 h2
  rw [g.bil.zero_right h0 g.hP, eq_comm, g.zpow_eq_one] at h1
  rw [g.bil.zero_right h0 g.hQ, eq_comm, g.zpow_eq_one] at h2
  refine ⟨h1, ((Int.prime_iff_natAbs_prime.2 (by simpa using g.prime)).dvd_mul.1 h2).resolve_left fun h7 => g.seven ?_⟩
  exact (Nat.prime_dvd_prime_iff_eq g.prime (by norm_num)).1 (by exact_mod_cast h7)

/-- The points `x P + y Q`. -/
theorem exists_sub : ∃ H : AddSubgroup A, Nat.card H = r ^ 2 ∧ ∀ X, X ∈ H ↔ ∃ x y : ℤ, X = x • P + y • Q := by
  have : Fact r.Prime := ⟨g.prime⟩
  let φ : ZMod r × ZMod r →+ A := (ZMod.lift r ⟨zmultiplesHom A P, by simpa using g.hP⟩).coprod
    (ZMod.lift r ⟨zmultiplesHom A Q, by simpa using g.hQ⟩)
  have hφ : ∀ x y : ℤ, φ (x, y) = x • P + y • Q := fun x y => by
    simp only [φ, AddMonoidHom.coprod_apply, ZMod.lift_coe, zmultiplesHom_apply]
  have hex : ∀ z : ZMod r × ZMod r, ∃ x y : ℤ, z = ((x : ZMod r), (y : ZMod r)) := fun z =>
    ⟨z.1.cast, z.2.cast, by simp⟩
  have hinj : Function.Injective φ := by
    rw [injective_iff_map_eq_zero]
    intro z hz
    obtain ⟨x, y, rfl⟩ := hex z
    rw [hφ] at hz
    obtain ⟨h1, h2⟩ := g.indep hz
    rw [(ZMod.intCast_zmod_eq_zero_iff_dvd x r).2 h1, (ZMod.intCast_zmod_eq_zero_iff_dvd y r).2 h2]
    rfl
  refine ⟨φ.range, ?_, ?_⟩
  · rw [← Nat.card_congr (AddMonoidHom.ofInjective hinj).toEquiv, Nat.card_prod, Nat.card_zmod, sq]
  · intro X
    constructor
    · rintro ⟨z, rfl⟩
      obtain ⟨x, y, rfl⟩ := hex z
      exact ⟨x, y, hφ x y⟩
    · rintro ⟨x, y, rfl⟩
      exact ⟨(x, y), hφ x y⟩

theorem sq_dvd [Finite A] : r ^ 2 ∣ Nat.card A := by
  obtain ⟨H, hH, -⟩ := g.exists_sub
  exact hH ▸ AddSubgroup.card_addSubgroup_dvd_card H

variable [Finite A] {h : ℕ} (hc : Nat.card A = h * r ^ 2)

include hc

theorem cofac (X : A) : ∃ x y : ℤ, h • X = x • P + y • Q := by
  obtain ⟨H, hH, hm⟩ := g.exists_sub
  refine (hm _).1 ?_
  have : H.index = h := by
    have := H.card_mul_index
    rw [hH, hc, mul_comm h] at this
    exact Nat.eq_of_mul_eq_mul_left (pow_pos g.prime.pos 2) this
  rw [← this]
  exact H.nsmul_index_mem X

theorem killed (X : A) : r • h • X = 0 := by
  obtain ⟨x, y, e⟩ := g.cofac hc X
  rw [e, smul_add, g.smulP, g.smulQ, add_zero]

variable (hh : ¬ r ∣ h)

include hh

theorem span {X : A} (hX : r • X = 0) : ∃ x y : ℤ, X = x • P + y • Q := by
  obtain ⟨x, y, e⟩ := g.cofac hc X
  have hco : IsCoprime (h : ℤ) r := Nat.isCoprime_iff_coprime.2 ((g.prime.coprime_iff_not_dvd.2 hh).symm)
  obtain ⟨u, v, huv⟩ := hco
  refine ⟨u * x, u * y, ?_⟩
  rw [mul_smul, mul_smul, ← smul_add, ← e, ← natCast_zsmul, ← mul_smul]
  calc X = (u * h + v * r) • X := by rw [huv, one_smul]
    _ = _ := by rw [add_smul, mul_smul v, natCast_zsmul, hX, smul_zero, add_zero]

/-- An element that is orthogonal to itself is `O`, when `-7` is not a square. -/
theorem self (h7 : ∀ x y : ZMod r, x ^ 2 + 7 * y ^ 2 = 0 → x = 0 ∧ y = 0) {X : A} (hX : r • X = 0) (hs : e X X = 1) : X = 0 := by
  obtain ⟨x, y, rfl⟩ := g.span hc hh hX
  rw [g.eval, g.zpow_eq_one, ← ZMod.intCast_zmod_eq_zero_iff_dvd] at hs
  push_cast at hs
  obtain ⟨h1, h2⟩ := h7 x y (by rw [← hs]; ring)
  rw [ZMod.intCast_zmod_eq_zero_iff_dvd] at h1 h2
  obtain ⟨x', rfl⟩ := h1
  obtain ⟨y', rfl⟩ := h2
  rw [mul_comm, mul_smul, natCast_zsmul, g.hP, smul_zero, mul_comm, mul_smul, natCast_zsmul, g.hQ, smul_zero, add_zero]

theorem symm {X Y : A} (hX : r • X = 0) (hY : r • Y = 0) : e X Y = e Y X := by
  obtain ⟨x, y, rfl⟩ := g.span hc hh hX
  obtain ⟨x', y', rfl⟩ := g.span hc hh hY
  rw [g.eval, g.eval, mul_comm x, mul_comm y]

theorem card_tors : Nat.card {X : A // r • X = 0} = r ^ 2 := by
  obtain ⟨H, hH, hm⟩ := g.exists_sub
  rw [← hH]
  refine Nat.card_congr (Equiv.subtypeEquivRight fun X => ?_)
  rw [hm]
  refine ⟨g.span hc hh, ?_⟩
  rintro ⟨x, y, rfl⟩
  rw [smul_add, g.smulP, g.smulQ, add_zero]

end Gram

end gram

/-- No sum of a square and seven times a square vanishes if `-7` is not a square. -/
theorem aniso {r k : ℕ} [hp : Fact r.Prime] (h7 : 7 < r) (h1 : (r - 1) / 2 < 2 ^ k)
    (h : powBy (fun x y => x * y % r) k (r - 7) ((r - 1) / 2) 1 = r - 1) (x y : ZMod r) (hxy : x ^ 2 + 7 * y ^ 2 = 0) :
    x = 0 ∧ y = 0 := by
  have hn := nqr_of h1 h
  rw [Nat.cast_sub h7.le, ZMod.natCast_self, zero_sub] at hn
  by_cases hy : y = 0
  · subst hy
    simpa using hxy
  exfalso
  have he : (-((7 : ℕ) : ZMod r)) = (x / y) ^ 2 := by
    field_simp
    push_cast
    linear_combination -hxy
  have hodd := hp.out.odd_of_ne_two (by omega)
  obtain ⟨m, hm⟩ := hodd
  rw [he, ← pow_mul, show 2 * ((r - 1) / 2) = r - 1 by omega] at hn
  by_cases hx : x / y = 0
  · rw [hx, zero_pow (by omega)] at hn
    exact one_ne_zero (neg_eq_zero.1 hn.symm)
  · rw [ZMod.pow_card_sub_one_eq_one hx] at hn
    have : ((2 : ℕ) : ZMod r) = 0 := by push_cast; linear_combination hn
    have := Nat.le_of_dvd (by norm_num) ((ZMod.natCast_eq_zero_iff 2 r).1 this)
    omega

/-! ## What is claimed -/

/-- The curve has `h r² = q - 1` points, among them `r²` killed by `r`; there are set-ups that do what they should; and in
each of them (unless `2 r` kills the random point `R` of the set-up) the pairing works on all elements that are made, its
arguments may be exchanged, and only the neutral element pairs with itself to 1. -/
def GoodE (q r h a b exp2 exp1 : ℕ) (sign1 sign0 : ℤ) : Prop :=
  r.Prime ∧ q = h * r ^ 2 + 1 ∧ (r : ℤ) = 2 ^ exp2 + sign1 * 2 ^ exp1 + sign0 ∧ ∃ _ : Fact q.Prime,
    Nat.card (EC (a : ZMod q) b).Point = h * r ^ 2 ∧ Nat.card {P : (EC (a : ZMod q) b).Point // r • P = 0} = r ^ 2 ∧
    ∀ nds nqr, genNqr (fpIsSqr q) nds = some nqr →
      (∃ draws G R d p, Setup.typeE (fpIsSqr q) (fpSqrt q nqr) (a : ZMod q) b r h draws = some (G, R) ∧
        scalar (a : ZMod q) R (2 * r) = some d ∧ d.inf = false ∧
        Setup.random (fpIsSqr q) (fpSqrt q nqr) G [] 1 = some p ∧ p.inf = false) ∧
      ∀ draws G R, Setup.typeE (fpIsSqr q) (fpSqrt q nqr) (a : ZMod q) b r h draws = some (G, R) →
        ∀ d, scalar (a : ZMod q) R (2 * r) = some d → d.inf = false → ∀ miller, PairingE.Routine miller → ∀ sgn,
        Works (ops (Sampled (fpIsSqr q) (fpSqrt q nqr) sgn G) G.a) (ops (Sampled (fpIsSqr q) (fpSqrt q nqr) sgn G) G.a)
          (PairingF.apply (PairingE.pairing miller (PairingE.init q r (a : ZMod q) exp2 exp1 sign1 sign0 R))) id r ∧
        (∀ p p', Made (Sampled (fpIsSqr q) (fpSqrt q nqr) sgn G) G.a p → Made (Sampled (fpIsSqr q) (fpSqrt q nqr) sgn G) G.a p' →
          PairingF.apply (PairingE.pairing miller (PairingE.init q r (a : ZMod q) exp2 exp1 sign1 sign0 R)) p p' =
            PairingF.apply (PairingE.pairing miller (PairingE.init q r (a : ZMod q) exp2 exp1 sign1 sign0 R)) p' p) ∧
        ∀ p, Made (Sampled (fpIsSqr q) (fpSqrt q nqr) sgn G) G.a p →
          (PairingF.apply (PairingE.pairing miller (PairingE.init q r (a : ZMod q) exp2 exp1 sign1 sign0 R)) p p = some 1 ↔
            p.inf = true)

/-! ## Why -/

theorem goodShift_of {A : Type*} [AddCommGroup A] {r ℓ : ℕ} {S : A} (hℓ : ℓ.Prime) (hr : r.Prime) (h2 : ℓ ≠ 2) (hne : ℓ ≠ r)
    (hS : ℓ • S = 0) (h0 : S ≠ 0) : GoodShift r S := fun hc => by
  have : Fact ℓ.Prime := ⟨hℓ⟩
  rw [← two_smul ℕ S, ← mul_smul, ← addOrderOf_dvd_iff_nsmul_eq_zero, addOrderOf_eq_prime hS h0] at hc
  rcases hℓ.dvd_mul.1 hc with h | h
  · exact hne ((Nat.prime_dvd_prime_iff_eq hℓ hr).1 h)
  · exact h2 ((Nat.prime_dvd_prime_iff_eq hℓ Nat.prime_two).1 h)

theorem goodE {q r h a b exp2 exp1 ℓ : ℕ} [i1 : Fact q.Prime] (ht : TypeE (ZMod q) q r exp2 exp1 1 1) (hℓ : ℓ.Prime)
    (hq : q = h * r ^ 2 + 1) (hbig : 16 * q < (r ^ 2 * ℓ) ^ 2) (hh : ¬ r ∣ h) (hℓh : ℓ ∣ h) (hℓ2 : ℓ ≠ 2) (hℓr : ℓ ≠ r)
    (hD : (4 * (a : ZMod q) ^ 3 + 27 * (b : ZMod q) ^ 2) ≠ 0)
    (h7 : ∀ x y : ZMod r, x ^ 2 + 7 * y ^ 2 = 0 → x = 0 ∧ y = 0) {P Q S : (EC (a : ZMod q) b).Point}
    (g : Gram (fun X Y => PairingE.eE q r S X Y) r P Q) (hS : ℓ • S = 0) (hS0 : S ≠ 0) :
    GoodE q r h a b exp2 exp1 1 1 := by
  have hr := ht.prime
  have hH := Props.C123_interval ht.two hD
  rw [ZMod.card] at hH
  have hr2 : 25 ≤ r ^ 2 := by nlinarith [ht.big]
  have hh0 : 0 < h := Nat.pos_of_ne_zero fun h0 => hh (h0 ▸ dvd_zero _)
  have hq2 : 25 ≤ q := by nlinarith
  have hfin : Finite (EC (a : ZMod q) b).Point := Nat.finite_of_card_ne_zero fun h0 => by
    rw [h0] at hH
    push_cast at hH
    nlinarith
  have iℓ : Fact ℓ.Prime := ⟨hℓ⟩
  have hdℓ : ℓ ∣ Nat.card (EC (a : ZMod q) b).Point := addOrderOf_eq_prime hS hS0 ▸ addOrderOf_dvd_natCard _
  have hco : Nat.Coprime (r ^ 2) ℓ := Nat.Coprime.pow_left 2 ((Nat.coprime_primes hr hℓ).2 (Ne.symm hℓr))
  have hcard : Nat.card (EC (a : ZMod q) b).Point = h * r ^ 2 := by
    have := Props.interval_unique (q := q) (r := (r ^ 2 * ℓ : ℕ)) (n := (h * r ^ 2 : ℕ)) (by positivity) (by exact_mod_cast hbig) hH
      (by rw [hq]; push_cast; nlinarith [Nat.zero_le (h * r ^ 2)])
      (by exact_mod_cast hco.mul_dvd_of_dvd_of_dvd g.sq_dvd hdℓ)
      (by rw [mul_comm h]; exact_mod_cast Nat.mul_dvd_mul_left _ hℓh)
    exact_mod_cast this
  have hSs := goodShift_of hℓ hr hℓ2 hℓr hS hS0
  have hrP : r • P = 0 := g.hP
  have hP0 : P ≠ 0 := fun h0 => g.ne (by rw [h0]; exact g.bil.zero_left hr.ne_zero (smul_zero _))
  refine ⟨hr, hq, by simpa using ht.hr, i1, hcard, g.card_tors hcard hh, fun nds nqr hn => ?_⟩
  obtain ⟨hb, -⟩ := fp_base (show q ≠ 2 by omega) hn
  refine ⟨?_, fun draws G R hi d hd h0 miller hm sgn => ?_⟩
  · have i2 : Fact r.Prime := ⟨hr⟩
    have e1 : h • (P + S) ≠ 0 := by
      obtain ⟨c, hc⟩ := hℓh
      rw [nsmul_add, show h • S = 0 by rw [hc, mul_comm, mul_smul, hS, nsmul_zero], add_zero, Ne,
        ← addOrderOf_dvd_iff_nsmul_eq_zero, addOrderOf_eq_prime hrP hP0]
      exact hh
    have e2 : (2 * r) • (P + S) ≠ 0 := by
      rw [nsmul_add, mul_smul, hrP, nsmul_zero, zero_add, mul_comm, mul_smul, two_smul]
      exact hSs
    have e0 : P + S ≠ 0 := fun h0 => e1 (by rw [h0, nsmul_zero])
    obtain ⟨draws, G, R, hi, hR, hRS, hg, ha, ho, hsolve, -⟩ := init_starts (r := r) (h := h) hb e0
      fun y => (fpIsSqr_iff _).2 ⟨y, sq y⟩
    obtain ⟨p, e, hp⟩ := random_one (isSqr := fpIsSqr _) (sq := fpSqrt _ nqr) hb.two ha hsolve hg
    obtain ⟨d, ed, hd⟩ := Props.scalar_spec hb.two hR (2 * r)
    refine ⟨draws, G, G.genNoCofac, d, p, by rw [Setup.typeE, hi]; rfl, ed, ?_, e, ?_⟩
    · rw [Bool.eq_false_iff, Ne, Props.rep_inf hd]
      rcases hRS with rfl | rfl
      · exact e2
      · rwa [smul_neg, neg_eq_zero]
    · rw [Bool.eq_false_iff, Ne, Props.rep_inf hp]
      rcases hRS with rfl | rfl
      · exact e1
      · rwa [smul_neg, neg_eq_zero]
  obtain ⟨G', e, h'⟩ := Option.map_eq_some_iff.1 hi
  obtain ⟨rfl, rfl⟩ := Prod.mk.inj h'
  have hs := (Setup.initCurve_sound hb hD e).1
  have hin : ∀ p, Sampled (fpIsSqr q) (fpSqrt q nqr) sgn G' p →
      ∃ P ∈ tors (A := (EC (a : ZMod q) b).Point) r, PtRep p P := fun p hp => by
    obtain ⟨P, h1, h2⟩ := (Setup.initCurve_sound hb hD e).1.inGroup hb hD (fun X => g.killed hcard X) hp
    exact ⟨P, h2, h1⟩
  obtain ⟨R, hR, -, -⟩ := hs.gen
  have hshift : GoodShift r R := fun hc => by
    obtain ⟨d', e', hd'⟩ := Props.scalar_spec hb.two hR (2 * r)
    obtain rfl := Option.some.inj (hd.symm.trans e')
    have := (Props.rep_inf hd').2 (by rw [mul_smul, smul_comm, two_smul, hc])
    rw [h0] at this
    cases this
  obtain ⟨hbl, hc⟩ := PairingE.C93_typeE ht hshift hR
  have heq : ∀ {X Y : (EC (a : ZMod q) b).Point}, r • X = 0 → r • Y = 0 → PairingE.eE q r R X Y = PairingE.eE q r S X Y :=
    fun hX hY => TateK.tateK_shift ht.kills hr.ne_zero (PairingE.GoodShift.one hshift) (PairingE.GoodShift.two hshift)
      (PairingE.GoodShift.one hSs) (mem_tors.2 hX) hX (mem_tors.2 hY)
  refine ⟨works_of hs.ha hs.ha hb.two hb.two _ _ hin hin (fun P Q => PairingE.eE q r R P Q) hr.ne_zero
      (fun P hP Q hQ => hbl.root P Q hP hQ) (fun P hP P' hP' Q hQ => hbl.add_left P P' Q hP hP' hQ)
      (fun P hP Q hQ Q' hQ' => hbl.add_right P Q Q' hP hQ hQ') fun P hP Q hQ p q hp hq =>
        ⟨_, hc miller hm P Q p q hp hq hP hQ, rfl⟩, fun p p' hp hp' => ?_, fun p hp => ?_⟩
  · obtain ⟨X, hX, hx⟩ := made_mem' hs.ha hb.two _ hin hp
    obtain ⟨Y, hY, hy⟩ := made_mem' hs.ha hb.two _ hin hp'
    rw [hc miller hm X Y p p' hx hy hX hY, hc miller hm Y X p' p hy hx hY hX, heq hX hY, heq hY hX]
    exact congrArg some (g.symm hcard hh hX hY)
  · obtain ⟨X, hX, hx⟩ := made_mem' hs.ha hb.two _ hin hp
    rw [hc miller hm X X p p hx hx hX hX, Option.some.injEq, heq hX hX, Props.rep_inf hx]
    exact ⟨g.self hcard hh h7 hX, fun h0 => by rw [h0]; exact g.bil.zero_left hr.ne_zero (smul_zero _)⟩

/-! ## Checks -/

/-- The value of the pairing of `p` and `t`, with `s` as the random point, is `v`. -/
def checkPair (q a exp2 exp1 kq N : ℕ) (p t s : ℕ × ℕ) (v : ℕ) [Fact q.Prime] : Bool :=
  match (zmodArith q kq).pair a exp2 exp1 p t s with
  | none => false
  | some w => powBy (fun x y => x * y % q) kq w.1 N 1 = v * powBy (fun x y => x * y % q) kq w.2 N 1 % q

theorem checkPair_sound {q r a b exp2 exp1 kq v : ℕ} [Fact q.Prime] {p t s : ℕ × ℕ} (h : TypeE (ZMod q) q r exp2 exp1 1 1)
    {P Q S : (EC (a : ZMod q) b).Point} (hS : GoodShift r S) (hP : r • P = 0) (hQ : r • Q = 0)
    (hp : (zmodArith q kq).At p P) (ht : (zmodArith q kq).At t Q) (hs : (zmodArith q kq).At s S) (hk : (q - 1) / r < 2 ^ kq)
    (hc : checkPair q a exp2 exp1 kq ((q - 1) / r) p t s v = true) : PairingE.eE q r S P Q = v := by
  rw [checkPair] at hc
  rcases e : (zmodArith q kq).pair a exp2 exp1 p t s with _ | w
  · rw [e] at hc; cases hc
  rw [e] at hc
  dsimp only at hc
  rw [decide_eq_true_eq] at hc
  obtain ⟨h0, h1⟩ := pair_sound h hS hP hQ (ca := a) rfl hp ht hs e
  have hpow : ∀ x : ℕ, ((powBy (fun x y => x * y % q) kq x ((q - 1) / r) 1 : ℕ) : ZMod q) = (x : ZMod q) ^ ((q - 1) / r) :=
    fun x => by
      have := powBy_eq (fun x y => x * y % q) (fun x : ℕ => (x : ZMod q)) (fun x y => by
        rw [ZMod.natCast_mod, Nat.cast_mul]) kq x ((q - 1) / r) 1 hk
      rwa [Nat.cast_one, one_mul] at this
  have h2 := congrArg (fun x : ℕ => (x : ZMod q)) hc
  simp only [ZMod.natCast_mod, Nat.cast_mul] at h2
  have h3 : PairingE.eE q r S P Q * (zmodArith q kq).rep w.2 ^ ((q - 1) / r) =
      (v : ZMod q) * (zmodArith q kq).rep w.2 ^ ((q - 1) / r) :=
    h1.trans ((hpow w.1).symm.trans (h2.trans (congrArg (fun z => (v : ZMod q) * z) (hpow w.2))))
  exact mul_right_cancel₀ (pow_ne_zero _ h0) h3

/-- A point of a certain order. -/
def checkPoint (q a b kq kr r : ℕ) (p : ℕ × ℕ) [Fact q.Prime] : Bool :=
  p.2 * p.2 % q = (p.1 ^ 3 + a * p.1 + b) % q && (zmodArith q kq).checkOrder a p kr r

theorem checkPoint_sound {q a b kq kr r : ℕ} {p : ℕ × ℕ} [Fact q.Prime] (h20 : (2 : ZMod q) ≠ 0)
    (hD : (4 * (a : ZMod q) ^ 3 + 27 * (b : ZMod q) ^ 2) ≠ 0) (hc : checkPoint q a b kq kr r p = true) :
    ∃ P : (EC (a : ZMod q) b).Point, (zmodArith q kq).At p P ∧ r • P = 0 ∧ P ≠ 0 := by
  simp only [checkPoint, Bool.and_eq_true, decide_eq_true_eq] at hc
  have he' : (p.2 : ZMod q) ^ 2 = (p.1 : ZMod q) ^ 3 + a * p.1 + b := by
    have := (ZMod.natCast_eq_natCast_iff' _ _ q).2 hc.1
    push_cast at this
    rw [sq, this]
  have hn := Hasse.nonsing_of_disc h20 hD _ _ he'
  have hat : (zmodArith q kq).At p (.some (p.1 : ZMod q) (p.2 : ZMod q) hn : (EC (a : ZMod q) b).Point) := ⟨hn, rfl⟩
  exact ⟨_, hat, checkOrder_sound (A := zmodArith q kq) (ca := a) rfl hat hc.2⟩

/-- What is left to check about the numbers. -/
def checkE (q r h a b exp2 exp1 ℓ kq kr g : ℕ) : Bool :=
  q = h * r ^ 2 + 1 && 16 * q < (r ^ 2 * ℓ) ^ 2 && h % r ≠ 0 && h % ℓ = 0 && ℓ ≠ 2 && ℓ ≠ r &&
    (4 * a ^ 3 + 27 * b ^ 2) % q ≠ 0 && 7 < r && (r - 1) / 2 < 2 ^ kr &&
    powBy (fun x y => x * y % r) kr (r - 7) ((r - 1) / 2) 1 = r - 1 && (q - 1) / r < 2 ^ kq && g % q ≠ 1 &&
    1 ≤ exp1 && exp1 < exp2 && r = 2 ^ exp2 + 2 ^ exp1 + 1

theorem goodE_of_check {q r h a b exp2 exp1 ℓ kq kr kl g : ℕ} {p t s : ℕ × ℕ} (i1 : Fact q.Prime) (hr : r.Prime) (hℓ : ℓ.Prime)
    (hc : checkE q r h a b exp2 exp1 ℓ kq kr g = true) (hp : checkPoint q a b kq kr r p = true)
    (ht : checkPoint q a b kq kr r t = true) (hs : checkPoint q a b kq kl ℓ s = true)
    (h11 : checkPair q a exp2 exp1 kq ((q - 1) / r) p p s g = true) (h12 : checkPair q a exp2 exp1 kq ((q - 1) / r) p t s 1 = true)
    (h21 : checkPair q a exp2 exp1 kq ((q - 1) / r) t p s 1 = true)
    (h22 : checkPair q a exp2 exp1 kq ((q - 1) / r) t t s (g ^ 7) = true) : GoodE q r h a b exp2 exp1 1 1 := by
  simp only [checkE, Bool.and_eq_true, decide_eq_true_eq] at hc
  obtain ⟨⟨⟨⟨⟨⟨⟨⟨⟨⟨⟨⟨⟨⟨hq, hbig⟩, hh⟩, hℓh⟩, hℓ2⟩, hℓr⟩, hD⟩, h7⟩, hk1⟩, hk2⟩, hk3⟩, hg⟩, he1⟩, he2⟩, hre⟩ := hc
  have hh' : ¬ r ∣ h := fun hd => hh (Nat.mod_eq_zero_of_dvd hd)
  have hh0 : 0 < h := Nat.pos_of_ne_zero fun h0 => hh' (h0 ▸ dvd_zero _)
  have hq2 : 49 ≤ q := by rw [hq]; nlinarith
  have h20 : (2 : ZMod q) ≠ 0 := fun h0 => by
    have := (Nat.prime_dvd_prime_iff_eq i1.out Nat.prime_two).1 ((ZMod.natCast_eq_zero_iff 2 q).1 (by exact_mod_cast h0))
    omega
  have hD' : (4 * (a : ZMod q) ^ 3 + 27 * (b : ZMod q) ^ 2) ≠ 0 := fun h0 => hD (Nat.mod_eq_zero_of_dvd
    ((ZMod.natCast_eq_zero_iff _ q).1 (by push_cast; exact h0)))
  have hT : TypeE (ZMod q) q r exp2 exp1 1 1 := ⟨ZMod.card q, h20, hr, by rw [hq, Nat.add_sub_cancel, sq, ← mul_assoc]; exact dvd_mul_left _ _,
    he1, he2, .inl rfl, .inl rfl, by rw [hre]; push_cast; ring, by omega⟩
  obtain ⟨P, aP, hP, hP0⟩ := checkPoint_sound h20 hD' hp
  obtain ⟨Q, aQ, hQ, hQ0⟩ := checkPoint_sound h20 hD' ht
  obtain ⟨S, aS, hS, hS0⟩ := checkPoint_sound h20 hD' hs
  have hshift := goodShift_of hℓ hr hℓ2 hℓr hS hS0
  have v11 := checkPair_sound hT hshift hP hP aP aP aS hk3 h11
  have v12 := checkPair_sound hT hshift hP hQ aP aQ aS hk3 h12
  have v21 := checkPair_sound hT hshift hQ hP aQ aP aS hk3 h21
  have v22 := checkPair_sound hT hshift hQ hQ aQ aQ aS hk3 h22
  obtain ⟨R', hR'⟩ := PairingD.exists_rep S
  have ir : Fact r.Prime := ⟨hr⟩
  refine goodE hT hℓ hq hbig hh' (Nat.dvd_of_mod_eq_zero hℓh) hℓ2 hℓr hD' (fun x y => aniso h7 hk1 hk2 x y) (P := P) (Q := Q)
    ⟨hr, (PairingE.C93_typeE hT hshift hR').1, hP, hQ, by rw [v12, Nat.cast_one], by rw [v21, Nat.cast_one], fun h1 => hg ?_,
      by rw [v22, v11, Nat.cast_pow], by omega⟩ hS hS0
  rw [v11, ← Nat.cast_one, ZMod.natCast_eq_natCast_iff'] at h1
  rw [h1, Nat.mod_eq_of_lt (by omega)]

/-- A point of order `r`. -/
def ePt1 : ℕ × ℕ := (5550400648872210359108712754803634872764744273379580504708833353380975090734273997766397504012492822037123698382885365426587975255450074864266093440760940283832572836569757745441936605967611554422541001195042112265566592302078006677259220591216277762524229512591621102705621184097122420098798405596980333565, 1083477859631906677111055513396841018604903268050819883022035253835029481502094088269329558142375381984069748515620485911232399013500115891404625054343080142201361133131643476183796361592922749794342610164656721314996785675711433620578639684397652949649958575061418264274966976216124501118112939740842817198)

/-- Another one, orthogonal to the first. -/
def ePt2 : ℕ × ℕ := (1326057278424078188594617401133940336804309490233683405316655671898013234768622500161071736390782770357388856483480928444452240385512069226819410754270475792532501040393003077671803907379930673185412718106017141845808100342344594391179171300128008021383767341941640549015671074332454317415017182172581488921, 3917390325164457086465010296856495852389348974893128609198562835661657860931606334084531973384978946466748053684712404655603640894633672736280088034740896476969632038296713337080554547524725008819635393695853414422397411717563048056789379439708311670188298627535014469452715311482491896655207000045080055067)

/-- A point of another prime order. -/
def ePt3 : ℕ × ℕ := (897960475955105750713960908544941847155132361524034699228865451684278429605729284897435636776655359858524087784313643775811193466879196825099347777808228602451392425498670431969323862798181812916772287179160656112729494611775718399530664883131357153891980263334381653021733011167783086268389408146292330513, 2364459227545231598951608332139871130463094841534662544500507716205680499315269951148238170852192448323923508808912561997795230616400971163237886751871395568457693226821346042145153608748380143146992479582101403029381566218906921282859935338791414208417314593468991249897851742178125548954945060428080308342)

/-- The value of the pairing of the first with itself. -/
def eVal : ℕ := 7140229440251142653012863282010320550124071806435230181149200402729151669684091190361824060501936162758909995847089271867916446988065590987355413126048200559922492359847420426462983094970091693801925840484581123881865086214632819367559603154741503994207416999342192938806959074061364736912052540079352788164

end Pbc.Shipped
