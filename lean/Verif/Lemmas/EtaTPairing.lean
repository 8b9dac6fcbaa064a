import Verif.Lemmas.EtaTLoop
import Mathlib.RingTheory.AdjoinRoot
import Mathlib.FieldTheory.Finiteness
import Mathlib.LinearAlgebra.FreeModule.Finite.Basic

/-! # The type I pairing is a power of a Tate pairing -/

set_option autoImplicit false
set_option linter.unusedSectionVars false

namespace Pbc.EtaT

open Spec Tate
open Pbc.Ternary (E2 E3)
open Pbc.Curve (Pt)

private instance : Fact (Nat.Prime 3) := ⟨by decide⟩

section pairing

variable {F : Type*} [Field F] [DecidableEq F] [CharP F 3] [Fintype F]
  {K : Type*} [Field K] [DecidableEq K] [CharP K 3] {L : Type*} [Field L] [CharP L 3]
  [Algebra F K] [Algebra K L] {m : ℕ} {ρ : K} {σ : L}

theorem signY_eq (m : ℕ) (y : F) : algebraMap F K (signY m y) = -(mu m : ℤ) * algebraMap F K y := by
  rw [signY, mu]
  by_cases h : m % 12 = 1 ∨ m % 12 = 11
  · rw [if_pos h, if_pos h]; simp
  · rw [if_neg h, if_neg h]; simp

theorem expo_even (m : ℕ) : 2 ∣ Spec.EtaT.expo m := by
  have : 2 ∣ 3 ^ (3 * m) - 1 := by
    have h := Nat.sub_dvd_pow_sub_pow 3 1 (3 * m)
    simpa using h
  rw [Spec.EtaT.expo, mul_assoc]
  exact this.mul_right _

namespace Tower

variable (T : Tower F K L m ρ σ)

include T

theorem pow_card_sub (z : L) (hz : z ≠ 0) : z ^ (Spec.EtaT.expo m * Spec.EtaT.order m) = 1 ∨ ¬ Good m := by
  by_cases hg : Good m
  · left
    rw [mul_comm, order_mul_expo hg]
    have h1 : 1 ≤ 3 ^ (6 * m) := Nat.one_le_pow _ _ (by decide)
    have e := T.frobL z
    rw [← Nat.sub_add_cancel h1, pow_succ] at e
    exact mul_right_cancel₀ hz (by rw [e, one_mul])
  · exact Or.inr hg

/-- The exponents that relate the pairing to the Tate pairing. -/
theorem pairing_spec (hg : Good m) {P Q : Pt F} {p q : (EC (-1 : F) 1).Point} (hP : PtRep P p) (hQ : PtRep Q q) :
    ∃ v, pairing m P Q = some v ∧ T.value v ^ Spec.EtaT.order m = 1 ∧
      T.value v ^ (3 * (3 ^ m) ^ 2) =
        T.tateD (Spec.EtaT.order m) (Spec.EtaT.expo m) (wmul m • up F K p) q ^
          (3 * 3 ^ ((m + 1) / 2) * 3 ^ ((m - 1) / 2)) := by
  rcases p with _ | ⟨x, y, hn⟩
  · have h : P.inf = true := hP
    refine ⟨E3.one, by rw [pairing, h]; rfl, by rw [T.value_one, one_pow], ?_⟩
    change _ = T.tateD _ _ (wmul m • up F K 0) q ^ _
    rw [map_zero, smul_zero, T.tateD_zero_left, T.value_one, one_pow, one_pow]
  rcases q with _ | ⟨x', y', hn'⟩
  · have h : Q.inf = true := hQ
    refine ⟨E3.one, by rw [pairing, h, Bool.or_true]; rfl, by rw [T.value_one, one_pow], ?_⟩
    change _ = T.tateD _ _ _ 0 ^ _
    rw [T.tateD_zero_right, T.value_one, one_pow, one_pow]
  obtain ⟨iP, rfl, rfl⟩ := hP
  obtain ⟨iQ, rfl, rfl⟩ := hQ
  have hy := y_ne_of_odd hn (order_odd hg) (order_smul T.card hg _)
  have hy' := y_ne_of_odd hn' (order_odd hg) (order_smul T.card hg _)
  have e0 : pairing m P Q = alg8 m (alg4 m P.x P.y Q.x Q.y) := by
    rw [pairing, iP, iQ]
    by_cases h : (m - 1) / 2 % 2 = 0
    · simp [if_pos h, T.alg5_eq hg h]
    · simp [if_neg h]
  obtain ⟨s, hs, e1⟩ := T.value_alg4 hg (eqn hn') hy' P.x P.y
  obtain ⟨h1, u1⟩ := up_pt (K := K) (eqn hn)
  have qx := T.alg_q P.x
  have qy := T.alg_q P.y
  obtain ⟨h2, u2⟩ := wmul_pt hg qx qy h1
  rw [signY_eq] at e1
  have qx2 : (algebraMap F K P.x + ((m - 1) / 2 : ℕ)) ^ 3 ^ m = algebraMap F K P.x + ((m - 1) / 2 : ℕ) := by
    rw [add_pow, qx, cast_pow]
  have qy2 : ((-1) ^ ((m - 1) / 2) * (-(mu m : ℤ) * algebraMap F K P.y)) ^ 3 ^ m =
      (-1) ^ ((m - 1) / 2) * (-(mu m : ℤ) * algebraMap F K P.y) := by
    have odd : ∀ n, (-1 : K) ^ 3 ^ n = -1 := fun n => Odd.neg_one_pow (Odd.pow (by decide))
    rw [mul_pow, mul_pow, qy, ← pow_mul, mul_comm ((m - 1) / 2), pow_mul, odd]
    congr 2
    rcases mu_cases m with e | e
    · rw [e]; push_cast; rw [odd]
    · rw [e]; push_cast; rw [neg_neg, one_pow]
  have hy2 : (-1) ^ ((m - 1) / 2) * (-(mu m : ℤ) * algebraMap F K P.y) ≠ 0 := by
    refine mul_ne_zero (pow_ne_zero _ (by simp)) (mul_ne_zero ?_ (by simpa using hy))
    rcases mu_cases m with e | e <;> rw [e] <;> simp
  have hne := eta_ne hg (T.place Q.x Q.y (eqn hn') hy') qx2 qy2 h2 hy2
  have ht := eta_tate hg (T.kills hg) (T.place_dist hg.odd (eqn hn') hy') qx2 qy2 h2 hy2
  have ep : pt P.x P.y (eqn hn) = WeierstrassCurve.Affine.Point.some P.x P.y hn := rfl
  rw [← u2, ← u1, ep] at ht
  generalize eta m (algebraMap F K P.x + ((m - 1) / 2 : ℕ)) ((-1) ^ ((m - 1) / 2) * (-(mu m : ℤ) * algebraMap F K P.y))
    (T.place Q.x Q.y (eqn hn') hy') = z at e1 hne ht
  have hs0 : s ≠ 0 := by rintro rfl; simp at hs
  have hv : T.value (alg4 m P.x P.y Q.x Q.y) ≠ 0 := by
    rw [e1]; exact mul_ne_zero hs0 (pow_ne_zero _ hne)
  have hu : alg4 m P.x P.y Q.x Q.y ≠ ⟨0, 0, 0⟩ := by
    intro h
    refine hv ?_
    rw [h, value, value_eq]
    have z0 : (0 : E2 F).c0 = 0 := rfl
    have z1 : (0 : E2 F).c1 = 0 := rfl
    simp [z0, z1]
  obtain ⟨v, ev, e2⟩ := T.alg8_spec hg hu
  refine ⟨v, e0.trans ev, ?_, ?_⟩
  · rw [e2, ← pow_mul]
    rcases T.pow_card_sub _ hv with h | h
    · exact h
    · exact absurd hg h
  · obtain ⟨d, hd⟩ := expo_even m
    have hse : s ^ Spec.EtaT.expo m = 1 := by rw [hd, pow_mul, hs, one_pow]
    rw [T.tateD_some _ _ _ hn' hy', e2, e1, mul_pow, hse, one_mul, pow_mul _ (3 * 3 ^ ((m + 1) / 2)), ← ht]
    generalize 3 ^ ((m - 1) / 2) = a
    generalize 3 * (3 ^ m) ^ 2 = b
    rw [← pow_mul, ← pow_mul, ← pow_mul, ← pow_mul]
    congr 1
    ring

theorem value_npow (v : E3 (E2 F)) (n : ℕ) : T.value (npow v n) = T.value v ^ n := by
  induction n with
  | zero => rw [npow, T.value_one, pow_zero]
  | succ n ih => rw [npow, T.value_mul, ih, pow_succ]

omit T [DecidableEq F] [CharP F 3] [Fintype F] [DecidableEq K] [CharP K 3] [CharP L 3] [Algebra F K] [Algebra K L] in
/-- Roots of unity are determined by a power prime to the order. -/
theorem root_unique {a b : L} {c N : ℕ} (hN : N ≠ 0) (hc : Nat.Coprime c N) (ha : a ^ N = 1) (hb : b ^ N = 1)
    (h : a ^ c = b ^ c) : a = b := by
  have hb0 : b ≠ 0 := by rintro rfl; rw [zero_pow hN] at hb; exact zero_ne_one hb
  have h1 : (a / b) ^ N = 1 := by rw [div_pow, ha, hb, div_one]
  have h2 : (a / b) ^ c = 1 := by rw [div_pow, h, div_self (pow_ne_zero _ hb0)]
  have h3 := pow_gcd_eq_one.2 ⟨h2, h1⟩
  rw [hc, pow_one, div_eq_one_iff_eq hb0] at h3
  exact h3

theorem pairing_add_left (hg : Good m) {P₁ P₂ P₃ Q : Pt F} {p₁ p₂ q : (EC (-1 : F) 1).Point}
    (h₁ : PtRep P₁ p₁) (h₂ : PtRep P₂ p₂) (h₃ : PtRep P₃ (p₁ + p₂)) (hQ : PtRep Q q) :
    ∃ v₁ v₂, pairing m P₁ Q = some v₁ ∧ pairing m P₂ Q = some v₂ ∧ pairing m P₃ Q = some (v₁.mul v₂) := by
  obtain ⟨v₁, e₁, r₁, t₁⟩ := T.pairing_spec hg h₁ hQ
  obtain ⟨v₂, e₂, r₂, t₂⟩ := T.pairing_spec hg h₂ hQ
  obtain ⟨v₃, e₃, r₃, t₃⟩ := T.pairing_spec hg h₃ hQ
  refine ⟨v₁, v₂, e₁, e₂, e₃.trans (congrArg some (T.value_injective hg ?_))⟩
  have hk : ∀ p : (EC (-1 : F) 1).Point, Spec.EtaT.order m • wmul m • up F K p = 0 := fun p => by
    rw [smul_comm, ← map_nsmul, order_smul T.card hg, map_zero, smul_zero]
  rw [T.value_mul]
  refine root_unique (order_pos hg) (c := 3 * (3 ^ m) ^ 2) ?_ r₃ (by rw [mul_pow, r₁, r₂, one_mul]) ?_
  · rw [← pow_mul, ← pow_succ']
    exact Nat.Coprime.pow_left _ (order_coprime hg)
  · rw [t₃, map_add, smul_add, T.tateD_add_left (T.kills hg) (order_pos hg) (hk _) (hk _), mul_pow, mul_pow, t₁, t₂]

theorem pairing_add_right (hg : Good m) {P Q₁ Q₂ Q₃ : Pt F} {p q₁ q₂ : (EC (-1 : F) 1).Point}
    (hP : PtRep P p) (h₁ : PtRep Q₁ q₁) (h₂ : PtRep Q₂ q₂) (h₃ : PtRep Q₃ (q₁ + q₂)) :
    ∃ v₁ v₂, pairing m P Q₁ = some v₁ ∧ pairing m P Q₂ = some v₂ ∧ pairing m P Q₃ = some (v₁.mul v₂) := by
  obtain ⟨v₁, e₁, r₁, t₁⟩ := T.pairing_spec hg hP h₁
  obtain ⟨v₂, e₂, r₂, t₂⟩ := T.pairing_spec hg hP h₂
  obtain ⟨v₃, e₃, r₃, t₃⟩ := T.pairing_spec hg hP h₃
  refine ⟨v₁, v₂, e₁, e₂, e₃.trans (congrArg some (T.value_injective hg ?_))⟩
  have hk : Spec.EtaT.order m • wmul m • up F K p = 0 := by
    rw [smul_comm, ← map_nsmul, order_smul T.card hg, map_zero, smul_zero]
  rw [T.value_mul]
  refine root_unique (order_pos hg) (c := 3 * (3 ^ m) ^ 2) ?_ r₃ (by rw [mul_pow, r₁, r₂, one_mul]) ?_
  · rw [← pow_mul, ← pow_succ']
    exact Nat.Coprime.pow_left _ (order_coprime hg)
  · rw [t₃, T.tateD_add_right (T.kills hg) (order_odd hg) hk (order_smul T.card hg _) (order_smul T.card hg _),
      mul_pow, mul_pow, t₁, t₂]

end Tower

end pairing

/-! ### Existence of the fields -/

theorem adjoin_frob {k : Type*} [Field k] [Fintype k] (f : Polynomial k) (hf : f.Monic) [Fact (Irreducible f)]
    (z : AdjoinRoot f) : z ^ (Fintype.card k) ^ f.natDegree = z := by
  have hfin : Module.Finite k (AdjoinRoot f) := hf.finite_adjoinRoot
  have : Finite (AdjoinRoot f) := Module.finite_of_finite k
  have : Fintype (AdjoinRoot f) := Fintype.ofFinite _
  have e := FiniteField.pow_card z
  rw [Module.card_eq_pow_finrank (K := k) (V := AdjoinRoot f)] at e
  rwa [(AdjoinRoot.powerBasis hf.ne_zero).finrank, AdjoinRoot.powerBasis_dim] at e

universe u

/-- No square root of -1 in a field of odd degree. -/
theorem no_root2 {K : Type*} [Field K] [Fintype K] [CharP K 3] {n : ℕ} (hc : Fintype.card K = 3 ^ n)
    (hn : n % 2 = 1) (y : K) : y ^ 2 ≠ -1 := by
  classical
  intro h
  have e := sigma_pow h n
  rw [pow_q hc, Odd.neg_one_pow (Nat.odd_iff.2 hn)] at e
  have h3 : (3 : K) = 0 := three (F := K)
  have hy : y = 0 := by linear_combination -e + y * h3
  rw [hy] at h
  have : (1 : K) = 0 := by linear_combination h
  exact one_ne_zero this

theorem exists_quad (K : Type u) [Field K] [Fintype K] [CharP K 3] {n : ℕ} (hc : Fintype.card K = 3 ^ n)
    (hn : n % 2 = 1) : ∃ (L : Type u) (_ : Field L) (_ : CharP L 3) (_ : Algebra K L) (σ : L),
      σ ^ 2 = -1 ∧ ∀ z : L, z ^ (3 ^ n) ^ 2 = z := by
  classical
  let g : Polynomial K := Polynomial.X ^ 2 + 1
  have hdeg : g.natDegree = 2 := by simp only [g]; compute_degree!
  have hmon : g.Monic := by simp only [g]; monicity!
  have hirr : Irreducible g := by
    rw [Polynomial.irreducible_iff_roots_eq_zero_of_degree_le_three (by omega) (by omega)]
    refine Multiset.eq_zero_of_forall_notMem fun x hx => ?_
    have hr := (Polynomial.mem_roots'.1 hx).2
    rw [Polynomial.IsRoot.def] at hr
    simp only [g, Polynomial.eval_add, Polynomial.eval_pow, Polynomial.eval_X, Polynomial.eval_one] at hr
    exact no_root2 hc hn x (by linear_combination hr)
  have : Fact (Irreducible g) := ⟨hirr⟩
  have hL3 : CharP (AdjoinRoot g) 3 := charP_of_injective_algebraMap (algebraMap K (AdjoinRoot g)).injective 3
  have hσ : AdjoinRoot.root g ^ 2 = -1 := by
    have e := AdjoinRoot.eval₂_root g
    simp only [g, Polynomial.eval₂_add, Polynomial.eval₂_pow, Polynomial.eval₂_X, Polynomial.eval₂_one] at e
    linear_combination e
  exact ⟨AdjoinRoot g, inferInstance, hL3, inferInstance, AdjoinRoot.root g, hσ, fun z => by
    have e := adjoin_frob g hmon z
    rwa [hdeg, hc] at e⟩

/-- The fields of `3^(3m)` and `3^(6m)` elements exist. -/
theorem exists_tower_card (F : Type u) [Field F] [DecidableEq F] [CharP F 3] [Fintype F] {m : ℕ} (hg : Good m)
    (hF : Fintype.card F = 3 ^ m) :
    ∃ (K L : Type u) (_ : Field K) (_ : DecidableEq K) (_ : CharP K 3) (_ : Field L) (_ : CharP L 3)
      (_ : Algebra F K) (_ : Algebra K L) (ρ : K) (σ : L), Tower F K L m ρ σ ∧
        Finite K ∧ Nat.card K = 3 ^ (3 * m) := by
  classical
  let f : Polynomial F := Polynomial.X ^ 3 - Polynomial.X - 1
  have hdeg : f.natDegree = 3 := by simp only [f]; compute_degree!
  have hmon : f.Monic := by simp only [f]; monicity!
  have hirr : Irreducible f := by
    rw [Polynomial.irreducible_iff_roots_eq_zero_of_degree_le_three (by omega) (by omega)]
    refine Multiset.eq_zero_of_forall_notMem fun x hx => ?_
    have hr := (Polynomial.mem_roots'.1 hx).2
    rw [Polynomial.IsRoot.def] at hr
    simp only [f, Polynomial.eval_sub, Polynomial.eval_pow, Polynomial.eval_X, Polynomial.eval_one] at hr
    exact Pbc.Ternary.no_root hF (by unfold Good at hg; omega) x (by linear_combination hr)
  have : Fact (Irreducible f) := ⟨hirr⟩
  have hK3 : CharP (AdjoinRoot f) 3 := charP_of_injective_algebraMap (algebraMap F (AdjoinRoot f)).injective 3
  have frobK : ∀ z : AdjoinRoot f, z ^ 3 ^ (3 * m) = z := fun z => by
    have e := adjoin_frob f hmon z
    rwa [hdeg, hF, ← pow_mul, mul_comm m] at e
  have hρ : AdjoinRoot.root f ^ 3 = AdjoinRoot.root f + 1 := by
    have e := AdjoinRoot.eval₂_root f
    simp only [f, Polynomial.eval₂_sub, Polynomial.eval₂_pow, Polynomial.eval₂_X, Polynomial.eval₂_one] at e
    linear_combination e
  have hfin : Module.Finite F (AdjoinRoot f) := hmon.finite_adjoinRoot
  have : Finite (AdjoinRoot f) := Module.finite_of_finite F
  have : Fintype (AdjoinRoot f) := Fintype.ofFinite _
  have hcard : Fintype.card (AdjoinRoot f) = 3 ^ (3 * m) := by
    rw [Module.card_eq_pow_finrank (K := F) (V := AdjoinRoot f), (AdjoinRoot.powerBasis hmon.ne_zero).finrank,
      AdjoinRoot.powerBasis_dim, hdeg, hF, ← pow_mul, mul_comm]
  obtain ⟨L, iL, cL, aL, σ, hσ, frobL⟩ := exists_quad (AdjoinRoot f) (n := 3 * m) hcard (by have := hg.odd; omega)
  exact ⟨AdjoinRoot f, L, inferInstance, inferInstance, hK3, iL, cL, inferInstance, aL, AdjoinRoot.root f, σ,
    { card := hF, hρ := hρ, hσ := hσ, irr := fun y hy => no_root2 hcard (by have := hg.odd; omega) y
        ((algebraMap (AdjoinRoot f) L).injective (by rw [map_pow, ← hy, hσ, map_neg, map_one]))
      frobK := frobK, frobL := fun z => by
        rw [show 6 * m = 3 * m * 2 by ring, pow_mul]; exact frobL z },
    inferInstance, by rw [Nat.card_eq_fintype_card, hcard]⟩

/-- The fields without their sizes. -/
theorem exists_tower (F : Type u) [Field F] [DecidableEq F] [CharP F 3] [Fintype F] {m : ℕ} (hg : Good m)
    (hF : Fintype.card F = 3 ^ m) :
    ∃ (K L : Type u) (_ : Field K) (_ : DecidableEq K) (_ : CharP K 3) (_ : Field L) (_ : CharP L 3)
      (_ : Algebra F K) (_ : Algebra K L) (ρ : K) (σ : L), Tower F K L m ρ σ := by
  obtain ⟨K, L, i1, i2, i3, i4, i5, i6, i7, ρ, σ, T, -⟩ := exists_tower_card F hg hF
  exact ⟨K, L, i1, i2, i3, i4, i5, i6, i7, ρ, σ, T⟩

end Pbc.EtaT
