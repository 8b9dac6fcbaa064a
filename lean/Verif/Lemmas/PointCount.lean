import Verif.Lemmas.NonDeg
import Mathlib.NumberTheory.LegendreSymbol.QuadraticChar.Basic

/-!
# Counting points

The number of points of `Y² = X³ + a X + b` over a finite field, by the solutions of the equation.
-/

set_option autoImplicit false

namespace Tate

open WeierstrassCurve WeierstrassCurve.Affine
open Spec (EC)

variable {K : Type*} [Field K] [DecidableEq K] [Fintype K] {a b : K}

/-- Square roots of `g` in `K`. -/
def roots2 (g : K) : Finset K := Finset.univ.filter fun y => y ^ 2 = g

/-- A point is `O` or a nonsingular solution. -/
def pointEquiv (W : WeierstrassCurve.Affine K) : W.Point ≃ Option {p : K × K // W.Nonsingular p.1 p.2} where
  toFun
    | .zero => none
    | .some x y h => some ⟨(x, y), h⟩
  invFun
    | none => .zero
    | some p => .some p.1.1 p.1.2 p.2
  left_inv P := by cases P <;> rfl
  right_inv P := by cases P <;> rfl

instance finite_point (W : WeierstrassCurve.Affine K) : Finite W.Point := Finite.of_equiv _ (pointEquiv W).symm

theorem card_sol (a b : K) : (Finset.univ.filter fun p : K × K => p.2 ^ 2 = p.1 ^ 3 + a * p.1 + b).card =
    ∑ x : K, (roots2 (x ^ 3 + a * x + b)).card := by
  rw [Finset.card_filter, Fintype.sum_prod_type]
  refine Finset.sum_congr rfl fun x _ => ?_
  rw [roots2, Finset.card_filter]

theorem card_le (a b : K) : Nat.card (EC a b).Point ≤ 1 + ∑ x : K, (roots2 (x ^ 3 + a * x + b)).card := by
  classical
  rw [Nat.card_congr (pointEquiv _), Finite.card_option, ← card_sol, add_comm, ← Nat.card_eq_finsetCard]
  refine Nat.add_le_add_left (Nat.card_le_card_of_injective
    (fun p : {p : K × K // (EC a b).Nonsingular p.1 p.2} =>
      (⟨p.1, by simpa using eqn_of p.2⟩ : Finset.univ.filter fun p : K × K =>
        p.2 ^ 2 = p.1 ^ 3 + a * p.1 + b)) fun p p' h => ?_) 1
  exact Subtype.ext (congrArg (fun z => z.1) h)

/-- If every solution is nonsingular the bound is attained. -/
theorem card_eq (hns : ∀ x y : K, y ^ 2 = x ^ 3 + a * x + b → (EC a b).Nonsingular x y) :
    Nat.card (EC a b).Point = 1 + ∑ x : K, (roots2 (x ^ 3 + a * x + b)).card := by
  classical
  refine le_antisymm (card_le a b) ?_
  rw [Nat.card_congr (pointEquiv _), Finite.card_option, ← card_sol, add_comm 1, ← Nat.card_eq_finsetCard]
  refine Nat.add_le_add_right (Nat.card_le_card_of_injective
    (fun p : Finset.univ.filter (fun p : K × K => p.2 ^ 2 = p.1 ^ 3 + a * p.1 + b) =>
      (⟨p.1, hns _ _ (Finset.mem_filter.1 p.2).2⟩ : {p : K × K // (EC a b).Nonsingular p.1 p.2}))
      fun p p' h => ?_) 1
  exact Subtype.ext (congrArg (fun z => z.1) h)

theorem roots2_card (h2 : (2 : K) ≠ 0) (g : K) : ((roots2 g).card : ℤ) = quadraticChar K g + 1 := by
  have hc : ringChar K ≠ 2 := fun hc => h2 (by
    have := CharP.cast_eq_zero K (ringChar K)
    rwa [hc] at this)
  rw [← quadraticChar_card_sqrts hc g, roots2]
  congr 2
  ext y; simp

variable {L : Type*} [Field L] [Algebra K L] {a₂ b₂ u : K} {w : L}

/-- If the twist has enough points, in view of the number of those with `y = 0`, every `P ≠ 0` of order
dividing `r` has a partner on the twist. -/
theorem exists_ne_of_card' (ht : Twist a b a₂ b₂ u w) (h2 : (2 : K) ≠ 0) {r h : ℕ} (hodd : Odd r)
    (hcard : Fintype.card K + 1 = h * r) {P : (EC a b).Point} (hP : P ≠ 0) (hr : r • P = 0)
    (hk : Kills K L r ((Fintype.card K - 1) * h))
    (hE : Fintype.card K + (Finset.univ.filter fun x : K => x ^ 3 + a₂ * x + b₂ = 0).card ≤
      Nat.card (EC a₂ b₂).Point + 1) :
    ∃ T, tateT ht r ((Fintype.card K - 1) * h) P T ≠ 1 := by
  have hns : ∀ x y : K, y ^ 2 = x ^ 3 + a₂ * x + b₂ → y ≠ 0 → (EC a₂ b₂).Nonsingular x y := by
    intro x y h0 hy
    rw [nonsingular_iff, equation_iff]
    refine ⟨by simpa [EC] using h0, Or.inr ?_⟩
    simp only [EC]
    intro h0
    exact mul_ne_zero h2 hy (by linear_combination h0)
  by_contra hno
  push Not at hno
  set S : Finset K := Finset.univ.filter fun x => ∃ y, y ≠ 0 ∧ y ^ 2 = x ^ 3 + a₂ * x + b₂ with hSdef
  have hS := few_places (L := L) h2 hodd hcard hP hr hk (S := S.image fun x => u * x) (by
    intro x' hx'
    obtain ⟨x, hx, rfl⟩ := Finset.mem_image.1 hx'
    obtain ⟨y, hy, he⟩ := (Finset.mem_filter.1 hx).2
    refine ⟨ht.place x y he hy, rfl, ?_⟩
    have := hno (.some x y (hns x y he hy))
    rwa [tateT_some ht P _ hy] at this)
  rw [Finset.card_image_of_injective _ (mul_right_injective₀ ht.hu)] at hS
  have hb : ∑ x : K, (roots2 (x ^ 3 + a₂ * x + b₂)).card ≤
      (Finset.univ.filter fun x : K => x ^ 3 + a₂ * x + b₂ = 0).card + 2 * S.card := by
    have key : ∀ x : K, (roots2 (x ^ 3 + a₂ * x + b₂)).card ≤
        (if x ^ 3 + a₂ * x + b₂ = 0 then 1 else 0) + 2 * (if x ∈ S then 1 else 0) := by
      intro x
      have h1 := roots2_card h2 (x ^ 3 + a₂ * x + b₂)
      by_cases hz : x ^ 3 + a₂ * x + b₂ = 0
      · rw [if_pos hz]
        rw [hz, MulChar.map_zero] at h1
        rw [hz]
        omega
      · rw [if_neg hz]
        by_cases hx : x ∈ S
        · rw [if_pos hx]
          rcases quadraticChar_dichotomy hz with h3 | h3 <;> rw [h3] at h1 <;> omega
        · rw [if_neg hx]
          have : roots2 (x ^ 3 + a₂ * x + b₂) = ∅ := by
            rw [Finset.eq_empty_iff_forall_notMem]
            intro y hy
            have hy' : y ^ 2 = x ^ 3 + a₂ * x + b₂ := by simpa [roots2] using hy
            refine hx (Finset.mem_filter.2 ⟨Finset.mem_univ _, y, ?_, hy'⟩)
            rintro rfl
            exact hz (by rw [← hy']; ring)
          rw [this]; simp
    refine (Finset.sum_le_sum fun x _ => key x).trans ?_
    rw [Finset.sum_add_distrib, ← Finset.mul_sum, Finset.sum_boole, Finset.sum_boole]
    have h4 : (Finset.univ.filter fun x : K => x ∈ S) = S := by ext; simp
    rw [h4]
    simp only [Nat.cast_id]
    exact le_rfl
  have := card_le a₂ b₂
  omega

/-- **Non-degeneracy.**  If the twist has more than `|K| + 1` points, every `P ≠ 0` of order dividing
`r` has a partner on the twist. -/
theorem exists_ne_of_card (ht : Twist a b a₂ b₂ u w) (h2 : (2 : K) ≠ 0) {r h : ℕ} (hodd : Odd r)
    (hcard : Fintype.card K + 1 = h * r) {P : (EC a b).Point} (hP : P ≠ 0) (hr : r • P = 0)
    (hk : Kills K L r ((Fintype.card K - 1) * h))
    (hE : Fintype.card K + 2 ≤ Nat.card (EC a₂ b₂).Point) :
    ∃ T, tateT ht r ((Fintype.card K - 1) * h) P T ≠ 1 := by
  have h3 : (Finset.univ.filter fun x : K => x ^ 3 + a₂ * x + b₂ = 0).card ≤ 3 := by
    open Polynomial in
    have hp : (X ^ 3 + C a₂ * X + C b₂ : K[X]).natDegree = 3 := by compute_degree!
    have hp0 : (X ^ 3 + C a₂ * X + C b₂ : K[X]) ≠ 0 := by
      intro h0; rw [h0] at hp; simp at hp
    refine (Finset.card_le_card ?_).trans ((Multiset.toFinset_card_le _).trans
      ((card_roots' (X ^ 3 + C a₂ * X + C b₂ : K[X])).trans hp.le))
    intro x hx
    rw [Multiset.mem_toFinset, mem_roots hp0]
    simpa using hx
  exact exists_ne_of_card' ht h2 hodd hcard hP hr hk (by omega)

/-- The curve `Y² = X³ + X` over a field in which `-1` is not a square. -/
theorem card_typeA (hneg : ∀ z : K, z ^ 2 ≠ -1) : Nat.card (EC (1 : K) 0).Point = Fintype.card K + 1 := by
  have h2 : (2 : K) ≠ 0 := fun h => hneg 1 (by linear_combination h)
  have hm : quadraticChar K (-1) = -1 := by
    rw [quadraticChar_neg_one_iff_not_isSquare]
    rintro ⟨z, hz⟩
    exact hneg z (by rw [hz, pow_two])
  have hns : ∀ x y : K, y ^ 2 = x ^ 3 + 1 * x + 0 → (EC (1 : K) 0).Nonsingular x y := by
    intro x y h
    rw [nonsingular_iff, equation_iff]
    refine ⟨by simpa [EC] using h, ?_⟩
    by_cases hy : y = 0
    · left
      subst hy
      simp only [EC]
      intro h0
      have e0 : x * (x ^ 2 + 1) = 0 := by linear_combination -h
      rcases mul_eq_zero.1 e0 with rfl | h3
      · simp at h0
      · exact hneg x (by linear_combination h3)
    · right
      simp only [EC]
      intro h0
      exact mul_ne_zero h2 hy (by linear_combination h0)
  rw [card_eq hns, add_comm]
  congr 1
  have hz : (∑ x : K, (roots2 (x ^ 3 + 1 * x + 0)).card : ℤ) = Fintype.card K := by
    have hsum : ∑ x : K, quadraticChar K (x ^ 3 + 1 * x + 0) = 0 := by
      have h1 : ∑ x : K, quadraticChar K (x ^ 3 + 1 * x + 0) =
          -∑ x : K, quadraticChar K (x ^ 3 + 1 * x + 0) := by
        conv_lhs => rw [← Equiv.sum_comp (Equiv.neg K)]
        rw [← Finset.sum_neg_distrib]
        refine Finset.sum_congr rfl fun x _ => ?_
        have : (Equiv.neg K x) ^ 3 + 1 * (Equiv.neg K x) + 0 = -1 * (x ^ 3 + 1 * x + 0) := by
          rw [Equiv.neg_apply]; ring
        rw [this, map_mul, hm]; ring
      omega
    rw [Finset.sum_congr rfl fun x _ => roots2_card h2 (x ^ 3 + 1 * x + 0), Finset.sum_add_distrib, hsum]
    simp
  exact_mod_cast hz

end Tate
