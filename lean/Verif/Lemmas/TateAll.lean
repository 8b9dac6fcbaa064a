import Verif.Lemmas.TateLine

/-! # The reduced Tate pairing with all points of a twist

The second argument need not have order dividing `r`. -/

set_option autoImplicit false
set_option linter.unusedSectionVars false

namespace Tate

open WeierstrassCurve WeierstrassCurve.Affine
open Spec (EC)

/-- A map to roots of unity of odd order that is additive away from the points of order two, where it
is 1, is additive. -/
theorem hom_of {G : Type*} [AddCommGroup G] {L : Type*} [Field L] {r : ℕ} (hodd : Odd r) {g : G → L}
    (two : ∀ T, 2 • T = 0 → g T = 1)
    (reg : ∀ Q₁ Q₂, 2 • Q₁ ≠ 0 → 2 • Q₂ ≠ 0 → 2 • (Q₁ + Q₂) ≠ 0 → g (Q₁ + Q₂) = g Q₁ * g Q₂)
    (neg : ∀ Q, g Q * g (-Q) = 1) (root : ∀ Q, g Q ^ r = 1) {S : G} (hS : 4 • S ≠ 0) (Q₁ Q₂ : G) :
    g (Q₁ + Q₂) = g Q₁ * g Q₂ := by
  have ne : ∀ Q, g Q ≠ 0 := fun Q h => by
    have := root Q
    rw [h, zero_pow hodd.pos.ne'] at this
    exact zero_ne_one this
  have sqr : ∀ z w : L, z ^ r = 1 → w ^ r = 1 → z ^ 2 = w ^ 2 → z = w := by
    intro z w hz hw h
    obtain ⟨m, rfl⟩ := hodd
    rw [pow_succ, pow_mul] at hz hw
    rw [h] at hz
    have h0 : (w ^ 2) ^ m ≠ 0 := fun h => by rw [h, zero_mul] at hw; exact zero_ne_one hw
    exact mul_left_cancel₀ h0 (hz.trans hw.symm)
  have four : ∀ Q : G, 4 • Q = 2 • (2 • Q) := fun Q => by rw [← mul_smul]; rfl
  have far : ∀ Q T, 2 • T = 0 → 4 • Q ≠ 0 → g (Q + T) = g Q := by
    intro Q T hT h4
    have h2 : 2 • Q ≠ 0 := fun h => h4 (by rw [four, h, smul_zero])
    have h2' : 2 • (Q + T) ≠ 0 := by rwa [smul_add, hT, add_zero]
    have e : Q + T + (Q + T) = Q + Q := by
      rw [← two_nsmul, ← two_nsmul, smul_add, hT, add_zero]
    have h3 : 2 • (Q + Q) ≠ 0 := by rwa [← two_nsmul, ← four]
    refine sqr _ _ (root _) (root _) ?_
    rw [pow_two, pow_two, ← reg _ _ h2' h2' (by rwa [e]), ← reg _ _ h2 h2 h3, e]
  have shift : ∀ Q T, 2 • T = 0 → g (Q + T) = g Q := by
    intro Q T hT
    by_cases h4 : 4 • Q = 0
    · by_cases h2 : 2 • Q = 0
      · rw [two _ h2, two]; rw [smul_add, h2, hT, add_zero]
      · have hS2 : 2 • S ≠ 0 := fun h => hS (by rw [four, h, smul_zero])
        have hQS4 : 4 • (Q + S) ≠ 0 := by rwa [smul_add, h4, zero_add]
        have hQS : 2 • (Q + S) ≠ 0 := fun h => hQS4 (by rw [four, h, smul_zero])
        have h1 := far (Q + S) T hT hQS4
        rw [reg Q S h2 hS2 hQS, add_right_comm, reg (Q + T) S (by rwa [smul_add, hT, add_zero]) hS2 (by
          rw [add_right_comm, smul_add, hT, add_zero]; exact hQS)] at h1
        exact mul_right_cancel₀ (ne S) h1
    · exact far Q T hT h4
  by_cases h1 : 2 • Q₁ = 0
  · rw [add_comm, shift _ _ h1, two _ h1, one_mul]
  by_cases h2 : 2 • Q₂ = 0
  · rw [shift _ _ h2, two _ h2, mul_one]
  by_cases h3 : 2 • (Q₁ + Q₂) = 0
  · rw [two _ h3]
    have := shift (-Q₁) (Q₁ + Q₂) h3
    rw [neg_add_cancel_left] at this
    rw [this, neg]
  · exact reg _ _ h1 h2 h3

variable {K : Type*} [Field K] [DecidableEq K] {L : Type*} [Field L] [Algebra K L] {a b : K}
variable {r e : ℕ} {P : (EC a b).Point}
variable {k : Type*} [Field k] [DecidableEq k] [Algebra k K] {a₂ b₂ : k} {u : K} {w : L}
variable (ht : Twist a b a₂ b₂ u w)

/-- The pairing is additive in its second argument on the whole group, if this has a point of order
other than 1, 2 and 4. -/
theorem tateT_add_right_all (h2 : (2 : k) ≠ 0) (hk : Kills K L r e) (hodd : Odd r) (hr : r • P = 0)
    {S : (EC a₂ b₂).Point} (hS : 4 • S ≠ 0) (Q₁ Q₂ : (EC a₂ b₂).Point) :
    tateT ht r e P (Q₁ + Q₂) = tateT ht r e P Q₁ * tateT ht r e P Q₂ := by
  have h0 : r ≠ 0 := hodd.pos.ne'
  by_cases z : P = 0
  · rw [z]; simp [tateT_zero_left]
  obtain ⟨f, F⟩ := exists_full (L := L) z h0 hr
  refine hom_of (r := r) hodd (g := tateT ht r e P) ?_ ?_ ?_ (fun Q => tateT_pow ht hk h0 hr Q) hS Q₁ Q₂
  · intro T hT
    rcases T with _ | ⟨x, y, hn⟩
    · rfl
    · rw [tateT, dif_pos]
      by_contra hy
      rw [two_nsmul, add_eq_zero_iff_eq_neg, Point.neg_some, Point.some.injEq, Pbc.Curve.negY_EC] at hT
      exact mul_ne_zero h2 hy (by linear_combination hT.2)
  · intro Q₁ Q₂ h₁ h₂ h₃
    rcases Q₁ with _ | ⟨x₁, y₁, n₁⟩
    · exact absurd (smul_zero _) h₁
    rcases Q₂ with _ | ⟨x₂, y₂, n₂⟩
    · exact absurd (smul_zero _) h₂
    have m₁ := y_ne_of n₁ h₁
    have m₂ := y_ne_of n₂ h₂
    rcases h : Point.some x₁ y₁ n₁ + Point.some x₂ y₂ n₂ with _ | ⟨x₃, y₃, n₃⟩
    · rw [h] at h₃; exact absurd (smul_zero _) h₃
    · rw [h] at h₃
      have m₃ := y_ne_of n₃ h₃
      obtain ⟨s, t, hc⟩ := ht.collinear h m₁ m₂ m₃
      rw [tateT_some ht P n₁ m₁, tateT_some ht P n₂ m₂, tateT_some ht P n₃ m₃, tate_eq hk z F,
        tate_eq hk z F, tate_eq hk z F, Full.add_right hk F hc]
  · intro Q
    rcases Q with _ | ⟨x, y, hn⟩
    · change tateT ht r e P 0 * tateT ht r e P (-0) = 1
      rw [neg_zero, tateT_zero_right, mul_one]
    · rw [Point.neg_some]
      by_cases hy : y = 0
      · rw [tateT, tateT, dif_pos hy, dif_pos (by rw [Pbc.Curve.negY_EC, hy, neg_zero]), mul_one]
      · have hy' : (EC a₂ b₂).negY x y ≠ 0 := by rw [Pbc.Curve.negY_EC]; exact neg_ne_zero.2 hy
        rw [tateT_some ht P hn hy, tateT_some ht P _ hy', tate_eq hk z F, tate_eq hk z F]
        have e : (EC a₂ b₂).negY x y = -y := Pbc.Curve.negY_EC _ _
        have := Full.neg_right hk F (ht.place x y (eqn_of hn) hy)
        rw [← this, ← ht.place_neg x y (eqn_of hn) hy (by rw [neg_sq]; exact eqn_of hn) (neg_ne_zero.2 hy)]
        simp only [e]

end Tate
