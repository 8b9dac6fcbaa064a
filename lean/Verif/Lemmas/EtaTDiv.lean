import Verif.Lemmas.EtaTCurve
import Verif.Lemmas.TateLine

/-! # Functions with divisor `3^n (V) - (3^n V)` on `Y² = X³ - X + 1` -/

set_option autoImplicit false
set_option linter.unusedSectionVars false

namespace Pbc.EtaT

open Spec Tate
open WeierstrassCurve.Affine

variable {K : Type*} [Field K] [DecidableEq K] [CharP K 3] {L : Type*} [Field L] [Algebra K L]

/-- The tripling function at the point `(x, y)`. -/
def tri (x y : K) (Q : Place L (-1 : K) 1) : L :=
  algebraMap K L (y ^ 3) * Q.Y - algebraMap K L ((Q.x - x ^ 3 - 1) ^ 2)

theorem place_eqn (Q : Place L (-1 : K) 1) : Q.Y ^ 2 = algebraMap K L (Q.x ^ 3 - Q.x + 1) := by
  rw [Q.eqn]
  congr 1
  ring

theorem tri_div (Q : Place L (-1 : K) 1) {x y : K} (h : y ^ 2 = x ^ 3 - x + 1) (hy : y ≠ 0) :
    HasDiv (ev Q) (tri x y Q)
      (3 • FreeAbelianGroup.of (pt x y h) - FreeAbelianGroup.of (3 • pt x y h)) := by
  have h3 := three (F := K)
  obtain ⟨h₂, e₂⟩ := dbl_pt h hy
  have hi : y * y⁻¹ = 1 := mul_inv_cancel₀ hy
  have hx : x ≠ x + (y⁻¹) ^ 2 := by
    intro e
    have : (y⁻¹) ^ 2 = 0 := by linear_combination -e
    exact pow_ne_zero 2 (inv_ne_zero hy) this
  have l1 : IsLine (-1 : K) 1 (-1) y (x - y ^ 2) (pt x y h) (pt x y h) :=
    isLine_dbl (two_ne (F := K)) (nonsing h) hy (c := -1) (by simp) (by linear_combination -x ^ 2 * h3)
      (by linear_combination y * h3) (by linear_combination (-y ^ 2 + x ^ 3) * h3)
  have l2 : IsLine (-1 : K) 1 (-(y ^ 3 - y⁻¹)) 1 (-(y - (y ^ 3 - y⁻¹) * x)) (pt x y h)
      (pt (x + (y⁻¹) ^ 2) (-(y + (y⁻¹) ^ 3)) h₂) :=
    isLine_ch (nonsing h) (nonsing h₂) hx (c := y ^ 2) (pow_ne_zero 2 hy)
      (by linear_combination (-y ^ 3) * h3 - (y⁻¹ * (y * y⁻¹ + 1)) * hi)
      (by linear_combination (-(y * y⁻¹ + 1)) * hi)
      (by linear_combination (y ^ 3 * x) * h3 + (x * y⁻¹ + y) * (y * y⁻¹ + 1) * hi)
  have d1 := of_line Q l1
  have d2 := of_line Q l2
  have d := d1.mul d2
  have hq : Q.x ≠ x + (y⁻¹) ^ 2 := Q.x_ne (y := -(y + (y⁻¹) ^ 3)) (by linear_combination h₂)
  have e3 : 3 • pt x y h = pt x y h + pt (x + (y⁻¹) ^ 2) (-(y + (y⁻¹) ^ 3)) h₂ := by
    rw [← e₂, two_nsmul, show 3 = 1 + 1 + 1 from rfl, add_smul, add_smul, one_smul, add_assoc]
  rw [← two_nsmul (pt x y h), e₂, ← e3] at d
  have ed : ∀ (A B C : FreeAbelianGroup (EC (-1 : K) 1).Point), A + A - B + (A + B - C) = 3 • A - C := by
    intro A B C
    rw [show 3 = 1 + 1 + 1 from rfl, add_smul, add_smul, one_smul]
    abel
  rw [ed] at d
  refine d.sim (Sim.symm ⟨-y * (Q.x - (x + (y⁻¹) ^ 2)), mul_ne_zero (neg_ne_zero.2 hy) (sub_ne_zero.2 hq), ?_⟩)
  have hQ := place_eqn Q
  have h3' : (3 : L) = 0 := by
    have := congrArg (algebraMap K L) h3
    rwa [map_ofNat, map_zero] at this
  have h' := congrArg (algebraMap K L) h
  have hi' := congrArg (algebraMap K L) hi
  simp only [tri, map_add, map_sub, map_mul, map_pow, map_neg, map_one] at hQ h' hi' ⊢
  generalize algebraMap K L y⁻¹ = i at *
  generalize algebraMap K L y = y at *
  generalize algebraMap K L x = x at *
  generalize algebraMap K L Q.x = X at *
  generalize Q.Y = Y at *
  have hD : X - x ^ 3 - 1 = (X - x) - y ^ 2 := by linear_combination h'
  rw [hD]
  linear_combination y * hQ - y * h' + (Y * (X - x) - y * (X - x) - (y ^ 2 * Y * (y * i + 1) - i * (X - x) ^ 2 +
    2 * y * (X - x) * (y * i + 1) - y ^ 3 * (y * i + 1))) * hi' + (-y ^ 2 * Y + y ^ 3 * (X - x) ^ 2 + y ^ 3
    - y * (X - x) + y * X * x * (X - x)) * h3'

/-- First and second coordinate of `3^j V`. -/
def xj (x : K) (j : ℕ) : K := x ^ 9 ^ j - j
def yj (y : K) (j : ℕ) : K := (-1) ^ j * y ^ 9 ^ j

/-- The function with divisor `3^n (V) - (3^n V)`. -/
def triPow (x y : K) : ℕ → Place L (-1 : K) 1 → L
  | 0, _ => 1
  | n + 1, Q => triPow x y n Q ^ 3 * tri (xj x n) (yj y n) Q

theorem triPow_div (Q : Place L (-1 : K) 1) {x y : K} (h : y ^ 2 = x ^ 3 - x + 1) (hy : y ≠ 0) (n : ℕ) :
    HasDiv (ev Q) (triPow x y n Q)
      (3 ^ n • FreeAbelianGroup.of (pt x y h) - FreeAbelianGroup.of (3 ^ n • pt x y h)) := by
  induction n with
  | zero => simpa [triPow] using HasDiv.zero
  | succ n ih =>
    obtain ⟨h', e⟩ := triple_iter h n
    have hy' : yj y n ≠ 0 := mul_ne_zero (pow_ne_zero _ (by simp)) (pow_ne_zero _ hy)
    have d := (ih.pow 3).mul (tri_div Q h' hy')
    rw [triPow]
    have e' : 3 ^ (n + 1) • pt x y h = 3 • pt (x ^ 9 ^ n - n) ((-1) ^ n * y ^ 9 ^ n) h' := by
      rw [pow_succ, mul_comm, mul_smul, e]
    rw [e']
    rw [e] at d
    change HasDiv (ev Q) (triPow x y n Q ^ 3 * tri (x ^ 9 ^ n - n) ((-1) ^ n * y ^ 9 ^ n) Q) _
    convert d using 1
    rw [smul_sub, smul_smul, pow_succ, mul_comm]
    abel

/-- A line through two points, given by its slope. -/
theorem isLine_slope {x₁ y₁ x₂ y₂ s c : K} (h₁ : y₁ ^ 2 = x₁ ^ 3 - x₁ + 1) (h₂ : y₂ ^ 2 = x₂ ^ 3 - x₂ + 1)
    (hc : c ≠ 0) (hs : y₁ - y₂ = s * (x₁ - x₂)) (hy : y₁ ≠ 0) (ht : x₁ = x₂ → s * y₁ = 1) :
    IsLine (-1 : K) 1 (-c * s) c (-c * (y₁ - s * x₁)) (pt x₁ y₁ h₁) (pt x₂ y₂ h₂) := by
  have h3 := three (F := K)
  by_cases hx : x₁ = x₂
  · subst hx
    have hyy : y₁ = y₂ := by linear_combination hs
    subst hyy
    have hsy := ht rfl
    refine isLine_dbl (two_ne (F := K)) (nonsing h₁) hy (c := -c * s)
      (mul_ne_zero (neg_ne_zero.2 hc) (left_ne_zero_of_mul (hsy ▸ one_ne_zero))) ?_ ?_ ?_
    · linear_combination (-c * s * x₁ ^ 2) * h3
    · linear_combination (2 * c) * hsy + c * h3
    · linear_combination (-2 * c * y₁) * hsy + (-c * y₁ + c * s * x₁ ^ 3) * h3
  · have hd : x₂ - x₁ ≠ 0 := sub_ne_zero.2 (Ne.symm hx)
    refine isLine_ch (nonsing h₁) (nonsing h₂) hx (c := c * (x₂ - x₁)⁻¹) (mul_ne_zero hc (inv_ne_zero hd))
      ?_ ?_ ?_
    · rw [hs]; field_simp; ring
    · field_simp
    · have : x₁ * y₂ - y₁ * x₂ = -(y₁ - s * x₁) * (x₂ - x₁) := by linear_combination (-x₁) * hs
      rw [this]; field_simp

end Pbc.EtaT
