import Verif.Lemmas.TatePair

/-! # Lines as the pairing routines compute them -/

set_option autoImplicit false
set_option linter.unusedSectionVars false

namespace Tate

open WeierstrassCurve WeierstrassCurve.Affine
open Spec (EC PtRep)
open Pbc.Curve (Pt)

variable {K : Type*} [Field K] [DecidableEq K] {L : Type*} [Field L] [Algebra K L] {a b : K}

/-- The tangent at a point, scaled by `c`. -/
theorem isLine_dbl (h2 : (2 : K) ≠ 0) {x y : K} (h : (EC a b).Nonsingular x y) (hy : y ≠ 0)
    {c α β γ : K} (hc : c ≠ 0) (hα : α = -c * (3 * x ^ 2 + a)) (hβ : β = c * (2 * y))
    (hγ : γ = -c * (2 * y ^ 2 - (3 * x ^ 2 + a) * x)) :
    IsLine a b α β γ (.some x y h) (.some x y h) := by
  have hne : y ≠ (EC a b).negY x y := by
    rw [Pbc.Curve.negY_EC]
    intro h
    exact mul_ne_zero h2 hy (by linear_combination h)
  have hsl : (EC a b).slope x x y y = (3 * x ^ 2 + a) / (2 * y) := by
    rw [slope_of_Y_ne rfl hne, Pbc.Curve.negY_EC]
    simp only [EC]
    congr 1 <;> ring
  have hd : 2 * y ≠ 0 := mul_ne_zero h2 hy
  refine ⟨fun h => hne h.2, by rw [hβ]; exact mul_ne_zero hc hd, ?_, ?_⟩
  · rw [hsl, hα, hβ]; field_simp
  · rw [hsl, hγ, hβ]; field_simp

/-- The line through two points, scaled by `c`. -/
theorem isLine_ch {x₁ y₁ x₂ y₂ : K} (h₁ : (EC a b).Nonsingular x₁ y₁)
    (h₂ : (EC a b).Nonsingular x₂ y₂) (hx : x₁ ≠ x₂) {c α β γ : K} (hc : c ≠ 0)
    (hα : α = c * (y₁ - y₂)) (hβ : β = c * (x₂ - x₁)) (hγ : γ = c * (x₁ * y₂ - y₁ * x₂)) :
    IsLine a b α β γ (.some x₁ y₁ h₁) (.some x₂ y₂ h₂) := by
  have hd : x₁ - x₂ ≠ 0 := sub_ne_zero.2 hx
  have hd' : x₂ - x₁ ≠ 0 := sub_ne_zero.2 hx.symm
  have hsl : (EC a b).slope x₁ x₂ y₁ y₂ = (y₁ - y₂) / (x₁ - x₂) := slope_of_X_ne hx
  refine ⟨fun h => hx h.1, by rw [hβ]; exact mul_ne_zero hc hd', ?_, ?_⟩
  · rw [hsl, hα, hβ]; field_simp; ring
  · rw [hsl, hγ, hβ]; field_simp; ring

/-- Points with the same first coordinate are equal or opposite. -/
theorem x_ne_of {x₁ y₁ x₂ y₂ : K} (h₁ : (EC a b).Nonsingular x₁ y₁)
    (h₂ : (EC a b).Nonsingular x₂ y₂) (hne : Point.some x₁ y₁ h₁ ≠ .some x₂ y₂ h₂)
    (hne' : Point.some x₁ y₁ h₁ ≠ -.some x₂ y₂ h₂) : x₁ ≠ x₂ := by
  rintro rfl
  have := eqn_of h₁
  rw [← eqn_of h₂, sq_eq_sq_iff_eq_or_eq_neg] at this
  rcases this with rfl | rfl
  · exact hne rfl
  · refine hne' ?_
    rw [Point.neg_some, Point.some.injEq, Pbc.Curve.negY_EC]
    exact ⟨rfl, rfl⟩

theorem y_ne_of {x y : K} (h : (EC a b).Nonsingular x y) (h2 : 2 • Point.some x y h ≠ 0) : y ≠ 0 := by
  rintro rfl
  refine h2 ?_
  rw [two_nsmul]
  exact Point.add_of_Y_eq rfl (by rw [Pbc.Curve.negY_EC, neg_zero])

/-- A stored nonzero point. -/
theorem rep_some {p : Pt K} {P : (EC a b).Point} (h : PtRep p P) (hP : P ≠ 0) :
    ∃ hn : (EC a b).Nonsingular p.x p.y, P = .some p.x p.y hn ∧ p.inf = false := by
  rcases P with _ | ⟨x, y, hn⟩
  · exact absurd rfl hP
  · obtain ⟨h1, rfl, rfl⟩ : p.inf = false ∧ p.x = x ∧ p.y = y := h
    exact ⟨hn, rfl, h1⟩

/-- Value of a line at a place. -/
def lval (α β γ : K) (Q : Place L a b) : L :=
  algebraMap K L α * algebraMap K L Q.x + algebraMap K L β * Q.Y + algebraMap K L γ

variable {P : (EC a b).Point} {f g : Place L a b → L}

theorem Mil.ne_zero {n : ℤ} (h : Mil L P n f) (Q : Place L a b) : f Q ≠ 0 := (h.hasDiv Q).ne_zero

/-- A doubling step. -/
theorem Mil.dbl {n : ℤ} {α β γ : K} (h : Mil L P n f) (hl : IsLine a b α β γ (n • P) (n • P)) :
    Mil L P (2 * n) (fun Q => f Q ^ 2 * lval α β γ Q) := by
  have := Mil.add h h hl
  rw [two_mul]
  simpa only [pow_two, lval] using this

/-- An addition step. -/
theorem Mil.succ {n : ℤ} {α β γ : K} (h : Mil L P n f) (hl : IsLine a b α β γ (n • P) P) :
    Mil L P (n + 1) (fun Q => f Q * lval α β γ Q) := by
  have := Mil.add h Mil.one (by rwa [one_smul])
  simpa only [mul_one, lval] using this

end Tate
