import Verif.Lemmas.Tate
import Verif.Lemmas.Curve

/-!
# Miller functions evaluated at points with an irrational second coordinate

`Place` is a point of the curve over `L` with its first coordinate in `K` and its second coordinate
outside `K`.  `Mil P n f` says that `f`, as a function of the place, is built by Miller's rules from
lines through multiples of `P`.
-/

set_option autoImplicit false
set_option linter.unusedSectionVars false

namespace Tate

open WeierstrassCurve WeierstrassCurve.Affine WeierstrassCurve.Affine.CoordinateRing Polynomial
open scoped nonZeroDivisors
open Spec (EC)

variable {K : Type*} [Field K] [DecidableEq K] {L : Type*} [Field L] [Algebra K L]

/-- A point of `Y² = X³ + a X + b` over `L`, first coordinate in `K`, second coordinate outside
`K`. -/
structure Place (L : Type*) [Field L] [Algebra K L] (a b : K) where
  x : K
  Y : L
  eqn : Y ^ 2 = algebraMap K L (x ^ 3 + a * x + b)
  irr : ∀ y : K, Y ≠ algebraMap K L y

variable {a b : K}

/-- Evaluation of functions at a place. -/
noncomputable def ev (Q : Place L a b) : (EC a b).CoordinateRing →ₐ[K] L :=
  AdjoinRoot.liftAlgHom (S := K) _ (Polynomial.aeval (algebraMap K L Q.x)) Q.Y (by
    rw [WeierstrassCurve.Affine.polynomial]
    have := Q.eqn
    simp only [map_add, map_mul, map_pow] at this
    simp [EC, eval₂_add, eval₂_sub, eval₂_mul, eval₂_pow, this])

theorem ev_mk (Q : Place L a b) (f : K[X][X]) :
    ev Q (mk (EC a b) f) = f.eval₂ (Polynomial.aeval (algebraMap K L Q.x) : K[X] →ₐ[K] L) Q.Y := rfl

theorem ev_XClass (Q : Place L a b) (x : K) :
    ev Q (XClass (EC a b) x) = algebraMap K L (Q.x - x) := by
  rw [XClass, ev_mk]
  simp

theorem ev_YClass (Q : Place L a b) (p : K[X]) :
    ev Q (YClass (EC a b) p) = Q.Y - algebraMap K L (p.eval Q.x) := by
  rw [YClass, ev_mk]
  simp [Polynomial.aeval_algebraMap_apply]

/-- A place is on no vertical line through a point of `K`. -/
theorem Place.x_ne (Q : Place L a b) {x y : K} (h : y ^ 2 = x ^ 3 + a * x + b) : Q.x ≠ x := by
  intro e
  have h1 := Q.eqn
  rw [e, ← h, map_pow, sq_eq_sq_iff_eq_or_eq_neg] at h1
  rcases h1 with h1 | h1
  · exact Q.irr _ h1
  · exact Q.irr (-y) (by rw [h1, map_neg])

theorem eqn_of {x y : K} (h : (EC a b).Nonsingular x y) : y ^ 2 = x ^ 3 + a * x + b := by
  have := (equation_iff ..).mp h.left
  simpa [EC] using this

/-- A line with `β ≠ 0` does not meet a place. -/
theorem Place.line_ne (Q : Place L a b) {α β γ : K} (hβ : β ≠ 0) :
    algebraMap K L α * algebraMap K L Q.x + algebraMap K L β * Q.Y + algebraMap K L γ ≠ 0 := by
  intro e
  have hb : algebraMap K L β ≠ 0 := by simpa using hβ
  refine Q.irr (-(α * Q.x + γ) / β) ?_
  rw [map_div₀, map_neg, map_add, map_mul, eq_div_iff hb]
  linear_combination e

theorem of_neg (Q : Place L a b) (T : (EC a b).Point) :
    HasDiv (ev Q) 1 (FreeAbelianGroup.of T + FreeAbelianGroup.of (-T)) := by
  rcases T with _ | ⟨x, y, h⟩
  · refine ⟨1, 1, by simp, by simp, by simpa using Sim.refl _, ?_⟩
    rw [fid_add, ← Point.zero_def, Point.neg_zero, fid_of]
    simp [idl, Point.zero_def]
  · have hx : Q.x - x ≠ 0 := sub_ne_zero.mpr (Q.x_ne (eqn_of h))
    refine ⟨XClass (EC a b) x, 1, ?_, by simp, ?_, ?_⟩
    · rw [ev_XClass]; exact (_root_.map_ne_zero _).mpr hx
    · rw [ev_XClass, map_one, mul_one]
      exact (Sim.const hx).symm
    · rw [fid_add, fid_of, fid_of, Point.neg_some, idl, idl, XYIdeal'_eq, XYIdeal'_eq, map_one,
        FractionalIdeal.spanSingleton_one, one_mul, mul_comm, ← FractionalIdeal.coeIdeal_mul,
        XYIdeal_neg_mul h, XIdeal, FractionalIdeal.coeIdeal_span_singleton]

/-- `α X + β Y + γ = 0` is the line through `A` and `B` (the tangent if `A = B`), which is not
vertical. -/
def IsLine (a b : K) (α β γ : K) : (EC a b).Point → (EC a b).Point → Prop
  | .some x₁ y₁ _, .some x₂ y₂ _ => ¬(x₁ = x₂ ∧ y₁ = (EC a b).negY x₂ y₂) ∧ β ≠ 0 ∧
      α = -β * (EC a b).slope x₁ x₂ y₁ y₂ ∧ γ = -β * (y₁ - (EC a b).slope x₁ x₂ y₁ y₂ * x₁)
  | _, _ => False

theorem line_eval (Q : Place L a b) (x y s : K) :
    algebraMap K L ((linePolynomial x y s).eval Q.x) =
      algebraMap K L s * (algebraMap K L Q.x - algebraMap K L x) + algebraMap K L y := by
  simp [linePolynomial]

theorem of_line (Q : Place L a b) {α β γ : K} {A B : (EC a b).Point} (h : IsLine a b α β γ A B) :
    HasDiv (ev Q) (algebraMap K L α * algebraMap K L Q.x + algebraMap K L β * Q.Y + algebraMap K L γ)
      (FreeAbelianGroup.of A + FreeAbelianGroup.of B - FreeAbelianGroup.of (A + B)) := by
  rcases A with _ | ⟨x₁, y₁, h₁⟩
  · exact absurd h (by simp [IsLine])
  rcases B with _ | ⟨x₂, y₂, h₂⟩
  · exact absurd h (by simp [IsLine])
  obtain ⟨hxy, hβ, hα, hγ⟩ := h
  have hn := nonsingular_add h₁ h₂ hxy
  rw [Point.add_some hxy]
  set s := (EC a b).slope x₁ x₂ y₁ y₂ with hs
  have hx : Q.x - (EC a b).addX x₁ x₂ s ≠ 0 := sub_ne_zero.mpr (Q.x_ne (eqn_of hn))
  have key : algebraMap K L α * algebraMap K L Q.x + algebraMap K L β * Q.Y + algebraMap K L γ =
      algebraMap K L β * ev Q (YClass (EC a b) (linePolynomial x₁ y₁ s)) := by
    rw [ev_YClass, line_eval, hα, hγ]
    simp only [map_mul, map_neg, map_sub]
    ring
  refine ⟨YClass (EC a b) (linePolynomial x₁ y₁ s), XClass (EC a b) ((EC a b).addX x₁ x₂ s), ?_, ?_,
    ?_, ?_⟩
  · intro e
    rw [e, mul_zero] at key
    exact Q.line_ne hβ key
  · rw [ev_XClass]; exact (_root_.map_ne_zero _).mpr hx
  · rw [key, ev_XClass]
    refine ⟨β * (Q.x - (EC a b).addX x₁ x₂ s), mul_ne_zero hβ hx, ?_⟩
    rw [map_mul]
    ring
  · have e := XYIdeal_mul_XYIdeal h₁.left h₂.left hxy
    have e' := congrArg (fun I : Ideal (EC a b).CoordinateRing =>
      (I : FractionalIdeal (EC a b).CoordinateRing⁰ (EC a b).FunctionField)) e
    simp only [FractionalIdeal.coeIdeal_mul, XIdeal, YIdeal,
      FractionalIdeal.coeIdeal_span_singleton] at e'
    rw [sub_eq_add_neg, fid_add, fid_add, fid_of, fid_of, idl, idl, XYIdeal'_eq, XYIdeal'_eq,
      ← mul_assoc, ← hs] at *
    rw [← mul_assoc, e', mul_assoc]
    have e2 := fid_neg_mul (FreeAbelianGroup.of (Point.some _ _ hn))
    rw [fid_of, idl, XYIdeal'_eq, mul_comm] at e2
    exact (mul_one _).symm.trans (congrArg _ e2.symm)

/-- Miller's rules.  `f` is the value of a function with divisor `n (P) - (n P) - (n - 1) O`, up to
vertical lines and constants. -/
inductive Mil (L : Type*) [Field L] [Algebra K L] {a b : K} (P : (EC a b).Point) :
    ℤ → (Place L a b → L) → Prop
  | one : Mil L P 1 (fun _ => 1)
  | add {n m : ℤ} {f g : Place L a b → L} {α β γ : K} : Mil L P n f → Mil L P m g →
      IsLine a b α β γ (n • P) (m • P) → Mil L P (n + m) (fun Q => f Q * g Q *
        (algebraMap K L α * algebraMap K L Q.x + algebraMap K L β * Q.Y + algebraMap K L γ))
  | inv {n : ℤ} {f : Place L a b → L} : Mil L P n f → Mil L P (-n) (fun Q => (f Q)⁻¹)
  | scale {n : ℤ} {f g : Place L a b → L} : Mil L P n f → (∀ Q, Sim K (g Q) (f Q)) → Mil L P n g

theorem Mil.hasDiv {P : (EC a b).Point} {n : ℤ} {f : Place L a b → L} (h : Mil L P n f)
    (Q : Place L a b) : HasDiv (ev Q) (f Q)
      (n • FreeAbelianGroup.of P - FreeAbelianGroup.of (n • P)) := by
  induction h with
  | one => simpa using HasDiv.zero
  | add hf hg hl ihf ihg =>
    have := (ihf.mul ihg).mul (of_line Q hl)
    convert this using 1
    rw [add_smul, add_smul]
    abel
  | @inv n f hf ih =>
    have := ih.inv.mul (of_neg Q (n • P)).inv
    rw [inv_one, mul_one] at this
    convert this using 1
    rw [neg_smul, neg_smul]
    abel
  | scale hf hs ih => exact ih.sim (hs Q)

/-- Three places on one line, the third negated: `Q₃ = Q₁ + Q₂`. -/
structure Collinear (Q₁ Q₂ Q₃ : Place L a b) (s t : L) : Prop where
  e1 : s ^ 2 = algebraMap K L (Q₁.x + Q₂.x + Q₃.x)
  e2 : algebraMap K L a - 2 * s * t = algebraMap K L (Q₁.x * Q₂.x + Q₁.x * Q₃.x + Q₂.x * Q₃.x)
  e3 : t ^ 2 - algebraMap K L b = algebraMap K L (Q₁.x * Q₂.x * Q₃.x)
  y1 : Q₁.Y = s * algebraMap K L Q₁.x + t
  y2 : Q₂.Y = s * algebraMap K L Q₂.x + t
  y3 : -Q₃.Y = s * algebraMap K L Q₃.x + t

/-- The value of the line `Y = s X + t` at a point of `K`. -/
def lv (a b : K) (s t : L) : (EC a b).Point → L
  | .zero => 1
  | .some x y _ => algebraMap K L y - s * algebraMap K L x - t

theorem lv_neg {Q₁ Q₂ Q₃ : Place L a b} {s t : L} (h : Collinear Q₁ Q₂ Q₃ s t)
    (T : (EC a b).Point) : Sim K (lv a b s t T * lv a b s t (-T)) 1 := by
  rcases T with _ | ⟨x, y, hn⟩
  · rw [← Point.zero_def, Point.neg_zero, Point.zero_def, lv, mul_one]; exact Sim.refl _
  · have hy := eqn_of hn
    rw [Point.neg_some, lv, lv, Pbc.Curve.negY_EC]
    refine ⟨(Q₁.x - x) * (Q₂.x - x) * (Q₃.x - x), mul_ne_zero (mul_ne_zero ?_ ?_) ?_, ?_⟩
    · exact sub_ne_zero.mpr (Q₁.x_ne hy)
    · exact sub_ne_zero.mpr (Q₂.x_ne hy)
    · exact sub_ne_zero.mpr (Q₃.x_ne hy)
    · have e1 := h.e1
      have e2 := h.e2
      have e3 := h.e3
      have hy' := congrArg (algebraMap K L) hy
      simp only [map_add, map_mul, map_sub, map_neg, map_pow, mul_one] at *
      linear_combination -hy' + algebraMap K L x ^ 2 * e1 - algebraMap K L x * e2 + e3

theorem lv_ne {Q₁ Q₂ Q₃ : Place L a b} {s t : L} (h : Collinear Q₁ Q₂ Q₃ s t)
    (T : (EC a b).Point) : lv a b s t T ≠ 0 :=
  left_ne_zero_of_mul ((lv_neg h T).ne_zero one_ne_zero)

theorem sym_slope {x₁ x₂ y₁ y₂ : K} (h₁ : (EC a b).Equation x₁ y₁) (h₂ : (EC a b).Equation x₂ y₂)
    (hxy : ¬(x₁ = x₂ ∧ y₁ = (EC a b).negY x₂ y₂)) {s x₃ : K}
    (hs : s = (EC a b).slope x₁ x₂ y₁ y₂) (hx : x₃ = (EC a b).addX x₁ x₂ s) :
    s ^ 2 = x₁ + x₂ + x₃ ∧ a - 2 * s * (y₁ - s * x₁) = x₁ * x₂ + x₁ * x₃ + x₂ * x₃ ∧
      (y₁ - s * x₁) ^ 2 - b = x₁ * x₂ * x₃ := by
  have e := addPolynomial_slope h₁ h₂ hxy
  rw [← hs, ← hx, addPolynomial_eq] at e
  have e0 := congrArg (Polynomial.eval 0) e
  have e1 := congrArg (Polynomial.eval 1) e
  simp [EC, Cubic.toPoly] at e0 e1
  have ex : s ^ 2 = x₁ + x₂ + x₃ := by rw [hx]; simp [addX, EC]
  refine ⟨ex, ?_, ?_⟩
  · linear_combination e0 - e1 + ex
  · linear_combination e0

/-- The product of the values of a line at three collinear places, against the values of their line
at the three points of the first. -/
theorem rec_line {Q₁ Q₂ Q₃ : Place L a b} {s t : L} (h : Collinear Q₁ Q₂ Q₃ s t)
    {α β γ : K} {A B : (EC a b).Point} (hl : IsLine a b α β γ A B) {g : Place L a b → L}
    (hg : ∀ Q, g Q =
      algebraMap K L α * algebraMap K L Q.x + algebraMap K L β * Q.Y + algebraMap K L γ) :
    Sim K (g Q₁ * g Q₂)
      (g Q₃ * (lv a b s t A * lv a b s t B * (lv a b s t (A + B))⁻¹)) := by
  have hne := lv_neg h (A + B)
  have hne0 := lv_ne h (A + B)
  rcases A with _ | ⟨x₁, y₁, h₁⟩
  · exact absurd hl (by simp [IsLine])
  rcases B with _ | ⟨x₂, y₂, h₂⟩
  · exact absurd hl (by simp [IsLine])
  obtain ⟨hxy, hβ, hα, hγ⟩ := hl
  have hn := nonsingular_add h₁ h₂ hxy
  rw [Point.add_some hxy] at hne hne0 ⊢
  obtain ⟨e1, e2, e3⟩ := sym_slope h₁.left h₂.left hxy rfl rfl
  have hy2 : y₂ = (EC a b).slope x₁ x₂ y₁ y₂ * (x₂ - x₁) + y₁ := by
    by_cases hx : x₁ = x₂
    · have hy := Y_eq_of_Y_ne h₁.left h₂.left hx (fun e => hxy ⟨hx, e⟩)
      rw [hy, hx]; ring
    · rw [slope_of_X_ne hx]
      have := sub_ne_zero.mpr hx
      field_simp
      ring
  have hy3 : (EC a b).addY x₁ x₂ y₁ ((EC a b).slope x₁ x₂ y₁ y₂) =
      -((EC a b).slope x₁ x₂ y₁ y₂ * ((EC a b).addX x₁ x₂ ((EC a b).slope x₁ x₂ y₁ y₂) - x₁) + y₁) := by
    rw [addY, Pbc.Curve.negY_EC, negAddY]
  rw [Point.neg_some] at hne
  simp only [lv, Pbc.Curve.negY_EC] at hne hne0 ⊢
  clear hn
  generalize (EC a b).slope x₁ x₂ y₁ y₂ = u at *
  generalize (EC a b).addX x₁ x₂ u = x₃ at *
  generalize (EC a b).addY x₁ x₂ y₁ u = y₃ at *
  -- the product over the three places
  have p1 : g Q₁ * g Q₂ * (algebraMap K L α * algebraMap K L Q₃.x - algebraMap K L β * Q₃.Y +
      algebraMap K L γ) = -algebraMap K L β ^ 3 *
      ((algebraMap K L y₁ - s * algebraMap K L x₁ - t) *
      (algebraMap K L y₂ - s * algebraMap K L x₂ - t) *
      (algebraMap K L (-y₃) - s * algebraMap K L x₃ - t)) := by
    have e1' := congrArg (algebraMap K L) e1
    have e2' := congrArg (algebraMap K L) e2
    have e3' := congrArg (algebraMap K L) e3
    have f1 := h.e1
    have f2 := h.e2
    have f3 := h.e3
    have g1 := h.y1
    have g2 := h.y2
    have g3 : Q₃.Y = -(s * algebraMap K L Q₃.x + t) := by rw [← h.y3, neg_neg]
    rw [hg, hg, g1, g2, g3, hα, hγ, hy2, hy3]
    simp only [map_add, map_mul, map_sub, map_neg, map_pow, map_ofNat] at *
    generalize algebraMap K L β = B at *
    generalize algebraMap K L u = u at *
    generalize algebraMap K L x₁ = x₁ at *
    generalize algebraMap K L x₂ = x₂ at *
    generalize algebraMap K L x₃ = x₃ at *
    generalize algebraMap K L y₁ = y₁ at *
    generalize algebraMap K L Q₁.x = X₁ at *
    generalize algebraMap K L Q₂.x = X₂ at *
    generalize algebraMap K L Q₃.x = X₃ at *
    generalize algebraMap K L a = a' at *
    generalize algebraMap K L b = b' at *
    linear_combination -B ^ 3 * (s - u) ^ 3 * f3 - B ^ 3 * (s - u) ^ 2 * (t - (y₁ - u * x₁)) * f2 -
      B ^ 3 * (s - u) * (t - (y₁ - u * x₁)) ^ 2 * f1 + B ^ 3 * (s - u) ^ 3 * e3' +
      B ^ 3 * (s - u) ^ 2 * (t - (y₁ - u * x₁)) * e2' +
      B ^ 3 * (s - u) * (t - (y₁ - u * x₁)) ^ 2 * e1'
  -- the value at `-Q₃` against the value at `Q₃`
  have p2 : Sim K (g Q₃ * (algebraMap K L α * algebraMap K L Q₃.x - algebraMap K L β * Q₃.Y +
      algebraMap K L γ)) 1 := by
    have hne3 : g Q₃ * (algebraMap K L α * algebraMap K L Q₃.x - algebraMap K L β * Q₃.Y +
        algebraMap K L γ) ≠ 0 := by
      refine mul_ne_zero (by rw [hg]; exact Q₃.line_ne hβ) ?_
      have := Q₃.line_ne (α := α) (γ := γ) (neg_ne_zero.mpr hβ)
      rwa [map_neg, neg_mul, ← sub_eq_add_neg] at this
    have e : g Q₃ * (algebraMap K L α * algebraMap K L Q₃.x - algebraMap K L β * Q₃.Y +
        algebraMap K L γ) =
        algebraMap K L ((α * Q₃.x + γ) ^ 2 - β ^ 2 * (Q₃.x ^ 3 + a * Q₃.x + b)) := by
      rw [hg, map_sub, map_mul, ← Q₃.eqn]
      simp only [map_add, map_mul, map_pow]
      ring
    rw [e] at hne3 ⊢
    exact Sim.const ((_root_.map_ne_zero _).mp hne3)
  have p3 : Sim K (g Q₁ * g Q₂ * (algebraMap K L α * algebraMap K L Q₃.x - algebraMap K L β * Q₃.Y +
      algebraMap K L γ)) ((algebraMap K L y₁ - s * algebraMap K L x₁ - t) *
      (algebraMap K L y₂ - s * algebraMap K L x₂ - t) *
      (algebraMap K L (-y₃) - s * algebraMap K L x₃ - t)) := by
    rw [p1]
    exact ⟨-β ^ 3, neg_ne_zero.mpr (pow_ne_zero 3 hβ), by simp only [map_neg, map_pow]⟩
  have p2' := p2.ne_zero one_ne_zero
  have q3 := left_ne_zero_of_mul p2'
  have q4 := right_ne_zero_of_mul p2'
  have p4 := (p3.mul (p2.symm.mul hne.symm.inv))
  have hne1 := right_ne_zero_of_mul (hne.ne_zero one_ne_zero)
  generalize algebraMap K L α * algebraMap K L Q₃.x - algebraMap K L β * Q₃.Y +
      algebraMap K L γ = w at *
  generalize algebraMap K L (-y₃) - s * algebraMap K L x₃ - t = w3 at *
  generalize algebraMap K L y₃ - s * algebraMap K L x₃ - t = w3' at *
  have p5 := p4.mul (Sim.refl (K := K) w⁻¹)
  convert p5 using 1
  · field_simp
  · field_simp

/-- Miller functions of `P` at `Q₁`, `Q₂` and `Q₁ + Q₂`. -/
theorem Mil.rec_add {P : (EC a b).Point} {n : ℤ} {f : Place L a b → L} (hf : Mil L P n f)
    {Q₁ Q₂ Q₃ : Place L a b} {s t : L} (h : Collinear Q₁ Q₂ Q₃ s t) :
    Sim K (f Q₁ * f Q₂) (f Q₃ * (lv a b s t P ^ n * (lv a b s t (n • P))⁻¹)) := by
  have hl := fun T => lv_ne h T
  induction hf with
  | one =>
    have := hl P
    simp only [one_mul, zpow_one, one_smul]
    rw [mul_inv_cancel₀ this]
    exact Sim.refl _
  | @add n m f g α β γ hf hg hli ihf ihg =>
    have e := (ihf.mul ihg).mul (rec_line h hli (g := fun Q => algebraMap K L α * algebraMap K L Q.x +
      algebraMap K L β * Q.Y + algebraMap K L γ) (fun _ => rfl))
    have h1 := hl P
    have h2 := hl (n • P)
    have h3 := hl (m • P)
    have h4 := hl (n • P + m • P)
    rw [add_smul, zpow_add₀ h1]
    convert e using 1
    · ring
    · field_simp
  | @inv n f hf ih =>
    have h1 := hl P
    have h2 := hl (n • P)
    have h3 := hl (-(n • P))
    have h4 := lv_neg h (n • P)
    rw [neg_smul, zpow_neg]
    have e := ih.inv.mul h4
    rw [mul_one] at e
    have e2 := e.mul (Sim.refl (K := K) ((lv a b s t (n • P))⁻¹ * (lv a b s t (-(n • P)))⁻¹))
    convert e2 using 1
    · field_simp
    · rw [mul_inv, mul_inv, inv_inv]
      field_simp
  | scale hf hs ih => exact ((hs Q₁).mul (hs Q₂)).trans (ih.trans ((hs Q₃).symm.mul (Sim.refl _)))

end Tate
