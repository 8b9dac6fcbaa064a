import Verif.Lemmas.TateLine

/-!
# Miller functions evaluated at rational points off their support

Everything happens over one field.  `Off H` is a point of the curve outside the subgroup `H`, which
contains the points the lines go through.  Functions are determined by their divisors up to one
constant for all points (`HasDivK.unique`).
-/

set_option autoImplicit false
set_option linter.unusedSectionVars false

namespace TateK

open WeierstrassCurve WeierstrassCurve.Affine WeierstrassCurve.Affine.CoordinateRing Polynomial
open scoped nonZeroDivisors
open Spec (EC)
open Tate (fid fid_zero fid_add fid_of fid_neg_mul idl unit_const eqn_of IsLine sym_slope exists_line
  x_ne_of)

variable {K : Type*} [Field K] [DecidableEq K] {a b : K}

/-- A point outside `H`. -/
structure Off (H : AddSubgroup (EC a b).Point) where
  x : K
  y : K
  ns : (EC a b).Nonsingular x y
  off : Point.some x y ns ∉ H

variable {H : AddSubgroup (EC a b).Point}

/-- The point. -/
def Off.pt (A : Off H) : (EC a b).Point := .some A.x A.y A.ns

theorem Off.pt_notMem (A : Off H) : A.pt ∉ H := A.off

theorem Off.eqn (A : Off H) : A.y ^ 2 = A.x ^ 3 + a * A.x + b := eqn_of A.ns

theorem exists_off {P : (EC a b).Point} (h : P ∉ H) : ∃ A : Off H, A.pt = P := by
  rcases P with _ | ⟨x, y, hn⟩
  · exact absurd H.zero_mem h
  · exact ⟨⟨x, y, hn, h⟩, rfl⟩

theorem Off.ext {A B : Off H} (h : A.pt = B.pt) : A = B := by
  obtain ⟨x, y, hn, ho⟩ := A
  obtain ⟨x', y', hn', ho'⟩ := B
  obtain ⟨rfl, rfl⟩ := Point.some.inj h
  rfl

/-- Evaluation of functions at a point. -/
noncomputable def ev (A : Off H) : (EC a b).CoordinateRing →ₐ[K] K :=
  AdjoinRoot.liftAlgHom (S := K) _ (Polynomial.aeval A.x) A.y (by
    rw [WeierstrassCurve.Affine.polynomial]
    have := A.eqn
    simp [EC, eval₂_add, eval₂_sub, eval₂_mul, eval₂_pow, this])

theorem ev_mk (A : Off H) (f : K[X][X]) :
    ev A (mk (EC a b) f) = f.eval₂ (Polynomial.aeval A.x : K[X] →ₐ[K] K) A.y := rfl

theorem ev_XClass (A : Off H) (x : K) : ev A (XClass (EC a b) x) = A.x - x := by
  rw [XClass, ev_mk]
  simp

theorem ev_YClass (A : Off H) (p : K[X]) : ev A (YClass (EC a b) p) = A.y - p.eval A.x := by
  rw [YClass, ev_mk]
  simp

/-- `f` has affine divisor `D`, supported on `H`. -/
def HasDivK (f : Off H → K) (D : FreeAbelianGroup (EC a b).Point) : Prop :=
  ∃ F G : (EC a b).CoordinateRing,
    (∀ A : Off H, ev A F ≠ 0 ∧ ev A G ≠ 0 ∧ f A * ev A G = ev A F) ∧
    FractionalIdeal.spanSingleton (EC a b).CoordinateRing⁰
      (algebraMap (EC a b).CoordinateRing (EC a b).FunctionField F) =
    FractionalIdeal.spanSingleton (EC a b).CoordinateRing⁰
      (algebraMap (EC a b).CoordinateRing (EC a b).FunctionField G) * fid D

variable {f g : Off H → K} {D E : FreeAbelianGroup (EC a b).Point}

theorem HasDivK.zero : HasDivK (fun _ : Off H => 1) 0 :=
  ⟨1, 1, by simp, by simp [fid_zero]⟩

theorem HasDivK.mul (h : HasDivK f D) (h' : HasDivK g E) : HasDivK (fun A => f A * g A) (D + E) := by
  obtain ⟨F, G, hs, hd⟩ := h
  obtain ⟨F', G', hs', hd'⟩ := h'
  refine ⟨F * F', G * G', fun A => ?_, ?_⟩
  · obtain ⟨h1, h2, h3⟩ := hs A
    obtain ⟨h1', h2', h3'⟩ := hs' A
    rw [map_mul, map_mul]
    exact ⟨mul_ne_zero h1 h1', mul_ne_zero h2 h2', by rw [← h3, ← h3']; ring⟩
  · rw [map_mul, map_mul, ← FractionalIdeal.spanSingleton_mul_spanSingleton,
      ← FractionalIdeal.spanSingleton_mul_spanSingleton, hd, hd', fid_add]
    ring

theorem HasDivK.ne_zero (h : HasDivK f D) (A : Off H) : f A ≠ 0 := by
  obtain ⟨F, G, hs, hd⟩ := h
  obtain ⟨h1, h2, h3⟩ := hs A
  intro h0
  rw [h0, zero_mul] at h3
  exact h1 h3.symm

theorem HasDivK.inv (h : HasDivK f D) : HasDivK (fun A => (f A)⁻¹) (-D) := by
  have hn := h.ne_zero
  obtain ⟨F, G, hs, hd⟩ := h
  refine ⟨G, F, fun A => ?_, ?_⟩
  · obtain ⟨h1, h2, h3⟩ := hs A
    exact ⟨h2, h1, by rw [← h3, inv_mul_cancel_left₀ (hn A)]⟩
  · rw [hd, mul_assoc, mul_comm (fid D), fid_neg_mul, mul_one]

theorem HasDivK.congr (h : HasDivK f D) (he : ∀ A, g A = f A) : HasDivK g D := by
  have : g = f := funext he
  rwa [this]

theorem HasDivK.pow (h : HasDivK f D) (n : ℕ) : HasDivK (fun A => f A ^ n) (n • D) := by
  induction n with
  | zero => simpa using HasDivK.zero
  | succ n ih =>
    rw [add_smul, one_smul]
    exact (ih.mul h).congr (fun A => pow_succ _ _)

theorem HasDivK.const {c : K} (hc : c ≠ 0) : HasDivK (fun _ : Off H => c) 0 := by
  have hu : IsUnit (algebraMap K (EC a b).CoordinateRing c) := (IsUnit.mk0 c hc).map _
  refine ⟨algebraMap K _ c, 1, fun A => ?_, ?_⟩
  · rw [AlgHom.commutes, map_one]
    simp [hc]
  · rw [fid_zero, mul_one, map_one]
    obtain ⟨u, hu⟩ := hu
    rw [FractionalIdeal.spanSingleton_eq_spanSingleton]
    refine ⟨u⁻¹, ?_⟩
    rw [← hu, Units.smul_def, Algebra.smul_def, ← map_mul, Units.inv_mul, map_one]

theorem HasDivK.smul (h : HasDivK f D) {c : K} (hc : c ≠ 0) (he : ∀ A, g A = c * f A) :
    HasDivK g D := by
  have := (HasDivK.const hc).mul h
  rw [zero_add] at this
  exact this.congr he

/-- Two functions with the same divisor differ by one constant. -/
theorem HasDivK.unique (h : HasDivK f D) (h' : HasDivK g D) : ∃ c : K, c ≠ 0 ∧ ∀ A, f A = c * g A := by
  have hw := h'.ne_zero
  obtain ⟨F, G, hs, hd⟩ := h.mul h'.inv
  rw [add_neg_cancel, fid_zero, mul_one] at hd
  have hu : ∃ u : (EC a b).CoordinateRing, IsUnit u ∧ F = u * G := by
    have h1 := (FractionalIdeal.spanSingleton_eq_spanSingleton
      (R := (EC a b).CoordinateRing) (S := (EC a b).CoordinateRing⁰)
      (P := (EC a b).FunctionField)).mp hd
    obtain ⟨u, hu⟩ := h1
    refine ⟨(u⁻¹ : (EC a b).CoordinateRingˣ), Units.isUnit _, ?_⟩
    apply IsFractionRing.injective (EC a b).CoordinateRing (EC a b).FunctionField
    rw [map_mul, ← hu, Units.smul_def, Algebra.smul_def, ← mul_assoc, ← map_mul, Units.inv_mul,
      map_one, one_mul]
  obtain ⟨u, hu, rfl⟩ := hu
  obtain ⟨c, hc, rfl⟩ := unit_const hu
  refine ⟨c, hc, fun A => ?_⟩
  obtain ⟨h1, h2, h3⟩ := hs A
  rw [map_mul, AlgHom.commutes, Algebra.algebraMap_self_apply] at h3
  have := mul_right_cancel₀ h2 h3
  rw [← this, mul_assoc, inv_mul_cancel₀ (hw A), mul_one]

/-! ### Vertical lines -/

/-- The vertical line through a point. -/
def vval : (EC a b).Point → Off H → K
  | .zero, _ => 1
  | .some x _ _, A => A.x - x

theorem vval_zero (A : Off H) : vval 0 A = 1 := rfl

theorem vval_some {x y : K} (h : (EC a b).Nonsingular x y) (A : Off H) :
    vval (.some x y h) A = A.x - x := rfl

theorem vval_neg (T : (EC a b).Point) (A : Off H) : vval (-T) A = vval T A := by
  rcases T with _ | ⟨x, y, h⟩
  · rfl
  · rfl

theorem Off.x_ne (A : Off H) {x y : K} (h : (EC a b).Nonsingular x y) (hT : Point.some x y h ∈ H) :
    A.x ≠ x :=
  x_ne_of A.ns h (fun e => A.off (e ▸ hT)) (fun e => A.off (e ▸ H.neg_mem hT))

theorem vval_ne {T : (EC a b).Point} (hT : T ∈ H) (A : Off H) : vval T A ≠ 0 := by
  rcases T with _ | ⟨x, y, h⟩
  · exact one_ne_zero
  · exact sub_ne_zero.2 (A.x_ne h hT)

theorem of_vert {T : (EC a b).Point} (hT : T ∈ H) :
    HasDivK (vval T : Off H → K) (FreeAbelianGroup.of T + FreeAbelianGroup.of (-T)) := by
  have hn := fun A : Off H => vval_ne hT A
  rcases T with _ | ⟨x, y, h⟩
  · refine ⟨1, 1, fun A => by simp [vval], ?_⟩
    rw [fid_add, ← Point.zero_def, Point.neg_zero, fid_of]
    simp [idl, Point.zero_def]
  · refine ⟨XClass (EC a b) x, 1, fun A => ⟨?_, by simp, ?_⟩, ?_⟩
    · rw [ev_XClass]; exact hn A
    · rw [ev_XClass, map_one, mul_one, vval]
    · rw [fid_add, fid_of, fid_of, Point.neg_some, idl, idl, XYIdeal'_eq, XYIdeal'_eq, map_one,
        FractionalIdeal.spanSingleton_one, one_mul, mul_comm, ← FractionalIdeal.coeIdeal_mul,
        XYIdeal_neg_mul h, XIdeal, FractionalIdeal.coeIdeal_span_singleton]

/-! ### Other lines -/

/-- The value of `α X + β Y + γ`. -/
def lvalK (α β γ : K) (A : Off H) : K := α * A.x + β * A.y + γ

/-- What `IsLine` says, in coordinates. -/
theorem isLine_coords {α β γ : K} {S T : (EC a b).Point} (hl : IsLine a b α β γ S T) :
    ∃ x₁ y₁ x₂ y₂ x₃ y₃ u, ∃ (h₁ : (EC a b).Nonsingular x₁ y₁) (h₂ : (EC a b).Nonsingular x₂ y₂)
      (h₃ : (EC a b).Nonsingular x₃ y₃), S = .some x₁ y₁ h₁ ∧ T = .some x₂ y₂ h₂ ∧
      S + T = .some x₃ y₃ h₃ ∧ β ≠ 0 ∧ α = -β * u ∧ γ = -β * (y₁ - u * x₁) ∧
      y₂ = u * (x₂ - x₁) + y₁ ∧ -y₃ = u * (x₃ - x₁) + y₁ ∧
      u ^ 2 = x₁ + x₂ + x₃ ∧ a - 2 * u * (y₁ - u * x₁) = x₁ * x₂ + x₁ * x₃ + x₂ * x₃ ∧
      (y₁ - u * x₁) ^ 2 - b = x₁ * x₂ * x₃ := by
  rcases S with _ | ⟨x₁, y₁, h₁⟩
  · exact absurd hl (by simp [IsLine])
  rcases T with _ | ⟨x₂, y₂, h₂⟩
  · exact absurd hl (by simp [IsLine])
  obtain ⟨hxy, hβ, hα, hγ⟩ := hl
  have hn := nonsingular_add h₁ h₂ hxy
  obtain ⟨e1, e2, e3⟩ := sym_slope h₁.left h₂.left hxy rfl rfl
  have hy2 : y₂ = (EC a b).slope x₁ x₂ y₁ y₂ * (x₂ - x₁) + y₁ := by
    by_cases hx : x₁ = x₂
    · have hy := Y_eq_of_Y_ne h₁.left h₂.left hx (fun e => hxy ⟨hx, e⟩)
      rw [hy, hx]; ring
    · rw [slope_of_X_ne hx]
      have := sub_ne_zero.mpr hx
      field_simp
      ring
  have hy3 : -(EC a b).addY x₁ x₂ y₁ ((EC a b).slope x₁ x₂ y₁ y₂) =
      (EC a b).slope x₁ x₂ y₁ y₂ * ((EC a b).addX x₁ x₂ ((EC a b).slope x₁ x₂ y₁ y₂) - x₁) + y₁ := by
    rw [addY, Pbc.Curve.negY_EC, negAddY, neg_neg]
  exact ⟨x₁, y₁, x₂, y₂, _, _, _, h₁, h₂, hn, rfl, rfl, Point.add_some hxy, hβ, hα, hγ, hy2, hy3, e1, e2,
    e3⟩

theorem line_ne {α β γ : K} {S T : (EC a b).Point} (hl : IsLine a b α β γ S T) (hS : S ∈ H)
    (hT : T ∈ H) (A : Off H) : lvalK α β γ A ≠ 0 := by
  obtain ⟨x₁, y₁, x₂, y₂, x₃, y₃, u, h₁, h₂, h₃, rfl, rfl, hST, hβ, rfl, rfl, hy2, hy3, e1, e2, e3⟩ :=
    isLine_coords hl
  have m1 := A.x_ne h₁ hS
  have m2 := A.x_ne h₂ hT
  have m3 := A.x_ne h₃ (hST ▸ H.add_mem hS hT)
  intro e
  have hy : A.y = u * A.x + (y₁ - u * x₁) := by
    refine mul_left_cancel₀ hβ ?_
    rw [lvalK] at e
    linear_combination e
  have hA := A.eqn
  rw [hy] at hA
  have : (A.x - x₁) * ((A.x - x₂) * (A.x - x₃)) = 0 := by
    linear_combination -hA + A.x ^ 2 * e1 - A.x * e2 + e3
  rcases mul_eq_zero.1 this with h | h
  · exact m1 (sub_eq_zero.1 h)
  rcases mul_eq_zero.1 h with h | h
  · exact m2 (sub_eq_zero.1 h)
  · exact m3 (sub_eq_zero.1 h)

theorem of_line {α β γ : K} {S T : (EC a b).Point} (hl : IsLine a b α β γ S T) (hS : S ∈ H)
    (hT : T ∈ H) : HasDivK (fun A : Off H => lvalK α β γ A / vval (S + T) A)
      (FreeAbelianGroup.of S + FreeAbelianGroup.of T - FreeAbelianGroup.of (S + T)) := by
  have hne := fun A : Off H => line_ne hl hS hT A
  have hv := fun A : Off H => vval_ne (H.add_mem hS hT) A
  rcases S with _ | ⟨x₁, y₁, h₁⟩
  · exact absurd hl (by simp [IsLine])
  rcases T with _ | ⟨x₂, y₂, h₂⟩
  · exact absurd hl (by simp [IsLine])
  obtain ⟨hxy, hβ, hα, hγ⟩ := hl
  have hn := nonsingular_add h₁ h₂ hxy
  rw [Point.add_some hxy] at hv ⊢
  set s := (EC a b).slope x₁ x₂ y₁ y₂ with hs
  have key : ∀ A : Off H, lvalK α β γ A = β * ev A (YClass (EC a b) (linePolynomial x₁ y₁ s)) := by
    intro A
    rw [ev_YClass, lvalK, hα, hγ]
    simp [linePolynomial]
    ring
  have hd : HasDivK (fun A : Off H => ev A (YClass (EC a b) (linePolynomial x₁ y₁ s)) /
      vval (Point.some _ _ hn) A) (FreeAbelianGroup.of (Point.some _ _ h₁) +
        FreeAbelianGroup.of (Point.some _ _ h₂) - FreeAbelianGroup.of (Point.some _ _ hn)) := by
    refine ⟨YClass (EC a b) (linePolynomial x₁ y₁ s), XClass (EC a b) ((EC a b).addX x₁ x₂ s),
      fun A => ⟨?_, ?_, ?_⟩, ?_⟩
    · intro e
      have := hne A
      rw [key, e, mul_zero] at this
      exact this rfl
    · rw [ev_XClass]; exact hv A
    · rw [ev_XClass]
      exact div_mul_cancel₀ _ (hv A)
    · have e := XYIdeal_mul_XYIdeal h₁.left h₂.left hxy
      have e' := congrArg (fun I : Ideal (EC a b).CoordinateRing =>
        (I : FractionalIdeal (EC a b).CoordinateRing⁰ (EC a b).FunctionField)) e
      simp only [FractionalIdeal.coeIdeal_mul, XIdeal, YIdeal,
        FractionalIdeal.coeIdeal_span_singleton] at e'
      rw [sub_eq_add_neg, fid_add, fid_add, fid_of, fid_of, idl, idl, XYIdeal'_eq, XYIdeal'_eq,
        ← mul_assoc, ← hs] at *
      rw [← mul_assoc, e', mul_assoc]
      have e2 := fid_neg_mul (FreeAbelianGroup.of (Point.some _ _ hn))
      rw [fid_of, idl, XYIdeal'_eq, mul_comm] at e2
      exact (mul_one _).symm.trans (congrArg _ e2.symm)
  exact hd.smul hβ (fun A => by rw [key, mul_div_assoc])

/-! ### Miller's rules -/

/-- `f` is a function with divisor `n (P) - (n P) - (n - 1) O`, built by Miller's rules. -/
inductive MilK (H : AddSubgroup (EC a b).Point) (P : (EC a b).Point) : ℤ → (Off H → K) → Prop
  | one : MilK H P 1 (fun _ => 1)
  | add {n m : ℤ} {f g : Off H → K} {α β γ : K} : MilK H P n f → MilK H P m g →
      IsLine a b α β γ (n • P) (m • P) →
      MilK H P (n + m) (fun A => f A * g A * (lvalK α β γ A / vval (n • P + m • P) A))
  | neg {n : ℤ} {f : Off H → K} : MilK H P n f → MilK H P (-n) (fun A => (f A * vval (n • P) A)⁻¹)
  | scale {n : ℤ} {f g : Off H → K} {c : K} : MilK H P n f → c ≠ 0 → (∀ A, g A = c * f A) → MilK H P n g

theorem MilK.hasDiv {P : (EC a b).Point} (hP : P ∈ H) {n : ℤ} (h : MilK H P n f) :
    HasDivK f (n • FreeAbelianGroup.of P - FreeAbelianGroup.of (n • P)) := by
  induction h with
  | one => simpa using HasDivK.zero
  | add hf hg hl ihf ihg =>
    have := (ihf.mul ihg).mul (of_line hl (H.zsmul_mem hP _) (H.zsmul_mem hP _))
    convert this using 1
    rw [add_smul, add_smul]
    abel
  | @neg n f hf ih =>
    have := (ih.mul (of_vert (H.zsmul_mem hP n))).inv
    convert this using 1
    rw [neg_smul, neg_smul]
    abel
  | scale hf hc he ih => exact ih.smul hc he

/-- Three points with sum zero, on the line `Y = s X + t`. -/
structure Col (A B C : Off H) (s t : K) : Prop where
  e1 : s ^ 2 = A.x + B.x + C.x
  e2 : a - 2 * s * t = A.x * B.x + A.x * C.x + B.x * C.x
  e3 : t ^ 2 - b = A.x * B.x * C.x
  y1 : A.y = s * A.x + t
  y2 : B.y = s * B.x + t
  y3 : C.y = s * C.x + t

/-- The value of `Y - s X - t` at a point. -/
def lvK (s t : K) : (EC a b).Point → K
  | .zero => 1
  | .some x y _ => y - s * x - t

variable {A B C : Off H} {s t : K}

theorem lvK_neg (h : Col A B C s t) (T : (EC a b).Point) :
    lvK s t T * lvK s t (-T) = vval T A * vval T B * vval T C := by
  rcases T with _ | ⟨x, y, hn⟩
  · change lvK s t 0 * lvK s t (-0) = vval 0 A * vval 0 B * vval 0 C
    rw [neg_zero, vval_zero, vval_zero, vval_zero]
    simp [lvK, Point.zero_def]
  · have hy := eqn_of hn
    rw [Point.neg_some, lvK, lvK, Pbc.Curve.negY_EC, vval_some, vval_some, vval_some]
    linear_combination -hy + x ^ 2 * h.e1 - x * h.e2 + h.e3

theorem lvK_ne (h : Col A B C s t) {T : (EC a b).Point} (hT : T ∈ H) : lvK s t T ≠ 0 := by
  have := lvK_neg h T
  intro e
  rw [e, zero_mul] at this
  exact mul_ne_zero (mul_ne_zero (vval_ne hT A) (vval_ne hT B)) (vval_ne hT C) this.symm

/-- The product of the values of a line at three points on another line. -/
theorem rec_line (h : Col A B C s t) {α β γ : K} {S T : (EC a b).Point}
    (hl : IsLine a b α β γ S T) : lvalK α β γ A * lvalK α β γ B * lvalK α β γ C =
      -β ^ 3 * (lvK s t S * lvK s t T * lvK s t (-(S + T))) := by
  obtain ⟨x₁, y₁, x₂, y₂, x₃, y₃, u, h₁, h₂, h₃, rfl, rfl, hST, hβ, rfl, rfl, hy2, hy3, e1, e2, e3⟩ :=
    isLine_coords hl
  rw [hST, Point.neg_some]
  simp only [lvalK, lvK, Pbc.Curve.negY_EC, hy3, hy2, h.y1, h.y2, h.y3]
  have f1 := h.e1
  have f2 := h.e2
  have f3 := h.e3
  linear_combination -β ^ 3 * (s - u) ^ 3 * f3 - β ^ 3 * (s - u) ^ 2 * (t - (y₁ - u * x₁)) * f2 -
      β ^ 3 * (s - u) * (t - (y₁ - u * x₁)) ^ 2 * f1 + β ^ 3 * (s - u) ^ 3 * e3 +
      β ^ 3 * (s - u) ^ 2 * (t - (y₁ - u * x₁)) * e2 +
      β ^ 3 * (s - u) * (t - (y₁ - u * x₁)) ^ 2 * e1

theorem recip_add {P : (EC a b).Point} (hP : P ∈ H) {n m : ℤ} {f g : Off H → K} {α β γ c d : K}
    (hli : IsLine a b α β γ (n • P) (m • P)) (h : Col A B C s t)
    (k1 : f A * f B * f C * lvK s t (n • P) = c * lvK s t P ^ n)
    (k2 : g A * g B * g C * lvK s t (m • P) = d * lvK s t P ^ m) :
    f A * g A * (lvalK α β γ A / vval (n • P + m • P) A) *
        (f B * g B * (lvalK α β γ B / vval (n • P + m • P) B)) *
        (f C * g C * (lvalK α β γ C / vval (n • P + m • P) C)) * lvK s t ((n + m) • P) =
      c * d * -β ^ 3 * lvK s t P ^ (n + m) := by
  have hnm : n • P + m • P ∈ H := H.add_mem (H.zsmul_mem hP n) (H.zsmul_mem hP m)
  have k3 := rec_line h hli
  have k4 := lvK_neg h (n • P + m • P)
  have l1 := lvK_ne h hP
  have l2 := lvK_ne h (H.zsmul_mem hP n)
  have l3 := lvK_ne h (H.zsmul_mem hP m)
  have l4 := lvK_ne h hnm
  have v1 := vval_ne hnm A
  have v2 := vval_ne hnm B
  have v3 := vval_ne hnm C
  rw [add_smul, zpow_add₀ l1]
  have e : f A * g A * (lvalK α β γ A / vval (n • P + m • P) A) *
      (f B * g B * (lvalK α β γ B / vval (n • P + m • P) B)) *
      (f C * g C * (lvalK α β γ C / vval (n • P + m • P) C)) * lvK s t (n • P + m • P) =
      (f A * f B * f C) * (g A * g B * g C) * (lvalK α β γ A * lvalK α β γ B * lvalK α β γ C) *
      lvK s t (n • P + m • P) / (vval (n • P + m • P) A * vval (n • P + m • P) B *
        vval (n • P + m • P) C) := by
    field_simp
  rw [e, k3, ← k4]
  have l5 := lvK_ne h (H.neg_mem hnm)
  field_simp
  calc _ = -β ^ 3 * ((f A * f B * f C * lvK s t (n • P)) * (g A * g B * g C * lvK s t (m • P))) := by
          ring
    _ = _ := by rw [k1, k2]; ring

/-- Reciprocity, with a constant that depends on the function only. -/
theorem MilK.recip {P : (EC a b).Point} (hP : P ∈ H) {n : ℤ} (hf : MilK H P n f) :
    ∃ c : K, c ≠ 0 ∧ ∀ A B C s t, Col (H := H) A B C s t →
      f A * f B * f C * lvK s t (n • P) = c * lvK s t P ^ n := by
  induction hf with
  | one => exact ⟨1, one_ne_zero, fun A B C s t h => by simp⟩
  | @add n m f g α β γ hf hg hli ihf ihg =>
    obtain ⟨c, hc, ihf⟩ := ihf
    obtain ⟨d, hd, ihg⟩ := ihg
    have hβ : β ≠ 0 := by
      obtain ⟨x₁, y₁, x₂, y₂, x₃, y₃, u, h₁, h₂, h₃, _, _, hST, hβ, _⟩ := isLine_coords hli
      exact hβ
    refine ⟨c * d * -β ^ 3, mul_ne_zero (mul_ne_zero hc hd) (neg_ne_zero.2 (pow_ne_zero 3 hβ)),
      fun A B C s t h => ?_⟩
    exact recip_add hP hli h (ihf A B C s t h) (ihg A B C s t h)
  | @neg n f hf ih =>
    obtain ⟨c, hc, ih⟩ := ih
    refine ⟨c⁻¹, inv_ne_zero hc, fun A B C s t h => ?_⟩
    have k1 := ih A B C s t h
    have k4 := lvK_neg h (n • P)
    have l1 := lvK_ne h hP
    have l2 := lvK_ne h (H.zsmul_mem hP n)
    have l3 := lvK_ne h (H.neg_mem (H.zsmul_mem hP n))
    have n1 := (hf.hasDiv hP).ne_zero
    have m1 := n1 A
    have m2 := n1 B
    have m3 := n1 C
    have v1 := vval_ne (H.zsmul_mem hP n) A
    have v2 := vval_ne (H.zsmul_mem hP n) B
    have v3 := vval_ne (H.zsmul_mem hP n) C
    rw [neg_smul, zpow_neg]
    have e : (f A * vval (n • P) A)⁻¹ * (f B * vval (n • P) B)⁻¹ * (f C * vval (n • P) C)⁻¹ *
        lvK s t (-(n • P)) = (f A * f B * f C * (vval (n • P) A * vval (n • P) B *
          vval (n • P) C))⁻¹ * lvK s t (-(n • P)) := by
      rw [← mul_inv, ← mul_inv]
      congr 2
      ring
    rw [e, ← k4, ← mul_inv, ← k1]
    field_simp
  | @scale n f g c hf hc he ih =>
    obtain ⟨d, hd, ih⟩ := ih
    refine ⟨c ^ 3 * d, mul_ne_zero (pow_ne_zero 3 hc) hd, fun A B C s t h => ?_⟩
    rw [he, he, he]
    linear_combination c ^ 3 * ih A B C s t h

/-- The product of the values of a line at two opposite points. -/
theorem rec_vert (hB : B.pt = -A.pt) {α β γ : K} {S T : (EC a b).Point} (hl : IsLine a b α β γ S T) :
    lvalK α β γ A * lvalK α β γ B = -β ^ 2 * (vval S A * vval T A * vval (S + T) A) := by
  obtain ⟨x₁, y₁, x₂, y₂, x₃, y₃, u, h₁, h₂, h₃, rfl, rfl, hST, hβ, rfl, rfl, hy2, hy3, e1, e2, e3⟩ :=
    isLine_coords hl
  rw [Off.pt, Off.pt, Point.neg_some] at hB
  obtain ⟨b1, b2⟩ := Point.some.inj hB
  rw [Pbc.Curve.negY_EC] at b2
  rw [hST, vval_some, vval_some, vval_some]
  simp only [lvalK, b1, b2]
  have hA := A.eqn
  linear_combination -β ^ 2 * hA + β ^ 2 * A.x ^ 2 * e1 - β ^ 2 * A.x * e2 + β ^ 2 * e3

theorem vval_neg_pt (hB : B.pt = -A.pt) (T : (EC a b).Point) : vval T B = vval T A := by
  rw [Off.pt, Off.pt, Point.neg_some] at hB
  obtain ⟨b1, b2⟩ := Point.some.inj hB
  rcases T with _ | ⟨x, y, hn⟩
  · change vval 0 B = vval 0 A
    rw [vval_zero, vval_zero]
  · rw [vval_some, vval_some, b1]

theorem recipV_add {P : (EC a b).Point} (hP : P ∈ H) {n m : ℤ} {f g : Off H → K} {α β γ c d : K}
    (hli : IsLine a b α β γ (n • P) (m • P)) (h : B.pt = -A.pt)
    (k1 : f A * f B * vval (n • P) A = c * vval P A ^ n)
    (k2 : g A * g B * vval (m • P) A = d * vval P A ^ m) :
    f A * g A * (lvalK α β γ A / vval (n • P + m • P) A) *
        (f B * g B * (lvalK α β γ B / vval (n • P + m • P) B)) * vval ((n + m) • P) A =
      c * d * -β ^ 2 * vval P A ^ (n + m) := by
  have hnm : n • P + m • P ∈ H := H.add_mem (H.zsmul_mem hP n) (H.zsmul_mem hP m)
  have k3 := rec_vert h hli
  have l1 := vval_ne hP A
  have l2 := vval_ne (H.zsmul_mem hP n) A
  have l3 := vval_ne (H.zsmul_mem hP m) A
  have v1 := vval_ne hnm A
  rw [add_smul, zpow_add₀ l1]
  rw [vval_neg_pt h]
  have e : f A * g A * (lvalK α β γ A / vval (n • P + m • P) A) *
      (f B * g B * (lvalK α β γ B / vval (n • P + m • P) A)) * vval (n • P + m • P) A =
      (f A * f B) * (g A * g B) * (lvalK α β γ A * lvalK α β γ B) / vval (n • P + m • P) A := by
    field_simp
  rw [e, k3]
  field_simp
  calc _ = -β ^ 2 * ((f A * f B * vval (n • P) A) * (g A * g B * vval (m • P) A)) := by ring
    _ = _ := by rw [k1, k2]; ring

/-- Reciprocity with vertical lines. -/
theorem MilK.recipV {P : (EC a b).Point} (hP : P ∈ H) {n : ℤ} (hf : MilK H P n f) :
    ∃ c : K, c ≠ 0 ∧ ∀ A B : Off H, B.pt = -A.pt →
      f A * f B * vval (n • P) A = c * vval P A ^ n := by
  induction hf with
  | one => exact ⟨1, one_ne_zero, fun A B h => by simp⟩
  | @add n m f g α β γ hf hg hli ihf ihg =>
    obtain ⟨c, hc, ihf⟩ := ihf
    obtain ⟨d, hd, ihg⟩ := ihg
    have hβ : β ≠ 0 := by
      obtain ⟨x₁, y₁, x₂, y₂, x₃, y₃, u, h₁, h₂, h₃, _, _, hST, hβ, _⟩ := isLine_coords hli
      exact hβ
    refine ⟨c * d * -β ^ 2, mul_ne_zero (mul_ne_zero hc hd) (neg_ne_zero.2 (pow_ne_zero 2 hβ)),
      fun A B h => ?_⟩
    exact recipV_add hP hli h (ihf A B h) (ihg A B h)
  | @neg n f hf ih =>
    obtain ⟨c, hc, ih⟩ := ih
    refine ⟨c⁻¹, inv_ne_zero hc, fun A B h => ?_⟩
    have k1 := ih A B h
    have l1 := vval_ne hP A
    have l2 := vval_ne (H.zsmul_mem hP n) A
    have m1 := (hf.hasDiv hP).ne_zero A
    have m2 := (hf.hasDiv hP).ne_zero B
    have e : vval (-(n • P)) A = vval (n • P) A := vval_neg _ _
    rw [neg_smul, zpow_neg, e]
    dsimp only
    rw [vval_neg_pt h, ← mul_inv c, ← k1]
    field_simp
  | @scale n f g c hf hc he ih =>
    obtain ⟨d, hd, ih⟩ := ih
    refine ⟨c ^ 2 * d, mul_ne_zero (pow_ne_zero 2 hc) hd, fun A B h => ?_⟩
    rw [he, he]
    linear_combination c ^ 2 * ih A B h

/-! ### Functions with divisor `r (P) - r O` -/

/-- Functions with divisor `r (P) - r O`. -/
structure FullK (H : AddSubgroup (EC a b).Point) (P : (EC a b).Point) (r : ℕ) (f : Off H → K) : Prop where
  div : HasDivK f (r • FreeAbelianGroup.of P)
  recip : ∃ c : K, c ≠ 0 ∧ ∀ A B C s t, Col (H := H) A B C s t → f A * f B * f C = c * lvK s t P ^ r
  recipV : ∃ c : K, c ≠ 0 ∧ ∀ A B : Off H, B.pt = -A.pt → f A * f B = c * vval P A ^ r

/-- `n = r - 1`, then the vertical line at `P`. -/
theorem MilK.full_pred {P : (EC a b).Point} (hP : P ∈ H) {r : ℕ} {n : ℤ} (hf : MilK H P n f)
    (hr : r • P = 0) (hn : n + 1 = r) : FullK H P r (fun A => f A * vval P A) := by
  have hnP : n • P = -P := by
    rw [← natCast_zsmul, ← hn, add_smul, one_smul] at hr
    exact eq_neg_of_add_eq_zero_left hr
  refine ⟨?_, ?_, ?_⟩
  · have e := (hf.hasDiv hP).mul (of_vert hP)
    convert e using 1
    rw [hnP, ← natCast_zsmul, ← hn, add_smul, one_smul]
    abel
  · obtain ⟨c, hc, h⟩ := hf.recip hP
    refine ⟨c, hc, fun A B C s t hco => ?_⟩
    have e := h A B C s t hco
    have k := lvK_neg hco P
    have h1 := lvK_ne hco hP
    have h2 := lvK_ne hco (H.neg_mem hP)
    rw [hnP] at e
    rw [← zpow_natCast, ← hn, zpow_add₀ h1, zpow_one]
    linear_combination lvK s t P * e - (f A * f B * f C) * k
  · obtain ⟨c, hc, h⟩ := hf.recipV hP
    refine ⟨c, hc, fun A B hB => ?_⟩
    have e := h A B hB
    have h1 := vval_ne hP A
    rw [hnP, vval_neg] at e
    rw [← zpow_natCast, ← hn, zpow_add₀ h1, zpow_one, vval_neg_pt hB]
    linear_combination vval P A * e

/-- `n = r + 1`. -/
theorem MilK.full_succ {P : (EC a b).Point} (hP : P ∈ H) {r : ℕ} {n : ℤ} (hf : MilK H P n f)
    (hr : r • P = 0) (hn : n = r + 1) : FullK H P r f := by
  have hnP : n • P = P := by
    rw [hn, add_smul, one_smul, natCast_zsmul, hr, zero_add]
  refine ⟨?_, ?_, ?_⟩
  · have e := hf.hasDiv hP
    convert e using 1
    rw [hnP, ← natCast_zsmul, hn, add_smul, one_smul]
    abel
  · obtain ⟨c, hc, h⟩ := hf.recip hP
    refine ⟨c, hc, fun A B C s t hco => ?_⟩
    have e := h A B C s t hco
    have h1 := lvK_ne hco hP
    rw [hnP, hn, zpow_add₀ h1, zpow_one, zpow_natCast] at e
    exact mul_right_cancel₀ h1 (by rw [e]; ring)
  · obtain ⟨c, hc, h⟩ := hf.recipV hP
    refine ⟨c, hc, fun A B hB => ?_⟩
    have e := h A B hB
    have h1 := vval_ne hP A
    rw [hnP, hn, zpow_add₀ h1, zpow_one, zpow_natCast] at e
    exact mul_right_cancel₀ h1 (by rw [e]; ring)

theorem FullK.ne_zero {P : (EC a b).Point} {r : ℕ} (h : FullK H P r f) (A : Off H) : f A ≠ 0 :=
  h.div.ne_zero A

theorem exists_milK (P : (EC a b).Point) : ∀ n : ℕ, (∀ m, 1 ≤ m → m ≤ n + 1 → m • P ≠ 0) →
    ∃ f, MilK H P (n + 1 : ℕ) f
  | 0, _ => ⟨_, by simpa using MilK.one⟩
  | n + 1, h => by
    obtain ⟨f, hf⟩ := exists_milK P n (fun m h1 h2 => h m h1 (by omega))
    obtain ⟨α, β, γ, hl⟩ := exists_line (P₁ := ((n + 1 : ℕ) : ℤ) • P) (P₂ := (1 : ℤ) • P)
      (by rw [natCast_zsmul]; exact h _ (by omega) (by omega))
      (by rw [one_smul]; simpa using h 1 (by omega) (by omega))
      (by rw [← add_smul]; have := h (n + 2) (by omega) (by omega)
          rw [← natCast_zsmul] at this; exact_mod_cast this)
    exact ⟨_, by have := MilK.add hf MilK.one hl; exact_mod_cast this⟩

theorem FullK.pow {P : (EC a b).Point} {d : ℕ} (h : FullK H P d f) (m : ℕ) :
    FullK H P (d * m) (fun A => f A ^ m) where
  div := by
    have := h.div.pow m
    rwa [smul_smul, mul_comm m d] at this
  recip := by
    obtain ⟨c, hc, h⟩ := h.recip
    refine ⟨c ^ m, pow_ne_zero m hc, fun A B C s t hco => ?_⟩
    rw [← mul_pow, ← mul_pow, h A B C s t hco, mul_pow, ← pow_mul]
  recipV := by
    obtain ⟨c, hc, h⟩ := h.recipV
    refine ⟨c ^ m, pow_ne_zero m hc, fun A B hB => ?_⟩
    rw [← mul_pow, h A B hB, mul_pow, ← pow_mul]

/-- Every torsion point has a function. -/
theorem exists_fullK {P : (EC a b).Point} (hH : P ∈ H) (hP : P ≠ 0) {r : ℕ} (h0 : r ≠ 0)
    (hr : r • P = 0) : ∃ f, FullK H P r f := by
  have hd : addOrderOf P ∣ r := addOrderOf_dvd_of_nsmul_eq_zero hr
  obtain ⟨m, rfl⟩ := hd
  have hpos : addOrderOf P ≠ 0 := fun h => h0 (by rw [h, zero_mul])
  have h1 : addOrderOf P ≠ 1 := fun h => hP (AddMonoid.addOrderOf_eq_one_iff.1 h)
  obtain ⟨f, hf⟩ := exists_milK (H := H) P (addOrderOf P - 2) (fun m h2 h3 h4 => by
    have := Nat.le_of_dvd (by omega) (addOrderOf_dvd_of_nsmul_eq_zero h4)
    omega)
  exact ⟨_, (hf.full_pred hH (addOrderOf_nsmul_eq_zero P) (by omega)).pow m⟩

/-- Three points with sum zero are on a line. -/
theorem exists_col {A B C : Off H} (h : A.pt + B.pt + C.pt = 0) : ∃ s t, Col A B C s t := by
  have h0 : A.pt + B.pt ≠ 0 := by
    intro e
    rw [e, zero_add] at h
    exact C.pt_notMem (h ▸ H.zero_mem)
  have hA : A.pt ≠ 0 := fun e => A.pt_notMem (e ▸ H.zero_mem)
  have hB : B.pt ≠ 0 := fun e => B.pt_notMem (e ▸ H.zero_mem)
  obtain ⟨α, β, γ, hl⟩ := exists_line hA hB h0
  obtain ⟨x₁, y₁, x₂, y₂, x₃, y₃, u, h₁, h₂, h₃, k1, k2, hST, hβ, _, _, hy2, hy3, e1, e2, e3⟩ :=
    isLine_coords hl
  have k3 : C.pt = -Point.some x₃ y₃ h₃ := by rw [← hST]; exact (neg_eq_of_add_eq_zero_right h).symm
  rw [Point.neg_some] at k3
  obtain ⟨a1, a2⟩ := Point.some.inj k1
  obtain ⟨b1, b2⟩ := Point.some.inj k2
  obtain ⟨c1, c2⟩ := Point.some.inj k3
  rw [Pbc.Curve.negY_EC] at c2
  exact ⟨u, y₁ - u * x₁, by rw [a1, b1, c1, e1], by rw [a1, b1, c1, e2], by rw [a1, b1, c1, e3],
    by rw [a1, a2]; ring, by rw [b1, b2, hy2]; ring, by rw [c1, c2, hy3]; ring⟩

/-! ### The pairing -/

open Classical in
/-- The reduced pairing of exponent `e` with shift `R`: a function with divisor `r (P) - r (O)` at
`Q + R`, over its value at `R`. -/
noncomputable def tateK (r e : ℕ) (R : (EC a b).Point) (P Q : (EC a b).Point) : K :=
  if h : P ≠ 0 ∧ ∃ (z : K) (f : Off H → K) (A B : Off H), FullK H P r f ∧ A.pt = Q + R ∧ B.pt = R ∧
    z = (f A / f B) ^ e then h.2.choose else 1

variable {r e : ℕ} {R P P₁ P₂ Q : (EC a b).Point}

theorem tateK_eq (hP : P ≠ 0) (h : FullK H P r f) (hA : A.pt = Q + R) (hB : B.pt = R) :
    tateK (H := H) r e R P Q = (f A / f B) ^ e := by
  have hex : P ≠ 0 ∧ ∃ (z : K) (f : Off H → K) (A B : Off H), FullK H P r f ∧ A.pt = Q + R ∧
      B.pt = R ∧ z = (f A / f B) ^ e := ⟨hP, _, f, A, B, h, hA, hB, rfl⟩
  unfold tateK
  rw [dif_pos hex]
  obtain ⟨g, A', B', s1, s2, s3, s4⟩ := hex.2.choose_spec
  rw [s4, Off.ext (s2.trans hA.symm), Off.ext (s3.trans hB.symm)]
  obtain ⟨c, hc, hu⟩ := s1.div.unique h.div
  rw [hu A, hu B, mul_div_mul_left _ _ hc]

theorem tateK_zero_left (Q : (EC a b).Point) : tateK (H := H) r e R 0 Q = 1 := by
  unfold tateK
  rw [dif_neg]
  rintro ⟨h, _⟩
  exact h rfl

/-- An exponent that kills `r`-th powers. -/
def KillsK (K : Type*) [Field K] (r e : ℕ) : Prop := ∀ z : K, z ≠ 0 → (z ^ r) ^ e = 1

theorem notMem_add (hR : R ∉ H) (hQ : Q ∈ H) : Q + R ∉ H := fun h =>
  hR ((H.add_mem_cancel_left hQ).1 h)

theorem tateK_zero_right (hR : R ∉ H) : tateK (H := H) r e R P 0 = 1 := by
  by_cases h : P ≠ 0 ∧ ∃ (z : K) (f : Off H → K) (A B : Off H), FullK H P r f ∧ A.pt = 0 + R ∧
      B.pt = R ∧ z = (f A / f B) ^ e
  · obtain ⟨hP, z, f, A, B, hf, hA, hB, -⟩ := h
    rw [tateK_eq hP hf hA hB]
    have : A = B := Off.ext (by rw [hA, hB, zero_add])
    rw [this, div_self (hf.ne_zero B), one_pow]
  · unfold tateK
    rw [dif_neg h]

theorem tateK_add_left (hk : KillsK K r e) (h0 : r ≠ 0) (hR : R ∉ H) (m₁ : P₁ ∈ H) (m₂ : P₂ ∈ H)
    (h₁ : r • P₁ = 0) (h₂ : r • P₂ = 0) (hQ : Q ∈ H) :
    tateK (H := H) r e R (P₁ + P₂) Q = tateK (H := H) r e R P₁ Q * tateK (H := H) r e R P₂ Q := by
  by_cases z₁ : P₁ = 0
  · rw [z₁, zero_add, tateK_zero_left, one_mul]
  by_cases z₂ : P₂ = 0
  · rw [z₂, add_zero, tateK_zero_left, mul_one]
  obtain ⟨f₁, F₁⟩ := exists_fullK m₁ z₁ h0 h₁
  obtain ⟨f₂, F₂⟩ := exists_fullK m₂ z₂ h0 h₂
  obtain ⟨B, hB⟩ := exists_off hR
  obtain ⟨A, hA⟩ := exists_off (notMem_add hR hQ)
  have n1 := F₁.ne_zero B
  have n2 := F₂.ne_zero B
  by_cases z₃ : P₁ + P₂ = 0
  · rw [z₃, tateK_zero_left, tateK_eq z₁ F₁ hA hB, tateK_eq z₂ F₂ hA hB]
    have : P₂ = -P₁ := (neg_eq_of_add_eq_zero_right z₃).symm
    subst this
    have e1 := F₁.div.mul F₂.div
    have e2 := (of_vert m₁).pow r
    rw [smul_add] at e2
    obtain ⟨c, hc, hu⟩ := e1.unique e2
    have v1 := vval_ne m₁ A
    have v2 := vval_ne m₁ B
    have e3 : (f₁ A / f₁ B) * (f₂ A / f₂ B) = (vval P₁ A / vval P₁ B) ^ r := by
      rw [div_mul_div_comm, hu A, hu B, mul_div_mul_left _ _ hc, div_pow]
    rw [← mul_pow, e3, hk _ (div_ne_zero v1 v2)]
  · obtain ⟨f₃, F₃⟩ := exists_fullK (H.add_mem m₁ m₂) z₃ h0 (by rw [smul_add, h₁, h₂, add_zero])
    obtain ⟨α, β, γ, hl⟩ := exists_line z₁ z₂ z₃
    have e1 := (F₁.div.mul F₂.div).mul F₃.div.inv
    have e2 := (of_line hl m₁ m₂).pow r
    obtain ⟨c, hc, hu⟩ := e1.unique (by
      convert e2 using 1
      rw [smul_sub, smul_add]
      abel)
    have n3 := F₃.ne_zero B
    have n4 := F₃.ne_zero A
    have v1 := (of_line hl m₁ m₂).ne_zero A
    have v2 := (of_line hl m₁ m₂).ne_zero B
    rw [tateK_eq z₁ F₁ hA hB, tateK_eq z₂ F₂ hA hB, tateK_eq z₃ F₃ hA hB]
    have uA := hu A
    have uB := hu B
    have e3 : (f₁ A / f₁ B) * (f₂ A / f₂ B) = (f₃ A / f₃ B) *
        ((lvalK α β γ A / vval (P₁ + P₂) A) / (lvalK α β γ B / vval (P₁ + P₂) B)) ^ r := by
      have hA' : f₁ A * f₂ A = f₃ A * (c * (lvalK α β γ A / vval (P₁ + P₂) A) ^ r) := by
        rw [← uA]; field_simp
      have hB' : f₁ B * f₂ B = f₃ B * (c * (lvalK α β γ B / vval (P₁ + P₂) B) ^ r) := by
        rw [← uB]; field_simp
      rw [div_mul_div_comm, hA', hB', mul_div_mul_comm, mul_div_mul_left _ _ hc,
        div_pow (lvalK α β γ A / vval (P₁ + P₂) A)]
    rw [← mul_pow, e3, mul_pow, hk _ (div_ne_zero v1 v2), mul_one]

theorem tateK_add_right (hk : KillsK K r e) (h0 : r ≠ 0) (hR : R ∉ H) (hR2 : R + R ∉ H) (m : P ∈ H)
    (hr : r • P = 0) {Q₁ Q₂ : (EC a b).Point} (m₁ : Q₁ ∈ H) (m₂ : Q₂ ∈ H) :
    tateK (H := H) r e R P (Q₁ + Q₂) = tateK (H := H) r e R P Q₁ * tateK (H := H) r e R P Q₂ := by
  by_cases z : P = 0
  · rw [z, tateK_zero_left, tateK_zero_left, tateK_zero_left, one_mul]
  obtain ⟨f, F⟩ := exists_fullK m z h0 hr
  obtain ⟨B, hB⟩ := exists_off hR
  obtain ⟨A₁, hA₁⟩ := exists_off (notMem_add hR m₁)
  obtain ⟨A₂, hA₂⟩ := exists_off (notMem_add hR m₂)
  obtain ⟨A₃, hA₃⟩ := exists_off (notMem_add hR (H.add_mem m₁ m₂))
  obtain ⟨S, hS⟩ := exists_off (H := H) (P := -(Q₁ + Q₂ + (R + R)))
    (fun h => notMem_add hR2 (H.add_mem m₁ m₂) (neg_neg (Q₁ + Q₂ + (R + R)) ▸ H.neg_mem h))
  rw [tateK_eq z F hA₁ hB, tateK_eq z F hA₂ hB, tateK_eq z F hA₃ hB]
  obtain ⟨s, t, hc⟩ := exists_col (A := A₃) (B := B) (C := S) (by rw [hA₃, hB, hS]; abel)
  obtain ⟨s', t', hc'⟩ := exists_col (A := A₁) (B := A₂) (C := S) (by rw [hA₁, hA₂, hS]; abel)
  obtain ⟨c, hc0, hrec⟩ := F.recip
  have k1 := hrec _ _ _ _ _ hc
  have k2 := hrec _ _ _ _ _ hc'
  have l1 := lvK_ne hc m
  have l2 := lvK_ne hc' m
  have n0 := F.ne_zero B
  have nS := F.ne_zero S
  have e3 : (f A₁ / f B) * (f A₂ / f B) = (f A₃ / f B) * (lvK s' t' P / lvK s t P) ^ r := by
    have h1 : f A₁ * f A₂ = c * lvK s' t' P ^ r / f S := by
      rw [← k2]; field_simp
    have h2 : f A₃ * f B = c * lvK s t P ^ r / f S := by
      rw [← k1]; field_simp
    have h3 : f A₃ = c * lvK s t P ^ r / f S / f B := by
      rw [← h2]; field_simp
    rw [div_mul_div_comm, h1, h3, div_pow]
    field_simp
  rw [← mul_pow, e3, mul_pow, hk _ (div_ne_zero l2 l1), mul_one]

theorem tateK_pow (hk : KillsK K r e) (h0 : r ≠ 0) (hR : R ∉ H) (m : P ∈ H) (hr : r • P = 0)
    (hQ : Q ∈ H) : tateK (H := H) r e R P Q ^ r = 1 := by
  by_cases z : P = 0
  · rw [z, tateK_zero_left, one_pow]
  obtain ⟨f, F⟩ := exists_fullK m z h0 hr
  obtain ⟨B, hB⟩ := exists_off hR
  obtain ⟨A, hA⟩ := exists_off (notMem_add hR hQ)
  rw [tateK_eq z F hA hB, ← pow_mul, mul_comm, pow_mul, hk _ (div_ne_zero (F.ne_zero A) (F.ne_zero B))]

/-! ### The shift does not matter -/

variable {R' : (EC a b).Point}

theorem tateK_shift_add (hk : KillsK K r e) (h0 : r ≠ 0) (hR : R ∉ H) (hR' : R' ∉ H)
    (hRR : R + R' ∉ H) (m : P ∈ H) (hr : r • P = 0) (hQ : Q ∈ H) :
    tateK (H := H) r e R P Q = tateK (H := H) r e R' P Q := by
  by_cases z : P = 0
  · rw [z, tateK_zero_left, tateK_zero_left]
  obtain ⟨f, F⟩ := exists_fullK m z h0 hr
  obtain ⟨B, hB⟩ := exists_off hR
  obtain ⟨A, hA⟩ := exists_off (notMem_add hR hQ)
  obtain ⟨B', hB'⟩ := exists_off hR'
  obtain ⟨A', hA'⟩ := exists_off (notMem_add hR' hQ)
  obtain ⟨S, hS⟩ := exists_off (H := H) (P := -(Q + (R + R')))
    (fun h => notMem_add hRR hQ (neg_neg (Q + (R + R')) ▸ H.neg_mem h))
  rw [tateK_eq z F hA hB, tateK_eq z F hA' hB']
  obtain ⟨s, t, hc⟩ := exists_col (A := A) (B := B') (C := S) (by rw [hA, hB', hS]; abel)
  obtain ⟨s', t', hc'⟩ := exists_col (A := B) (B := A') (C := S) (by rw [hB, hA', hS]; abel)
  obtain ⟨c, hc0, hrec⟩ := F.recip
  have k1 := hrec _ _ _ _ _ hc
  have k2 := hrec _ _ _ _ _ hc'
  have l1 := lvK_ne hc m
  have l2 := lvK_ne hc' m
  have n0 := F.ne_zero B
  have n1 := F.ne_zero B'
  have n2 := F.ne_zero A'
  have nS := F.ne_zero S
  have e3 : f A / f B = f A' / f B' * (lvK s t P / lvK s' t' P) ^ r := by
    rw [div_pow, div_mul_div_comm, div_eq_div_iff n0 (mul_ne_zero n1 (pow_ne_zero _ l2))]
    refine mul_right_cancel₀ nS (mul_left_cancel₀ hc0 ?_)
    linear_combination (c * lvK s' t' P ^ r) * k1 - (c * lvK s t P ^ r) * k2
  rw [e3, mul_pow, hk _ (div_ne_zero l1 l2), mul_one]

/-- Opposite shifts. -/
theorem tateK_shift_neg (hk : KillsK K r e) (h0 : r ≠ 0) (hR : R ∉ H) (hR2 : R + R ∉ H) (m : P ∈ H)
    (hr : r • P = 0) (hQ : Q ∈ H) : tateK (H := H) r e (-R) P Q = tateK (H := H) r e R P Q := by
  by_cases z : P = 0
  · rw [z, tateK_zero_left, tateK_zero_left]
  obtain ⟨f, F⟩ := exists_fullK m z h0 hr
  have hnR : -R ∉ H := fun h => hR (neg_neg R ▸ H.neg_mem h)
  obtain ⟨B, hB⟩ := exists_off hR
  obtain ⟨A, hA⟩ := exists_off (notMem_add hR (H.neg_mem hQ))
  obtain ⟨B', hB'⟩ := exists_off hnR
  obtain ⟨A', hA'⟩ := exists_off (notMem_add hnR hQ)
  obtain ⟨c, hc0, hrec⟩ := F.recipV
  have k1 := hrec A A' (by rw [hA, hA']; abel)
  have k2 := hrec B B' (by rw [hB, hB'])
  have v1 := vval_ne m A
  have v2 := vval_ne m B
  have n1 := F.ne_zero B
  have n2 := F.ne_zero B'
  have e3 : (f A / f B) * (f A' / f B') = (vval P A / vval P B) ^ r := by
    rw [div_mul_div_comm, k1, k2, mul_div_mul_left _ _ hc0, div_pow]
  have e4 : tateK (H := H) r e R P (-Q) * tateK (H := H) r e (-R) P Q = 1 := by
    rw [tateK_eq z F hA hB, tateK_eq z F hA' hB', ← mul_pow, e3, hk _ (div_ne_zero v1 v2)]
  have e5 := tateK_add_right hk h0 hR hR2 m hr (H.neg_mem hQ) hQ
  rw [neg_add_cancel, tateK_zero_right hR] at e5
  exact mul_left_cancel₀ (left_ne_zero_of_mul_eq_one e4) (e4.trans e5)

/-- Any two shifts that are good for bilinearity give the same pairing. -/
theorem tateK_shift (hk : KillsK K r e) (h0 : r ≠ 0) (hR : R ∉ H) (hR2 : R + R ∉ H) (hR' : R' ∉ H)
    (m : P ∈ H) (hr : r • P = 0) (hQ : Q ∈ H) :
    tateK (H := H) r e R P Q = tateK (H := H) r e R' P Q := by
  by_cases hRR : R + R' ∈ H
  · rw [← tateK_shift_neg hk h0 hR hR2 m hr hQ]
    refine tateK_shift_add hk h0 (fun h => hR (neg_neg R ▸ H.neg_mem h)) hR' (fun h => ?_) m hr hQ
    apply hR2
    have := H.sub_mem hRR h
    rwa [show R + R' - (-R + R') = R + R by abel] at this
  · exact tateK_shift_add hk h0 hR hR' hRR m hr hQ

end TateK
