import Verif.Spec.Curve
import Mathlib.GroupTheory.FreeAbelianGroup
import Mathlib.Tactic.FieldSimp
import Mathlib.Tactic.LinearCombination

/-!
# Functions on the curve, by their divisors

`HasDiv ev z D` says that, up to a nonzero constant of `K`, `z` is the value under the evaluation
`ev` of a function on the curve whose affine divisor is `D`.  A divisor determines the value up to
a constant of `K` (`HasDiv.unique`).
-/

set_option autoImplicit false

namespace Tate

open WeierstrassCurve WeierstrassCurve.Affine WeierstrassCurve.Affine.CoordinateRing Polynomial
open scoped nonZeroDivisors

variable {K : Type*} [Field K] [DecidableEq K] {L : Type*} [Field L] [Algebra K L]

/-- Equal up to a nonzero constant of `K`. -/
def Sim (K : Type*) {L : Type*} [Field K] [Field L] [Algebra K L] (z w : L) : Prop :=
  ∃ c : K, c ≠ 0 ∧ z = algebraMap K L c * w

theorem Sim.refl (z : L) : Sim K z z := ⟨1, one_ne_zero, by simp⟩

theorem Sim.symm {z w : L} (h : Sim K z w) : Sim K w z := by
  obtain ⟨c, hc, rfl⟩ := h
  have : algebraMap K L c ≠ 0 := by simpa using hc
  exact ⟨c⁻¹, inv_ne_zero hc, by rw [map_inv₀]; field_simp⟩

theorem Sim.trans {z w v : L} (h : Sim K z w) (h' : Sim K w v) : Sim K z v := by
  obtain ⟨c, hc, rfl⟩ := h
  obtain ⟨d, hd, rfl⟩ := h'
  exact ⟨c * d, mul_ne_zero hc hd, by rw [map_mul]; ring⟩

theorem Sim.mul {z w z' w' : L} (h : Sim K z w) (h' : Sim K z' w') : Sim K (z * z') (w * w') := by
  obtain ⟨c, hc, rfl⟩ := h
  obtain ⟨d, hd, rfl⟩ := h'
  exact ⟨c * d, mul_ne_zero hc hd, by rw [map_mul]; ring⟩

theorem Sim.inv {z w : L} (h : Sim K z w) : Sim K z⁻¹ w⁻¹ := by
  obtain ⟨c, hc, rfl⟩ := h
  exact ⟨c⁻¹, inv_ne_zero hc, by rw [map_inv₀, mul_inv]⟩

theorem Sim.pow {z w : L} (h : Sim K z w) (n : ℕ) : Sim K (z ^ n) (w ^ n) := by
  obtain ⟨c, hc, rfl⟩ := h
  exact ⟨c ^ n, pow_ne_zero n hc, by rw [map_pow, mul_pow]⟩

theorem Sim.zpow {z w : L} (h : Sim K z w) (n : ℤ) : Sim K (z ^ n) (w ^ n) := by
  obtain ⟨c, hc, rfl⟩ := h
  exact ⟨c ^ n, zpow_ne_zero n hc, by rw [map_zpow₀, mul_zpow]⟩

theorem Sim.const {c : K} (hc : c ≠ 0) : Sim K (algebraMap K L c) 1 := ⟨c, hc, by simp⟩

theorem Sim.const_mul {c : K} (hc : c ≠ 0) (z : L) : Sim K (algebraMap K L c * z) z := ⟨c, hc, rfl⟩

theorem Sim.ne_zero {z w : L} (h : Sim K z w) (hw : w ≠ 0) : z ≠ 0 := by
  obtain ⟨c, hc, rfl⟩ := h
  exact mul_ne_zero (by simpa using hc) hw

variable {W : WeierstrassCurve.Affine K}

/-- The ideal of functions vanishing at a point; the point at infinity contributes nothing. -/
noncomputable def idl : W.Point → (FractionalIdeal W.CoordinateRing⁰ W.FunctionField)ˣ
  | .zero => 1
  | .some _ _ h => XYIdeal' h

/-- The ideal of an affine divisor. -/
noncomputable def dv : FreeAbelianGroup W.Point →+
    Additive (FractionalIdeal W.CoordinateRing⁰ W.FunctionField)ˣ :=
  FreeAbelianGroup.lift fun P => Additive.ofMul (idl P)

/-- The fractional ideal of an affine divisor. -/
noncomputable def fid (D : FreeAbelianGroup W.Point) :
    FractionalIdeal W.CoordinateRing⁰ W.FunctionField := ((dv D).toMul : _)

theorem fid_zero : fid (0 : FreeAbelianGroup W.Point) = 1 := by simp [fid]

theorem fid_add (D E : FreeAbelianGroup W.Point) : fid (D + E) = fid D * fid E := by
  simp [fid]

theorem fid_neg_mul (D : FreeAbelianGroup W.Point) : fid (-D) * fid D = 1 := by
  rw [← fid_add, neg_add_cancel, fid_zero]

theorem fid_of (P : W.Point) : fid (FreeAbelianGroup.of P) = (idl P : FractionalIdeal _ _) := by
  simp [fid, dv]

theorem fid_ne_zero (D : FreeAbelianGroup W.Point) : fid D ≠ 0 := by
  intro h
  have := fid_neg_mul D
  rw [h, mul_zero] at this
  exact zero_ne_one this

/-- Units of the coordinate ring are constants. -/
theorem unit_const {u : W.CoordinateRing} (hu : IsUnit u) :
    ∃ c : K, c ≠ 0 ∧ u = algebraMap K W.CoordinateRing c := by
  obtain ⟨p, q, rfl⟩ := exists_smul_basis_eq u
  have h1 := (hu.map (Algebra.norm K[X]))
  have h2 := Polynomial.degree_eq_zero_of_isUnit h1
  rw [degree_norm_smul_basis] at h2
  have hq : q = 0 := by
    by_contra hq
    have h3 : 2 • q.degree + 3 ≤ (0 : WithBot ℕ) := h2 ▸ le_max_right _ _
    rw [Polynomial.degree_eq_natDegree hq, nsmul_eq_mul] at h3
    have h4 : ((2 * q.natDegree + 3 : ℕ) : WithBot ℕ) ≤ ((0 : ℕ) : WithBot ℕ) := by
      push_cast; exact h3
    have := Nat.cast_le.mp h4
    omega
  subst hq
  have hp : p.degree = 0 := by
    have hp0 : p ≠ 0 := by
      rintro rfl
      rw [zero_smul, zero_smul, zero_add] at hu
      exact not_isUnit_zero hu
    have h3 : 2 • p.degree ≤ (0 : WithBot ℕ) := h2 ▸ le_max_left _ _
    rw [Polynomial.degree_eq_natDegree hp0, nsmul_eq_mul] at h3
    have h4 : ((2 * p.natDegree : ℕ) : WithBot ℕ) ≤ ((0 : ℕ) : WithBot ℕ) := by
      push_cast; exact h3
    have h5 := Nat.cast_le.mp h4
    have : p.natDegree = 0 := by omega
    rw [Polynomial.degree_eq_natDegree hp0, this]
    rfl
  rw [Polynomial.eq_C_of_degree_eq_zero hp] at *
  refine ⟨p.coeff 0, ?_, ?_⟩
  · intro h
    rw [h] at hp
    simp at hp
  · rw [zero_smul, add_zero, Algebra.algebraMap_eq_smul_one, Polynomial.C_eq_algebraMap,
      algebraMap_smul]

variable (ev : W.CoordinateRing →ₐ[K] L)

/-- Up to a nonzero constant, `z` is the value of a function with affine divisor `D`. -/
def HasDiv (z : L) (D : FreeAbelianGroup W.Point) : Prop :=
  ∃ F G : W.CoordinateRing, ev F ≠ 0 ∧ ev G ≠ 0 ∧ Sim K (z * ev G) (ev F) ∧
    FractionalIdeal.spanSingleton W.CoordinateRing⁰
      (algebraMap W.CoordinateRing W.FunctionField F) =
    FractionalIdeal.spanSingleton W.CoordinateRing⁰
      (algebraMap W.CoordinateRing W.FunctionField G) * fid D

variable {ev}

theorem HasDiv.zero : HasDiv ev 1 (0 : FreeAbelianGroup W.Point) :=
  ⟨1, 1, by simp, by simp, by simpa using Sim.refl _, by simp [fid_zero]⟩

theorem HasDiv.mul {z w : L} {D E : FreeAbelianGroup W.Point} (h : HasDiv ev z D)
    (h' : HasDiv ev w E) : HasDiv ev (z * w) (D + E) := by
  obtain ⟨F, G, hF, hG, hs, hd⟩ := h
  obtain ⟨F', G', hF', hG', hs', hd'⟩ := h'
  refine ⟨F * F', G * G', by simp [hF, hF'], by simp [hG, hG'], ?_, ?_⟩
  · have := hs.mul hs'
    rw [map_mul, map_mul]
    convert this using 1
    ring
  · rw [map_mul, map_mul, ← FractionalIdeal.spanSingleton_mul_spanSingleton,
      ← FractionalIdeal.spanSingleton_mul_spanSingleton, hd, hd', fid_add]
    ring

theorem HasDiv.inv {z : L} {D : FreeAbelianGroup W.Point} (h : HasDiv ev z D) :
    HasDiv ev z⁻¹ (-D) := by
  obtain ⟨F, G, hF, hG, hs, hd⟩ := h
  refine ⟨G, F, hG, hF, ?_, ?_⟩
  · have hz : z * ev G ≠ 0 := hs.ne_zero hF
    have hz0 : z ≠ 0 := left_ne_zero_of_mul hz
    have := (hs.mul (Sim.refl (K := K) z⁻¹)).symm
    have e : z * ev G * z⁻¹ = ev G := by field_simp
    rw [e] at this
    rwa [mul_comm z⁻¹]
  · rw [hd, mul_assoc, mul_comm (fid D), fid_neg_mul, mul_one]

theorem HasDiv.sim {z w : L} {D : FreeAbelianGroup W.Point} (h : HasDiv ev z D)
    (hs : Sim K w z) : HasDiv ev w D := by
  obtain ⟨F, G, hF, hG, hs', hd⟩ := h
  exact ⟨F, G, hF, hG, (hs.mul (Sim.refl _)).trans hs', hd⟩

theorem HasDiv.ne_zero {z : L} {D : FreeAbelianGroup W.Point} (h : HasDiv ev z D) : z ≠ 0 := by
  obtain ⟨F, G, hF, hG, hs, hd⟩ := h
  exact left_ne_zero_of_mul (hs.ne_zero hF)

theorem HasDiv.pow {z : L} {D : FreeAbelianGroup W.Point} (h : HasDiv ev z D) (n : ℕ) :
    HasDiv ev (z ^ n) (n • D) := by
  induction n with
  | zero => simpa using HasDiv.zero
  | succ n ih => rw [pow_succ, add_smul, one_smul]; exact ih.mul h

/-- Two functions with the same divisor agree up to a constant. -/
theorem HasDiv.unique {z w : L} {D : FreeAbelianGroup W.Point} (h : HasDiv ev z D)
    (h' : HasDiv ev w D) : Sim K z w := by
  have hz := h.ne_zero
  have hw := h'.ne_zero
  obtain ⟨F, G, hF, hG, hs, hd⟩ := h.mul h'.inv
  rw [add_neg_cancel, fid_zero, mul_one] at hd
  have hF0 : F ≠ 0 := fun h => hF (by rw [h, map_zero])
  have hu : ∃ u : W.CoordinateRing, IsUnit u ∧ F = u * G := by
    have h1 := (FractionalIdeal.spanSingleton_eq_spanSingleton
      (R := W.CoordinateRing) (S := W.CoordinateRing⁰) (P := W.FunctionField)).mp hd
    obtain ⟨u, hu⟩ := h1
    refine ⟨(u⁻¹ : W.CoordinateRingˣ), Units.isUnit _, ?_⟩
    apply IsFractionRing.injective W.CoordinateRing W.FunctionField
    rw [map_mul, ← hu, Units.smul_def, Algebra.smul_def, ← mul_assoc, ← map_mul, Units.inv_mul,
      map_one, one_mul]
  obtain ⟨u, hu, rfl⟩ := hu
  obtain ⟨c, hc, rfl⟩ := unit_const hu
  rw [map_mul, AlgHom.commutes] at hs
  obtain ⟨d, hd0, hs⟩ := hs
  refine ⟨d * c, mul_ne_zero hd0 hc, ?_⟩
  rw [map_mul]
  have : z * w⁻¹ = algebraMap K L d * algebraMap K L c :=
    mul_right_cancel₀ hG (by rw [hs]; ring)
  rw [← this, mul_assoc, inv_mul_cancel₀ hw, mul_one]

end Tate
