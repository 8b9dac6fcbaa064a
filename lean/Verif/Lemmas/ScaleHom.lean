import Verif.Lemmas.TateAll
import Verif.Lemmas.Curve

/-!
# Maps between curves

`(x, y) ↦ (c² θ(x), c³ θ(y))` for a homomorphism `θ` of fields.
-/

set_option autoImplicit false

namespace Hasse

open WeierstrassCurve WeierstrassCurve.Affine
open Spec (EC)

variable {k M : Type*} [Field k] [DecidableEq k] [Field M] [DecidableEq M]

theorem nonsing_scale (θ : k →+* M) {c : M} {α β : k} {α' β' : M} (hc : c ≠ 0) (hα : α' = c ^ 4 * θ α)
    (hβ : β' = c ^ 6 * θ β) {x y : k} (h : (EC α β).Nonsingular x y) :
    (EC α' β').Nonsingular (c ^ 2 * θ x) (c ^ 3 * θ y) := by
  rw [nonsingular_iff, equation_iff] at h ⊢
  simp only [EC, zero_mul, mul_zero, add_zero, sub_zero] at h ⊢
  refine ⟨?_, ?_⟩
  · have := congrArg θ h.1
    simp only [map_add, map_pow, map_mul] at this
    rw [hβ, hα]
    linear_combination c ^ 6 * this
  · rcases h.2 with h' | h'
    · left
      intro h0
      apply h'
      have h1 : c ^ 4 * θ (3 * x ^ 2 + α) = 0 := by
        simp only [map_mul, map_pow, map_ofNat, map_add]
        linear_combination -h0 - hα
      have := (mul_eq_zero.1 h1).resolve_left (pow_ne_zero _ hc)
      exact ((map_eq_zero θ).1 this).symm
    · right
      intro h0
      apply h'
      have h1 : c ^ 3 * θ (y - -y) = 0 := by
        simp only [map_sub, map_neg]
        linear_combination h0
      have := (mul_eq_zero.1 h1).resolve_left (pow_ne_zero _ hc)
      exact sub_eq_zero.1 ((map_eq_zero θ).1 this)

theorem slope_scale (θ : k →+* M) {c : M} {α β : k} {α' β' : M} (hc : c ≠ 0) (hα : α' = c ^ 4 * θ α) {x₁ x₂ y₁ y₂ : k}
    (e₁ : y₁ ^ 2 = x₁ ^ 3 + α * x₁ + β) (e₂ : y₂ ^ 2 = x₂ ^ 3 + α * x₂ + β)
    (hxy : ¬ (x₁ = x₂ ∧ y₁ = (EC α β).negY x₂ y₂)) :
    (EC α' β').slope (c ^ 2 * θ x₁) (c ^ 2 * θ x₂) (c ^ 3 * θ y₁) (c ^ 3 * θ y₂) = c * θ ((EC α β).slope x₁ x₂ y₁ y₂) := by
  have c2 : c ^ 2 ≠ 0 := pow_ne_zero _ hc
  have c3 : c ^ 3 ≠ 0 := pow_ne_zero _ hc
  by_cases hx : x₁ = x₂
  · subst hx
    have hy : y₁ ≠ (EC α β).negY x₁ y₂ := fun h => hxy ⟨rfl, h⟩
    rw [Pbc.Curve.negY_EC] at hy
    have hyy : y₁ = y₂ := by
      have : (y₁ - y₂) * (y₁ + y₂) = 0 := by linear_combination e₁ - e₂
      rcases mul_eq_zero.1 this with h | h
      · exact sub_eq_zero.1 h
      · exact absurd (eq_neg_of_add_eq_zero_left h) hy
    subst hyy
    have hy' : c ^ 3 * θ y₁ ≠ (EC α' β').negY (c ^ 2 * θ x₁) (c ^ 3 * θ y₁) := by
      rw [Pbc.Curve.negY_EC]
      intro h
      apply hy
      have h1 : c ^ 3 * θ (y₁ - -y₁) = 0 := by
        simp only [map_sub, map_neg]; linear_combination h
      exact sub_eq_zero.1 ((map_eq_zero θ).1 ((mul_eq_zero.1 h1).resolve_left c3))
    rw [slope_of_Y_ne rfl hy', slope_of_Y_ne rfl (by rwa [Pbc.Curve.negY_EC]), map_div₀]
    have hd : θ y₁ - -θ y₁ ≠ 0 := by
      rw [← map_neg, ← map_sub, Ne, map_eq_zero]
      exact sub_ne_zero.2 hy
    simp only [EC, negY, zero_mul, mul_zero, add_zero, sub_zero, map_mul, map_pow, map_ofNat, map_sub, map_neg, map_add]
    rw [mul_div_assoc', div_eq_div_iff (by
      have := mul_ne_zero c3 hd
      intro h; apply this; linear_combination h) hd, hα]
    ring
  · have hx' : c ^ 2 * θ x₁ ≠ c ^ 2 * θ x₂ := fun h => hx (θ.injective (mul_left_cancel₀ c2 h))
    rw [slope_of_X_ne hx', slope_of_X_ne hx, map_div₀]
    have hd : θ x₁ - θ x₂ ≠ 0 := sub_ne_zero.2 fun h => hx (θ.injective h)
    simp only [map_sub]
    rw [mul_div_assoc', div_eq_div_iff (sub_ne_zero.2 hx') hd]
    ring

/-- `(x, y) ↦ (c² θ(x), c³ θ(y))` -/
def scaleFun (θ : k →+* M) {c : M} {α β : k} {α' β' : M} (hc : c ≠ 0) (hα : α' = c ^ 4 * θ α) (hβ : β' = c ^ 6 * θ β) :
    (EC α β).Point → (EC α' β').Point
  | .zero => .zero
  | .some x y h => .some (c ^ 2 * θ x) (c ^ 3 * θ y) (nonsing_scale θ hc hα hβ h)

/-- The homomorphism. -/
def scale (θ : k →+* M) {c : M} {α β : k} {α' β' : M} (hc : c ≠ 0) (hα : α' = c ^ 4 * θ α) (hβ : β' = c ^ 6 * θ β) :
    (EC α β).Point →+ (EC α' β').Point where
  toFun := scaleFun θ hc hα hβ
  map_zero' := rfl
  map_add' := by
    rintro (_ | ⟨x₁, y₁, n₁⟩) Q
    · change scaleFun θ hc hα hβ (0 + Q) = 0 + _
      rw [zero_add, zero_add]
    rcases Q with _ | ⟨x₂, y₂, n₂⟩
    · change scaleFun θ hc hα hβ (_ + 0) = _ + 0
      rw [add_zero, add_zero]
    have e₁ := Tate.eqn_of n₁
    have e₂ := Tate.eqn_of n₂
    have c2 : c ^ 2 ≠ 0 := pow_ne_zero _ hc
    have c3 : c ^ 3 ≠ 0 := pow_ne_zero _ hc
    by_cases hxy : x₁ = x₂ ∧ y₁ = (EC α β).negY x₂ y₂
    · rw [Point.add_of_Y_eq hxy.1 hxy.2]
      change 0 = Point.some _ _ _ + Point.some _ _ _
      refine (Point.add_of_Y_eq (by rw [hxy.1]) ?_).symm
      rw [hxy.2, Pbc.Curve.negY_EC, Pbc.Curve.negY_EC, map_neg]; ring
    · rw [Point.add_some hxy]
      have hxy' : ¬ (c ^ 2 * θ x₁ = c ^ 2 * θ x₂ ∧ c ^ 3 * θ y₁ = (EC α' β').negY (c ^ 2 * θ x₂) (c ^ 3 * θ y₂)) := by
        rintro ⟨h1, h2⟩
        refine hxy ⟨θ.injective (mul_left_cancel₀ c2 h1), ?_⟩
        rw [Pbc.Curve.negY_EC] at h2 ⊢
        refine θ.injective (mul_left_cancel₀ c3 ?_)
        rw [h2, map_neg]; ring
      change Point.some _ _ _ = Point.some _ _ _ + Point.some _ _ _
      rw [Point.add_some hxy', Point.some.injEq]
      rw [slope_scale θ hc hα e₁ e₂ hxy]
      simp only [addX, addY, negAddY, Pbc.Curve.negY_EC]
      simp only [EC, map_add, map_sub, map_mul, map_pow, map_neg, zero_mul, add_zero, sub_zero]
      constructor <;> ring

theorem scale_some (θ : k →+* M) {c : M} {α β : k} {α' β' : M} (hc : c ≠ 0) (hα : α' = c ^ 4 * θ α)
    (hβ : β' = c ^ 6 * θ β) {x y : k} (h : (EC α β).Nonsingular x y) :
    scale θ hc hα hβ (.some x y h) = .some (c ^ 2 * θ x) (c ^ 3 * θ y) (nonsing_scale θ hc hα hβ h) := rfl

theorem point_ext {α β : k} {x y x' y' : k} {h : (EC α β).Nonsingular x y} {h' : (EC α β).Nonsingular x' y'}
    (hx : x = x') (hy : y = y') : Point.some x y h = Point.some x' y' h' := by
  subst hx hy; rfl

/-! ### Sums and differences -/

/-- The numbers `s² - 2asu - 4btu + a²u²`, `2st + 2atu + 4bu²`, `t² - 4su`. -/
def as0 {R : Type*} [CommRing R] (a b s t u : R) : R := s ^ 2 - 2 * a * s * u - 4 * b * t * u + a ^ 2 * u ^ 2
def as1 {R : Type*} [CommRing R] (a b s t u : R) : R := 2 * s * t + 2 * a * t * u + 4 * b * u ^ 2
def as2 {R : Type*} [CommRing R] (s t u : R) : R := t ^ 2 - 4 * s * u

/-- The abscissa as a point of the projective line. -/
def px {a b : k} : (EC a b).Point → k × k
  | .zero => (1, 0)
  | .some x _ _ => (x, 1)

theorem px_neg {a b : k} (P : (EC a b).Point) : px (-P) = px P := by
  rcases P with _ | ⟨x, y, h⟩ <;> rfl

theorem px_some {a b x y : k} (h : (EC a b).Nonsingular x y) : px (Point.some x y h) = (x, 1) := rfl

theorem px_ne {a b : k} (P : (EC a b).Point) : (px P).1 ≠ 0 ∨ (px P).2 ≠ 0 := by
  rcases P with _ | ⟨x, y, h⟩
  · exact .inl one_ne_zero
  · exact .inr one_ne_zero

/-- The three symmetric functions of a pair of points of the projective line. -/
def sy {R : Type*} [CommRing R] (p q : R × R) : R × R × R := (p.1 * q.1, p.1 * q.2 + p.2 * q.1, p.2 * q.2)

/-- The abscissas of the sum and the difference of two points. -/
theorem addsub {a b : k} (h2 : (2 : k) ≠ 0) (P Q : (EC a b).Point) : ∃ e : k,
    as0 a b (sy (px P) (px Q)).1 (sy (px P) (px Q)).2.1 (sy (px P) (px Q)).2.2 = e * (sy (px (P + Q)) (px (P - Q))).1 ∧
    as1 a b (sy (px P) (px Q)).1 (sy (px P) (px Q)).2.1 (sy (px P) (px Q)).2.2 = e * (sy (px (P + Q)) (px (P - Q))).2.1 ∧
    as2 (sy (px P) (px Q)).1 (sy (px P) (px Q)).2.1 (sy (px P) (px Q)).2.2 = e * (sy (px (P + Q)) (px (P - Q))).2.2 := by
  rcases P with _ | ⟨x₁, y₁, n₁⟩
  · change ∃ e : k, as0 a b (sy (1, 0) (px Q)).1 _ _ = e * (sy (px (0 + Q)) (px (0 - Q))).1 ∧ _ =
      e * (sy (px (0 + Q)) (px (0 - Q))).2.1 ∧ _ = e * (sy (px (0 + Q)) (px (0 - Q))).2.2
    rw [zero_add, zero_sub, px_neg]
    refine ⟨1, ?_, ?_, ?_⟩ <;> simp [sy, as0, as1, as2, px] <;> ring
  rcases Q with _ | ⟨x₂, y₂, n₂⟩
  · change ∃ e : k, as0 a b (sy _ (1, 0)).1 _ _ = e * (sy (px (_ + 0)) (px (_ - 0))).1 ∧ _ =
      e * (sy (px (_ + 0)) (px (_ - 0))).2.1 ∧ _ = e * (sy (px (_ + 0)) (px (_ - 0))).2.2
    rw [add_zero, sub_zero]
    refine ⟨1, ?_, ?_, ?_⟩ <;> simp [sy, as0, as1, as2, px] <;> ring
  have e₁ := Tate.eqn_of n₁
  have e₂ := Tate.eqn_of n₂
  by_cases hx : x₁ = x₂
  · subst hx
    have hyy : y₁ = y₂ ∨ y₁ = -y₂ := by
      have : (y₁ - y₂) * (y₁ + y₂) = 0 := by linear_combination e₁ - e₂
      rcases mul_eq_zero.1 this with h | h
      · exact .inl (sub_eq_zero.1 h)
      · exact .inr (eq_neg_of_add_eq_zero_left h)
    -- the abscissa of the double
    have hd : ∃ e : k, as0 a b (x₁ * x₁) (x₁ + x₁) 1 = e * (px (Point.some x₁ y₁ n₁ + Point.some x₁ y₁ n₁)).1 ∧
        as1 a b (x₁ * x₁) (x₁ + x₁) 1 = e * (px (Point.some x₁ y₁ n₁ + Point.some x₁ y₁ n₁)).2 := by
      by_cases hy : y₁ = 0
      · rw [Point.add_of_Y_eq rfl (by rw [Pbc.Curve.negY_EC, hy, neg_zero])]
        refine ⟨as0 a b (x₁ * x₁) (x₁ + x₁) 1, ?_, ?_⟩
        · change _ = _ * (1 : k)
          rw [mul_one]
        · change _ = _ * (0 : k)
          rw [hy] at e₁
          simp only [as1]
          linear_combination -4 * e₁
      · have hne : y₁ ≠ (EC a b).negY x₁ y₁ := by
          rw [Pbc.Curve.negY_EC]
          intro h
          exact (mul_ne_zero h2 hy) (by linear_combination h)
        rw [Point.add_some (fun h => hne h.2), px_some, slope_of_Y_ne rfl hne]
        refine ⟨4 * y₁ ^ 2, ?_, ?_⟩
        · simp only [px, addX, EC, negY, as0, zero_mul, mul_zero, add_zero, sub_zero]
          have h2y : y₁ - -y₁ ≠ 0 := by
            intro h
            exact (mul_ne_zero h2 hy) (by linear_combination h)
          have hm : (3 * x₁ ^ 2 + a) / (y₁ - -y₁) * (2 * y₁) = 3 * x₁ ^ 2 + a := by
            rw [show 2 * y₁ = y₁ - -y₁ by ring]
            exact div_mul_cancel₀ _ h2y
          generalize (3 * x₁ ^ 2 + a) / (y₁ - -y₁) = m at hm ⊢
          linear_combination -(2 * y₁ * m + 3 * x₁ ^ 2 + a) * hm + (8 * x₁) * e₁
        · simp only [px, as1, mul_one]
          linear_combination -4 * e₁
    have h2' : as2 (x₁ * x₁) (x₁ + x₁) (1 : k) = 0 := by simp only [as2]; ring
    obtain ⟨e, he0, he1⟩ := hd
    rcases hyy with h | h
    · subst h
      rw [show Point.some x₁ y₁ n₁ - Point.some x₁ y₁ n₂ = 0 from sub_self _]
      refine ⟨e, ?_, ?_, ?_⟩
      · simpa [sy, px] using he0
      · simpa [sy, px] using he1
      · simpa [sy, px] using h2'
    · have hq : Point.some x₁ y₂ n₂ = -Point.some x₁ y₁ n₁ := by
        rw [Point.neg_some]
        exact point_ext rfl (by rw [Pbc.Curve.negY_EC, h, neg_neg])
      rw [hq, sub_neg_eq_add, add_neg_cancel, px_neg]
      refine ⟨e, ?_, ?_, ?_⟩
      · simpa [sy, px] using he0
      · simpa [sy, px] using he1
      · simpa [sy, px] using h2'
  · have hd : x₁ - x₂ ≠ 0 := sub_ne_zero.2 hx
    rw [sub_eq_add_neg, Point.neg_some, Point.add_some (fun h => hx h.1), Point.add_some (fun h => hx h.1), px_some, px_some,
      px_some, px_some, slope_of_X_ne hx, slope_of_X_ne hx]
    have hu : ∀ y : k, (x₁ - x₂) ^ 2 * (EC a b).addX x₁ x₂ ((y₁ - y) / (x₁ - x₂)) =
        (y₁ - y) ^ 2 - (x₁ + x₂) * (x₁ - x₂) ^ 2 := by
      intro y
      simp only [addX, EC, zero_mul, add_zero, sub_zero]
      field_simp
      ring
    have hU := hu y₂
    have hV := hu ((EC a b).negY x₂ y₂)
    rw [Pbc.Curve.negY_EC] at hV ⊢
    refine ⟨(x₁ - x₂) ^ 2, ?_, ?_, ?_⟩
    · refine mul_left_cancel₀ (pow_ne_zero 2 hd) ?_
      simp only [sy, as0]
      generalize (EC a b).addX x₁ x₂ ((y₁ - y₂) / (x₁ - x₂)) = U at *
      generalize (EC a b).addX x₁ x₂ ((y₁ - -y₂) / (x₁ - x₂)) = V at *
      linear_combination (-(x₁ - x₂) ^ 2 * V) * hU - ((y₁ - y₂) ^ 2 - (x₁ + x₂) * (x₁ - x₂) ^ 2) * hV
        - (y₁ ^ 2 - y₂ ^ 2 + (x₁ ^ 3 + a * x₁ + b) - (x₂ ^ 3 + a * x₂ + b)) * (e₁ - e₂)
        + 2 * (x₁ + x₂) * (x₁ - x₂) ^ 2 * (e₁ + e₂)
    · simp only [sy, as1]
      generalize (EC a b).addX x₁ x₂ ((y₁ - y₂) / (x₁ - x₂)) = U at *
      generalize (EC a b).addX x₁ x₂ ((y₁ - -y₂) / (x₁ - x₂)) = V at *
      linear_combination -hU - hV - 2 * (e₁ + e₂)
    · simp only [sy, as2]
      ring

end Hasse
