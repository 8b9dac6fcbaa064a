import Verif.Lemmas.TatePlace

/-!
# Reduced pairings from Miller functions

`Full P r f`: `f` is, up to constants of `K`, a function with divisor `r (P) - r O`, where
`r P = O`.  After an exponent that kills constants and `r`-th powers its values are additive in `P`
and in the place, and depend on nothing but `P` and the place.
-/

set_option autoImplicit false
set_option linter.unusedSectionVars false

namespace Tate

open WeierstrassCurve WeierstrassCurve.Affine
open Spec (EC)

variable {K : Type*} [Field K] [DecidableEq K] {L : Type*} [Field L] [Algebra K L] {a b : K}

/-- The negative of a place. -/
def Place.neg (Q : Place L a b) : Place L a b where
  x := Q.x
  Y := -Q.Y
  eqn := by rw [neg_sq, Q.eqn]
  irr := fun y h => Q.irr (-y) (by rw [map_neg, ← h, neg_neg])

theorem Mil.neg {P : (EC a b).Point} {n : ℤ} {f : Place L a b → L} (hf : Mil L P n f)
    (Q : Place L a b) : Sim K (f Q * f Q.neg) 1 := by
  induction hf with
  | one => rw [mul_one]; exact Sim.refl _
  | @add n m f g α β γ hf hg hli ihf ihg =>
    have hβ : β ≠ 0 := by
      revert hli
      generalize n • P = A
      generalize m • P = B
      intro hli
      rcases A with _ | ⟨x₁, y₁, h₁⟩
      · exact absurd hli (by simp [IsLine])
      rcases B with _ | ⟨x₂, y₂, h₂⟩
      · exact absurd hli (by simp [IsLine])
      exact hli.2.1
    have h1 := mul_ne_zero (Q.line_ne (α := α) (γ := γ) hβ) (Q.neg.line_ne (α := α) (γ := γ) hβ)
    have e : (algebraMap K L α * algebraMap K L Q.x + algebraMap K L β * Q.Y + algebraMap K L γ) *
        (algebraMap K L α * algebraMap K L Q.neg.x + algebraMap K L β * Q.neg.Y + algebraMap K L γ) =
        algebraMap K L ((α * Q.x + γ) ^ 2 - β ^ 2 * (Q.x ^ 3 + a * Q.x + b)) := by
      rw [map_sub, map_mul, ← Q.eqn]
      simp only [Place.neg, map_add, map_mul, map_pow]
      ring
    rw [e] at h1
    have h2 := Sim.const (L := L) ((_root_.map_ne_zero _).mp h1)
    rw [← e] at h2
    have h3 := (ihf.mul ihg).mul h2
    rw [mul_one, mul_one] at h3
    convert h3 using 1
    ring
  | inv hf ih =>
    have := ih.inv
    rwa [mul_inv, inv_one] at this
  | scale hf hs ih => exact ((hs _).mul (hs _)).trans ih

/-- Functions with divisor `r (P) - r O` up to verticals and constants. -/
structure Full (P : (EC a b).Point) (r : ℕ) (f : Place L a b → L) : Prop where
  div : ∀ Q, HasDiv (ev Q) (f Q) (r • FreeAbelianGroup.of P)
  recip : ∀ Q₁ Q₂ Q₃ s t, Collinear Q₁ Q₂ Q₃ s t →
    Sim K (f Q₁ * f Q₂) (f Q₃ * lv a b s t P ^ r)
  neg : ∀ Q, Sim K (f Q * f Q.neg) 1

/-- The last line is the one through `P`: `n = r - 1`. -/
theorem Mil.full_pred {P : (EC a b).Point} {r : ℕ} {n : ℤ} {f : Place L a b → L} (hf : Mil L P n f)
    (hr : r • P = 0) (hn : n + 1 = r) : Full P r f := by
  have hnP : n • P = -P := by
    rw [← natCast_zsmul, ← hn, add_smul, one_smul] at hr
    exact eq_neg_of_add_eq_zero_left hr
  refine ⟨fun Q => ?_, fun Q₁ Q₂ Q₃ s t h => ?_, fun Q => hf.neg Q⟩
  · have e := (hf.hasDiv Q).mul (of_neg Q P)
    rw [mul_one] at e
    convert e using 1
    rw [hnP, ← natCast_zsmul, ← hn, add_smul, one_smul]
    abel
  · have e := hf.rec_add h
    have h1 := lv_ne h P
    rw [hnP] at e
    have e2 := e.mul (Sim.refl (K := K) (1 : L))
    refine e.trans ((Sim.refl _).mul ?_)
    rw [← zpow_natCast, ← hn, zpow_add₀ h1, zpow_one]
    refine (Sim.refl _).mul ?_
    have h2 := (lv_neg h P).symm.mul (Sim.refl (K := K) (lv a b s t (-P))⁻¹)
    have h3 := lv_ne h (-P)
    convert h2 using 1
    · rw [one_mul]
    · field_simp

/-- The last point is `P`: `n = r + 1`. -/
theorem Mil.full_succ {P : (EC a b).Point} {r : ℕ} {n : ℤ} {f : Place L a b → L} (hf : Mil L P n f)
    (hr : r • P = 0) (hn : n = r + 1) : Full P r f := by
  have hnP : n • P = P := by
    rw [hn, add_smul, one_smul, natCast_zsmul, hr, zero_add]
  refine ⟨fun Q => ?_, fun Q₁ Q₂ Q₃ s t h => ?_, fun Q => hf.neg Q⟩
  · have e := hf.hasDiv Q
    convert e using 1
    rw [hnP, ← natCast_zsmul, hn, add_smul, one_smul]
    abel
  · have e := hf.rec_add h
    have h1 := lv_ne h P
    rw [hnP, hn, zpow_add₀ h1, zpow_one, mul_assoc, mul_inv_cancel₀ h1, mul_one,
      zpow_natCast] at e
    exact e

/-- An exponent that kills constants of `K` and `r`-th powers. -/
structure Kills (K L : Type*) [Field K] [Field L] [Algebra K L] (r e : ℕ) : Prop where
  const : ∀ c : K, c ≠ 0 → algebraMap K L c ^ e = 1
  rpow : ∀ z : L, z ≠ 0 → (z ^ r) ^ e = 1

theorem Kills.sim {r e : ℕ} (h : Kills K L r e) {z w : L} (hs : Sim K z w) : z ^ e = w ^ e := by
  obtain ⟨c, hc, rfl⟩ := hs
  rw [mul_pow, h.const c hc, one_mul]

variable {r e : ℕ} {P P₁ P₂ : (EC a b).Point} {f f₁ f₂ f₃ : Place L a b → L}

theorem Full.ne_zero (h : Full P r f) (Q : Place L a b) : f Q ≠ 0 := (h.div Q).ne_zero

/-- The value does not depend on how the function was computed. -/
theorem Full.unique (hk : Kills K L r e) (h₁ : Full P r f₁) (h₂ : Full P r f₂) (Q : Place L a b) :
    f₁ Q ^ e = f₂ Q ^ e := hk.sim ((h₁.div Q).unique (h₂.div Q))

theorem Full.add_neg (hk : Kills K L r e) (h₁ : Full P r f₁) (h₂ : Full (-P) r f₂)
    (Q : Place L a b) : f₁ Q ^ e * f₂ Q ^ e = 1 := by
  have e1 := (h₁.div Q).mul (h₂.div Q)
  have e2 := (of_neg Q P).pow r
  rw [one_pow, smul_add] at e2
  rw [← mul_pow, hk.sim (e1.unique e2), one_pow]

/-- Values are additive in the point. -/
theorem Full.add_left (hk : Kills K L r e) (hP₁ : P₁ ≠ 0) (hP₂ : P₂ ≠ 0) (hP₃ : P₁ + P₂ ≠ 0)
    (h₁ : Full P₁ r f₁) (h₂ : Full P₂ r f₂) (h₃ : Full (P₁ + P₂) r f₃) (Q : Place L a b) :
    f₃ Q ^ e = f₁ Q ^ e * f₂ Q ^ e := by
  obtain ⟨α, β, γ, hl⟩ : ∃ α β γ, IsLine a b α β γ P₁ P₂ := by
    rcases P₁ with _ | ⟨x₁, y₁, n₁⟩
    · exact absurd rfl hP₁
    rcases P₂ with _ | ⟨x₂, y₂, n₂⟩
    · exact absurd rfl hP₂
    refine ⟨_, 1, _, ?_, one_ne_zero, rfl, rfl⟩
    rintro ⟨hx, hy⟩
    exact hP₃ (Point.add_of_Y_eq hx hy)
  have e1 := ((h₁.div Q).mul (h₂.div Q)).mul (h₃.div Q).inv
  have e2 := (of_line Q hl).pow r
  have e3 := hk.sim (e1.unique (by
    convert e2 using 1
    rw [smul_sub, smul_add]
    abel))
  have hz := (of_line Q hl).ne_zero
  rw [hk.rpow _ hz, mul_pow, mul_pow, inv_pow] at e3
  have := pow_ne_zero e (h₃.ne_zero Q)
  field_simp at e3
  exact e3.symm

theorem Full.neg_right (hk : Kills K L r e) (h : Full P r f) (Q : Place L a b) :
    f Q ^ e * f Q.neg ^ e = 1 := by
  rw [← mul_pow, hk.sim (h.neg Q), one_pow]

/-- Values are additive in the place. -/
theorem Full.add_right (hk : Kills K L r e) (h : Full P r f) {Q₁ Q₂ Q₃ : Place L a b} {s t : L}
    (hc : Collinear Q₁ Q₂ Q₃ s t) : f Q₃ ^ e = f Q₁ ^ e * f Q₂ ^ e := by
  rw [← mul_pow, hk.sim (h.recip _ _ _ _ _ hc), mul_pow, hk.rpow _ (lv_ne hc P), mul_one]

/-! ### Places from points of a twist -/

variable {k : Type*} [Field k] [DecidableEq k] [Algebra k K]

/-- Coordinates are scaled by `u` and `w`, with `w² = u³` and `w` outside `K`. -/
structure Twist (a b : K) (a₂ b₂ : k) (u : K) (w : L) : Prop where
  ha : a = u ^ 2 * algebraMap k K a₂
  hb : b = u ^ 3 * algebraMap k K b₂
  hw : w ^ 2 = algebraMap K L (u ^ 3)
  hu : u ≠ 0
  irr : ∀ y : K, w ≠ algebraMap K L y

variable {a₂ b₂ : k} {u : K} {w : L}

/-- The place of a point of the twist. -/
def Twist.place (ht : Twist a b a₂ b₂ u w) (x y : k) (h : y ^ 2 = x ^ 3 + a₂ * x + b₂) (hy : y ≠ 0) :
    Place L a b where
  x := u * algebraMap k K x
  Y := w * algebraMap K L (algebraMap k K y)
  eqn := by
    rw [mul_pow, ht.hw, ← map_pow, ← map_pow, h, ← map_mul, ht.ha, ht.hb]
    congr 1
    simp only [map_add, map_mul, map_pow]
    ring
  irr := by
    intro z hz
    have h1 : algebraMap k K y ≠ 0 := by simpa using hy
    have h2 : algebraMap K L (algebraMap k K y) ≠ 0 := by simpa using h1
    refine ht.irr (z / algebraMap k K y) ?_
    rw [map_div₀, ← hz]
    field_simp

theorem Twist.place_neg (ht : Twist a b a₂ b₂ u w) (x y : k) (h : y ^ 2 = x ^ 3 + a₂ * x + b₂)
    (hy : y ≠ 0) (h' : (-y) ^ 2 = x ^ 3 + a₂ * x + b₂) (hy' : -y ≠ 0) :
    ht.place x (-y) h' hy' = (ht.place x y h hy).neg := by
  simp [Twist.place, Place.neg]

theorem Twist.collinear (ht : Twist a b a₂ b₂ u w) {x₁ y₁ x₂ y₂ x₃ y₃ : k}
    {h₁ : (EC a₂ b₂).Nonsingular x₁ y₁} {h₂ : (EC a₂ b₂).Nonsingular x₂ y₂}
    {h₃ : (EC a₂ b₂).Nonsingular x₃ y₃}
    (hadd : Point.some x₁ y₁ h₁ + Point.some x₂ y₂ h₂ = Point.some x₃ y₃ h₃)
    (n₁ : y₁ ≠ 0) (n₂ : y₂ ≠ 0) (n₃ : y₃ ≠ 0) :
    ∃ s t, Collinear (ht.place x₁ y₁ (eqn_of h₁) n₁) (ht.place x₂ y₂ (eqn_of h₂) n₂)
      (ht.place x₃ y₃ (eqn_of h₃) n₃) s t := by
  have hxy : ¬(x₁ = x₂ ∧ y₁ = (EC a₂ b₂).negY x₂ y₂) := by
    rintro ⟨hx, hy⟩
    rw [Point.add_of_Y_eq hx hy] at hadd
    exact Point.some_ne_zero _ hadd.symm
  rw [Point.add_some hxy] at hadd
  have hx3 : x₃ = _ := (Point.some.inj hadd).1.symm
  have hy3 : y₃ = _ := (Point.some.inj hadd).2.symm
  obtain ⟨e1, e2, e3⟩ := sym_slope h₁.left h₂.left hxy rfl hx3
  have hy2 : y₂ = (EC a₂ b₂).slope x₁ x₂ y₁ y₂ * (x₂ - x₁) + y₁ := by
    by_cases hx : x₁ = x₂
    · have hy := Y_eq_of_Y_ne h₁.left h₂.left hx (fun e => hxy ⟨hx, e⟩)
      rw [hy, hx]; ring
    · rw [slope_of_X_ne hx]
      have := sub_ne_zero.mpr hx
      field_simp
      ring
  have hy3' : y₃ = -((EC a₂ b₂).slope x₁ x₂ y₁ y₂ * (x₃ - x₁) + y₁) := by
    rw [hy3, hx3, addY, Pbc.Curve.negY_EC, negAddY]
  have hu : algebraMap K L u ≠ 0 := by simpa using ht.hu
  clear hy3 hadd hx3
  generalize (EC a₂ b₂).slope x₁ x₂ y₁ y₂ = m at *
  have e1' := congrArg (algebraMap K L) (congrArg (algebraMap k K) e1)
  have e2' := congrArg (algebraMap K L) (congrArg (algebraMap k K) e2)
  have e3' := congrArg (algebraMap K L) (congrArg (algebraMap k K) e3)
  have hw := ht.hw
  subst hy2 hy3'
  refine ⟨w / algebraMap K L u * algebraMap K L (algebraMap k K m),
    w * algebraMap K L (algebraMap k K (y₁ - m * x₁)), ?_, ?_, ?_, ?_, ?_, ?_⟩
  · simp only [Twist.place]
    simp only [map_add, map_mul, map_sub, map_neg, map_pow, map_ofNat] at *
    field_simp
    rw [hw]
    linear_combination algebraMap K L u ^ 3 * e1'
  · simp only [Twist.place]
    rw [ht.ha]
    simp only [map_add, map_mul, map_sub, map_neg, map_pow, map_ofNat] at *
    field_simp
    linear_combination algebraMap K L u ^ 3 * e2' -
      2 * algebraMap K L (algebraMap k K m) * (algebraMap K L (algebraMap k K y₁) -
        algebraMap K L (algebraMap k K m) * algebraMap K L (algebraMap k K x₁)) * hw
  · simp only [Twist.place]
    rw [ht.hb]
    simp only [map_add, map_mul, map_sub, map_neg, map_pow, map_ofNat] at *
    linear_combination algebraMap K L u ^ 3 * e3' +
      (algebraMap K L (algebraMap k K y₁) -
        algebraMap K L (algebraMap k K m) * algebraMap K L (algebraMap k K x₁)) ^ 2 * hw
  · simp only [Twist.place, map_mul, map_sub]
    field_simp
    ring
  · simp only [Twist.place, map_mul, map_sub, map_add]
    field_simp
    ring
  · simp only [Twist.place, map_mul, map_sub, map_add, map_neg]
    field_simp
    ring

end Tate
