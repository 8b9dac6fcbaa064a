import Verif.Lemmas.NonDegAll
import Verif.Lemmas.TateAll
import Verif.Lemmas.CmCurves

/-!
# Maps between the curves `Y² = X³ + B`

`(x, y) ↦ (c² θ(x), c³ θ(y))` for a homomorphism `θ` of fields, and the decomposition of the points over a cubic
extension by the action of the Frobenius map and of the cube roots of unity.
-/

set_option autoImplicit false

namespace Tate

open WeierstrassCurve WeierstrassCurve.Affine
open Spec (EC)

section hom

variable {k M : Type*} [Field k] [DecidableEq k] [Field M] [DecidableEq M]

theorem nonsing_scale (θ : k →+* M) {c : M} {β : k} {β' : M} (hc : c ≠ 0) (hβ : β' = c ^ 6 * θ β) {x y : k}
    (h : (EC 0 β).Nonsingular x y) : (EC 0 β').Nonsingular (c ^ 2 * θ x) (c ^ 3 * θ y) := by
  rw [nonsingular_iff, equation_iff] at h ⊢
  simp only [EC, zero_mul, mul_zero, add_zero, sub_zero] at h ⊢
  refine ⟨?_, ?_⟩
  · have := congrArg θ h.1
    simp only [map_add, map_pow] at this
    rw [hβ]
    linear_combination c ^ 6 * this
  · rcases h.2 with h' | h'
    · left
      intro h0
      apply h'
      have h1 : c ^ 4 * θ (3 * x ^ 2) = 0 := by
        simp only [map_mul, map_pow, map_ofNat]
        linear_combination -h0
      have := (mul_eq_zero.1 h1).resolve_left (pow_ne_zero _ hc)
      exact ((map_eq_zero θ).1 this).symm
    · right
      intro h0
      apply h'
      have h1 : c ^ 3 * θ (y - -y) = 0 := by
        simp only [map_sub, map_neg]
        linear_combination h0
      have := (mul_eq_zero.1 h1).resolve_left (pow_ne_zero _ hc)
      exact sub_eq_zero.1 ((map_eq_zero θ).1 this)

theorem slope_scale (θ : k →+* M) {c : M} {β : k} {β' : M} (hc : c ≠ 0) {x₁ x₂ y₁ y₂ : k}
    (e₁ : y₁ ^ 2 = x₁ ^ 3 + β) (e₂ : y₂ ^ 2 = x₂ ^ 3 + β) (hxy : ¬ (x₁ = x₂ ∧ y₁ = (EC 0 β).negY x₂ y₂)) :
    (EC 0 β').slope (c ^ 2 * θ x₁) (c ^ 2 * θ x₂) (c ^ 3 * θ y₁) (c ^ 3 * θ y₂) = c * θ ((EC 0 β).slope x₁ x₂ y₁ y₂) := by
  have c2 : c ^ 2 ≠ 0 := pow_ne_zero _ hc
  have c3 : c ^ 3 ≠ 0 := pow_ne_zero _ hc
  by_cases hx : x₁ = x₂
  · subst hx
    have hy : y₁ ≠ (EC 0 β).negY x₁ y₂ := fun h => hxy ⟨rfl, h⟩
    rw [Pbc.Curve.negY_EC] at hy
    have hyy : y₁ = y₂ := by
      have : (y₁ - y₂) * (y₁ + y₂) = 0 := by linear_combination e₁ - e₂
      rcases mul_eq_zero.1 this with h | h
      · exact sub_eq_zero.1 h
      · exact absurd (eq_neg_of_add_eq_zero_left h) hy
    subst hyy
    have hy' : c ^ 3 * θ y₁ ≠ (EC 0 β').negY (c ^ 2 * θ x₁) (c ^ 3 * θ y₁) := by
      rw [Pbc.Curve.negY_EC]
      intro h
      apply hy
      have h1 : c ^ 3 * θ (y₁ - -y₁) = 0 := by
        simp only [map_sub, map_neg]; linear_combination h
      exact sub_eq_zero.1 ((map_eq_zero θ).1 ((mul_eq_zero.1 h1).resolve_left c3))
    rw [slope_of_Y_ne rfl hy', slope_of_Y_ne rfl (by rwa [Pbc.Curve.negY_EC]), map_div₀]
    have hd : θ y₁ - -θ y₁ ≠ 0 := by
      rw [← map_neg, ← map_sub, Ne, map_eq_zero]
      exact sub_ne_zero.2 hy
    simp only [EC, negY, zero_mul, mul_zero, add_zero, sub_zero, map_mul, map_pow, map_ofNat, map_sub, map_neg]
    rw [mul_div_assoc', div_eq_div_iff (by
      have := mul_ne_zero c3 hd
      intro h; apply this; linear_combination h) hd]
    ring
  · have hx' : c ^ 2 * θ x₁ ≠ c ^ 2 * θ x₂ := fun h => hx (θ.injective (mul_left_cancel₀ c2 h))
    rw [slope_of_X_ne hx', slope_of_X_ne hx, map_div₀]
    have hd : θ x₁ - θ x₂ ≠ 0 := sub_ne_zero.2 fun h => hx (θ.injective h)
    simp only [map_sub]
    rw [mul_div_assoc', div_eq_div_iff (sub_ne_zero.2 hx') hd]
    ring

/-- `(x, y) ↦ (c² θ(x), c³ θ(y))` -/
def scaleFun (θ : k →+* M) {c : M} {β : k} {β' : M} (hc : c ≠ 0) (hβ : β' = c ^ 6 * θ β) :
    (EC 0 β).Point → (EC 0 β').Point
  | .zero => .zero
  | .some x y h => .some (c ^ 2 * θ x) (c ^ 3 * θ y) (nonsing_scale θ hc hβ h)

/-- The homomorphism. -/
def scale (θ : k →+* M) {c : M} {β : k} {β' : M} (hc : c ≠ 0) (hβ : β' = c ^ 6 * θ β) :
    (EC 0 β).Point →+ (EC 0 β').Point where
  toFun := scaleFun θ hc hβ
  map_zero' := rfl
  map_add' := by
    have h00 : ∀ Q : (EC 0 β').Point, Q = 0 + Q := fun Q => (zero_add Q).symm
    rintro (_ | ⟨x₁, y₁, n₁⟩) Q
    · change scaleFun θ hc hβ (0 + Q) = 0 + _
      rw [zero_add, zero_add]
    rcases Q with _ | ⟨x₂, y₂, n₂⟩
    · change scaleFun θ hc hβ (_ + 0) = _ + 0
      rw [add_zero, add_zero]
    have e₁ : y₁ ^ 2 = x₁ ^ 3 + β := by have := eqn_of n₁; rwa [zero_mul, add_zero] at this
    have e₂ : y₂ ^ 2 = x₂ ^ 3 + β := by have := eqn_of n₂; rwa [zero_mul, add_zero] at this
    have c2 : c ^ 2 ≠ 0 := pow_ne_zero _ hc
    have c3 : c ^ 3 ≠ 0 := pow_ne_zero _ hc
    by_cases hxy : x₁ = x₂ ∧ y₁ = (EC 0 β).negY x₂ y₂
    · rw [Point.add_of_Y_eq hxy.1 hxy.2]
      change 0 = Point.some _ _ _ + Point.some _ _ _
      refine (Point.add_of_Y_eq (by rw [hxy.1]) ?_).symm
      rw [hxy.2, Pbc.Curve.negY_EC, Pbc.Curve.negY_EC, map_neg]; ring
    · rw [Point.add_some hxy]
      have hxy' : ¬ (c ^ 2 * θ x₁ = c ^ 2 * θ x₂ ∧ c ^ 3 * θ y₁ = (EC 0 β').negY (c ^ 2 * θ x₂) (c ^ 3 * θ y₂)) := by
        rintro ⟨h1, h2⟩
        refine hxy ⟨θ.injective (mul_left_cancel₀ c2 h1), ?_⟩
        rw [Pbc.Curve.negY_EC] at h2 ⊢
        refine θ.injective (mul_left_cancel₀ c3 ?_)
        rw [h2, map_neg]; ring
      change Point.some _ _ _ = Point.some _ _ _ + Point.some _ _ _
      rw [Point.add_some hxy', Point.some.injEq]
      rw [slope_scale θ hc e₁ e₂ hxy]
      simp only [addX, addY, negAddY, Pbc.Curve.negY_EC]
      simp only [EC, map_add, map_sub, map_mul, map_pow, map_neg, zero_mul, add_zero, sub_zero]
      constructor <;> ring

theorem scale_some (θ : k →+* M) {c : M} {β : k} {β' : M} (hc : c ≠ 0) (hβ : β' = c ^ 6 * θ β) {x y : k}
    (h : (EC 0 β).Nonsingular x y) :
    scale θ hc hβ (.some x y h) = .some (c ^ 2 * θ x) (c ^ 3 * θ y) (nonsing_scale θ hc hβ h) := rfl

theorem point_ext {β : k} {x y x' y' : k} {h : (EC 0 β).Nonsingular x y} {h' : (EC 0 β).Nonsingular x' y'}
    (hx : x = x') (hy : y = y') : Point.some x y h = Point.some x' y' h' := by
  subst hx hy; rfl

/-- Multiplication of the first coordinate by the cube roots of unity. -/
theorem point_sum_cube {ζ β : k} (hζ : ζ ^ 2 + ζ + 1 = 0) (h2 : (2 : k) ≠ 0) (hβ : β ≠ 0) {x y : k}
    (h₀ : (EC 0 β).Nonsingular x y) (h₁ : (EC 0 β).Nonsingular (ζ * x) y) (h₂ : (EC 0 β).Nonsingular (ζ ^ 2 * x) y) 
    (h3 : (3 : k) ≠ 0) :
    Point.some x y h₀ + Point.some (ζ * x) y h₁ + Point.some (ζ ^ 2 * x) y h₂ = 0 := by
  have e := eqn_of h₀
  rw [zero_mul, add_zero] at e
  have hζ1 : ζ ≠ 1 := by
    rintro rfl
    exact h3 (by linear_combination hζ)
  have hs : (EC 0 β).slope x (ζ * x) y y = 0 ∧ ¬ (x = ζ * x ∧ y = (EC 0 β).negY (ζ * x) y) := by
    by_cases hx : x = 0
    · subst hx
      have hy : y ≠ 0 := by
        rintro rfl
        exact hβ (by linear_combination -e)
      have hn : y ≠ (EC 0 β).negY (ζ * 0) y := by
        rw [Pbc.Curve.negY_EC]
        intro h
        exact mul_ne_zero h2 hy (by linear_combination h)
      refine ⟨?_, fun h => hn h.2⟩
      rw [slope_of_Y_ne (by ring) hn]
      simp [EC]
    · have hn : x ≠ ζ * x := by
        intro h
        refine (mul_ne_zero (sub_ne_zero.2 hζ1) hx) (by linear_combination -h)
      refine ⟨?_, fun h => hn h.1⟩
      rw [slope_of_X_ne hn, sub_self, zero_div]
  rw [Point.add_some hs.2]
  refine Point.add_of_Y_eq ?_ ?_
  · simp only [addX, hs.1]
    simp only [EC]
    linear_combination -x * hζ
  · simp only [addY, negAddY, hs.1, Pbc.Curve.negY_EC]
    ring

end hom

/-! ### Points over a cubic extension -/

section cubic

variable {k M : Type*} [Field k] [DecidableEq k] [Fintype k] [Field M] [DecidableEq M] [Algebra k M]

/-- The elements fixed by the Frobenius map are those of `k`. -/
theorem fixed_mem {x : M} (h : x ^ Fintype.card k = x) : ∃ z : k, algebraMap k M z = x := by
  classical
  have hq : 1 < Fintype.card k := Fintype.one_lt_card
  set p : Polynomial M := Polynomial.X ^ Fintype.card k - Polynomial.X with hp
  have hp0 : p ≠ 0 := FiniteField.X_pow_card_sub_X_ne_zero M hq
  have hdeg : p.natDegree = Fintype.card k := FiniteField.X_pow_card_sub_X_natDegree_eq M hq
  by_contra hno
  have hroot : ∀ z : M, z ^ Fintype.card k = z → z ∈ p.roots.toFinset := fun z hz => by
    rw [Multiset.mem_toFinset, Polynomial.mem_roots hp0, Polynomial.IsRoot, hp, Polynomial.eval_sub,
      Polynomial.eval_pow, Polynomial.eval_X, hz, sub_self]
  have hsub : insert x (Finset.univ.image (algebraMap k M)) ⊆ p.roots.toFinset := by
    intro z hz
    rcases Finset.mem_insert.1 hz with rfl | hz
    · exact hroot _ h
    · obtain ⟨c, -, rfl⟩ := Finset.mem_image.1 hz
      exact hroot _ (by rw [← map_pow, FiniteField.pow_card])
  have h1 := Finset.card_le_card hsub
  rw [Finset.card_insert_of_notMem (fun hx => by
    obtain ⟨c, -, hc⟩ := Finset.mem_image.1 hx
    exact hno ⟨c, hc⟩), Finset.card_image_of_injective _ (algebraMap k M).injective, Finset.card_univ] at h1
  have h2 := p.roots.toFinset_card_le.trans (Polynomial.card_roots' p)
  omega

variable {β : k} {g ζ : k} {ν : M}

theorem six_eq (i : ℕ) (hν : ν ^ 3 = algebraMap k M g) (hν0 : ν ≠ 0) :
    algebraMap k M β = ((ν ^ i)⁻¹) ^ 6 * algebraMap k M (g ^ (2 * i) * β) := by
  rw [map_mul, map_pow, ← hν, ← mul_assoc]
  have : ((ν ^ i)⁻¹) ^ 6 * (ν ^ 3) ^ (2 * i) = 1 := by
    rw [inv_pow, ← pow_mul, ← pow_mul, show 3 * (2 * i) = i * 6 by ring, inv_mul_cancel₀ (pow_ne_zero _ hν0)]
  rw [this, one_mul]

/-- The points over `k` of the twist by `g^(2i)`, as points over `M`. -/
noncomputable def emb (i : ℕ) (hν : ν ^ 3 = algebraMap k M g) (hν0 : ν ≠ 0) :
    (EC 0 (g ^ (2 * i) * β)).Point →+ (EC 0 (algebraMap k M β)).Point :=
  scale (algebraMap k M) (inv_ne_zero (pow_ne_zero i hν0)) (six_eq i hν hν0)

/-- The Frobenius map on points. -/
noncomputable def frobP (k : Type*) {M : Type*} [Field k] [DecidableEq k] [Fintype k] [Field M] [DecidableEq M]
    [Algebra k M] (β : k) : (EC 0 (algebraMap k M β)).Point →+ (EC 0 (algebraMap k M β)).Point :=
  scale (FiniteField.frobeniusAlgHom k M).toRingHom one_ne_zero (by
    rw [one_pow, one_mul]; exact ((FiniteField.frobeniusAlgHom k M).commutes β).symm)

theorem frobP_some {x y : M} (h : (EC 0 (algebraMap k M β)).Nonsingular x y) :
    ∃ h', frobP k β (.some x y h) = .some (x ^ Fintype.card k) (y ^ Fintype.card k) h' := by
  have e : frobP k β (.some x y h) = .some (1 ^ 2 * x ^ Fintype.card k) (1 ^ 3 * y ^ Fintype.card k) _ :=
    scale_some _ _ _ h
  simp only [one_pow, one_mul] at e
  exact ⟨_, e⟩

/-- `(x, y) ↦ (ζ x, y)` -/
noncomputable def rootP {ζ : M} (β : M) (hζ : ζ ^ 2 + ζ + 1 = 0) : (EC 0 β).Point →+ (EC 0 β).Point :=
  scale (RingHom.id M) (c := ζ ^ 2) (by
    rintro h0
    have : ζ = 0 := by simpa using h0
    rw [this] at hζ; simp at hζ) (by
    have h3 : ζ ^ 3 = 1 := by linear_combination (ζ - 1) * hζ
    rw [← pow_mul, show 2 * 6 = 3 * 4 by rfl, pow_mul, h3, one_pow, one_mul]; rfl)

theorem rootP_some {ζ β : M} (hζ : ζ ^ 2 + ζ + 1 = 0) {x y : M} (h : (EC 0 β).Nonsingular x y) :
    ∃ h', rootP β hζ (.some x y h) = .some (ζ * x) y h' := by
  have h3 : ζ ^ 3 = 1 := by linear_combination (ζ - 1) * hζ
  have e : rootP β hζ (.some x y h) = .some ((ζ ^ 2) ^ 2 * x) ((ζ ^ 2) ^ 3 * y) _ := scale_some _ _ _ h
  have e1 : (ζ ^ 2) ^ 2 = ζ := by linear_combination ζ * h3
  have e2 : (ζ ^ 2) ^ 3 = 1 := by linear_combination (ζ ^ 3 + 1) * h3
  simp only [e1, e2, one_mul] at e
  exact ⟨_, e⟩

/-- The points fixed by the Frobenius map up to a cube root of unity come from a twist. -/
theorem mem_emb {i : ℕ} (hν : ν ^ 3 = algebraMap k M g) (hν0 : ν ≠ 0) (hβ : β ≠ 0) (h2 : (2 : k) ≠ 0) (h3 : (3 : k) ≠ 0)
    (hg : g ≠ 0) {x y : M} (h : (EC 0 (algebraMap k M β)).Nonsingular x y)
    (hx : (ν ^ (2 * i) * x) ^ Fintype.card k = ν ^ (2 * i) * x) (hy : y ^ Fintype.card k = y) :
    ∃ T, emb i hν hν0 T = .some x y h := by
  obtain ⟨X, hX⟩ := fixed_mem hx
  obtain ⟨Y, hY⟩ := fixed_mem hy
  have e := eqn_of h
  rw [zero_mul, add_zero] at e
  have hE : (g ^ i * Y) ^ 2 = X ^ 3 + 0 * X + g ^ (2 * i) * β := by
    refine (algebraMap k M).injective ?_
    simp only [map_add, map_mul, map_pow, map_zero, hX, hY, zero_mul, add_zero]
    rw [← hν]
    calc ((ν ^ 3) ^ i * y) ^ 2 = (ν ^ i) ^ 6 * y ^ 2 := by ring
      _ = _ := by rw [e]; ring
  have hn : (EC 0 (g ^ (2 * i) * β)).Nonsingular X (g ^ i * Y) := by
    refine nonsingular_of_disc h2 ?_ _ _ hE
    rw [show 4 * (0 : k) ^ 3 + 27 * (g ^ (2 * i) * β) ^ 2 = 3 ^ 3 * (g ^ (2 * i) * β) ^ 2 by ring]
    exact mul_ne_zero (pow_ne_zero _ h3) (pow_ne_zero _ (mul_ne_zero (pow_ne_zero _ hg) hβ))
  refine ⟨.some X (g ^ i * Y) hn, ?_⟩
  rw [emb, scale_some]
  have hνi : ν ^ i ≠ 0 := pow_ne_zero i hν0
  refine point_ext ?_ ?_
  · rw [hX, inv_pow, ← pow_mul, mul_comm i 2, inv_mul_cancel_left₀ (pow_ne_zero _ hν0)]
  · rw [map_mul, map_pow, ← hν, hY, inv_pow, ← pow_mul, ← pow_mul, mul_comm i 3,
      inv_mul_cancel_left₀ (pow_ne_zero _ hν0)]

/-- Three times a point over the cubic extension is the sum of points over `k` of the curve and of two twists. -/
theorem three_smul [Fintype M] (hM : Fintype.card M = Fintype.card k ^ 3) (hζ : ζ ^ 2 + ζ + 1 = 0)
    (hν : ν ^ 3 = algebraMap k M g) (hν0 : ν ≠ 0) (hνq : ν ^ Fintype.card k = algebraMap k M ζ * ν)
    (hβ : β ≠ 0) (h2 : (2 : k) ≠ 0) (h3 : (3 : k) ≠ 0) (R : (EC 0 (algebraMap k M β)).Point) :
    ∃ T₀ T₁ T₂, 3 • R = emb 0 hν hν0 T₀ + emb 1 hν hν0 T₁ + emb 2 hν hν0 T₂ := by
  have hg : g ≠ 0 := fun h0 => hν0 (by rw [h0, map_zero] at hν; exact pow_eq_zero_iff (by norm_num) |>.1 hν)
  have hζM : (algebraMap k M ζ) ^ 2 + algebraMap k M ζ + 1 = 0 := by
    rw [← map_pow, ← map_add, ← map_one (algebraMap k M), ← map_add, hζ, map_zero]
  have h2M : (2 : M) ≠ 0 := by
    have := (map_ne_zero (algebraMap k M)).2 h2
    rwa [map_ofNat] at this
  have h3M : (3 : M) ≠ 0 := by
    have := (map_ne_zero (algebraMap k M)).2 h3
    rwa [map_ofNat] at this
  have hβM : algebraMap k M β ≠ 0 := (map_ne_zero _).2 hβ
  have hζ3 : ζ ^ 3 = 1 := by linear_combination (ζ - 1) * hζ
  set s := frobP (M := M) k β with hs
  set w := rootP (algebraMap k M β) hζM with hw
  have s3 : ∀ R, s (s (s R)) = R := by
    rintro (_ | ⟨x, y, h⟩)
    · change s (s (s 0)) = 0
      simp only [map_zero]
    obtain ⟨_, e1⟩ := frobP_some h
    rw [hs, e1]
    obtain ⟨_, e2⟩ := frobP_some (k := k) ‹_›
    rw [e2]
    obtain ⟨_, e3⟩ := frobP_some (k := k) ‹_›
    rw [e3]
    refine point_ext ?_ ?_
    all_goals
      rw [← pow_mul, ← pow_mul, show Fintype.card k * (Fintype.card k * Fintype.card k) = Fintype.card k ^ 3 by ring, ← hM,
        FiniteField.pow_card]
  have wsum : ∀ R, R + w R + w (w R) = 0 := by
    rintro (_ | ⟨x, y, h⟩)
    · change 0 + w 0 + w (w 0) = 0
      simp only [map_zero, add_zero]
    obtain ⟨h1, e1⟩ := rootP_some hζM h
    obtain ⟨h2', e2⟩ := rootP_some hζM h1
    rw [hw, e1, e2]
    have := point_sum_cube hζM h2M hβM h h1 (by
      rw [← mul_assoc, ← pow_two] at h2'; exact h2') h3M
    rw [← this]
    congr 1
    exact point_ext (by ring) rfl
  have w3 : ∀ R, w (w (w R)) = R := fun R => by
    have h1 := wsum R
    have h2 := wsum (w R)
    have : w (w (w R)) - R = 0 := by
      rw [← sub_eq_zero_of_eq (h2.trans h1.symm)]; abel
    exact sub_eq_zero.1 this
  have ws : ∀ R, w (s R) = s (w R) := by
    rintro (_ | ⟨x, y, h⟩)
    · change w (s 0) = s (w 0)
      simp only [map_zero]
    obtain ⟨h1, e1⟩ := frobP_some h
    obtain ⟨h2', e2⟩ := rootP_some hζM h
    obtain ⟨h3', e3⟩ := rootP_some hζM h1
    obtain ⟨h4, e4⟩ := frobP_some (k := k) h2'
    rw [hs, hw, e1, e2, e3, e4]
    refine point_ext ?_ rfl
    rw [mul_pow, ← map_pow, FiniteField.pow_card]
  -- the three fixed points
  have f0 : ∀ N, s N = N → ∃ T, emb (β := β) 0 hν hν0 T = N := by
    rintro (_ | ⟨x, y, h⟩) hN
    · exact ⟨0, map_zero _⟩
    obtain ⟨h1, e1⟩ := frobP_some (k := k) h
    rw [hs, e1, Point.some.injEq] at hN
    exact mem_emb hν hν0 hβ h2 h3 hg h (by rw [mul_zero, pow_zero, one_mul]; exact hN.1) hN.2
  have f1 : ∀ N, w (w (s N)) = N → ∃ T, emb (β := β) 1 hν hν0 T = N := by
    rintro (_ | ⟨x, y, h⟩) hN
    · exact ⟨0, map_zero _⟩
    obtain ⟨h1, e1⟩ := frobP_some (k := k) h
    obtain ⟨h2', e2⟩ := rootP_some hζM h1
    obtain ⟨h3', e3⟩ := rootP_some hζM h2'
    rw [hs, e1, hw, e2, e3, Point.some.injEq] at hN
    refine mem_emb hν hν0 hβ h2 h3 hg h ?_ hN.2
    rw [mul_pow, ← pow_mul, mul_comm (2 * 1), pow_mul, hνq]
    linear_combination ν ^ 2 * hN.1
  have f2 : ∀ N, w (s N) = N → ∃ T, emb (β := β) 2 hν hν0 T = N := by
    rintro (_ | ⟨x, y, h⟩) hN
    · exact ⟨0, map_zero _⟩
    obtain ⟨h1, e1⟩ := frobP_some (k := k) h
    obtain ⟨h2', e2⟩ := rootP_some hζM h1
    rw [hs, e1, hw, e2, Point.some.injEq] at hN
    refine mem_emb hν hν0 hβ h2 h3 hg h ?_ hN.2
    have h3' : algebraMap k M ζ ^ 3 = 1 := by rw [← map_pow, hζ3, map_one]
    rw [mul_pow, ← pow_mul, mul_comm (2 * 2), pow_mul, hνq]
    linear_combination ν ^ 4 * hN.1 + algebraMap k M ζ * ν ^ 4 * x ^ Fintype.card k * h3'
  obtain ⟨T₀, e₀⟩ := f0 (R + s R + s (s R)) (by simp only [map_add, s3]; abel)
  obtain ⟨T₁, e₁⟩ := f1 (R + w (w (s R)) + w (s (s R))) (by
    simp only [map_add, ← ws, s3, w3]; abel)
  obtain ⟨T₂, e₂⟩ := f2 (R + w (s R) + w (w (s (s R)))) (by
    simp only [map_add, ← ws, s3, w3]; abel)
  refine ⟨T₀, T₁, T₂, ?_⟩
  rw [e₀, e₁, e₂]
  have h1 := wsum (s R)
  have h2 := wsum (s (s R))
  have : R + s R + s (s R) + (R + w (w (s R)) + w (s (s R))) + (R + w (s R) + w (w (s (s R)))) =
      3 • R + (s R + w (s R) + w (w (s R))) + (s (s R) + w (s (s R)) + w (w (s (s R)))) := by abel
  rw [this, h1, h2, add_zero, add_zero]

end cubic

/-! ### A partner over the small field -/

section partner

variable {k M L : Type*} [Field k] [DecidableEq k] [Fintype k] [Field M] [DecidableEq M] [Fintype M] [Field L]
  [DecidableEq L] [Fintype L] [Algebra k M] [Algebra M L]
variable {a b : M} {β g ζ : k} {ν u : M} {w : L}

/-- The twist over the larger field. -/
theorem Twist.up (ht : Twist a b (0 : k) β u w) : Twist a b (0 : M) (algebraMap k M β) u w where
  ha := by rw [ht.ha, map_zero, map_zero]
  hb := ht.hb
  hw := ht.hw
  hu := ht.hu
  irr := ht.irr

/-- A point over `k` as a point over `M`. -/
noncomputable def up (M : Type*) [Field M] [DecidableEq M] [Algebra k M] (β : k) :
    (EC 0 β).Point →+ (EC 0 (algebraMap k M β)).Point :=
  scale (algebraMap k M) one_ne_zero (by rw [one_pow, one_mul])

theorem up_some {x y : k} (h : (EC 0 β).Nonsingular x y) :
    ∃ h', up M β (.some x y h) = .some (algebraMap k M x) (algebraMap k M y) h' := by
  have e : up M β (.some x y h) = .some (1 ^ 2 * algebraMap k M x) (1 ^ 3 * algebraMap k M y) _ := scale_some _ _ _ h
  simp only [one_pow, one_mul] at e
  exact ⟨_, e⟩

theorem up_ne {T : (EC 0 β).Point} (h : T ≠ 0) : up M β T ≠ 0 := by
  rcases T with _ | ⟨x, y, hn⟩
  · exact absurd rfl h
  · obtain ⟨h', e⟩ := up_some (M := M) hn
    rw [e]; exact Point.some_ne_zero _

theorem emb_zero (hν : ν ^ 3 = algebraMap k M g) (hν0 : ν ≠ 0) (T : (EC 0 (g ^ (2 * 0) * β)).Point) :
    ∃ T', up M β T' = emb 0 hν hν0 T := by
  rcases T with _ | ⟨x, y, hn⟩
  · exact ⟨0, rfl⟩
  · have hn' := hn
    simp only [mul_zero, pow_zero, one_mul] at hn'
    obtain ⟨h', e⟩ := up_some (M := M) hn'
    refine ⟨_, e.trans ?_⟩
    rw [emb, scale_some]
    refine point_ext ?_ ?_ <;> simp

theorem tateT_up (ht : Twist a b (0 : k) β u w) (r e : ℕ) (P : (EC a b).Point) (T : (EC 0 β).Point) :
    tateT ht.up r e P (up M β T) = tateT ht r e P T := by
  rcases T with _ | ⟨x, y, hn⟩
  · rfl
  · obtain ⟨h', e⟩ := up_some (M := M) hn
    rw [e]
    by_cases hy : y = 0
    · subst hy
      simp [tateT]
    · rw [tateT_some _ _ _ hy, tateT_some _ _ _ ((map_ne_zero _).2 hy)]
      rfl

/-- **Non-degeneracy** for a twist over a subfield of index three: the pairing is not trivial on the points over the
small field, if `r` does not divide the orders of the two other twists. -/
theorem exists_ne_cubic (ht : Twist a b (0 : k) β u w) (hM : Fintype.card M = Fintype.card k ^ 3)
    (hζ : ζ ^ 2 + ζ + 1 = 0) (hν : ν ^ 3 = algebraMap k M g) (hν0 : ν ≠ 0)
    (hνq : ν ^ Fintype.card k = algebraMap k M ζ * ν) (hβ : β ≠ 0) (h2 : (2 : k) ≠ 0) (h3 : (3 : k) ≠ 0)
    (hQ : 61 < Fintype.card M) {r h : ℕ} (hodd : Odd r) (hr3 : r.Coprime 3) (hcard : Fintype.card M + 1 = h * r)
    (h₁ : r.Coprime (Nat.card (EC 0 (g ^ 2 * β)).Point)) (h₂ : r.Coprime (Nat.card (EC 0 (g ^ 4 * β)).Point))
    {S : (EC 0 β).Point} (hS : 4 • S ≠ 0)
    {P : (EC a b).Point} (hP : P ≠ 0) (hr : r • P = 0) (hk : Kills M L r ((Fintype.card M - 1) * h)) :
    ∃ T, tateT ht r ((Fintype.card M - 1) * h) P T ≠ 1 := by
  have h2M : (2 : M) ≠ 0 := by
    have := (map_ne_zero (algebraMap k M)).2 h2
    rwa [map_ofNat] at this
  have h3M : (3 : M) ≠ 0 := by
    have := (map_ne_zero (algebraMap k M)).2 h3
    rwa [map_ofNat] at this
  have hD : 4 * a ^ 3 + 27 * b ^ 2 ≠ 0 := by
    rw [ht.ha, ht.hb, map_zero, mul_zero, show 4 * (0 : M) ^ 3 + 27 * (u ^ 3 * algebraMap k M β) ^ 2 =
      3 ^ 3 * (u ^ 3 * algebraMap k M β) ^ 2 by ring]
    exact mul_ne_zero (pow_ne_zero _ h3M) (pow_ne_zero _ (mul_ne_zero (pow_ne_zero _ ht.hu) ((map_ne_zero _).2 hβ)))
  obtain ⟨R, hR⟩ := exists_ne ht.up h2M h3M hD hQ hodd hcard hP hr hk
  by_contra hno
  push Not at hno
  apply hR
  set E := fun T => tateT ht.up r ((Fintype.card M - 1) * h) P T with hE
  have hadd : ∀ Q₁ Q₂, E (Q₁ + Q₂) = E Q₁ * E Q₂ := fun Q₁ Q₂ =>
    tateT_add_right_all ht.up h2M hk hodd hr (S := up M β S) (by rw [← map_nsmul]; exact up_ne hS) Q₁ Q₂
  have h0 : E 0 = 1 := rfl
  have hmul : ∀ (n : ℕ) Q, E (n • Q) = E Q ^ n := fun n Q => by
    induction n with
    | zero => rw [zero_smul, pow_zero, h0]
    | succ n ih => rw [succ_nsmul, hadd, ih, pow_succ]
  have hroot : ∀ Q, E Q ^ r = 1 := fun Q => tateT_pow ht.up hk hodd.pos.ne' hr Q
  have hcop : ∀ {n : ℕ} {Q}, r.Coprime n → n • Q = 0 → E Q = 1 := fun {n Q} hn hQ => by
    have h1 : E Q ^ n = 1 := by rw [← hmul, hQ, h0]
    have := pow_gcd_eq_one.2 ⟨hroot Q, h1⟩
    rwa [show r.gcd n = 1 from hn, pow_one] at this
  obtain ⟨T₀, T₁, T₂, hsum⟩ := three_smul hM hζ hν hν0 hνq hβ h2 h3 R
  have e₀ : E (emb 0 hν hν0 T₀) = 1 := by
    obtain ⟨T, hT⟩ := emb_zero hν hν0 T₀
    rw [← hT, hE]
    dsimp only
    rw [tateT_up ht, hno]
  have e₁ : E (emb 1 hν hν0 T₁) = 1 := hcop h₁ (by
    rw [← map_nsmul, show Nat.card (EC 0 (g ^ 2 * β)).Point • T₁ = 0 from card_nsmul_eq_zero', map_zero])
  have e₂ : E (emb 2 hν hν0 T₂) = 1 := hcop h₂ (by
    rw [← map_nsmul, show Nat.card (EC 0 (g ^ 4 * β)).Point • T₂ = 0 from card_nsmul_eq_zero', map_zero])
  have e3 : E R ^ 3 = 1 := by
    rw [← hmul, hsum, hadd, hadd, e₀, e₁, e₂, one_mul, one_mul]
  have := pow_gcd_eq_one.2 ⟨hroot R, e3⟩
  rwa [show r.gcd 3 = 1 from hr3, pow_one] at this

end partner
end Tate
