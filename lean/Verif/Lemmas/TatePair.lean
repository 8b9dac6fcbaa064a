import Verif.Lemmas.TateFull

/-!
# The reduced Tate pairing

`tate P Q` is defined from any function with divisor `r (P) - r (O)`, without reference to a way of
computing it.  It is additive in both arguments.
-/

set_option autoImplicit false
set_option linter.unusedSectionVars false

namespace Tate

open WeierstrassCurve WeierstrassCurve.Affine
open Spec (EC)

variable {K : Type*} [Field K] [DecidableEq K] {L : Type*} [Field L] [Algebra K L] {a b : K}

/-- There is a line through any two points that are neither zero nor opposite. -/
theorem exists_line {P₁ P₂ : (EC a b).Point} (hP₁ : P₁ ≠ 0) (hP₂ : P₂ ≠ 0) (hP₃ : P₁ + P₂ ≠ 0) :
    ∃ α β γ, IsLine a b α β γ P₁ P₂ := by
  rcases P₁ with _ | ⟨x₁, y₁, n₁⟩
  · exact absurd rfl hP₁
  rcases P₂ with _ | ⟨x₂, y₂, n₂⟩
  · exact absurd rfl hP₂
  refine ⟨-1 * (EC a b).slope x₁ x₂ y₁ y₂, 1, -1 * (y₁ - (EC a b).slope x₁ x₂ y₁ y₂ * x₁), ?_,
    one_ne_zero, by ring, by ring⟩
  rintro ⟨hx, hy⟩
  exact hP₃ (Point.add_of_Y_eq hx hy)

theorem exists_mil (P : (EC a b).Point) : ∀ n : ℕ, (∀ m, 1 ≤ m → m ≤ n + 1 → m • P ≠ 0) →
    ∃ f, Mil L P (n + 1 : ℕ) f
  | 0, _ => ⟨_, by simpa using Mil.one⟩
  | n + 1, h => by
    obtain ⟨f, hf⟩ := exists_mil P n (fun m h1 h2 => h m h1 (by omega))
    obtain ⟨α, β, γ, hl⟩ := exists_line (P₁ := ((n + 1 : ℕ) : ℤ) • P) (P₂ := (1 : ℤ) • P)
      (by rw [natCast_zsmul]; exact h _ (by omega) (by omega))
      (by rw [one_smul]; simpa using h 1 (by omega) (by omega))
      (by rw [← add_smul]; have := h (n + 2) (by omega) (by omega)
          rw [← natCast_zsmul] at this; exact_mod_cast this)
    exact ⟨_, by have := Mil.add hf Mil.one hl; exact_mod_cast this⟩

theorem Full.pow {P : (EC a b).Point} {d : ℕ} {f : Place L a b → L} (h : Full P d f) (m : ℕ) :
    Full P (d * m) (fun Q => f Q ^ m) where
  div Q := by
    have := (h.div Q).pow m
    rwa [smul_smul, mul_comm m d] at this
  recip Q₁ Q₂ Q₃ s t hc := by
    have := (h.recip _ _ _ _ _ hc).pow m
    rwa [mul_pow, mul_pow, ← pow_mul] at this
  neg Q := by
    have := (h.neg Q).pow m
    rwa [mul_pow, one_pow] at this

/-- Every torsion point has a function. -/
theorem exists_full {P : (EC a b).Point} (hP : P ≠ 0) {r : ℕ} (h0 : r ≠ 0) (hr : r • P = 0) :
    ∃ f : Place L a b → L, Full P r f := by
  have hd : addOrderOf P ∣ r := addOrderOf_dvd_of_nsmul_eq_zero hr
  obtain ⟨m, rfl⟩ := hd
  have hpos : addOrderOf P ≠ 0 := fun h => h0 (by rw [h, zero_mul])
  have h1 : addOrderOf P ≠ 1 := fun h => hP (AddMonoid.addOrderOf_eq_one_iff.1 h)
  obtain ⟨f, hf⟩ := exists_mil (L := L) P (addOrderOf P - 2) (fun m h2 h3 h4 => by
    have := Nat.le_of_dvd (by omega) (addOrderOf_dvd_of_nsmul_eq_zero h4)
    omega)
  exact ⟨_, (hf.full_pred (addOrderOf_nsmul_eq_zero P) (by omega)).pow m⟩

open Classical in
/-- The reduced pairing of exponent `e`, in terms of a function with divisor `r (P) - r (O)`. -/
noncomputable def tate (r e : ℕ) (P : (EC a b).Point) (Q : Place L a b) : L :=
  if h : ∃ f : Place L a b → L, P ≠ 0 ∧ Full P r f then h.choose Q ^ e else 1

variable {r e : ℕ} {P P₁ P₂ : (EC a b).Point} {f : Place L a b → L}

theorem tate_zero (r e : ℕ) (Q : Place L a b) : tate r e (0 : (EC a b).Point) Q = 1 := by
  unfold tate
  rw [dif_neg]
  rintro ⟨f, h, _⟩
  exact h rfl

theorem tate_eq (hk : Kills K L r e) (hP : P ≠ 0) (h : Full P r f) (Q : Place L a b) :
    tate r e P Q = f Q ^ e := by
  have hex : ∃ f : Place L a b → L, P ≠ 0 ∧ Full P r f := ⟨f, hP, h⟩
  unfold tate
  rw [dif_pos hex]
  exact Full.unique hk hex.choose_spec.2 h Q

theorem tate_add_left (hk : Kills K L r e) (h0 : r ≠ 0) (h₁ : r • P₁ = 0) (h₂ : r • P₂ = 0)
    (Q : Place L a b) : tate r e (P₁ + P₂) Q = tate r e P₁ Q * tate r e P₂ Q := by
  by_cases z₁ : P₁ = 0
  · rw [z₁, zero_add, tate_zero, one_mul]
  by_cases z₂ : P₂ = 0
  · rw [z₂, add_zero, tate_zero, mul_one]
  obtain ⟨f₁, F₁⟩ := exists_full (L := L) z₁ h0 h₁
  obtain ⟨f₂, F₂⟩ := exists_full (L := L) z₂ h0 h₂
  by_cases z₃ : P₁ + P₂ = 0
  · rw [z₃, tate_zero, tate_eq hk z₁ F₁, tate_eq hk z₂ F₂]
    have : P₂ = -P₁ := (neg_eq_of_add_eq_zero_right z₃).symm
    subst this
    rw [Full.add_neg hk F₁ F₂]
  · obtain ⟨f₃, F₃⟩ := exists_full (L := L) z₃ h0 (by rw [smul_add, h₁, h₂, add_zero])
    rw [tate_eq hk z₁ F₁, tate_eq hk z₂ F₂, tate_eq hk z₃ F₃,
      Full.add_left hk z₁ z₂ z₃ F₁ F₂ F₃]

theorem tate_pow (hk : Kills K L r e) (h0 : r ≠ 0) (hr : r • P = 0) (Q : Place L a b) :
    tate r e P Q ^ r = 1 := by
  by_cases z : P = 0
  · rw [z, tate_zero, one_pow]
  obtain ⟨f, F⟩ := exists_full (L := L) z h0 hr
  rw [tate_eq hk z F, ← pow_mul, mul_comm, pow_mul, hk.rpow _ (F.ne_zero Q)]

theorem tate_ne (hk : Kills K L r e) (h0 : r ≠ 0) (hr : r • P = 0) (Q : Place L a b) :
    tate r e P Q ≠ 0 := by
  intro h
  have := tate_pow hk h0 hr Q
  rw [h, zero_pow h0] at this
  exact zero_ne_one this

variable {k : Type*} [Field k] [DecidableEq k] [Algebra k K] {a₂ b₂ : k} {u : K} {w : L}

/-- The pairing with points of a twist. -/
noncomputable def tateT (ht : Twist a b a₂ b₂ u w) (r e : ℕ) (P : (EC a b).Point) :
    (EC a₂ b₂).Point → L
  | .zero => 1
  | .some x y h => if hy : y = 0 then 1 else tate r e P (ht.place x y (eqn_of h) hy)

variable (ht : Twist a b a₂ b₂ u w)

theorem tateT_zero_right (P : (EC a b).Point) : tateT ht r e P 0 = 1 := rfl

theorem tateT_some (P : (EC a b).Point) {x y : k} (h : (EC a₂ b₂).Nonsingular x y) (hy : y ≠ 0) :
    tateT ht r e P (.some x y h) = tate r e P (ht.place x y (eqn_of h) hy) := by
  rw [tateT, dif_neg hy]

theorem tateT_zero_left (Q : (EC a₂ b₂).Point) : tateT ht r e (0 : (EC a b).Point) Q = 1 := by
  rcases Q with _ | ⟨x, y, h⟩
  · rfl
  · rw [tateT]; split_ifs
    · rfl
    · exact tate_zero _ _ _

theorem tateT_add_left (hk : Kills K L r e) (h0 : r ≠ 0) (h₁ : r • P₁ = 0) (h₂ : r • P₂ = 0)
    (Q : (EC a₂ b₂).Point) :
    tateT ht r e (P₁ + P₂) Q = tateT ht r e P₁ Q * tateT ht r e P₂ Q := by
  rcases Q with _ | ⟨x, y, h⟩
  · simp [tateT]
  · simp only [tateT]; split_ifs
    · simp
    · exact tate_add_left hk h0 h₁ h₂ _

theorem tateT_pow (hk : Kills K L r e) (h0 : r ≠ 0) (hr : r • P = 0) (Q : (EC a₂ b₂).Point) :
    tateT ht r e P Q ^ r = 1 := by
  rcases Q with _ | ⟨x, y, h⟩
  · simp [tateT]
  · simp only [tateT]; split_ifs
    · simp
    · exact tate_pow hk h0 hr _

/-- A point of odd order is not its own negative. -/
theorem y_ne_of_odd {x y : k} (h : (EC a₂ b₂).Nonsingular x y) (hodd : Odd r)
    (hr : r • (Point.some x y h) = 0) : y ≠ 0 := by
  rintro rfl
  have hs : (Point.some x 0 h) + (Point.some x 0 h) = 0 :=
    Point.add_of_Y_eq rfl (by rw [Pbc.Curve.negY_EC, neg_zero])
  obtain ⟨m, rfl⟩ := hodd
  rw [add_smul, mul_comm, mul_smul, two_nsmul, hs, smul_zero, zero_add, one_smul] at hr
  exact Point.some_ne_zero h hr

theorem tateT_add_right (hk : Kills K L r e) (hodd : Odd r) (hr : r • P = 0)
    {Q₁ Q₂ : (EC a₂ b₂).Point} (h₁ : r • Q₁ = 0) (h₂ : r • Q₂ = 0) :
    tateT ht r e P (Q₁ + Q₂) = tateT ht r e P Q₁ * tateT ht r e P Q₂ := by
  have h0 : r ≠ 0 := hodd.pos.ne'
  by_cases z : P = 0
  · rw [z]; simp [tateT_zero_left]
  obtain ⟨f, F⟩ := exists_full (L := L) z h0 hr
  have h₃ : r • (Q₁ + Q₂) = 0 := by rw [smul_add, h₁, h₂, add_zero]
  rcases Q₁ with _ | ⟨x₁, y₁, n₁⟩
  · change tateT ht r e P (0 + Q₂) = tateT ht r e P 0 * _
    rw [zero_add, tateT_zero_right, one_mul]
  rcases Q₂ with _ | ⟨x₂, y₂, n₂⟩
  · change tateT ht r e P (_ + 0) = _ * tateT ht r e P 0
    rw [add_zero, tateT_zero_right, mul_one]
  have m₁ := y_ne_of_odd n₁ hodd h₁
  have m₂ := y_ne_of_odd n₂ hodd h₂
  rcases h : Point.some x₁ y₁ n₁ + Point.some x₂ y₂ n₂ with _ | ⟨x₃, y₃, n₃⟩
  · change tateT ht r e P 0 = _
    have hneg : Point.some x₂ y₂ n₂ = -Point.some x₁ y₁ n₁ :=
      (neg_eq_of_add_eq_zero_right h).symm
    rw [Point.neg_some, Point.some.injEq, Pbc.Curve.negY_EC] at hneg
    obtain ⟨rfl, rfl⟩ := hneg
    rw [tateT_zero_right, tateT_some ht P n₁ m₁, tateT_some ht P n₂ m₂, tate_eq hk z F,
      tate_eq hk z F, Twist.place_neg ht x₂ y₁ (eqn_of n₁) m₁, Full.neg_right hk F]
  · rw [h] at h₃
    have m₃ := y_ne_of_odd n₃ hodd h₃
    obtain ⟨s, t, hc⟩ := ht.collinear h m₁ m₂ m₃
    rw [tateT_some ht P n₁ m₁, tateT_some ht P n₂ m₂, tateT_some ht P n₃ m₃, tate_eq hk z F,
      tate_eq hk z F, tate_eq hk z F, Full.add_right hk F hc]

theorem tateT_ne (hk : Kills K L r e) (h0 : r ≠ 0) (hr : r • P = 0) (Q : (EC a₂ b₂).Point) :
    tateT ht r e P Q ≠ 0 := by
  intro h
  have := tateT_pow ht hk h0 hr Q
  rw [h, zero_pow h0] at this
  exact zero_ne_one this

end Tate
