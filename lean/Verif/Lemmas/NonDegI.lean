import Verif.Lemmas.NonDegAll
import Verif.Lemmas.PointCount
import Verif.Lemmas.TateAll
import Verif.Lemmas.EtaTPairing
import Verif.Spec.Pairing

/-! # Non-degeneracy for type I: the curves in characteristic 3 and the distortion map -/

set_option autoImplicit false
set_option linter.unusedSectionVars false

namespace Pbc.EtaT

open Spec Tate
open Pbc.Curve (Pt negY_EC dblX dblY chX chY dbl_some ch_some)
open WeierstrassCurve.Affine

private instance : Fact (Nat.Prime 3) := ⟨by decide⟩

section shift

variable {K : Type*} [Field K] [DecidableEq K] [CharP K 3] {ρ b b' : K}

theorem nonsing_b {x y : K} (h : y ^ 2 = x ^ 3 - x + b) : (EC (-1 : K) b).Nonsingular x y := by
  have h3 := three (F := K)
  rw [nonsingular_iff, equation_iff]
  simp only [EC]
  refine ⟨by linear_combination h, ?_⟩
  left
  intro e
  exact one_ne_zero (α := K) (by linear_combination e + x ^ 2 * h3)

theorem eqn_b {x y : K} (h : (EC (-1 : K) b).Nonsingular x y) : y ^ 2 = x ^ 3 - x + b := by
  have := Tate.eqn_of h
  linear_combination this

theorem eqn_rho (hρ : ρ ^ 3 = ρ + (b' - b)) {x y : K} (h : y ^ 2 = x ^ 3 - x + b) :
    y ^ 2 = (x - ρ) ^ 3 - (x - ρ) + b' := by
  have e := sub_pow x ρ 1
  rw [pow_one, hρ] at e
  rw [h, e]
  ring

/-- `(x, y) ↦ (x - ρ, y)`. -/
def shiftF (hρ : ρ ^ 3 = ρ + (b' - b)) : (EC (-1 : K) b).Point → (EC (-1 : K) b').Point
  | .zero => .zero
  | .some x y h => .some (x - ρ) y (nonsing_b (eqn_rho hρ (eqn_b h)))

theorem of_rep_b {x y : K} {P : (EC (-1 : K) b).Point} (h : PtRep (⟨false, x, y⟩ : Pt K) P) :
    ∃ h, P = .some x y h := by
  rcases P with _ | ⟨x', y', hn⟩
  · exact absurd h (by simp [PtRep])
  · obtain ⟨_, rfl, rfl⟩ : _ ∧ x = x' ∧ y = y' := h
    exact ⟨hn, rfl⟩

theorem some_congr {x y x' y' : K} {h : (EC (-1 : K) b).Nonsingular x y} {h' : (EC (-1 : K) b).Nonsingular x' y'}
    (hx : x = x') (hy : y = y') : (Point.some x y h : (EC (-1 : K) b).Point) = .some x' y' h' := by subst hx hy; rfl

theorem shiftF_add (hρ : ρ ^ 3 = ρ + (b' - b)) (P Q : (EC (-1 : K) b).Point) :
    shiftF hρ (P + Q) = shiftF hρ P + shiftF hρ Q := by
  have h3 := three (F := K)
  rcases P with _ | ⟨x₁, y₁, n₁⟩
  · change shiftF hρ (0 + Q) = 0 + _
    rw [zero_add, zero_add]
  rcases Q with _ | ⟨x₂, y₂, n₂⟩
  · change shiftF hρ (_ + 0) = _ + 0
    rw [add_zero, add_zero]
  by_cases hx : x₁ = x₂
  · subst hx
    by_cases hy : y₁ = -y₂
    · rw [Point.add_of_Y_eq rfl (by rw [negY_EC, hy])]
      simp only [shiftF]
      rw [Point.add_of_Y_eq rfl (by rw [negY_EC, hy])]
      rfl
    · have he := Y_eq_of_Y_ne n₁.left n₂.left rfl (by rwa [negY_EC])
      subst he
      have hy0 : y₁ ≠ 0 := fun h0 => hy (by rw [h0, neg_zero])
      obtain ⟨h, e⟩ := of_rep_b (dbl_some (two_ne (F := K)) n₁ hy0)
      obtain ⟨h', e'⟩ := of_rep_b (dbl_some (two_ne (F := K)) (nonsing_b (eqn_rho hρ (eqn_b n₁))) hy0)
      simp only [shiftF] at e' ⊢
      rw [e, e']
      have ex : dblX (-1) x₁ y₁ - ρ = dblX (-1) (x₁ - ρ) y₁ := by
        simp only [dblX, h3]
        linear_combination -ρ * h3
      have ey : dblY (-1) x₁ y₁ = dblY (-1) (x₁ - ρ) y₁ := by
        simp only [dblY, ← ex, h3]
        ring
      exact some_congr ex ey
  · have hx' : x₁ - ρ ≠ x₂ - ρ := fun h => hx (sub_left_injective h)
    obtain ⟨h, e⟩ := of_rep_b (ch_some n₁ n₂ hx)
    obtain ⟨h', e'⟩ := of_rep_b (ch_some (nonsing_b (eqn_rho hρ (eqn_b n₁))) (nonsing_b (eqn_rho hρ (eqn_b n₂))) hx')
    simp only [shiftF] at e' ⊢
    rw [e, e']
    have hs : x₂ - ρ - (x₁ - ρ) = x₂ - x₁ := by ring
    have ex : chX x₁ y₁ x₂ y₂ - ρ = chX (x₁ - ρ) y₁ (x₂ - ρ) y₂ := by
      simp only [chX, hs]
      linear_combination -ρ * h3
    have ey : chY x₁ y₁ x₂ y₂ = chY (x₁ - ρ) y₁ (x₂ - ρ) y₂ := by
      simp only [chY, ← ex, hs]
      ring
    exact some_congr ex ey

/-- The isomorphism `(x, y) ↦ (x - ρ, y)` as a homomorphism. -/
def shift (hρ : ρ ^ 3 = ρ + (b' - b)) : (EC (-1 : K) b).Point →+ (EC (-1 : K) b').Point :=
  AddMonoidHom.mk' (shiftF hρ) (shiftF_add hρ)

end shift

section count

variable {K : Type*} [Field K] [DecidableEq K] [CharP K 3] [Fintype K]

/-- The number of points by quadratic characters. -/
theorem card_char (b : K) : (Nat.card (EC (-1 : K) b).Point : ℤ) =
    Fintype.card K + 1 + ∑ x : K, quadraticChar K (x ^ 3 - x + b) := by
  have hns : ∀ x y : K, y ^ 2 = x ^ 3 + -1 * x + b → (EC (-1 : K) b).Nonsingular x y := fun x y h =>
    nonsing_b (by rw [h]; ring)
  rw [card_eq hns]
  push_cast
  rw [Finset.sum_congr rfl fun x _ => roots2_card (two_ne (F := K)) (x ^ 3 + -1 * x + b), Finset.sum_add_distrib]
  have : ∀ x : K, x ^ 3 + -1 * x + b = x ^ 3 - x + b := fun x => by ring
  simp only [this]
  simp
  ring

theorem char_neg (hneg : ∀ z : K, z ^ 2 ≠ -1) : quadraticChar K (-1) = -1 := by
  rw [quadraticChar_neg_one_iff_not_isSquare]
  rintro ⟨z, hz⟩
  exact hneg z (by rw [hz, pow_two])

/-- A curve and its twist. -/
theorem card_add (hneg : ∀ z : K, z ^ 2 ≠ -1) (b : K) :
    Nat.card (EC (-1 : K) b).Point + Nat.card (EC (-1 : K) (-b)).Point = 2 * (Fintype.card K + 1) := by
  have h1 : ∑ x : K, quadraticChar K (x ^ 3 - x + -b) = -∑ x : K, quadraticChar K (x ^ 3 - x + b) := by
    rw [← Equiv.sum_comp (Equiv.neg K), ← Finset.sum_neg_distrib]
    refine Finset.sum_congr rfl fun x _ => ?_
    have : (Equiv.neg K x) ^ 3 - (Equiv.neg K x) + -b = -1 * (x ^ 3 - x + b) := by rw [Equiv.neg_apply]; ring
    rw [this, map_mul, char_neg hneg]; ring
  have e1 := card_char b
  have e2 := card_char (-b)
  rw [h1] at e2
  omega

/-- Where `ρ³ - ρ = 1` the curves have `|K| + 1` points. -/
theorem card_twist (hneg : ∀ z : K, z ^ 2 ≠ -1) {ρ : K} (hρ : ρ ^ 3 = ρ + 1) :
    Nat.card (EC (-1 : K) (-1)).Point = Fintype.card K + 1 := by
  have h3 := three (F := K)
  have hb : ∑ x : K, quadraticChar K (x ^ 3 - x + 1) = ∑ x : K, quadraticChar K (x ^ 3 - x + -1) := by
    rw [← Equiv.sum_comp (Equiv.addRight ρ)]
    refine Finset.sum_congr rfl fun x _ => ?_
    have e := add_pow x ρ 1
    rw [pow_one, hρ] at e
    rw [Equiv.coe_addRight, e]
    congr 1
    linear_combination h3
  have e1 := card_char (1 : K)
  have e2 := card_char (-1 : K)
  have := card_add hneg (1 : K)
  omega

end count

/-! ### The twist over the same field -/

section conj

variable {L : Type*} [Field L] [DecidableEq L] [CharP L 3] {m : ℕ}

/-- The order of the twist. -/
def conjOrder (m : ℕ) : ℕ := ((3 : ℤ) ^ m + 1 - Spec.EtaT.trace m).toNat

theorem pow_neg_q {y : L} (qy : y ^ 3 ^ m = -y) : y ^ 9 ^ m = y := by
  rw [show (9 : ℕ) = 3 ^ 2 from rfl, ← pow_mul, mul_comm, pow_mul, sq, pow_mul, qy,
    Odd.neg_pow (Odd.pow (by decide)), qy, neg_neg]

theorem conj_smul_pt (hg : Good m) {x y : L} (qx : x ^ 3 ^ m = x) (qy : y ^ 3 ^ m = -y)
    (h : y ^ 2 = x ^ 3 - x + 1) : conjOrder m • pt x y h = 0 := by
  have hm := hg.odd
  obtain ⟨h₁, e₁⟩ := smul_one_of hg h (by
    obtain ⟨h', e⟩ := triple_iter h m
    have ex : x ^ 9 ^ m - m = x - m := by
      rw [show (9 : ℕ) = 3 ^ 2 from rfl, ← pow_mul, mul_comm, pow_mul, sq, pow_mul, qx, qx]
    have ey : (-1) ^ m * y ^ 9 ^ m = -y := by
      rw [pow_neg_q qy, Odd.neg_one_pow (Nat.odd_iff.2 hm), neg_one_mul]
    exact ⟨by rw [← ex, ← ey]; exact h', by rw [e]; exact pt_congr ex ey⟩)
  obtain ⟨h₂, e₂⟩ : ∃ h', 3 ^ ((m + 1) / 2) • pt x y h =
      pt (x ^ 3 - ((m + 1) / 2 : ℕ)) (-((-1) ^ ((m + 1) / 2) * y ^ 3)) h' := by
    obtain ⟨h', e⟩ := triple_iter h ((m + 1) / 2)
    have ex := congrArg (· - (((m + 1) / 2 : ℕ) : L)) (pow_9h hm qx)
    have ey : (-1) ^ ((m + 1) / 2) * y ^ 9 ^ ((m + 1) / 2) = -((-1) ^ ((m + 1) / 2) * y ^ 3) := by
      rw [show (9 : ℕ) = 3 ^ 2 from rfl, ← pow_mul, show 2 * ((m + 1) / 2) = m + 1 by omega, pow_succ, pow_mul, qy]
      ring
    exact ⟨by rw [← ex, ← ey]; exact h', by rw [e]; exact pt_congr ex ey⟩
  have hsc := sign_cast (K := L) hg
  have : ((conjOrder m : ℕ) : ℤ) • pt x y h = 0 := by
    have hcast : ((conjOrder m : ℕ) : ℤ) = 3 ^ m + 1 - Spec.EtaT.trace m := by
      rw [conjOrder, conj_cast hg, trace_eq]
    rw [hcast, sub_smul, add_smul, one_smul, add_comm (_ • _) (pt x y h)]
    have eq : ((3 : ℤ) ^ m) • pt x y h = (3 ^ m : ℕ) • pt x y h := by
      rw [← natCast_zsmul]; push_cast; rfl
    have eh : ((3 : ℤ) ^ ((m + 1) / 2)) • pt x y h = (3 ^ ((m + 1) / 2) : ℕ) • pt x y h := by
      rw [← natCast_zsmul]; push_cast; rfl
    rw [eq, e₁]
    have hx : x ^ 3 + 1 + (m : L) = x ^ 3 - ((m + 1) / 2 : ℕ) := by
      have : ((1 + m + (m + 1) / 2 : ℕ) : L) = (0 : ℕ) := cast_mod (by unfold Good at hg; omega)
      push_cast at this
      linear_combination this
    rw [Spec.EtaT.trace]
    by_cases hc : m % 12 = 1 ∨ m % 12 = 11
    · rw [if_pos hc] at hsc
      have hy : (m : L) * y ^ 3 = -((-1) ^ ((m + 1) / 2) * y ^ 3) := by rw [hsc]; ring
      rw [if_pos hc, one_mul, eh, e₂, pt_congr (h' := h₂) hx hy, sub_self]
    · rw [if_neg hc] at hsc
      have hy : (m : L) * y ^ 3 = -(-((-1) ^ ((m + 1) / 2) * y ^ 3)) := by rw [hsc]; ring
      rw [if_neg hc, neg_one_mul, neg_smul, eh, e₂, pt_congr (h' := by rw [← hx, ← hy]; exact h₁) hx hy,
        ← pt_neg (h := h₂), sub_neg_eq_add, neg_add_cancel]
  rwa [natCast_zsmul] at this

variable {F : Type*} [Field F] [DecidableEq F] [CharP F 3] [Algebra F L] {σ : L}

theorem eqn_tw (hσ : σ ^ 2 = -1) {x y : F} (h : (EC (-1 : F) (-1)).Nonsingular x y) :
    (σ * algebraMap F L y) ^ 2 = (-algebraMap F L x) ^ 3 - -algebraMap F L x + 1 := by
  have := congrArg (algebraMap F L) (eqn_b h)
  simp only [map_add, map_sub, map_pow, map_neg, map_one] at this
  rw [mul_pow, hσ, this]
  ring

/-- `(x, y) ↦ (-x, σ y)`. -/
def twF (F : Type*) [Field F] [DecidableEq F] [CharP F 3] [Algebra F L] (hσ : σ ^ 2 = -1) :
    (EC (-1 : F) (-1)).Point → (EC (-1 : L) 1).Point
  | .zero => .zero
  | .some x y h => pt (-algebraMap F L x) (σ * algebraMap F L y) (eqn_tw hσ h)

theorem sigma_ne (hσ : σ ^ 2 = -1) : σ ≠ 0 := by
  rintro rfl
  rw [zero_pow two_ne_zero] at hσ
  exact one_ne_zero (neg_eq_zero.1 hσ.symm)

theorem twF_add (hσ : σ ^ 2 = -1) (P Q : (EC (-1 : F) (-1)).Point) : twF F hσ (P + Q) = twF F hσ P + twF F hσ Q := by
  have h3 := three (F := F)
  have h3' := three (F := L)
  have hs0 := sigma_ne hσ
  have hsi : σ⁻¹ = -σ := inv_eq_of_mul_eq_one_right (by linear_combination -hσ)
  rcases P with _ | ⟨x₁, y₁, n₁⟩
  · change twF F hσ (0 + Q) = 0 + _
    rw [zero_add, zero_add]
  rcases Q with _ | ⟨x₂, y₂, n₂⟩
  · change twF F hσ (_ + 0) = _ + 0
    rw [add_zero, add_zero]
  by_cases hx : x₁ = x₂
  · subst hx
    by_cases hy : y₁ = -y₂
    · rw [Point.add_of_Y_eq rfl (by rw [negY_EC, hy])]
      simp only [twF, pt]
      rw [Point.add_of_Y_eq rfl (by rw [negY_EC, hy, map_neg]; ring)]
      rfl
    · have he := Y_eq_of_Y_ne n₁.left n₂.left rfl (by rwa [negY_EC])
      subst he
      have hy0 : y₁ ≠ 0 := fun h0 => hy (by rw [h0, neg_zero])
      have hy0' : σ * algebraMap F L y₁ ≠ 0 := mul_ne_zero hs0 (by simpa using hy0)
      obtain ⟨h, e⟩ := of_rep_b (dbl_some (two_ne (F := F)) n₁ hy0)
      simp only [twF, pt]
      obtain ⟨h', e'⟩ := of_rep_b (dbl_some (two_ne (F := L)) (nonsing (eqn_tw hσ n₁)) hy0')
      rw [e, e']
      simp only [twF, pt]
      have ex : -algebraMap F L (dblX (-1) x₁ y₁) = dblX (-1) (-algebraMap F L x₁) (σ * algebraMap F L y₁) := by
        simp only [dblX, h3, h3', map_sub, map_mul, map_pow, map_add, map_neg, map_one, map_inv₀, map_ofNat, map_zero,
          mul_inv, hsi]
        linear_combination -((algebraMap F L y₁)⁻¹ * 2⁻¹) ^ 2 * hσ
      have ey : σ * algebraMap F L (dblY (-1) x₁ y₁) = dblY (-1) (-algebraMap F L x₁) (σ * algebraMap F L y₁) := by
        simp only [dblY, ← ex, h3, h3', map_sub, map_mul, map_pow, map_add, map_neg, map_one, map_inv₀, map_ofNat,
          map_zero, mul_inv, hsi]
        ring
      exact some_congr ex ey
  · have hx' : -algebraMap F L x₁ ≠ -algebraMap F L x₂ := fun h => hx ((algebraMap F L).injective (neg_injective h))
    obtain ⟨h, e⟩ := of_rep_b (ch_some n₁ n₂ hx)
    obtain ⟨h', e'⟩ := of_rep_b (ch_some (nonsing (eqn_tw hσ n₁)) (nonsing (eqn_tw hσ n₂)) hx')
    simp only [twF, pt]
    rw [e, e']
    simp only [twF, pt]
    have hs : (-algebraMap F L x₂ - -algebraMap F L x₁)⁻¹ = -(algebraMap F L x₂ - algebraMap F L x₁)⁻¹ := by
      rw [← inv_neg]; congr 1; ring
    have ex : -algebraMap F L (chX x₁ y₁ x₂ y₂) =
        chX (-algebraMap F L x₁) (σ * algebraMap F L y₁) (-algebraMap F L x₂) (σ * algebraMap F L y₂) := by
      simp only [chX, hs, map_sub, map_mul, map_pow, map_inv₀]
      linear_combination -((algebraMap F L y₂ - algebraMap F L y₁) * (algebraMap F L x₂ - algebraMap F L x₁)⁻¹) ^ 2 * hσ
    have ey : σ * algebraMap F L (chY x₁ y₁ x₂ y₂) =
        chY (-algebraMap F L x₁) (σ * algebraMap F L y₁) (-algebraMap F L x₂) (σ * algebraMap F L y₂) := by
      simp only [chY, ← ex, hs, map_sub, map_mul, map_inv₀]
      ring
    exact some_congr ex ey

theorem twF_eq_zero (hσ : σ ^ 2 = -1) {P : (EC (-1 : F) (-1)).Point} (h : twF F hσ P = 0) : P = 0 := by
  rcases P with _ | ⟨x, y, hn⟩
  · rfl
  · exact absurd h (pt_ne_zero (eqn_tw hσ hn))

theorem conj_smul [Fintype F] (hF : Fintype.card F = 3 ^ m) (hg : Good m) (hσ : σ ^ 2 = -1)
    (P : (EC (-1 : F) (-1)).Point) : conjOrder m • P = 0 := by
  refine twF_eq_zero hσ ?_
  change AddMonoidHom.mk' (twF F hσ) (twF_add hσ) _ = 0
  rw [map_nsmul]
  change conjOrder m • twF F hσ P = 0
  rcases P with _ | ⟨x, y, hn⟩
  · exact smul_zero _
  · refine conj_smul_pt hg ?_ ?_ (eqn_tw hσ hn)
    · rw [Odd.neg_pow (Odd.pow (by decide)), ← map_pow, pow_q hF]
    · rw [mul_pow, sigma_pow hσ, ← map_pow, pow_q hF, Odd.neg_one_pow (Nat.odd_iff.2 hg.odd)]
      ring

end conj

/-! ### The orders -/

section arith

variable {m : ℕ}

theorem conjOrder_cast (hg : Good m) : ((conjOrder m : ℕ) : ℤ) = 3 ^ m + 1 - mu m * 3 ^ ((m + 1) / 2) := by
  rw [conjOrder, conj_cast hg]

theorem order_add (hg : Good m) : Spec.EtaT.order m + conjOrder m = 2 * (3 ^ m + 1) := by
  have h1 := order_mu hg
  have h2 := conjOrder_cast hg
  have : ((Spec.EtaT.order m + conjOrder m : ℕ) : ℤ) = ((2 * (3 ^ m + 1) : ℕ) : ℤ) := by
    push_cast
    rw [h1, h2]; ring
  exact_mod_cast this

theorem order_prod (hg : Good m) : 3 ^ (3 * m) + 1 = (3 ^ m + 1) * (Spec.EtaT.order m * conjOrder m) := by
  have hmu2 : mu m * mu m = 1 := by rcases mu_cases m with e | e <;> rw [e] <;> rfl
  have : ((3 ^ (3 * m) + 1 : ℕ) : ℤ) = (((3 ^ m + 1) * (Spec.EtaT.order m * conjOrder m) : ℕ) : ℤ) := by
    push_cast
    rw [conjOrder_cast hg, order_mu hg, mul_comm 3 m, pow_mul]
    have hs := sq_h hg
    generalize (3 : ℤ) ^ ((m + 1) / 2) = s at *
    generalize (3 : ℤ) ^ m = q at *
    linear_combination (q + 1) * s ^ 2 * hmu2 + (q + 1) * hs
  exact_mod_cast this

/-- A prime dividing two of the factors would be 3. -/
theorem coprime_order (hg : Good m) : (Spec.EtaT.order m).Coprime ((3 ^ m + 1) * conjOrder m) := by
  by_contra hno
  obtain ⟨p, hp, h1, h2⟩ := Nat.Prime.not_coprime_iff_dvd.1 hno
  have hodd := order_odd hg
  have h3 := order_coprime hg
  have hp3 : ¬ p ∣ 3 ^ ((m + 1) / 2) := fun h => by
    have := (Nat.prime_dvd_prime_iff_eq hp Nat.prime_three).1 (hp.dvd_of_dvd_pow h)
    rw [this] at h1
    have := Nat.dvd_gcd dvd_rfl h1
    rw [h3] at this
    omega
  have hp2 : ¬ p ∣ 2 := fun h => by
    have := (Nat.prime_dvd_prime_iff_eq hp Nat.prime_two).1 h
    rw [this] at h1
    exact (Nat.not_even_iff_odd.2 hodd) (even_iff_two_dvd.2 h1)
  have hz : (p : ℤ) ∣ 3 ^ m + 1 + mu m * 3 ^ ((m + 1) / 2) := by
    rw [← order_mu hg]; exact_mod_cast h1
  have hmu : ∀ c : ℤ, (p : ℤ) ∣ mu m * c → (p : ℤ) ∣ c := fun c h => by
    rcases mu_cases m with e | e <;> rw [e] at h
    · simpa using h
    · simpa using h
  rcases (Nat.Prime.dvd_mul hp).1 h2 with h | h
  · have hq : (p : ℤ) ∣ 3 ^ m + 1 := by exact_mod_cast h
    have := hmu _ ((dvd_add_right hq).1 hz)
    exact hp3 (by exact_mod_cast this)
  · have hq : (p : ℤ) ∣ 3 ^ m + 1 - mu m * 3 ^ ((m + 1) / 2) := by
      rw [← conjOrder_cast hg]; exact_mod_cast h
    have h4 : (p : ℤ) ∣ mu m * (2 * 3 ^ ((m + 1) / 2)) := by
      have := dvd_sub hz hq
      have e : (3 : ℤ) ^ m + 1 + mu m * 3 ^ ((m + 1) / 2) - (3 ^ m + 1 - mu m * 3 ^ ((m + 1) / 2)) =
        mu m * (2 * 3 ^ ((m + 1) / 2)) := by ring
      rwa [e] at this
    have h5 : p ∣ 2 * 3 ^ ((m + 1) / 2) := by exact_mod_cast hmu _ h4
    rcases (Nat.Prime.dvd_mul hp).1 h5 with h | h
    · exact hp2 h
    · exact hp3 h

theorem coprime_conj (hg : Good m) : (conjOrder m).Coprime ((3 ^ m + 1) * Spec.EtaT.order m) := by
  refine Nat.Coprime.mul_right ?_ ((coprime_order hg).coprime_mul_left_right).symm
  by_contra hno
  obtain ⟨p, hp, h1, h2⟩ := Nat.Prime.not_coprime_iff_dvd.1 hno
  have h3 : p ∣ Spec.EtaT.order m := by
    have := order_add hg
    have h4 : p ∣ Spec.EtaT.order m + conjOrder m := by rw [this]; exact Dvd.dvd.mul_left h2 2
    exact (Nat.dvd_add_left h1).1 h4
  have := Nat.dvd_gcd h3 (h2.mul_right (conjOrder m))
  rw [coprime_order hg] at this
  exact hp.one_lt.ne' (Nat.dvd_one.1 this)

end arith

/-- A group killed by `n`, whose order divides `k n` with `k` prime to `n`. -/
theorem card_dvd_of_kills {M : Type*} [AddCommGroup M] [Finite M] {n k : ℕ} (hk : ∀ x : M, n • x = 0)
    (hd : Nat.card M ∣ k * n) (hc : n.Coprime k) : Nat.card M ∣ n := by
  refine Nat.Coprime.dvd_of_dvd_mul_left ?_ hd
  by_contra hno
  obtain ⟨p, hp, h1, h2⟩ := Nat.Prime.not_coprime_iff_dvd.1 hno
  have := Fact.mk hp
  obtain ⟨x, hx⟩ := exists_prime_addOrderOf_dvd_card' (G := M) p h1
  have h3 := addOrderOf_dvd_of_nsmul_eq_zero (hk x)
  rw [hx] at h3
  have := Nat.dvd_gcd h3 h2
  rw [hc] at this
  exact hp.one_lt.ne' (Nat.dvd_one.1 this)

section tower

universe u

variable {F : Type*} [Field F] [DecidableEq F] [CharP F 3] [Fintype F]
  {K : Type*} [Field K] [DecidableEq K] [CharP K 3] [Fintype K] {L : Type*} [Field L] [CharP L 3]
  [Algebra F K] [Algebra K L] {m : ℕ} {ρ : K} {σ : L}

namespace Tower

variable (T : Tower F K L m ρ σ)

include T

theorem nonsq (z : K) : z ^ 2 ≠ -1 := fun h => by
  have h1 : σ ^ 2 = algebraMap K L z ^ 2 := by rw [T.hσ, ← map_pow, h, map_neg, map_one]
  rcases sq_eq_sq_iff_eq_or_eq_neg.1 h1 with e | e
  · exact T.irr z e
  · exact T.irr (-z) (by rw [e, map_neg])

theorem hρ' : ρ ^ 3 = ρ + (-1 - 1 : K) := by
  have h3 := three (F := K)
  rw [T.hρ]
  linear_combination h3

/-- The distortion map, with values on the twist. -/
theorem exists_dist : ∃ j : (EC (-1 : F) 1).Point →+ (EC (-1 : K) (-1)).Point,
    (∀ P, j P = 0 → P = 0) ∧ ∀ x y h, ∃ h', j (.some x y h) = .some (cube F K x - ρ) (cube F K y) h' := by
  obtain ⟨ι, hι⟩ := @exists_up F K _ _ _ _ _ (cube F K).toAlgebra
  have key : ∀ x y h, ∃ h', (shift T.hρ').comp ι (.some x y h) = .some (cube F K x - ρ) (cube F K y) h' := by
    intro x y h
    obtain ⟨h', e⟩ := hι x y h
    rw [AddMonoidHom.comp_apply, e]
    exact ⟨_, rfl⟩
  refine ⟨(shift T.hρ').comp ι, fun P hP => ?_, key⟩
  rcases P with _ | ⟨x, y, h⟩
  · rfl
  · obtain ⟨h', e⟩ := key x y h
    rw [e] at hP
    exact absurd hP (Point.some_ne_zero _)

theorem card_E2 : Nat.card (EC (-1 : K) (-1)).Point = Fintype.card K + 1 := card_twist T.nonsq T.hρ

end Tower

theorem card_dvd_of_inj {A B : Type*} [AddCommGroup A] [AddCommGroup B] (f : A →+ B)
    (h : ∀ x, f x = 0 → x = 0) : Nat.card A ∣ Nat.card B :=
  AddSubgroup.card_dvd_of_injective f ((injective_iff_map_eq_zero f).2 h)

/-- The orders of the curve and of its twist. -/
theorem card_curves (F : Type u) [Field F] [DecidableEq F] [CharP F 3] [Fintype F] (hg : Good m)
    (hF : Fintype.card F = 3 ^ m) : Nat.card (EC (-1 : F) 1).Point = Spec.EtaT.order m ∧
      Nat.card (EC (-1 : F) (-1)).Point = conjOrder m := by
  classical
  obtain ⟨K, L, i1, i2, i3, i4, i5, i6, i7, ρ, σ, T, hfin, hc⟩ := exists_tower_card F hg hF
  have := Fintype.ofFinite K
  rw [Nat.card_eq_fintype_card] at hc
  have hE2 := T.card_E2
  obtain ⟨j, hj, -⟩ := T.exists_dist
  have hneg := no_root2 (K := F) hF hg.odd
  have hadd := card_add hneg (1 : F)
  have d1 : Nat.card (EC (-1 : F) 1).Point ∣ Spec.EtaT.order m := by
    refine card_dvd_of_kills (order_smul hF hg) ?_ (coprime_order hg)
    have := card_dvd_of_inj j hj
    rw [hE2, hc, order_prod hg] at this
    rw [mul_assoc, mul_comm (conjOrder m)]
    exact this
  have d2 : Nat.card (EC (-1 : F) (-1)).Point ∣ conjOrder m := by
    obtain ⟨L', j1, j2, j3, σ', hσ', -⟩ := exists_quad F hF hg.odd
    refine card_dvd_of_kills (fun P => conj_smul hF hg hσ' P) ?_ (coprime_conj hg)
    obtain ⟨ι, hι⟩ : ∃ ι : (EC (-1 : F) (-1)).Point →+ (EC (-1 : K) (-1)).Point, ∀ P, ι P = 0 → P = 0 := by
      have aux : ∀ {a' b' : K}, algebraMap F K (-1) = a' → algebraMap F K (-1) = b' →
          ∃ ι : (EC (-1 : F) (-1)).Point →+ (EC a' b').Point, ∀ P, ι P = 0 → P = 0 := by
        rintro _ _ rfl rfl
        exact ⟨AddMonoidHom.mk' Pbc.PairingD.incl (Pbc.PairingD.incl_add two_ne), fun P => Pbc.PairingD.incl_eq_zero⟩
      exact aux (by simp) (by simp)
    have := card_dvd_of_inj ι hι
    rw [hE2, hc, order_prod hg] at this
    rw [mul_assoc]
    exact this
  have l1 := Nat.le_of_dvd (Nat.pos_of_ne_zero (order_pos hg)) d1
  have hcp : 0 < conjOrder m := by
    have h1 := h_le hg
    have h2 : (0 : ℤ) < 3 ^ ((m + 1) / 2) := by positivity
    have h3 := conjOrder_cast hg
    have : (0 : ℤ) < conjOrder m := by
      rw [h3]
      rcases mu_cases m with e | e <;> rw [e] <;> linarith
    exact_mod_cast this
  have l2 := Nat.le_of_dvd hcp d2
  have hs := order_add hg
  rw [hF] at hadd
  omega

end tower

/-! ### Points that pair to 1 with every point of the twist -/

section partner

open Polynomial in
theorem sep3 {K : Type*} [Field K] [CharP K 3] : IsCoprime (Stepanov.cub (-1 : K) 1) (derivative (Stepanov.cub (-1 : K) 1)) := by
  have h3 : (3 : K[X]) = 0 := by
    have := three (F := K)
    rw [← map_ofNat C 3, this, map_zero]
  refine ⟨0, -1, ?_⟩
  rw [Stepanov.cub_deriv, map_neg, map_one]
  linear_combination -X ^ 2 * h3

variable {K : Type*} [Field K] [DecidableEq K] [Fintype K]

/-- The number of points of a curve, by the abscissas of the points that are not of order 2. -/
theorem card_le_abs (h2 : (2 : K) ≠ 0) (a₂ b₂ : K) :
    Nat.card (EC a₂ b₂).Point ≤
      4 + 2 * (Finset.univ.filter fun x : K => ∃ y, y ≠ 0 ∧ y ^ 2 = x ^ 3 + a₂ * x + b₂).card := by
  set S : Finset K := Finset.univ.filter fun x => ∃ y, y ≠ 0 ∧ y ^ 2 = x ^ 3 + a₂ * x + b₂ with hSdef
  have hb : ∑ x : K, (roots2 (x ^ 3 + a₂ * x + b₂)).card ≤
      (Finset.univ.filter fun x : K => x ^ 3 + a₂ * x + b₂ = 0).card + 2 * S.card := by
    have key : ∀ x : K, (roots2 (x ^ 3 + a₂ * x + b₂)).card ≤
        (if x ^ 3 + a₂ * x + b₂ = 0 then 1 else 0) + 2 * (if x ∈ S then 1 else 0) := by
      intro x
      have h1 := roots2_card h2 (x ^ 3 + a₂ * x + b₂)
      by_cases hz : x ^ 3 + a₂ * x + b₂ = 0
      · rw [if_pos hz]
        rw [hz, MulChar.map_zero] at h1
        rw [hz]
        omega
      · rw [if_neg hz]
        by_cases hx : x ∈ S
        · rw [if_pos hx]
          rcases quadraticChar_dichotomy hz with h3 | h3 <;> rw [h3] at h1 <;> omega
        · rw [if_neg hx]
          have : roots2 (x ^ 3 + a₂ * x + b₂) = ∅ := by
            rw [Finset.eq_empty_iff_forall_notMem]
            intro y hy
            have hy' : y ^ 2 = x ^ 3 + a₂ * x + b₂ := by simpa [roots2] using hy
            refine hx (Finset.mem_filter.2 ⟨Finset.mem_univ _, y, ?_, hy'⟩)
            rintro rfl
            exact hz (by rw [← hy']; ring)
          rw [this]; simp
    refine (Finset.sum_le_sum fun x _ => key x).trans ?_
    rw [Finset.sum_add_distrib, ← Finset.mul_sum, Finset.sum_boole, Finset.sum_boole]
    have h4 : (Finset.univ.filter fun x : K => x ∈ S) = S := by ext; simp
    rw [h4]
    simp only [Nat.cast_id]
    exact le_rfl
  have h3 : (Finset.univ.filter fun x : K => x ^ 3 + a₂ * x + b₂ = 0).card ≤ 3 := by
    open Polynomial in
    have hp : (X ^ 3 + C a₂ * X + C b₂ : K[X]).natDegree = 3 := by compute_degree!
    have hp0 : (X ^ 3 + C a₂ * X + C b₂ : K[X]) ≠ 0 := by
      intro h0; rw [h0] at hp; simp at hp
    refine (Finset.card_le_card ?_).trans ((Multiset.toFinset_card_le _).trans
      ((card_roots' (X ^ 3 + C a₂ * X + C b₂ : K[X])).trans hp.le))
    intro x hx
    rw [Multiset.mem_toFinset, mem_roots hp0]
    simpa using hx
  have := card_le a₂ b₂
  omega

end partner

section nondeg

variable {F : Type*} [Field F] [DecidableEq F] [CharP F 3] [Fintype F]
  {K : Type*} [Field K] [DecidableEq K] [CharP K 3] [Fintype K] {L : Type*} [Field L] [CharP L 3]
  [Algebra F K] [Algebra K L] {m : ℕ} {ρ : K} {σ : L}

namespace Tower

variable (T : Tower F K L m ρ σ)

include T

theorem tw : Twist (k := K) (-1 : K) 1 (-1) (-1) (-1) σ where
  ha := by simp
  hb := by simp; ring
  hw := by rw [T.hσ]; simp; ring
  hu := by simp
  irr := T.irr

theorem expo_eq (m : ℕ) (hc : Fintype.card K = 3 ^ (3 * m)) :
    Spec.EtaT.expo m = (Fintype.card K - 1) * ((3 ^ m + 1) * conjOrder m) := by
  rw [hc, ← mul_assoc]; rfl

theorem exists_partner (hg : Good m) (hc : Fintype.card K = 3 ^ (3 * m)) {P : (EC (-1 : K) 1).Point} (hP : P ≠ 0)
    (hr : Spec.EtaT.order m • P = 0) :
    ∃ S, tateT T.tw (Spec.EtaT.order m) (Spec.EtaT.expo m) P S ≠ 1 := by
  have h2 : (2 : K) ≠ 0 := two_ne
  have hns : ∀ x y : K, y ^ 2 = x ^ 3 + -1 * x + -1 → (EC (-1 : K) (-1)).Nonsingular x y := by
    intro x y h0
    exact nonsing_b (by linear_combination h0)
  have h27 : 27 ≤ Fintype.card K := by
    rw [hc]
    calc 27 = 3 ^ 3 := by norm_num
      _ ≤ 3 ^ (3 * m) := Nat.pow_le_pow_right (by decide) (by unfold Good at hg; omega)
  by_contra hno
  push Not at hno
  have hk := T.kills hg
  rw [T.expo_eq m hc] at hno hk
  have hcard : Fintype.card K + 1 = (3 ^ m + 1) * conjOrder m * Spec.EtaT.order m := by
    rw [hc, order_prod hg]; ring
  set S : Finset K := Finset.univ.filter fun x => ∃ y, y ≠ 0 ∧ y ^ 2 = x ^ 3 + -1 * x + -1 with hSdef
  have hS := few_places_all (L := L) h2 sep3 (by omega) (order_odd hg) hcard hP hr hk (S := S.image fun x => (-1) * x) (by
    intro x' hx'
    obtain ⟨x, hx, rfl⟩ := Finset.mem_image.1 hx'
    obtain ⟨y, hy, he⟩ := (Finset.mem_filter.1 hx).2
    refine ⟨T.tw.place x y he hy, rfl, ?_⟩
    have := hno (.some x y (hns x y he))
    rwa [tateT_some T.tw P _ hy] at this)
  rw [Finset.card_image_of_injective _ (mul_right_injective₀ T.tw.hu)] at hS
  have h1 := card_le_abs h2 (-1 : K) (-1)
  rw [T.card_E2, ← hSdef] at h1
  omega

/-- The pairing of the curve over `K` with the twist. -/
theorem pairing_tw (hg : Good m) : Spec.Pairing (Spec.EtaT.order m)
    (tateT T.tw (Spec.EtaT.order m) (Spec.EtaT.expo m)) where
  add_left P₁ P₂ Q h₁ h₂ := tateT_add_left T.tw (T.kills hg) (order_pos hg) h₁ h₂ Q
  add_right P Q₁ Q₂ hP := by
    obtain ⟨j, hj, -⟩ := T.exists_dist
    have hn : (EC (-1 : F) 1).Nonsingular 0 1 := nonsing (by ring)
    refine tateT_add_right_all T.tw two_ne (T.kills hg) (order_odd hg) hP (S := j (.some 0 1 hn)) ?_ Q₁ Q₂
    intro h4
    have hN : Spec.EtaT.order m • j (.some 0 1 hn) = 0 := by rw [← map_nsmul, order_smul T.card hg, map_zero]
    have hcop : Nat.Coprime 4 (Spec.EtaT.order m) :=
      Nat.Coprime.pow_left 2 (Nat.coprime_two_left.2 (order_odd hg))
    have d1 := addOrderOf_dvd_of_nsmul_eq_zero h4
    have d2 := addOrderOf_dvd_of_nsmul_eq_zero hN
    have := Nat.eq_one_of_dvd_coprimes hcop d1 d2
    exact Point.some_ne_zero hn (hj _ (AddMonoid.addOrderOf_eq_one_iff.1 this))
  root P Q hP := tateT_pow T.tw (T.kills hg) (order_pos hg) hP Q

/-- The pairing with a point of the curve is the pairing with its image under the distortion map. -/
theorem tateD_eq {j : (EC (-1 : F) 1).Point →+ (EC (-1 : K) (-1)).Point}
    (hj : ∀ x y h, ∃ h', j (.some x y h) = .some (cube F K x - ρ) (cube F K y) h') (r e : ℕ) (P : (EC (-1 : K) 1).Point)
    (Q : (EC (-1 : F) 1).Point) : T.tateD r e P Q = tateT T.tw r e P (j Q) := by
  rcases Q with _ | ⟨x, y, h⟩
  · have : j Point.zero = 0 := map_zero j
    rw [this]; rfl
  · obtain ⟨h', e'⟩ := hj x y h
    rw [e']
    by_cases hy : y = 0
    · rw [tateD, dif_pos hy, tateT, dif_pos (by rw [hy, map_zero])]
    · have hy' : cube F K y ≠ 0 := by simpa using hy
      rw [T.tateD_some r e P h hy, tateT_some T.tw P h' hy']
      congr 1
      simp only [place, Twist.place, Place.mk.injEq]
      refine ⟨?_, rfl⟩
      simp

/-- Every point other than `O` of the curve over `F` has a partner there. -/
theorem exists_tateD (hg : Good m) (hc : Fintype.card K = 3 ^ (3 * m)) {P : (EC (-1 : K) 1).Point} (hP : P ≠ 0)
    (hr : Spec.EtaT.order m • P = 0) (hE : Nat.card (EC (-1 : F) 1).Point = Spec.EtaT.order m) :
    ∃ Q, T.tateD (Spec.EtaT.order m) (Spec.EtaT.expo m) P Q ≠ 1 := by
  obtain ⟨S, hS⟩ := T.exists_partner hg hc hP hr
  have hp := T.pairing_tw hg
  obtain ⟨j, hj, hj'⟩ := T.exists_dist
  set N := Spec.EtaT.order m with hN
  set M := (3 ^ m + 1) * conjOrder m with hM
  have hcard : Nat.card (EC (-1 : K) (-1)).Point = M * N := by
    rw [T.card_E2, hc, order_prod hg]; ring
  have hcop : N.Coprime M := coprime_order hg
  set U : AddSubgroup (EC (-1 : K) (-1)).Point := (nsmulAddMonoidHom N).ker with hU
  have mem : ∀ {P}, P ∈ U ↔ N • P = 0 := AddMonoidHom.mem_ker
  have hle : j.range ≤ U := by
    rintro _ ⟨Q, rfl⟩
    rw [mem, ← map_nsmul, order_smul T.card hg, map_zero]
  have hUc : Nat.card U ∣ N := by
    refine card_dvd_of_kills (fun x => Subtype.ext (mem.1 x.2)) ?_ hcop
    rw [← hcard]
    exact AddSubgroup.card_addSubgroup_dvd_card _
  have hrange : j.range = U := by
    refine AddSubgroup.eq_of_le_of_card_ge hle ?_
    have : Nat.card j.range = N := by
      rw [← hE]
      exact (Nat.card_congr (j.ofInjective ((injective_iff_map_eq_zero j).2 hj)).toEquiv).symm
    rw [this]
    exact Nat.le_of_dvd (Nat.pos_of_ne_zero (order_pos hg)) hUc
  have hMS : M • S ∈ U := by
    rw [mem, smul_smul, mul_comm, ← hcard]
    exact card_nsmul_eq_zero'
  rw [← hrange] at hMS
  obtain ⟨Q, hQ⟩ := hMS
  refine ⟨Q, fun h1 => hS ?_⟩
  rw [T.tateD_eq hj', hQ, hp.nsmul_right (order_pos hg) S hr] at h1
  have := pow_gcd_eq_one.2 ⟨h1, hp.root P S hr⟩
  rwa [hcop.symm, pow_one] at this

end Tower

end nondeg

end Pbc.EtaT
