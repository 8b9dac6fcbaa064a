import Verif.Lemmas.EtaT
import Verif.Lemmas.TatePair
import Mathlib.Algebra.CharP.Frobenius
import Mathlib.FieldTheory.Finite.Basic

/-! # Tripling and the order of the group on `Y² = X³ - X + 1` -/

set_option autoImplicit false
set_option linter.unusedSectionVars false

namespace Pbc.EtaT

open Spec
open Pbc.Curve (Pt negY_EC dblX dblY chX chY dbl_some ch_some)
open WeierstrassCurve.Affine

private instance : Fact (Nat.Prime 3) := ⟨by decide⟩

variable {K : Type*} [Field K] [DecidableEq K] [CharP K 3]

theorem nonsing {x y : K} (h : y ^ 2 = x ^ 3 - x + 1) : (EC (-1 : K) 1).Nonsingular x y := by
  have h3 := three (F := K)
  rw [nonsingular_iff, equation_iff]
  simp only [EC]
  refine ⟨by linear_combination h, ?_⟩
  left
  intro e
  exact one_ne_zero (α := K) (by linear_combination e + x ^ 2 * h3)

/-- The point with the given coordinates. -/
def pt (x y : K) (h : y ^ 2 = x ^ 3 - x + 1) : (EC (-1 : K) 1).Point := .some x y (nonsing h)

theorem eqn {x y : K} (h : (EC (-1 : K) 1).Nonsingular x y) : y ^ 2 = x ^ 3 - x + 1 := by
  have := Tate.eqn_of h
  linear_combination this

theorem pt_congr {x y x' y' : K} {h : y ^ 2 = x ^ 3 - x + 1} {h' : y' ^ 2 = x' ^ 3 - x' + 1} (hx : x = x')
    (hy : y = y') : pt x y h = pt x' y' h' := by subst hx hy; rfl

theorem pt_neg {x y : K} {h : y ^ 2 = x ^ 3 - x + 1} (h' : (-y) ^ 2 = x ^ 3 - x + 1) :
    -pt x y h = pt x (-y) h' := by
  rw [pt, Point.neg_some]
  simp only [pt, negY_EC]

theorem pt_ne_zero {x y : K} (h : y ^ 2 = x ^ 3 - x + 1) : pt x y h ≠ 0 := Point.some_ne_zero _

theorem of_rep {x y : K} {P : (EC (-1 : K) 1).Point} (h : PtRep (⟨false, x, y⟩ : Pt K) P) :
    ∃ h, P = pt x y h := by
  rcases P with _ | ⟨x', y', hn⟩
  · exact absurd h (by simp [PtRep])
  · obtain ⟨_, rfl, rfl⟩ : _ ∧ x = x' ∧ y = y' := h
    exact ⟨eqn hn, rfl⟩

omit [DecidableEq K] in
/-- Casts of naturals are fixed by the Frobenius map. -/
theorem cast_pow (n j : ℕ) : (n : K) ^ 3 ^ j = n := by
  have h := map_natCast (iterateFrobenius K 3 j) n
  rwa [iterateFrobenius_def] at h

omit [DecidableEq K] in
theorem sub_pow (a b : K) (j : ℕ) : (a - b) ^ 3 ^ j = a ^ 3 ^ j - b ^ 3 ^ j := sub_pow_char_pow a b j

omit [DecidableEq K] in
theorem add_pow (a b : K) (j : ℕ) : (a + b) ^ 3 ^ j = a ^ 3 ^ j + b ^ 3 ^ j := add_pow_char_pow a b 3 j

theorem eqn_pow {x y : K} (h : y ^ 2 = x ^ 3 - x + 1) (j : ℕ) :
    (y ^ 3 ^ j) ^ 2 = (x ^ 3 ^ j) ^ 3 - x ^ 3 ^ j + 1 := by
  rw [← pow_mul, mul_comm, pow_mul, h, add_pow, sub_pow, one_pow, ← pow_mul, ← pow_mul, mul_comm]

theorem eqn_shift {x y : K} (h : y ^ 2 = x ^ 3 - x + 1) (c : ℕ) : y ^ 2 = (x - c) ^ 3 - (x - c) + 1 := by
  have e := sub_pow x (c : K) 1
  have e' := cast_pow (K := K) c 1
  rw [pow_one] at e e'
  rw [e, e', h]
  ring

theorem eqn_sign {x y : K} (h : y ^ 2 = x ^ 3 - x + 1) (j : ℕ) : ((-1) ^ j * y) ^ 2 = x ^ 3 - x + 1 := by
  rw [mul_pow, ← pow_mul, mul_comm j 2, pow_mul, neg_one_sq, one_pow, one_mul, h]

theorem dbl_pt {x y : K} (h : y ^ 2 = x ^ 3 - x + 1) (hy : y ≠ 0) :
    ∃ h', 2 • pt x y h = pt (x + (y⁻¹) ^ 2) (-(y + (y⁻¹) ^ 3)) h' := by
  have h3 := three (F := K)
  have h2 : (2 : K) = -1 := by linear_combination h3
  have := dbl_some (two_ne (F := K)) (nonsing h) hy
  rw [two_nsmul]
  have ex : dblX (-1) x y = x + (y⁻¹) ^ 2 := by
    simp only [dblX, h3, h2]
    rw [mul_zero, zero_add, neg_one_mul y, inv_neg]
    ring
  have ey : dblY (-1) x y = -(y + (y⁻¹) ^ 3) := by
    simp only [dblY, ex, h3, h2]
    rw [mul_zero, zero_add, neg_one_mul y, inv_neg]
    ring
  rw [ex, ey] at this
  exact of_rep this

/-- The curve is supersingular: tripling is the ninth power, up to an automorphism. -/
theorem triple {x y : K} (h : y ^ 2 = x ^ 3 - x + 1) :
    ∃ h', 3 • pt x y h = pt (x ^ 9 - 1) (-y ^ 9) h' := by
  have h3 := three (F := K)
  have hc : (y ^ 2) ^ 3 = x ^ 9 - x ^ 3 + 1 := by
    have := eqn_pow h 1
    rw [pow_one] at this
    linear_combination this
  by_cases hy : y = 0
  · subst hy
    have e : 3 • pt x 0 h = pt x 0 h := by
      rw [show 3 = 2 + 1 from rfl, add_smul, one_smul, two_nsmul]
      have : pt x 0 h + pt x 0 h = 0 := by
        rw [pt, Point.add_of_Y_eq rfl (by rw [negY_EC, neg_zero])]
      rw [this, zero_add]
    have ex : x ^ 9 - 1 = x := by linear_combination -hc - h - h3
    have ey : -(0 : K) ^ 9 = 0 := by simp
    refine ⟨by rw [ex, ey, ← h], ?_⟩
    rw [e]
    exact pt_congr ex.symm ey.symm
  · obtain ⟨h', e⟩ := dbl_pt h hy
    have hx : x ≠ x + (y⁻¹) ^ 2 := by
      intro e
      have : (y⁻¹) ^ 2 = 0 := by linear_combination -e
      exact pow_ne_zero 2 (inv_ne_zero hy) this
    have := ch_some (nonsing h) (nonsing h') hx
    have e3 : 3 • pt x y h = pt x y h + 2 • pt x y h := by
      rw [show 3 = 1 + 2 from rfl, add_smul, one_smul]
    rw [e3, e]
    have hs : (-(y + (y⁻¹) ^ 3) - y) * (x + (y⁻¹) ^ 2 - x)⁻¹ = y ^ 3 - y⁻¹ := by
      have : x + (y⁻¹) ^ 2 - x = (y⁻¹) ^ 2 := by ring
      rw [this]
      field_simp
      linear_combination (-y ^ 4) * h3
    have ex : chX x y (x + (y⁻¹) ^ 2) (-(y + (y⁻¹) ^ 3)) = x ^ 9 - 1 := by
      simp only [chX, hs]
      have hi : y * y⁻¹ = 1 := mul_inv_cancel₀ hy
      linear_combination hc + h - 2 * (y ^ 2) * hi - (x + y ^ 2 - 1) * h3
    have ey : chY x y (x + (y⁻¹) ^ 2) (-(y + (y⁻¹) ^ 3)) = -y ^ 9 := by
      simp only [chY, ex, hs]
      have e1 : x - (x ^ 9 - 1) = -(y ^ 6) - y ^ 2 := by linear_combination hc + h + h3
      have hi : y * y⁻¹ = 1 := mul_inv_cancel₀ hy
      rw [e1]
      linear_combination (y ^ 5 + y) * hi
    rw [ex, ey] at this
    exact of_rep this

/-- Repeated tripling. -/
theorem triple_iter {x y : K} (h : y ^ 2 = x ^ 3 - x + 1) (j : ℕ) :
    ∃ h', 3 ^ j • pt x y h = pt (x ^ 9 ^ j - j) ((-1) ^ j * y ^ 9 ^ j) h' := by
  induction j with
  | zero => exact ⟨by simpa using h, by rw [pow_zero, one_smul]; exact pt_congr (by simp) (by simp)⟩
  | succ j ih =>
    obtain ⟨h', e⟩ := ih
    obtain ⟨h'', e'⟩ := triple h'
    have ex : (x ^ 9 ^ j - j) ^ 9 - 1 = x ^ 9 ^ (j + 1) - ((j + 1 : ℕ) : K) := by
      have := sub_pow (x ^ 9 ^ j) (j : K) 2
      rw [cast_pow] at this
      rw [show (9 : ℕ) = 3 ^ 2 from rfl] at *
      rw [this, pow_succ (3 ^ 2) j, pow_mul]
      push_cast
      ring
    have ey : -((-1) ^ j * y ^ 9 ^ j) ^ 9 = (-1) ^ (j + 1) * y ^ 9 ^ (j + 1) := by
      rw [mul_pow, ← pow_mul, ← pow_mul, ← pow_succ, pow_succ (-1 : K), mul_comm j 9, pow_mul (-1 : K) 9]
      rw [show (-1 : K) ^ 9 = -1 by norm_num]
      ring
    refine ⟨by rw [← ex, ← ey]; exact h'', ?_⟩
    rw [pow_succ, mul_comm, mul_smul, e, e']
    exact pt_congr ex ey

section Finite

variable {F : Type*} [Field F] [DecidableEq F] [CharP F 3] {m : ℕ}

theorem pow_q [Fintype F] (hF : Fintype.card F = 3 ^ m) (x : F) : x ^ 3 ^ m = x := by
  rw [← hF, FiniteField.pow_card]

/-- Multiplication by the size of the field. -/
theorem smul_q (hm : m % 2 = 1) {x y : F} (qx : x ^ 3 ^ m = x) (qy : y ^ 3 ^ m = y)
    (h : y ^ 2 = x ^ 3 - x + 1) :
    ∃ h', 3 ^ m • pt x y h = pt (x - m) (-y) h' := by
  obtain ⟨h', e⟩ := triple_iter h m
  have e9 : ∀ z : F, z ^ 3 ^ m = z → z ^ 9 ^ m = z := fun z hz => by
    rw [show (9 : ℕ) = 3 ^ 2 from rfl, ← pow_mul, mul_comm, pow_mul, sq, pow_mul, hz, hz]
  have ex : x ^ 9 ^ m - m = x - m := by rw [e9 _ qx]
  have ey : (-1) ^ m * y ^ 9 ^ m = -y := by
    rw [e9 _ qy, Odd.neg_one_pow (Nat.odd_iff.2 hm), neg_one_mul]
  exact ⟨by rw [← ex, ← ey]; exact h', by rw [e]; exact pt_congr ex ey⟩

theorem pow_9h (hm : m % 2 = 1) {z : F} (hz : z ^ 3 ^ m = z) : z ^ 9 ^ ((m + 1) / 2) = z ^ 3 := by
  rw [show (9 : ℕ) = 3 ^ 2 from rfl, ← pow_mul, show 2 * ((m + 1) / 2) = m + 1 by omega, pow_succ, pow_mul,
    hz]

/-- Multiplication by `3 ^ ((m + 1) / 2)`. -/
theorem smul_h (hm : m % 2 = 1) {x y : F} (qx : x ^ 3 ^ m = x) (qy : y ^ 3 ^ m = y)
    (h : y ^ 2 = x ^ 3 - x + 1) :
    ∃ h', 3 ^ ((m + 1) / 2) • pt x y h =
      pt (x ^ 3 - ((m + 1) / 2 : ℕ)) ((-1) ^ ((m + 1) / 2) * y ^ 3) h' := by
  obtain ⟨h', e⟩ := triple_iter h ((m + 1) / 2)
  have ex := congrArg (· - (((m + 1) / 2 : ℕ) : F)) (pow_9h hm qx)
  have ey := congrArg ((-1) ^ ((m + 1) / 2) * ·) (pow_9h hm qy)
  exact ⟨by rw [← ex, ← ey]; exact h', by rw [e]; exact pt_congr ex ey⟩

/-- The residues of `m` for which the code is used. -/
def Good (m : ℕ) : Prop := m % 12 = 1 ∨ m % 12 = 5 ∨ m % 12 = 7 ∨ m % 12 = 11

theorem Good.odd (h : Good m) : m % 2 = 1 := by unfold Good at h; omega

theorem cast_mod {a b : ℕ} (h : a % 3 = b % 3) : (a : K) = b :=
  (CharP.natCast_eq_natCast K 3).2 h

theorem smul_one_of (hg : Good m) {x y : F} (h : y ^ 2 = x ^ 3 - x + 1)
    (hq : ∃ h', 3 ^ m • pt x y h = pt (x - m) (-y) h') :
    ∃ h', pt x y h + 3 ^ m • pt x y h = pt (x ^ 3 + 1 + m) (m * y ^ 3) h' := by
  have h3 := three (F := F)
  obtain ⟨h', e⟩ := hq
  have hmm : (m : F) * m = 1 := by
    have : ((m * m : ℕ) : F) = (1 : ℕ) := cast_mod (by
      have : m % 3 = 1 ∨ m % 3 = 2 := by unfold Good at hg; omega
      rcases this with h | h <;> rw [Nat.mul_mod, h])
    push_cast at this
    exact this
  have hm0 : (m : F) ≠ 0 := left_ne_zero_of_mul (hmm ▸ one_ne_zero)
  have hx : x ≠ x - m := fun e => hm0 (by linear_combination e)
  have := ch_some (nonsing h) (nonsing h') hx
  have hs : (-y - y) * (x - m - x)⁻¹ = -(m * y) := by
    have e1 : x - m - x = -(m : F) := by ring
    rw [e1, inv_neg, inv_eq_of_mul_eq_one_right hmm]
    linear_combination m * y * h3
  have ex : chX x y (x - m) (-y) = x ^ 3 + 1 + m := by
    simp only [chX, hs]
    linear_combination (y ^ 2) * hmm + h - x * h3
  have ey : chY x y (x - m) (-y) = m * y ^ 3 := by
    simp only [chY, ex, hs]
    linear_combination (-m * y) * h + y * hmm
  rw [ex, ey] at this
  rw [e]
  exact of_rep this

theorem smul_one_q (hg : Good m) {x y : F} (qx : x ^ 3 ^ m = x) (qy : y ^ 3 ^ m = y)
    (h : y ^ 2 = x ^ 3 - x + 1) :
    ∃ h', pt x y h + 3 ^ m • pt x y h = pt (x ^ 3 + 1 + m) (m * y ^ 3) h' :=
  smul_one_of hg h (smul_q hg.odd qx qy h)

theorem h_le (hg : Good m) : (3 : ℤ) ^ ((m + 1) / 2) ≤ 3 ^ m :=
  pow_le_pow_right₀ (by norm_num) (by unfold Good at hg; omega)

theorem order_cast (hg : Good m) : ((Spec.EtaT.order m : ℕ) : ℤ) = 3 ^ m + 1 + Spec.EtaT.trace m := by
  have h1 := h_le hg
  have h2 : (0 : ℤ) < 3 ^ ((m + 1) / 2) := by positivity
  rw [Spec.EtaT.order, Int.toNat_of_nonneg]
  rw [Spec.EtaT.trace]
  by_cases h : m % 12 = 1 ∨ m % 12 = 11
  · rw [if_pos h]; linarith
  · rw [if_neg h]; linarith

/-- The sign of the curve, as an element of the field. -/
theorem sign_cast (hg : Good m) :
    (m : K) = (if m % 12 = 1 ∨ m % 12 = 11 then -1 else 1) * (-1) ^ ((m + 1) / 2) := by
  have key : ∀ b : ℕ, m % 3 = b % 3 → (m : K) = b := fun b h => cast_mod h
  have h3 := three (F := K)
  rcases hg with h | h | h | h
  · rw [key 1 (by omega), Odd.neg_one_pow (Nat.odd_iff.2 (by omega)), if_pos (Or.inl h)]; norm_num
  · rw [key 2 (by omega), Odd.neg_one_pow (Nat.odd_iff.2 (by omega)), if_neg (by omega)]
    push_cast; linear_combination h3
  · rw [key 1 (by omega), Even.neg_one_pow (Nat.even_iff.2 (by omega)), if_neg (by omega)]; norm_num
  · rw [key 2 (by omega), Even.neg_one_pow (Nat.even_iff.2 (by omega)), if_pos (Or.inr h)]
    push_cast; linear_combination h3

theorem order_smul_pt (hg : Good m) {x y : F} (qx : x ^ 3 ^ m = x) (qy : y ^ 3 ^ m = y)
    (h : y ^ 2 = x ^ 3 - x + 1) : Spec.EtaT.order m • pt x y h = 0 := by
  obtain ⟨h₁, e₁⟩ := smul_one_q hg qx qy h
  obtain ⟨h₂, e₂⟩ := smul_h hg.odd qx qy h
  have hsc := sign_cast (K := F) hg
  have : ((Spec.EtaT.order m : ℕ) : ℤ) • pt x y h = 0 := by
    rw [order_cast hg, add_smul, add_smul, one_smul, add_comm (_ • _) (pt x y h)]
    have eq : ((3 : ℤ) ^ m) • pt x y h = (3 ^ m : ℕ) • pt x y h := by
      rw [← natCast_zsmul]; push_cast; rfl
    have eh : ((3 : ℤ) ^ ((m + 1) / 2)) • pt x y h = (3 ^ ((m + 1) / 2) : ℕ) • pt x y h := by
      rw [← natCast_zsmul]; push_cast; rfl
    rw [eq, e₁]
    have hx : x ^ 3 + 1 + (m : F) = x ^ 3 - ((m + 1) / 2 : ℕ) := by
      have : ((1 + m + (m + 1) / 2 : ℕ) : F) = (0 : ℕ) := cast_mod (by unfold Good at hg; omega)
      push_cast at this
      linear_combination this
    rw [Spec.EtaT.trace]
    by_cases hc : m % 12 = 1 ∨ m % 12 = 11
    · rw [if_pos hc] at hsc
      have hy : (m : F) * y ^ 3 = -((-1) ^ ((m + 1) / 2) * y ^ 3) := by rw [hsc]; ring
      rw [if_pos hc, one_mul, eh, e₂, pt_congr (h' := by rw [← hx, ← hy]; exact h₁) hx hy,
        ← pt_neg (h := h₂), neg_add_cancel]
    · rw [if_neg hc] at hsc
      have hy : (m : F) * y ^ 3 = (-1) ^ ((m + 1) / 2) * y ^ 3 := by rw [hsc]; ring
      rw [if_neg hc, neg_one_mul, neg_smul, eh, e₂, pt_congr (h' := h₂) hx hy, add_neg_cancel]
  rwa [natCast_zsmul] at this

/-- The order of the group of points kills every point. -/
theorem order_smul [Fintype F] (hF : Fintype.card F = 3 ^ m) (hg : Good m) (P : (EC (-1 : F) 1).Point) :
    Spec.EtaT.order m • P = 0 := by
  rcases P with _ | ⟨x, y, hn⟩
  · exact smul_zero _
  · exact order_smul_pt hg (pow_q hF x) (pow_q hF y) (eqn hn)

end Finite

end Pbc.EtaT
