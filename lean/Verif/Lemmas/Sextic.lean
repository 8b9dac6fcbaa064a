import Verif.Lemmas.PointCount
import Mathlib.NumberTheory.JacobiSum.Basic
import Mathlib.NumberTheory.MulChar.Lemmas
import Mathlib.Analysis.Complex.Basic
import Mathlib.RingTheory.RootsOfUnity.Complex
import Mathlib.RingTheory.IntegralDomain

/-!
# The number of points of `Y² = X³ + B`

Over a finite field of `Q ≡ 1 (mod 6)` elements the number of points is `Q + 1 + ψ(B) J + conj` with a
character `ψ` of order 6 and a Jacobi sum `J`, an Eisenstein integer of norm `Q`.
-/

set_option autoImplicit false

namespace Tate

open WeierstrassCurve WeierstrassCurve.Affine
open Spec (EC)

variable {F : Type*} [Field F] [DecidableEq F] [Fintype F]

section chars

variable {ψ : MulChar F ℂ}

theorem char_pow {d e : ℕ} (hde : d * e = 6) (hψ : orderOf ψ = 6) {u : F} (hu : u ≠ 0) :
    ψ u ^ e = 1 ↔ ∃ c, c ^ d = u := by
  obtain ⟨γ, hγ⟩ := IsCyclic.exists_generator (α := Fˣ)
  have hz : ∀ m : ℕ, ψ γ ^ m = 1 → 6 ∣ m := by
    intro m hm
    rw [← hψ]
    apply orderOf_dvd_of_pow_eq_one
    ext a
    obtain ⟨k, hk⟩ := hγ a
    obtain ⟨k, rfl⟩ : ∃ k : ℕ, a = γ ^ k := by
      have := (isOfFinOrder_of_finite γ).mem_powers_iff_mem_zpowers.2 (hγ a)
      obtain ⟨k, hk⟩ := this
      exact ⟨k, hk.symm⟩
    rw [MulChar.pow_apply_coe, MulChar.one_apply_coe, Units.val_pow_eq_pow_val, map_pow, ← pow_mul, mul_comm,
      pow_mul, hm, one_pow]
  constructor
  · intro h
    obtain ⟨k, hk⟩ := (isOfFinOrder_of_finite γ).mem_powers_iff_mem_zpowers.2 (hγ (Units.mk0 u hu))
    have hu' : u = (γ : F) ^ k := by
      have := congrArg Units.val hk
      simpa using this.symm
    rw [hu', map_pow, ← pow_mul] at h
    have h6 := hz _ h
    rw [← hde] at h6
    have he : 0 < e := by
      rcases Nat.eq_zero_or_pos e with h0 | h0
      · subst h0; omega
      · exact h0
    obtain ⟨j, rfl⟩ := Nat.dvd_of_mul_dvd_mul_right he h6
    exact ⟨(γ : F) ^ j, by rw [hu', ← pow_mul, mul_comm]⟩
  · rintro ⟨c, rfl⟩
    have hc : c ≠ 0 := by
      rintro rfl
      refine hu (zero_pow ?_)
      rintro rfl
      omega
    rw [map_pow, ← pow_mul, hde]
    have := congrArg (fun χ : MulChar F ℂ => χ c) (hψ ▸ pow_orderOf_eq_one ψ)
    rw [MulChar.pow_apply' _ (by omega), MulChar.one_apply (by simpa using hc)] at this
    exact this

theorem apply_pow_six (hψ : orderOf ψ = 6) {u : F} (hu : u ≠ 0) : ψ u ^ 6 = 1 :=
  (char_pow (d := 1) (e := 6) rfl hψ hu).2 ⟨u, pow_one u⟩

theorem two_ne_of (h6 : 6 ∣ Fintype.card F - 1) : (2 : F) ≠ 0 := by
  intro h
  have hc : ringChar F = 2 := by
    have : ringChar F ∣ 2 := ringChar.dvd (by exact_mod_cast h)
    rcases (Nat.dvd_prime Nat.prime_two).1 this with h1 | h1
    · exact absurd h1 (CharP.ringChar_ne_one)
    · exact h1
  have := FiniteField.even_card_of_char_two hc
  have h1 : 1 < Fintype.card F := Fintype.one_lt_card
  omega

theorem three_ne_of (h6 : 6 ∣ Fintype.card F - 1) : (3 : F) ≠ 0 := by
  intro h
  have hc : ringChar F = 3 := by
    have : ringChar F ∣ 3 := ringChar.dvd (by exact_mod_cast h)
    rcases (Nat.dvd_prime Nat.prime_three).1 this with h1 | h1
    · exact absurd h1 (CharP.ringChar_ne_one)
    · exact h1
  obtain ⟨n, hp, hn⟩ := FiniteField.card F (ringChar F)
  rw [hc] at hn
  have h1 : 1 < Fintype.card F := Fintype.one_lt_card
  have h3 : 3 ∣ Fintype.card F := by rw [hn]; exact dvd_pow_self 3 n.ne_zero
  omega

/-- A primitive cube root of unity in the field. -/
theorem exists_omega (h6 : 6 ∣ Fintype.card F - 1) : ∃ w : F, w ^ 2 + w + 1 = 0 := by
  obtain ⟨γ, hγ⟩ := IsCyclic.exists_generator (α := Fˣ)
  obtain ⟨m, hm⟩ := h6
  have hord := orderOf_eq_card_of_forall_mem_zpowers hγ
  rw [Nat.card_eq_fintype_card, Fintype.card_units, hm] at hord
  have hm0 : 0 < m := by
    have h1 : 1 < Fintype.card F := Fintype.one_lt_card
    omega
  refine ⟨(γ : F) ^ (2 * m), ?_⟩
  have h3 : ((γ : F) ^ (2 * m)) ^ 3 = 1 := by
    rw [← pow_mul, show 2 * m * 3 = 6 * m by ring, ← hord]
    rw [← Units.val_pow_eq_pow_val, pow_orderOf_eq_one, Units.val_one]
  have h1 : (γ : F) ^ (2 * m) ≠ 1 := by
    intro h
    have : γ ^ (2 * m) = 1 := Units.ext (by simpa using h)
    have := Nat.le_of_dvd (by omega) (orderOf_dvd_of_pow_eq_one this)
    omega
  have : ((γ : F) ^ (2 * m) - 1) * (((γ : F) ^ (2 * m)) ^ 2 + (γ : F) ^ (2 * m) + 1) = 0 := by
    linear_combination h3
  exact (mul_eq_zero.1 this).resolve_left (sub_ne_zero.2 h1)

/-- Cube roots of `u`. -/
def roots3 (u : F) : Finset F := Finset.univ.filter fun x => x ^ 3 = u

theorem roots2_char (h6 : 6 ∣ Fintype.card F - 1) (hψ : orderOf ψ = 6) (g : F) :
    ((roots2 g).card : ℂ) = 1 + (ψ ^ 3) g := by
  have h := roots2_card (two_ne_of h6) g
  have hq : ((quadraticChar F g : ℤ) : ℂ) = (ψ ^ 3) g := by
    rw [MulChar.pow_apply' _ (by norm_num)]
    by_cases hg : g = 0
    · subst hg
      rw [quadraticChar_zero, MulChar.map_zero]; simp
    have h2 := char_pow (d := 2) (e := 3) rfl hψ hg
    have hp6 := apply_pow_six hψ hg
    by_cases hs : IsSquare g
    · rw [(quadraticChar_one_iff_isSquare hg).2 hs, h2.2 (by obtain ⟨c, hc⟩ := hs; exact ⟨c, by rw [hc, pow_two]⟩)]
      norm_num
    · rw [(quadraticChar_neg_one_iff_not_isSquare).2 hs]
      have hne : ψ g ^ 3 ≠ 1 := fun h => hs (by obtain ⟨c, hc⟩ := h2.1 h; exact ⟨c, by rw [← hc, pow_two]⟩)
      have : (ψ g ^ 3 - 1) * (ψ g ^ 3 + 1) = 0 := by linear_combination hp6
      have := (mul_eq_zero.1 this).resolve_left (sub_ne_zero.2 hne)
      push_cast
      linear_combination -this
  rw [← hq]
  have := congrArg (fun z : ℤ => (z : ℂ)) h
  push_cast at this
  rw [this, add_comm]

theorem roots3_char (h6 : 6 ∣ Fintype.card F - 1) (hψ : orderOf ψ = 6) (u : F) :
    ((roots3 u).card : ℂ) = 1 + (ψ ^ 4) u + (ψ ^ 2) u := by
  rw [MulChar.pow_apply' _ (by norm_num), MulChar.pow_apply' _ (by norm_num)]
  by_cases hu : u = 0
  · subst hu
    have : roots3 (0 : F) = {0} := by
      ext x
      rw [roots3, Finset.mem_filter, Finset.mem_singleton]
      simp
    rw [this, MulChar.map_zero]; simp
  have h3 := char_pow (d := 3) (e := 2) rfl hψ hu
  have hp6 := apply_pow_six hψ hu
  by_cases hc : ∃ c, c ^ 3 = u
  · rw [show ψ u ^ 4 = (ψ u ^ 2) ^ 2 by ring, h3.2 hc]
    obtain ⟨c, rfl⟩ := hc
    have hc0 : c ≠ 0 := by rintro rfl; simp at hu
    obtain ⟨w, hw⟩ := exists_omega h6
    have hw3 : w ^ 3 = 1 := by linear_combination (w - 1) * hw
    have h3' := three_ne_of h6
    have hw1 : w ≠ 1 := by rintro rfl; exact h3' (by linear_combination hw)
    have hw0 : w ≠ 0 := by rintro rfl; simp at hw
    have : roots3 (c ^ 3) = {c, w * c, w ^ 2 * c} := by
      ext x
      rw [roots3, Finset.mem_filter, Finset.mem_insert, Finset.mem_insert, Finset.mem_singleton]
      constructor
      · rintro ⟨-, hx⟩
        have : (x - c) * ((x - w * c) * (x - w ^ 2 * c)) = 0 := by
          linear_combination hx + (-x ^ 2 * c + x * c ^ 2 * w) * hw - c ^ 3 * hw3
        rcases mul_eq_zero.1 this with h | h
        · exact Or.inl (sub_eq_zero.1 h)
        · rcases mul_eq_zero.1 h with h | h
          · exact Or.inr (Or.inl (sub_eq_zero.1 h))
          · exact Or.inr (Or.inr (sub_eq_zero.1 h))
      · rintro (rfl | rfl | rfl)
        · simp
        · exact ⟨Finset.mem_univ _, by rw [mul_pow, hw3, one_mul]⟩
        · exact ⟨Finset.mem_univ _, by rw [mul_pow, ← pow_mul, mul_comm 2 3, pow_mul, hw3, one_pow, one_mul]⟩
    rw [this, Finset.card_insert_of_notMem, Finset.card_insert_of_notMem, Finset.card_singleton]
    · norm_num
    · rw [Finset.mem_singleton]
      intro h
      have := mul_right_cancel₀ hc0 h
      exact hw1 (mul_left_cancel₀ hw0 (by rw [← pow_two, ← this, mul_one]))
    · rw [Finset.mem_insert, Finset.mem_singleton]
      rintro (h | h)
      · exact hw1 (mul_right_cancel₀ hc0 (by rw [← h, one_mul]))
      · have h2 : w ^ 2 = 1 := mul_right_cancel₀ hc0 (by rw [← h, one_mul])
        exact hw1 (by linear_combination hw3 - w * h2)
  · have : roots3 u = ∅ := by
      ext x
      rw [roots3, Finset.mem_filter]
      simp only [Finset.mem_univ, true_and, Finset.notMem_empty, iff_false]
      exact fun h => hc ⟨x, h⟩
    rw [this]
    have hne : ψ u ^ 2 ≠ 1 := fun h => hc (h3.1 h)
    have : (ψ u ^ 2 - 1) * (1 + ψ u ^ 4 + ψ u ^ 2) = 0 := by linear_combination hp6
    rw [(mul_eq_zero.1 this).resolve_left (sub_ne_zero.2 hne)]
    simp

theorem sum_cube (f : F → ℂ) : ∑ x, f (x ^ 3) = ∑ u, ((roots3 u).card : ℂ) * f u := by
  rw [← Finset.sum_fiberwise (s := Finset.univ) (g := fun x : F => x ^ 3)]
  refine Finset.sum_congr rfl fun u _ => ?_
  rw [Finset.sum_congr rfl (g := fun _ => f u) (by intro x hx; rw [(Finset.mem_filter.1 hx).2]),
    Finset.sum_const, nsmul_eq_mul, roots3]

/-- One of the two character sums. -/
theorem twisted_sum {χ φ : MulChar F ℂ} (h1 : χ (-1) = 1) {B : F} (hB : B ≠ 0) :
    ∑ u, χ u * φ (u + B) = (χ * φ) B * jacobiSum χ φ := by
  have e : ∀ w : F, χ (-(B * w)) * φ (-(B * w) + B) = (χ * φ) B * (χ w * φ (1 - w)) := by
    intro w
    rw [show -(B * w) = -1 * (B * w) by ring, map_mul, h1, one_mul, map_mul,
      show -1 * (B * w) + B = B * (1 - w) by ring, map_mul, MulChar.mul_apply]
    ring
  rw [jacobiSum, Finset.mul_sum, ← Finset.sum_congr rfl fun w _ => e w]
  exact (Equiv.sum_comp ((Equiv.mulLeft₀ B hB).trans (Equiv.neg F)) fun u => χ u * φ (u + B)).symm

theorem card_sextic' (h6 : 6 ∣ Fintype.card F - 1) (hψ : orderOf ψ = 6) {B : F} (hB : B ≠ 0) :
    (Nat.card (EC 0 B).Point : ℂ) = Fintype.card F + 1 + ψ B * jacobiSum (ψ ^ 4) (ψ ^ 3)
      + star (ψ B * jacobiSum (ψ ^ 4) (ψ ^ 3)) := by
  have h2 := two_ne_of h6
  have h3 := three_ne_of h6
  have hns : ∀ x y : F, y ^ 2 = x ^ 3 + 0 * x + B → (EC 0 B).Nonsingular x y := by
    intro x y h
    rw [nonsingular_iff, equation_iff]
    refine ⟨by simpa [EC] using h, ?_⟩
    by_cases hy : y = 0
    · left
      subst hy
      simp only [EC]
      intro h0
      have hx : x = 0 := by
        have : 3 * x ^ 2 = 0 := by linear_combination -h0
        simpa [h3] using this
      subst hx
      exact hB (by linear_combination -h)
    · right
      simp only [EC]
      intro h0
      exact mul_ne_zero h2 hy (by linear_combination h0)
  have h61 : ψ ^ 6 = 1 := hψ ▸ pow_orderOf_eq_one ψ
  have hneg : ∀ e, Even e → e ≠ 0 → (ψ ^ e) (-1) = 1 := by
    rintro e ⟨m, rfl⟩ he
    rw [MulChar.pow_apply' _ he, ← map_pow, ← two_mul, pow_mul]
    simp
  have hinv4 : (ψ ^ 4)⁻¹ = ψ ^ 2 := by rw [inv_eq_iff_mul_eq_one, ← pow_add, h61]
  have hinv3 : (ψ ^ 3)⁻¹ = ψ ^ 3 := by rw [inv_eq_iff_mul_eq_one, ← pow_add, h61]
  have h31 : ψ ^ 3 ≠ 1 := by
    intro h
    have := Nat.le_of_dvd (by norm_num) (orderOf_dvd_of_pow_eq_one h)
    omega
  have hstar : star (ψ B * jacobiSum (ψ ^ 4) (ψ ^ 3)) = (ψ ^ 2 * ψ ^ 3) B * jacobiSum (ψ ^ 2) (ψ ^ 3) := by
    have e : star (jacobiSum (ψ ^ 4) (ψ ^ 3)) = jacobiSum (ψ ^ 2) (ψ ^ 3) := by
      rw [← hinv4, ← hinv3, hinv3]
      conv_rhs => rw [← hinv3]
      simp only [jacobiSum, star_sum, star_mul', MulChar.star_apply']
    rw [star_mul', e, MulChar.star_apply', ← pow_add]
    congr 2
    rw [inv_eq_iff_mul_eq_one, ← pow_succ', h61]
  rw [card_eq hns, hstar]
  push_cast
  have s1 : ∑ x : F, ((roots2 (x ^ 3 + 0 * x + B)).card : ℂ) = ∑ x : F, (1 + (ψ ^ 3) (x ^ 3 + B)) :=
    Finset.sum_congr rfl (by intro x _; rw [roots2_char h6 hψ, zero_mul, add_zero])
  have s2 : ∑ u : F, ((roots3 u).card : ℂ) * (ψ ^ 3) (u + B) =
      ∑ u : F, ((ψ ^ 3) (u + B) + (ψ ^ 4) u * (ψ ^ 3) (u + B) + (ψ ^ 2) u * (ψ ^ 3) (u + B)) :=
    Finset.sum_congr rfl (by intro u _; rw [roots3_char h6 hψ u]; ring)
  rw [s1, Finset.sum_add_distrib, sum_cube (fun u => (ψ ^ 3) (u + B)), s2,
    Finset.sum_add_distrib, Finset.sum_add_distrib, twisted_sum (hneg 4 (by decide) (by decide)) hB,
    twisted_sum (hneg 2 (by decide) (by decide)) hB,
    show ∑ u, (ψ ^ 3) (u + B) = 0 from (Equiv.sum_comp (Equiv.addRight B) fun u => (ψ ^ 3) u).trans
      (MulChar.sum_eq_zero_of_ne_one h31), ← pow_add ψ 4 3, show 4 + 3 = 6 + 1 from rfl, pow_add ψ 6 1, h61, one_mul,
    pow_one]
  simp only [Finset.sum_const, Finset.card_univ, nsmul_eq_mul, mul_one]
  ring

end chars

/-- The Eisenstein integers in the complex numbers. -/
theorem mem_adjoin {μ : ℂ} (hμ : μ ^ 2 = μ - 1) {z : ℂ} (hz : z ∈ Algebra.adjoin ℤ {μ}) :
    ∃ a b : ℤ, z = a + b * μ := by
  induction hz using Algebra.adjoin_induction with
  | mem x hx => exact ⟨0, 1, by rw [Set.mem_singleton_iff.1 hx]; simp⟩
  | algebraMap r => exact ⟨r, 0, by simp⟩
  | add x y _ _ hx hy =>
    obtain ⟨a, b, rfl⟩ := hx
    obtain ⟨c, d, rfl⟩ := hy
    exact ⟨a + c, b + d, by push_cast; ring⟩
  | mul x y _ _ hx hy =>
    obtain ⟨a, b, rfl⟩ := hx
    obtain ⟨c, d, rfl⟩ := hy
    exact ⟨a * c - b * d, a * d + b * c + b * d, by push_cast; linear_combination (b * d : ℂ) * hμ⟩

/-- The number of points of `Y² = X³ + B` and of its two sextic twists. -/
theorem card_sextic (h6 : 6 ∣ Fintype.card F - 1) {B : F} (hB : B ≠ 0) :
    ∃ a b : ℤ, a ^ 2 + a * b + b ^ 2 = Fintype.card F ∧
      (Nat.card (EC 0 B).Point : ℤ) = Fintype.card F + 1 + (2 * a + b) ∧
      ∀ g : F, g ≠ 0 → (∀ c, c ^ 2 ≠ g) → (∀ c, c ^ 3 ≠ g) →
        ((Nat.card (EC 0 (g * B)).Point : ℤ) = Fintype.card F + 1 + (a - b) ∧
          (Nat.card (EC 0 (g ^ 5 * B)).Point : ℤ) = Fintype.card F + 1 + (a + 2 * b)) ∨
        ((Nat.card (EC 0 (g * B)).Point : ℤ) = Fintype.card F + 1 + (a + 2 * b) ∧
          (Nat.card (EC 0 (g ^ 5 * B)).Point : ℤ) = Fintype.card F + 1 + (a - b)) := by
  have hμ := Complex.isPrimitiveRoot_exp 6 (by norm_num)
  generalize Complex.exp (2 * Real.pi * Complex.I / ((6 : ℕ) : ℂ)) = μ at hμ
  have h3 : μ ^ 3 = -1 := by
    have h1 : (μ ^ 3 - 1) * (μ ^ 3 + 1) = 0 := by linear_combination hμ.pow_eq_one
    have h2 : μ ^ 3 ≠ 1 := hμ.pow_ne_one_of_pos_of_lt (by norm_num) (by norm_num)
    linear_combination (mul_eq_zero.1 h1).resolve_left (sub_ne_zero.2 h2)
  have h2 : μ ^ 2 = μ - 1 := by
    have h1 : (μ + 1) * (μ ^ 2 - μ + 1) = 0 := by linear_combination h3
    have h2 : μ + 1 ≠ 0 := by
      intro h
      have : μ ^ 2 = 1 := by linear_combination (μ - 1) * h
      exact hμ.pow_ne_one_of_pos_of_lt (by norm_num) (by norm_num) this
    linear_combination (mul_eq_zero.1 h1).resolve_left h2
  have hμ0 : μ ≠ 0 := hμ.ne_zero (by norm_num)
  have hs : star μ = 1 - μ := by
    have hn : ‖μ‖ = 1 := hμ.norm'_eq_one (by norm_num)
    have : star μ = μ⁻¹ := (Complex.inv_eq_conj hn).symm
    rw [this]
    field_simp
    linear_combination h2
  obtain ⟨ψ, hψ⟩ := MulChar.exists_mulChar_orderOf F h6 hμ
  have h61 : ψ ^ 6 = 1 := hψ ▸ pow_orderOf_eq_one ψ
  have hmem : ψ B * jacobiSum (ψ ^ 4) (ψ ^ 3) ∈ Algebra.adjoin ℤ {μ} := by
    refine Subalgebra.mul_mem _ (MulChar.apply_mem_algebraAdjoin_of_pow_eq_one h61 hμ _)
      (jacobiSum_mem_algebraAdjoin_of_pow_eq_one (n := 6) ?_ ?_ hμ)
    · rw [← pow_mul, show 4 * 6 = 6 * 4 from rfl, pow_mul, h61, one_pow]
    · rw [← pow_mul, show 3 * 6 = 6 * 3 from rfl, pow_mul, h61, one_pow]
  obtain ⟨a, b, hab⟩ := mem_adjoin h2 hmem
  have hord : ∀ e, 0 < e → e < 6 → ψ ^ e ≠ 1 := by
    intro e h0 h1 h
    have := Nat.le_of_dvd h0 (orderOf_dvd_of_pow_eq_one h)
    omega
  have hnorm : (ψ B * jacobiSum (ψ ^ 4) (ψ ^ 3)) * star (ψ B * jacobiSum (ψ ^ 4) (ψ ^ 3)) = Fintype.card F := by
    have hJ := jacobiSum_mul_jacobiSum_inv (F := F) (F' := ℂ) (χ := ψ ^ 4) (φ := ψ ^ 3) (by
      rw [ringChar.eq_zero]; exact (CharP.ringChar_ne_zero_of_finite F).symm) (hord 4 (by norm_num) (by norm_num))
      (hord 3 (by norm_num) (by norm_num))
      (by rw [← pow_add, show 4 + 3 = 6 + 1 from rfl, pow_add, h61, one_mul]; exact hord 1 (by norm_num) (by norm_num))
    have e : star (jacobiSum (ψ ^ 4) (ψ ^ 3)) = jacobiSum (ψ ^ 4)⁻¹ (ψ ^ 3)⁻¹ := by
      simp only [jacobiSum, star_sum, star_mul', MulChar.star_apply']
    have hB1 : ψ B * star (ψ B) = 1 := by
      rw [MulChar.star_apply', ← MulChar.mul_apply, mul_inv_cancel, MulChar.one_apply (by simpa using hB)]
    rw [star_mul', e]
    linear_combination hJ + (jacobiSum (ψ ^ 4) (ψ ^ 3) * jacobiSum (ψ ^ 4)⁻¹ (ψ ^ 3)⁻¹) * hB1
  have hstar : ∀ x y : ℤ, star ((x : ℂ) + y * μ) = x + y * (1 - μ) := by
    intro x y
    rw [star_add, star_mul', hs]
    simp
  have hcard : ∀ (C : F) (x y : ℤ), C ≠ 0 → ψ C * jacobiSum (ψ ^ 4) (ψ ^ 3) = x + y * μ →
      (Nat.card (EC 0 C).Point : ℤ) = Fintype.card F + 1 + (2 * x + y) := by
    intro C x y hC h
    have := card_sextic' h6 hψ hC
    rw [h, hstar] at this
    have e : (Nat.card (EC 0 C).Point : ℂ) = ((Fintype.card F + 1 + (2 * x + y) : ℤ) : ℂ) := by
      rw [this]; push_cast; ring
    exact_mod_cast e
  refine ⟨a, b, ?_, hcard B a b hB hab, ?_⟩
  · rw [hab, hstar] at hnorm
    have : ((a ^ 2 + a * b + b ^ 2 : ℤ) : ℂ) = ((Fintype.card F : ℤ) : ℂ) := by
      push_cast
      linear_combination hnorm + (b ^ 2 : ℂ) * h2
    exact_mod_cast this
  · intro g hg hg2 hg3
    obtain ⟨k, hk, hgk⟩ := MulChar.exists_apply_eq_pow h61 hμ hg
    have n2 : ψ g ^ 3 ≠ 1 := fun h => by
      obtain ⟨c, hc⟩ := (char_pow (d := 2) (e := 3) rfl hψ hg).1 h
      exact hg2 c hc
    have n3 : ψ g ^ 2 ≠ 1 := fun h => by
      obtain ⟨c, hc⟩ := (char_pow (d := 3) (e := 2) rfl hψ hg).1 h
      exact hg3 c hc
    have m6 := hμ.pow_eq_one
    rw [hgk] at n2 n3
    have hk' : k = 1 ∨ k = 5 := by
      interval_cases k
      · simp at n2
      · exact Or.inl rfl
      · exact absurd (by rw [← pow_mul]; exact m6) n2
      · exact absurd (by rw [← pow_mul]; exact m6) n3
      · exact absurd (by rw [← pow_mul, show 4 * 3 = 6 * 2 from rfl, pow_mul, m6, one_pow]) n2
      · exact Or.inr rfl
    have m5 : μ ^ 5 = 1 - μ := by linear_combination (μ ^ 2) * h3 - h2
    have e1 : (ψ (g * B)) * jacobiSum (ψ ^ 4) (ψ ^ 3) = μ ^ k * (a + b * μ) := by
      rw [map_mul, hgk, ← hab]; ring
    have e5 : (ψ (g ^ 5 * B)) * jacobiSum (ψ ^ 4) (ψ ^ 3) = (μ ^ k) ^ 5 * (a + b * μ) := by
      rw [map_mul, map_pow, hgk, ← hab]; ring
    rcases hk' with rfl | rfl
    · left
      constructor
      · rw [hcard (g * B) (-b) (a + b) (mul_ne_zero hg hB)
          (by rw [e1]; push_cast; linear_combination (b : ℂ) * h2)]
        ring
      · rw [hcard (g ^ 5 * B) (a + b) (-a) (mul_ne_zero (pow_ne_zero _ hg) hB)
          (by rw [e5, pow_one, m5]; push_cast; linear_combination -(b : ℂ) * h2)]
        ring
    · right
      constructor
      · rw [hcard (g * B) (a + b) (-a) (mul_ne_zero hg hB)
          (by rw [e1, m5]; push_cast; linear_combination -(b : ℂ) * h2)]
        ring
      · rw [hcard (g ^ 5 * B) (-b) (a + b) (mul_ne_zero (pow_ne_zero _ hg) hB)
          (by
            rw [e5, ← pow_mul, show 5 * 5 = 6 * 4 + 1 from rfl, pow_add, pow_mul, m6, one_pow, one_mul, pow_one]
            push_cast; linear_combination (b : ℂ) * h2)]
        ring

end Tate
