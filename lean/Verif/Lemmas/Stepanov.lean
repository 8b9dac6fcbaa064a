import Mathlib.FieldTheory.Finite.Basic
import Mathlib.Algebra.Polynomial.Derivative
import Mathlib.Algebra.Polynomial.FieldDivision
import Mathlib.Algebra.Squarefree.Basic
import Mathlib.FieldTheory.Separable
import Mathlib.RingTheory.Coprime.Lemmas
import Mathlib.Tactic.ComputeDegree
import Mathlib.Tactic.LinearCombination

/-!
# Polynomials with many multiple roots

Two applications of Stepanov's method in the polynomials over a finite field `K` with `Q` elements, with
`f = X³ + a X + b`:

* `count_le`: at most `(2 Q + 4) / 3` elements have a value of `f` that is a square (a nonsquare);
* `pair_le`: if `A² - f B² = (X - x₀)^m` with `m = Q - 1` or `m = Q + 1`, the elements at which `B` vanishes and `A`
  has a given value are at most a quarter of the field.
-/

set_option autoImplicit false

namespace Stepanov

open Polynomial

variable {K : Type*} [Field K]

/-- Roots of multiplicity `k` count `k` times. -/
theorem card_mul_le {S : Finset K} {k : ℕ} {p : K[X]} (hp : p ≠ 0) (h : ∀ x ∈ S, (X - C x) ^ k ∣ p) :
    k * S.card ≤ p.natDegree := by
  classical
  have hd : (∏ x ∈ S, (X - C x : K[X]) ^ k) ∣ p :=
    Finset.prod_dvd_of_coprime (fun x _ y _ hxy => (isCoprime_X_sub_C_of_isUnit_sub
      (sub_ne_zero.2 hxy).isUnit).pow) h
  have := natDegree_le_of_dvd hd hp
  rw [natDegree_prod _ _ fun x _ => pow_ne_zero _ (X_sub_C_ne_zero x)] at this
  simpa [natDegree_pow, mul_comm] using this

theorem cube_dvd (h2 : (2 : K) ≠ 0) {p : K[X]} {x : K} (h0 : p.eval x = 0) (h1 : (derivative p).eval x = 0)
    (h3 : (derivative (derivative p)).eval x = 0) : (X - C x) ^ 3 ∣ p := by
  by_cases hp : p = 0
  · rw [hp]; exact dvd_zero _
  refine (le_rootMultiplicity_iff hp).1 (Nat.succ_le_of_lt ?_)
  refine (lt_rootMultiplicity_iff_isRoot_iterate_derivative_of_mem_nonZeroDivisors hp ?_).2 ?_
  · rw [mem_nonZeroDivisors_iff_ne_zero]
    simpa using h2
  · intro m hm
    interval_cases m
    · exact h0
    · exact h1
    · exact h3

theorem sq_dvd {p : K[X]} {x : K} (h0 : p.eval x = 0) (h1 : (derivative p).eval x = 0) : (X - C x) ^ 2 ∣ p := by
  by_cases hp : p = 0
  · rw [hp]; exact dvd_zero _
  refine (le_rootMultiplicity_iff hp).1 (Nat.succ_le_of_lt ?_)
  refine (lt_rootMultiplicity_iff_isRoot_iterate_derivative_of_mem_nonZeroDivisors hp ?_).2 ?_
  · rw [mem_nonZeroDivisors_iff_ne_zero]
    simp
  · intro m hm
    interval_cases m
    · exact h0
    · exact h1

/-- The polynomial of the curve. -/
noncomputable def cub (a b : K) : K[X] := X ^ 3 + C a * X + C b

theorem cub_eval (a b x : K) : (cub a b).eval x = x ^ 3 + a * x + b := by simp [cub]

theorem cub_deriv (a b : K) : derivative (cub a b) = 3 * X ^ 2 + C a := by
  rw [cub]
  simp only [derivative_add, derivative_X_pow, derivative_C_mul, derivative_X, derivative_C, mul_one, add_zero]
  norm_num [map_ofNat]

theorem cub_deriv2 (a b : K) : derivative (derivative (cub a b)) = 6 * X := by
  rw [cub_deriv]; simp; ring_nf

theorem cub_natDegree (a b : K) : (cub a b).natDegree = 3 := by
  unfold cub; compute_degree!

theorem cub_monic (a b : K) : (cub a b).Monic := by
  unfold cub; monicity!

section count

variable [Fintype K] (a b : K)

/-- The polynomial `Φ`. -/
noncomputable def phi (s : K) (n : ℕ) : K[X] :=
  ((derivative (cub a b)) ^ 2 - 2 * cub a b * derivative (derivative (cub a b))) * (X ^ Fintype.card K - X) ^ 2
    - 4 * cub a b * derivative (cub a b) * (X ^ Fintype.card K - X) + 8 * cub a b ^ 2 * (C s * cub a b ^ n - 1)

variable {a b}

theorem phi_triple (h2 : (2 : K) ≠ 0) {s : K} {n : ℕ} (hn : 2 * n + 1 = Fintype.card K) {x : K}
    (hx : s * (x ^ 3 + a * x + b) ^ n = 1) : (X - C x) ^ 3 ∣ phi a b s n := by
  have hQ : (Fintype.card K : K) = 0 := FiniteField.cast_card_eq_zero K
  have hn' : 2 * (n : K) = -1 := by
    have := congrArg (Nat.cast : ℕ → K) hn
    push_cast at this
    rw [hQ] at this
    linear_combination this
  obtain ⟨k, rfl⟩ : ∃ k, n = k + 1 := by
    refine ⟨n - 1, ?_⟩
    have : 1 < Fintype.card K := Fintype.one_lt_card
    omega
  -- the power of `f`
  set w : K[X] := C s * cub a b ^ (k + 1) with hw
  set f := cub a b with hf
  have hfx : f.eval x = x ^ 3 + a * x + b := cub_eval a b x
  have hwx : w.eval x = 1 := by rw [hw]; simp [hfx, hx]
  have hf0 : f.eval x ≠ 0 := by
    intro h
    rw [← hfx, h, zero_pow (by omega), mul_zero] at hx
    exact zero_ne_one hx
  have hw1 : 2 * (f * derivative w) = -(derivative f * w) := by
    have : f * derivative w = C ((k + 1 : ℕ) : K) * derivative f * w := by
      rw [hw, derivative_C_mul, derivative_pow, Nat.add_sub_cancel]; ring
    rw [this]
    have hC : (2 : K[X]) * C ((k + 1 : ℕ) : K) = -1 := by
      rw [show (2 : K[X]) = C 2 by rw [map_ofNat], ← C_mul, hn', C_neg, C_1]
    linear_combination (derivative f * w) * hC
  have hw2 := congrArg derivative hw1
  have hD : derivative (X ^ Fintype.card K - X : K[X]) = -1 := by
    rw [derivative_sub, derivative_X_pow, hQ, C_0, zero_mul, derivative_X, zero_sub]
  set D : K[X] := X ^ Fintype.card K - X with hDdef
  have hDx : D.eval x = 0 := by simp [hDdef, FiniteField.pow_card]
  have e1 := congrArg (eval x) hw1
  have e2 := congrArg (eval x) hw2
  simp only [derivative_mul, derivative_neg, derivative_ofNat, eval_add, eval_mul, eval_neg, eval_ofNat,
    zero_mul, zero_add, hwx, mul_one, eval_zero] at e1 e2
  set F0 := f.eval x
  set F1 := (derivative f).eval x
  set F2 := (derivative (derivative f)).eval x
  set W1 := (derivative w).eval x
  set W2 := (derivative (derivative w)).eval x
  have hphi : phi a b s (k + 1) = (derivative f ^ 2 - 2 * f * derivative (derivative f)) * D ^ 2
    - 4 * f * derivative f * D + 8 * f ^ 2 * (w - 1) := rfl
  rw [hphi]
  refine cube_dvd h2 ?_ ?_ ?_
  · simp [hDx, hwx]
  · simp only [derivative_mul, derivative_add, derivative_sub, derivative_pow, derivative_ofNat, derivative_one,
      hD, eval_add, eval_sub, eval_mul, eval_pow, eval_ofNat, eval_neg, eval_one, hDx, hwx, eval_C, eval_zero,
      Nat.cast_ofNat, map_ofNat]
    ring_nf
    ring_nf at e1
    linear_combination 4 * F0 * e1
  · simp only [derivative_mul, derivative_add, derivative_sub, derivative_pow, derivative_ofNat, derivative_one,
      hD, eval_add, eval_sub, eval_mul, eval_pow, eval_ofNat, eval_neg, eval_one, hDx, hwx, eval_C, eval_zero,
      Nat.cast_ofNat, map_ofNat, derivative_neg, derivative_zero]
    have e1' : 2 * (F0 * W1) = -F1 := e1
    have e2' : 2 * (F1 * W1 + F0 * W2) = -(F2 + F1 * W1) := by simpa using e2
    linear_combination 4 * F0 * e2' + 10 * F1 * e1'
theorem phi_natDegree (h3 : (3 : K) ≠ 0) {s : K} {n : ℕ} (hn : 2 * n + 1 = Fintype.card K) :
    (phi a b s n).natDegree ≤ 2 * Fintype.card K + 4 ∧ phi a b s n ≠ 0 := by
  have hQ : 2 ≤ Fintype.card K := Fintype.one_lt_card
  set Q := Fintype.card K with hQdef
  have hg : (derivative (cub a b)) ^ 2 - 2 * cub a b * derivative (derivative (cub a b)) =
      -3 * X ^ 4 - 6 * C a * X ^ 2 - 12 * C b * X + C a ^ 2 := by
    rw [cub_deriv2, cub_deriv, cub]; ring
  have hphi : phi a b s n = (-3 * X ^ 4 - 6 * C a * X ^ 2 - 12 * C b * X + C a ^ 2) * (X ^ Q - X) ^ 2
    - 4 * cub a b * derivative (cub a b) * (X ^ Q - X) + 8 * cub a b ^ 2 * (C s * cub a b ^ n - 1) := by
    rw [phi, hg]
  have hsplit : phi a b s n = C (-3) * X ^ (2 * Q + 4) +
      ((- 6 * C a * X ^ 2 - 12 * C b * X + C a ^ 2) * X ^ (2 * Q)
      + ((-3 * X ^ 4 - 6 * C a * X ^ 2 - 12 * C b * X + C a ^ 2) * (- 2 * X ^ Q * X + X ^ 2)
    - 4 * cub a b * derivative (cub a b) * (X ^ Q - X)) + 8 * cub a b ^ 2 * (C s * cub a b ^ n - 1)) := by
    rw [hphi, show (C (-3 : K) : K[X]) = -3 by rw [C_neg, map_ofNat]]
    ring
  have d1 : ((- 6 * C a * X ^ 2 - 12 * C b * X + C a ^ 2) * X ^ (2 * Q) : K[X]).natDegree ≤ 2 * Q + 2 := by
    refine natDegree_mul_le.trans ?_
    rw [natDegree_X_pow]
    have : (- 6 * C a * X ^ 2 - 12 * C b * X + C a ^ 2 : K[X]).natDegree ≤ 2 := by compute_degree
    omega
  have d2 : ((-3 * X ^ 4 - 6 * C a * X ^ 2 - 12 * C b * X + C a ^ 2) * (- 2 * X ^ Q * X + X ^ 2) : K[X]).natDegree
      ≤ Q + 5 := by
    refine natDegree_mul_le.trans ?_
    have e1 : (-3 * X ^ 4 - 6 * C a * X ^ 2 - 12 * C b * X + C a ^ 2 : K[X]).natDegree ≤ 4 := by compute_degree
    have e2 : (- 2 * X ^ Q * X + X ^ 2 : K[X]).natDegree ≤ Q + 1 := by
      refine (natDegree_add_le _ _).trans (max_le ?_ ?_)
      · rw [mul_assoc, ← pow_succ, show (-2 : K[X]) = C (-2) by rw [C_neg, map_ofNat]]
        exact natDegree_C_mul_X_pow_le _ _
      · rw [natDegree_X_pow]; omega
    omega
  have hc := cub_natDegree a b
  have d3 : (4 * cub a b * derivative (cub a b) * (X ^ Q - X) : K[X]).natDegree ≤ Q + 5 := by
    have e1 : (derivative (cub a b)).natDegree ≤ 2 := (natDegree_derivative_le _).trans (by omega)
    have e2 : (X ^ Q - X : K[X]).natDegree ≤ Q := (natDegree_sub_le _ _).trans (by simp; omega)
    have e3 : (4 * cub a b : K[X]).natDegree ≤ 3 := by
      rw [show (4 : K[X]) = C 4 by rw [map_ofNat]]
      exact (natDegree_C_mul_le _ _).trans hc.le
    exact natDegree_mul_le.trans ((Nat.add_le_add (natDegree_mul_le.trans (Nat.add_le_add e3 e1)) e2).trans (by omega))
  have d4 : (8 * cub a b ^ 2 * (C s * cub a b ^ n - 1) : K[X]).natDegree ≤ 3 * n + 6 := by
    have e3 : (8 * cub a b ^ 2 : K[X]).natDegree ≤ 6 := by
      rw [show (8 : K[X]) = C 8 by rw [map_ofNat]]
      refine (natDegree_C_mul_le _ _).trans ?_
      rw [natDegree_pow, hc]
    have e2 : (C s * cub a b ^ n - 1 : K[X]).natDegree ≤ 3 * n := by
      refine (natDegree_sub_le _ _).trans (max_le ((natDegree_C_mul_le _ _).trans ?_) (by simp))
      rw [natDegree_pow, hc]; omega
    exact natDegree_mul_le.trans ((Nat.add_le_add e3 e2).trans (by omega))
  set rest := ((- 6 * C a * X ^ 2 - 12 * C b * X + C a ^ 2) * X ^ (2 * Q)
      + ((-3 * X ^ 4 - 6 * C a * X ^ 2 - 12 * C b * X + C a ^ 2) * (- 2 * X ^ Q * X + X ^ 2)
    - 4 * cub a b * derivative (cub a b) * (X ^ Q - X)) + 8 * cub a b ^ 2 * (C s * cub a b ^ n - 1) : K[X]) with hrest
  have dr : rest.natDegree ≤ 2 * Q + 3 := by
    rw [hrest]
    refine (natDegree_add_le _ _).trans (max_le ((natDegree_add_le _ _).trans (max_le (d1.trans (by omega))
      ((natDegree_sub_le _ _).trans (max_le (d2.trans (by omega)) (d3.trans (by omega))))))
      (d4.trans (by omega)))
  constructor
  · rw [hsplit]
    exact (natDegree_add_le _ _).trans (max_le (natDegree_C_mul_X_pow_le _ _) (dr.trans (by omega)))
  · intro h0
    have := congrArg (fun p : K[X] => p.coeff (2 * Q + 4)) (hsplit.symm.trans h0)
    simp only [coeff_add, coeff_C_mul, coeff_X_pow, if_true, mul_one, coeff_zero] at this
    rw [coeff_eq_zero_of_natDegree_lt (lt_of_le_of_lt dr (by omega)), add_zero] at this
    exact h3 (neg_eq_zero.1 this)

/-- At most about two thirds of the elements have a value with a given quadratic character. -/
theorem count_le [DecidableEq K] (h2 : (2 : K) ≠ 0) (h3 : (3 : K) ≠ 0) (s : K) {n : ℕ}
    (hn : 2 * n + 1 = Fintype.card K) :
    3 * (Finset.univ.filter fun x : K => s * (x ^ 3 + a * x + b) ^ n = 1).card ≤ 2 * Fintype.card K + 4 := by
  obtain ⟨hd, h0⟩ := phi_natDegree (a := a) (b := b) h3 (s := s) hn
  refine (card_mul_le h0 fun x hx => ?_).trans hd
  exact phi_triple h2 hn (Finset.mem_filter.1 hx).2

/-- About a third of the elements have a value that is a nonzero square. -/
theorem le_count [DecidableEq K] (h2 : (2 : K) ≠ 0) (h3 : (3 : K) ≠ 0) :
    Fintype.card K ≤ 3 * (Finset.univ.filter fun x : K => ∃ y, y ≠ 0 ∧ y ^ 2 = x ^ 3 + a * x + b).card + 13 := by
  obtain ⟨n, hn⟩ : ∃ n, 2 * n + 1 = Fintype.card K := by
    have := FiniteField.odd_card_of_char_ne_two (F := K) fun hc => h2 (by
      have := CharP.cast_eq_zero K (ringChar K)
      rwa [hc] at this)
    exact ⟨Fintype.card K / 2, by omega⟩
  have hc := count_le (a := a) (b := b) h2 h3 (-1) hn
  have hz : (Finset.univ.filter fun x : K => x ^ 3 + a * x + b = 0).card ≤ 3 := by
    refine (Finset.card_le_card ?_).trans ((Multiset.toFinset_card_le _).trans
      ((card_roots' (cub a b)).trans (cub_natDegree a b).le))
    intro x hx
    rw [Multiset.mem_toFinset, mem_roots (cub_monic a b).ne_zero, IsRoot.def, cub_eval]
    exact (Finset.mem_filter.1 hx).2
  have hu : (Finset.univ : Finset K) ⊆ (Finset.univ.filter fun x : K => ∃ y, y ≠ 0 ∧ y ^ 2 = x ^ 3 + a * x + b) ∪
      ((Finset.univ.filter fun x : K => x ^ 3 + a * x + b = 0) ∪
        (Finset.univ.filter fun x : K => (-1) * (x ^ 3 + a * x + b) ^ n = 1)) := by
    intro x _
    simp only [Finset.mem_union, Finset.mem_filter, Finset.mem_univ, true_and]
    by_cases h0 : x ^ 3 + a * x + b = 0
    · exact Or.inr (Or.inl h0)
    by_cases hs : IsSquare (x ^ 3 + a * x + b)
    · obtain ⟨y, hy⟩ := hs
      refine Or.inl ⟨y, ?_, by rw [hy, pow_two]⟩
      rintro rfl
      exact h0 (by rw [hy, zero_mul])
    · refine Or.inr (Or.inr ?_)
      have hh : Fintype.card K / 2 = n := by omega
      have := FiniteField.pow_dichotomy (F := K) (by
        intro hc
        exact h2 (by have := CharP.cast_eq_zero K (ringChar K); rwa [hc] at this)) h0
      rw [hh] at this
      rcases this with h | h
      · refine absurd ?_ hs
        exact (FiniteField.isSquare_iff (by
          intro hc
          exact h2 (by have := CharP.cast_eq_zero K (ringChar K); rwa [hc] at this)) h0).2 (by rw [hh]; exact h)
      · rw [h]; norm_num
  have := (Finset.card_le_card hu).trans ((Finset.card_union_le _ _).trans
    (Nat.add_le_add_left (Finset.card_union_le _ _) _))
  rw [Finset.card_univ] at this
  omega

end count

/-! ### Functions with a divisor at one point -/

section pair

variable {a b x₀ y₀ : K}

/-- The degrees of the two parts. -/
theorem degrees {A B : K[X]} {n : ℕ} (hB : B ≠ 0) (hAB : A ^ 2 - cub a b * B ^ 2 = (X - C x₀) ^ (2 * n)) :
    A.natDegree = n ∧ B.natDegree + 2 ≤ n := by
  have hc := cub_natDegree a b
  have h0 := (cub_monic a b).ne_zero
  have e1 : (cub a b * B ^ 2).natDegree = 2 * B.natDegree + 3 := by
    rw [natDegree_mul h0 (pow_ne_zero 2 hB), hc, natDegree_pow]; omega
  have e2 : (A ^ 2).natDegree = 2 * A.natDegree := natDegree_pow A 2
  have e3 : (A ^ 2 - cub a b * B ^ 2).natDegree = 2 * n := by
    rw [hAB, natDegree_pow, natDegree_X_sub_C, mul_one]
  rcases lt_or_gt_of_ne (show (A ^ 2).natDegree ≠ (cub a b * B ^ 2).natDegree by omega) with hlt | hlt
  · rw [natDegree_sub_eq_right_of_natDegree_lt hlt] at e3
    omega
  · rw [natDegree_sub_eq_left_of_natDegree_lt hlt] at e3
    omega

/-- The differential equations. -/
theorem exists_kappa {A B : K[X]} {m : ℕ} (hm : m ≠ 0)
    (hAB : A ^ 2 - cub a b * B ^ 2 = (X - C x₀) ^ m) (hz : A.eval x₀ + y₀ * B.eval x₀ = 0) (hne : A.eval x₀ ≠ 0) :
    ∃ k : K[X], 2 * (X - C x₀) * derivative A = C (m : K) * A + k * B ∧
      (X - C x₀) * (derivative (cub a b) * B + 2 * cub a b * derivative B) = k * A + C (m : K) * cub a b * B ∧
      k.eval x₀ = m * y₀ := by
  have hBx : B.eval x₀ ≠ 0 := fun h => hne (by rw [h] at hz; simpa using hz)
  have hB : B ≠ 0 := fun h => hBx (by rw [h]; simp)
  have hcop : IsCoprime A B := by
    have h1 : IsCoprime A ((X - C x₀) ^ m) := by
      refine IsCoprime.pow_right ((irreducible_X_sub_C x₀).coprime_iff_not_dvd.2 ?_).symm
      rw [dvd_iff_isRoot]; exact hne
    rw [← hAB] at h1
    have h2 : IsCoprime A (B * (-cub a b * B)) := by
      have := h1.add_mul_left_right (-A)
      rwa [show A ^ 2 - cub a b * B ^ 2 + A * -A = B * (-cub a b * B) by ring] at this
    exact h2.of_mul_right_left
  have hd := congrArg derivative hAB
  simp only [derivative_sub, derivative_mul, derivative_pow, derivative_X, derivative_C, sub_zero] at hd
  obtain ⟨n, rfl⟩ : ∃ n, m = n + 1 := ⟨m - 1, by omega⟩
  have key : A * (2 * (X - C x₀) * derivative A - C ((n + 1 : ℕ) : K) * A) =
      B * ((X - C x₀) * (derivative (cub a b) * B + 2 * cub a b * derivative B) - C ((n + 1 : ℕ) : K) * cub a b * B) := by
    have e : (X - C x₀) ^ (n + 1) = (X - C x₀ : K[X]) ^ n * (X - C x₀) := pow_succ _ _
    rw [e] at hAB
    simp only [Nat.add_sub_cancel, Nat.cast_ofNat, map_ofNat, mul_one] at hd
    linear_combination (X - C x₀) * hd - C ((n + 1 : ℕ) : K) * hAB
  obtain ⟨k, hk⟩ := hcop.symm.dvd_of_dvd_mul_left (⟨_, key⟩ : B ∣ _)
  refine ⟨k, by linear_combination hk, ?_, ?_⟩
  · rw [hk] at key
    have := mul_left_cancel₀ hB (show B * (k * A) = B * _ by rw [← key]; ring)
    linear_combination -this
  · have := congrArg (Polynomial.eval x₀) hk
    simp only [eval_sub, eval_mul, eval_X, eval_C, sub_self, mul_zero, zero_mul, zero_sub] at this
    refine mul_right_cancel₀ hBx ?_
    linear_combination -this - ((n + 1 : ℕ) : K) * hz

variable [Fintype K]

/-- The auxiliary polynomial is not zero. -/
theorem psi_ne (h2 : (2 : K) ≠ 0) (hsep : IsCoprime (cub a b) (derivative (cub a b))) (hQ : 7 < Fintype.card K)
    {j : ℕ} (hj : j ≤ 1) {A B k : K[X]} (hy : y₀ ≠ 0) (hf : y₀ ^ 2 = x₀ ^ 3 + a * x₀ + b)
    (hAB : A ^ 2 - cub a b * B ^ 2 = (X - C x₀) ^ (Fintype.card K - 1 + 2 * j))
    (hkx : k.eval x₀ = (2 * j - 1) * y₀) (hkd : k.natDegree ≤ 1) :
    cub a b * B + k * (A - (X - C x₀) ^ j) ≠ 0 := by
  intro h0
  set Q := Fintype.card K with hQdef
  have hQ0 : ((Q : ℕ) : K) = 0 := FiniteField.cast_card_eq_zero K
  have hk0 : k ≠ 0 := by
    rintro rfl
    have : j = 0 ∨ j = 1 := by omega
    rcases this with rfl | rfl
    · simp [hy] at hkx
    · norm_num [hy] at hkx
      exact hy hkx.symm
  have hc := cub_natDegree a b
  have hc0 := (cub_monic a b).ne_zero
  have hroot : (k ^ 2 - cub a b).IsRoot x₀ := by
    rw [IsRoot.def, eval_sub, eval_pow, cub_eval, hkx, ← hf]
    have : j = 0 ∨ j = 1 := by omega
    rcases this with rfl | rfl <;> norm_num
  obtain ⟨g, hg⟩ := dvd_iff_isRoot.2 hroot
  have hU : (A * (X - C x₀) ^ (1 - j) * g - k ^ 2) ^ 2 = cub a b * (k ^ 2 - g * (X - C x₀) ^ Q) := by
    have hx0 : ((X - C x₀ : K[X]) ^ j) ^ 2 ≠ 0 := pow_ne_zero _ (pow_ne_zero _ (X_sub_C_ne_zero x₀))
    refine mul_left_cancel₀ hx0 ?_
    have e1 : (X - C x₀ : K[X]) ^ j * (X - C x₀) ^ (1 - j) = X - C x₀ := by
      rw [← pow_add, show j + (1 - j) = 1 by omega, pow_one]
    have e2 : (X - C x₀ : K[X]) * (X - C x₀) ^ (Q - 1 + 2 * j) = ((X - C x₀) ^ j) ^ 2 * (X - C x₀) ^ Q := by
      rw [← pow_succ', ← pow_mul, ← pow_add]
      congr 1
      omega
    rw [← hAB] at e2
    have e3 : (X - C x₀ : K[X]) ^ j * (A * (X - C x₀) ^ (1 - j) * g - k ^ 2) =
        A * (k ^ 2 - cub a b) - k ^ 2 * (X - C x₀) ^ j := by
      rw [hg]; linear_combination A * g * e1
    rw [← mul_pow, e3]
    generalize (X - C x₀ : K[X]) ^ j = t at *
    have e4 : ((X - C x₀) * g) * (A ^ 2 - cub a b * B ^ 2) = t ^ 2 * (X - C x₀) ^ Q * g := by
      linear_combination g * e2
    rw [← hg] at e4
    generalize (X - C x₀ : K[X]) ^ Q = w at *
    linear_combination -cub a b * e4 + (k ^ 2 - cub a b) * (k * (A - t) - cub a b * B) * h0
  obtain ⟨Z, hZ⟩ := (Separable.squarefree hsep).isRadical 2 _ (⟨_, hU⟩ : cub a b ∣ _)
  have hW : cub a b * Z ^ 2 = k ^ 2 - g * (X - C x₀) ^ Q := by
    refine mul_left_cancel₀ hc0 ?_
    rw [← hU, hZ]; ring
  have hW' : derivative (cub a b) * Z ^ 2 + 2 * cub a b * Z * derivative Z =
      2 * k * derivative k - derivative g * (X - C x₀) ^ Q := by
    have := congrArg derivative hW
    simp only [derivative_sub, derivative_mul, derivative_pow, derivative_X, derivative_C, sub_zero, hQ0, map_zero,
      zero_mul, mul_zero, add_zero, Nat.cast_ofNat, map_ofNat] at this
    linear_combination this
  have hdvd : Z ∣ derivative g * k ^ 2 - 2 * g * k * derivative k :=
    ⟨derivative g * cub a b * Z - g * (derivative (cub a b) * Z + 2 * cub a b * derivative Z), by
      linear_combination g * hW' - derivative g * hW⟩
  have hgd : g.natDegree = 2 ∧ g.coeff 2 = -1 := by
    have e1 : (k ^ 2).natDegree < (cub a b).natDegree := by rw [natDegree_pow]; omega
    have e2 : (k ^ 2 - cub a b).natDegree = 3 := by
      rw [natDegree_sub_eq_right_of_natDegree_lt e1, hc]
    have hg0 : g ≠ 0 := by
      rintro rfl
      rw [hg, mul_zero, natDegree_zero] at e2
      omega
    have e3 : (k ^ 2 - cub a b).leadingCoeff = -1 := by
      rw [leadingCoeff, e2, coeff_sub, coeff_eq_zero_of_natDegree_lt (by rw [← hc]; exact e1), ← hc,
        coeff_natDegree, (cub_monic a b).leadingCoeff, zero_sub]
    rw [hg] at e2 e3
    rw [natDegree_mul (X_sub_C_ne_zero x₀) hg0, natDegree_X_sub_C] at e2
    rw [leadingCoeff_mul, leadingCoeff_X_sub_C, one_mul, leadingCoeff, show g.natDegree = 2 by omega] at e3
    exact ⟨by omega, e3⟩
  have hg0 : g ≠ 0 := by rintro rfl; simp at hgd
  have hZd : 2 * Z.natDegree + 1 = Q := by
    have e1 : (g * (X - C x₀) ^ Q).natDegree = Q + 2 := by
      rw [natDegree_mul hg0 (pow_ne_zero _ (X_sub_C_ne_zero x₀)), natDegree_pow, natDegree_X_sub_C, hgd.1]; omega
    have e2 : (k ^ 2).natDegree ≤ 2 := by rw [natDegree_pow]; omega
    have e3 := congrArg natDegree hW
    rw [natDegree_sub_eq_right_of_natDegree_lt (by omega), e1] at e3
    have hZ0 : Z ≠ 0 := by
      rintro rfl
      simp at e3
    rw [natDegree_mul hc0 (pow_ne_zero 2 hZ0), hc, natDegree_pow] at e3
    omega
  have hg' : (derivative g).natDegree ≤ 1 := (natDegree_derivative_le g).trans (by omega)
  have hk' : (derivative k).natDegree ≤ 0 := (natDegree_derivative_le k).trans (by omega)
  have hH : derivative g * k ^ 2 - 2 * g * k * derivative k = 0 := by
    by_contra hH
    have e1 := natDegree_le_of_dvd hdvd hH
    have e2 : (derivative g * k ^ 2 - 2 * g * k * derivative k).natDegree ≤ 3 := by
      refine (natDegree_sub_le _ _).trans (max_le ?_ ?_)
      · refine natDegree_mul_le.trans ?_
        rw [natDegree_pow]; omega
      · have e3 : (2 * g : K[X]).natDegree ≤ 2 := by
          rw [show (2 : K[X]) = C 2 by rw [map_ofNat]]
          exact (natDegree_C_mul_le _ _).trans hgd.1.le
        have e4 : (2 * g * k : K[X]).natDegree ≤ 3 := natDegree_mul_le.trans (by omega)
        exact natDegree_mul_le.trans (by omega)
    omega
  have hkey : derivative g * k = 2 * g * derivative k := by
    refine mul_right_cancel₀ hk0 ?_
    linear_combination hH
  have hgc : (derivative g).coeff 1 = -2 := by
    rw [coeff_derivative, hgd.2]; norm_num
  by_cases hk1 : k.natDegree = 0
  · have : derivative k = 0 := by rw [eq_C_of_natDegree_eq_zero hk1]; simp
    rw [this, mul_zero] at hkey
    have := (mul_eq_zero.1 hkey).resolve_right hk0
    rw [this, coeff_zero] at hgc
    exact h2 (neg_eq_zero.1 hgc.symm)
  · have hk1' : k.natDegree = 1 := by omega
    obtain ⟨ρ, hρ⟩ := exists_root_of_degree_eq_one (p := k) (by rw [degree_eq_natDegree hk0, hk1']; rfl)
    obtain ⟨c, hc1, d, rfl⟩ := natDegree_eq_one.1 hk1'
    have hdk : derivative (C c * X + C d) = C c := by simp
    rw [hdk] at hkey
    rw [IsRoot.def] at hρ
    have h1 := congrArg (Polynomial.eval ρ) hkey
    rw [eval_mul, hρ, mul_zero, eval_mul, eval_mul, eval_C, eval_ofNat] at h1
    have hgρ : g.eval ρ = 0 := by
      have := mul_eq_zero.1 h1.symm
      rcases this with h | h
      · exact (mul_eq_zero.1 h).resolve_left h2
      · exact absurd h hc1
    have h3 := congrArg (Polynomial.eval ρ) (congrArg derivative hkey)
    simp only [derivative_mul, hdk, derivative_C, mul_zero, add_zero, eval_add, eval_mul, hρ, eval_C, zero_add,
      derivative_ofNat, zero_mul, eval_ofNat] at h3
    have hg'ρ : (derivative g).eval ρ = 0 := by
      refine (mul_eq_zero.1 (show (derivative g).eval ρ * c = 0 by linear_combination -h3)).resolve_right hc1
    have h4 := congrArg (Polynomial.eval ρ) hg
    rw [eval_sub, eval_pow, hρ, eval_mul, hgρ] at h4
    have h5 := congrArg (Polynomial.eval ρ) (congrArg derivative hg)
    simp only [derivative_mul, derivative_sub, derivative_pow, eval_sub, eval_add, eval_mul, hρ, hgρ, hg'ρ, eval_pow] at h5
    obtain ⟨u, v, huv⟩ := hsep
    have h6 := congrArg (Polynomial.eval ρ) huv
    simp only [eval_add, eval_mul, eval_one] at h6
    refine one_ne_zero (α := K) ?_
    rw [← h6]
    simp at h4 h5
    rw [h4, h5]
    ring

/-- Points at which `A + y B` has a given rational value. -/
theorem pair_le (h2 : (2 : K) ≠ 0) (hsep : IsCoprime (cub a b) (derivative (cub a b))) (hQ : 7 < Fintype.card K)
    {j : ℕ} (hj : j ≤ 1) {A B : K[X]} (hy : y₀ ≠ 0) (hf : y₀ ^ 2 = x₀ ^ 3 + a * x₀ + b)
    (hAB : A ^ 2 - cub a b * B ^ 2 = (X - C x₀) ^ (Fintype.card K - 1 + 2 * j))
    (hz : A.eval x₀ + y₀ * B.eval x₀ = 0) (hne : A.eval x₀ ≠ 0) {S : Finset K}
    (hS : ∀ x ∈ S, x ≠ x₀ ∧ B.eval x = 0 ∧ A.eval x = (x - x₀) ^ j) : 4 * S.card ≤ Fintype.card K + 1 + 2 * j := by
  obtain ⟨n, hn⟩ : ∃ n, 2 * n + 1 = Fintype.card K := by
    have := FiniteField.odd_card_of_char_ne_two (F := K) fun hc => h2 (by
      have := CharP.cast_eq_zero K (ringChar K)
      rwa [hc] at this)
    exact ⟨Fintype.card K / 2, by omega⟩
  have hm : Fintype.card K - 1 + 2 * j = 2 * (n + j) := by omega
  have hmK : ((2 * (n + j) : ℕ) : K) = 2 * j - 1 := by
    have := FiniteField.cast_card_eq_zero K
    rw [← hn] at this
    push_cast at this ⊢
    linear_combination this
  have hB : B ≠ 0 := by
    rintro rfl
    exact hne (by simpa using hz)
  have hAB' := hAB
  rw [hm] at hAB'
  obtain ⟨dA, dB⟩ := degrees hB hAB'
  obtain ⟨k, k1, k2, k3⟩ := exists_kappa (by omega) hAB' hz hne
  have hc := cub_natDegree a b
  have hA : A ≠ 0 := by rintro rfl; simp at hne
  have hkd : k.natDegree ≤ 1 := by
    by_cases hk : k = 0
    · rw [hk]; simp
    have e : (k * A).natDegree ≤ n + j + 1 := by
      rw [show k * A = (X - C x₀) * (derivative (cub a b) * B + 2 * cub a b * derivative B) -
        C ((2 * (n + j) : ℕ) : K) * cub a b * B by rw [k2]; ring]
      have d1 := natDegree_derivative_le (cub a b)
      have d2 := natDegree_derivative_le B
      have e1 : (derivative (cub a b) * B).natDegree ≤ n + j := natDegree_mul_le.trans (by omega)
      have e2 : (2 * cub a b : K[X]).natDegree ≤ 3 := by
        rw [show (2 : K[X]) = C 2 by rw [map_ofNat]]
        exact (natDegree_C_mul_le _ _).trans hc.le
      have e3 : (2 * cub a b * derivative B).natDegree ≤ n + j := by
        by_cases hB' : derivative B = 0
        · rw [hB']; simp
        have : 1 ≤ B.natDegree := by
          by_contra hlt
          have h0 : B.natDegree = 0 := by omega
          exact hB' (by rw [eq_C_of_natDegree_eq_zero h0]; simp)
        exact natDegree_mul_le.trans (by omega)
      have e4 : (C ((2 * (n + j) : ℕ) : K) * cub a b * B).natDegree ≤ n + j + 1 := by
        have := natDegree_C_mul_le ((2 * (n + j) : ℕ) : K) (cub a b)
        exact natDegree_mul_le.trans (by omega)
      refine (natDegree_sub_le _ _).trans (max_le ?_ e4)
      refine natDegree_mul_le.trans ?_
      rw [natDegree_X_sub_C]
      have := (natDegree_add_le (derivative (cub a b) * B) (2 * cub a b * derivative B)).trans (max_le e1 e3)
      omega
    rw [natDegree_mul hk hA, dA] at e
    omega
  have hψ := psi_ne h2 hsep hQ hj hy hf hAB (by rw [k3, hmK]) hkd
  have hle := card_mul_le (S := S) (k := 2) hψ fun x hx => by
    obtain ⟨hx0, hBx, hAx⟩ := hS x hx
    refine sq_dvd (by simp [hBx, hAx]) ?_
    have hne : (2 : K) * (x - x₀) ≠ 0 := mul_ne_zero h2 (sub_ne_zero.2 hx0)
    refine mul_left_cancel₀ hne ?_
    have k1' := congrArg (Polynomial.eval x) k1
    have k2' := congrArg (Polynomial.eval x) k2
    simp only [eval_mul, eval_add, eval_sub, eval_X, eval_C, eval_ofNat, hBx, hAx, mul_zero, add_zero, zero_add,
      hmK] at k1' k2'
    simp only [derivative_add, derivative_mul, derivative_sub, eval_mul, eval_add, eval_sub, hBx, hAx, mul_zero,
      eval_pow, eval_X, eval_C, zero_add, sub_self, derivative_X_sub_C_pow]
    have hj' : (x - x₀) * ((j : K) * (x - x₀) ^ (j - 1)) = j * (x - x₀) ^ j := by
      have : j = 0 ∨ j = 1 := by omega
      rcases this with rfl | rfl <;> simp
    linear_combination k2' + k.eval x * k1' - 2 * k.eval x * hj'
  have hd : (cub a b * B + k * (A - (X - C x₀) ^ j)).natDegree ≤ n + j + 1 := by
    refine (natDegree_add_le _ _).trans (max_le (natDegree_mul_le.trans (by omega)) (natDegree_mul_le.trans ?_))
    have : (A - (X - C x₀) ^ j).natDegree ≤ n + j := by
      refine (natDegree_sub_le _ _).trans (max_le dA.le ?_)
      rw [natDegree_pow, natDegree_X_sub_C]; omega
    omega
  omega

end pair
end Stepanov
