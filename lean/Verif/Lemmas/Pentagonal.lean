/-
The pentagonal number theorem for complex numbers, with a bound on the tail.
-/
import Mathlib.Combinatorics.Enumerative.Pentagonal.Ring
import Mathlib.Analysis.Normed.Ring.InfiniteProd
import Mathlib.Analysis.SpecificLimits.Normed
import Mathlib.Analysis.Complex.Basic
import Mathlib.Tactic

set_option autoImplicit false

namespace Pbc.Pentagonal

open Filter Topology

theorem prod_bound (q : ℂ) (hq : ‖q‖ < 1) (k n : ℕ) :
    ‖∏ i ∈ Finset.range n, (1 - q ^ (k + i + 1))‖ ≤ Real.exp (1 / (1 - ‖q‖)) := by
  calc ‖∏ i ∈ Finset.range n, (1 - q ^ (k + i + 1))‖
      ≤ ∏ i ∈ Finset.range n, Real.exp (‖q‖ ^ i) := by
        rw [norm_prod]
        refine Finset.prod_le_prod (fun _ _ => norm_nonneg _) (fun i _ => ?_)
        calc ‖1 - q ^ (k + i + 1)‖ ≤ 1 + ‖q‖ ^ (k + i + 1) := by
              refine (norm_sub_le _ _).trans ?_
              rw [norm_one, norm_pow]
          _ ≤ 1 + ‖q‖ ^ i := by
              have : ‖q‖ ^ (k + i + 1) ≤ ‖q‖ ^ i :=
                pow_le_pow_of_le_one (norm_nonneg _) hq.le (by omega)
              linarith
          _ ≤ Real.exp (‖q‖ ^ i) := by rw [add_comm]; exact Real.add_one_le_exp _
    _ = Real.exp (∑ i ∈ Finset.range n, ‖q‖ ^ i) := (Real.exp_sum _ _).symm
    _ ≤ Real.exp (1 / (1 - ‖q‖)) := by
        apply Real.exp_le_exp.2
        rw [one_div, ← tsum_geometric_of_lt_one (norm_nonneg _) hq]
        exact (summable_geometric_of_lt_one (norm_nonneg _) hq).sum_le_tsum _
          (fun _ _ => pow_nonneg (norm_nonneg _) _)

theorem term_bound (q : ℂ) (hq : ‖q‖ < 1) (k n : ℕ) :
    ‖q ^ ((k + 1) * n) * ∏ i ∈ Finset.range (n + 1), (1 - q ^ (k + i + 1))‖ ≤
      Real.exp (1 / (1 - ‖q‖)) * ‖q‖ ^ n := by
  rw [norm_mul, norm_pow, mul_comm]
  refine mul_le_mul (prod_bound q hq k _) ?_ (pow_nonneg (norm_nonneg _) _) (Real.exp_pos _).le
  exact pow_le_pow_of_le_one (norm_nonneg _) hq.le (by nlinarith)

theorem summable_major (q : ℂ) (hq : ‖q‖ < 1) :
    Summable (fun n : ℕ => Real.exp (1 / (1 - ‖q‖)) * ‖q‖ ^ n) :=
  (summable_geometric_of_lt_one (norm_nonneg _) hq).mul_left _

theorem pent_neg (k : ℕ) : pentagonal (-(k : ℤ)) = k * (3 * k + 1) / 2 := by
  rw [pentagonal_neg]
  have : (k : ℤ) * (3 * k + 1) / 2 = ((k * (3 * k + 1) / 2 : ℕ) : ℤ) := by push_cast; rfl
  rw [this, Int.toNat_natCast]

theorem pent_succ (k : ℕ) : pentagonal ((k : ℤ) + 1) = (k + 1) * (3 * k + 2) / 2 := by
  rw [pentagonal_def]
  have : ((k : ℤ) + 1) * (3 * (k + 1) - 1) / 2 = (((k + 1) * (3 * k + 2) / 2 : ℕ) : ℤ) := by
    push_cast; congr 1; ring
  rw [this, Int.toNat_natCast]

/-- The `k`-th term. -/
def term (q : ℂ) (k : ℕ) : ℂ :=
  (-1) ^ k * (q ^ (k * (3 * k + 1) / 2) - q ^ ((k + 1) * (3 * k + 2) / 2))

theorem norm_term_le (q : ℂ) (hq : ‖q‖ < 1) (k e : ℕ) (he : e ≤ k * (3 * k + 1) / 2) :
    ‖term q k‖ ≤ 2 * ‖q‖ ^ e := by
  have h1 : k * (3 * k + 1) / 2 ≤ (k + 1) * (3 * k + 2) / 2 := Nat.div_le_div_right (by nlinarith)
  rw [term, norm_mul, norm_pow, norm_neg, norm_one, one_pow, one_mul, two_mul]
  refine (norm_sub_le _ _).trans (add_le_add ?_ ?_)
  · rw [norm_pow]; exact pow_le_pow_of_le_one (norm_nonneg _) hq.le he
  · rw [norm_pow]; exact pow_le_pow_of_le_one (norm_nonneg _) hq.le (he.trans h1)

theorem le_pent (k : ℕ) : k ≤ k * (3 * k + 1) / 2 := by
  rw [Nat.le_div_iff_mul_le (by omega)]
  nlinarith [Nat.le_mul_self k]

theorem summable_term (q : ℂ) (hq : ‖q‖ < 1) : Summable (term q) :=
  Summable.of_norm_bounded ((summable_geometric_of_lt_one (norm_nonneg _) hq).mul_left 2)
    (fun k => norm_term_le q hq k k (le_pent k))

/-- Euler's theorem. -/
theorem tprod_eq (q : ℂ) (hq : ‖q‖ < 1) : ∏' n : ℕ, (1 - q ^ (n + 1)) = ∑' k, term q k := by
  have hs : ∀ k, Summable
      (fun n => q ^ ((k + 1) * n) * ∏ i ∈ Finset.range (n + 1), (1 - q ^ (k + i + 1))) :=
    fun k => Summable.of_norm_bounded (summable_major q hq) (term_bound q hq k)
  have hm : ∀ k, Multipliable (fun n => 1 - q ^ (n + k + 1)) := by
    intro k
    simp only [sub_eq_add_neg]
    apply multipliable_one_add_of_summable
    refine Summable.of_nonneg_of_le (fun _ => norm_nonneg _) (fun n => ?_)
      (summable_geometric_of_lt_one (norm_nonneg _) hq)
    rw [norm_neg, norm_pow]
    exact pow_le_pow_of_le_one (norm_nonneg _) hq.le (by omega)
  have hterm : (fun k : ℕ => (-1) ^ k * (q ^ pentagonal (-(k : ℤ)) - q ^ pentagonal ((k : ℤ) + 1)))
      = term q := by
    funext k
    rw [pent_neg, pent_succ, term]
  have key := _root_.Pentagonal.tprod_one_sub_pow (x := q)
    (tendsto_pow_atTop_nhds_zero_of_norm_lt_one hq) hs hm (hterm ▸ summable_term q hq) (by
      refine squeeze_zero_norm
        (a := fun k => (∑' n, Real.exp (1 / (1 - ‖q‖)) * ‖q‖ ^ n) * ‖q‖ ^ k) (fun k => ?_) ?_
      · rw [norm_mul, norm_mul, norm_pow, norm_neg, norm_one, one_pow, one_mul, norm_pow, mul_comm]
        refine mul_le_mul ?_ ?_ (pow_nonneg (norm_nonneg _) _)
          (tsum_nonneg (fun n => mul_nonneg (Real.exp_pos _).le (pow_nonneg (norm_nonneg _) _)))
        · exact tsum_of_norm_bounded (summable_major q hq).hasSum (term_bound q hq k)
        · refine pow_le_pow_of_le_one (norm_nonneg _) hq.le ?_
          rw [Nat.le_div_iff_mul_le (by omega)]
          nlinarith [Nat.le_mul_self k]
      · have := (tendsto_pow_atTop_nhds_zero_of_lt_one (norm_nonneg q) hq).const_mul
          (∑' n, Real.exp (1 / (1 - ‖q‖)) * ‖q‖ ^ n)
        rwa [mul_zero] at this)
  rw [key, hterm]

/-- What is left after `K` terms. -/
theorem tail_bound (q : ℂ) (hq : ‖q‖ < 1) (K : ℕ) :
    ‖∑ k ∈ Finset.range K, term q k - ∏' n : ℕ, (1 - q ^ (n + 1))‖ ≤
      2 * ‖q‖ ^ (K * (3 * K + 1) / 2) / (1 - ‖q‖) := by
  rw [tprod_eq q hq, ← (summable_term q hq).sum_add_tsum_nat_add K, sub_add_cancel_left, norm_neg]
  have hg := (hasSum_geometric_of_lt_one (norm_nonneg q) hq).mul_left
    (2 * ‖q‖ ^ (K * (3 * K + 1) / 2))
  rw [← div_eq_mul_inv] at hg
  refine tsum_of_norm_bounded hg (fun i => ?_)
  rw [mul_assoc, ← pow_add]
  refine norm_term_le q hq _ _ ?_
  rw [Nat.le_div_iff_mul_le (by omega), add_mul]
  have h1 := Nat.div_mul_le_self (K * (3 * K + 1)) 2
  nlinarith [Nat.le_mul_self i, Nat.zero_le (i * K)]

end Pbc.Pentagonal
