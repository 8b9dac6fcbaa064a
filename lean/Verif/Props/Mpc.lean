/-
C109: the complex floats and the modular function.
-/
import Verif.Model.Mpc
import Verif.Props.Hilbert
import Verif.Lemmas.Pentagonal
import Mathlib.Analysis.SpecialFunctions.Exponential
import Mathlib.Analysis.SpecialFunctions.Trigonometric.Basic

set_option autoImplicit false

namespace Pbc.Hilbert

open Complex

section Ops

/-- The complex numbers held by the variables. -/
def Store.val (σ : Store ℝ) : ℕ → ℂ := fun i => (σ i).toC

theorem Store.upd {σ τ : Store ℝ} {r : ℕ} {w : ℂ} (h1 : (τ r).toC = w) (h2 : ∀ i, i ≠ r → τ i = σ i) :
    τ.val = Function.update σ.val r w := by
  funext i
  by_cases h : i = r
  · subst h; rw [Function.update_self]; exact h1
  · rw [Function.update_of_ne h]
    show (τ i).toC = (σ i).toC
    rw [h2 i h]

/-- Destinations other than `r` are left alone. -/
theorem Store.setA_ne {R : Type*} (σ : Store R) {r i : ℕ} (x : R) (h : i ≠ r) : σ.setA r x i = σ i :=
  if_neg h

theorem Store.setB_ne {R : Type*} (σ : Store R) {r i : ℕ} (x : R) (h : i ≠ r) : σ.setB r x i = σ i :=
  if_neg h

theorem Store.setA_self {R : Type*} (σ : Store R) (r : ℕ) (x : R) : σ.setA r x r = ⟨x, (σ r).b⟩ :=
  if_pos rfl

theorem Store.setB_self {R : Type*} (σ : Store R) (r : ℕ) (x : R) : σ.setB r x r = ⟨(σ r).a, x⟩ :=
  if_pos rfl

theorem Store.setA_b {R : Type*} (σ : Store R) (r i : ℕ) (x : R) : (σ.setA r x i).b = (σ i).b := by
  unfold Store.setA; split_ifs with h
  · rw [h]
  · rfl

theorem Store.setB_a {R : Type*} (σ : Store R) (r i : ℕ) (x : R) : (σ.setB r x i).a = (σ i).a := by
  unfold Store.setB; split_ifs with h
  · rw [h]
  · rfl

/-- **C109**, arithmetic: with exact floats every function computes the complex operation and writes
nothing but its destination, whichever of the arguments are the same variable. -/
theorem C109_ops (σ : Store ℝ) (r x y n e : ℕ) (f : ℝ) :
    (σ.add r x y).val = Function.update σ.val r (σ.val x + σ.val y) ∧
    (σ.sub r x y).val = Function.update σ.val r (σ.val x - σ.val y) ∧
    (σ.mul r x y).val = Function.update σ.val r (σ.val x * σ.val y) ∧
    (σ.neg r x).val = Function.update σ.val r (-σ.val x) ∧
    (σ.conj r x).val = Function.update σ.val r (starRingEnd ℂ (σ.val x)) ∧
    (σ.set r x).val = Function.update σ.val r (σ.val x) ∧
    (σ.setUi r n).val = Function.update σ.val r (n : ℂ) ∧
    (σ.mulUi r x n).val = Function.update σ.val r (σ.val x * n) ∧
    (σ.mulMpf r x f).val = Function.update σ.val r (σ.val x * f) ∧
    (σ.mul2exp r x e).val = Function.update σ.val r (σ.val x * 2 ^ e) ∧
    (σ.sqr r x).val = Function.update σ.val r (σ.val x ^ 2) ∧
    (σ.muli r x).val = Function.update σ.val r (I * σ.val x) := by
  refine ⟨?_, ?_, ?_, ?_, ?_, ?_, ?_, ?_, ?_, ?_, ?_, ?_⟩
  all_goals
    refine Store.upd (Complex.ext ?_ ?_) (fun i h => ?_)
  all_goals
    first
    | (simp only [Store.add, Store.sub, Store.mul, Store.neg, Store.conj, Store.set, Store.setUi,
        Store.mulUi, Store.mulMpf, Store.mul2exp, Store.sqr, Store.muli, Store.setA_ne _ _ h,
        Store.setB_ne _ _ h]; done)
    | skip
  all_goals
    simp only [Store.add, Store.sub, Store.mul, Store.neg, Store.conj, Store.set, Store.setUi,
        Store.mulUi, Store.mulMpf, Store.mul2exp, Store.sqr, Store.muli, Store.setA_self,
        Store.setB_self, Store.setA_b, Store.setB_a, Mpc.toC, Store.val]
  all_goals
    first
    | (simp; done)
    | (simp; ring; done)
    | skip
  · rw [show (2 : ℂ) ^ e = ((2 ^ e : ℝ) : ℂ) by push_cast; rfl, Complex.mul_re, Complex.ofReal_re,
      Complex.ofReal_im, mul_zero, sub_zero]
  · rw [show (2 : ℂ) ^ e = ((2 ^ e : ℝ) : ℂ) by push_cast; rfl, Complex.mul_im, Complex.ofReal_re,
      Complex.ofReal_im, mul_zero, zero_add]
  · rw [pow_two]; simp; ring
  · rw [pow_two]; simp; ring

theorem toC_eq_zero (z : Mpc ℝ) : z.toC = 0 ↔ z.a * z.a + z.b * z.b = 0 := by
  rw [← Complex.normSq_eq_zero, Complex.normSq_apply]
  rfl

theorem inv_toC (z : Mpc ℝ) (h : z.toC ≠ 0) :
    (⟨z.a * (1 / (z.a * z.a + z.b * z.b)), z.b * -(1 / (z.a * z.a + z.b * z.b))⟩ : Mpc ℝ).toC
      = z.toC⁻¹ := by
  apply Complex.ext
  · rw [Complex.inv_re, Complex.normSq_apply]; simp only [Mpc.toC]; ring
  · rw [Complex.inv_im, Complex.normSq_apply]; simp only [Mpc.toC]; ring

/-- **C109**, inversion: the inverse of a nonzero number; for zero the program is stopped. -/
theorem C109_inv (σ : Store ℝ) (r x : ℕ) :
    (σ.val x ≠ 0 → ∃ τ, σ.inv r x = some τ ∧ τ.val = Function.update σ.val r (σ.val x)⁻¹) ∧
    (σ.val x = 0 → σ.inv r x = none) := by
  constructor
  · intro h
    have h0 : ¬ ((σ x).a * (σ x).a + (σ x).b * (σ x).b = 0) := fun h' => h ((toC_eq_zero _).2 h')
    refine ⟨_, by rw [Store.inv]; simp only; rw [if_neg h0], ?_⟩
    refine Store.upd ?_ (fun i hi => ?_)
    · refine Eq.trans ?_ (inv_toC (σ x) h)
      simp only [Store.setA_self, Store.setB_self, Store.setA_b, Mpc.toC]
    · rw [Store.setB_ne _ _ hi, Store.setA_ne _ _ hi]
  · intro h
    rw [Store.inv]
    simp only
    rw [if_pos ((toC_eq_zero _).1 h)]

/-- **C109** for the addition of an integer: only when the destination is the argument. -/
theorem C109_add_ui_partial (σ : Store ℝ) (x n : ℕ) :
    (σ.addUi x x n).val = Function.update σ.val x (σ.val x + n) := by
  refine Store.upd (Complex.ext ?_ ?_) (fun i h => Store.setA_ne _ _ h)
  · simp only [Store.addUi, Store.setA_self, Mpc.toC, Store.val]; simp
  · simp only [Store.addUi, Store.setA_self, Mpc.toC, Store.val]; simp

/-- Otherwise the imaginary part of the destination stays what it was: the result is wrong whenever
the two imaginary parts differ. -/
theorem C109_add_ui_fails (σ : Store ℝ) (r x n : ℕ) (h : (σ.val r).im ≠ (σ.val x).im) :
    (σ.addUi r x n).val r ≠ σ.val x + n := by
  intro he
  apply h
  have := congrArg Complex.im he
  simpa [Store.addUi, Store.setA_self, Mpc.toC, Store.val] using this

end Ops

section Power

theorem powStart_pow (n : ℕ) (hn : n < 2 ^ 31) : ∀ (d k fuel : ℕ), k + d = 32 → d < fuel →
    ∃ K, powStart n fuel (2 ^ k) = some (2 ^ K) ∧ n < 2 ^ K ∧ K ≤ 32 ∨ 2 ^ 32 ≤ 2 ^ k := by
  intro d
  induction d with
  | zero => intro k fuel h1 h2; exact ⟨0, Or.inr (by rw [show k = 32 by omega])⟩
  | succ d ih =>
    intro k fuel h1 h2
    obtain ⟨fuel, rfl⟩ : ∃ f, fuel = f + 1 := ⟨fuel - 1, by omega⟩
    rw [powStart]
    by_cases hk : 2 ^ k ≤ n
    · have hk31 : k < 31 := (Nat.pow_lt_pow_iff_right (by omega)).1 (lt_of_le_of_lt hk hn)
      have hlt : 2 ^ (k + 1) < 2 ^ 32 := Nat.pow_lt_pow_right (by omega) (by omega)
      rw [if_pos hk, Nat.shiftLeft_eq, ← pow_add, Nat.mod_eq_of_lt hlt]
      obtain ⟨K, h | h⟩ := ih (k + 1) fuel (by omega) (by omega)
      · exact ⟨K, Or.inl h⟩
      · omega
    · rw [if_neg hk]
      exact ⟨k, Or.inl ⟨rfl, by omega, by omega⟩⟩

theorem two_pow_and (n i : ℕ) : 2 ^ i &&& n = 2 ^ i * (n.testBit i).toNat := by
  apply Nat.eq_of_testBit_eq
  intro j
  rw [Nat.testBit_and, Nat.testBit_two_pow]
  cases h : n.testBit i
  · simp; rintro rfl; exact h
  · simp only [Bool.toNat_true, mul_one, Nat.testBit_two_pow]
    by_cases hj : i = j
    · subst hj; simp [h]
    · simp [hj]

theorem powLoop_pow (z : Mpc ℝ) (n : ℕ) : ∀ (k fuel : ℕ) (z0 : Mpc ℝ), k + 2 ≤ fuel →
    z0.toC = z.toC ^ (n / 2 ^ (k + 1)) →
    ∃ w, powLoop z n fuel (2 ^ k) z0 = some w ∧ w.toC = z.toC ^ n := by
  intro k
  induction k with
  | zero =>
    intro fuel z0 hf hz
    obtain ⟨fuel, rfl⟩ : ∃ f, fuel = f + 2 := ⟨fuel - 2, by omega⟩
    rw [powLoop, if_neg (by norm_num)]
    simp only
    rw [show 2 ^ 0 >>> 1 = 0 from rfl, powLoop, if_pos rfl]
    refine ⟨_, rfl, ?_⟩
    rw [show 2 ^ 0 &&& n = n % 2 by rw [Nat.and_comm]; exact Nat.and_one_is_mod n]
    rw [zero_add, pow_one] at hz
    split_ifs with h
    · rw [toC_mul, toC_mul, hz, ← pow_add, ← pow_succ]; congr 1; omega
    · rw [toC_mul, hz, ← pow_add]; congr 1; omega
  | succ k ih =>
    intro fuel z0 hf hz
    obtain ⟨fuel, rfl⟩ : ∃ f, fuel = f + 1 := ⟨fuel - 1, by omega⟩
    rw [powLoop, if_neg (by positivity)]
    simp only
    rw [show 2 ^ (k + 1) >>> 1 = 2 ^ k by rw [Nat.shiftRight_eq_div_pow, pow_succ]; simp]
    apply ih fuel _ (by omega)
    have hdiv : n / 2 ^ (k + 1) = 2 * (n / 2 ^ (k + 1 + 1)) + (n.testBit (k + 1)).toNat := by
      rw [pow_succ 2 (k + 1), ← Nat.div_div_eq_div_mul, Nat.testBit_eq_decide_div_mod_eq]
      by_cases h : n / 2 ^ (k + 1) % 2 = 1
      · simp [h]; omega
      · simp [h]; omega
    rw [two_pow_and, hdiv]
    cases n.testBit (k + 1)
    · simp only [Bool.toNat_false, mul_zero, ne_eq, not_true_eq_false, if_false, add_zero]
      rw [toC_mul, hz, ← pow_add]; congr 1; omega
    · have : ¬ (2 : ℕ) ^ (k + 1) * true.toNat = 0 := by simp
      rw [if_pos this, toC_mul, toC_mul, hz, ← pow_add, ← pow_succ, Bool.toNat_true]
      congr 1; omega

/-- **C109**, powers: `z ^ n` for `n < 2 ^ 31`. -/
theorem C109_pow_partial (z : Mpc ℝ) (n fuel : ℕ) (hn : n < 2 ^ 31) (hf : 34 ≤ fuel) :
    ∃ w, powUi fuel z n = some w ∧ w.toC = z.toC ^ n := by
  obtain ⟨K, h | h⟩ := powStart_pow n hn 32 0 fuel (by omega) (by omega)
  · rw [pow_zero] at h
    rw [powUi, h.1]
    simp only
    have h1 : (⟨1, 0⟩ : Mpc ℝ).toC = 1 := rfl
    cases K with
    | zero =>
      have : n = 0 := by have h2 := h.2.1; simpa using h2
      subst this
      obtain ⟨fuel, rfl⟩ : ∃ f, fuel = f + 1 := ⟨fuel - 1, by omega⟩
      rw [show 2 ^ 0 >>> 1 = 0 from rfl, powLoop, if_pos rfl]
      exact ⟨_, rfl, by rw [h1, pow_zero]⟩
    | succ k =>
      rw [show 2 ^ (k + 1) >>> 1 = 2 ^ k by rw [Nat.shiftRight_eq_div_pow, pow_succ]; simp]
      refine powLoop_pow z n k fuel _ (by omega) ?_
      rw [h1, Nat.div_eq_of_lt h.2.1, pow_zero]
  · norm_num at h

/-- **C109** fails for larger exponents: the search for the leading bit wraps to zero and never
ends. -/
theorem C109_pow_fails (z : Mpc ℝ) (n fuel : ℕ) (hn : 2 ^ 31 ≤ n) : powUi fuel z n = none := by
  have hz : ∀ fuel, powStart n fuel 0 = none := by
    intro fuel
    induction fuel with
    | zero => rfl
    | succ f ih => rw [powStart, if_pos (Nat.zero_le _)]; simpa using ih
  have hk : ∀ (d k fuel : ℕ), k + d = 31 → powStart n fuel (2 ^ k) = none := by
    intro d
    induction d with
    | zero =>
      intro k fuel h
      obtain rfl : k = 31 := by omega
      cases fuel with
      | zero => rfl
      | succ f => rw [powStart, if_pos hn]; exact hz f
    | succ d ih =>
      intro k fuel h
      cases fuel with
      | zero => rfl
      | succ f =>
        have h1 : 2 ^ k ≤ 2 ^ 31 := Nat.pow_le_pow_right (by omega) (by omega)
        have hlt : 2 ^ (k + 1) < 2 ^ 32 := Nat.pow_lt_pow_right (by omega) (by omega)
        rw [powStart, if_pos (h1.trans hn), Nat.shiftLeft_eq, ← pow_add, Nat.mod_eq_of_lt hlt]
        exact ih (k + 1) f (by omega)
  rw [powUi, show (1 : ℕ) = 2 ^ 0 from rfl, hk 31 0 fuel rfl]

end Power

section Exp

/-- The tail of the exponential series. -/
theorem exp_tail (y : ℝ) (hy : 0 ≤ y) (n : ℕ) :
    Real.exp y - ∑ m ∈ Finset.range n, y ^ m / m.factorial ≤ y ^ n / n.factorial * Real.exp y := by
  have hs := Real.summable_pow_div_factorial y
  have he : Real.exp y = ∑' m : ℕ, y ^ m / m.factorial := by
    rw [Real.exp_eq_exp_ℝ, NormedSpace.exp_eq_tsum_div]
  have hsplit := hs.sum_add_tsum_nat_add n
  have hle : ∑' m : ℕ, y ^ (m + n) / ((m + n).factorial : ℝ) ≤
      ∑' m : ℕ, y ^ n / n.factorial * (y ^ m / m.factorial) := by
    refine Summable.tsum_le_tsum (fun m => ?_) ((summable_nat_add_iff n).2 hs) (hs.mul_left _)
    rw [div_mul_div_comm, ← pow_add, add_comm n m]
    refine div_le_div_of_nonneg_left (by positivity) (by positivity) ?_
    have := Nat.le_of_dvd (Nat.factorial_pos _) (Nat.factorial_mul_factorial_dvd_factorial_add m n)
    rw [mul_comm] at this
    exact_mod_cast this
  rw [tsum_mul_left, ← he] at hle
  linarith

theorem cexp_tail (x : ℂ) (n : ℕ) :
    ‖cexp x - ∑ m ∈ Finset.range n, x ^ m / m.factorial‖ ≤
      ‖x‖ ^ n / n.factorial * Real.exp ‖x‖ :=
  (Complex.norm_exp_sub_sum_le_exp_norm_sub_sum x n).trans (exp_tail _ (norm_nonneg _) n)

theorem small_iff (eps f : ℝ) (he : 0 < eps) : small eps f = true ↔ |f| < eps := by
  unfold small
  split_ifs with h
  · rw [decide_eq_true_eq, abs_of_pos h]
  · rw [decide_eq_true_eq, abs_of_nonpos (by linarith)]
    constructor <;> intro h' <;> linarith

theorem exists_small (eps y : ℝ) (he : 0 < eps) : ∃ N, ∀ n ≥ N, |y ^ n / (n.factorial : ℝ)| < eps := by
  have h := (Real.summable_pow_div_factorial y).tendsto_atTop_zero
  obtain ⟨N, hN⟩ := (Metric.tendsto_atTop.1 h) eps he
  exact ⟨N, fun n hn => by simpa [Real.dist_eq, abs_div] using hN n hn⟩

theorem expLoop_spec (eps a : ℝ) (he : 0 < eps) (N : ℕ) (hN : |a ^ N / (N.factorial : ℝ)| < eps) :
    ∀ (d i fuel : ℕ), 1 ≤ i → i + d = N → d < fuel →
    ∃ r, expLoop eps a fuel i (a ^ (i - 1) / ((i - 1).factorial : ℝ))
      (∑ m ∈ Finset.range i, a ^ m / m.factorial) = some r ∧
      |r - Real.exp a| ≤ eps * Real.exp |a| := by
  have hterm : ∀ i : ℕ, 1 ≤ i → a ^ (i - 1) / ((i - 1).factorial : ℝ) * a / (i : ℝ) =
      a ^ i / (i.factorial : ℝ) := by
    intro i hi
    obtain ⟨j, rfl⟩ : ∃ j, i = j + 1 := ⟨i - 1, by omega⟩
    rw [Nat.add_sub_cancel, Nat.factorial_succ, pow_succ]
    push_cast
    have : ((j : ℝ) + 1) ≠ 0 := by positivity
    field_simp
  have hret : ∀ i : ℕ, |a ^ i / (i.factorial : ℝ)| < eps →
      |(∑ m ∈ Finset.range i, a ^ m / (m.factorial : ℝ)) - Real.exp a| ≤ eps * Real.exp |a| := by
    intro i hs
    have h1 := cexp_tail (a : ℂ) i
    have h2 : cexp (a : ℂ) - ∑ m ∈ Finset.range i, (a : ℂ) ^ m / m.factorial =
        ((Real.exp a - ∑ m ∈ Finset.range i, a ^ m / (m.factorial : ℝ) : ℝ) : ℂ) := by
      push_cast; rfl
    rw [h2, Complex.norm_real, Complex.norm_real, Real.norm_eq_abs, Real.norm_eq_abs] at h1
    rw [abs_sub_comm]
    refine h1.trans (mul_le_mul_of_nonneg_right ?_ (Real.exp_pos _).le)
    rw [abs_div, abs_pow, Nat.abs_cast] at hs
    exact hs.le
  intro d
  induction d with
  | zero =>
    intro i fuel hi h hf
    obtain ⟨fuel, rfl⟩ : ∃ f, fuel = f + 1 := ⟨fuel - 1, by omega⟩
    obtain rfl : i = N := by omega
    rw [expLoop]
    rw [hterm i hi, if_pos ((small_iff _ _ he).2 hN)]
    exact ⟨_, rfl, hret i hN⟩
  | succ d ih =>
    intro i fuel hi h hf
    obtain ⟨fuel, rfl⟩ : ∃ f, fuel = f + 1 := ⟨fuel - 1, by omega⟩
    rw [expLoop]
    rw [hterm i hi]
    split_ifs with hs
    · exact ⟨_, rfl, hret i ((small_iff _ _ he).1 hs)⟩
    · have := ih (i + 1) fuel (by omega) (by omega) (by omega)
      rwa [Nat.add_sub_cancel, Finset.sum_range_succ] at this

/-- **C109**, the exponential: the loop ends, and the result is off by at most `ε e^|a|`. -/
theorem C109_exp (eps a : ℝ) (he : 0 < eps) : ∃ N, ∀ fuel ≥ N, ∃ r, mpfExp fuel eps a = some r ∧
    |r - Real.exp a| ≤ eps * Real.exp |a| := by
  obtain ⟨N, hN⟩ := exists_small eps a he
  refine ⟨N + 3, fun fuel hf => ?_⟩
  have := expLoop_spec eps a he (N + 2) (hN _ (by omega)) N 2 fuel (by omega) (by omega) (by omega)
  simpa [mpfExp, Finset.sum_range_succ, add_comm] using this

theorem eulerLoop_spec (eps : ℝ) (N : ℕ) (hN : |(1 : ℝ) ^ N / (N.factorial : ℝ)| < eps) :
    ∀ (d i fuel : ℕ), 1 ≤ i → i + d = N → d < fuel →
    ∃ r, eulerLoop eps fuel i (1 / ((i - 1).factorial : ℝ))
      (∑ m ∈ Finset.range i, 1 / (m.factorial : ℝ)) = some r ∧
      |r - Real.exp 1| ≤ eps * Real.exp 1 := by
  have hterm : ∀ i : ℕ, 1 ≤ i → 1 / ((i - 1).factorial : ℝ) / (i : ℝ) = 1 / (i.factorial : ℝ) := by
    intro i hi
    obtain ⟨j, rfl⟩ : ∃ j, i = j + 1 := ⟨i - 1, by omega⟩
    rw [Nat.add_sub_cancel, Nat.factorial_succ]
    push_cast
    have : ((j : ℝ) + 1) ≠ 0 := by positivity
    field_simp
  have hret : ∀ i : ℕ, 1 / (i.factorial : ℝ) < eps →
      |(∑ m ∈ Finset.range i, 1 / (m.factorial : ℝ)) - Real.exp 1| ≤ eps * Real.exp 1 := by
    intro i hs
    have h1 := exp_tail 1 zero_le_one i
    have h0 := Real.sum_le_exp_of_nonneg zero_le_one i
    simp only [one_pow] at h1 h0
    rw [abs_sub_comm, abs_of_nonneg (by linarith)]
    exact h1.trans (mul_le_mul_of_nonneg_right hs.le (Real.exp_pos _).le)
  rw [one_pow, abs_of_nonneg (by positivity)] at hN
  intro d
  induction d with
  | zero =>
    intro i fuel hi h hf
    obtain ⟨fuel, rfl⟩ : ∃ f, fuel = f + 1 := ⟨fuel - 1, by omega⟩
    obtain rfl : i = N := by omega
    rw [eulerLoop]
    rw [hterm i hi, if_pos hN]
    exact ⟨_, rfl, hret i hN⟩
  | succ d ih =>
    intro i fuel hi h hf
    obtain ⟨fuel, rfl⟩ : ∃ f, fuel = f + 1 := ⟨fuel - 1, by omega⟩
    rw [eulerLoop]
    rw [hterm i hi]
    split_ifs with hs
    · exact ⟨_, rfl, hret i hs⟩
    · have := ih (i + 1) fuel (by omega) (by omega) (by omega)
      rwa [Nat.add_sub_cancel, Finset.sum_range_succ] at this

/-- **C109**, the constant `e`. -/
theorem C109_euler (eps : ℝ) (he : 0 < eps) : ∃ N, ∀ fuel ≥ N, ∃ r, eulere fuel eps = some r ∧
    |r - Real.exp 1| ≤ eps * Real.exp 1 := by
  obtain ⟨N, hN⟩ := exists_small eps 1 he
  refine ⟨N + 2, fun fuel hf => ?_⟩
  have := eulerLoop_spec eps (N + 1) (hN _ (by omega)) N 1 fuel (by omega) (by omega) (by omega)
  simpa [eulere] using this

theorem cisLoop_spec (eps a : ℝ) (he : 0 < eps) (N : ℕ)
    (hN : ∀ n ≥ N, |a ^ n / (n.factorial : ℝ)| < eps) :
    ∀ (d k fuel : ℕ) (z : Mpc ℝ), k + d = N → d < fuel →
    z.toC = ∑ m ∈ Finset.range (2 * k + 2), ((a : ℂ) * I) ^ m / m.factorial →
    ∃ w, cisLoop eps a fuel (decide (k % 2 = 0)) (2 * k + 1)
      (a ^ (2 * k + 1) / ((2 * k + 1).factorial : ℝ)) z = some w ∧
      ‖w.toC - cexp (a * I)‖ ≤ eps * (|a| * Real.exp |a|) := by
  have hterm : ∀ i : ℕ, a ^ i / (i.factorial : ℝ) / ((i + 1 : ℕ) : ℝ) * a =
      a ^ (i + 1) / ((i + 1).factorial : ℝ) := by
    intro i
    rw [Nat.factorial_succ, pow_succ]
    push_cast
    have : ((i : ℝ) + 1) ≠ 0 := by positivity
    field_simp
  have hsum : ∀ (k : ℕ) (z : Mpc ℝ),
      z.toC = ∑ m ∈ Finset.range (2 * k + 2), ((a : ℂ) * I) ^ m / m.factorial →
      (⟨if (!decide (k % 2 = 0)) = true then z.a + a ^ (2 * k + 1 + 1) / ((2 * k + 1 + 1).factorial : ℝ)
          else z.a - a ^ (2 * k + 1 + 1) / ((2 * k + 1 + 1).factorial : ℝ),
        if (!decide (k % 2 = 0)) = true then
          z.b + a ^ (2 * k + 1 + 1 + 1) / ((2 * k + 1 + 1 + 1).factorial : ℝ)
          else z.b - a ^ (2 * k + 1 + 1 + 1) / ((2 * k + 1 + 1 + 1).factorial : ℝ)⟩ : Mpc ℝ).toC =
      ∑ m ∈ Finset.range (2 * (k + 1) + 2), ((a : ℂ) * I) ^ m / m.factorial := by
    intro k z hz
    rw [show 2 * (k + 1) + 2 = 2 * k + 2 + 1 + 1 by ring, Finset.sum_range_succ,
      Finset.sum_range_succ, ← hz]
    have hI : I ^ (2 * k) = (-1) ^ k := by rw [pow_mul, I_sq]
    have h2 : ((a : ℂ) * I) ^ (2 * k + 2) = ((-((-1) ^ k * a ^ (2 * k + 2)) : ℝ) : ℂ) := by
      rw [mul_pow, pow_add I, hI, I_sq]; push_cast; ring
    have h3 : ((a : ℂ) * I) ^ (2 * k + 2 + 1) =
        ((-((-1) ^ k * a ^ (2 * k + 2 + 1)) : ℝ) : ℂ) * I := by
      rw [mul_pow, pow_add I, pow_add I, hI, I_sq]; push_cast; ring
    have hk : ((-1 : ℝ)) ^ k = if k % 2 = 0 then 1 else -1 := by
      split_ifs with h
      · exact Even.neg_one_pow (Nat.even_iff.2 h)
      · exact Odd.neg_one_pow (Nat.odd_iff.2 (by omega))
    rw [h2, h3, hk]
    rw [show (((2 * k + 2).factorial : ℕ) : ℂ) = (((2 * k + 2).factorial : ℝ) : ℂ) by push_cast; rfl,
      show (((2 * k + 2 + 1).factorial : ℕ) : ℂ) = (((2 * k + 2 + 1).factorial : ℝ) : ℂ) by
        push_cast; rfl, mul_div_right_comm, ← Complex.ofReal_div, ← Complex.ofReal_div]
    rw [show 2 * k + 1 + 1 = 2 * k + 2 from rfl, neg_div, neg_div, mul_div_assoc, mul_div_assoc]
    generalize a ^ (2 * k + 2) / ((2 * k + 2).factorial : ℝ) = u
    generalize a ^ (2 * k + 2 + 1) / ((2 * k + 2 + 1).factorial : ℝ) = v
    by_cases h : k % 2 = 0
    · apply Complex.ext
      · simp [Mpc.toC, h]; ring
      · simp [Mpc.toC, h]; ring
    · apply Complex.ext
      · simp [Mpc.toC, h]
      · simp [Mpc.toC, h]
  have hret : ∀ (k : ℕ) (z : Mpc ℝ),
      z.toC = ∑ m ∈ Finset.range (2 * k + 2), ((a : ℂ) * I) ^ m / m.factorial →
      |a ^ (2 * k + 1) / ((2 * k + 1).factorial : ℝ)| < eps →
      ‖z.toC - cexp (a * I)‖ ≤ eps * (|a| * Real.exp |a|) := by
    intro k z hz hs
    rw [hz, norm_sub_rev]
    refine (cexp_tail _ _).trans ?_
    rw [norm_mul, Complex.norm_I, mul_one, Complex.norm_real, Real.norm_eq_abs, ← mul_assoc]
    refine mul_le_mul_of_nonneg_right ?_ (Real.exp_pos _).le
    rw [abs_div, abs_pow, Nat.abs_cast] at hs
    have hf : ((2 * k + 2).factorial : ℝ) = (2 * k + 2 : ℝ) * ((2 * k + 1).factorial : ℝ) := by
      rw [Nat.factorial_succ]; push_cast; ring
    rw [hf, pow_succ, mul_comm (2 * (k : ℝ) + 2), mul_div_mul_comm]
    refine mul_le_mul hs.le (div_le_self (abs_nonneg _) ?_) (by positivity) he.le
    have : (0 : ℝ) ≤ k := Nat.cast_nonneg k
    linarith
  intro d
  induction d with
  | zero =>
    intro k fuel z hk hf hz
    obtain ⟨fuel, rfl⟩ : ∃ f, fuel = f + 1 := ⟨fuel - 1, by omega⟩
    rw [cisLoop]
    rw [hterm, hterm, if_pos ((small_iff _ _ he).2 (hN _ (by omega)))]
    exact ⟨_, rfl, hret (k + 1) _ (hsum k z hz) (hN _ (by omega))⟩
  | succ d ih =>
    intro k fuel z hk hf hz
    obtain ⟨fuel, rfl⟩ : ∃ f, fuel = f + 1 := ⟨fuel - 1, by omega⟩
    rw [cisLoop]
    rw [hterm, hterm]
    by_cases hs : small eps (a ^ (2 * k + 1 + 1 + 1) / ((2 * k + 1 + 1 + 1).factorial : ℝ)) = true
    · rw [if_pos hs]
      exact ⟨_, rfl, hret (k + 1) _ (hsum k z hz) ((small_iff _ _ he).1 hs)⟩
    · rw [if_neg hs]
      have := ih (k + 1) fuel _ (by omega) (by omega) (hsum k z hz)
      rwa [show decide ((k + 1) % 2 = 0) = !decide (k % 2 = 0) by
        by_cases h : k % 2 = 0
        · simp [h]; omega
        · simp [h]; omega] at this

/-- **C109**, `cos θ + i sin θ`. -/
theorem C109_cis (eps a : ℝ) (he : 0 < eps) : ∃ N, ∀ fuel ≥ N, ∃ w, mpcCis fuel eps a = some w ∧
    ‖w.toC - cexp (a * I)‖ ≤ eps * (|a| * Real.exp |a|) := by
  obtain ⟨N, hN⟩ := exists_small eps a he
  refine ⟨N + 1, fun fuel hf => ?_⟩
  have := cisLoop_spec eps a he N hN N 0 fuel ⟨1, a⟩ (by omega) (by omega) (by
    apply Complex.ext
    · simp [Finset.sum_range_succ, Mpc.toC]
    · simp [Finset.sum_range_succ, Mpc.toC])
  simpa [mpcCis] using this

end Exp

section Modular

theorem trunc_abs (x : ℝ) : |x - (trunc x : ℝ)| ≤ 1 := by
  unfold trunc
  split_ifs with h
  · have h1 := Int.le_ceil x
    have h2 := Int.ceil_lt_add_one x
    rw [abs_le]; constructor <;> linarith
  · have h1 := Int.floor_le x
    have h2 := Int.lt_floor_add_one x
    rw [abs_le]; constructor <;> linarith

/-- **C109**, `q = exp (2 π i τ)`: with the exact constants `π` and `1 / e` the computation ends and
its error is a multiple of `ε`. -/
theorem C109_q_partial (eps : ℝ) (he : 0 < eps) (t : Mpc ℝ) (ht : 0 < t.b) :
    ∃ N, ∀ fuel ≥ N, ∃ w, computeQ fuel eps Real.pi (Real.exp (-1)) t = some w ∧
      ‖w.toC - cexp (2 * Real.pi * I * t.toC)‖ ≤
        eps * (Real.exp 1 + (1 + eps * Real.exp 1) * (2 * Real.pi * Real.exp (2 * Real.pi))) := by
  obtain ⟨x, hx⟩ : ∃ x, x = -(t.b * Real.pi * ((2 : ℕ) : ℝ)) := ⟨_, rfl⟩
  obtain ⟨θ, hθ⟩ : ∃ θ, θ = (t.a - (trunc t.a : ℝ)) * Real.pi * ((2 : ℕ) : ℝ) := ⟨_, rfl⟩
  obtain ⟨k, hk⟩ : ∃ k, k = (trunc x).natAbs := ⟨_, rfl⟩
  have hpi := Real.pi_pos
  have hx0 : x < 0 := by
    rw [hx]; have : 0 < t.b * Real.pi * ((2 : ℕ) : ℝ) := by positivity
    linarith
  have hkx : (k : ℝ) = -(⌈x⌉ : ℝ) := by
    have h1 : trunc x = ⌈x⌉ := if_pos hx0
    have h2 : ⌈x⌉ ≤ 0 := Int.ceil_le.2 (by simpa using hx0.le)
    have h3 : (k : ℤ) = -⌈x⌉ := by rw [hk, h1]; omega
    exact_mod_cast h3
  have ha : |x + k| ≤ 1 := by
    have h1 := Int.le_ceil x
    have h2 := Int.ceil_lt_add_one x
    rw [hkx, abs_le]; constructor <;> linarith
  have hθ' : |θ| ≤ 2 * Real.pi := by
    rw [hθ, abs_mul, abs_mul, abs_of_pos hpi, Nat.abs_cast]
    have := trunc_abs t.a
    have h2 : |t.a - (trunc t.a : ℝ)| * Real.pi ≤ 1 * Real.pi :=
      mul_le_mul_of_nonneg_right this hpi.le
    push_cast; linarith
  obtain ⟨N1, h1⟩ := C109_exp eps (x + k) he
  obtain ⟨N2, h2⟩ := C109_cis eps θ he
  refine ⟨max N1 N2, fun fuel hf => ?_⟩
  obtain ⟨E, hE, hE'⟩ := h1 fuel ((le_max_left _ _).trans hf)
  obtain ⟨c, hc, hc'⟩ := h2 fuel ((le_max_right _ _).trans hf)
  refine ⟨⟨c.a * (E * Real.exp (-1) ^ k), c.b * (E * Real.exp (-1) ^ k)⟩, ?_, ?_⟩
  · unfold computeQ
    simp only [← hx, ← hθ, ← hk, hE, hc]
  have hexp : cexp (2 * Real.pi * I * t.toC) = ((Real.exp (x + k) * Real.exp (-1) ^ k : ℝ) : ℂ) *
      cexp (θ * I) := by
    have e1 : Real.exp (x + k) * Real.exp (-1) ^ k = Real.exp x := by
      rw [← Real.exp_nat_mul, ← Real.exp_add]; congr 1; ring
    rw [e1, Complex.ofReal_exp, ← Complex.exp_add]
    have e2 : 2 * Real.pi * I * t.toC = ((x : ℂ) + θ * I) + (trunc t.a : ℤ) * (2 * Real.pi * I) := by
      apply Complex.ext
      · simp [Mpc.toC, hx, hθ]; ring
      · simp [Mpc.toC, hx, hθ]; ring
    rw [e2, Complex.exp_add, Complex.exp_int_mul_two_pi_mul_I, mul_one]
  have hw : (⟨c.a * (E * Real.exp (-1) ^ k), c.b * (E * Real.exp (-1) ^ k)⟩ : Mpc ℝ).toC =
      ((E * Real.exp (-1) ^ k : ℝ) : ℂ) * c.toC := by
    apply Complex.ext
    · rw [Complex.mul_re, Complex.ofReal_re, Complex.ofReal_im]; simp only [Mpc.toC]; ring
    · rw [Complex.mul_im, Complex.ofReal_re, Complex.ofReal_im]; simp only [Mpc.toC]; ring
  have hrk : 0 < Real.exp (-1) ^ k ∧ Real.exp (-1) ^ k ≤ 1 := by
    refine ⟨by positivity, pow_le_one₀ (Real.exp_pos _).le ?_⟩
    rw [Real.exp_le_one_iff]; norm_num
  have hcis : ‖cexp (θ * I)‖ = 1 := Complex.norm_exp_ofReal_mul_I θ
  have hea : Real.exp |x + k| ≤ Real.exp 1 := Real.exp_le_exp.2 ha
  have hE1 : |E - Real.exp (x + k)| ≤ eps * Real.exp 1 :=
    hE'.trans (mul_le_mul_of_nonneg_left hea he.le)
  have hxk : Real.exp (x + k) ≤ 1 := by
    rw [Real.exp_le_one_iff, hkx]; have := Int.le_ceil x; linarith
  have hE2 : |E| ≤ 1 + eps * Real.exp 1 := by
    have h3 := abs_le.1 hE1
    have := Real.exp_pos (x + k)
    have he1 := mul_pos he (Real.exp_pos 1)
    rw [abs_le]; constructor <;> linarith
  have hc2 : ‖c.toC - cexp (θ * I)‖ ≤ eps * (2 * Real.pi * Real.exp (2 * Real.pi)) := by
    refine hc'.trans (mul_le_mul_of_nonneg_left ?_ he.le)
    exact mul_le_mul hθ' (Real.exp_le_exp.2 hθ') (Real.exp_pos _).le (by positivity)
  rw [hw, hexp]
  have hsplit : ((E * Real.exp (-1) ^ k : ℝ) : ℂ) * c.toC -
      ((Real.exp (x + k) * Real.exp (-1) ^ k : ℝ) : ℂ) * cexp (θ * I) =
      ((Real.exp (-1) ^ k : ℝ) : ℂ) * (((E : ℝ) : ℂ) * (c.toC - cexp (θ * I)) +
        ((E - Real.exp (x + k) : ℝ) : ℂ) * cexp (θ * I)) := by
    rw [Complex.ofReal_mul, Complex.ofReal_mul, Complex.ofReal_sub]; ring
  rw [hsplit, norm_mul, Complex.norm_real, Real.norm_eq_abs, abs_of_pos hrk.1]
  have hin : ‖((E : ℝ) : ℂ) * (c.toC - cexp (θ * I)) +
        ((E - Real.exp (x + k) : ℝ) : ℂ) * cexp (θ * I)‖ ≤
      (1 + eps * Real.exp 1) * (eps * (2 * Real.pi * Real.exp (2 * Real.pi))) + eps * Real.exp 1 := by
    refine (norm_add_le _ _).trans (add_le_add ?_ ?_)
    · rw [norm_mul, Complex.norm_real, Real.norm_eq_abs]
      exact mul_le_mul hE2 hc2 (norm_nonneg _) ((abs_nonneg _).trans hE2)
    · rw [norm_mul, hcis, mul_one, Complex.norm_real, Real.norm_eq_abs]
      exact hE1
  calc _ ≤ 1 * ((1 + eps * Real.exp 1) * (eps * (2 * Real.pi * Real.exp (2 * Real.pi)))
          + eps * Real.exp 1) := mul_le_mul hrk.2 hin (norm_nonneg _) zero_le_one
    _ = _ := by ring

/-- The sum that `compute_Delta` forms. -/
noncomputable def eulerSum (q : ℂ) (n k : ℕ) : ℂ :=
  ∑ i ∈ Finset.range k, (-1) ^ (n + i) *
    (q ^ ((n + i) * (3 * (n + i) - 1) / 2) + q ^ ((n + i) * (3 * (n + i) - 1) / 2 + (n + i)))

theorem deltaLoop_spec (fuel : ℕ) (hf : 34 ≤ fuel) (q : Mpc ℝ) : ∀ (k n : ℕ) (z0 : Mpc ℝ),
    n + k ≤ 100 → ∃ w, deltaLoop fuel q k n (decide (n % 2 = 1)) z0 = some w ∧
      w.toC = z0.toC + eulerSum q.toC n k := by
  intro k
  induction k with
  | zero => intro n z0 h; exact ⟨z0, rfl, by simp [eulerSum]⟩
  | succ k ih =>
    intro n z0 h
    have hp : n * (3 * n - 1) / 2 < 2 ^ 31 := by
      have : n * (3 * n - 1) ≤ 100 * 300 := Nat.mul_le_mul (by omega) (by omega)
      omega
    obtain ⟨z1, e1, h1⟩ := C109_pow_partial q (n * (3 * n - 1) / 2) fuel hp hf
    obtain ⟨z2, e2, h2⟩ := C109_pow_partial q n fuel (by omega) hf
    have hpar : decide ((n + 1) % 2 = 1) = !decide (n % 2 = 1) := by
      by_cases hn : n % 2 = 1
      · simp [hn]; omega
      · simp [hn]; omega
    have hstep : eulerSum q.toC n (k + 1) = (-1) ^ n * (q.toC ^ (n * (3 * n - 1) / 2) +
        q.toC ^ (n * (3 * n - 1) / 2 + n)) + eulerSum q.toC (n + 1) k := by
      rw [eulerSum, Finset.sum_range_succ', add_comm, eulerSum]
      simp only [add_zero]
      congr 1
      refine Finset.sum_congr rfl (fun i _ => ?_)
      rw [show n + (i + 1) = n + 1 + i by ring]
    rw [deltaLoop, e1, e2]
    simp only
    by_cases hn : n % 2 = 1
    · obtain ⟨w, e, hw⟩ := ih (n + 1) ⟨z0.a - (z1.add (z2.mul z1)).a, z0.b - (z1.add (z2.mul z1)).b⟩
        (by omega)
      rw [hpar] at e
      rw [show decide (n % 2 = 1) = true by simpa using hn] at e ⊢
      refine ⟨w, e, ?_⟩
      rw [hw, hstep, Odd.neg_one_pow (Nat.odd_iff.2 hn), pow_add, ← h1, ← h2, mul_comm z1.toC,
        ← toC_mul, ← toC_add]
      have : (⟨z0.a - (z1.add (z2.mul z1)).a, z0.b - (z1.add (z2.mul z1)).b⟩ : Mpc ℝ).toC =
        z0.toC - (z1.add (z2.mul z1)).toC := rfl
      rw [this]; ring
    · obtain ⟨w, e, hw⟩ := ih (n + 1) (z0.add (z1.add (z2.mul z1))) (by omega)
      rw [hpar] at e
      rw [show decide (n % 2 = 1) = false by simpa using hn] at e ⊢
      refine ⟨w, e, ?_⟩
      rw [hw, hstep, Even.neg_one_pow (Nat.even_iff.2 (by omega)), pow_add, ← h1, ← h2,
        mul_comm z1.toC, ← toC_mul, ← toC_add, one_mul, toC_add z0]
      ring

theorem eulerSum_eq (q : ℂ) : 1 + eulerSum q 1 99 =
    ∑ k ∈ Finset.range 100, Pbc.Pentagonal.term q k - q ^ 14950 := by
  have key : ∀ K : ℕ, 1 + eulerSum q 1 K = ∑ k ∈ Finset.range (K + 1), Pbc.Pentagonal.term q k
      + (-1) ^ K * q ^ ((K + 1) * (3 * K + 2) / 2) := by
    intro K
    induction K with
    | zero => simp [eulerSum, Pbc.Pentagonal.term]
    | succ K ih =>
      have hs : eulerSum q 1 (K + 1) = eulerSum q 1 K + (-1) ^ (1 + K) *
          (q ^ ((1 + K) * (3 * (1 + K) - 1) / 2) + q ^ ((1 + K) * (3 * (1 + K) - 1) / 2 + (1 + K))) := by
        rw [eulerSum, Finset.sum_range_succ]; rfl
      have e1 : (1 + K) * (3 * (1 + K) - 1) / 2 = (K + 1) * (3 * K + 2) / 2 := by
        rw [show 3 * (1 + K) - 1 = 3 * K + 2 by omega, add_comm 1 K]
      have e2 : (K + 1) * (3 * K + 2) / 2 + (1 + K) = (K + 1) * (3 * (K + 1) + 1) / 2 := by
        rw [show (K + 1) * (3 * (K + 1) + 1) = (K + 1) * (3 * K + 2) + 2 * (1 + K) by ring]
        omega
      rw [hs, e1, e2, ← add_assoc, ih, Finset.sum_range_succ _ (K + 1)]
      rw [Pbc.Pentagonal.term]
      ring
  rw [key 99]
  norm_num
  ring

/-- **C109**, `Δ`: the loop computes `q S^24`, where `S` agrees with Euler's product `∏ (1 - q^n)`
up to `q` to the power 14950. -/
theorem C109_delta (fuel : ℕ) (hf : 34 ≤ fuel) (q : Mpc ℝ) (hq : ‖q.toC‖ < 1) :
    ∃ (w : Mpc ℝ) (S : ℂ), computeDelta fuel q = some w ∧ w.toC = q.toC * S ^ 24 ∧
      ‖S - ∏' n : ℕ, (1 - q.toC ^ (n + 1))‖ ≤ 3 * ‖q.toC‖ ^ 14950 / (1 - ‖q.toC‖) := by
  obtain ⟨z0, e0, h0⟩ := deltaLoop_spec fuel hf q 99 1 ⟨1, 0⟩ (by omega)
  obtain ⟨z1, e1, h1⟩ := C109_pow_partial z0 24 fuel (by norm_num) hf
  refine ⟨z1.mul q, z0.toC, ?_, by rw [toC_mul, h1, mul_comm], ?_⟩
  · rw [computeDelta]
    rw [show decide (1 % 2 = 1) = true from rfl] at e0
    rw [e0]
    simp only [e1]
  · have hone : (⟨1, 0⟩ : Mpc ℝ).toC = 1 := rfl
    rw [h0, hone, eulerSum_eq]
    have ht := Pbc.Pentagonal.tail_bound q.toC hq 100
    have hpos : 0 < 1 - ‖q.toC‖ := by linarith
    have hn := norm_nonneg q.toC
    generalize hT : ∑ k ∈ Finset.range 100, Pbc.Pentagonal.term q.toC k = T at ht ⊢
    generalize hP : ∏' n : ℕ, (1 - q.toC ^ (n + 1)) = P at ht ⊢
    have h15 : ‖q.toC‖ ^ (100 * (3 * 100 + 1) / 2) ≤ ‖q.toC‖ ^ 14950 :=
      pow_le_pow_of_le_one hn hq.le (by norm_num)
    have h2 : 2 * ‖q.toC‖ ^ (100 * (3 * 100 + 1) / 2) / (1 - ‖q.toC‖) ≤
        2 * ‖q.toC‖ ^ 14950 / (1 - ‖q.toC‖) := by gcongr
    have h3 : ‖q.toC‖ ^ 14950 ≤ ‖q.toC‖ ^ 14950 / (1 - ‖q.toC‖) :=
      le_div_self (by positivity) hpos (by linarith)
    have h4 : ‖T - q.toC ^ 14950 - P‖ ≤ ‖T - P‖ + ‖q.toC‖ ^ 14950 := by
      rw [show T - q.toC ^ 14950 - P = (T - P) - q.toC ^ 14950 by ring]
      refine (norm_sub_le _ _).trans ?_
      rw [norm_pow]
    calc _ ≤ _ := h4
      _ ≤ 2 * ‖q.toC‖ ^ 14950 / (1 - ‖q.toC‖) + ‖q.toC‖ ^ 14950 / (1 - ‖q.toC‖) := by linarith
      _ = _ := by ring

theorem div_toC (z w : Mpc ℝ) (h : w.toC ≠ 0) : ∃ v, z.div w = some v ∧ v.toC = z.toC / w.toC := by
  have h0 : ¬ (w.a * w.a + w.b * w.b = 0) := fun h' => h ((toC_eq_zero _).2 h')
  refine ⟨z.mul ⟨w.a * (1 / (w.a * w.a + w.b * w.b)), w.b * -(1 / (w.a * w.a + w.b * w.b))⟩, ?_, ?_⟩
  · rw [Mpc.div, Mpc.inv]
    simp only [if_neg h0]
  · rw [toC_mul, inv_toC w h, div_eq_mul_inv]

/-- **C109**, `j`: from `q` the value returned is `(256 h + 1)³ / h` for `h = q (S₂ / S₁)^24`,
where `S₁` and `S₂` are Euler's products for `q` and `q²` up to the error of `C109_delta`. -/
theorem C109_j (fuel : ℕ) (hf : 34 ≤ fuel) (eps pi rec : ℝ) (t q : Mpc ℝ)
    (hQ : computeQ fuel eps pi rec t = some q) (hq : ‖q.toC‖ < 1) (hq0 : q.toC ≠ 0) :
    ∃ S₁ S₂ : ℂ,
      ‖S₁ - ∏' n : ℕ, (1 - q.toC ^ (n + 1))‖ ≤ 3 * ‖q.toC‖ ^ 14950 / (1 - ‖q.toC‖) ∧
      ‖S₂ - ∏' n : ℕ, (1 - (q.toC ^ 2) ^ (n + 1))‖ ≤
        3 * ‖q.toC ^ 2‖ ^ 14950 / (1 - ‖q.toC ^ 2‖) ∧
      (S₁ ≠ 0 → S₂ ≠ 0 → ∃ j h, computeJ fuel eps pi rec t = some j ∧
        h = q.toC * (S₂ / S₁) ^ 24 ∧ j.toC = (256 * h + 1) ^ 3 / h) := by
  have hq2 : (q.mul q).toC = q.toC ^ 2 := by rw [toC_mul, pow_two]
  obtain ⟨w1, S₁, e1, d1, b1⟩ := C109_delta fuel hf q hq
  obtain ⟨w2, S₂, e2, d2, b2⟩ := C109_delta fuel hf (q.mul q) (by
    rw [hq2, norm_pow]; exact pow_lt_one₀ (norm_nonneg _) hq two_ne_zero)
  rw [hq2] at b2 d2
  refine ⟨S₁, S₂, b1, b2, fun n1 n2 => ?_⟩
  have hw1 : w1.toC ≠ 0 := by rw [d1]; exact mul_ne_zero hq0 (pow_ne_zero _ n1)
  obtain ⟨h, eh, hh⟩ := div_toC w2 w1 hw1
  have hval : h.toC = q.toC * (S₂ / S₁) ^ 24 := by
    rw [hh, d1, d2, div_pow]
    have := pow_ne_zero 24 n1
    field_simp
  have hh0 : h.toC ≠ 0 := by
    rw [hval]; exact mul_ne_zero hq0 (pow_ne_zero _ (div_ne_zero n2 n1))
  obtain ⟨z, ez, hz⟩ := C109_pow_partial
    (⟨h.a * 2 ^ 8 + ((1 : ℕ) : ℝ), h.b * 2 ^ 8⟩ : Mpc ℝ) 3 fuel (by norm_num) hf
  obtain ⟨j, ej, hj⟩ := div_toC z h hh0
  refine ⟨j, h.toC, ?_, hval, ?_⟩
  · rw [computeJ, computeH, hQ]
    simp only [e1, e2, eh, ez, ej]
  · rw [hj, hz]
    congr 2
    apply Complex.ext
    · simp [Mpc.toC]; ring
    · simp [Mpc.toC]; ring

/-- The conjugate. -/
def Mpc.conj (z : Mpc ℝ) : Mpc ℝ := ⟨z.a, -z.b⟩

theorem conj_mul (z w : Mpc ℝ) : z.conj.mul w.conj = (z.mul w).conj := by
  simp only [Mpc.conj, Mpc.mul, Mpc.mk.injEq]; constructor <;> ring

theorem conj_add (z w : Mpc ℝ) : z.conj.add w.conj = (z.add w).conj := by
  simp only [Mpc.conj, Mpc.add, Mpc.mk.injEq]; exact ⟨trivial, by ring⟩

theorem conj_powLoop (z : Mpc ℝ) (n : ℕ) : ∀ (fuel m : ℕ) (z0 : Mpc ℝ),
    powLoop z.conj n fuel m z0.conj = (powLoop z n fuel m z0).map Mpc.conj := by
  intro fuel
  induction fuel with
  | zero => intro m z0; rfl
  | succ f ih =>
    intro m z0
    rw [powLoop, powLoop]
    split_ifs with h1
    · rfl
    · simp only
      rw [conj_mul, conj_mul, ih]
    · simp only
      rw [conj_mul, ih]

theorem conj_pow (fuel : ℕ) (z : Mpc ℝ) (n : ℕ) :
    powUi fuel z.conj n = (powUi fuel z n).map Mpc.conj := by
  rw [powUi, powUi]
  cases powStart n fuel 1 with
  | none => rfl
  | some m =>
    simp only
    rw [← conj_powLoop]
    congr 1
    simp [Mpc.conj]

theorem small_neg (eps f : ℝ) : small eps (-f) = small eps f := by
  unfold small
  rcases lt_trichotomy f 0 with h | h | h
  · rw [if_pos (by linarith), if_neg (by linarith)]
    apply decide_eq_decide.2; constructor <;> intro h <;> linarith
  · subst h; simp
  · rw [if_neg (by linarith), if_pos h]
    apply decide_eq_decide.2; constructor <;> intro h <;> linarith

theorem conj_cisLoop (eps a : ℝ) : ∀ (fuel : ℕ) (t : Bool) (i : ℕ) (f0 : ℝ) (z : Mpc ℝ),
    cisLoop eps (-a) fuel t i (-f0) z.conj = (cisLoop eps a fuel t i f0 z).map Mpc.conj := by
  intro fuel
  induction fuel with
  | zero => intro t i f0 z; rfl
  | succ f ih =>
    intro t i f0 z
    rw [cisLoop, cisLoop]
    have e1 : -f0 / ((i + 1 : ℕ) : ℝ) * -a = f0 / ((i + 1 : ℕ) : ℝ) * a := by ring
    have e2 : f0 / ((i + 1 : ℕ) : ℝ) * a / ((i + 1 + 1 : ℕ) : ℝ) * -a =
      -(f0 / ((i + 1 : ℕ) : ℝ) * a / ((i + 1 + 1 : ℕ) : ℝ) * a) := by ring
    rw [e1, e2, small_neg]
    generalize f0 / ((i + 1 : ℕ) : ℝ) * a = u
    generalize u / ((i + 1 + 1 : ℕ) : ℝ) * a = v
    have hz : (⟨if (!t) = true then z.conj.a + u else z.conj.a - u,
        if (!t) = true then z.conj.b + -v else z.conj.b - -v⟩ : Mpc ℝ) =
        (⟨if (!t) = true then z.a + u else z.a - u,
          if (!t) = true then z.b + v else z.b - v⟩ : Mpc ℝ).conj := by
      simp only [Mpc.conj, Mpc.mk.injEq]
      refine ⟨trivial, ?_⟩
      split_ifs <;> ring
    rw [hz]
    by_cases hs : small eps v = true
    · rw [if_pos hs, if_pos hs]; rfl
    · rw [if_neg hs, if_neg hs, ih]

theorem trunc_neg (x : ℝ) : trunc (-x) = -trunc x := by
  unfold trunc
  rcases lt_trichotomy x 0 with h | h | h
  · rw [if_neg (by linarith), if_pos h, Int.floor_neg]
  · subst h; simp
  · rw [if_pos (by linarith), if_neg (by linarith), Int.ceil_neg]

theorem conj_q (fuel : ℕ) (eps pi rec : ℝ) (t : Mpc ℝ) :
    computeQ fuel eps pi rec ⟨-t.a, t.b⟩ = (computeQ fuel eps pi rec t).map Mpc.conj := by
  unfold computeQ
  simp only
  have e : (-t.a - ((trunc (-t.a) : ℤ) : ℝ)) * pi * ((2 : ℕ) : ℝ) =
      -((t.a - ((trunc t.a : ℤ) : ℝ)) * pi * ((2 : ℕ) : ℝ)) := by
    rw [trunc_neg]; push_cast; ring
  rw [e]
  generalize (t.a - ((trunc t.a : ℤ) : ℝ)) * pi * ((2 : ℕ) : ℝ) = θ
  have hc : mpcCis fuel eps (-θ) = (mpcCis fuel eps θ).map Mpc.conj := by
    have := conj_cisLoop eps θ fuel true 1 θ ⟨1, θ⟩
    simpa [mpcCis, Mpc.conj] using this
  rw [hc]
  cases mpfExp fuel eps (-(t.b * pi * ((2 : ℕ) : ℝ)) + ((trunc (-(t.b * pi * ((2 : ℕ) : ℝ)))).natAbs : ℝ)) with
  | none => rfl
  | some f1 =>
    cases mpcCis fuel eps θ with
    | none => rfl
    | some q => simp [Mpc.conj]

theorem conj_deltaLoop (fuel : ℕ) (q : Mpc ℝ) : ∀ (k n : ℕ) (d : Bool) (z0 : Mpc ℝ),
    deltaLoop fuel q.conj k n d z0.conj = (deltaLoop fuel q k n d z0).map Mpc.conj := by
  intro k
  induction k with
  | zero => intro n d z0; rfl
  | succ k ih =>
    intro n d z0
    rw [deltaLoop, deltaLoop, conj_pow, conj_pow]
    cases powUi fuel q (n * (3 * n - 1) / 2) with
    | none => rfl
    | some z1 =>
      cases powUi fuel q n with
      | none => rfl
      | some z2 =>
        simp only [Option.map_some, conj_mul, conj_add]
        have : ∀ w : Mpc ℝ, (⟨z0.conj.a - w.conj.a, z0.conj.b - w.conj.b⟩ : Mpc ℝ) =
            (⟨z0.a - w.a, z0.b - w.b⟩ : Mpc ℝ).conj := by
          intro w; simp only [Mpc.conj, Mpc.mk.injEq]; exact ⟨trivial, by ring⟩
        rw [this]
        split_ifs
        · rw [ih]
        · rw [ih]

theorem conj_delta (fuel : ℕ) (q : Mpc ℝ) :
    computeDelta fuel q.conj = (computeDelta fuel q).map Mpc.conj := by
  rw [computeDelta, computeDelta]
  have := conj_deltaLoop fuel q 99 1 true ⟨1, 0⟩
  rw [show (⟨1, 0⟩ : Mpc ℝ).conj = ⟨1, 0⟩ by simp [Mpc.conj]] at this
  rw [this]
  cases deltaLoop fuel q 99 1 true ⟨1, 0⟩ with
  | none => rfl
  | some z0 =>
    simp only [Option.map_some]
    rw [conj_pow]
    cases powUi fuel z0 24 with
    | none => rfl
    | some z1 => simp only [Option.map_some, conj_mul]

theorem conj_div (z w : Mpc ℝ) : z.conj.div w.conj = (z.div w).map Mpc.conj := by
  rw [Mpc.div, Mpc.div, Mpc.inv, Mpc.inv]
  have e : w.conj.a * w.conj.a + w.conj.b * w.conj.b = w.a * w.a + w.b * w.b := by
    simp only [Mpc.conj]; ring
  simp only [e]
  split_ifs with h
  · rfl
  · simp only [Option.map_some, ← conj_mul]
    congr 2
    simp only [Mpc.conj, Mpc.mk.injEq]
    exact ⟨trivial, by ring⟩

/-- **C109**: the value at the reflected point is the conjugate, which is what allows the class
polynomial to be built from the forms with `b ≥ 0` only. -/
theorem C109_conj (fuel : ℕ) (eps pi rec : ℝ) (t : Mpc ℝ) :
    computeJ fuel eps pi rec ⟨-t.a, t.b⟩ = (computeJ fuel eps pi rec t).map Mpc.conj := by
  have hH : computeH fuel eps pi rec ⟨-t.a, t.b⟩ = (computeH fuel eps pi rec t).map Mpc.conj := by
    rw [computeH, computeH, conj_q]
    cases computeQ fuel eps pi rec t with
    | none => rfl
    | some q =>
      simp only [Option.map_some, conj_mul, conj_delta]
      cases computeDelta fuel (q.mul q) with
      | none => rfl
      | some z0 =>
        cases computeDelta fuel q with
        | none => rfl
        | some z1 => simp only [Option.map_some, conj_div]
  rw [computeJ, computeJ, hH]
  cases computeH fuel eps pi rec t with
  | none => rfl
  | some h =>
    simp only [Option.map_some]
    have e : (⟨h.conj.a * 2 ^ 8 + ((1 : ℕ) : ℝ), h.conj.b * 2 ^ 8⟩ : Mpc ℝ) =
        (⟨h.a * 2 ^ 8 + ((1 : ℕ) : ℝ), h.b * 2 ^ 8⟩ : Mpc ℝ).conj := by
      simp only [Mpc.conj, Mpc.mk.injEq]; exact ⟨trivial, by ring⟩
    rw [e, conj_pow]
    cases powUi fuel (⟨h.a * 2 ^ 8 + ((1 : ℕ) : ℝ), h.b * 2 ^ 8⟩ : Mpc ℝ) 3 with
    | none => rfl
    | some z0 => simp only [Option.map_some, conj_div]

/-- The values computed by `compute_j`, as a function on the complex numbers (0 where the program
is stopped). -/
noncomputable def jValue (fuel : ℕ) (eps pi rec : ℝ) (t : ℂ) : ℂ :=
  ((computeJ fuel eps pi rec (ofC t)).getD ⟨0, 0⟩).toC

/-- **C110** for the values that `compute_j` computes: the second pass of `pbc_hilbert` gives the
product over all reduced forms. -/
theorem C110_computed (fuel D : ℕ) (eps pi rec s : ℝ) (hD : 3 ≤ D) (h4 : D % 4 = 0 ∨ D % 4 = 3)
    (hf : D ≤ fuel) :
    ∃ (L : List Spec.Forms.Form) (Pz : List (Mpc ℝ)), L.Nodup ∧
      (∀ f, f ∈ L ↔ f.Reduced ∧ f.disc = -D) ∧
      secondPass (fun z => (computeJ fuel eps pi rec z).getD ⟨0, 0⟩) s fuel D = some Pz ∧
      Pz.length = L.length ∧
      polyOf Pz = (L.map (fun f => (Polynomial.X - Polynomial.C (jValue fuel eps pi rec (tau s f)) :
        Polynomial ℂ))).prod := by
  have h := C110_product (jValue fuel eps pi rec) (by
    intro t
    have e : ofC (-starRingEnd ℂ t) = ⟨-(ofC t).a, (ofC t).b⟩ := by simp [ofC]
    rw [jValue, jValue, e, C109_conj]
    cases computeJ fuel eps pi rec (ofC t) with
    | none =>
      apply Complex.ext
      · rfl
      · simp [Mpc.toC]
    | some j => rfl) s D fuel hD h4 hf
  exact h

/-- A store with `1 + 2i` and `3 - i`, the destination being one of the arguments. -/
example : let σ : Store ℝ := fun i => if i = 0 then ⟨1, 2⟩ else ⟨3, -1⟩
    (σ.mul 1 0 1).val 1 = ⟨5, 5⟩ := by
  intro σ
  rw [(C109_ops σ 1 0 1 0 0 0).2.2.1, Function.update_self]
  apply Complex.ext
  · simp [Store.val, Mpc.toC, σ]; norm_num
  · simp [Store.val, Mpc.toC, σ]; norm_num

/-- The hypothesis of `C109_add_ui_fails`. -/
example : let σ : Store ℝ := fun i => if i = 0 then ⟨1, 2⟩ else ⟨3, -1⟩
    (σ.val 1).im ≠ (σ.val 0).im := by
  intro σ; simp [Store.val, Mpc.toC, σ]; norm_num

/-- Over the rationals the functions run. -/
example : powUi 40 (⟨1, 2⟩ : Mpc ℚ) 5 = some ⟨41, -38⟩ := by decide +kernel

example : mpfExp 20 (1 / 100 : ℚ) (1 / 2) = some (79 / 48) ∧
    (mpcCis 20 (1 / 100 : ℚ) (1 / 2)) = some ⟨337 / 384, 1841 / 3840⟩ ∧
    eulere 20 (1 / 100 : ℚ) = some (65 / 24) := by
  refine ⟨?_, ?_, ?_⟩
  · norm_num [mpfExp, expLoop, small]
  · norm_num [mpcCis, cisLoop, small]
  · norm_num [eulere, eulerLoop]

end Modular

end Pbc.Hilbert
