import Verif.Model.Chudnovsky
import Mathlib.Analysis.Real.Pi.Bounds
import Mathlib.Analysis.SpecificLimits.Normed
import Mathlib.Tactic.FieldSimp

/-!
# C126: the constant π

The partial sums converge; what `compute_pi` returns is within `5 / 2^prec` of the value of the series,
and the value of the series is π to 19 decimals.  That it is π exactly is the theorem of the
Chudnovsky brothers, which is not proved here.
-/

set_option autoImplicit false

namespace Pbc.Chudnovsky

open Finset Filter Topology

/-- The `n`-th term of the series of the Chudnovsky brothers, without its sign. -/
noncomputable def term (n : ℕ) : ℝ :=
  ((6 * n).factorial * (545140134 * n + 13591409) : ℝ) /
    ((3 * n).factorial * (n.factorial : ℝ) ^ 3 * (640320 : ℝ) ^ (3 * n))

theorem frac_eq (n : ℕ) : ((frac n : ℚ) : ℝ) = term n := by
  unfold frac term
  have hd : (d : ℝ) = (640320 : ℝ) ^ 3 := by
    norm_num [d, k4, k5]
  simp only [Rat.cast_div, Rat.cast_natCast]
  push_cast
  rw [hd, ← pow_mul]
  norm_num [k1, k2]

theorem loop_eq (k n : ℕ) (t : Bool) (p : ℚ) :
    ((loop k n t p : ℚ) : ℝ) =
      p + ∑ i ∈ range k, (if t then (-1 : ℝ) ^ i else -(-1) ^ i) * term (n + i) := by
  induction k generalizing n t p with
  | zero => simp [loop]
  | succ k ih =>
    rw [loop, ih, sum_range_succ']
    cases t
    · simp only [Bool.not_false, if_true, Bool.false_eq_true, if_false, Rat.cast_sub, frac_eq,
        pow_zero, add_zero, pow_succ]
      have : ∀ i, n + 1 + i = n + (i + 1) := fun i => by omega
      simp only [this, mul_neg_one, neg_mul, neg_neg, one_mul, sub_eq_add_neg, sum_neg_distrib]
      ring
    · simp only [Bool.not_true, if_true, Bool.false_eq_true, if_false, Rat.cast_add, frac_eq,
        pow_zero, add_zero, pow_succ]
      have : ∀ i, n + 1 + i = n + (i + 1) := fun i => by omega
      simp only [this, mul_neg_one, neg_mul, neg_neg, one_mul, sub_eq_add_neg, sum_neg_distrib]
      ring

/-- The partial sums of the series. -/
noncomputable def partialSum (N : ℕ) : ℝ := ∑ i ∈ range N, (-1 : ℝ) ^ i * term i

theorem term_pos (n : ℕ) : 0 < term n := by
  unfold term
  have := Nat.factorial_pos (6 * n)
  have := Nat.factorial_pos (3 * n)
  have := Nat.factorial_pos n
  positivity

/-- The quotient of two terms. -/
theorem term_succ (n : ℕ) :
    term (n + 1) * ((n + 1 : ℝ) ^ 3 * 640320 ^ 3 * (545140134 * n + 13591409)) =
      term n * (24 * (6 * n + 1) * (2 * n + 1) * (6 * n + 5) * (545140134 * n + 558731543)) := by
  have h6 : ((6 * (n + 1)).factorial : ℝ) = (6 * n).factorial * ((6 * n + 1) * (6 * n + 2) *
      (6 * n + 3) * (6 * n + 4) * (6 * n + 5) * (6 * n + 6)) := by
    rw [show 6 * (n + 1) = 6 * n + 1 + 1 + 1 + 1 + 1 + 1 by ring]
    simp only [Nat.factorial_succ]
    push_cast
    ring
  have h3 : ((3 * (n + 1)).factorial : ℝ) = (3 * n).factorial * ((3 * n + 1) * (3 * n + 2) *
      (3 * n + 3)) := by
    rw [show 3 * (n + 1) = 3 * n + 1 + 1 + 1 by ring]
    simp only [Nat.factorial_succ]
    push_cast
    ring
  have hf6 : ((6 * n).factorial : ℝ) ≠ 0 := by exact_mod_cast Nat.factorial_ne_zero _
  have hf3 : ((3 * n).factorial : ℝ) ≠ 0 := by exact_mod_cast Nat.factorial_ne_zero _
  have hf : (n.factorial : ℝ) ≠ 0 := by exact_mod_cast Nat.factorial_ne_zero _
  have h1 : (n + 1 : ℝ) ≠ 0 := by positivity
  have h31 : (3 * n + 1 : ℝ) ≠ 0 := by positivity
  have h32 : (3 * n + 2 : ℝ) ≠ 0 := by positivity
  have h33 : (3 * n + 3 : ℝ) ≠ 0 := by positivity
  have hk : (640320 : ℝ) ^ (3 * n) ≠ 0 := by positivity
  unfold term
  rw [h6, h3, Nat.factorial_succ, show 3 * (n + 1) = 3 * n + 3 by ring, pow_add]
  push_cast
  rw [div_mul_eq_mul_div, div_mul_eq_mul_div, div_eq_div_iff (by positivity) (by positivity)]
  ring

/-- From the second term on, every term is smaller than the one before by more than 47 bits. -/
theorem term_ratio (n : ℕ) : term (n + 2) * 2 ^ 47 ≤ term (n + 1) := by
  have h := term_succ (n + 1)
  push_cast at h
  have hp := term_pos (n + 1)
  have hq : (0 : ℝ) < (n + 1 + 1 : ℝ) ^ 3 * 640320 ^ 3 * (545140134 * (n + 1) + 13591409) := by
    positivity
  have key : (2 : ℝ) ^ 47 * (24 * (6 * (n + 1) + 1) * (2 * (n + 1) + 1) * (6 * (n + 1) + 5) *
      (545140134 * (n + 1) + 558731543)) ≤
      (n + 1 + 1 : ℝ) ^ 3 * 640320 ^ 3 * (545140134 * (n + 1) + 13591409) := by
    have hn : (0 : ℝ) ≤ n := Nat.cast_nonneg n
    have : (n + 1 + 1 : ℝ) ^ 3 * 640320 ^ 3 * (545140134 * (n + 1) + 13591409) -
        (2 : ℝ) ^ 47 * (24 * (6 * (n + 1) + 1) * (2 * (n + 1) + 1) * (6 * (n + 1) + 5) *
      (545140134 * (n + 1) + 558731543)) = 312209099597777861697601536 +
        697622308454992176800071680 * n + 509363713647509815178035200 * n ^ 2 +
        140363051792757125099028480 * n ^ 3 + 10544663472258039500242944 * n ^ 4 := by ring
    have h0 : (0 : ℝ) ≤ 312209099597777861697601536 +
        697622308454992176800071680 * n + 509363713647509815178035200 * n ^ 2 +
        140363051792757125099028480 * n ^ 3 + 10544663472258039500242944 * n ^ 4 := by positivity
    linarith
  rw [show n + 2 = n + 1 + 1 from rfl]
  refine le_of_mul_le_mul_right ?_ hq
  calc term (n + 1 + 1) * 2 ^ 47 *
        ((n + 1 + 1 : ℝ) ^ 3 * 640320 ^ 3 * (545140134 * (n + 1) + 13591409))
      = 2 ^ 47 * (term (n + 1) * (24 * (6 * (n + 1) + 1) * (2 * (n + 1) + 1) * (6 * (n + 1) + 5) *
          (545140134 * (n + 1) + 558731543))) := by rw [← h]; ring
    _ = term (n + 1) * (2 ^ 47 * (24 * (6 * (n + 1) + 1) * (2 * (n + 1) + 1) * (6 * (n + 1) + 5) *
          (545140134 * (n + 1) + 558731543))) := by ring
    _ ≤ _ := mul_le_mul_of_nonneg_left key hp.le

theorem term_zero : term 0 = 13591409 := by norm_num [term]

theorem term_one : term 1 = 67047785160 / 262537412640768000 := by
  have := term_succ 0
  rw [term_zero] at this
  norm_num at this
  rw [eq_div_iff (by norm_num)]
  linarith

theorem term_two_le : term 2 ≤ 1 / 10 ^ 20 := by
  have := term_ratio 0
  rw [term_one] at this
  norm_num at this ⊢
  linarith

theorem term_anti : Antitone term := by
  refine antitone_nat_of_succ_le fun n => ?_
  rcases n with _ | n
  · rw [term_zero, term_one]
    norm_num
  · have := term_ratio n
    have hp := term_pos (n + 2)
    have : term (n + 2) * 1 ≤ term (n + 2) * 2 ^ 47 := by
      apply mul_le_mul_of_nonneg_left _ hp.le
      norm_num
    rw [show n + 1 + 1 = n + 2 from rfl]
    linarith

theorem term_le (n : ℕ) : term (n + 1) ≤ term 1 / 2 ^ (47 * n) := by
  induction n with
  | zero => simp
  | succ n ih =>
    have := term_ratio n
    rw [le_div_iff₀ (by positivity)] at ih ⊢
    calc term (n + 1 + 1) * 2 ^ (47 * (n + 1)) = term (n + 2) * 2 ^ 47 * 2 ^ (47 * n) := by
          rw [show 47 * (n + 1) = 47 * n + 47 by ring, pow_add]; ring
      _ ≤ term (n + 1) * 2 ^ (47 * n) := mul_le_mul_of_nonneg_right this (by positivity)
      _ ≤ term 1 := ih

theorem term_tendsto : Tendsto term atTop (𝓝 0) := by
  have h1 : Tendsto (fun n : ℕ => term 1 * ((1 / 2 ^ 47 : ℝ)) ^ n) atTop (𝓝 (term 1 * 0)) :=
    (tendsto_pow_atTop_nhds_zero_of_lt_one (by norm_num) (by norm_num)).const_mul _
  rw [mul_zero] at h1
  have h2 : Tendsto (fun n => term (n + 1)) atTop (𝓝 0) := by
    refine squeeze_zero (fun n => (term_pos _).le) (fun n => ?_) h1
    refine (term_le n).trans (le_of_eq ?_)
    rw [div_pow, one_pow, ← pow_mul]
    ring
  exact (tendsto_add_atTop_iff_nat 1).1 h2

/-- What the loop of the code computes. -/
theorem loop_partialSum (N : ℕ) : ((loop N 0 true 0 : ℚ) : ℝ) = partialSum N := by
  rw [loop_eq]
  simp [partialSum]

/-- The series has a value, and the error after `N` terms is at most the next term. -/
theorem series_limit : ∃ S : ℝ, Tendsto partialSum atTop (𝓝 S) ∧
    ∀ N, |partialSum N - S| ≤ term N := by
  obtain ⟨S, hS⟩ := term_anti.tendsto_alternating_series_of_tendsto_zero term_tendsto
  refine ⟨S, hS, fun N => ?_⟩
  rcases Nat.even_or_odd' N with ⟨k, rfl | rfl⟩
  · have h1 := term_anti.alternating_series_le_tendsto hS k
    have h2 := term_anti.tendsto_le_alternating_series hS k
    rw [sum_range_succ, pow_mul] at h2
    simp only [even_two, Even.neg_pow, one_pow, one_mul] at h2
    rw [abs_le]
    unfold partialSum
    constructor <;> linarith
  · have h1 := term_anti.alternating_series_le_tendsto hS (k + 1)
    have h2 := term_anti.tendsto_le_alternating_series hS k
    rw [show 2 * (k + 1) = 2 * k + 1 + 1 by ring, sum_range_succ, pow_succ, pow_mul] at h1
    simp only [even_two, Even.neg_pow, one_pow, one_mul] at h1
    rw [abs_le]
    unfold partialSum
    constructor <;> linarith

theorem partialSum_ge {N : ℕ} (hN : N ≠ 0) : 13591408 ≤ partialSum N ∧ partialSum N ≤ 13591410 := by
  obtain ⟨S, -, hS⟩ := series_limit
  have h1 := hS 1
  have h2 := hS N
  have hp1 : partialSum 1 = 13591409 := by simp [partialSum, term_zero]
  have h3 : term N ≤ term 1 := term_anti (Nat.one_le_iff_ne_zero.2 hN)
  rw [hp1] at h1
  rw [term_one] at h1 h3
  rw [abs_le] at h1 h2
  norm_num at h1 h2 h3
  constructor <;> linarith [h1.1, h1.2, h2.1, h2.2]

theorem computePi_eq (prec : ℕ) :
    computePi prec = 53360 * Real.sqrt 640320 / partialSum (nlimit prec) := by
  unfold computePi
  simp only [Rat.cast_mul, Rat.cast_inv, loop_partialSum, k6, k3]
  push_cast
  ring

theorem sqrt_bounds : 800.19997500624804755833750301086 ≤ Real.sqrt 640320 ∧
    Real.sqrt 640320 ≤ 800.19997500624804755833750301087 := by
  constructor
  · apply Real.le_sqrt_of_sq_le
    norm_num
  · rw [Real.sqrt_le_left (by norm_num)]
    norm_num

/-- **C126.**  The series converges; for every precision the result is within `5 / 2^prec` of
`53360 √640320 / S`, `S` the value of the series. -/
theorem C126_series : ∃ S : ℝ,
    Tendsto (fun N => ∑ n ∈ range N, (-1 : ℝ) ^ n *
      (((6 * n).factorial * (545140134 * n + 13591409) : ℝ) /
        ((3 * n).factorial * (n.factorial : ℝ) ^ 3 * (640320 : ℝ) ^ (3 * n)))) atTop (𝓝 S) ∧
    ∀ prec, |computePi prec - 53360 * Real.sqrt 640320 / S| ≤ 5 / 2 ^ prec := by
  obtain ⟨S, hS, hE⟩ := series_limit
  refine ⟨S, hS, fun prec => ?_⟩
  rw [computePi_eq]
  set N := nlimit prec with hN
  have hN0 : N ≠ 0 := by rw [hN, nlimit]; omega
  obtain ⟨hp, -⟩ := partialSum_ge hN0
  have hS1 : 13591408 ≤ S :=
    ge_of_tendsto hS (eventually_atTop.2 ⟨1, fun n hn => (partialSum_ge (by omega)).1⟩)
  have hterm : term N ≤ 67047785160 / 262537412640768000 / 2 ^ (47 * (prec / 47)) := by
    have := term_le (prec / 47)
    rwa [term_one] at this
  have hpow : (2 : ℝ) ^ prec ≤ 2 ^ (47 * (prec / 47)) * 2 ^ 46 := by
    rw [← pow_add]
    exact pow_le_pow_right₀ (by norm_num) (by omega)
  have hterm2 : term N * 2 ^ prec ≤ 67047785160 / 262537412640768000 * 2 ^ 46 := by
    rw [le_div_iff₀ (by positivity)] at hterm
    have hp0 := term_pos N
    calc term N * 2 ^ prec ≤ term N * (2 ^ (47 * (prec / 47)) * 2 ^ 46) :=
          mul_le_mul_of_nonneg_left hpow hp0.le
      _ = term N * 2 ^ (47 * (prec / 47)) * 2 ^ 46 := by ring
      _ ≤ _ := mul_le_mul_of_nonneg_right hterm (by positivity)
  have hdiff : 53360 * Real.sqrt 640320 / partialSum N - 53360 * Real.sqrt 640320 / S =
      53360 * Real.sqrt 640320 * (S - partialSum N) / (partialSum N * S) := by
    have h1 : partialSum N ≠ 0 := by linarith
    have h2 : S ≠ 0 := by linarith
    field_simp
  have hden : (13591408 : ℝ) * 13591408 ≤ partialSum N * S :=
    mul_le_mul hp hS1 (by norm_num) (by linarith)
  have hk : 53360 * Real.sqrt 640320 ≤ 53360 * 800.2 := by
    have := sqrt_bounds.2
    linarith
  have hk0 : 0 ≤ 53360 * Real.sqrt 640320 := by positivity
  rw [hdiff, abs_div, abs_mul, abs_of_nonneg hk0, abs_sub_comm,
    abs_of_pos (by nlinarith : (0 : ℝ) < partialSum N * S), div_le_div_iff₀ (by nlinarith)
      (by positivity)]
  calc 53360 * Real.sqrt 640320 * |partialSum N - S| * 2 ^ prec
      ≤ 53360 * 800.2 * term N * 2 ^ prec := by
        apply mul_le_mul_of_nonneg_right _ (by positivity)
        exact mul_le_mul hk (hE N) (abs_nonneg _) (by norm_num)
    _ = 53360 * 800.2 * (term N * 2 ^ prec) := by ring
    _ ≤ 53360 * 800.2 * (67047785160 / 262537412640768000 * 2 ^ 46) :=
        mul_le_mul_of_nonneg_left hterm2 (by norm_num)
    _ ≤ 5 * (13591408 * 13591408) := by norm_num
    _ ≤ 5 * (partialSum N * S) := by linarith

/-- **C126 (partial): π.**  For every precision the result is within `5 / 2^prec + 10^-19` of π.
Missing: that the value of the series gives π exactly (the theorem of the Chudnovsky brothers); then
the last summand would not be needed. -/
theorem C126_pi_partial (prec : ℕ) : |computePi prec - Real.pi| ≤ 5 / 2 ^ prec + 1 / 10 ^ 19 := by
  obtain ⟨S, hS, hE⟩ := C126_series
  obtain ⟨S', hS', hB⟩ := series_limit
  have hSS : S = S' := tendsto_nhds_unique hS hS'
  have h2 := hB 2
  have hp2 : partialSum 2 = 13591409 - 67047785160 / 262537412640768000 := by
    simp [partialSum, sum_range_succ, term_zero, term_one]
    ring
  rw [hp2, ← hSS] at h2
  have h2' := h2.trans term_two_le
  rw [abs_le] at h2'
  obtain ⟨hlo, hhi⟩ := sqrt_bounds
  have hSpos : 0 < S := by norm_num at h2'; linarith [h2'.2]
  have ht1 : 53360 * Real.sqrt 640320 / S ≤ 3.14159265358979323846 + 1 / 10 ^ 19 := by
    rw [div_le_iff₀ hSpos]
    norm_num at h2' hhi ⊢
    linarith [h2'.2]
  have ht2 : 3.14159265358979323847 - 1 / 10 ^ 19 ≤ 53360 * Real.sqrt 640320 / S := by
    rw [le_div_iff₀ hSpos]
    norm_num at h2' hlo ⊢
    linarith [h2'.1]
  have h3 := hE prec
  have h4 := Real.pi_gt_d20
  have h5 := Real.pi_lt_d20
  have h6 : |53360 * Real.sqrt 640320 / S - Real.pi| ≤ 1 / 10 ^ 19 := by
    rw [abs_le]
    constructor <;> linarith
  calc |computePi prec - Real.pi| ≤ |computePi prec - 53360 * Real.sqrt 640320 / S| +
        |53360 * Real.sqrt 640320 / S - Real.pi| := abs_sub_le _ _ _
    _ ≤ _ := add_le_add h3 h6

/-- **C126, discrepancy.**  "Each term gives over 47 bits" is not so for the first term: for the
precisions 44, 45 and 46 one term is used, and the result is off by more than `2^-prec`. -/
theorem C126_first_term_fails (prec : ℕ) (h1 : 44 ≤ prec) (h2 : prec < 47) :
    1 / 2 ^ prec < |computePi prec - Real.pi| := by
  have hn : nlimit prec = 1 := by
    unfold nlimit
    omega
  have hp1 : partialSum 1 = 13591409 := by simp [partialSum, term_zero]
  rw [computePi_eq, hn, hp1]
  obtain ⟨hlo, hhi⟩ := sqrt_bounds
  have h4 := Real.pi_gt_d20
  have h5 : (1 : ℝ) / 2 ^ prec ≤ 1 / 2 ^ 44 :=
    one_div_le_one_div_of_le (by positivity) (pow_le_pow_right₀ (by norm_num) h1)
  have h6 : 53360 * Real.sqrt 640320 / 13591409 + 1 / 2 ^ 44 < Real.pi := by
    norm_num at hhi h4 ⊢
    linarith
  rw [abs_of_neg (by have : (0 : ℝ) < 1 / 2 ^ 44 := by positivity
                     linarith)]
  linarith

/-- With 100 bits asked for, three terms are summed. -/
example : nlimit 100 = 3 ∧ frac 1 = 67047785160 / 262537412640768000 := by
  refine ⟨by decide, ?_⟩
  norm_num [frac, k1, k2, d, k4, k5, Nat.factorial]

end Pbc.Chudnovsky
