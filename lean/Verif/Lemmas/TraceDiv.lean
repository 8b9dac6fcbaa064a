import Verif.Model.Curve
import Mathlib.LinearAlgebra.Matrix.Determinant.Basic
import Mathlib.LinearAlgebra.Matrix.Trace
import Mathlib.LinearAlgebra.Matrix.Notation
import Mathlib.RingTheory.Polynomial.Cyclotomic.Basic
import Mathlib.Data.ZMod.Basic
import Mathlib.Tactic.LinearCombination
import Mathlib.Tactic.FinCases

/-!
# The order over the extension is divisible by the square of `r`

The traces over the extensions are the traces of the powers of a 2 × 2 matrix with trace `t` and
determinant `q`, chosen triangular modulo the order `n = q + 1 - t`.
-/

set_option autoImplicit false

namespace Pbc.TraceDiv

open Pbc.Curve Polynomial Matrix

/-- A matrix with trace `t` and determinant `q`. -/
def frob (q t : ℤ) : Matrix (Fin 2) (Fin 2) ℤ := !![1, -(q + 1 - t); 1, t - 1]

theorem frob_sq (q t : ℤ) : frob q t * frob q t = t • frob q t - q • (1 : Matrix (Fin 2) (Fin 2) ℤ) := by
  rw [frob, one_fin_two, smul_of, smul_of]
  ext i j
  fin_cases i <;> fin_cases j <;> simp [Matrix.mul_apply, Fin.sum_univ_two] <;> ring

theorem frob_det (q t : ℤ) : (frob q t).det = q := by
  rw [frob, det_fin_two_of]; ring

theorem trace_step (q t : ℤ) (i : ℕ) :
    (frob q t ^ (i + 2)).trace = t * (frob q t ^ (i + 1)).trace - q * (frob q t ^ i).trace := by
  rw [pow_succ, pow_succ, mul_assoc, frob_sq, mul_sub, mul_smul_comm, mul_smul_comm, mul_one, ← pow_succ,
    trace_sub, trace_smul, trace_smul, smul_eq_mul, smul_eq_mul]

theorem traceLoop_eq (q t : ℤ) : ∀ (k i : ℕ),
    traceLoop q t k (frob q t ^ (i + 1)).trace (frob q t ^ i).trace = (frob q t ^ (i + 1 + k)).trace := by
  intro k
  induction k with
  | zero => intro i; rfl
  | succ k ih =>
    intro i
    rw [traceLoop]
    rw [← trace_step, ih (i + 1)]
    congr 2
    omega

theorem traceN_eq (q t : ℤ) (n : ℕ) (hn : 1 ≤ n) : traceN q t n = (frob q t ^ n).trace := by
  have h := traceLoop_eq q t (n - 1) 0
  rw [show 0 + 1 + (n - 1) = n by omega, zero_add, pow_one, pow_zero, trace_one] at h
  rw [← h, traceN]
  congr 1
  simp [frob, trace_fin_two]

theorem det_one_sub (A : Matrix (Fin 2) (Fin 2) ℤ) : (A - 1).det = A.det + 1 - A.trace := by
  rw [det_fin_two, det_fin_two, trace_fin_two]
  simp
  ring

theorem orderExtn_eq (q t : ℤ) (n : ℕ) (hn : 1 ≤ n) : orderExtn q t n = (frob q t ^ n - 1).det := by
  rw [det_one_sub, det_pow, frob_det, orderExtn, traceN_eq q t n hn]

/-- If `r` divides the order `q + 1 - t` and `φ(q)` for a factor of `(X^k - 1) / (X - 1)`, its square divides
the order over the extension of degree `k`. -/
theorem sq_dvd' (q t r : ℤ) (k : ℕ) (hk : 1 ≤ k) (φ : ℤ[X]) (hdvd : (X - 1) * φ ∣ (X ^ k - 1 : ℤ[X]))
    (h1 : r ∣ q + 1 - t) (h2 : r ∣ φ.eval q) : r ^ 2 ∣ orderExtn q t k := by
  obtain ⟨g, hg⟩ := hdvd
  have e : frob q t ^ k - 1 = (frob q t - 1) * aeval (frob q t) φ * aeval (frob q t) g := by
    have := congrArg (aeval (frob q t)) hg
    simpa using this
  rw [orderExtn_eq q t k hk, e, det_mul, det_mul, pow_two]
  refine Dvd.dvd.mul_right (mul_dvd_mul ?_ ?_) _
  · rw [det_one_sub, frob_det, show (frob q t).trace = t by simp [frob, trace_fin_two]]
    exact h1
  · -- modulo `r` the matrix is triangular
    have key : ∀ p : ℤ[X], ∃ a b c d : ℤ, aeval (frob q t) p = !![a, b; c, d] ∧
        r ∣ b ∧ r ∣ a - p.eval 1 ∧ r ∣ d - p.eval q := by
      intro p
      induction p using Polynomial.induction_on' with
      | add p s hp hs =>
        obtain ⟨a, b, c, d, e1, e2, e3, e4⟩ := hp
        obtain ⟨a', b', c', d', f1, f2, f3, f4⟩ := hs
        refine ⟨a + a', b + b', c + c', d + d', ?_, dvd_add e2 f2, ?_, ?_⟩
        · rw [map_add, e1, f1]; ext i j; fin_cases i <;> fin_cases j <;> simp
        · rw [eval_add]; rw [show a + a' - (p.eval 1 + s.eval 1) = a - p.eval 1 + (a' - s.eval 1) by ring]; exact dvd_add e3 f3
        · rw [eval_add]; rw [show d + d' - (p.eval q + s.eval q) = d - p.eval q + (d' - s.eval q) by ring]; exact dvd_add e4 f4
      | monomial n z =>
        have hpow : ∃ a b c d : ℤ, frob q t ^ n = !![a, b; c, d] ∧ r ∣ b ∧ r ∣ a - 1 ∧ r ∣ d - q ^ n := by
          induction n with
          | zero => exact ⟨1, 0, 0, 1, by rw [pow_zero, one_fin_two], by simp, by simp, by simp⟩
          | succ n ih =>
            obtain ⟨a, b, c, d, e1, ⟨b', e2⟩, ⟨a', e3⟩, ⟨d', e4⟩⟩ := ih
            obtain ⟨n', hn'⟩ := h1
            refine ⟨a + b, -(a * (q + 1 - t)) + b * (t - 1), c + d, -(c * (q + 1 - t)) + d * (t - 1),
              ?_, ⟨-(a * n') + b' * (t - 1), ?_⟩, ⟨a' + b', ?_⟩, ⟨-(c * n') + d' * q - d * n', ?_⟩⟩
            · rw [pow_succ, e1, frob]
              ext i j
              fin_cases i <;> fin_cases j <;> simp [Matrix.mul_apply, Fin.sum_univ_two] <;> ring
            · rw [hn', e2]; ring
            · linear_combination e3 + e2
            · rw [pow_succ]
              linear_combination (-c - d) * hn' + q * e4
        obtain ⟨a, b, c, d, e1, e2, e3, e4⟩ := hpow
        refine ⟨z * a, z * b, z * c, z * d, ?_, Dvd.dvd.mul_left e2 _, ?_, ?_⟩
        · rw [aeval_monomial, e1, ← Algebra.smul_def]
          ext i j; fin_cases i <;> fin_cases j <;> simp
        · rw [eval_monomial, one_pow, mul_one, show z * a - z = z * (a - 1) by ring]
          exact Dvd.dvd.mul_left e3 _
        · rw [eval_monomial, ← mul_sub]
          exact Dvd.dvd.mul_left e4 _
    obtain ⟨a, b, c, d, e1, e2, e3, e4⟩ := key φ
    rw [e1, det_fin_two_of]
    have hd : r ∣ d := by
      have := dvd_add e4 h2
      rwa [sub_add_cancel] at this
    exact dvd_sub (Dvd.dvd.mul_left hd _) (Dvd.dvd.mul_right e2 _)

/-- If `r` divides the order `q + 1 - t` and `Φ_k(q)`, its square divides the order over the extension
of degree `k ≥ 2`. -/
theorem sq_dvd (q t r : ℤ) (k : ℕ) (hk : 2 ≤ k) (h1 : r ∣ q + 1 - t)
    (h2 : r ∣ (cyclotomic k ℤ).eval q) : r ^ 2 ∣ orderExtn q t k := by
  have hdvd : (X - 1) * cyclotomic k ℤ ∣ (X ^ k - 1 : ℤ[X]) := by
    rw [← prod_cyclotomic_eq_X_pow_sub_one (by omega : 0 < k)]
    have h : ({1, k} : Finset ℕ) ⊆ k.divisors := by
      intro x hx
      rw [Finset.mem_insert, Finset.mem_singleton] at hx
      rcases hx with rfl | rfl
      · exact Nat.one_mem_divisors.2 (by omega)
      · exact Nat.mem_divisors_self _ (by omega)
    have := Finset.prod_dvd_prod_of_subset _ _ (fun i => cyclotomic i ℤ) h
    rwa [Finset.prod_pair (by omega), cyclotomic_one] at this
  exact sq_dvd' q t r k (by omega) _ hdvd h1 h2

end Pbc.TraceDiv
