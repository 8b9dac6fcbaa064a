import Verif.Lemmas.Fq2

/-! # Lucas sequences compute powers of elements of norm 1 -/

set_option autoImplicit false
set_option linter.unusedSectionVars false

namespace Pbc.PairingA

open Pbc.Quad

variable {K : Type*} [Field K] [DecidableEq K] {v : K}

/-- `z^n + z^-n` for `z` of norm 1. -/
def trc (z : QuadraticAlgebra K v 0) (n : ℕ) : K := 2 * (z ^ n).re

variable [Fact (∀ r : K, r ^ 2 ≠ v + 0 * r)]

theorem conj_pow (z : QuadraticAlgebra K v 0) (n : ℕ) :
    alg v ⟨(z ^ n).re, -(z ^ n).im⟩ = alg v ⟨z.re, -z.im⟩ ^ n := by
  induction n with
  | zero => rw [pow_zero, pow_zero]; exact QuadraticAlgebra.ext rfl neg_zero
  | succ n ih =>
    rw [pow_succ, pow_succ, ← ih, ← alg_mul]
    ext <;> simp [alg] <;> ring

theorem trc_eq {z w : QuadraticAlgebra K v 0} (hw : w = alg v ⟨z.re, -z.im⟩) (n : ℕ) :
    algebraMap K _ (trc z n) = z ^ n + w ^ n := by
  rw [hw, ← conj_pow, trc, algebraMap_eq]
  ext <;> simp [alg]; ring

variable {z : QuadraticAlgebra K v 0}

theorem nrm_of (hz : nrm v ⟨z.re, z.im⟩ = 1) : z * alg v ⟨z.re, -z.im⟩ = 1 := by
  have := Quad.conj_mul (v := v) z.re z.im
  rw [hz, map_one] at this
  exact this

theorem trc_add (hz : nrm v ⟨z.re, z.im⟩ = 1) (n d : ℕ) :
    trc z (2 * n + d) = trc z n * trc z (n + d) - trc z d := by
  have hzw := nrm_of hz
  generalize hw : alg v ⟨z.re, -z.im⟩ = w at hzw
  refine (algebraMap K (QuadraticAlgebra K v 0)).injective ?_
  rw [map_sub, map_mul, trc_eq hw.symm, trc_eq hw.symm, trc_eq hw.symm, trc_eq hw.symm]
  have h1 : z ^ n * w ^ n = 1 := by rw [← mul_pow, hzw, one_pow]
  linear_combination (-z ^ d - w ^ d) * h1

theorem trc_dbl (hz : nrm v ⟨z.re, z.im⟩ = 1) (n : ℕ) : trc z (2 * n) = trc z n ^ 2 - 2 := by
  have := trc_add hz n 0
  rw [add_zero, add_zero] at this
  rw [this, pow_two]
  have : trc z 0 = 2 := by rw [trc, pow_zero]; exact mul_one 2
  rw [this]

/-- What is known before the round for bit `j`, and after the last round. -/
theorem lucasLoop_eq (hz : nrm v ⟨z.re, z.im⟩ = 1) (c : ℕ) : ∀ j,
    lucasLoop 2 (trc z 1) c j (trc z (c >>> (j + 1)), trc z (c >>> (j + 1) + 1)) =
      (trc z (2 * (c / 2)), trc z (2 * (c / 2) + 1))
  | 0 => by
    simp only [lucasLoop]
    rw [zero_add, Nat.shiftRight_one, trc_dbl hz, trc_add hz]
  | j + 1 => by
    have key : c >>> (j + 1) = 2 * (c >>> (j + 1 + 1)) + (c.testBit (j + 1)).toNat := by
      rw [Nat.toNat_testBit, Nat.shiftRight_succ c (j + 1), Nat.shiftRight_eq_div_pow c (j + 1)]
      omega
    rw [lucasLoop]
    dsimp only
    split_ifs with hb
    · rw [hb] at key
      rw [← lucasLoop_eq hz c j, key]
      congr 2
      · rw [Bool.toNat_true, trc_add hz]
      · rw [Bool.toNat_true, ← trc_dbl hz]; congr 1
    · rw [Bool.not_eq_true] at hb
      rw [hb] at key
      rw [← lucasLoop_eq hz c j, key]
      congr 2
      · rw [Bool.toNat_false, add_zero, trc_dbl hz]
      · rw [Bool.toNat_false, add_zero, trc_add hz]

theorem lucasLoop_top (hz : nrm v ⟨z.re, z.im⟩ = 1) (c : ℕ) :
    lucasLoop 2 (trc z 1) c (Gen.bits c - 1) (2, trc z 1) =
      (trc z (2 * (c / 2)), trc z (2 * (c / 2) + 1)) := by
  have hb : 1 ≤ Gen.bits c := by
    unfold Gen.bits; split_ifs with h
    · exact le_refl _
    · exact Nat.size_pos.2 (Nat.pos_of_ne_zero h)
  have h0 : c >>> (Gen.bits c - 1 + 1) = 0 := by
    rw [Nat.sub_add_cancel hb, Nat.shiftRight_eq_div_pow]
    refine Nat.div_eq_of_lt ?_
    unfold Gen.bits; split_ifs with h
    · subst h; norm_num
    · exact Nat.lt_size_self c
  have := lucasLoop_eq hz c (Gen.bits c - 1)
  rw [h0, zero_add] at this
  rw [← this]
  have : trc z 0 = 2 := by rw [trc, pow_zero]; exact mul_one 2
  rw [this]

/-- `2 V_{k+1} - V_1 V_k` and `V_1² - 4`. -/
theorem trc_u (hz : nrm v ⟨z.re, z.im⟩ = 1) (k : ℕ) :
    2 * trc z (k + 1) - trc z k * trc z 1 = 4 * v * z.im * (z ^ k).im := by
  simp only [trc, pow_succ, pow_one, QuadraticAlgebra.re_mul, pow_zero, one_mul]
  ring

theorem trc_d (hz : nrm v ⟨z.re, z.im⟩ = 1) : trc z 1 ^ 2 - 2 - 2 = 4 * v * z.im * z.im := by
  simp only [trc, pow_one, nrm] at *
  linear_combination 4 * hz

/-- `lucas_odd` computes the power whose exponent is the cofactor with its lowest bit cleared. -/
theorem lucasOdd_eq (h2 : (2 : K) ≠ 0) {inv : K → K} (hinv : ∀ x, x ≠ 0 → inv x = x⁻¹)
    (i : El K) (hz : nrm v i = 1) (c : ℕ) :
    alg v (lucasOdd inv i c) = alg v i ^ (2 * (c / 2)) := by
  have hz' : nrm v ⟨(alg v i).re, (alg v i).im⟩ = 1 := hz
  have t1 : 2 * i.x = trc (alg v i) 1 := by simp [trc, alg]
  unfold lucasOdd
  dsimp only
  rw [show ((2 : ℤ) : K) = 2 by norm_num, t1, lucasLoop_top hz' c]
  dsimp only
  rw [trc_u hz', trc_d hz', hinv 2 h2]
  have him : (alg v i).im = i.y := rfl
  ext
  · simp only [alg, trc]
    field_simp
  · simp only [alg]
    by_cases hy : i.y = 0
    · have hi : alg v i = algebraMap K _ i.x := by
        rw [algebraMap_eq]; ext <;> simp [alg, hy]
      rw [hy, mul_zero]
      have : (⟨i.x, i.y⟩ : QuadraticAlgebra K v 0) = algebraMap K _ i.x := hi
      rw [hy] at this
      rw [this, ← map_pow]
      rfl
    · have hd : 4 * v * (alg v i).im * (alg v i).im ≠ 0 := by
        rw [him, show (4 : K) = 2 * 2 by norm_num]
        exact mul_ne_zero (mul_ne_zero (mul_ne_zero (mul_ne_zero h2 h2) v_ne) hy) hy
      rw [him] at hd
      have h4 : (4 : K) ≠ 0 := by rw [show (4 : K) = 2 * 2 by norm_num]; exact mul_ne_zero h2 h2
      have hv := v_ne (v := v)
      rw [hinv _ hd]
      field_simp

end Pbc.PairingA
