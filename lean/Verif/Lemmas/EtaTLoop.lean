import Verif.Lemmas.EtaTField
import Mathlib.Algebra.BigOperators.Intervals

/-! # The type I pairing: the loops of `algorithm4` and `algorithm5` -/

set_option autoImplicit false
set_option linter.unusedSectionVars false

namespace Pbc.EtaT

open Spec Tate
open Pbc.Ternary (E2 E3)

private instance : Fact (Nat.Prime 3) := ⟨by decide⟩

variable {F : Type*} [Field F] [DecidableEq F] [CharP F 3] [Fintype F]
  {K : Type*} [Field K] [DecidableEq K] [CharP K 3] {L : Type*} [Field L] [CharP L 3]
  [Algebra F K] [Algebra K L] {m : ℕ} {ρ : K} {σ : L}

/-- The unrolled form of `triPow`. -/
theorem triPow_prod (x y : K) (Q : Place L (-1 : K) 1) (n : ℕ) :
    triPow x y (n + 1) Q = ∏ j ∈ Finset.range (n + 1), tri (xj x j) (yj y j) Q ^ 3 ^ (n - j) := by
  induction n with
  | zero => simp [triPow]
  | succ n ih =>
    rw [triPow, ih, Finset.prod_range_succ _ (n + 1), ← Finset.prod_pow, Nat.sub_self, pow_zero, pow_one]
    congr 1
    refine Finset.prod_congr rfl fun j hj => ?_
    rw [← pow_mul, ← pow_succ]
    congr 2
    have := Finset.mem_range.1 hj
    omega

/-- The values of `xq` and `yq` in the loop. -/
theorem step4_q (xp yp xq yq : F) (R : E3 (E2 F)) (i : ℕ) :
    ((step4 xp yp)^[i] ⟨xq, yq, R⟩).xq = xq ^ 9 ^ i - i ∧
    ((step4 xp yp)^[i] ⟨xq, yq, R⟩).yq = (-1) ^ i * yq ^ 9 ^ i := by
  induction i with
  | zero => simp
  | succ i ih =>
    rw [Function.iterate_succ_apply']
    constructor
    · show (_ ^ 3) ^ 3 - 1 = _
      rw [ih.1, ← pow_mul, show 3 * 3 = 3 ^ 2 by norm_num, sub_pow, cast_pow, ← pow_mul, pow_succ 9]
      push_cast
      ring
    · show -(_ ^ 3) ^ 3 = _
      rw [ih.2, ← pow_mul, mul_pow, ← pow_mul yq, pow_succ 9]
      rw [← pow_mul, mul_comm i, pow_mul, show (-1 : F) ^ (3 * 3) = -1 by norm_num, pow_succ]
      ring

/-- The factor of the loop at step `i`. -/
def fac (ρ : K) (σ : L) (xp yp xq yq : F) (i : ℕ) : L :=
  algebraMap K L (algebraMap F K (yp * ((-1) ^ i * yq ^ 9 ^ i))) * σ -
    algebraMap K L ((algebraMap F K (xp + (xq ^ 9 ^ i - i)) - ρ) ^ 2)

namespace Tower

variable (T : Tower F K L m ρ σ)

include T

theorem value_fac (xp yp xq yq : F) (i : ℕ) :
    T.value (quadratic (xp + (xq ^ 9 ^ i - i)) (yp * ((-1) ^ i * yq ^ 9 ^ i))) = fac ρ σ xp yp xq yq i := by
  rw [value, value_quadratic, fac, map_pow, map_sub]
  rfl

theorem value_loop (xp yp xq yq : F) (R : E3 (E2 F)) (i : ℕ) :
    T.value ((step4 xp yp)^[i] ⟨xq, yq, R⟩).R =
      T.value R ^ 3 ^ i * ∏ j ∈ Finset.range i, fac ρ σ xp yp xq yq (j + 1) ^ 3 ^ (i - 1 - j) := by
  induction i with
  | zero => simp
  | succ i ih =>
    have hq := step4_q xp yp xq yq R (i + 1)
    rw [Function.iterate_succ_apply'] at hq ⊢
    have e : ((step4 xp yp) ((step4 xp yp)^[i] ⟨xq, yq, R⟩)).R =
        (cubic ((step4 xp yp)^[i] ⟨xq, yq, R⟩).R).mul
          (quadratic (xp + ((step4 xp yp) ((step4 xp yp)^[i] ⟨xq, yq, R⟩)).xq)
            (yp * ((step4 xp yp) ((step4 xp yp)^[i] ⟨xq, yq, R⟩)).yq)) := rfl
    rw [e, hq.1, hq.2, T.value_mul, T.value_cubic, T.value_fac, ih, mul_pow, ← pow_mul, ← pow_succ,
      Finset.prod_range_succ, ← Finset.prod_pow, mul_assoc]
    congr 2
    · refine Finset.prod_congr rfl fun j hj => ?_
      rw [← pow_mul, ← pow_succ]
      congr 2
      have := Finset.mem_range.1 hj
      omega
    · rw [show i + 1 - 1 - i = 0 by omega, pow_zero, pow_one]

theorem value_firstLine (m' : ℕ) (yp t yq : F) :
    T.value (firstLine m' yp t yq) = (if m' % 12 = 7 ∨ m' % 12 = 11 then -1 else 1) *
      (σ * algebraMap K L (algebraMap F K yq) - algebraMap K L (algebraMap F K yp * (algebraMap F K t - ρ))) := by
  rw [value, value_eq, firstLine]
  by_cases h : m' % 12 = 7 ∨ m' % 12 = 11
  · rw [if_pos h, if_pos h]
    simp only [map_neg, map_mul, map_zero, map_sub, RingHom.comp_apply]
    ring
  · rw [if_neg h, if_neg h]
    simp only [map_neg, map_mul, map_zero, map_sub, RingHom.comp_apply]
    ring

/-- The factors of the loop are the powers of the tripling functions. -/
theorem fac_tri {k i j : ℕ} (hm : m = 2 * k + 1) (hij : i + j = k) {xQ yQ : F} (h : yQ ^ 2 = xQ ^ 3 - xQ + 1)
    (hy : yQ ≠ 0) (xP yp : F) :
    fac ρ σ (xP + 1) yp (xQ ^ 3) (yQ ^ 3) i ^ 3 ^ j =
      tri (xj (algebraMap F K xP + k) j) (yj ((-1) ^ k * algebraMap F K yp) j) (T.place xQ yQ h hy) ^ 3 ^ (k + i) := by
  have h9 : ∀ n, 9 ^ n = 3 ^ (2 * n) := fun n => by rw [pow_mul]; norm_num
  have odd : ∀ n, (-1 : K) ^ 3 ^ n = -1 := fun n => Odd.neg_one_pow (Odd.pow (by decide))
  have sgn : ∀ a n : ℕ, ((-1 : K) ^ a) ^ 3 ^ n = (-1) ^ a := fun a n => by
    rw [← pow_mul, mul_comm, pow_mul, odd]
  have hP := T.alg_q xP
  have hyp := T.alg_q yp
  rw [fac, tri, sub_pow, mul_pow, sub_pow, mul_pow, ← map_pow, ← map_pow, ← map_pow, ← map_pow, sigma_pow T.hσ]
  simp only [place]
  rw [mul_pow σ, sigma_pow T.hσ, ← map_pow]
  have ex : (((algebraMap F K (xP + 1 + ((xQ ^ 3) ^ 9 ^ i - i)) - ρ) ^ 2) ^ 3 ^ j) =
      (((ρ - cube F K xQ - xj (algebraMap F K xP + k) j ^ 3 - 1) ^ 2) ^ 3 ^ (k + i)) := by
    rw [pow_right_comm, pow_right_comm _ 2 (3 ^ (k + i))]
    have e1 : (algebraMap F K (xP + 1 + ((xQ ^ 3) ^ 9 ^ i - i)) - ρ) ^ 3 ^ j =
        algebraMap F K xP ^ 3 ^ j + 1 + (algebraMap F K xQ ^ 3 ^ (k + i + 1) - i) - (ρ + j) := by
      rw [map_add, map_add, map_sub, map_one, map_natCast, map_pow, map_pow, sub_pow, add_pow, add_pow, sub_pow,
        rho_pow T.hρ, cast_pow, one_pow, ← pow_mul, ← pow_mul, h9]
      rw [show 3 * (3 ^ (2 * i) * 3 ^ j) = 3 ^ (k + i + 1) by rw [← hij, ← Nat.pow_add, ← pow_succ']; congr 1; ring]
    have e2 : (ρ - cube F K xQ - xj (algebraMap F K xP + k) j ^ 3 - 1) ^ 3 ^ (k + i) =
        ρ + (k + i : ℕ) - algebraMap F K xQ ^ 3 ^ (k + i + 1) - (algebraMap F K xP ^ 3 ^ j + k - j) - 1 := by
      have e3 : (xj (algebraMap F K xP + k) j ^ 3) ^ 3 ^ (k + i) = algebraMap F K xP ^ 3 ^ j + k - j := by
        rw [← pow_mul, ← pow_succ', xj, sub_pow, cast_pow, h9, add_pow, cast_pow, add_pow, cast_pow, ← pow_mul,
          show 3 ^ (2 * j) * 3 ^ (k + i + 1) = 3 ^ m * 3 ^ j by
            rw [← Nat.pow_add, ← Nat.pow_add, hm, ← hij]; congr 1; ring, pow_mul, hP]
      rw [sub_pow, sub_pow, sub_pow, one_pow, rho_pow T.hρ, e3, cube_apply, ← pow_mul, ← pow_succ']
    rw [e1, e2]
    have hk : (k : K) = i + j := by rw [← hij]; push_cast; ring
    push_cast
    rw [hk]
    ring
  rw [ex, map_pow (algebraMap K L) _ (3 ^ (k + i))]
  congr 1
  have e4 : (algebraMap F K (yp * ((-1) ^ i * (yQ ^ 3) ^ 9 ^ i))) ^ 3 ^ j =
      algebraMap F K yp ^ 3 ^ j * ((-1) ^ i * algebraMap F K yQ ^ 3 ^ (k + i + 1)) := by
    rw [map_mul, map_mul, map_pow, map_pow, map_pow, map_neg, map_one, mul_pow, mul_pow, sgn, ← pow_mul, ← pow_mul, h9]
    rw [show 3 * (3 ^ (2 * i) * 3 ^ j) = 3 ^ (k + i + 1) by rw [← hij, ← Nat.pow_add, ← pow_succ']; congr 1; ring]
  have e5 : (yj ((-1) ^ k * algebraMap F K yp) j ^ 3) ^ 3 ^ (k + i) =
      (-1) ^ j * ((-1) ^ k * algebraMap F K yp ^ 3 ^ j) := by
    rw [← pow_mul, ← pow_succ', yj, mul_pow, sgn, h9, mul_pow, sgn, mul_pow, sgn, ← pow_mul,
      show 3 ^ (2 * j) * 3 ^ (k + i + 1) = 3 ^ m * 3 ^ j by
        rw [← Nat.pow_add, ← Nat.pow_add, hm, ← hij]; congr 1; ring, pow_mul, hyp]
  have e6 : cube F K yQ ^ 3 ^ (k + i) = algebraMap F K yQ ^ 3 ^ (k + i + 1) := by
    rw [cube_apply, ← pow_mul, ← pow_succ']
  rw [map_pow (algebraMap F K), e4, e5, e6]
  simp only [map_mul, map_pow, map_neg, map_one]
  have s : (-1 : L) ^ i * (-1) ^ j = (-1) ^ j * (-1) ^ k * (-1) ^ (k + i) := by
    rw [← hij]
    have : ∀ n, (-1 : L) ^ n * (-1) ^ n = 1 := fun n => by rw [← mul_pow]; norm_num
    rw [_root_.pow_add, _root_.pow_add, _root_.pow_add]
    linear_combination (-(-1 : L) ^ j * (-1) ^ i * ((-1) ^ j * (-1) ^ j) * 1) * this i + (-(-1 : L) ^ j * (-1) ^ i ) * this j
  linear_combination (algebraMap K L (algebraMap F K yp) ^ 3 ^ j * algebraMap K L (algebraMap F K yQ) ^ 3 ^ (k + i + 1) * σ) * s


/-- What the loop of `algorithm4` computes. -/
theorem value_alg4 (hg : Good m) {xQ yQ : F} (h : yQ ^ 2 = xQ ^ 3 - xQ + 1) (hy : yQ ≠ 0) (xP yP : F) :
    ∃ s : L, s ^ 2 = 1 ∧ T.value (alg4 m xP yP xQ yQ) =
      s * eta m (algebraMap F K xP + ((m - 1) / 2 : ℕ)) ((-1) ^ ((m - 1) / 2) * algebraMap F K (signY m yP))
        (T.place xQ yQ h hy) ^ 3 ^ ((m - 1) / 2) := by
  have hm : m = 2 * ((m - 1) / 2) + 1 := by have := hg.odd; omega
  have hh : (m + 1) / 2 = (m - 1) / 2 + 1 := by omega
  have e0 : alg4 m xP yP xQ yQ = ((step4 (xP + 1) (signY m yP))^[(m - 1) / 2] ⟨xQ ^ 3, yQ ^ 3,
      (firstLine m (signY m yP) (xP + 1 + xQ ^ 3) (yQ ^ 3)).mul
        (quadratic (xP + 1 + xQ ^ 3) (signY m yP * yQ ^ 3))⟩).R := rfl
  have ef := T.value_fac (xP + 1) (signY m yP) (xQ ^ 3) (yQ ^ 3) 0
  simp only [pow_zero, pow_one, Nat.cast_zero, sub_zero, one_mul] at ef
  have el := T.value_firstLine m (signY m yP) (xP + 1 + xQ ^ 3) (yQ ^ 3)
  rw [eta, hh, triPow_prod]
  generalize (m - 1) / 2 = k at *
  have hprod : ∏ i ∈ Finset.range (k + 1), fac ρ σ (xP + 1) (signY m yP) (xQ ^ 3) (yQ ^ 3) i ^ 3 ^ (k - i) =
      (∏ j ∈ Finset.range (k + 1), tri (xj (algebraMap F K xP + k) j)
        (yj ((-1) ^ k * algebraMap F K (signY m yP)) j) (T.place xQ yQ h hy) ^ 3 ^ (k - j)) ^ 3 ^ k := by
    rw [← Finset.prod_pow, ← Finset.prod_range_reflect]
    refine Finset.prod_congr rfl fun j hj => ?_
    have hj' : j ≤ k := Nat.lt_succ_iff.1 (Finset.mem_range.1 hj)
    rw [show k + 1 - 1 - j = k - j by omega, show k - (k - j) = j by omega,
      T.fac_tri hm (i := k - j) (j := j) (by omega) h hy, ← pow_mul, ← Nat.pow_add, Nat.add_comm k]
  have hlin : lin m (algebraMap F K xP + k) ((-1) ^ k * algebraMap F K (signY m yP)) (T.place xQ yQ h hy) =
      σ * algebraMap K L (algebraMap F K (yQ ^ 3)) -
        algebraMap K L (algebraMap F K (signY m yP) * (algebraMap F K (xP + 1 + xQ ^ 3) - ρ)) := by
    have hs : (-1 : K) ^ k * (-1) ^ k = 1 := by rw [← mul_pow]; norm_num
    have hk : (m - 1) / 2 = k := by omega
    rw [lin, hk]
    simp only [place]
    rw [cube_apply, cube_apply, ← map_pow (algebraMap F K) yQ, sub_eq_add_neg (σ * _), ← map_neg (algebraMap K L)]
    congr 2
    rw [map_add, map_add, map_pow, map_one]
    linear_combination (algebraMap F K (signY m yP) * (ρ - algebraMap F K xQ ^ 3 - algebraMap F K xP - 1)) * hs
  rw [hlin, mul_pow, ← hprod, e0, T.value_loop, T.value_mul, el, ef, Finset.prod_range_succ', Nat.sub_zero]
  have hodd : Odd (3 ^ k) := Odd.pow (by decide)
  have hre : ∏ j ∈ Finset.range k, fac ρ σ (xP + 1) (signY m yP) (xQ ^ 3) (yQ ^ 3) (j + 1) ^ 3 ^ (k - 1 - j) =
      ∏ j ∈ Finset.range k, fac ρ σ (xP + 1) (signY m yP) (xQ ^ 3) (yQ ^ 3) (j + 1) ^ 3 ^ (k - (j + 1)) :=
    Finset.prod_congr rfl fun j _ => by rw [show k - 1 - j = k - (j + 1) by omega]
  by_cases hc : m % 12 = 7 ∨ m % 12 = 11
  · refine ⟨-1, by norm_num, ?_⟩
    rw [if_pos hc, hre, mul_pow, mul_pow, hodd.neg_one_pow]
    ring
  · refine ⟨1, by norm_num, ?_⟩
    rw [if_neg hc, hre, mul_pow, mul_pow, one_pow]
    ring

/-- Two steps of `algorithm4` are one step of `algorithm5`. -/
theorem step5_eq (hg : Good m) (xp yp : F) (s : St F) : step5 xp yp s = step4 xp yp (step4 xp yp s) := by
  have ey : (-((-((s.yq ^ 3) ^ 3)) ^ 3) ^ 3) = (((s.yq ^ 3) ^ 3) ^ 3) ^ 3 := by ring
  have eR : ∀ (R : E3 (E2 F)) (t u t' u' : F), ((cubic (cubic R)).mul ((alg4a t u).mul (quadratic t' u'))) =
      ((cubic ((cubic R).mul (quadratic t u))).mul (quadratic t' u')) := by
    intro R t u t' u'
    refine T.value_injective hg ?_
    rw [alg4a_eq]
    simp only [T.value_mul, T.value_cubic]
    ring
  have e : step4 xp yp (step4 xp yp s) = ⟨((((s.xq ^ 3) ^ 3 - 1) ^ 3) ^ 3 - 1), -((-((s.yq ^ 3) ^ 3)) ^ 3) ^ 3,
    (cubic ((cubic s.R).mul (quadratic (xp + ((s.xq ^ 3) ^ 3 - 1)) (yp * -((s.yq ^ 3) ^ 3))))).mul
      (quadratic (xp + ((((s.xq ^ 3) ^ 3 - 1) ^ 3) ^ 3 - 1)) (yp * -((-((s.yq ^ 3) ^ 3)) ^ 3) ^ 3))⟩ := rfl
  rw [e, ey, ← eR, mul_neg]
  rfl

theorem alg5_eq (hg : Good m) (hm : (m - 1) / 2 % 2 = 0) (xP yP xQ yQ : F) :
    alg5 m xP yP xQ yQ = alg4 m xP yP xQ yQ := by
  have e : ∀ n (xp yp : F) (s : St F), (step5 xp yp)^[n] s = (step4 xp yp)^[2 * n] s := by
    intro n xp yp s
    induction n with
    | zero => rfl
    | succ n ih =>
      rw [Function.iterate_succ_apply', ih, T.step5_eq hg, show 2 * (n + 1) = 2 * n + 1 + 1 by ring,
        Function.iterate_succ_apply', Function.iterate_succ_apply']
  rw [alg5, alg4]
  simp only [e]
  rw [show 2 * ((m - 1) / 4) = (m - 1) / 2 by omega]

end Tower

end Pbc.EtaT
