import Verif.Lemmas.Sextic

/-!
# Orders of the curves that are generated

The number of points of a curve and its quadratic twist, of `Y² = X³ + 1` for type E, of the curves and
their sextic twists for type F.
-/

set_option autoImplicit false

namespace Tate

open WeierstrassCurve WeierstrassCurve.Affine
open Spec (EC)

variable {F : Type*} [Field F] [DecidableEq F] [Fintype F]

/-- The solutions are nonsingular when the discriminant is not 0. -/
theorem nonsingular_of_disc {a b : F} (h2 : (2 : F) ≠ 0) (hD : 4 * a ^ 3 + 27 * b ^ 2 ≠ 0) (x y : F)
    (h : y ^ 2 = x ^ 3 + a * x + b) : (EC a b).Nonsingular x y := by
  rw [nonsingular_iff, equation_iff]
  refine ⟨by simpa [EC] using h, ?_⟩
  by_cases hy : y = 0
  · left
    subst hy
    simp only [EC]
    intro h0
    refine hD ?_
    have e1 : 3 * x ^ 2 + a = 0 := by linear_combination -h0
    have e2 : x ^ 3 + a * x + b = 0 := by linear_combination -h
    linear_combination (-18 * a * x + 27 * b) * e2 + (6 * a * x ^ 2 - 9 * b * x + 4 * a ^ 2) * e1
  · right
    simp only [EC]
    intro h0
    exact mul_ne_zero h2 hy (by linear_combination h0)

/-- A curve and its quadratic twist have `2 (q + 1)` points together. -/
theorem card_twist {a b v : F} (h2 : (2 : F) ≠ 0) (hD : 4 * a ^ 3 + 27 * b ^ 2 ≠ 0) (hv : ¬ IsSquare v) :
    Nat.card (EC a b).Point + Nat.card (EC (v ^ 2 * a) (v ^ 3 * b)).Point = 2 * Fintype.card F + 2 := by
  have hv0 : v ≠ 0 := by rintro rfl; exact hv IsSquare.zero
  have hD' : 4 * (v ^ 2 * a) ^ 3 + 27 * (v ^ 3 * b) ^ 2 ≠ 0 := by
    rw [show 4 * (v ^ 2 * a) ^ 3 + 27 * (v ^ 3 * b) ^ 2 = v ^ 6 * (4 * a ^ 3 + 27 * b ^ 2) by ring]
    exact mul_ne_zero (pow_ne_zero _ hv0) hD
  rw [card_eq (nonsingular_of_disc h2 hD), card_eq (nonsingular_of_disc h2 hD')]
  have hz : (∑ x : F, ((roots2 (x ^ 3 + a * x + b)).card : ℤ)) +
      ∑ x : F, ((roots2 (x ^ 3 + v ^ 2 * a * x + v ^ 3 * b)).card : ℤ) = 2 * Fintype.card F := by
    rw [← Equiv.sum_comp (Equiv.mulLeft₀ v hv0) fun x => ((roots2 (x ^ 3 + v ^ 2 * a * x + v ^ 3 * b)).card : ℤ),
      ← Finset.sum_add_distrib]
    rw [Finset.sum_congr rfl (g := fun _ : F => (2 : ℤ))]
    · simp [mul_comm]
    · intro x _
      rw [roots2_card h2, roots2_card h2]
      have : (Equiv.mulLeft₀ v hv0 x) ^ 3 + v ^ 2 * a * (Equiv.mulLeft₀ v hv0 x) + v ^ 3 * b =
          v * v ^ 2 * (x ^ 3 + a * x + b) := by
        simp only [Equiv.mulLeft₀_apply]; ring
      rw [this, map_mul, map_mul, map_pow, (quadraticChar_neg_one_iff_not_isSquare).2 hv]
      ring
  have : (∑ x : F, (roots2 (x ^ 3 + a * x + b)).card) +
      ∑ x : F, (roots2 (x ^ 3 + v ^ 2 * a * x + v ^ 3 * b)).card = 2 * Fintype.card F := by exact_mod_cast hz
  omega

theorem three_dvd_card (h2 : (2 : F) ≠ 0) (h3 : (3 : F) ≠ 0) : 3 ∣ Nat.card (EC (0 : F) 1).Point := by
  have hns : (EC (0 : F) 1).Nonsingular 0 1 := nonsingular_of_disc h2 (by
    simp only [ne_eq]
    rw [show (4 : F) * 0 ^ 3 + 27 * 1 ^ 2 = 3 ^ 3 by norm_num]
    exact pow_ne_zero _ h3) 0 1 (by ring)
  have hne : (1 : F) ≠ (EC (0 : F) 1).negY 0 1 := by
    simp only [EC, negY]
    intro h
    exact h2 (by linear_combination h)
  have hd : (Point.some 0 1 hns : (EC (0 : F) 1).Point) + Point.some 0 1 hns = -Point.some 0 1 hns := by
    rw [Point.add_self_of_Y_ne hne, Point.neg_some, Point.some.injEq]
    have hs : (EC (0 : F) 1).slope 0 0 1 1 = 0 := by
      rw [slope_of_Y_ne rfl hne]
      simp [EC]
    rw [hs]
    constructor
    · simp [EC, addX]
    · simp [EC, addY, negAddY, addX, negY]
  have h3P : 3 • (Point.some 0 1 hns : (EC (0 : F) 1).Point) = 0 := by
    rw [show 3 = 2 + 1 from rfl, add_smul, two_smul, one_smul, hd, neg_add_cancel]
  have := addOrderOf_eq_prime (p := 3) h3P (Point.some_ne_zero _)
  rw [← this]
  exact addOrderOf_dvd_natCard _

theorem two_dvd_card {a b x : F} (h2 : (2 : F) ≠ 0) (hD : 4 * a ^ 3 + 27 * b ^ 2 ≠ 0)
    (hx : x ^ 3 + a * x + b = 0) : 2 ∣ Nat.card (EC a b).Point := by
  have hns : (EC a b).Nonsingular x 0 := nonsingular_of_disc h2 hD x 0 (by linear_combination -hx)
  have hd : 2 • (Point.some x 0 hns : (EC a b).Point) = 0 := by
    rw [two_smul, Point.add_self_of_Y_eq]
    simp [EC, negY]
  have := addOrderOf_eq_prime (p := 2) hd (Point.some_ne_zero _)
  rw [← this]
  exact addOrderOf_dvd_natCard _

/-- The curve `Y² = X³ + 1` over a prime field of `3 m² + 1` elements has trace 2. -/
theorem card_typeE {m : ℕ} (hp : (Fintype.card F).Prime) (hq : Fintype.card F = 3 * m ^ 2 + 1) :
    Nat.card (EC (0 : F) 1).Point + 1 = Fintype.card F := by
  have hm0 : 0 < m := by
    rcases Nat.eq_zero_or_pos m with rfl | h
    · rw [hq] at hp; exact absurd hp (by simpa using Nat.not_prime_one)
    · exact h
  have hodd : Fintype.card F % 2 = 1 := by
    rcases hp.eq_two_or_odd with h | h
    · rw [h] at hq; nlinarith
    · exact h
  have hme : m % 2 = 0 := by
    rcases Nat.mod_two_eq_zero_or_one m with h | h
    · exact h
    · exfalso
      have : m ^ 2 % 2 = 1 := by rw [Nat.pow_mod, h]
      omega
  obtain ⟨m', rfl⟩ : ∃ m', m = 2 * m' := ⟨m / 2, by omega⟩
  have h6 : 6 ∣ Fintype.card F - 1 := ⟨2 * m' ^ 2, by rw [hq, Nat.add_sub_cancel]; ring⟩
  have h2 := two_ne_of h6
  have h3 := three_ne_of h6
  obtain ⟨a, b, hn, hN, -⟩ := card_sextic h6 (one_ne_zero : (1 : F) ≠ 0)
  have d3 := three_dvd_card h2 h3
  have d2 : 2 ∣ Nat.card (EC (0 : F) 1).Point := two_dvd_card (x := -1) h2 (by
    rw [show (4 : F) * 0 ^ 3 + 27 * 1 ^ 2 = 3 ^ 3 by norm_num]
    exact pow_ne_zero _ h3) (by ring)
  generalize Nat.card (EC (0 : F) 1).Point = N at *
  generalize Fintype.card F = q at *
  have hqz : (q : ℤ) = 3 * (2 * m') ^ 2 + 1 := by exact_mod_cast hq
  obtain ⟨d, rfl⟩ : ∃ d, b = 2 * d := ⟨b / 2, by omega⟩
  obtain ⟨c, hc⟩ : ∃ c, c = a + d := ⟨_, rfl⟩
  have hcd : c ^ 2 + 3 * d ^ 2 = q := by rw [hc, ← hn]; ring
  have hN' : (N : ℤ) = q + 1 + 2 * c := by rw [hN, hc]; ring
  obtain ⟨M, hM⟩ : ∃ M : ℤ, M = 2 * m' := ⟨_, rfl⟩
  rw [← hM] at hqz
  have hprod : (c * M - d) * (c * M + d) = q * (M ^ 2 - d ^ 2) := by
    linear_combination M ^ 2 * hcd + d ^ 2 * hqz
  have hc1 : c ^ 2 = 1 := by
    have hpz : Prime (q : ℤ) := Nat.prime_iff_prime_int.1 hp
    have key : ∀ e : ℤ, c ^ 2 + 3 * e ^ 2 = q → (q : ℤ) ∣ c * M - e → c ^ 2 = 1 := by
      intro e he ⟨k, hk⟩
      have h1 : (c + 3 * e * M) ^ 2 + 3 * (c * M - e) ^ 2 = (q : ℤ) ^ 2 := by
        linear_combination (q : ℤ) * he - (c ^ 2 + 3 * e ^ 2) * hqz
      have hq0 : (0 : ℤ) < q := by exact_mod_cast hp.pos
      have hk0 : k = 0 := by
        by_contra hk0
        have : 1 ≤ k ^ 2 := by
          have := sq_nonneg k
          have : k ^ 2 ≠ 0 := pow_ne_zero _ hk0
          omega
        rw [hk] at h1
        nlinarith [sq_nonneg (c + 3 * e * M), mul_pos hq0 hq0]
      rw [hk0, mul_zero] at hk
      have he' : e = c * M := by linear_combination -hk
      rw [he'] at he
      have : (c ^ 2 - 1) * q = 0 := by linear_combination he + c ^ 2 * hqz
      rcases mul_eq_zero.1 this with h | h
      · linear_combination h
      · omega
    rcases hpz.dvd_or_dvd (Dvd.intro _ hprod.symm) with h | h
    · exact key d hcd h
    · exact key (-d) (by linear_combination hcd) (by rwa [sub_neg_eq_add])
  have hc' : c = 1 ∨ c = -1 := by
    have : (c - 1) * (c + 1) = 0 := by linear_combination hc1
    rcases mul_eq_zero.1 this with h | h
    · exact Or.inl (by omega)
    · exact Or.inr (by omega)
  have hd3 : (3 : ℤ) ∣ N := by exact_mod_cast d3
  rcases hc' with rfl | rfl
  · exfalso
    have : (q : ℤ) = 3 * (M ^ 2) + 1 := hqz
    omega
  · omega

/-- Hasse's bound for the curves `Y² = X³ + B`, with the square that is missing. -/
theorem hasse_sextic (h6 : 6 ∣ Fintype.card F - 1) {B : F} (hB : B ≠ 0) :
    ∃ τ b : ℤ, (Nat.card (EC 0 B).Point : ℤ) = Fintype.card F + 1 + τ ∧ τ ^ 2 + 3 * b ^ 2 = 4 * Fintype.card F := by
  obtain ⟨a, b, h1, h2, -⟩ := card_sextic h6 hB
  exact ⟨2 * a + b, b, h2, by rw [← h1]; ring⟩

section bn

/-- The polynomials of type F. -/
def bnQ (x : ℤ) : ℤ := 36 * x ^ 4 + 36 * x ^ 3 + 24 * x ^ 2 + 6 * x + 1
/-- The order of the group. -/
def bnR (x : ℤ) : ℤ := 36 * x ^ 4 + 36 * x ^ 3 + 18 * x ^ 2 + 6 * x + 1
/-- The trace. -/
def bnT (x : ℤ) : ℤ := 6 * x ^ 2 + 1

theorem bnQ_eq (x : ℤ) : bnR x = bnQ x + 1 - bnT x := by unfold bnR bnQ bnT; ring

theorem bn_square (x : ℤ) : 4 * bnQ x - bnT x ^ 2 = 3 * (6 * x ^ 2 + 4 * x + 1) ^ 2 := by
  unfold bnQ bnT; ring

theorem bn_six {x : ℤ} {q : ℕ} (hq : (q : ℤ) = bnQ x) : 6 ∣ q - 1 := by
  have h : (q : ℤ) = 6 * (6 * x ^ 4 + 6 * x ^ 3 + 4 * x ^ 2 + x) + 1 := by rw [hq, bnQ]; ring
  generalize 6 * x ^ 4 + 6 * x ^ 3 + 4 * x ^ 2 + x = y at h
  omega

theorem bnQ_ge {x : ℤ} (hx : x ≠ 0) : 19 ≤ bnQ x := by
  unfold bnQ
  rcases lt_or_gt_of_ne hx with h | h
  · have e : 36 * x ^ 4 + 36 * x ^ 3 + 24 * x ^ 2 + 6 * x + 1 = 36 * (x ^ 2 * (x * (x + 1))) + 18 * (x * (x + 1)) + 6 * x ^ 2 - 12 * x + 1 := by ring
    have h1 : 0 ≤ x * (x + 1) := by nlinarith
    have h2 : 0 ≤ x ^ 2 * (x * (x + 1)) := mul_nonneg (sq_nonneg x) h1
    nlinarith
  · have h1 : 1 ≤ x ^ 2 := by nlinarith
    have h2 : 0 ≤ x ^ 3 := by positivity
    nlinarith

theorem arith_three {q t τ : ℤ} (hq : 19 ≤ q) (ht : t ^ 2 ≤ 4 * q) (hτ : τ ^ 2 ≤ 4 * q)
    (h : 2 * (q + 1) ≤ τ + 3 * t) : False := by
  have e3 : (τ + 3 * t) ^ 2 = 4 * τ ^ 2 + 12 * t ^ 2 - 3 * (τ - t) ^ 2 := by ring
  have e4 : (2 * (q + 1)) ^ 2 ≤ (τ + 3 * t) ^ 2 := pow_le_pow_left₀ (by linarith) h 2
  have e5 : (2 * (q + 1)) ^ 2 ≤ 64 * q := by linarith [sq_nonneg (τ - t)]
  have e6 : q * 19 ≤ q * q := mul_le_mul_of_nonneg_left hq (by linarith)
  linarith [show (2 * (q + 1)) ^ 2 = 4 * (q * q) + 8 * q + 4 by ring]

theorem arith_two {q t τ : ℤ} (hq : 19 ≤ q) (ht : t ^ 2 ≤ 4 * q) (hτ : τ ^ 2 ≤ 4 * q)
    (h : q + 1 = τ + 2 * t) : q < 35 := by
  have e3 : (τ + 2 * t) ^ 2 = 3 * τ ^ 2 + 6 * t ^ 2 - 2 * (τ - t) ^ 2 := by ring
  have e5 : (q + 1) ^ 2 ≤ 36 * q := by rw [h, e3]; linarith [sq_nonneg (τ - t)]
  by_contra h35
  have e6 : q * 35 ≤ q * q := mul_le_mul_of_nonneg_left (by linarith) (by linarith)
  linarith [show (q + 1) ^ 2 = q * q + 2 * q + 1 by ring]

theorem bnQ_small {x : ℤ} (hx : x ≠ 0) (h : bnQ x < 35) : x = -1 := by
  unfold bnQ at h
  have h1 : x < 1 := by
    by_contra h1
    have h2 : 1 ≤ x ^ 2 := by nlinarith
    have h3 : 1 ≤ x ^ 3 := by nlinarith
    have h4 : 1 ≤ x ^ 4 := by nlinarith
    nlinarith
  have h2 : -2 < x := by
    by_contra h2
    have h3 : 2 ≤ x * (x + 1) := by nlinarith
    have h4 : 4 ≤ x ^ 2 := by nlinarith
    have h5 : 8 ≤ x ^ 2 * (x * (x + 1)) := by nlinarith
    nlinarith
  omega

theorem bn_not_dvd {x : ℤ} (hx : x ≠ 0) : ¬ bnR x ∣ 2 * bnT x := by
  intro h
  have hle := Int.le_of_dvd (by unfold bnT; positivity) h
  have hx1 : x = -1 := by
    unfold bnR bnT at hle
    have h1 : x < 1 := by
      by_contra h1
      have h3 : 1 ≤ x ^ 3 := by nlinarith [show 1 ≤ x ^ 2 by nlinarith]
      have h4 : 0 ≤ x ^ 4 := by positivity
      nlinarith
    have h2 : -2 < x := by
      by_contra h2
      have h3 : 2 ≤ x * (x + 1) := by nlinarith
      have h4 : 4 ≤ x ^ 2 := by nlinarith
      have h5 : 8 ≤ x ^ 2 * (x * (x + 1)) := by nlinarith
      nlinarith
    omega
  subst hx1
  norm_num [bnR, bnT] at h

theorem arith_ext {q t N τ c V k : ℤ} (hq : 19 ≤ q) (hsq : 4 * q - t ^ 2 = 3 * V ^ 2) (hpos : 0 < N)
    (hN : N = q ^ 2 + 1 + τ) (hτ : τ ^ 2 + 3 * c ^ 2 = 4 * q ^ 2) (hk : N = ((q + 1) ^ 2 - t ^ 2) * k) : k = 1 := by
  have hτ2 : τ ≤ 2 * q := by
    by_contra h
    have : (2 * q) ^ 2 < τ ^ 2 := pow_lt_pow_left₀ (by linarith) (by linarith) (by norm_num)
    nlinarith [sq_nonneg c]
  have hqq : q * 19 ≤ q * q := mul_le_mul_of_nonneg_left hq (by linarith)
  have ht : t ^ 2 ≤ 4 * q := by linarith [sq_nonneg V]
  have hp0 : 0 < (q + 1) ^ 2 - t ^ 2 := by nlinarith
  have hk0 : 0 < k := by
    by_contra h
    have : ((q + 1) ^ 2 - t ^ 2) * k ≤ 0 := mul_nonpos_of_nonneg_of_nonpos hp0.le (by linarith)
    linarith
  by_contra h
  have hk2 : 2 ≤ k := by omega
  have : ((q + 1) ^ 2 - t ^ 2) * 2 ≤ N := by rw [hk]; exact mul_le_mul_of_nonneg_left hk2 hp0.le
  nlinarith

/-- A curve `Y² = X³ + b` with a point of order `r` has exactly `r` points. -/
theorem card_bn {x : ℤ} {r : ℕ} (hx : x ≠ 0) (hq : (Fintype.card F : ℤ) = bnQ x) (hr : (r : ℤ) = bnR x)
    (hrp : r.Prime) {b : F} (hb : b ≠ 0) {P : (EC 0 b).Point} (hP : P ≠ 0) (hrP : r • P = 0) :
    Nat.card (EC 0 b).Point = r := by
  have := Fact.mk hrp
  have hord := addOrderOf_eq_prime hrP hP
  have hdvd : r ∣ Nat.card (EC 0 b).Point := by rw [← hord]; exact addOrderOf_dvd_natCard _
  obtain ⟨τ, c, hN, hτ⟩ := hasse_sextic (bn_six hq) hb
  obtain ⟨k, hk⟩ := hdvd
  have hpos : 0 < Nat.card (EC 0 b).Point := Nat.card_pos
  rw [hk] at hN hpos ⊢
  rw [hq] at hτ hN
  have hr0 : (0 : ℤ) < r := by exact_mod_cast hrp.pos
  have hqr := bnQ_eq x
  have hsq := bn_square x
  have hq19 := bnQ_ge hx
  have ht2 : bnT x ^ 2 ≤ 4 * bnQ x := by nlinarith [sq_nonneg (6 * x ^ 2 + 4 * x + 1)]
  have hτ2 : τ ^ 2 ≤ 4 * bnQ x := by nlinarith [sq_nonneg c]
  have ht0 : 0 < bnT x := by unfold bnT; positivity
  push_cast at hN
  have hk1 : k = 1 := by
    by_contra hk1
    rcases Nat.lt_or_ge k 3 with h3 | h3
    · have hk2 : k = 2 := by
        rcases k with _ | _ | _ | k
        · simp at hpos
        · exact absurd rfl hk1
        · rfl
        · omega
      subst hk2
      push_cast at hN
      have e : bnQ x + 1 = τ + 2 * bnT x := by rw [hr, hqr] at hN; linear_combination hN
      have hx1 := bnQ_small hx (arith_two hq19 ht2 hτ2 e)
      subst hx1
      norm_num [bnQ, bnT] at e hτ
      have : τ = 6 := by omega
      subst this
      omega
    · have h3' : (3 : ℤ) ≤ k := by exact_mod_cast h3
      have e : 3 * (bnQ x + 1 - bnT x) ≤ bnQ x + 1 + τ := by rw [← hqr, ← hr, ← hN]; nlinarith
      exact arith_three hq19 ht2 hτ2 (by linarith)
  rw [hk1, mul_one]

end bn

section extension

variable {K : Type*} [Field K] [DecidableEq K] [Fintype K] [Algebra F K]

theorem card_dvd_ext (a b : F) : Nat.card (EC a b).Point ∣ Nat.card (EC (algebraMap F K a) (algebraMap F K b)).Point := by
  have e1 : (EC a b)⁄F = EC a b := by simp [EC, WeierstrassCurve.map, WeierstrassCurve.baseChange]
  have e2 : (EC a b)⁄K = EC (algebraMap F K a) (algebraMap F K b) := by
    simp [EC, WeierstrassCurve.map, WeierstrassCurve.baseChange]
  have := AddSubgroup.card_dvd_of_injective (Point.map (W' := EC a b) (Algebra.ofId F K)) (Point.map_injective _)
  rwa [e1, e2] at this

/-- Twisting by a square does not change the number of points. -/
theorem card_square {a b w : K} (h2 : (2 : K) ≠ 0) (hD : 4 * a ^ 3 + 27 * b ^ 2 ≠ 0) (hw : w ≠ 0) :
    Nat.card (EC ((w ^ 2) ^ 2 * a) ((w ^ 2) ^ 3 * b)).Point = Nat.card (EC a b).Point := by
  have hD' : 4 * ((w ^ 2) ^ 2 * a) ^ 3 + 27 * ((w ^ 2) ^ 3 * b) ^ 2 ≠ 0 := by
    rw [show 4 * ((w ^ 2) ^ 2 * a) ^ 3 + 27 * ((w ^ 2) ^ 3 * b) ^ 2 = w ^ 12 * (4 * a ^ 3 + 27 * b ^ 2) by ring]
    exact mul_ne_zero (pow_ne_zero _ hw) hD
  rw [card_eq (nonsingular_of_disc h2 hD), card_eq (nonsingular_of_disc h2 hD')]
  congr 1
  rw [← Equiv.sum_comp (Equiv.mulLeft₀ (w ^ 2) (pow_ne_zero 2 hw))]
  refine Finset.sum_congr rfl fun x _ => ?_
  have hz : ((roots2 ((Equiv.mulLeft₀ (w ^ 2) (pow_ne_zero 2 hw)) x ^ 3 +
      (w ^ 2) ^ 2 * a * (Equiv.mulLeft₀ (w ^ 2) (pow_ne_zero 2 hw)) x + (w ^ 2) ^ 3 * b)).card : ℤ) =
      (roots2 (x ^ 3 + a * x + b)).card := by
    rw [roots2_card h2, roots2_card h2, Equiv.mulLeft₀_apply,
      show (w ^ 2 * x) ^ 3 + (w ^ 2) ^ 2 * a * (w ^ 2 * x) + (w ^ 2) ^ 3 * b =
        (w ^ 3) ^ 2 * (x ^ 3 + a * x + b) by ring, map_mul, quadraticChar_sq_one' (pow_ne_zero 3 hw), one_mul]
  exact_mod_cast hz

/-- The number of points over the quadratic extension. -/
theorem card_bn_two {x : ℤ} {r : ℕ} (hx : x ≠ 0) (hq : (Fintype.card F : ℤ) = bnQ x) (hr : (r : ℤ) = bnR x)
    (hrp : r.Prime) {b : F} (hb : b ≠ 0) (hN : Nat.card (EC 0 b).Point = r)
    (hK : Fintype.card K = Fintype.card F ^ 2) :
    (Nat.card (EC 0 (algebraMap F K b)).Point : ℤ) = bnR x * (bnQ x + 1 + bnT x) := by
  have h6 := bn_six hq
  have h2 := two_ne_of h6
  have h3 := three_ne_of h6
  have hD : 4 * (0 : F) ^ 3 + 27 * b ^ 2 ≠ 0 := by
    rw [show 4 * (0 : F) ^ 3 + 27 * b ^ 2 = 3 ^ 3 * b ^ 2 by ring]
    exact mul_ne_zero (pow_ne_zero _ h3) (pow_ne_zero _ hb)
  have hchar : ringChar F ≠ 2 := fun hc => h2 (by
    have := CharP.cast_eq_zero F (ringChar F)
    rwa [hc] at this)
  have hinj := (algebraMap F K).injective
  have h2K : (2 : K) ≠ 0 := by
    have := (map_ne_zero (algebraMap F K)).2 h2
    rwa [map_ofNat] at this
  have h3K : (3 : K) ≠ 0 := by
    have := (map_ne_zero (algebraMap F K)).2 h3
    rwa [map_ofNat] at this
  have hbK : algebraMap F K b ≠ 0 := (map_ne_zero _).2 hb
  have hDK : 4 * (0 : K) ^ 3 + 27 * (algebraMap F K b) ^ 2 ≠ 0 := by
    rw [show 4 * (0 : K) ^ 3 + 27 * (algebraMap F K b) ^ 2 = 3 ^ 3 * (algebraMap F K b) ^ 2 by ring]
    exact mul_ne_zero (pow_ne_zero _ h3K) (pow_ne_zero _ hbK)
  -- a nonresidue, its root in the extension
  obtain ⟨v, hv⟩ := FiniteField.exists_nonsquare hchar
  have hv0 : v ≠ 0 := by rintro rfl; exact hv IsSquare.zero
  have htw := card_twist h2 hD hv
  rw [hN, mul_zero] at htw
  have hw : ∃ w : K, w ^ 2 = algebraMap F K v := by
    have hcK : ringChar K ≠ 2 := fun hc => h2K (by
      have := CharP.cast_eq_zero K (ringChar K)
      rwa [hc] at this)
    have hs : IsSquare (algebraMap F K v) := by
      rw [FiniteField.isSquare_iff hcK ((map_ne_zero _).2 hv0), hK, ← map_pow]
      have hodd : Fintype.card F % 2 = 1 := FiniteField.odd_card_of_char_ne_two hchar
      have e : Fintype.card F ^ 2 / 2 = (Fintype.card F - 1) * ((Fintype.card F + 1) / 2) := by
        obtain ⟨m, hm⟩ : ∃ m, Fintype.card F = 2 * m + 1 := ⟨Fintype.card F / 2, by omega⟩
        rw [hm, show (2 * m + 1) ^ 2 = 2 * (2 * m * (m + 1)) + 1 by ring, Nat.add_sub_cancel,
          show 2 * m + 1 + 1 = 2 * (m + 1) by ring, Nat.mul_div_cancel_left _ (by norm_num)]
        omega
      rw [e, pow_mul, FiniteField.pow_card_sub_one_eq_one v hv0, one_pow, map_one]
    obtain ⟨w, hw⟩ := hs
    exact ⟨w, by rw [hw, pow_two]⟩
  obtain ⟨w, hw⟩ := hw
  have hw0 : w ≠ 0 := by
    rintro rfl
    rw [zero_pow (by norm_num)] at hw
    exact (map_ne_zero (algebraMap F K)).2 hv0 hw.symm
  have d1 : r ∣ Nat.card (EC 0 (algebraMap F K b)).Point := by
    have := card_dvd_ext (K := K) 0 b
    rwa [hN, map_zero] at this
  have d2 : 2 * Fintype.card F + 2 - r ∣ Nat.card (EC 0 (algebraMap F K b)).Point := by
    have := card_dvd_ext (K := K) 0 (v ^ 3 * b)
    have hc := card_square (a := 0) (b := algebraMap F K b) h2K hDK hw0
    rw [mul_zero, hw, ← map_pow, ← map_mul] at hc
    rw [map_zero, hc, show Nat.card (EC 0 (v ^ 3 * b)).Point = 2 * Fintype.card F + 2 - r by omega] at this
    exact this
  have hqr := bnQ_eq x
  have hq19 := bnQ_ge hx
  have ht0 : 0 < bnT x := by unfold bnT; positivity
  have hsq := bn_square x
  have hrlt : (r : ℤ) ≤ 2 * bnQ x + 2 := by
    have : r ≤ 2 * Fintype.card F + 2 := by omega
    rw [← hq]; exact_mod_cast this
  have htz : ((2 * Fintype.card F + 2 - r : ℕ) : ℤ) = bnQ x + 1 + bnT x := by
    have : r ≤ 2 * Fintype.card F + 2 := by omega
    push_cast [Nat.cast_sub this]
    rw [hq, hr, hqr]; ring
  have hcop : Nat.Coprime r (2 * Fintype.card F + 2 - r) := by
    rw [Nat.Prime.coprime_iff_not_dvd hrp]
    intro hd
    have hd' : (r : ℤ) ∣ bnQ x + 1 + bnT x := by rw [← htz]; exact_mod_cast hd
    have h2t : (r : ℤ) ∣ 2 * bnT x := by
      have : (2 : ℤ) * bnT x = bnQ x + 1 + bnT x - r := by rw [hr, hqr]; ring
      rw [this]
      exact dvd_sub hd' (dvd_refl _)
    rw [hr] at h2t
    exact bn_not_dvd hx h2t
  have hd := Nat.Coprime.mul_dvd_of_dvd_of_dvd hcop d1 d2
  have hdz : bnR x * (bnQ x + 1 + bnT x) ∣ (Nat.card (EC 0 (algebraMap F K b)).Point : ℤ) := by
    rw [← hr, ← htz]; exact_mod_cast hd
  have h6K : 6 ∣ Fintype.card K - 1 := by
    rw [hK]
    obtain ⟨m, hm⟩ := h6
    have h1 : 1 < Fintype.card F := Fintype.one_lt_card
    have : Fintype.card F = 6 * m + 1 := by omega
    rw [this]
    exact ⟨6 * m ^ 2 + 2 * m, by rw [show (6 * m + 1) ^ 2 = 6 * (6 * m ^ 2 + 2 * m) + 1 by ring, Nat.add_sub_cancel]⟩
  obtain ⟨τ, c, hN2, hτ⟩ := hasse_sextic h6K hbK
  have hKz : (Fintype.card K : ℤ) = bnQ x ^ 2 := by rw [hK, ← hq]; push_cast; rfl
  rw [hKz] at hN2 hτ
  have hpos : 0 < (Nat.card (EC 0 (algebraMap F K b)).Point : ℤ) := by exact_mod_cast Nat.card_pos
  obtain ⟨k, hk⟩ := hdz
  have hprod : bnR x * (bnQ x + 1 + bnT x) = (bnQ x + 1) ^ 2 - bnT x ^ 2 := by rw [hqr]; ring
  have hk1 : k = 1 := arith_ext hq19 hsq hpos hN2 hτ (by rw [hk, hprod])
  rw [hk, hk1, mul_one]

/-- The two sextic twists over the quadratic extension. -/
theorem card_bn_twist {x : ℤ} {r : ℕ} (hx : x ≠ 0) (hq : (Fintype.card F : ℤ) = bnQ x) (hr : (r : ℤ) = bnR x)
    (hrp : r.Prime) {b : F} (hb : b ≠ 0) (hN : Nat.card (EC 0 b).Point = r)
    (hK : Fintype.card K = Fintype.card F ^ 2) {g : K} (g0 : g ≠ 0) (g2 : ∀ c, c ^ 2 ≠ g) (g3 : ∀ c, c ^ 3 ≠ g) :
    ((Nat.card (EC 0 (g * algebraMap F K b)).Point : ℤ) = bnR x * (2 * bnQ x - bnR x) ∧
      (Nat.card (EC 0 (g ^ 5 * algebraMap F K b)).Point : ℤ) = bnQ x ^ 2 + 1 + 2 * bnR x) ∨
    ((Nat.card (EC 0 (g * algebraMap F K b)).Point : ℤ) = bnQ x ^ 2 + 1 + 2 * bnR x ∧
      (Nat.card (EC 0 (g ^ 5 * algebraMap F K b)).Point : ℤ) = bnR x * (2 * bnQ x - bnR x)) := by
  have h2 := card_bn_two (K := K) hx hq hr hrp hb hN hK
  have h6K : 6 ∣ Fintype.card K - 1 := by
    rw [hK]
    obtain ⟨m, hm⟩ := bn_six hq
    have h1 : 1 < Fintype.card F := Fintype.one_lt_card
    have : Fintype.card F = 6 * m + 1 := by omega
    rw [this]
    exact ⟨6 * m ^ 2 + 2 * m, by rw [show (6 * m + 1) ^ 2 = 6 * (6 * m ^ 2 + 2 * m) + 1 by ring, Nat.add_sub_cancel]⟩
  obtain ⟨a, c, h3, h4, h5⟩ := card_sextic h6K ((map_ne_zero (algebraMap F K)).2 hb)
  have hKz : (Fintype.card K : ℤ) = bnQ x ^ 2 := by rw [hK, ← hq]; push_cast; rfl
  rw [hKz] at h3 h4 h5
  have hτ : 2 * a + c = 36 * x ^ 4 + 72 * x ^ 3 + 36 * x ^ 2 + 12 * x + 1 := by
    rw [h2] at h4
    have : 2 * a + c = bnR x * (bnQ x + 1 + bnT x) - bnQ x ^ 2 - 1 := by linarith
    rw [this, bnR, bnQ, bnT]; ring
  have hc : (c - (6 * x ^ 2 + 1) * (6 * x ^ 2 + 4 * x + 1)) * (c + (6 * x ^ 2 + 1) * (6 * x ^ 2 + 4 * x + 1)) = 0 := by
    have e : 3 * c ^ 2 = 4 * bnQ x ^ 2 - (2 * a + c) ^ 2 := by rw [← h3]; ring
    rw [hτ, bnQ] at e
    have : 3 * ((c - (6 * x ^ 2 + 1) * (6 * x ^ 2 + 4 * x + 1)) * (c + (6 * x ^ 2 + 1) * (6 * x ^ 2 + 4 * x + 1))) = 0 := by
      linear_combination e
    linarith
  have hgood : bnR x * (2 * bnQ x - bnR x) = bnQ x ^ 2 - 36 * x ^ 4 := by unfold bnR bnQ; ring
  rw [hgood]
  unfold bnR
  rcases mul_eq_zero.1 hc with h | h
  · have hc' : c = (6 * x ^ 2 + 1) * (6 * x ^ 2 + 4 * x + 1) := by linarith
    have ha : a = 24 * x ^ 3 + 12 * x ^ 2 + 4 * x := by
      have : 2 * a = 2 * (24 * x ^ 3 + 12 * x ^ 2 + 4 * x) := by rw [hc'] at hτ; linear_combination hτ
      linarith
    subst hc' ha
    rcases h5 g g0 g2 g3 with ⟨e1, e2⟩ | ⟨e1, e2⟩
    · exact Or.inl ⟨by rw [e1]; ring, by rw [e2]; ring⟩
    · exact Or.inr ⟨by rw [e1]; ring, by rw [e2]; ring⟩
  · have hc' : c = -((6 * x ^ 2 + 1) * (6 * x ^ 2 + 4 * x + 1)) := by linarith
    have ha : a = 36 * x ^ 4 + 48 * x ^ 3 + 24 * x ^ 2 + 8 * x + 1 := by
      have : 2 * a = 2 * (36 * x ^ 4 + 48 * x ^ 3 + 24 * x ^ 2 + 8 * x + 1) := by rw [hc'] at hτ; linear_combination hτ
      linarith
    subst hc' ha
    rcases h5 g g0 g2 g3 with ⟨e1, e2⟩ | ⟨e1, e2⟩
    · exact Or.inr ⟨by rw [e1]; ring, by rw [e2]; ring⟩
    · exact Or.inl ⟨by rw [e1]; ring, by rw [e2]; ring⟩

end extension

/-- The order over the extension of degree 12, with the orders of the curve over the quadratic extension and
of its two sextic twists. -/
theorem bn_order12' (x : ℤ) : Pbc.Curve.orderExtn (bnQ x) (bnT x) 12 =
    (bnR x * bnR x) * ((bnQ x ^ 2 + 1 + 2 * bnR x) *
      ((bnQ x + 1 + bnT x) * (1 + (bnT x ^ 2 - 2 * bnQ x) + bnQ x ^ 2) *
      ((bnQ x ^ 2) ^ 2 + bnQ x ^ 2 * (bnT x ^ 2 - 2 * bnQ x) + (bnT x ^ 2 - 2 * bnQ x) ^ 2 - bnQ x ^ 2 +
        (bnT x ^ 2 - 2 * bnQ x) + 1) * (2 * bnQ x - bnR x))) := by
  have h : ∀ q t : ℤ, Pbc.Curve.orderExtn q t 12 = ((q + 1 - t) * (q + 1 + t)) *
      (1 + (t ^ 2 - 2 * q) + q ^ 2) *
      ((q ^ 2) ^ 2 + q ^ 2 * (t ^ 2 - 2 * q) + (t ^ 2 - 2 * q) ^ 2 - q ^ 2 + (t ^ 2 - 2 * q) + 1) *
      ((q ^ 2) ^ 2 - q ^ 2 * (t ^ 2 - 2 * q) + (t ^ 2 - 2 * q) ^ 2 - q ^ 2 - (t ^ 2 - 2 * q) + 1) := by
    intro q t
    simp only [Pbc.Curve.orderExtn, Pbc.Curve.traceN, Pbc.Curve.traceLoop, Nat.reduceSub]
    ring
  have e : (bnQ x ^ 2) ^ 2 - bnQ x ^ 2 * (bnT x ^ 2 - 2 * bnQ x) + (bnT x ^ 2 - 2 * bnQ x) ^ 2 - bnQ x ^ 2 -
      (bnT x ^ 2 - 2 * bnQ x) + 1 = (bnQ x ^ 2 + 1 + 2 * bnR x) * (bnR x * (2 * bnQ x - bnR x)) := by
    unfold bnQ bnR bnT; ring
  rw [h, e, ← bnQ_eq]
  ring

theorem bn_order12 (x : ℤ) : ∃ m : ℤ, Pbc.Curve.orderExtn (bnQ x) (bnT x) 12 =
    (bnR x * bnR x) * ((bnQ x ^ 2 + 1 + 2 * bnR x) * m) := ⟨_, bn_order12' x⟩

/-- Two elements of norm `q` prime differ by a unit and conjugation. -/
theorem eisenstein_unique' {q a b c d : ℤ} (hq : Prime q) (h1 : a ^ 2 + a * b + b ^ 2 = q)
    (h2 : c ^ 2 + c * d + d ^ 2 = q) (hv : q ∣ b * c - a * d) :
    ∃ u v : ℤ, u ^ 2 + u * v + v ^ 2 = 1 ∧ 2 * c + d = (2 * u + v) * a + (u + 2 * v) * b := by
  obtain ⟨v, hv⟩ := hv
  have hN : (a * c + a * d + b * d) ^ 2 + (a * c + a * d + b * d) * (b * c - a * d) + (b * c - a * d) ^ 2 = q * q := by
    have : (a ^ 2 + a * b + b ^ 2) * (c ^ 2 + c * d + d ^ 2) = q * q := by rw [h1, h2]
    rw [← this]; ring
  have hu : q ∣ a * c + a * d + b * d := by
    refine hq.dvd_of_dvd_pow (n := 2) ?_
    rw [hv] at hN
    exact ⟨q - (a * c + a * d + b * d) * v - q * v ^ 2, by linear_combination hN⟩
  obtain ⟨u, hu⟩ := hu
  refine ⟨u, v, ?_, ?_⟩
  · rw [hu, hv] at hN
    have : q * q * (u ^ 2 + u * v + v ^ 2) = q * q * 1 := by linear_combination hN
    exact mul_left_cancel₀ (mul_ne_zero hq.ne_zero hq.ne_zero) this
  · have : q * (2 * c + d) = q * ((2 * u + v) * a + (u + 2 * v) * b) := by
      have e : q * ((2 * u + v) * a + (u + 2 * v) * b) =
          (2 * (a * c + a * d + b * d) + (b * c - a * d)) * a + ((a * c + a * d + b * d) + 2 * (b * c - a * d)) * b := by
        rw [hu, hv]; ring
      rw [e, ← h1]; ring
    exact mul_left_cancel₀ hq.ne_zero this

theorem units6 {u v : ℤ} (h : u ^ 2 + u * v + v ^ 2 = 1) :
    (u = 1 ∧ v = 0) ∨ (u = 0 ∧ v = 1) ∨ (u = -1 ∧ v = 1) ∨ (u = -1 ∧ v = 0) ∨ (u = 0 ∧ v = -1) ∨ (u = 1 ∧ v = -1) := by
  have h4 : (2 * u + v) ^ 2 + 3 * v ^ 2 = 4 := by linear_combination 4 * h
  have h5 : (2 * v + u) ^ 2 + 3 * u ^ 2 = 4 := by linear_combination 4 * h
  have v1 : v < 2 := by nlinarith [sq_nonneg (2 * u + v)]
  have v2 : -2 < v := by nlinarith [sq_nonneg (2 * u + v)]
  have u1 : u < 2 := by nlinarith [sq_nonneg (2 * v + u)]
  have u2 : -2 < u := by nlinarith [sq_nonneg (2 * v + u)]
  interval_cases u <;> interval_cases v <;> simp_all

theorem eisenstein_unique {q a b c d : ℤ} (hq : Prime q) (h1 : a ^ 2 + a * b + b ^ 2 = q)
    (h2 : c ^ 2 + c * d + d ^ 2 = q) :
    ∃ e : ℤ, (e = 1 ∨ e = -1) ∧
      (e * (2 * c + d) = 2 * a + b ∨ e * (2 * c + d) = a - b ∨ e * (2 * c + d) = a + 2 * b) := by
  have key : ∃ u v : ℤ, u ^ 2 + u * v + v ^ 2 = 1 ∧ 2 * c + d = (2 * u + v) * a + (u + 2 * v) * b := by
    have hd : q ∣ (b * c - a * d) * (b * (c + d) - a * -d) := by
      refine ⟨b ^ 2 - d ^ 2, ?_⟩
      linear_combination b ^ 2 * h2 - d ^ 2 * h1
    rcases hq.dvd_or_dvd hd with hd | hd
    · exact eisenstein_unique' hq h1 h2 hd
    · have h2' : (c + d) ^ 2 + (c + d) * -d + (-d) ^ 2 = q := by rw [← h2]; ring
      obtain ⟨u, v, h3, h4⟩ := eisenstein_unique' hq h1 h2' hd
      exact ⟨u, v, h3, by rw [← h4]; ring⟩
  obtain ⟨u, v, h3, h4⟩ := key
  rcases units6 h3 with ⟨rfl, rfl⟩ | ⟨rfl, rfl⟩ | ⟨rfl, rfl⟩ | ⟨rfl, rfl⟩ | ⟨rfl, rfl⟩ | ⟨rfl, rfl⟩
  · exact ⟨1, Or.inl rfl, Or.inl (by rw [h4]; ring)⟩
  · exact ⟨1, Or.inl rfl, Or.inr (Or.inr (by rw [h4]; ring))⟩
  · exact ⟨-1, Or.inr rfl, Or.inr (Or.inl (by rw [h4]; ring))⟩
  · exact ⟨-1, Or.inr rfl, Or.inl (by rw [h4]; ring)⟩
  · exact ⟨-1, Or.inr rfl, Or.inr (Or.inr (by rw [h4]; ring))⟩
  · exact ⟨1, Or.inl rfl, Or.inr (Or.inl (by rw [h4]; ring))⟩

/-- Elements that are neither squares nor cubes exist. -/
theorem exists_not_power (h6 : 6 ∣ Fintype.card F - 1) : ∃ g : F, g ≠ 0 ∧ (∀ c, c ^ 2 ≠ g) ∧ ∀ c, c ^ 3 ≠ g := by
  obtain ⟨g, hg⟩ := IsCyclic.exists_generator (α := Fˣ)
  have hord : orderOf g = Fintype.card F - 1 := by
    rw [orderOf_eq_card_of_forall_mem_zpowers hg, Nat.card_units, Nat.card_eq_fintype_card]
  have key : ∀ n, n ∣ 6 → n ≠ 1 → ∀ c : F, c ^ n ≠ (g : F) := by
    intro n hn hn1 c hc
    have hc0 : c ≠ 0 := by
      rintro rfl
      have hn0 : n ≠ 0 := by rintro rfl; simp at hn
      rw [zero_pow hn0] at hc
      exact g.ne_zero hc.symm
    obtain ⟨m, hm⟩ := hn.trans h6
    have hpos : 0 < Fintype.card F - 1 := by have := Fintype.one_lt_card (α := F); omega
    have : (g : F) ^ m = 1 := by rw [← hc, ← pow_mul, ← hm, FiniteField.pow_card_sub_one_eq_one c hc0]
    have hgm : g ^ m = 1 := Units.ext (by rw [Units.val_pow_eq_pow_val, this, Units.val_one])
    have hd := orderOf_dvd_of_pow_eq_one hgm
    rw [hord] at hd
    have hm0 : 0 < m := by
      rcases Nat.eq_zero_or_pos m with rfl | h
      · omega
      · exact h
    have hle := Nat.le_of_dvd hm0 hd
    rw [hm] at hle
    have : 2 ≤ n := by
      rcases n with _ | _ | n
      · simp at hn
      · exact absurd rfl hn1
      · omega
    nlinarith
  exact ⟨g, g.ne_zero, key 2 (by norm_num) (by norm_num), key 3 (by norm_num) (by norm_num)⟩

/-- Every norm is attained: among the curves `Y² = X³ + b` over a prime field there is one with `q + 1 - t`
points whenever `4 q = t² + 3 V²`. -/
theorem exists_curve {t V : ℤ} (hp : (Fintype.card F).Prime) (h6 : 6 ∣ Fintype.card F - 1)
    (h : 4 * (Fintype.card F : ℤ) = t ^ 2 + 3 * V ^ 2) :
    ∃ b : F, b ≠ 0 ∧ (Nat.card (EC 0 b).Point : ℤ) = Fintype.card F + 1 - t := by
  have h2 := two_ne_of h6
  have h3 := three_ne_of h6
  obtain ⟨g, g0, g2, g3⟩ := exists_not_power h6
  have hns : ¬ IsSquare g := fun ⟨c, hc⟩ => g2 c (by rw [hc, pow_two])
  obtain ⟨a, b, k1, k2, k3⟩ := card_sextic h6 (one_ne_zero (α := F))
  -- `t` and `V` have the same parity
  have hpar : 2 ∣ t - V := by
    have : (2 : ℤ) ∣ (t - V) * (t - V) := by
      refine ⟨2 * Fintype.card F - t * V - V ^ 2, ?_⟩
      linear_combination -h
    rcases Int.prime_two.dvd_or_dvd this with h | h <;> exact h
  obtain ⟨c, hc⟩ := hpar
  have k4 : c ^ 2 + c * V + V ^ 2 = Fintype.card F := by
    have ht : t = 2 * c + V := by linarith
    rw [ht] at h
    linarith [show (2 * c + V) ^ 2 + 3 * V ^ 2 = 4 * (c ^ 2 + c * V + V ^ 2) by ring]
  have hqz : Prime (Fintype.card F : ℤ) := Nat.prime_iff_prime_int.1 hp
  obtain ⟨e, he, ht⟩ := eisenstein_unique hqz k1 k4
  rw [show 2 * c + V = t by linarith] at ht
  have hD : ∀ x : F, x ≠ 0 → 4 * (0 : F) ^ 3 + 27 * x ^ 2 ≠ 0 := by
    intro x hx
    rw [show 4 * (0 : F) ^ 3 + 27 * x ^ 2 = 3 ^ 3 * x ^ 2 by ring]
    exact mul_ne_zero (pow_ne_zero _ h3) (pow_ne_zero _ hx)
  -- a curve with trace `± t`
  have hex : ∃ x : F, x ≠ 0 ∧ (Nat.card (EC 0 x).Point : ℤ) = Fintype.card F + 1 + e * t := by
    have g5 : g ^ 5 ≠ 0 := pow_ne_zero 5 g0
    rcases ht with ht | ht | ht
    · exact ⟨1, one_ne_zero, by rw [ht]; exact k2⟩
    · rcases k3 g g0 g2 g3 with ⟨e1, e2⟩ | ⟨e1, e2⟩
      · exact ⟨g, g0, by rw [ht, ← e1, mul_one]⟩
      · exact ⟨g ^ 5, g5, by rw [ht, ← e2, mul_one]⟩
    · rcases k3 g g0 g2 g3 with ⟨e1, e2⟩ | ⟨e1, e2⟩
      · exact ⟨g ^ 5, g5, by rw [ht, ← e2, mul_one]⟩
      · exact ⟨g, g0, by rw [ht, ← e1, mul_one]⟩
  obtain ⟨x, hx, hN⟩ := hex
  rcases he with rfl | rfl
  · refine ⟨g ^ 3 * x, mul_ne_zero (pow_ne_zero 3 g0) hx, ?_⟩
    have := card_twist h2 (hD x hx) hns
    rw [mul_zero] at this
    have hz : (Nat.card (EC 0 x).Point : ℤ) + Nat.card (EC 0 (g ^ 3 * x)).Point = 2 * Fintype.card F + 2 := by
      exact_mod_cast this
    linarith
  · exact ⟨x, hx, by rw [hN]; ring⟩

end Tate
