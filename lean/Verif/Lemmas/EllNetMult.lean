import Verif.Lemmas.EllNetTateK

/-! # Elliptic nets in a cyclic group: the second point is a multiple of the first -/

set_option autoImplicit false
set_option linter.unusedSectionVars false

namespace EllNet

open WeierstrassCurve WeierstrassCurve.Affine
open Spec (EC divPoly)
open TateK (MonicK MilK FullK KillsK tateK vval lvalK)

variable {K : Type*} [Field K] [DecidableEq K] {a b : K} {P Q R : (EC a b).Point} {r : ℕ}

/-! ### The division polynomials at negative indices -/

/-- `W(n, 0)` for integers. -/
noncomputable def dp (P : (EC a b).Point) (z : ℤ) : K := divPoly a b (xc P) (yc P) z

theorem dp_nat (h : Ord P r) {n : ℕ} (hn : n ≤ r) : dp P n = psi P n := (h.psi_eq n hn).symm

theorem dp_neg' (z : ℤ) : dp P (-z) = -dp P z := dp_neg _ _ z

theorem dp_ne (h : Ord P r) {z : ℤ} (h0 : z ≠ 0) (hz : |z| < r) : dp P z ≠ 0 := by
  rcases le_or_gt 0 z with hs | hs
  · rw [abs_of_nonneg hs] at hz
    lift z to ℕ using hs
    rw [dp_nat h (by omega)]
    exact h.psi_ne z (by omega) (by omega)
  · rw [abs_of_neg hs] at hz
    obtain ⟨n, hn⟩ : ∃ n : ℕ, z = -n := ⟨(-z).toNat, by omega⟩
    rw [hn, dp_neg', neg_ne_zero, dp_nat h (by omega)]
    exact h.psi_ne n (by omega) (by omega)

/-- `W(m+1) W(m-1) = W(m)² (x(P) - x(m P))`. -/
theorem dp_rec (h : Ord P r) {z : ℤ} (h0 : z ≠ 0) (hz : |z| < r) :
    dp P (z + 1) * dp P (z - 1) = dp P z ^ 2 * (xc P - xc (z • P)) := by
  have main : ∀ n : ℕ, 0 < n → n < r → dp P ((n : ℤ) + 1) * dp P ((n : ℤ) - 1) =
      dp P n ^ 2 * (xc P - xc (n • P)) := by
    intro n h0 h1
    obtain ⟨j, rfl⟩ : ∃ j, n = j + 1 := ⟨n - 1, by omega⟩
    have := h.psi_rec (n := j) (by omega)
    rw [show ((j + 1 : ℕ) : ℤ) + 1 = ((j + 2 : ℕ) : ℤ) by push_cast; ring,
      show ((j + 1 : ℕ) : ℤ) - 1 = ((j : ℕ) : ℤ) by push_cast; ring, dp_nat h (by omega), dp_nat h (by omega),
      dp_nat h (by omega), this]
  rcases le_or_gt 0 z with hs | hs
  · rw [abs_of_nonneg hs] at hz
    lift z to ℕ using hs
    rw [natCast_zsmul]
    exact main z (by omega) (by omega)
  · rw [abs_of_neg hs] at hz
    obtain ⟨n, hn⟩ : ∃ n : ℕ, z = -n := ⟨(-z).toNat, by omega⟩
    have := main n (by omega) (by omega)
    rw [hn, neg_zsmul, natCast_zsmul, xc_neg, dp_neg', show -(n : ℤ) + 1 = -((n : ℤ) - 1) by ring,
      show -(n : ℤ) - 1 = -((n : ℤ) + 1) by ring, dp_neg', dp_neg']
    linear_combination this

/-- The relation of the sequence at `m` and `n`. -/
def Rel (P : (EC a b).Point) (m n : ℤ) : Prop :=
  dp P (m + n) * dp P (m - n) = dp P (m - 1) * dp P (m + 1) * dp P n ^ 2 -
    dp P m ^ 2 * (dp P (n - 1) * dp P (n + 1))

theorem Rel.neg_left {m n : ℤ} (h : Rel P m n) : Rel P (-m) n := by
  unfold Rel at *
  rw [show -m + n = -(m - n) by ring, show -m - n = -(m + n) by ring, show -m - 1 = -(m + 1) by ring,
    show -m + 1 = -(m - 1) by ring]
  simp only [dp_neg']
  linear_combination h

theorem Rel.swap {m n : ℤ} (h : Rel P m n) : Rel P n m := by
  unfold Rel at *
  rw [show n - m = -(m - n) by ring, add_comm n m, dp_neg']
  linear_combination -h

theorem rel_lt (h : Ord P r) {m n : ℕ} (h0 : 0 < n) (hmn : n < m) (hr : m + n ≤ r) : Rel P m n := by
  have e := h.net.main h n h0 (by omega) (m - n) (by omega)
  rw [show m - n + 2 * n = m + n by omega, show m - n + n = m by omega] at e
  have e1 := dp_rec h (z := m) (by omega) (by rw [abs_of_nonneg (by omega)]; omega)
  have e2 := dp_rec h (z := n) (by omega) (by rw [abs_of_nonneg (by omega)]; omega)
  rw [← dp_nat h (by omega), ← dp_nat h (by omega), ← dp_nat h (by omega), ← dp_nat h (by omega),
    Nat.cast_sub hmn.le, Nat.cast_add] at e
  rw [natCast_zsmul] at e1 e2
  unfold Rel
  linear_combination e - dp P n ^ 2 * e1 + dp P m ^ 2 * e2

theorem rel_nat (h : Ord P r) {m n : ℕ} (hr : m + n ≤ r) : Rel P m n := by
  have z : dp P 0 = 0 := dp_zero _ _
  have o : dp P 1 = 1 := dp_one _ _
  have o' : dp P (-1) = -1 := by rw [dp_neg', o]
  rcases Nat.eq_zero_or_pos n with rfl | hn
  · unfold Rel
    simp [z, o, o']
    ring
  rcases Nat.eq_zero_or_pos m with rfl | hm
  · unfold Rel
    simp only [Nat.cast_zero, zero_add, zero_sub, dp_neg', z, o]
    ring
  rcases lt_trichotomy n m with hl | rfl | hl
  · exact rel_lt h hn hl hr
  · unfold Rel
    rw [sub_self, z]
    ring
  · exact (rel_lt h hm hl (by omega)).swap

theorem rel (h : Ord P r) {m n : ℤ} (hr : |m| + |n| ≤ r) : Rel P m n := by
  have key : ∀ (m : ℤ) (n : ℕ), |m| + n ≤ r → Rel P m n := by
    intro m n hr
    rcases le_or_gt 0 m with hs | hs
    · rw [abs_of_nonneg hs] at hr
      lift m to ℕ using hs
      exact rel_nat h (by omega)
    · rw [abs_of_neg hs] at hr
      obtain ⟨k, rfl⟩ : ∃ k : ℕ, m = -k := ⟨(-m).toNat, by omega⟩
      exact (rel_nat h (by omega)).neg_left
  rcases le_or_gt 0 n with hs | hs
  · rw [abs_of_nonneg hs] at hr
    lift n to ℕ using hs
    exact key m n hr
  · rw [abs_of_neg hs] at hr
    obtain ⟨k, rfl⟩ : ∃ k : ℕ, n = -k := ⟨(-n).toNat, by omega⟩
    exact (key m k (by omega)).swap.neg_left.swap

/-! ### The terms for `Q = c P` -/

theorem zpow_pm {g : K} (hg : g ≠ 0) (x y : ℤ) : g ^ (x + y) * g ^ (x - y) = (g ^ x) ^ 2 := by
  rw [← zpow_add₀ hg, ← zpow_natCast, ← zpow_mul]
  congr 1
  push_cast
  ring

/-- `W(j - 2, 1)` for `Q = z P`. -/
noncomputable def wm (P : (EC a b).Point) (z : ℤ) (j : ℕ) : K :=
  (dp P z / dp P (z + 1)) ^ ((j : ℤ) - 2) * (dp P z)⁻¹ * dp P ((j : ℤ) - 2 + z)

section

variable (h : Ord P r) {z : ℤ} (h1 : 3 - (r : ℤ) ≤ z) (h2 : z ≤ -2)

include h h1 h2

theorem z_ne : dp P z ≠ 0 := dp_ne h (by omega) (by rw [abs_of_neg (by omega)]; omega)

theorem z1_ne : dp P (z + 1) ≠ 0 := dp_ne h (by omega) (by rw [abs_of_neg (by omega)]; omega)

theorem wm_ne {j : ℕ} (hj : (j : ℤ) - 2 + z ≠ 0) (hr : j ≤ r + 3) : wm P z j ≠ 0 := by
  refine mul_ne_zero (mul_ne_zero (zpow_ne_zero _ (div_ne_zero (z_ne h h1 h2) (z1_ne h h1 h2)))
    (inv_ne_zero (z_ne h h1 h2))) (dp_ne h hj ?_)
  rw [abs_lt]
  omega

theorem wm_two : wm P z 2 = 1 := by
  have := z_ne h h1 h2
  simp [wm, inv_mul_cancel₀ this]

theorem wm_three : wm P z 3 = 1 := by
  have hz := z_ne h h1 h2
  have hz' := z1_ne h h1 h2
  rw [wm]
  rw [show ((3 : ℕ) : ℤ) - 2 = 1 by norm_num, zpow_one, add_comm 1 z]
  field_simp

/-- `w(j+2) w(j) = w(j+1)² (x(P) - x((j - 1) P + Q))`. -/
theorem wm_rec {j : ℕ} (h0 : (j : ℤ) - 1 + z ≠ 0) (hj : j ≤ r + 1) :
    wm P z (j + 2) * wm P z j = wm P z (j + 1) ^ 2 * (xc P - xc (((j : ℤ) - 1 + z) • P)) := by
  have hg : dp P z / dp P (z + 1) ≠ 0 := div_ne_zero (z_ne h h1 h2) (z1_ne h h1 h2)
  have e := dp_rec h h0 (by rw [abs_lt]; omega)
  unfold wm
  push_cast
  rw [show (j : ℤ) + 2 - 2 + z = (j : ℤ) - 1 + z + 1 by ring, show (j : ℤ) - 2 + z = (j : ℤ) - 1 + z - 1 by ring,
    show (j : ℤ) + 1 - 2 + z = (j : ℤ) - 1 + z by ring, show (j : ℤ) + 2 - 2 = (j : ℤ) - 1 + 1 by ring,
    show (j : ℤ) - 2 = (j : ℤ) - 1 - 1 by ring, show (j : ℤ) + 1 - 2 = (j : ℤ) - 1 by ring]
  have e2 := zpow_pm hg ((j : ℤ) - 1) 1
  generalize (dp P z / dp P (z + 1)) ^ ((j : ℤ) - 1 + 1) = g1 at *
  generalize (dp P z / dp P (z + 1)) ^ ((j : ℤ) - 1 - 1) = g2 at *
  generalize (dp P z / dp P (z + 1)) ^ ((j : ℤ) - 1) = g at *
  linear_combination (dp P z)⁻¹ ^ 2 * (dp P ((j : ℤ) - 1 + z + 1) * dp P ((j : ℤ) - 1 + z - 1)) * e2 +
    (dp P z)⁻¹ ^ 2 * g ^ 2 * e

theorem wm_steps : EllNet.Steps P r (r + 3) (wm P z) where
  w0 := wm_two h h1 h2
  w1 := wm_three h h1 h2
  ne0 := wm_ne h h1 h2 (by push_cast; omega) (by omega)
  ne1 := wm_ne h h1 h2 (by push_cast; omega) (by omega)
  step {n k} hn hr hk hk0 hhi := by
    have hg : dp P z / dp P (z + 1) ≠ 0 := div_ne_zero (z_ne h h1 h2) (z1_ne h h1 h2)
    have e := rel h (m := k + z) (n := n) (by
      rw [abs_of_nonneg (show (0 : ℤ) ≤ n by omega)]
      have : |(k : ℤ) + z| ≤ r - n := by rw [abs_le]; omega
      omega)
    obtain ⟨i, rfl⟩ : ∃ i, n = i + 1 := ⟨n - 1, by omega⟩
    unfold Rel at e
    rw [← dp_nat h (by omega), ← dp_nat h (by omega), ← dp_nat h (by omega)]
    unfold wm
    rw [Nat.cast_sub hk]
    push_cast at e ⊢
    rw [show (k : ℤ) + (i + 1) + 2 - 2 + z = k + z + (i + 1) by ring,
      show (k : ℤ) + 2 - (i + 1) - 2 + z = k + z - (i + 1) by ring,
      show (k : ℤ) + 1 - 2 + z = k + z - 1 by ring, show (k : ℤ) + 3 - 2 + z = k + z + 1 by ring,
      show (k : ℤ) + 2 - 2 + z = k + z by ring, show (k : ℤ) + (i + 1) + 2 - 2 = k + (i + 1) by ring,
      show (k : ℤ) + 2 - (i + 1) - 2 = k - (i + 1) by ring, show (k : ℤ) + 1 - 2 = k - 1 by ring,
      show (k : ℤ) + 3 - 2 = k + 1 by ring, show (k : ℤ) + 2 - 2 = k by ring]
    rw [show (i : ℤ) + 1 - 1 = i by ring] at e
    have e1 := zpow_pm hg k (i + 1)
    have e2 := zpow_pm hg k 1
    generalize (dp P z / dp P (z + 1)) ^ ((k : ℤ) + (i + 1)) = g1 at *
    generalize (dp P z / dp P (z + 1)) ^ ((k : ℤ) - (i + 1)) = g2 at *
    generalize (dp P z / dp P (z + 1)) ^ ((k : ℤ) + 1) = g3 at *
    generalize (dp P z / dp P (z + 1)) ^ ((k : ℤ) - 1) = g4 at *
    generalize (dp P z / dp P (z + 1)) ^ (k : ℤ) = g at *
    linear_combination (dp P z)⁻¹ ^ 2 * (dp P (k + z + (i + 1)) * dp P (k + z - (i + 1))) * e1 -
      (dp P z)⁻¹ ^ 2 * (dp P (k + z - 1) * dp P (k + z + 1)) * dp P (i + 1) ^ 2 * e2 +
      (dp P z)⁻¹ ^ 2 * g ^ 2 * e

end

/-! ### Reflection in the order -/

/-- The multiplier of the reflection. -/
noncomputable def refl (P : (EC a b).Point) (r : ℕ) : K := psi P (r - 1) * psi P 2 / psi P (r - 2)

theorem refl_ne (h : Ord P r) : refl P r ≠ 0 := by
  have := h.five
  exact div_ne_zero (mul_ne_zero (h.psi_ne _ (by omega) (by omega)) (h.psi_ne _ (by omega) (by omega)))
    (h.psi_ne _ (by omega) (by omega))

/-- `W(r - n) A^(n-1) = W(r-1) W(n)`. -/
theorem psi_refl (h : Ord P r) : ∀ n : ℕ, n + 1 < r →
    psi P (r - (n + 1)) * refl P r ^ n = psi P (r - 1) * psi P (n + 1) := by
  have h5 := h.five
  intro n
  induction n using Nat.strong_induction_on with
  | _ n ih =>
    intro hn
    match n with
    | 0 => simp [psi]
    | 1 =>
      have := h.psi_ne (r - 2) (by omega) (by omega)
      rw [pow_one, refl, show r - (1 + 1) = r - 2 by omega]
      field_simp
    | n + 2 =>
      have i1 := ih (n + 1) (by omega) (by omega)
      have i0 := ih n (by omega) (by omega)
      have e1 := h.psi_rec (n := n + 1) (by omega)
      have e2 := h.psi_rec (n := r - (n + 3)) (by omega)
      have hx : xc ((r - (n + 3) + 1) • P) = xc ((n + 1 + 1) • P) := by
        rw [← xc_neg]
        congr 1
        rw [neg_eq_iff_add_eq_zero, ← add_nsmul, show r - (n + 3) + 1 + (n + 1 + 1) = r by omega, h.zero]
      rw [hx, show r - (n + 3) + 2 = r - (n + 1) by omega, show r - (n + 3) + 1 = r - (n + 1 + 1) by omega] at e2
      have n1 := h.psi_ne (r - (n + 1)) (by omega) (by omega)
      have n2 := h.psi_ne (n + 1) (by omega) (by omega)
      have n3 := h.psi_ne (r - 1) (by omega) (by omega)
      have n4 := pow_ne_zero n (refl_ne h)
      rw [show r - (n + 2 + 1) = r - (n + 3) by omega]
      simp only [add_assoc, Nat.reduceAdd] at i1 e1 e2 ⊢
      rw [pow_add] at i1 ⊢
      generalize refl P r ^ n = g at *
      generalize refl P r = A at *
      generalize psi P (r - (n + 3)) = u3 at *
      generalize psi P (r - (n + 2)) = u2 at *
      generalize psi P (r - (n + 1)) = u1 at *
      generalize psi P (r - 1) = E at *
      generalize psi P (n + 3) = v3 at *
      generalize psi P (n + 2) = v2 at *
      generalize psi P (n + 1) = v1 at *
      generalize xc P - xc ((n + 2) • P) = X at *
      refine mul_left_cancel₀ (mul_ne_zero n4 n1) ?_
      have c1 : (u2 * (g * A)) ^ 2 = (E * v2) ^ 2 := by rw [← pow_one A]; rw [i1]
      linear_combination g ^ 2 * A ^ 2 * e2 + X * c1 - E * v3 * i0 - E ^ 2 * e1

/-- `W(r-1)² = A^(r-2)`. -/
theorem refl_pow (h : Ord P r) : psi P (r - 1) ^ 2 = refl P r ^ (r - 2) := by
  have h5 := h.five
  have e := psi_refl h (r - 2) (by omega)
  rw [show r - 2 + 1 = r - 1 by omega, show r - (r - 1) = 1 by omega, show psi P 1 = 1 from rfl] at e
  linear_combination -e

/-- `W(r + 1, 0) = - W(r-1) A²`. -/
theorem dp_succ_refl (h : Ord P r) (hodd : Odd r) :
    divPoly a b (xc P) (yc P) (r + 1) = -(psi P (r - 1) * refl P r ^ 2) := by
  obtain ⟨m, hm⟩ := hodd
  have h5 := h.five
  obtain ⟨j, rfl⟩ : ∃ j, m = j + 2 := ⟨m - 2, by omega⟩
  have hy := h.y_ne (n := 1) le_rfl (by omega) (by omega)
  rw [one_nsmul] at hy
  have d := dp_even (a := a) (b := b) (xc P) (yc P) (j + 3)
  rw [show (2 : ℤ) * (j + 3) = r + 1 by rw [hm]; push_cast; ring,
    show (j : ℤ) + 3 + 2 = ((j + 5 : ℕ) : ℤ) by push_cast; ring,
    show (j : ℤ) + 3 - 1 = ((j + 2 : ℕ) : ℤ) by push_cast; ring,
    show (j : ℤ) + 3 - 2 = ((j + 1 : ℕ) : ℤ) by push_cast; ring,
    show (j : ℤ) + 3 + 1 = ((j + 4 : ℕ) : ℤ) by push_cast; ring,
    show (j : ℤ) + 3 = ((j + 3 : ℕ) : ℤ) by push_cast; ring,
    ← h.psi_eq _ (by omega), ← h.psi_eq _ (by omega), ← h.psi_eq _ (by omega), ← h.psi_eq _ (by omega),
    ← h.psi_eq _ (by omega)] at d
  have e := h.psi_even (j := j) (by omega)
  rw [show 2 * j + 4 = r - 1 by omega] at e
  have r1 := psi_refl h (j + 1) (by omega)
  have r2 := psi_refl h j (by omega)
  have rp := refl_pow h
  rw [show r - (j + 1 + 1) = j + 3 by omega, show j + 1 + 1 = j + 2 from rfl] at r1
  rw [show r - (j + 1) = j + 4 by omega] at r2
  have r3 : psi P (j + 5) * refl P r ^ j = psi P (r - 1) * psi P j * refl P r := by
    rcases Nat.eq_zero_or_pos j with rfl | hj
    · rw [show 0 + 5 = r by omega, h.psi_r]
      simp [psi]
    · have := psi_refl h (j - 1) (by omega)
      rw [show j - 1 + 1 = j by omega, show r - j = j + 5 by omega] at this
      obtain ⟨i, rfl⟩ : ∃ i, j = i + 1 := ⟨j - 1, by omega⟩
      rw [pow_succ, ← mul_assoc]
      rw [show i + 1 - 1 = i by omega] at this
      rw [this]
  rw [show r - 2 = j + j + 3 by omega, pow_add, pow_add] at rp
  have g0 := pow_ne_zero j (refl_ne h)
  have A0 := refl_ne h
  have E0 := h.psi_ne (r - 1) (by omega) (by omega)
  rw [pow_succ] at r1
  generalize refl P r ^ j = g at *
  generalize refl P r = A at *
  generalize psi P (r - 1) = E at *
  generalize psi P (j + 1) = v1 at *
  generalize psi P (j + 2) = v2 at *
  generalize psi P (j + 3) = v3 at *
  generalize psi P (j + 4) = v4 at *
  generalize psi P (j + 5) = v5 at *
  generalize psi P j = v0 at *
  generalize divPoly a b (xc P) (yc P) (r + 1) = D at *
  have h3 : v3 = E * v2 / (g * A) := by field_simp; linear_combination r1
  have h4 : v4 = E * v1 / g := by field_simp; linear_combination r2
  have h5' : v5 = E * v0 * A / g := by field_simp; linear_combination r3
  refine mul_right_cancel₀ (mul_ne_zero h.two hy) ?_
  rw [d]
  have : -(E * A ^ 2) * (2 * yc P) = -A ^ 2 * (E * (2 * yc P)) := by ring
  rw [this, e, h3, h4, h5']
  field_simp
  linear_combination (-v1 ^ 3 * v2) * rp

/-! ### The pairing of a point with its multiples -/

theorem geometric {ρ : ℕ → K} (hne : ∀ j, ρ j ≠ 0) (hr : ∀ j, ρ (j + 2) * ρ j = ρ (j + 1) ^ 2) :
    ∀ i j, ρ (i + j) = ρ i * (ρ 1 / ρ 0) ^ j := by
  have h1 : ∀ j, ρ (j + 1) = ρ j * (ρ 1 / ρ 0) := by
    intro j
    induction j with
    | zero => have := hne 0; field_simp
    | succ j ih =>
      have e := hr j
      have n0 := hne j
      have n1 := hne (j + 1)
      refine mul_right_cancel₀ n0 ?_
      rw [e]
      linear_combination ρ (j + 1) * ih
  intro i j
  induction j with
  | zero => simp
  | succ j ih => rw [← add_assoc, h1, ih, pow_succ, mul_assoc]


/-- Shifting the terms by the order multiplies them by a geometric sequence of ratio `A`. -/
theorem Off.period (h : Ord P r) (hodd : Odd r) (ho : Off P Q) (i j : ℕ) :
    wn P Q (i + j + r) / wn P Q (i + j) = wn P Q (i + r) / wn P Q i * refl P r ^ j := by
  have h5 := h.five
  obtain ⟨m, hm⟩ := hodd
  have un := ho.wn_ne h.one
  have rc (j : ℕ) : wn P Q (j + 2) * wn P Q j = wn P Q (j + 1) ^ 2 *
      (xc P - xc ((j + 1) • P + (Q - 2 • P))) := (ho.net h.one (j + 2)).recu j (by omega)
  have hx (j : ℕ) : xc P - xc ((j + 1) • P + (Q - 2 • P)) ≠ 0 := sub_ne_zero.2 (ho.x_ne' h.one _).symm
  have hG := geometric (ρ := fun j => wn P Q (j + r) / wn P Q j)
    (fun j => div_ne_zero (un _) (un _)) (fun j => by
      have e1 := rc j
      have e2 := rc (j + r)
      rw [show (j + r + 1) • P = (j + 1) • P by
        rw [add_right_comm, add_nsmul, h.zero, add_zero]] at e2
      have x0 := hx j
      have u0 := un j
      have u1 := un (j + 1)
      have u2 := un (j + 2)
      rw [show j + 2 + r = j + r + 2 by ring, show j + 1 + r = j + r + 1 by ring, div_mul_div_comm, e1, e2,
        div_pow]
      rw [mul_div_mul_right _ _ x0])
  have e : wn P Q (1 + r) / wn P Q 1 / (wn P Q (0 + r) / wn P Q 0) = refl P r := by
    have g2 := hG 1 1
    have m1 := ho.main h (n := m) (k := m) (by omega) (by omega) (by omega)
    have m2 := ho.main h (n := m + 1) (k := m) (by omega) (by omega) (by omega)
    rw [show m + m + 2 = r + 1 by omega, show m + 2 - m = 2 by omega] at m1
    rw [show m + (m + 1) + 2 = r + 2 by omega, show m + 2 - (m + 1) = 1 by omega,
      show (m + 1) • P = -(m • P) by
        rw [eq_neg_iff_add_eq_zero, ← add_nsmul, show m + 1 + m = r by omega, h.zero], xc_neg] at m2
    have rf := psi_refl h (m - 1) (by omega)
    rw [show m - 1 + 1 = m by omega, show r - m = m + 1 by omega] at rf
    have rp := refl_pow h
    rw [show r - 2 = (m - 1) + (m - 1) + 1 by omega, pow_add, pow_add, pow_one] at rp
    have pm := h.psi_ne m (by omega) (by omega)
    have A0 := refl_ne h
    have Am := pow_ne_zero (m - 1) A0
    have sq : psi P (m + 1) ^ 2 = refl P r * psi P m ^ 2 := by
      refine mul_left_cancel₀ (mul_ne_zero Am Am) ?_
      linear_combination (psi P (m + 1) * refl P r ^ (m - 1) + psi P (r - 1) * psi P m) * rf + psi P m ^ 2 * rp
    rw [pow_one] at g2
    have u1 := un 1
    have u2 := un 2
    have v1 := un (r + 1)
    have hq : wn P Q (1 + 1 + r) / wn P Q (1 + 1) = wn P Q (1 + r) / wn P Q 1 * refl P r := by
      rw [show 1 + 1 + r = r + 2 by ring, show 1 + r = r + 1 by ring, show 1 + 1 = 2 from rfl,
        div_mul_eq_mul_div, div_eq_div_iff u2 u1]
      refine mul_right_cancel₀ (pow_ne_zero 2 pm) ?_
      linear_combination psi P m ^ 2 * m2 - refl P r * psi P m ^ 2 * m1 +
        (wn P Q (m + 2) ^ 2 * (xc (m • P) - xc (m • P + Q)) * psi P m ^ 2) * sq
    rw [hq] at g2
    exact (mul_left_cancel₀ (div_ne_zero (un _) u1) g2).symm
  have := hG i j
  rwa [e] at this

/-- The terms for `Q + c P`. -/
theorem Off.shift (h : Ord P r) (ho : Off P Q) (c : ℕ) : Off P (c • P + Q) := by
  intro n e
  apply ho (n + c)
  rw [← e, add_zsmul, natCast_zsmul, add_assoc]

theorem Off.shift_last (h : Ord P r) (hodd : Odd r) (ho : Off P Q) (c : ℕ) :
    ∃ s : K, s ≠ 0 ∧ wn P (c • P + Q) (r + 3) = wn P Q (r + 3) * refl P r ^ c * s ^ r := by
  have ho' := ho.shift h c
  have un := ho.wn_ne h.one
  have vn := ho'.wn_ne h.one
  have hx (j : ℕ) : xc P - xc ((j + 1) • P + (c • P + Q - 2 • P)) ≠ 0 := sub_ne_zero.2 (ho'.x_ne' h.one _).symm
  have hG := geometric (ρ := fun j => wn P (c • P + Q) j / wn P Q (j + c))
    (fun j => div_ne_zero (vn _) (un _)) (fun j => by
      have e1 : wn P Q (j + c + 2) * wn P Q (j + c) = _ := (ho.net h.one (j + c + 2)).recu (j + c) (by omega)
      have e2 : wn P (c • P + Q) (j + 2) * wn P (c • P + Q) j = _ := (ho'.net h.one (j + 2)).recu j (by omega)
      have x0 := hx j
      rw [show (j + c + 1) • P + (Q - 2 • P) = (j + 1) • P + (c • P + Q - 2 • P) by
        rw [add_right_comm, add_nsmul]; abel] at e1
      rw [show j + 2 + c = j + c + 2 by ring, show j + 1 + c = j + c + 1 by ring, div_mul_div_comm, e1, e2,
        div_pow, mul_div_mul_right _ _ x0])
  have g := hG 3 r
  refine ⟨_, div_ne_zero (div_ne_zero (vn 1) (un (1 + c))) (div_ne_zero (vn 0) (un (0 + c))), ?_⟩
  generalize (wn P (c • P + Q) 1 / wn P Q (1 + c)) / (wn P (c • P + Q) 0 / wn P Q (0 + c)) = s at *
  have p := ho.period h hodd 3 c
  rw [ho.w1 h.one, div_one] at p
  rw [ho'.w1 h.one, add_comm 3 r, show r + 3 + c = 3 + c + r by ring] at g
  rw [add_comm 3 r] at p
  have u1 := un (3 + c)
  have u2 := un (3 + c + r)
  rw [← p]
  rw [div_eq_iff u2] at g
  rw [g]
  ring

/-- The reduced pairing of a point with its multiples. -/
theorem tateK_mult {e : ℕ} {H : AddSubgroup (EC a b).Point} (hk : KillsK K r e) (h : Ord P r) (hodd : Odd r)
    (hP : P ∈ H) (hR : R ∉ H) (c : ℕ) : tateK (H := H) r e R P (c • P) = (refl P r ^ c) ^ e := by
  have hH : AddSubgroup.zmultiples P ≤ H := by
    rw [AddSubgroup.zmultiples_le]; exact hP
  have hQ : c • P ∈ H := H.nsmul_mem hP c
  have hm := net_monic_full h hodd
  have hPm : -P ∈ AddSubgroup.zmultiples P := neg_mem (AddSubgroup.mem_zmultiples P)
  have hr' : r • -P = 0 := by rw [smul_neg, h.zero, neg_zero]
  have hf := (hm.mil.full_succ hPm hr' (by push_cast; ring)).down hH
  obtain ⟨B, hB⟩ := TateK.exists_off hR
  obtain ⟨C, hC⟩ := TateK.exists_off (TateK.notMem_add hR hQ)
  have e1 := TateK.tateK_eq (e := e) (neg_ne_zero.2 h.one) hf hC hB
  have e3 := TateK.tateK_add_left hk hodd.pos.ne' hR hP (H.neg_mem hP) h.zero hr' hQ
  rw [add_neg_cancel, TateK.tateK_zero_left, e1] at e3
  have ho : Off P R := by
    have := off_of (A := B.down hH)
    rwa [show (B.down hH).pt = R from hB] at this
  obtain ⟨s, s0, es⟩ := ho.shift_last h hodd c
  have w := ho.wn_ne h.one (r + 3)
  have d := dp_succ_ne h hodd
  change 1 = _ * (_ / wn P C.pt (r + 3) / (_ / wn P B.pt (r + 3))) ^ e at e3
  rw [hC, hB, es] at e3
  have hA := pow_ne_zero c (refl_ne h)
  have sr := pow_ne_zero r s0
  rw [show divPoly a b (xc P) (yc P) (r + 1) / (wn P R (r + 3) * refl P r ^ c * s ^ r) /
    (divPoly a b (xc P) (yc P) (r + 1) / wn P R (r + 3)) = (refl P r ^ c * s ^ r)⁻¹ by field_simp, inv_pow] at e3
  rw [eq_of_mul_inv_eq_one e3.symm, mul_pow, hk s s0, mul_one]


section

variable (h : Ord P r) {c : ℕ} (h1 : 3 ≤ c) (h2 : c + 2 ≤ r)

include h h1 h2

/-- The last term for `Q = c P`. -/
theorem wm_last : ∃ g : K, g ≠ 0 ∧
    wm P ((c : ℤ) - r) (r + 3) = -(g ^ r * (refl P r ^ c * (psi P (r - 1))⁻¹)) := by
  have hz := z_ne h (z := (c : ℤ) - r) (by omega) (by omega)
  have hz1 := z1_ne h (z := (c : ℤ) - r) (by omega) (by omega)
  have hg := div_ne_zero hz hz1
  refine ⟨_, hg, ?_⟩
  have e1 : dp P ((c : ℤ) - r + 1) = -psi P (r - (c + 1)) := by
    rw [show (c : ℤ) - r + 1 = -((r - (c + 1) : ℕ) : ℤ) by rw [Nat.cast_sub (by omega)]; push_cast; ring, dp_neg',
      dp_nat h (by omega)]
  have rf := psi_refl h c (by omega)
  have E0 := h.psi_ne (r - 1) (by omega) (by omega)
  have c0 := h.psi_ne (r - (c + 1)) (by omega) (by omega)
  unfold wm
  rw [show ((r + 3 : ℕ) : ℤ) - 2 = ((r : ℕ) : ℤ) + 1 by push_cast; ring, zpow_add_one₀ hg, zpow_natCast,
    show (r : ℤ) + 1 + (c - r) = ((c + 1 : ℕ) : ℤ) by push_cast; ring, dp_nat h (n := c + 1) (by omega)]
  generalize (dp P ((c : ℤ) - r) / dp P ((c : ℤ) - r + 1)) ^ r = G
  rw [e1] at *
  generalize dp P ((c : ℤ) - r) = z at *
  field_simp
  linear_combination G * rf

theorem wm_one : wm P ((c : ℤ) - r) 1 = xc P - xc (c • P) := by
  have e := wm_rec h (z := (c : ℤ) - r) (by omega) (by omega) (j := 1) (by push_cast; omega) (by omega)
  rw [wm_three h (by omega) (by omega), wm_two h (by omega) (by omega)] at e
  rw [show ((1 : ℕ) : ℤ) - 1 + ((c : ℤ) - r) = c - r by push_cast; ring, sub_zsmul, natCast_zsmul, natCast_zsmul,
    h.zero, neg_zero, add_zero] at e
  linear_combination e

theorem mult_x_ne : xc P ≠ xc (c • P) := (h.x_ne (by omega) (by omega)).symm

theorem wm_zero : wm P ((c : ℤ) - r) 0 =
    (2 * xc P + xc (c • P)) * (xc P - xc (c • P)) ^ 2 - (yc P + yc (c • P)) ^ 2 := by
  have e := wm_rec h (z := (c : ℤ) - r) (by omega) (by omega) (j := 0) (by push_cast; omega) (by omega)
  rw [zero_add, zero_add, wm_one h h1 h2, wm_two h (by omega) (by omega)] at e
  have hx := mult_x_ne h h1 h2
  obtain ⟨-, f, -⟩ := sub_x h.one (h.ne c (by omega) (by omega)) hx
  rw [show (((0 : ℕ) : ℤ) - 1 + ((c : ℤ) - r)) • P = -(P - c • P) by
    rw [show ((0 : ℕ) : ℤ) - 1 + ((c : ℤ) - r) = c - r - 1 by push_cast; ring, sub_zsmul, sub_zsmul, natCast_zsmul,
      natCast_zsmul, h.zero, one_zsmul]; abel, xc_neg, f] at e
  have h0 := sub_ne_zero.2 hx
  rw [one_mul] at e
  rw [e]
  field_simp
  ring

theorem wm_four : wm P ((c : ℤ) - r) 4 =
    2 * xc P + xc (c • P) - ((yc P - yc (c • P)) / (xc P - xc (c • P))) ^ 2 := by
  have e := wm_rec h (z := (c : ℤ) - r) (by omega) (by omega) (j := 2) (by push_cast; omega) (by omega)
  rw [wm_three h (by omega) (by omega), wm_two h (by omega) (by omega)] at e
  have hx := mult_x_ne h h1 h2
  obtain ⟨-, f, -⟩ := add_x h.one (h.ne c (by omega) (by omega)) hx
  rw [show (((2 : ℕ) : ℤ) - 1 + ((c : ℤ) - r)) • P = P + c • P by
    rw [show ((2 : ℕ) : ℤ) - 1 + ((c : ℤ) - r) = c - r + 1 by push_cast; ring, add_zsmul, sub_zsmul, natCast_zsmul,
      natCast_zsmul, h.zero, one_zsmul]; abel, f] at e
  rw [mul_one] at e
  rw [e]
  ring

/-- The reduced pairing of a point with its multiples as a quotient of terms. -/
theorem tateK_wm {e : ℕ} {H : AddSubgroup (EC a b).Point} (hk : KillsK K r e) (hodd : Odd r)
    (hP : P ∈ H) (hR : R ∉ H) : tateK (H := H) r e R P (c • P) =
      (wm P ((c : ℤ) - r) (r + 3) / divPoly a b (xc P) (yc P) (r + 1)) ^ e := by
  obtain ⟨g, hg, eg⟩ := wm_last h h1 h2
  have E0 := h.psi_ne (r - 1) (by omega) (by omega)
  have A0 := refl_ne h
  rw [tateK_mult hk h hodd hP hR, eg, dp_succ_refl h hodd, neg_div_neg_eq]
  have rp := refl_pow h
  have : g ^ r * (refl P r ^ c * (psi P (r - 1))⁻¹) / (psi P (r - 1) * refl P r ^ 2) =
      (g * (refl P r)⁻¹) ^ r * refl P r ^ c := by
    have : refl P r ^ r = psi P (r - 1) ^ 2 * refl P r ^ 2 := by
      rw [rp, ← pow_add, show r - 2 + 2 = r by omega]
    rw [mul_pow, inv_pow, this]
    field_simp
  rw [this, mul_pow, hk _ (mul_ne_zero hg (inv_ne_zero A0)), one_mul]

end

end EllNet
