import Verif.Model.Mpn
import Mathlib.Tactic.Ring
import Mathlib.Tactic.Linarith
import Mathlib.Tactic.Positivity
import Mathlib.Tactic.LinearCombination

/-! Value lemmas for the limb functions. -/

namespace Pbc

variable {β : ℕ}

theorem Limbs.nil : Limbs β 0 [] := ⟨rfl, by simp⟩

theorem limbs_cons {t x : ℕ} {l : List ℕ} :
    Limbs β (t + 1) (x :: l) ↔ x < β ∧ Limbs β t l := by
  simp [Limbs]; tauto

theorem Limbs.eq_nil {l : List ℕ} (h : Limbs β 0 l) : l = [] := List.length_eq_zero_iff.1 h.1

theorem Limbs.exists_cons {t : ℕ} {l : List ℕ} (h : Limbs β (t + 1) l) :
    ∃ x xs, l = x :: xs ∧ x < β ∧ Limbs β t xs := by
  match l, h with
  | x :: xs, h => exact ⟨x, xs, rfl, limbs_cons.1 h⟩
  | [], h => exact absurd h.1 (by simp)

theorem val_lt {t : ℕ} {l : List ℕ} (h : Limbs β t l) : val β l < β ^ t := by
  induction t generalizing l with
  | zero => rw [h.eq_nil]; simp [val]
  | succ t ih =>
    obtain ⟨x, xs, rfl, hx, hxs⟩ := h.exists_cons
    have := ih hxs
    simp only [val]
    calc x + β * val β xs < β + β * val β xs := by omega
      _ = β * (val β xs + 1) := by ring
      _ ≤ β * β ^ t := Nat.mul_le_mul_left _ this
      _ = β ^ (t + 1) := by ring

theorem toLimbs_limbs (hβ : 0 < β) (t n : ℕ) : Limbs β t (toLimbs β t n) := by
  induction t generalizing n with
  | zero => exact Limbs.nil
  | succ t ih => exact limbs_cons.2 ⟨Nat.mod_lt _ hβ, ih _⟩

theorem val_toLimbs (t n : ℕ) : val β (toLimbs β t n) = n % β ^ t := by
  induction t generalizing n with
  | zero => simp [toLimbs, val, Nat.mod_one]
  | succ t ih =>
    simp only [toLimbs, val, ih]
    rw [pow_succ, mul_comm (β ^ t) β, Nat.mod_mul]

theorem val_toLimbs_of_lt {t n : ℕ} (h : n < β ^ t) : val β (toLimbs β t n) = n := by
  rw [val_toLimbs, Nat.mod_eq_of_lt h]

theorem val_inj {t : ℕ} {a b : List ℕ} (ha : Limbs β t a) (hb : Limbs β t b)
    (h : val β a = val β b) : a = b := by
  induction t generalizing a b with
  | zero => rw [ha.eq_nil, hb.eq_nil]
  | succ t ih =>
    obtain ⟨x, xs, rfl, hx, hxs⟩ := ha.exists_cons
    obtain ⟨y, ys, rfl, hy, hys⟩ := hb.exists_cons
    simp only [val] at h
    have hβ : 0 < β := by omega
    have h1 : x = y := by
      have := congrArg (· % β) h
      simpa [Nat.add_mul_mod_self_left, Nat.mod_eq_of_lt hx, Nat.mod_eq_of_lt hy] using this
    subst h1
    have h2 : val β xs = val β ys := by
      have : β * val β xs = β * val β ys := by omega
      exact Nat.eq_of_mul_eq_mul_left hβ this
    rw [ih hxs hys h2]

theorem val_append (a b : List ℕ) : val β (a ++ b) = val β a + β ^ a.length * val β b := by
  induction a with
  | nil => simp [val]
  | cons x xs ih => simp only [List.cons_append, val, ih, List.length_cons, pow_succ]; ring

theorem mpnAddN_limbs (hβ : 0 < β) {t : ℕ} {a b : List ℕ} (ha : Limbs β t a) (hb : Limbs β t b)
    (c : ℕ) : Limbs β t (mpnAddN β a b c).1 := by
  induction t generalizing a b c with
  | zero => rw [ha.eq_nil, hb.eq_nil]; exact Limbs.nil
  | succ t ih =>
    obtain ⟨x, xs, rfl, hx, hxs⟩ := ha.exists_cons
    obtain ⟨y, ys, rfl, hy, hys⟩ := hb.exists_cons
    exact limbs_cons.2 ⟨Nat.mod_lt _ hβ, ih hxs hys _⟩

theorem mpnAddN_val {t : ℕ} {a b : List ℕ} (ha : Limbs β t a) (hb : Limbs β t b)
    (c : ℕ) : val β (mpnAddN β a b c).1 + β ^ t * (mpnAddN β a b c).2 = val β a + val β b + c := by
  induction t generalizing a b c with
  | zero => rw [ha.eq_nil, hb.eq_nil]; simp [mpnAddN, val]
  | succ t ih =>
    obtain ⟨x, xs, rfl, hx, hxs⟩ := ha.exists_cons
    obtain ⟨y, ys, rfl, hy, hys⟩ := hb.exists_cons
    have := ih hxs hys ((x + y + c) / β)
    simp only [mpnAddN, val]
    have h2 := Nat.mod_add_div (x + y + c) β
    rw [pow_succ]
    linear_combination h2 + β * this

theorem mpnAddN_carry {t : ℕ} {a b : List ℕ} (ha : Limbs β t a) (hb : Limbs β t b)
    {c : ℕ} (hc : c ≤ 1) : (mpnAddN β a b c).2 ≤ 1 := by
  induction t generalizing a b c with
  | zero => rw [ha.eq_nil, hb.eq_nil]; simpa [mpnAddN] using hc
  | succ t ih =>
    obtain ⟨x, xs, rfl, hx, hxs⟩ := ha.exists_cons
    obtain ⟨y, ys, rfl, hy, hys⟩ := hb.exists_cons
    refine ih hxs hys ?_
    have hβ : 0 < β := by omega
    rw [← Nat.lt_succ_iff, Nat.div_lt_iff_lt_mul hβ]; omega

theorem mpnSubN_limbs (hβ : 0 < β) {t : ℕ} {a b : List ℕ} (ha : Limbs β t a) (hb : Limbs β t b)
    (c : ℕ) : Limbs β t (mpnSubN β a b c).1 := by
  induction t generalizing a b c with
  | zero => rw [ha.eq_nil, hb.eq_nil]; exact Limbs.nil
  | succ t ih =>
    obtain ⟨x, xs, rfl, hx, hxs⟩ := ha.exists_cons
    obtain ⟨y, ys, rfl, hy, hys⟩ := hb.exists_cons
    exact limbs_cons.2 ⟨Nat.mod_lt _ hβ, ih hxs hys _⟩

theorem mpnSubN_val {t : ℕ} {a b : List ℕ} (ha : Limbs β t a) (hb : Limbs β t b)
    {c : ℕ} (hc : c ≤ 1) :
    val β (mpnSubN β a b c).1 + val β b + c = val β a + β ^ t * (mpnSubN β a b c).2 := by
  induction t generalizing a b c with
  | zero => rw [ha.eq_nil, hb.eq_nil]; simp [mpnSubN, val]
  | succ t ih =>
    obtain ⟨x, xs, rfl, hx, hxs⟩ := ha.exists_cons
    obtain ⟨y, ys, rfl, hy, hys⟩ := hb.exists_cons
    simp only [mpnSubN, val]
    rw [pow_succ]
    by_cases hlt : x < y + c
    · have := ih hxs hys (c := 1) le_rfl
      simp only [hlt, if_true]
      have h2 : (β + x - (y + c)) % β = β + x - (y + c) := Nat.mod_eq_of_lt (by omega)
      have h3 : (β + x - (y + c)) + (y + c) = β + x := by omega
      rw [h2]
      generalize β + x - (y + c) = w at *
      linear_combination h3 + β * this
    · have := ih hxs hys (c := 0) (by omega)
      simp only [hlt, if_false]
      have h2 : (β + x - (y + c)) % β = x - (y + c) := by
        have : β + x - (y + c) = β + (x - (y + c)) := by omega
        rw [this, Nat.add_mod_left, Nat.mod_eq_of_lt (by omega)]
      have h3 : (x - (y + c)) + (y + c) = x := by omega
      rw [h2]
      generalize x - (y + c) = w at *
      linear_combination h3 + β * this

theorem mpnSubN_borrow {t : ℕ} {a b : List ℕ} (ha : Limbs β t a) (hb : Limbs β t b)
    {c : ℕ} (hc : c ≤ 1) : (mpnSubN β a b c).2 ≤ 1 := by
  induction t generalizing a b c with
  | zero => rw [ha.eq_nil, hb.eq_nil]; simpa [mpnSubN] using hc
  | succ t ih =>
    obtain ⟨x, xs, rfl, hx, hxs⟩ := ha.exists_cons
    obtain ⟨y, ys, rfl, hy, hys⟩ := hb.exists_cons
    refine ih hxs hys ?_
    split <;> omega

theorem mpnCmp_val {t : ℕ} {a b : List ℕ} (ha : Limbs β t a) (hb : Limbs β t b) :
    mpnCmp a b = compare (val β a) (val β b) := by
  induction t generalizing a b with
  | zero => rw [ha.eq_nil, hb.eq_nil]; simp [mpnCmp, val]
  | succ t ih =>
    obtain ⟨x, xs, rfl, hx, hxs⟩ := ha.exists_cons
    obtain ⟨y, ys, rfl, hy, hys⟩ := hb.exists_cons
    simp only [mpnCmp, val, ih hxs hys]
    rcases Nat.lt_trichotomy (val β xs) (val β ys) with h | h | h
    · have h1 : compare (val β xs) (val β ys) = Ordering.lt := Nat.compare_eq_lt.2 h
      have h2 : x + β * val β xs < y + β * val β ys := by
        have : β * (val β xs + 1) ≤ β * val β ys := Nat.mul_le_mul_left _ h
        rw [mul_add] at this; omega
      rw [h1, Nat.compare_eq_lt.2 h2]
    · rw [h, Nat.compare_eq_eq.2 rfl]
      simp only
      rcases Nat.lt_trichotomy x y with h' | h' | h'
      · rw [Nat.compare_eq_lt.2 h', Nat.compare_eq_lt.2 (by omega)]
      · rw [h', Nat.compare_eq_eq.2 rfl, Nat.compare_eq_eq.2 rfl]
      · rw [Nat.compare_eq_gt.2 h', Nat.compare_eq_gt.2 (by omega)]
    · have h1 : compare (val β xs) (val β ys) = Ordering.gt := Nat.compare_eq_gt.2 h
      have h2 : y + β * val β ys < x + β * val β xs := by
        have : β * (val β ys + 1) ≤ β * val β xs := Nat.mul_le_mul_left _ h
        rw [mul_add] at this; omega
      rw [h1, Nat.compare_eq_gt.2 h2]

theorem mpnMul1_limbs (hβ : 0 < β) {t : ℕ} {b : List ℕ} (hb : Limbs β t b) (a c : ℕ) :
    Limbs β t (mpnMul1 β b a c).1 := by
  induction t generalizing b c with
  | zero => rw [hb.eq_nil]; exact Limbs.nil
  | succ t ih =>
    obtain ⟨y, ys, rfl, hy, hys⟩ := hb.exists_cons
    exact limbs_cons.2 ⟨Nat.mod_lt _ hβ, ih hys _⟩

theorem mpnMul1_val {t : ℕ} {b : List ℕ} (hb : Limbs β t b) (a c : ℕ) :
    val β (mpnMul1 β b a c).1 + β ^ t * (mpnMul1 β b a c).2 = val β b * a + c := by
  induction t generalizing b c with
  | zero => rw [hb.eq_nil]; simp [mpnMul1, val]
  | succ t ih =>
    obtain ⟨y, ys, rfl, hy, hys⟩ := hb.exists_cons
    have := ih hys ((y * a + c) / β)
    simp only [mpnMul1, val]
    have h2 := Nat.mod_add_div (y * a + c) β
    rw [pow_succ]
    linear_combination h2 + β * this

theorem mpnMul1_carry {t : ℕ} {b : List ℕ} (hb : Limbs β t b) {a c : ℕ} (ha : a < β)
    (hc : c < β) : (mpnMul1 β b a c).2 < β := by
  induction t generalizing b c with
  | zero => rw [hb.eq_nil]; simpa [mpnMul1] using hc
  | succ t ih =>
    obtain ⟨y, ys, rfl, hy, hys⟩ := hb.exists_cons
    refine ih hys ?_
    rw [Nat.div_lt_iff_lt_mul (by omega)]
    calc y * a + c ≤ (β - 1) * (β - 1) + (β - 1) := by
          have := Nat.mul_le_mul (Nat.le_sub_one_of_lt hy) (Nat.le_sub_one_of_lt ha); omega
      _ < β * β := by
          obtain ⟨k, rfl⟩ : ∃ k, β = k + 1 := ⟨β - 1, by omega⟩
          simp; nlinarith

theorem mpnAddmul1_limbs (hβ : 0 < β) {t : ℕ} {z b : List ℕ} (hz : Limbs β t z)
    (hb : Limbs β t b) (a c : ℕ) : Limbs β t (mpnAddmul1 β z b a c).1 := by
  induction t generalizing z b c with
  | zero => rw [hz.eq_nil, hb.eq_nil]; exact Limbs.nil
  | succ t ih =>
    obtain ⟨x, xs, rfl, hx, hxs⟩ := hz.exists_cons
    obtain ⟨y, ys, rfl, hy, hys⟩ := hb.exists_cons
    exact limbs_cons.2 ⟨Nat.mod_lt _ hβ, ih hxs hys _⟩

theorem mpnAddmul1_val {t : ℕ} {z b : List ℕ} (hz : Limbs β t z) (hb : Limbs β t b) (a c : ℕ) :
    val β (mpnAddmul1 β z b a c).1 + β ^ t * (mpnAddmul1 β z b a c).2
      = val β z + val β b * a + c := by
  induction t generalizing z b c with
  | zero => rw [hz.eq_nil, hb.eq_nil]; simp [mpnAddmul1, val]
  | succ t ih =>
    obtain ⟨x, xs, rfl, hx, hxs⟩ := hz.exists_cons
    obtain ⟨y, ys, rfl, hy, hys⟩ := hb.exists_cons
    have := ih hxs hys ((x + y * a + c) / β)
    simp only [mpnAddmul1, val]
    have h2 := Nat.mod_add_div (x + y * a + c) β
    rw [pow_succ]
    linear_combination h2 + β * this

theorem mpnAddmul1_carry {t : ℕ} {z b : List ℕ} (hz : Limbs β t z) (hb : Limbs β t b) {a c : ℕ}
    (ha : a < β) (hc : c < β) : (mpnAddmul1 β z b a c).2 < β := by
  induction t generalizing z b c with
  | zero => rw [hz.eq_nil, hb.eq_nil]; simpa [mpnAddmul1] using hc
  | succ t ih =>
    obtain ⟨x, xs, rfl, hx, hxs⟩ := hz.exists_cons
    obtain ⟨y, ys, rfl, hy, hys⟩ := hb.exists_cons
    refine ih hxs hys ?_
    rw [Nat.div_lt_iff_lt_mul (by omega)]
    calc x + y * a + c ≤ (β - 1) + (β - 1) * (β - 1) + (β - 1) := by
          have := Nat.mul_le_mul (Nat.le_sub_one_of_lt hy) (Nat.le_sub_one_of_lt ha); omega
      _ < β * β := by
          obtain ⟨k, rfl⟩ : ∃ k, β = k + 1 := ⟨β - 1, by omega⟩
          simp; nlinarith

theorem mpnAdd1_limbs (hβ : 0 < β) {t : ℕ} {z : List ℕ} (hz : Limbs β t z) (c : ℕ) :
    Limbs β t (mpnAdd1 β z c).1 := by
  induction t generalizing z c with
  | zero => rw [hz.eq_nil]; exact Limbs.nil
  | succ t ih =>
    obtain ⟨x, xs, rfl, hx, hxs⟩ := hz.exists_cons
    exact limbs_cons.2 ⟨Nat.mod_lt _ hβ, ih hxs _⟩

theorem mpnAdd1_val {t : ℕ} {z : List ℕ} (hz : Limbs β t z) (c : ℕ) :
    val β (mpnAdd1 β z c).1 + β ^ t * (mpnAdd1 β z c).2 = val β z + c := by
  induction t generalizing z c with
  | zero => rw [hz.eq_nil]; simp [mpnAdd1, val]
  | succ t ih =>
    obtain ⟨x, xs, rfl, hx, hxs⟩ := hz.exists_cons
    have := ih hxs ((x + c) / β)
    simp only [mpnAdd1, val]
    have h2 := Nat.mod_add_div (x + c) β
    rw [pow_succ]
    linear_combination h2 + β * this

theorem mpnSub1_limbs (hβ : 0 < β) {t : ℕ} {z : List ℕ} (hz : Limbs β t z) (c : ℕ) :
    Limbs β t (mpnSub1 β z c).1 := by
  induction t generalizing z c with
  | zero => rw [hz.eq_nil]; exact Limbs.nil
  | succ t ih =>
    obtain ⟨x, xs, rfl, hx, hxs⟩ := hz.exists_cons
    exact limbs_cons.2 ⟨Nat.mod_lt _ hβ, ih hxs _⟩

theorem mpnSub1_val (hβ : 1 < β) {t : ℕ} {z : List ℕ} (hz : Limbs β t z) {c : ℕ} (hc : c < β) :
    val β (mpnSub1 β z c).1 + c = val β z + β ^ t * (mpnSub1 β z c).2 := by
  induction t generalizing z c with
  | zero => rw [hz.eq_nil]; simp [mpnSub1, val]
  | succ t ih =>
    obtain ⟨x, xs, rfl, hx, hxs⟩ := hz.exists_cons
    simp only [mpnSub1, val]
    rw [pow_succ]
    by_cases hlt : x < c
    · have := ih hxs (c := 1) hβ
      simp only [hlt, if_true]
      have h2 : (β + x - c) % β = β + x - c := Nat.mod_eq_of_lt (by omega)
      have h3 : (β + x - c) + c = β + x := by omega
      rw [h2]
      generalize β + x - c = w at *
      linear_combination h3 + β * this
    · have := ih hxs (c := 0) (by omega)
      simp only [hlt, if_false]
      have h2 : (β + x - c) % β = x - c := by
        have : β + x - c = β + (x - c) := by omega
        rw [this, Nat.add_mod_left, Nat.mod_eq_of_lt (by omega)]
      have h3 : (x - c) + c = x := by omega
      rw [h2]
      generalize x - c = w at *
      linear_combination h3 + β * this

theorem mpnLshift1_limbs (hβ : 2 ∣ β) {t : ℕ} {z : List ℕ} (hz : Limbs β t z) {c : ℕ}
    (hc : c ≤ 1) : Limbs β t (mpnLshift1 β z c).1 := by
  induction t generalizing z c with
  | zero => rw [hz.eq_nil]; exact Limbs.nil
  | succ t ih =>
    obtain ⟨x, xs, rfl, hx, hxs⟩ := hz.exists_cons
    have hβ0 : 0 < β := by omega
    refine limbs_cons.2 ⟨?_, ih hxs ?_⟩
    · have h1 := Nat.mod_lt (2 * x) hβ0
      have h2 : (2 * x) % β % 2 = 0 := by
        rw [Nat.mod_mod_of_dvd _ hβ]; omega
      omega
    · rw [← Nat.lt_succ_iff, Nat.div_lt_iff_lt_mul hβ0]; omega

theorem mpnLshift1_val {t : ℕ} {z : List ℕ} (hz : Limbs β t z) (c : ℕ) :
    val β (mpnLshift1 β z c).1 + β ^ t * (mpnLshift1 β z c).2 = 2 * val β z + c := by
  induction t generalizing z c with
  | zero => rw [hz.eq_nil]; simp [mpnLshift1, val]
  | succ t ih =>
    obtain ⟨x, xs, rfl, hx, hxs⟩ := hz.exists_cons
    have := ih hxs (2 * x / β)
    simp only [mpnLshift1, val]
    have h2 := Nat.mod_add_div (2 * x) β
    rw [pow_succ]
    linear_combination h2 + β * this

theorem mpnRshift1_limbs (hβ : 2 ∣ β) {t : ℕ} {z : List ℕ} (hz : Limbs β t z) :
    Limbs β t (mpnRshift1 β z) := by
  induction t generalizing z with
  | zero => rw [hz.eq_nil]; exact Limbs.nil
  | succ t ih =>
    obtain ⟨x, xs, rfl, hx, hxs⟩ := hz.exists_cons
    cases t with
    | zero => rw [hxs.eq_nil]; exact limbs_cons.2 ⟨by omega, Limbs.nil⟩
    | succ t =>
      have := ih hxs
      obtain ⟨y, ys, rfl, hy, hys⟩ := hxs.exists_cons
      refine limbs_cons.2 ⟨?_, this⟩
      have h1 : y % 2 = 0 ∨ y % 2 = 1 := by omega
      rcases h1 with h1 | h1 <;> rw [h1] <;> omega

theorem mpnRshift1_val (hβ : 2 ∣ β) {t : ℕ} {z : List ℕ} (hz : Limbs β t z) :
    val β (mpnRshift1 β z) = val β z / 2 := by
  induction t generalizing z with
  | zero => rw [hz.eq_nil]; simp [mpnRshift1, val]
  | succ t ih =>
    obtain ⟨x, xs, rfl, hx, hxs⟩ := hz.exists_cons
    cases t with
    | zero => rw [hxs.eq_nil]; simp [mpnRshift1, val]
    | succ t =>
      have ih' := ih hxs
      obtain ⟨y, ys, rfl, hy, hys⟩ := hxs.exists_cons
      obtain ⟨k, rfl⟩ := hβ
      have h2k : 2 * k / 2 = k := by omega
      have hL : val (2 * k) (mpnRshift1 (2 * k) (x :: y :: ys))
          = x / 2 + (y % 2) * k + 2 * k * (val (2 * k) (y :: ys) / 2) := by
        simp only [mpnRshift1, h2k]
        rw [val, ih']
      have hR : val (2 * k) (x :: y :: ys) = x + 2 * k * val (2 * k) (y :: ys) := rfl
      rw [hL, hR]
      set V := val (2 * k) (y :: ys) with hV
      have hpar : V % 2 = y % 2 := by
        rw [hV]; simp only [val]; rw [mul_assoc]; omega
      have h3 := Nat.mod_add_div V 2
      rw [hpar] at h3
      have h4 : x + 2 * k * V = x + 2 * (k * V) := by ring
      have h5 : k * V = k * (y % 2) + 2 * k * (V / 2) := by
        conv_lhs => rw [← h3]
        ring
      rw [h4]
      have h6 : (x + 2 * (k * V)) / 2 = x / 2 + k * V := by omega
      rw [h6, h5]; ring

end Pbc
