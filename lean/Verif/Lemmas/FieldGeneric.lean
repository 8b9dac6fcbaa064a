import Verif.Model.FieldGeneric
import Mathlib.Tactic.Ring
import Mathlib.Tactic.Abel
import Mathlib.Tactic.Linarith
import Mathlib.Tactic.NormNum
import Mathlib.Data.Nat.Bitwise
import Mathlib.Data.List.GetD

/-!
# Lemmas about the generic exponentiation routines
-/

namespace Pbc.Gen

theorem lt_two_pow_bits (n : ℕ) : n < 2 ^ bits n := by
  unfold bits
  split
  · subst_vars; norm_num
  · exact Nat.lt_size_self n

theorem bits_pos (n : ℕ) : 1 ≤ bits n := by
  unfold bits
  split
  · exact le_refl _
  · exact Nat.size_pos.2 (by omega)

theorem bits_mono {m n : ℕ} (h : m ≤ n) : bits m ≤ bits n := by
  unfold bits
  split
  · exact bits_pos n
  · rw [if_neg (by omega)]
    exact Nat.size_le_size h

/-- The bit `s` as a number. -/
def bit (n s : ℕ) : ℕ := if n.testBit s then 1 else 0

theorem bit_eq (n s : ℕ) : bit n s = n / 2 ^ s % 2 := by
  unfold bit
  rw [Nat.testBit_eq_decide_div_mod_eq]
  have := Nat.mod_two_eq_zero_or_one (n / 2 ^ s)
  by_cases h : n / 2 ^ s % 2 = 1
  · simp [h]
  · simp [h]; omega

theorem div_two_pow_step (n s : ℕ) : n / 2 ^ s = 2 * (n / 2 ^ (s + 1)) + bit n s := by
  rw [bit_eq, pow_succ, ← Nat.div_div_eq_div_mul]
  omega

theorem sqr_eq {G : Type*} [Mul G] (x : G) : sqr x = x * x := rfl

section pow
variable {G : Type*} [Monoid G]

theorem windowFrom_get (a : G) : ∀ (count i e : ℕ), i ≤ count →
    (windowFrom a (a ^ e) count)[i]? = some (a ^ (e + i))
  | 0, i, e, h => by
    obtain rfl : i = 0 := by omega
    simp [windowFrom]
  | count + 1, 0, e, _ => by simp [windowFrom]
  | count + 1, i + 1, e, h => by
    rw [windowFrom, List.getElem?_cons_succ, ← pow_succ, windowFrom_get a count i (e + 1) (by omega)]
    congr 2; omega

theorem buildWindow_get (a : G) (k i : ℕ) (h : i < 2 ^ k) :
    (buildWindow a k)[i]? = some (a ^ i) := by
  have := windowFrom_get a (2 ^ k - 1) i 0 (by omega)
  rw [pow_zero, zero_add] at this
  exact this

/-- Invariant of the window loop after the bits above `s` have been read. -/
def WindInv (a : G) (n k s : ℕ) (st : WindState G) : Prop :=
  ∃ r, st.result = a ^ r ∧ r + (if st.inword then st.word else 0) = n / 2 ^ s ∧
    (st.inword = true → st.word < 2 ^ st.wbits ∧ st.wbits < k ∧ s ≠ 0)

theorem windStep_inv (a : G) (n k s : ℕ) (hk : 1 ≤ k) (lookup : List G)
    (hl : ∀ i < 2 ^ k, lookup[i]? = some (a ^ i)) (st : WindState G)
    (h : WindInv a n k (s + 1) st) :
    ∃ st', windStep n k lookup s st = some st' ∧ WindInv a n k s st' := by
  obtain ⟨r, hr, hsum, hw⟩ := h
  have hstep := div_two_pow_step n s
  unfold windStep
  have hb : (if n.testBit s then 1 else 0) = bit n s := rfl
  simp only [hb]
  have hb2 : bit n s ≤ 1 := by unfold bit; split <;> omega
  by_cases hin : st.inword = true
  · obtain ⟨hw1, hw2, _⟩ := hw hin
    simp only [hin, if_true] at hsum
    have hword : 2 * st.word + bit n s < 2 ^ (st.wbits + 1) := by rw [pow_succ]; omega
    have hres : sqr st.result = a ^ (2 * r) := by rw [sqr_eq, hr, ← pow_add, two_mul]
    simp only [hin, Bool.not_true, Bool.false_and, Bool.false_eq_true, if_false]
    by_cases hend : st.wbits + 1 = k ∨ s = 0
    · rw [if_pos hend]
      have : 2 * st.word + bit n s < 2 ^ k :=
        hword.trans_le (Nat.pow_le_pow_right (by norm_num) (by omega))
      rw [hl _ this]
      refine ⟨_, rfl, 2 * r + (2 * st.word + bit n s), ?_, ?_, ?_⟩
      · simp only [hres, pow_add]
      · simp only [Bool.false_eq_true, if_false]; omega
      · simp
    · rw [if_neg hend]
      push Not at hend
      refine ⟨_, rfl, 2 * r, hres, ?_, ?_⟩
      · simp only [if_true]; omega
      · intro _
        exact ⟨hword, by simp only; omega, hend.2⟩
  · have hin' : st.inword = false := by simpa using hin
    simp only [hin', Bool.false_eq_true, if_false] at hsum
    have hres : sqr st.result = a ^ (2 * r) := by rw [sqr_eq, hr, ← pow_add, two_mul]
    simp only [hin', Bool.not_false, Bool.true_and, decide_eq_true_eq, if_true]
    by_cases hbit : bit n s = 0
    · rw [if_pos hbit]
      refine ⟨_, rfl, 2 * r, hres, ?_, ?_⟩
      · simp; omega
      · simp
    · rw [if_neg hbit]
      by_cases hend : 1 = k ∨ s = 0
      · rw [if_pos hend, hl 1 (by
          calc 1 < 2 ^ 1 := by norm_num
            _ ≤ 2 ^ k := Nat.pow_le_pow_right (by norm_num) hk)]
        refine ⟨_, rfl, 2 * r + 1, ?_, ?_, ?_⟩
        · simp only [hres, pow_add, pow_one]
        · simp only [Bool.false_eq_true, if_false]; omega
        · simp
      · rw [if_neg hend]
        push Not at hend
        refine ⟨_, rfl, 2 * r, hres, ?_, ?_⟩
        · simp only [if_true]; omega
        · intro _
          exact ⟨by norm_num, by simp only; omega, hend.2⟩

theorem windLoop_inv (a : G) (n k : ℕ) (hk : 1 ≤ k) (lookup : List G)
    (hl : ∀ i < 2 ^ k, lookup[i]? = some (a ^ i)) :
    ∀ (s : ℕ) (st : WindState G), WindInv a n k s st →
      ∃ st', windLoop n k lookup s st = some st' ∧ WindInv a n k 0 st'
  | 0, st, h => ⟨st, rfl, h⟩
  | s + 1, st, h => by
    obtain ⟨st1, h1, hinv⟩ := windStep_inv a n k s hk lookup hl st h
    rw [windLoop, h1]
    exact windLoop_inv a n k hk lookup hl s st1 hinv

theorem powWind_spec (a : G) (n k : ℕ) (hk : 1 ≤ k) :
    powWind n k (buildWindow a k) = some (a ^ n) := by
  unfold powWind
  split
  · subst_vars; simp
  · obtain ⟨st, hst, r, hr, hsum, hin⟩ := windLoop_inv a n k hk (buildWindow a k)
      (fun i hi => buildWindow_get a k i hi) (bits n) ⟨1, false, 0, 0⟩
      ⟨0, by simp, by
        simp only [Bool.false_eq_true, if_false, add_zero]
        exact (Nat.div_eq_of_lt (lt_two_pow_bits n)).symm, by simp⟩
    rw [hst]
    have : st.inword = false := by
      by_contra hc
      exact (hin (by simpa using hc)).2.2 rfl
    simp only [this, Bool.false_eq_true, if_false, pow_zero, Nat.div_one, add_zero] at hsum
    simp [hr, hsum]

theorem windowSize_pos (n : ℕ) : 1 ≤ windowSize n := by
  unfold windowSize
  simp only
  split_ifs <;> omega

theorem powMpz_spec (a : G) (n : ℕ) : powMpz a n = some (a ^ n) := by
  unfold powMpz
  split
  · subst_vars; simp
  · exact powWind_spec a n _ (windowSize_pos n)

end pow

section commpow
variable {G : Type*} [CommMonoid G]

theorem pow_bit (a : G) (n s : ℕ) : a ^ bit n s = if n.testBit s then a else 1 := by
  unfold bit; split <;> simp

theorem pow2Step_eq (a1 a2 : G) (n1 n2 s : ℕ) (x : G) :
    pow2Step a1 a2 (a1 * a2) n1 n2 s x = x * x * (a1 ^ bit n1 s * a2 ^ bit n2 s) := by
  rw [pow_bit, pow_bit]
  unfold pow2Step
  rw [sqr_eq]
  by_cases h1 : n1.testBit s <;> by_cases h2 : n2.testBit s <;> simp [h1, h2]

theorem pow2Loop_eq (a1 a2 : G) (n1 n2 : ℕ) : ∀ (s : ℕ) (x : G),
    x = a1 ^ (n1 / 2 ^ s) * a2 ^ (n2 / 2 ^ s) →
      pow2Loop a1 a2 (a1 * a2) n1 n2 s x = a1 ^ n1 * a2 ^ n2
  | 0, x, h => by simp [pow2Loop, h]
  | s + 1, x, h => by
    rw [pow2Loop]
    apply pow2Loop_eq
    rw [pow2Step_eq, div_two_pow_step n1 s, div_two_pow_step n2 s, h]
    simp only [pow_add, two_mul]
    ac_rfl

theorem div_two_pow_zero (n s : ℕ) (h : bits n - 1 ≤ s) : n / 2 ^ (s + 1) = 0 := by
  apply Nat.div_eq_of_lt
  have := bits_pos n
  exact (lt_two_pow_bits n).trans_le (Nat.pow_le_pow_right (by norm_num) (by omega))

theorem pow2_spec (a1 : G) (n1 : ℕ) (a2 : G) (n2 : ℕ) : pow2 a1 n1 a2 n2 = a1 ^ n1 * a2 ^ n2 := by
  unfold pow2
  split
  · rename_i h; simp [h.1, h.2]
  · simp only
    apply pow2Loop_eq
    rw [div_two_pow_zero n1, div_two_pow_zero n2] <;> [simp; skip; skip] <;> split <;> omega

theorem pow3Table_get (a1 a2 a3 : G) (n1 n2 n3 s : ℕ) :
    (pow3Table a1 a2 a3)[bit n1 s + bit n2 s * 2 + bit n3 s * 4]?
      = some (a1 ^ bit n1 s * a2 ^ bit n2 s * a3 ^ bit n3 s) := by
  unfold pow3Table bit
  by_cases h1 : n1.testBit s <;> by_cases h2 : n2.testBit s <;> by_cases h3 : n3.testBit s <;>
    simp [h1, h2, h3]
  ac_rfl

theorem pow3Loop_eq (a1 a2 a3 : G) (n1 n2 n3 : ℕ) : ∀ (s : ℕ) (x : G),
    x = a1 ^ (n1 / 2 ^ s) * a2 ^ (n2 / 2 ^ s) * a3 ^ (n3 / 2 ^ s) →
      pow3Loop (pow3Table a1 a2 a3) n1 n2 n3 s x = some (a1 ^ n1 * a2 ^ n2 * a3 ^ n3)
  | 0, x, h => by simp [pow3Loop, h]
  | s + 1, x, h => by
    have hg := pow3Table_get a1 a2 a3 n1 n2 n3 s
    unfold bit at hg
    rw [pow3Loop]
    simp only [hg]
    apply pow3Loop_eq
    rw [div_two_pow_step n1 s, div_two_pow_step n2 s, div_two_pow_step n3 s, h]
    simp only [pow_add, two_mul, bit, sqr_eq]
    ac_rfl

theorem pow3_spec (a1 : G) (n1 : ℕ) (a2 : G) (n2 : ℕ) (a3 : G) (n3 : ℕ) :
    pow3 a1 n1 a2 n2 a3 n3 = some (a1 ^ n1 * a2 ^ n2 * a3 ^ n3) := by
  unfold pow3
  split
  · rename_i h; simp [h.1, h.2]
  · simp only
    apply pow3Loop_eq
    rw [div_two_pow_zero n1, div_two_pow_zero n2, div_two_pow_zero n3] <;>
      [simp; skip; skip; skip] <;> split_ifs <;> omega

end commpow

section table
variable {G : Type*} [Monoid G]

theorem rowFrom_get (m : G) : ∀ (count i e : ℕ), i ≤ count →
    (rowFrom m (m ^ e) count)[i]? = some (m ^ (e + i))
  | 0, i, e, h => by
    obtain rfl : i = 0 := by omega
    simp [rowFrom]
  | count + 1, 0, e, _ => by simp [rowFrom]
  | count + 1, i + 1, e, h => by
    rw [rowFrom, List.getElem?_cons_succ, ← pow_succ', rowFrom_get m count i (e + 1) (by omega)]
    congr 2; omega

theorem rowFrom_last (m : G) : ∀ (count e : ℕ) (d : G),
    (rowFrom m (m ^ e) count).getLastD d = m ^ (e + count)
  | 0, e, d => by simp [rowFrom]
  | count + 1, e, d => by
    rw [rowFrom, List.getLastD_cons, ← pow_succ', rowFrom_last m count (e + 1)]
    congr 1; omega

theorem tableRows_get (a : G) (k : ℕ) : ∀ (rows row e w : ℕ), row < rows → w < 2 ^ k →
    ((tableRows k rows (a ^ e))[row]?).bind (·[w]?) = some (a ^ (e * 2 ^ (k * row) * w))
  | 0, _, _, _, h, _ => absurd h (by omega)
  | rows + 1, row, e, w, h, hw => by
    have h1 : ∀ x : G, rowFrom x 1 (2 ^ k - 1) = rowFrom x (x ^ 0) (2 ^ k - 1) := by simp
    rw [tableRows]
    cases row with
    | zero =>
      rw [List.getElem?_cons_zero, Option.bind_some, h1, rowFrom_get _ _ _ _ (by omega), ← pow_mul]
      congr 2; ring
    | succ row =>
      have hpos : 0 < 2 ^ k := by positivity
      rw [List.getElem?_cons_succ, h1, rowFrom_last, ← pow_succ', ← pow_mul,
        show 0 + (2 ^ k - 1) + 1 = 2 ^ k by omega,
        tableRows_get a k rows row _ w (by omega) hw]
      congr 2
      rw [mul_add, pow_add]; ring

theorem tableWord_eq (n k row : ℕ) : ∀ s, tableWord n k row s = n / 2 ^ (k * row) % 2 ^ s
  | 0 => by simp [tableWord, Nat.mod_one]
  | s + 1 => by
    rw [tableWord, tableWord_eq n k row s]
    have hb : (if n.testBit (k * row + s) then 1 else 0) = bit n (k * row + s) := rfl
    rw [hb, Nat.shiftLeft_eq, Nat.or_comm, mul_comm, ← Nat.two_pow_add_eq_or_of_lt
      (Nat.mod_lt _ (by positivity))]
    rw [bit_eq, pow_add, ← Nat.div_div_eq_div_mul, pow_succ, Nat.mod_mul, add_comm]

theorem div_mod_step (n k row : ℕ) :
    n / 2 ^ (k * row) = n / 2 ^ (k * row) % 2 ^ k + 2 ^ k * (n / 2 ^ (k * (row + 1))) := by
  rw [mul_add, mul_one, pow_add, ← Nat.div_div_eq_div_mul]
  exact (Nat.mod_add_div _ _).symm

theorem tableLoop_eq (a : G) (k total n : ℕ) : ∀ (rows row : ℕ) (x : G), row + rows ≤ total →
    n / 2 ^ (k * (row + rows)) = 0 → x = a ^ (n % 2 ^ (k * row)) →
    tableLoop ⟨k, tableRows k total a⟩ n rows row x = some (a ^ n)
  | 0, row, x, _, h, hx => by
    rw [add_zero] at h
    have hlt : n < 2 ^ (k * row) := by
      have := Nat.div_add_mod n (2 ^ (k * row))
      rw [h, mul_zero, zero_add] at this
      rw [← this]; exact Nat.mod_lt _ (by positivity)
    rw [tableLoop, hx, Nat.mod_eq_of_lt hlt]
  | rows + 1, row, x, hle, h, hx => by
    have hmod : n % 2 ^ (k * (row + 1))
        = n % 2 ^ (k * row) + 2 ^ (k * row) * (n / 2 ^ (k * row) % 2 ^ k) := by
      rw [mul_add, mul_one, pow_add, Nat.mod_mul]
    have hrec := fun y => tableLoop_eq a k total n rows (row + 1) y (by omega)
      (by rw [show row + 1 + rows = row + (rows + 1) by omega]; exact h)
    rw [tableLoop]
    simp only [tableWord_eq]
    by_cases hw : n / 2 ^ (k * row) % 2 ^ k > 0
    · rw [if_pos hw]
      have hg := tableRows_get a k total row 1 (n / 2 ^ (k * row) % 2 ^ k) (by omega)
        (Nat.mod_lt _ (by positivity))
      rw [pow_one] at hg
      rw [hg]
      apply hrec
      rw [hx, hmod, pow_add, one_mul]
    · rw [if_neg hw]
      apply hrec
      rw [hx, hmod, show n / 2 ^ (k * row) % 2 ^ k = 0 by omega]
      simp

theorem powBaseTable_spec (a : G) (order n : ℕ) (ho : n = 0 ∨ order ≠ 0) :
    powBaseTable (ppInit a order) order n = some (a ^ (if n > order then n % order else n)) := by
  unfold powBaseTable ppInit buildTable
  by_cases h0 : n = 0
  · simp [h0]
  · have ho : order ≠ 0 := by tauto
    rw [if_neg h0, if_neg (by tauto)]
    simp only
    set m := if n > order then n % order else n with hm
    have hle : m ≤ order := by
      rw [hm]; split
      · exact (Nat.mod_lt _ (by omega)).le
      · omega
    apply tableLoop_eq
    · have := Nat.div_le_div_right (c := 5) (bits_mono hle)
      omega
    · apply Nat.div_eq_of_lt
      refine (lt_two_pow_bits m).trans_le (Nat.pow_le_pow_right (by norm_num) ?_)
      omega
    · simp [Nat.mod_one]

end table

section aliasing

theorem sub_spec {G : Type*} [AddCommGroup G] (m : ℕ → G) (c a b : ℕ) :
    sub m c a b = Function.update m c (m a - m b) := by
  unfold sub
  simp only
  split
  · rename_i h
    rw [Function.update_self, Function.update_of_ne (Ne.symm h), Function.update_idem]
    congr 1; abel
  · congr 1; abel

theorem div_spec {G : Type*} [DivisionCommMonoid G] (m : ℕ → G) (c a b : ℕ) :
    div m c a b = Function.update m c (m a / m b) := by
  unfold div
  simp only
  split
  · rename_i h
    rw [Function.update_self, Function.update_of_ne (Ne.symm h), Function.update_idem,
      div_eq_mul_inv, mul_comm]
  · rw [div_eq_mul_inv, mul_comm]

end aliasing

end Pbc.Gen
