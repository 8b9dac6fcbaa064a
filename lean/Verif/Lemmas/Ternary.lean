import Verif.Spec.Ternary
import Mathlib.Algebra.Polynomial.Div
import Mathlib.Algebra.Polynomial.Inductions
import Mathlib.Data.List.GetD
import Mathlib.Tactic.Ring
import Mathlib.Tactic.LinearCombination

/-! # Bit planes -/

set_option autoImplicit false

namespace Pbc.Ternary

open Polynomial

variable {w : ℕ}

theorem bit_nil (i : ℕ) : bit ([] : Plane w) i = false := by simp [bit]

theorem bit_cons (hw : 0 < w) (a : BitVec w) (as : Plane w) (i : ℕ) :
    bit (a :: as) i = if i < w then a.getLsbD i else bit as (i - w) := by
  unfold bit
  by_cases h : i < w
  · rw [if_pos h, Nat.div_eq_of_lt h, Nat.mod_eq_of_lt h]
    rfl
  · rw [if_neg h, Nat.div_eq_sub_div hw (by omega), Nat.mod_eq_sub_mod (by omega)]
    rfl

theorem bit_high (hw : 0 < w) (a : Plane w) {i : ℕ} (h : a.length * w ≤ i) : bit a i = false := by
  unfold bit
  rw [List.getD_eq_default _ _ ((Nat.le_div_iff_mul_le hw).mpr h)]
  simp

theorem plane_ext (hw : 0 < w) {a b : Plane w} (hl : a.length = b.length) (h : ∀ i, bit a i = bit b i) :
    a = b := by
  induction a generalizing b with
  | nil => exact (List.length_eq_zero_iff.mp hl.symm).symm
  | cons x as ih =>
    cases b with
    | nil => cases hl
    | cons y bs =>
      have e1 : x = y := by
        refine BitVec.eq_of_getLsbD_eq fun i hi => ?_
        have := h i
        rwa [bit_cons hw, bit_cons hw, if_pos hi, if_pos hi] at this
      have e2 : as = bs := by
        refine ih (by simpa using hl) fun i => ?_
        have := h (i + w)
        rwa [bit_cons hw, bit_cons hw, if_neg (by omega), if_neg (by omega), Nat.add_sub_cancel] at this
      rw [e1, e2]

theorem bit_replicate (n i : ℕ) : bit (List.replicate n (0 : BitVec w)) i = false := by
  unfold bit
  rcases Nat.lt_or_ge (i / w) n with h | h
  · rw [List.getD_eq_getElem _ _ (by simpa using h)]
    simp
  · rw [List.getD_eq_default _ _ (by simpa using h)]
    simp

theorem one_shift_getLsbD {k : ℕ} (hk : k < w) (i : ℕ) :
    ((1 : BitVec w) <<< k).getLsbD i = decide (i = k) := by
  rw [BitVec.getLsbD_shiftLeft]
  have h1 : (1 : BitVec w).getLsbD (i - k) = (decide (0 < w) && decide (i - k = 0)) := by
    exact BitVec.getLsbD_one
  rw [h1]
  by_cases h : i = k
  · subst h
    simp [hk]
    omega
  · simp only [h, decide_false]
    by_cases h2 : i < k
    · simp [h2]
    · have : i - k ≠ 0 := by omega
      simp [this]

theorem and_one_shift {k : ℕ} (hk : k < w) (a : BitVec w) :
    (a &&& ((1 : BitVec w) <<< k) ≠ 0) ↔ a.getLsbD k = true := by
  constructor
  · intro h
    by_contra hc
    refine h (BitVec.eq_of_getLsbD_eq fun i hi => ?_)
    rw [BitVec.getLsbD_and, one_shift_getLsbD hk]
    by_cases e : i = k
    · subst e; simp [Bool.eq_false_iff.mpr hc]
    · simp [e]
  · intro h h0
    have := congrArg (fun v => BitVec.getLsbD v k) h0
    simp only [BitVec.getLsbD_and, one_shift_getLsbD hk, h] at this
    simp at this

theorem and_one_ne (hw : 0 < w) (a : BitVec w) : (a &&& 1 ≠ 0) ↔ a.getLsbD 0 = true := by
  have := and_one_shift hw a
  simpa using this

theorem mask_getLsbD (hw : 0 < w) {k : ℕ} (hk : k < w) (i : ℕ) :
    ((1 : BitVec w) <<< k - 1).getLsbD i = decide (i < k) := by
  have e : ((1 : BitVec w) <<< k - 1).toNat = 2 ^ k - 1 := by
    have h1 : ((1 : BitVec w) <<< k).toNat = 2 ^ k := by
      rw [BitVec.toNat_shiftLeft]
      have : (1 : BitVec w).toNat = 1 := by
        simp [Nat.mod_eq_of_lt (Nat.one_lt_two_pow hw.ne')]
      rw [this, Nat.shiftLeft_eq, one_mul, Nat.mod_eq_of_lt (Nat.pow_lt_pow_right (by norm_num) hk)]
    have h2 : (1 : BitVec w).toNat = 1 := by
      simp [Nat.mod_eq_of_lt (Nat.one_lt_two_pow hw.ne')]
    rw [BitVec.toNat_sub_of_le, h1, h2]
    rw [BitVec.le_def, h1, h2]
    exact Nat.one_le_two_pow
  rw [BitVec.getLsbD, e, Nat.testBit_two_pow_sub_one]

theorem shiftUpGo_length (l : BitVec w) (a : Plane w) : (shiftUpGo l a).length = a.length := by
  induction a generalizing l with
  | nil => rfl
  | cons x as ih => simp [shiftUpGo, ih]

theorem bit_shiftUpGo (hw : 0 < w) (c : Bool) (a : Plane w) (i : ℕ) :
    bit (shiftUpGo (if c then 1 else 0) a) i =
      (decide (i < a.length * w) && if i = 0 then c else bit a (i - 1)) := by
  induction a generalizing c i with
  | nil => simp [shiftUpGo, bit_nil]
  | cons x as ih =>
    have hx : (x &&& ((1 : BitVec w) <<< (w - 1)) ≠ 0) ↔ x.getLsbD (w - 1) = true := and_one_shift (by omega) x
    have e : (if x &&& ((1 : BitVec w) <<< (w - 1)) ≠ 0 then (1 : BitVec w) else 0) =
        if x.getLsbD (w - 1) then 1 else 0 := by
      by_cases h : x.getLsbD (w - 1) = true
      · rw [if_pos (hx.mpr h), if_pos h]
      · rw [if_neg (fun h' => h (hx.mp h')), if_neg h]
    rw [shiftUpGo]
    rw [e, bit_cons hw, ih, List.length_cons, Nat.add_mul, Nat.one_mul]
    by_cases h : i < w
    · rw [if_pos h, BitVec.getLsbD_or, BitVec.getLsbD_shiftLeft, BitVec.getLsbD_and,
        mask_getLsbD hw (by omega)]
      have e1 : decide (i < as.length * w + w) = true := decide_eq_true (by omega)
      rw [e1, Bool.true_and]
      by_cases h0 : i = 0
      · subst h0
        cases c <;> simp [hw]
      · have e2 : (if c = true then (1 : BitVec w) else 0).getLsbD i = false := by
          cases c
          · simp
          · simp only [if_true]
            have := BitVec.getLsbD_one (w := w) (i := i)
            rw [show (1 : BitVec w).getLsbD i = (1#w).getLsbD i from rfl, this]
            simp [h0]
        rw [e2, if_neg h0, bit_cons hw, if_pos (by omega)]
        simp [h, show ¬ i < 1 by omega, show i - 1 < w - 1 by omega]
    · rw [if_neg h, if_neg (by omega : ¬ i = 0), bit_cons hw]
      have e1 : decide (i < as.length * w + w) = decide (i - w < as.length * w) := by
        apply decide_eq_decide.mpr; omega
      rw [e1]
      by_cases h0 : i - w = 0
      · rw [if_pos h0, if_pos (by omega), show i - 1 = w - 1 by omega]
      · rw [if_neg h0, if_neg (by omega), show i - w - 1 = i - 1 - w by omega]

theorem shiftDownGo_length (a : Plane w) : (shiftDownGo a).1.length = a.length := by
  induction a with
  | nil => rfl
  | cons x as ih => simp [shiftDownGo, ih]

theorem shiftDownGo_carry (hw : 0 < w) (a : Plane w) : ((shiftDownGo a).2 ≠ 0) ↔ bit a 0 = true := by
  cases a with
  | nil => simp [shiftDownGo, bit_nil]
  | cons x as =>
    rw [shiftDownGo, bit_cons hw, if_pos hw]
    exact and_one_ne hw x

theorem bit_shiftDownGo (hw : 0 < w) (a : Plane w) (i : ℕ) :
    bit (shiftDownGo a).1 i = bit a (i + 1) := by
  induction a generalizing i with
  | nil => simp [shiftDownGo, bit_nil]
  | cons x as ih =>
    have hc := shiftDownGo_carry hw as
    rw [shiftDownGo]
    dsimp only
    rw [bit_cons hw, bit_cons hw, ih]
    by_cases h : i < w
    · rw [if_pos h]
      by_cases h1 : bit as 0 = true
      · rw [if_pos (hc.mpr h1), BitVec.getLsbD_or, BitVec.getLsbD_ushiftRight, one_shift_getLsbD (by omega)]
        by_cases h2 : i + 1 < w
        · rw [if_pos h2]
          simp [show i ≠ w - 1 by omega, Nat.add_comm]
        · rw [if_neg h2, show i + 1 - w = 0 by omega, h1]
          simp [show i = w - 1 by omega]
      · rw [if_neg (fun h' => h1 (hc.mp h')), BitVec.getLsbD_ushiftRight]
        by_cases h2 : i + 1 < w
        · rw [if_pos h2, Nat.add_comm]
        · rw [if_neg h2, show i + 1 - w = 0 by omega, Bool.eq_false_iff.mpr h1]
          exact BitVec.getLsbD_of_ge _ _ (by omega)
    · rw [if_neg h, if_neg (by omega), show i + 1 - w = i - w + 1 by omega]

/-! ### Coefficients and polynomials -/

theorem Can.has {n : ℕ} {e : El w} (h : Can n e) : e.has n = true := by
  simp [El.has, h.l1, h.l2]

theorem Can.high (hw : 0 < w) {n : ℕ} {e : El w} (h : Can n e) {i : ℕ} (hi : n * w ≤ i) : coeff e i = 0 := by
  rw [coeff, bit_high hw _ (by rw [h.l1]; exact hi), bit_high hw _ (by rw [h.l2]; exact hi)]
  rfl

theorem poly_coeff (hw : 0 < w) {n : ℕ} {e : El w} (h : Can n e) (i : ℕ) : (poly e).coeff i = coeff e i := by
  rw [poly, finset_sum_coeff, h.l1]
  simp only [coeff_monomial]
  rw [Finset.sum_ite_eq']
  split
  · rfl
  · rename_i hi
    exact (h.high hw (by simpa using hi)).symm

theorem coeff_inj {b1 b2 c1 c2 : Bool} (hb : ¬ (b1 = true ∧ b2 = true)) (hc : ¬ (c1 = true ∧ c2 = true))
    (h : ((if b1 then 1 else 0) + (if b2 then 2 else 0) : ZMod 3) =
      (if c1 then 1 else 0) + (if c2 then 2 else 0)) : b1 = c1 ∧ b2 = c2 := by
  revert b1 b2 c1 c2
  decide

/-- Two elements with the same polynomial are equal. -/
theorem poly_inj (hw : 0 < w) {n : ℕ} {a b : El w} (ha : Can n a) (hb : Can n b) (h : poly a = poly b) :
    a = b := by
  have key : ∀ i, bit a.p1 i = bit b.p1 i ∧ bit a.p2 i = bit b.p2 i := fun i => by
    refine coeff_inj (ha.disj i) (hb.disj i) ?_
    have := congrArg (fun p => p.coeff i) h
    simp only [poly_coeff hw ha, poly_coeff hw hb] at this
    exact this
  cases a; cases b
  congr
  · exact plane_ext hw (ha.l1.trans hb.l1.symm) fun i => (key i).1
  · exact plane_ext hw (ha.l2.trans hb.l2.symm) fun i => (key i).2

theorem can_zero (n : ℕ) : Can n (zero n : El w) where
  l1 := by simp [zero]
  l2 := by simp [zero]
  disj i := by
    rw [zero]
    dsimp only
    rw [bit_replicate]
    simp

theorem poly_zero (n : ℕ) : poly (zero n : El w) = 0 := by
  rw [poly]
  refine Finset.sum_eq_zero fun i _ => ?_
  rw [coeff, zero]
  dsimp only
  rw [bit_replicate]
  simp

/-! ### Addition, subtraction, negation -/

theorem addGo_length {n : ℕ} {a1 a2 b1 b2 : Plane w} (h1 : a1.length = n) (h2 : a2.length = n)
    (h3 : b1.length = n) (h4 : b2.length = n) :
    (addGo a1 a2 b1 b2).p1.length = n ∧ (addGo a1 a2 b1 b2).p2.length = n := by
  induction n generalizing a1 a2 b1 b2 with
  | zero =>
    rw [List.length_eq_zero_iff] at h1
    subst h1
    simp [addGo]
  | succ n ih =>
    obtain ⟨x1, a1, rfl⟩ := List.exists_cons_of_length_eq_add_one h1
    obtain ⟨x2, a2, rfl⟩ := List.exists_cons_of_length_eq_add_one h2
    obtain ⟨y1, b1, rfl⟩ := List.exists_cons_of_length_eq_add_one h3
    obtain ⟨y2, b2, rfl⟩ := List.exists_cons_of_length_eq_add_one h4
    have := ih (a1 := a1) (a2 := a2) (b1 := b1) (b2 := b2) (by simpa using h1) (by simpa using h2)
      (by simpa using h3) (by simpa using h4)
    simp [addGo, this]

theorem bit_addGo (hw : 0 < w) {n : ℕ} {a1 a2 b1 b2 : Plane w} (h1 : a1.length = n) (h2 : a2.length = n)
    (h3 : b1.length = n) (h4 : b2.length = n) (i : ℕ) :
    bit (addGo a1 a2 b1 b2).p1 i =
      (((bit a1 i || bit a2 i) && (bit b1 i || bit b2 i)) ^^ (bit a1 i || bit b1 i)) ∧
    bit (addGo a1 a2 b1 b2).p2 i =
      (((bit a1 i || bit a2 i) && (bit b1 i || bit b2 i)) ^^ (bit a2 i || bit b2 i)) := by
  induction n generalizing a1 a2 b1 b2 i with
  | zero =>
    rw [List.length_eq_zero_iff] at h1 h2 h3 h4
    subst h1 h2 h3 h4
    simp [addGo, bit_nil]
  | succ n ih =>
    obtain ⟨x1, a1, rfl⟩ := List.exists_cons_of_length_eq_add_one h1
    obtain ⟨x2, a2, rfl⟩ := List.exists_cons_of_length_eq_add_one h2
    obtain ⟨y1, b1, rfl⟩ := List.exists_cons_of_length_eq_add_one h3
    obtain ⟨y2, b2, rfl⟩ := List.exists_cons_of_length_eq_add_one h4
    have := ih (a1 := a1) (a2 := a2) (b1 := b1) (b2 := b2) (by simpa using h1) (by simpa using h2)
      (by simpa using h3) (by simpa using h4) (i - w)
    simp only [addGo, addW, bit_cons hw]
    by_cases h : i < w
    · simp only [if_pos h, BitVec.getLsbD_xor, BitVec.getLsbD_and, BitVec.getLsbD_or, and_self]
    · simp only [if_neg h]
      exact this

theorem add_table {a1 a2 b1 b2 : Bool} (ha : ¬ (a1 = true ∧ a2 = true)) (hb : ¬ (b1 = true ∧ b2 = true)) :
    ((if (((a1 || a2) && (b1 || b2)) ^^ (a1 || b1)) then 1 else 0) +
      (if (((a1 || a2) && (b1 || b2)) ^^ (a2 || b2)) then 2 else 0) : ZMod 3) =
      ((if a1 then 1 else 0) + (if a2 then 2 else 0)) + ((if b1 then 1 else 0) + (if b2 then 2 else 0)) ∧
    ¬ ((((a1 || a2) && (b1 || b2)) ^^ (a1 || b1)) = true ∧ (((a1 || a2) && (b1 || b2)) ^^ (a2 || b2)) = true) := by
  revert a1 a2 b1 b2
  decide

theorem add_spec (hw : 0 < w) {n : ℕ} {a b : El w} (ha : Can n a) (hb : Can n b) :
    ∃ e, add n a b = some e ∧ Can n e ∧ poly e = poly a + poly b := by
  refine ⟨addGo a.p1 a.p2 b.p1 b.p2, by simp [add, ha.has, hb.has], ?_⟩
  have hl := addGo_length ha.l1 ha.l2 hb.l1 hb.l2
  have hb' := bit_addGo hw ha.l1 ha.l2 hb.l1 hb.l2
  have hc : Can n (addGo a.p1 a.p2 b.p1 b.p2) := ⟨hl.1, hl.2, fun i => by
    rw [(hb' i).1, (hb' i).2]
    exact (add_table (ha.disj i) (hb.disj i)).2⟩
  refine ⟨hc, ?_⟩
  ext i
  rw [coeff_add, poly_coeff hw hc, poly_coeff hw ha, poly_coeff hw hb]
  unfold coeff
  rw [(hb' i).1, (hb' i).2]
  exact (add_table (ha.disj i) (hb.disj i)).1

theorem can_flip {n : ℕ} {b : El w} (hb : Can n b) : Can n ⟨b.p2, b.p1⟩ :=
  ⟨hb.l2, hb.l1, fun i h => hb.disj i ⟨h.2, h.1⟩⟩

theorem poly_flip (hw : 0 < w) {n : ℕ} {b : El w} (hb : Can n b) : poly ⟨b.p2, b.p1⟩ = - poly b := by
  ext i
  rw [coeff_neg, poly_coeff hw (can_flip hb), poly_coeff hw hb]
  have := hb.disj i
  unfold coeff
  dsimp only
  generalize bit b.p1 i = x at *
  generalize bit b.p2 i = y at *
  revert x y
  decide

theorem sub_spec (hw : 0 < w) {n : ℕ} {a b : El w} (ha : Can n a) (hb : Can n b) :
    ∃ e, sub n a b = some e ∧ Can n e ∧ poly e = poly a - poly b := by
  obtain ⟨e, h1, h2, h3⟩ := add_spec hw ha (can_flip hb)
  refine ⟨e, ?_, h2, by rw [h3, poly_flip hw hb, sub_eq_add_neg]⟩
  rw [← h1]
  simp [sub, add, ha.has, hb.has, (can_flip hb).has]

theorem negGo_eq {n : ℕ} {a1 a2 : Plane w} (h1 : a1.length = n) (h2 : a2.length = n) :
    negGo a1 a2 = ⟨a2, a1⟩ := by
  induction n generalizing a1 a2 with
  | zero =>
    rw [List.length_eq_zero_iff] at h1 h2
    subst h1 h2
    rfl
  | succ n ih =>
    obtain ⟨x1, a1, rfl⟩ := List.exists_cons_of_length_eq_add_one h1
    obtain ⟨x2, a2, rfl⟩ := List.exists_cons_of_length_eq_add_one h2
    rw [negGo, ih (by simpa using h1) (by simpa using h2)]
    have e : swapW x1 x2 = (x2, x1) := by
      unfold swapW
      dsimp only
      have e1 : x2 ^^^ (x1 ^^^ x2) = x1 := by
        rw [BitVec.xor_comm x1 x2, ← BitVec.xor_assoc, BitVec.xor_self, BitVec.zero_xor]
      rw [e1, BitVec.xor_comm x1 x2, BitVec.xor_assoc, BitVec.xor_self, BitVec.xor_zero]
    rw [e]

theorem neg_spec (hw : 0 < w) (ip : Bool) {n : ℕ} {a : El w} (ha : Can n a) :
    ∃ e, neg ip n a = some e ∧ Can n e ∧ poly e = - poly a := by
  refine ⟨⟨a.p2, a.p1⟩, ?_, can_flip ha, poly_flip hw ha⟩
  rw [neg, ha.has, if_pos rfl, negGo_eq ha.l1 ha.l2, ite_self]

theorem f1_spec (hw : 0 < w) {n v : ℕ} {a : El w} (ha : Can n a) (hv : v < 3) :
    ∃ e, f1 n v a = some e ∧ Can n e ∧ poly e = C (v : ZMod 3) * poly a := by
  rw [f1, ha.has, if_pos rfl]
  interval_cases v
  · exact ⟨_, rfl, can_zero n, by simp [poly_zero]⟩
  · exact ⟨_, rfl, ha, by simp⟩
  · refine ⟨_, rfl, can_flip ha, ?_⟩
    simp only [OfNat.ofNat_ne_zero, OfNat.ofNat_ne_one, if_false]
    rw [poly_flip hw ha, show ((2 : ℕ) : ZMod 3) = -1 by decide]
    simp

/-! ### Coefficients -/

theorem get_spec (hw : 0 < w) {n : ℕ} {e : El w} (h : Can n e) {pos : ℕ} (hp : pos < n * w) :
    ∃ v, get n e pos = some v ∧ v < 3 ∧ (v : ZMod 3) = (poly e).coeff pos ∧
      (v = 0 ↔ (poly e).coeff pos = 0) := by
  have hd : pos / w < n := Nat.div_lt_of_lt_mul (by rwa [mul_comm] at hp)
  have hm : pos % w < w := Nat.mod_lt _ hw
  rw [poly_coeff hw h]
  have h1 : bit e.p1 pos = (e.p1[pos / w]'(by rw [h.l1]; exact hd)).getLsbD (pos % w) := by
    rw [bit, List.getD_eq_getElem]
  have h2 : bit e.p2 pos = (e.p2[pos / w]'(by rw [h.l2]; exact hd)).getLsbD (pos % w) := by
    rw [bit, List.getD_eq_getElem]
  rw [get, h.has, if_pos rfl, List.getElem?_eq_getElem (by rw [h.l1]; exact hd),
    List.getElem?_eq_getElem (by rw [h.l2]; exact hd)]
  refine ⟨_, rfl, ?_⟩
  have := h.disj pos
  rw [coeff, h1, h2]
  rw [h1, h2] at this
  simp only [and_one_shift hm]
  clear h1 h2
  generalize (e.p1[pos / w]'(by rw [h.l1]; exact hd)).getLsbD (pos % w) = x at *
  generalize (e.p2[pos / w]'(by rw [h.l2]; exact hd)).getLsbD (pos % w) = y at *
  revert x y
  decide

theorem orBit_spec (hw : 0 < w) {a : Plane w} {pos : ℕ} (hp : pos < a.length * w) :
    ∃ b, orBit a pos = some b ∧ b.length = a.length ∧ ∀ i, bit b i = (bit a i || decide (i = pos)) := by
  have hd : pos / w < a.length := Nat.div_lt_of_lt_mul (by rwa [mul_comm] at hp)
  have hm : pos % w < w := Nat.mod_lt _ hw
  refine ⟨a.set (pos / w) (a[pos / w] ||| ((1 : BitVec w) <<< (pos % w))), ?_, by simp, fun i => ?_⟩
  · rw [orBit, List.getElem?_eq_getElem hd]
    rfl
  · unfold bit
    by_cases h : i / w = pos / w
    · rw [h, List.getD_eq_getElem _ _ (by simpa using hd), List.getElem_set_self,
        List.getD_eq_getElem _ _ hd, BitVec.getLsbD_or, one_shift_getLsbD hm]
      congr 1
      apply decide_eq_decide.mpr
      constructor
      · intro h'
        rw [← Nat.div_add_mod i w, ← Nat.div_add_mod pos w, h, h']
      · rintro rfl; rfl
    · have hne : i ≠ pos := fun h' => h (by rw [h'])
      simp only [hne, decide_false, Bool.or_false]
      congr 1
      rw [List.getD_eq_getElem?_getD, List.getD_eq_getElem?_getD, List.getElem?_set_ne (Ne.symm h)]

theorem set_spec (hw : 0 < w) {n : ℕ} {e : El w} (h : Can n e) {pos v : ℕ} (hp : pos < n * w) (hv : v < 3)
    (h0 : (poly e).coeff pos = 0) :
    ∃ e', set n e pos v = some e' ∧ Can n e' ∧ poly e' = poly e + monomial pos (v : ZMod 3) := by
  have hz : bit e.p1 pos = false ∧ bit e.p2 pos = false := by
    rw [poly_coeff hw h, coeff] at h0
    have := h.disj pos
    generalize bit e.p1 pos = x at *
    generalize bit e.p2 pos = y at *
    revert x y
    decide
  rw [set, h.has, if_pos rfl]
  interval_cases v
  · exact ⟨e, by simp, h, by simp⟩
  · obtain ⟨b, hb, hl, hbit⟩ := orBit_spec hw (a := e.p1) (pos := pos) (by rw [h.l1]; exact hp)
    have hc : Can n ⟨b, e.p2⟩ := ⟨hl.trans h.l1, h.l2, fun i => by
      dsimp only
      rw [hbit]
      by_cases hi : i = pos
      · subst hi; simp [hz]
      · simpa [hi] using h.disj i⟩
    refine ⟨⟨b, e.p2⟩, by simp [hb], hc, ?_⟩
    ext i
    rw [coeff_add, poly_coeff hw hc, poly_coeff hw h, coeff_monomial, coeff, coeff, hbit]
    by_cases hi : i = pos
    · subst hi; simp [hz]
    · simp [hi, Ne.symm hi]
  · obtain ⟨b, hb, hl, hbit⟩ := orBit_spec hw (a := e.p2) (pos := pos) (by rw [h.l2]; exact hp)
    have hc : Can n ⟨e.p1, b⟩ := ⟨h.l1, hl.trans h.l2, fun i => by
      dsimp only
      rw [hbit]
      by_cases hi : i = pos
      · subst hi; simp [hz]
      · simpa [hi] using h.disj i⟩
    refine ⟨⟨e.p1, b⟩, by simp [hb], hc, ?_⟩
    ext i
    rw [coeff_add, poly_coeff hw hc, poly_coeff hw h, coeff_monomial, coeff, coeff, hbit]
    by_cases hi : i = pos
    · subst hi; simp [hz]
    · simp [hi, Ne.symm hi]

/-! ### Shifts -/

theorem shiftUp_spec (hw : 0 < w) {n : ℕ} {e : El w} (h : Can n e) (hd : (poly e).degree < (n * w - 1 : ℕ)) :
    ∃ e', shiftUp n e = some e' ∧ Can n e' ∧ poly e' = X * poly e := by
  have hb : ∀ (a : Plane w) i, bit (shiftUpGo 0 a) i =
      (decide (i < a.length * w) && if i = 0 then false else bit a (i - 1)) := fun a i => by
    have := bit_shiftUpGo hw false a i
    simpa using this
  have hc : Can n ⟨shiftUpGo 0 e.p1, shiftUpGo 0 e.p2⟩ :=
    ⟨(shiftUpGo_length _ _).trans h.l1, (shiftUpGo_length _ _).trans h.l2, fun i => by
      dsimp only
      rw [hb, hb]
      rintro ⟨h1, h2⟩
      rw [Bool.and_eq_true] at h1 h2
      by_cases hi : i = 0
      · rw [if_pos hi] at h1; exact absurd h1.2 (by simp)
      · rw [if_neg hi] at h1 h2
        exact h.disj _ ⟨h1.2, h2.2⟩⟩
  refine ⟨_, by rw [shiftUp, h.has, if_pos rfl], hc, ?_⟩
  ext i
  rw [poly_coeff hw hc, coeff, hb, hb, h.l1, h.l2]
  cases i with
  | zero => simp
  | succ i =>
    rw [coeff_X_mul, poly_coeff hw h, coeff]
    by_cases hi : i + 1 < n * w
    · simp [hi]
    · have h0 : (poly e).coeff i = 0 := coeff_eq_zero_of_degree_lt (lt_of_lt_of_le hd (by
        exact_mod_cast (by omega : n * w - 1 ≤ i)))
      rw [poly_coeff hw h, coeff] at h0
      simp [hi, h0]

theorem shiftDown_spec (hw : 0 < w) {n : ℕ} {e : El w} (h : Can n e) :
    ∃ e', shiftDown n e = some e' ∧ Can n e' ∧ poly e' = (poly e).divX := by
  have hc : Can n ⟨(shiftDownGo e.p1).1, (shiftDownGo e.p2).1⟩ :=
    ⟨(shiftDownGo_length _).trans h.l1, (shiftDownGo_length _).trans h.l2, fun i => by
      dsimp only
      rw [bit_shiftDownGo hw, bit_shiftDownGo hw]
      exact h.disj _⟩
  refine ⟨_, by rw [shiftDown, h.has, if_pos rfl], hc, ?_⟩
  ext i
  rw [coeff_divX, poly_coeff hw hc, poly_coeff hw h, coeff, coeff, bit_shiftDownGo hw, bit_shiftDownGo hw]

end Pbc.Ternary
