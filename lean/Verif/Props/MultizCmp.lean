import Verif.Model.Multiz
import Mathlib.Tactic.Linarith
import Mathlib.Data.Int.Order.Basic
import Mathlib.Algebra.Order.Ring.Int

/-!
# Comparison of nested integer lists

Where no list has a zero leading coefficient, the comparison is a total order.
-/

set_option autoImplicit false

namespace Pbc.Multiz

/-! ## Specification -/

mutual

/-- The leading coefficient: the last entry of the last entry and so on; 0 for an empty list. -/
def lead : MZ → ℤ
  | .int z => z
  | .arr l => leadL l

/-- The leading coefficient of the last entry. -/
def leadL : List MZ → ℤ
  | [] => 0
  | [a] => lead a
  | _ :: b :: l => leadL (b :: l)

end

mutual

/-- No list of the tree has leading coefficient 0 (in particular none is empty). -/
def Normal : MZ → Prop
  | .int _ => True
  | .arr l => leadL l ≠ 0 ∧ NormalL l

/-- All entries are normal. -/
def NormalL : List MZ → Prop
  | [] => True
  | a :: l => Normal a ∧ NormalL l

end

/-! ## Lemmas -/

mutual

theorem leadSgn_eq : ∀ a : MZ, Normal a → leadSgn a = some (lead a).sign
  | .int z, _ => rfl
  | .arr l, h => by
    rw [leadSgn, lead]
    exact leadSgnL_eq l (by rintro rfl; exact h.1 rfl) h.2

theorem leadSgnL_eq : ∀ l : List MZ, l ≠ [] → NormalL l → leadSgnL l = some (leadL l).sign
  | [], h, _ => absurd rfl h
  | [a], _, hn => by rw [leadSgnL, leadL]; exact leadSgn_eq a hn.1
  | _ :: b :: l, _, hn => by rw [leadSgnL, leadL]; exact leadSgnL_eq (b :: l) (by simp) hn.2

end

theorem sign_ne {z : ℤ} (h : z ≠ 0) : z.sign ≠ 0 := fun e => h (Int.sign_eq_zero_iff_zero.1 e)

mutual

theorem cmp_spec : ∀ a b : MZ, Normal a → Normal b →
    ∃ s, cmp a b = some s ∧ (s = 0 ↔ a = b) ∧ cmp b a = some (-s)
  | .int a, .int b, _, _ => by
    refine ⟨(a - b).sign, by rw [cmp], ?_, ?_⟩
    · rw [Int.sign_eq_zero_iff_zero, sub_eq_zero]
      exact ⟨fun h => by rw [h], fun h => by injection h⟩
    · rw [cmp, ← Int.sign_neg, neg_sub]
  | .int a, .arr l', _, hb => by
    have e := leadSgn_eq (.arr l') hb
    refine ⟨-(lead (.arr l')).sign, by rw [cmp, e]; rfl, ?_, by rw [cmp, e, neg_neg]⟩
    have := sign_ne hb.1
    rw [neg_eq_zero, lead]
    exact ⟨fun h => absurd h this, fun h => by cases h⟩
  | .arr l, .int b, ha, _ => by
    have e := leadSgn_eq (.arr l) ha
    refine ⟨(lead (.arr l)).sign, by rw [cmp, e], ?_, by rw [cmp, e]; rfl⟩
    have := sign_ne ha.1
    rw [lead]
    exact ⟨fun h => absurd h this, fun h => by cases h⟩
  | .arr l, .arr l', ha, hb => by
    have e := leadSgn_eq (.arr l) ha
    have e' := leadSgn_eq (.arr l') hb
    have n := sign_ne ha.1
    have n' := sign_ne hb.1
    rw [cmp, cmp]
    rcases Nat.lt_trichotomy l.length l'.length with h | h | h
    · rw [if_neg (by omega), if_pos h, if_pos h, e', lead]
      refine ⟨_, rfl, ?_, by rw [neg_neg]⟩
      rw [neg_eq_zero]
      exact ⟨fun h => absurd h n', fun h' => by cases h'; omega⟩
    · rw [if_neg (by omega), if_neg (by omega), if_neg (by omega), if_neg (by omega)]
      obtain ⟨s, h1, h2, h3⟩ := cmpL_spec l l' ha.2 hb.2 h
      exact ⟨s, h1, h2.trans ⟨fun h => by rw [h], fun h => by injection h⟩, h3⟩
    · rw [if_pos h, if_neg (by omega), if_pos h, e, lead]
      exact ⟨_, rfl, ⟨fun h => absurd h n, fun h' => by cases h'; omega⟩, rfl⟩

theorem cmpL_spec : ∀ l l' : List MZ, NormalL l → NormalL l' → l.length = l'.length →
    ∃ s, cmpL l l' = some s ∧ (s = 0 ↔ l = l') ∧ cmpL l' l = some (-s)
  | [], [], _, _, _ => ⟨0, rfl, by simp, rfl⟩
  | [], _ :: _, _, _, h => by cases h
  | _ :: _, [], _, _, h => by cases h
  | a :: l, b :: l', ha, hb, h => by
    obtain ⟨s, h1, h2, h3⟩ := cmpL_spec l l' ha.2 hb.2 (by simpa using h)
    obtain ⟨t, g1, g2, g3⟩ := cmp_spec a b ha.1 hb.1
    rw [cmpL, cmpL, h1, h3]
    simp only [Option.bind_some]
    by_cases h0 : s = 0
    · subst h0
      have := h2.1 rfl
      subst this
      simp only [ne_eq, not_true, if_false, neg_zero]
      exact ⟨t, g1, g2.trans ⟨fun h => by rw [h], fun h => by injection h⟩, g3⟩
    · rw [if_pos h0, if_pos (neg_ne_zero.2 h0)]
      refine ⟨s, rfl, ?_, rfl⟩
      exact ⟨fun h => absurd h h0, fun h => by injection h with _ h; exact absurd (h2.2 h) h0⟩

end

theorem neg_sign {z : ℤ} (h : z.sign = -1) : z < 0 := Int.sign_eq_neg_one_iff_neg.1 h

mutual

/-- Opposite leading coefficients decide. -/
theorem cmp_lead : ∀ a b : MZ, Normal a → Normal b → 0 < lead a → lead b < 0 → cmp a b = some 1
  | .int a, .int b, _, _, h, h' => by
    rw [lead] at h h'
    rw [cmp, Int.sign_eq_one_of_pos (by omega)]
  | .int a, .arr l', _, hb, _, h' => by
    rw [cmp, leadSgn_eq (.arr l') hb, Int.sign_eq_neg_one_of_neg h']; rfl
  | .arr l, .int b, ha, _, h, _ => by
    rw [cmp, leadSgn_eq (.arr l) ha, Int.sign_eq_one_of_pos h]
  | .arr l, .arr l', ha, hb, h, h' => by
    rw [cmp, leadSgn_eq (.arr l) ha, leadSgn_eq (.arr l') hb, Int.sign_eq_one_of_pos h,
      Int.sign_eq_neg_one_of_neg h']
    rw [lead] at h h'
    split_ifs with h1 h2
    · rfl
    · rfl
    · exact cmpL_lead l l' ha.2 hb.2 (by omega) h h'

theorem cmpL_lead : ∀ l l' : List MZ, NormalL l → NormalL l' → l.length = l'.length →
    0 < leadL l → leadL l' < 0 → cmpL l l' = some 1
  | [], _, _, _, _, h, _ => by rw [leadL] at h; omega
  | [a], [], _, _, hl, _, _ => by cases hl
  | [a], [b], ha, hb, _, h, h' => by
    rw [leadL] at h h'
    rw [cmpL, cmpL]
    · exact cmp_lead a b ha.1 hb.1 h h'
    · intro _ _ _ _ h; cases h
  | [a], _ :: _ :: _, _, _, hl, _, _ => by simp at hl
  | _ :: _ :: _, [], _, _, hl, _, _ => by cases hl
  | _ :: _ :: _, [_], _, _, hl, _, _ => by simp at hl
  | a :: c :: l, b :: d :: l', ha, hb, hl, h, h' => by
    rw [leadL] at h h'
    rw [cmpL, cmpL_lead (c :: l) (d :: l') ha.2 hb.2 (by simpa using hl) h h']
    rfl

end

/-- The length with the sign of the leading coefficient; 0 for integers. -/
def key : MZ → ℤ
  | .int _ => 0
  | .arr l => (leadL l).sign * l.length

theorem arr_pos {l : List MZ} (h : Normal (.arr l)) : 0 < l.length := by
  cases l with
  | nil => exact absurd rfl h.1
  | cons => simp

theorem sign_cases {z : ℤ} (h : z ≠ 0) : (0 < z ∧ z.sign = 1) ∨ (z < 0 ∧ z.sign = -1) := by
  rcases Int.lt_or_gt_of_ne h with h | h
  · exact Or.inr ⟨h, Int.sign_eq_neg_one_of_neg h⟩
  · exact Or.inl ⟨h, Int.sign_eq_one_of_pos h⟩

/-- The comparison looks at the keys first. -/
theorem cmp_key (a b : MZ) (ha : Normal a) (hb : Normal b) (h : key a < key b) :
    cmp a b = some (-1) := by
  have flip : ∀ {a b : MZ}, Normal a → Normal b → cmp b a = some 1 → cmp a b = some (-1) := by
    intro a b ha hb e
    obtain ⟨s, h1, -, h3⟩ := cmp_spec a b ha hb
    rw [e] at h3
    injection h3 with h3
    rw [h1, show s = -1 by omega]
  cases a with
  | int a =>
    cases b with
    | int b => exact absurd h (lt_irrefl _)
    | arr l' =>
      have := arr_pos hb
      rw [cmp, leadSgn_eq _ hb, lead]
      rcases sign_cases hb.1 with ⟨_, e⟩ | ⟨_, e⟩
      · rw [e]; rfl
      · rw [key, key, e] at h; omega
  | arr l =>
    have hl := arr_pos ha
    cases b with
    | int b =>
      rw [cmp, leadSgn_eq _ ha, lead]
      rcases sign_cases ha.1 with ⟨_, e⟩ | ⟨_, e⟩
      · rw [key, key, e] at h; omega
      · rw [e]
    | arr l' =>
      have hl' := arr_pos hb
      rcases sign_cases ha.1 with ⟨p, e⟩ | ⟨p, e⟩ <;> rcases sign_cases hb.1 with ⟨p', e'⟩ | ⟨p', e'⟩
      · rw [key, key, e, e'] at h
        rw [cmp, if_neg (by omega), if_pos (by omega), leadSgn_eq _ hb, lead, e']; rfl
      · rw [key, key, e, e'] at h; omega
      · exact flip ha hb (cmp_lead _ _ hb ha (by rw [lead]; exact p') (by rw [lead]; exact p))
      · rw [key, key, e, e'] at h
        rw [cmp, if_pos (by omega), leadSgn_eq _ ha, lead, e]

/-- `a` is smaller than `b`. -/
def Lt (a b : MZ) : Prop := ∃ s, cmp a b = some s ∧ s < 0

theorem lt_key {a b : MZ} (ha : Normal a) (hb : Normal b) (h : Lt a b) : key a ≤ key b := by
  by_contra hc
  have := cmp_key b a hb ha (by omega)
  obtain ⟨s, h1, -, h3⟩ := cmp_spec a b ha hb
  obtain ⟨t, g1, g2⟩ := h
  rw [h1] at g1; injection g1 with g1
  rw [this] at h3; injection h3 with h3
  omega

mutual

theorem cmp_trans : ∀ a b c : MZ, Normal a → Normal b → Normal c → Lt a b → Lt b c → Lt a c
  | .int a, .int b, .int c, _, _, _, ⟨s, h1, h2⟩, ⟨t, g1, g2⟩ => by
    rw [cmp] at h1 g1
    injection h1 with h1
    injection g1 with g1
    subst h1 g1
    rw [Int.sign_neg_iff] at h2 g2
    exact ⟨_, rfl, Int.sign_neg_iff.2 (by omega)⟩
  | .arr l, .arr l', .arr l'', ha, hb, hc, h, g => by
    have k1 := lt_key ha hb h
    have k2 := lt_key hb hc g
    by_cases hk : key (.arr l) < key (.arr l'')
    · exact ⟨-1, cmp_key _ _ ha hc hk, by omega⟩
    · have len : l.length = l'.length ∧ l'.length = l''.length := by
        have p := arr_pos ha
        have p' := arr_pos hb
        have p'' := arr_pos hc
        simp only [key] at k1 k2 hk
        rcases sign_cases ha.1 with ⟨_, e⟩ | ⟨_, e⟩ <;> rcases sign_cases hb.1 with ⟨_, e'⟩ | ⟨_, e'⟩ <;>
          rcases sign_cases hc.1 with ⟨_, e''⟩ | ⟨_, e''⟩ <;>
          (rw [e, e'] at k1; rw [e', e''] at k2; rw [e, e''] at hk; omega)
      obtain ⟨s, h1, h2⟩ := h
      obtain ⟨t, g1, g2⟩ := g
      rw [cmp, if_neg (by omega), if_neg (by omega)] at h1 g1
      obtain ⟨u, e1, e2⟩ := cmpL_trans l l' l'' ha.2 hb.2 hc.2 len.1 len.2 s t h1 h2 g1 g2
      exact ⟨u, by rw [cmp, if_neg (by omega), if_neg (by omega)]; exact e1, e2⟩
  | .int a, .int b, .arr l'', ha, hb, hc, h, g => by
    have k2 := lt_key hb hc g
    have := arr_pos hc
    refine ⟨-1, cmp_key _ _ ha hc ?_, by omega⟩
    simp only [key] at k2 ⊢
    rcases sign_cases hc.1 with ⟨_, e⟩ | ⟨_, e⟩ <;> (rw [e] at k2 ⊢; omega)
  | .int a, .arr l', c, ha, hb, hc, h, g => by
    have k1 := lt_key ha hb h
    have k2 := lt_key hb hc g
    have := arr_pos hb
    refine ⟨-1, cmp_key _ _ ha hc (lt_of_lt_of_le ?_ k2), by omega⟩
    simp only [key] at k1 ⊢
    rcases sign_cases hb.1 with ⟨_, e⟩ | ⟨_, e⟩ <;> (rw [e] at k1 ⊢; omega)
  | .arr l, .int b, c, ha, hb, hc, h, g => by
    have k1 := lt_key ha hb h
    have k2 := lt_key hb hc g
    have := arr_pos ha
    refine ⟨-1, cmp_key _ _ ha hc (lt_of_lt_of_le ?_ k2), by omega⟩
    simp only [key] at k1 ⊢
    rcases sign_cases ha.1 with ⟨_, e⟩ | ⟨_, e⟩ <;> (rw [e] at k1 ⊢; omega)
  | .arr l, .arr l', .int c, ha, hb, hc, h, g => by
    have k1 := lt_key ha hb h
    have k2 := lt_key hb hc g
    have := arr_pos hb
    refine ⟨-1, cmp_key _ _ ha hc (lt_of_le_of_lt k1 ?_), by omega⟩
    simp only [key] at k2 ⊢
    rcases sign_cases hb.1 with ⟨_, e⟩ | ⟨_, e⟩ <;> (rw [e] at k2 ⊢; omega)

theorem cmpL_trans : ∀ l l' l'' : List MZ, NormalL l → NormalL l' → NormalL l'' →
    l.length = l'.length → l'.length = l''.length → ∀ s t, cmpL l l' = some s → s < 0 →
    cmpL l' l'' = some t → t < 0 → ∃ u, cmpL l l'' = some u ∧ u < 0
  | [], [], _, _, _, _, _, _, s, t, h, hs, _, _ => by
    rw [cmpL] at h
    · injection h with h; omega
    · intro _ _ _ _ h; cases h
  | [], _ :: _, _, _, _, _, h, _, _, _, _, _, _, _ => by cases h
  | _ :: _, [], _, _, _, _, h, _, _, _, _, _, _, _ => by cases h
  | _ :: _, _ :: _, [], _, _, _, _, h, _, _, _, _, _, _ => by cases h
  | a :: l, b :: l', c :: l'', ha, hb, hc, e1, e2, s, t, hs, hs0, ht, ht0 => by
    have e1' : l.length = l'.length := by simpa using e1
    have e2' : l'.length = l''.length := by simpa using e2
    obtain ⟨x, x1, x2, -⟩ := cmpL_spec l l' ha.2 hb.2 e1'
    obtain ⟨y, y1, y2, -⟩ := cmpL_spec l' l'' hb.2 hc.2 e2'
    rw [cmpL, x1, Option.bind_some] at hs
    rw [cmpL, y1, Option.bind_some] at ht
    rw [cmpL]
    by_cases hx : x = 0
    · have := x2.1 hx
      subst this
      rw [y1, Option.bind_some]
      by_cases hy : y = 0
      · rw [if_neg (by simpa using hx)] at hs
        rw [if_neg (by simpa using hy)] at ht ⊢
        exact cmp_trans a b c ha.1 hb.1 hc.1 ⟨s, hs, hs0⟩ ⟨t, ht, ht0⟩
      · rw [if_pos hy] at ht ⊢
        exact ⟨t, ht, ht0⟩
    · rw [if_pos hx] at hs
      injection hs with hs
      by_cases hy : y = 0
      · have := y2.1 hy
        subst this
        rw [x1, Option.bind_some, if_pos hx]
        exact ⟨x, rfl, by omega⟩
      · rw [if_pos hy] at ht
        injection ht with ht
        obtain ⟨u, u1, u2⟩ := cmpL_trans l l' l'' ha.2 hb.2 hc.2 e1' e2' x y x1 (by omega) y1 (by omega)
        rw [u1, Option.bind_some, if_pos (by omega)]
        exact ⟨u, rfl, u2⟩

end

/-! ## C23 -/

/-- **C23.**  Where no list has leading coefficient 0, comparison returns, is 0 exactly for equal
values, changes its sign with the order of the arguments, and is transitive: a total order.  (Partial: with
leading zeros it is not, see `C23_cmp_fails`.) -/
theorem C23_cmp_partial (a b : MZ) (ha : Normal a) (hb : Normal b) :
    (∃ s, cmp a b = some s ∧ (s = 0 ↔ a = b) ∧ cmp b a = some (-s)) ∧
    ∀ c, Normal c → ∀ s t, cmp a b = some s → s < 0 → cmp b c = some t → t < 0 →
      ∃ u, cmp a c = some u ∧ u < 0 :=
  ⟨cmp_spec a b ha hb, fun c hc s t h1 h2 h3 h4 => cmp_trans a b c ha hb hc ⟨s, h1, h2⟩ ⟨t, h3, h4⟩⟩

/-- **C23.**  Higher entries count first: lists of the same length are compared by their last entries,
and by the entries before them only if the last are equal. -/
theorem C23_cmp_order (l l' : List MZ) (a b : MZ) (h : l.length = l'.length) (ha : Normal a)
    (hb : Normal b) :
    (a ≠ b → cmp (.arr (l ++ [a])) (.arr (l' ++ [b])) = cmp a b) ∧
    cmp (.arr (l ++ [a])) (.arr (l' ++ [a])) = cmp (.arr l) (.arr l') := by
  have key : ∀ (l l' : List MZ) (a b : MZ) s, l.length = l'.length → cmp a b = some s →
      cmpL (l ++ [a]) (l' ++ [b]) = if s ≠ 0 then some s else cmpL l l' := by
    intro l
    induction l with
    | nil =>
      intro l' a b s h e
      cases l' with
      | nil =>
        simp only [List.nil_append, cmpL, Option.bind_some, ne_eq, not_true, if_false, e]
        split_ifs with h
        · rw [h]
        · rfl
      | cons => cases h
    | cons c l ih =>
      intro l' a b s h e
      cases l' with
      | nil => cases h
      | cons d l' =>
        rw [List.cons_append, List.cons_append, cmpL, ih l' a b s (by simpa using h) e, cmpL]
        by_cases h0 : s = 0
        · simp [h0]
        · simp [h0]
  have len : ∀ a b : MZ, (l ++ [a]).length = (l' ++ [b]).length := by intro a b; simp [h]
  constructor
  · intro hab
    obtain ⟨s, h1, h2, -⟩ := cmp_spec a b ha hb
    rw [cmp, if_neg (by rw [len a b]; omega), if_neg (by rw [len a b]; omega), key l l' a b s h h1, h1,
      if_pos fun h0 => hab (h2.1 h0)]
  · obtain ⟨s, h1, h2, -⟩ := cmp_spec a a ha ha
    rw [cmp, if_neg (by rw [len a a]; omega), if_neg (by rw [len a a]; omega), key l l' a a s h h1,
      if_neg (by rw [not_not]; exact h2.2 rfl), cmp, if_neg (by omega), if_neg (by omega)]

/-- `[[1, 2], 3]` against `[[1, -2], 3]` and `[5, 4]`. -/
example : ∃ s, cmp (.arr [.arr [.int 1, .int 2], .int 3]) (.arr [.arr [.int 1, .int (-2)], .int 3])
    = some s ∧ s = 1 := ⟨_, by simp [cmp, cmpL], rfl⟩

example := C23_cmp_partial (.arr [.arr [.int 1, .int 2], .int 3]) (.arr [.int 5, .int 4])
  (by simp [Normal, NormalL, leadL, lead]) (by simp [Normal, NormalL, leadL, lead])

example : cmp (.arr [.int 9, .int 3]) (.arr [.int 5, .int 4]) = cmp (.int 3) (.int 4) :=
  (C23_cmp_order [.int 9] [.int 5] (.int 3) (.int 4) rfl trivial trivial).1 (by simp)

end Pbc.Multiz
