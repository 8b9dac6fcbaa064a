import Verif.Model.Param
import Verif.Props.Darray
import Mathlib.Data.Nat.Digits.Lemmas
import Mathlib.Tactic.Ring
import Mathlib.Tactic.Linarith

/-!
# Properties of parameter texts
-/

set_option autoImplicit false

namespace Pbc.Param

open Darray

/-! ## Specification: what a parameter text says -/

/-- White space. -/
def White (c : Char) : Prop := c ∈ [' ', '\t', '\r', '\n']

instance (c : Char) : Decidable (White c) := by unfold White; infer_instance

/-- The characters that cannot be part of a word. -/
def NotInWord (c : Char) : Prop := c ∈ [' ', '\t', '\r', '\n', '<', '/', '>', '\x00']

instance (c : Char) : Decidable (NotInWord c) := by unfold NotInWord; infer_instance

/-- A word: not empty, no delimiter or NUL inside, and not starting like a comment. -/
def IsWord (w : List Char) : Prop :=
  w ≠ [] ∧ (∀ c ∈ w, ¬ NotInWord c) ∧ w.head? ≠ some '#'

/-- White space and comments. -/
inductive Sep : List Char → Prop
  | nil : Sep []
  | ws {c : Char} {s : List Char} : White c → Sep s → Sep (c :: s)
  | comment {c s : List Char} : (∀ x ∈ c, x ≠ '\n' ∧ x ≠ '\x00') → Sep s →
      Sep ('#' :: c ++ '\n' :: s)

/-- A text with the given bindings: words in alternation, each followed by at least one white space
character, with any further white space, blank lines and comments; the text may end in a comment
without a newline. -/
inductive Says : List (List Char × List Char) → List Char → Prop
  | done {s c : List Char} : Sep s → (c = [] ∨ ∃ c', c = '#' :: c' ∧ ∀ x ∈ c', x ≠ '\n' ∧ x ≠ '\x00') →
      Says [] (s ++ c)
  | bind {k v s₁ s₂ s : List Char} {w₁ w₂ : Char} {l : List (List Char × List Char)} :
      Sep s₁ → IsWord k → White w₁ → Sep s₂ → IsWord v → White w₂ → Says l s →
      Says ((k, v) :: l) (s₁ ++ k ++ w₁ :: s₂ ++ v ++ w₂ :: s)

theorem white_ws {c : Char} (h : White c) : ws c = true := by
  have : ∀ c ∈ [' ', '\t', '\r', '\n'], ws c = true := by decide
  exact this c h

theorem word_delim {c : Char} (h : ¬ NotInWord c) : delim c = false ∧ c ≠ '\x00' := by
  simp only [NotInWord, List.mem_cons, List.not_mem_nil, or_false, not_or] at h
  obtain ⟨h1, h2, h3, h4, h5, h6, h7, h8⟩ := h
  exact ⟨by simp [delim, ws, h1, h2, h3, h4, h5, h6, h7], h8⟩

/-! ## The text in memory -/

/-- The characters before the end of the input. -/
def stream (mem : List Char) (left : Option ℕ) : Option (List Char) :=
  if left = some 0 then some []
  else
    match mem with
    | [] => none
    | c :: rest => if c = '\x00' then some [] else (stream rest (left.map (· - 1))).map (c :: ·)

/-- `skip` on the text alone. -/
def skipT (comment : Bool) : List Char → Option (Char × List Char)
  | [] => none
  | c :: rest =>
    if comment then skipT (c ≠ '\n') rest
    else if ws c then skipT false rest
    else if c = '#' then skipT true rest
    else some (c, rest)

/-- `word` on the text alone. -/
def wordT : List Char → List Char × List Char
  | [] => ([], [])
  | c :: rest => if delim c then ([], rest) else (c :: (wordT rest).1, (wordT rest).2)

/-- `token_get` on the text alone. -/
def tokenT (s : List Char) : Option (List Char × List Char) :=
  (skipT false s).map fun p => (p.1 :: (wordT p.2).1, (wordT p.2).2)

/-- `read_symtab` on the text alone. -/
def readT : ℕ → Table → List Char → Table
  | 0, tab, _ => tab
  | f + 1, tab, s =>
    match tokenT s with
    | none => tab
    | some (k, s1) =>
      match tokenT s1 with
      | none => tab
      | some (v, s2) => readT f (put tab v k) s2

theorem skip_stream (b : Bool) (mem : List Char) (left : Option ℕ) (t : List Char)
    (h : stream mem left = some t) :
    ∃ r, skip b mem left = some r ∧
      match skipT b t with
      | none => r = none
      | some (c, t') => ∃ m' l', r = some (c, m', l') ∧ stream m' l' = some t' := by
  induction mem generalizing b left t with
  | nil =>
    rw [stream] at h
    rw [skip]
    by_cases hl : left = some 0
    · rw [if_pos hl] at h ⊢
      obtain rfl : [] = t := by simpa using h
      exact ⟨none, rfl, rfl⟩
    · rw [if_neg hl] at h; simp at h
  | cons c rest ih =>
    rw [stream] at h
    rw [skip]
    by_cases hl : left = some 0
    · rw [if_pos hl] at h ⊢
      obtain rfl : [] = t := by simpa using h
      exact ⟨none, rfl, rfl⟩
    rw [if_neg hl] at h ⊢
    by_cases hc : c = '\x00'
    · rw [if_pos hc] at h ⊢
      obtain rfl : [] = t := by simpa using h
      exact ⟨none, rfl, rfl⟩
    rw [if_neg hc] at h ⊢
    rw [Option.map_eq_some_iff] at h
    obtain ⟨t1, h1, rfl⟩ := h
    rw [skipT]
    by_cases hb : b = true
    · rw [if_pos hb, if_pos hb]
      exact ih _ _ _ h1
    rw [if_neg hb, if_neg hb]
    by_cases hw : ws c = true
    · rw [if_pos hw, if_pos hw]
      exact ih _ _ _ h1
    rw [if_neg hw, if_neg hw]
    by_cases hh : c = '#'
    · rw [if_pos hh, if_pos hh]
      exact ih _ _ _ h1
    rw [if_neg hh, if_neg hh]
    exact ⟨_, rfl, rest, _, rfl, h1⟩

theorem word_stream (mem : List Char) (left : Option ℕ) (t : List Char)
    (h : stream mem left = some t) :
    ∃ m' l', word mem left = some ((wordT t).1, m', l') ∧ stream m' l' = some (wordT t).2 := by
  induction mem generalizing left t with
  | nil =>
    have h' := h
    rw [stream] at h
    rw [word]
    by_cases hl : left = some 0
    · rw [if_pos hl] at h ⊢
      obtain rfl : [] = t := by simpa using h
      exact ⟨_, _, rfl, h'⟩
    · rw [if_neg hl] at h; simp at h
  | cons c rest ih =>
    have h' := h
    rw [stream] at h
    rw [word]
    by_cases hl : left = some 0
    · rw [if_pos hl] at h ⊢
      obtain rfl : [] = t := by simpa using h
      exact ⟨_, _, rfl, h'⟩
    rw [if_neg hl] at h ⊢
    by_cases hc : c = '\x00'
    · rw [if_pos hc] at h ⊢
      obtain rfl : [] = t := by simpa using h
      exact ⟨_, _, rfl, h'⟩
    rw [if_neg hc] at h ⊢
    rw [Option.map_eq_some_iff] at h
    obtain ⟨t1, h1, rfl⟩ := h
    rw [wordT]
    by_cases hd : delim c = true
    · rw [if_pos hd, if_pos hd]
      exact ⟨_, _, rfl, h1⟩
    rw [if_neg hd, if_neg hd]
    obtain ⟨m', l', e1, e2⟩ := ih _ _ h1
    exact ⟨m', l', by rw [e1]; rfl, e2⟩

theorem token_stream (p : Pos) (t : List Char) (h : stream p.1 p.2 = some t) :
    ∃ r, tokenGet p = some r ∧
      match tokenT t with
      | none => r = none
      | some (w, t') => ∃ p', r = some (w, p') ∧ stream p'.1 p'.2 = some t' := by
  obtain ⟨r, h1, h2⟩ := skip_stream false p.1 p.2 t h
  rw [tokenGet, h1, Option.bind_some, tokenT]
  cases hs : skipT false t with
  | none =>
    rw [hs] at h2
    simp only at h2
    subst h2
    exact ⟨none, rfl, rfl⟩
  | some ct =>
    obtain ⟨c, t'⟩ := ct
    rw [hs] at h2
    obtain ⟨m', l', rfl, h3⟩ := h2
    obtain ⟨m2, l2, h4, h5⟩ := word_stream _ _ _ h3
    exact ⟨some (c :: (wordT t').1, m2, l2), by simp [h4], (m2, l2), rfl, h5⟩

theorem skipT_length (b : Bool) (t : List Char) (c : Char) (t' : List Char)
    (h : skipT b t = some (c, t')) : t'.length < t.length := by
  induction t generalizing b with
  | nil => simp [skipT] at h
  | cons x t ih =>
    rw [skipT] at h
    split_ifs at h
    · exact (ih _ h).trans (Nat.lt_succ_self _)
    · exact (ih _ h).trans (Nat.lt_succ_self _)
    · exact (ih _ h).trans (Nat.lt_succ_self _)
    · simp only [Option.some.injEq, Prod.mk.injEq] at h
      obtain ⟨rfl, rfl⟩ := h
      simp

theorem wordT_length (t : List Char) : (wordT t).2.length ≤ t.length := by
  induction t with
  | nil => simp [wordT]
  | cons x t ih =>
    rw [wordT]
    split_ifs
    · simp
    · exact ih.trans (Nat.le_succ _)

theorem tokenT_length {t w t' : List Char} (h : tokenT t = some (w, t')) : t'.length < t.length := by
  rw [tokenT, Option.map_eq_some_iff] at h
  obtain ⟨⟨c, s⟩, h1, h2⟩ := h
  simp only [Prod.mk.injEq] at h2
  rw [← h2.2]
  exact lt_of_le_of_lt (wordT_length s) (skipT_length _ _ _ _ h1)

theorem stream_length {mem : List Char} {left : Option ℕ} {t : List Char}
    (h : stream mem left = some t) : t.length ≤ mem.length := by
  induction mem generalizing left t with
  | nil =>
    rw [stream] at h
    split_ifs at h
    simp only [Option.some.injEq] at h
    subst h; simp
  | cons c rest ih =>
    rw [stream] at h
    split_ifs at h
    · simp only [Option.some.injEq] at h
      subst h; simp
    · simp only [Option.some.injEq] at h
      subst h; simp
    · rw [Option.map_eq_some_iff] at h
      obtain ⟨t1, h1, rfl⟩ := h
      simpa using ih h1

theorem readLoop_stream (f : ℕ) (tab : Table) (p : Pos) (t : List Char)
    (h : stream p.1 p.2 = some t) (hf : t.length < f) :
    readLoop f tab p = some (readT f tab t) := by
  induction f generalizing tab p t with
  | zero => omega
  | succ f ih =>
    obtain ⟨r, h1, h2⟩ := token_stream p t h
    rw [readLoop, h1, Option.bind_some, readT]
    cases ht : tokenT t with
    | none => rw [ht] at h2; simp only at h2; subst h2; rfl
    | some wt =>
      obtain ⟨w, t1⟩ := wt
      rw [ht] at h2
      obtain ⟨p1, rfl, h3⟩ := h2
      have hl1 := tokenT_length ht
      obtain ⟨r', h4, h5⟩ := token_stream p1 t1 h3
      simp only [h4, Option.bind_some]
      cases ht1 : tokenT t1 with
      | none => rw [ht1] at h5; simp only at h5; subst h5; rfl
      | some wt1 =>
        obtain ⟨v, t2⟩ := wt1
        rw [ht1] at h5
        obtain ⟨p2, rfl, h6⟩ := h5
        have hl2 := tokenT_length ht1
        exact ih _ _ _ h6 (by omega)

theorem readSymtab_stream (mem : List Char) (limit : ℕ) (t : List Char)
    (h : stream mem (if limit = 0 then none else some limit) = some t) :
    readSymtab mem limit = some (readT (mem.length + 1) [] t) :=
  readLoop_stream _ _ _ _ h (Nat.lt_succ_of_le (stream_length h))

/-! ## Reading a text that says something -/

theorem skipT_sep {s : List Char} (h : Sep s) (t : List Char) :
    skipT false (s ++ t) = skipT false t := by
  induction h with
  | nil => rfl
  | ws hc _ ih =>
    have hc := white_ws hc
    rw [List.cons_append, skipT]; simp [hc, ih]
  | @comment c s hc _ ih =>
    have hcom : ∀ (c : List Char), (∀ x ∈ c, x ≠ '\n' ∧ x ≠ '\x00') →
        skipT true (c ++ '\n' :: s ++ t) = skipT false (s ++ t) := by
      intro c
      induction c with
      | nil => intro _; simp [skipT]
      | cons x c ihc =>
        intro hx
        have h1 := (hx x (by simp)).1
        rw [List.cons_append, List.cons_append, skipT, if_pos rfl]
        simp only [h1, ne_eq, not_false_eq_true, decide_true]
        exact ihc fun y hy => hx y (by simp [hy])
    have e : '#' :: c ++ '\n' :: s ++ t = '#' :: (c ++ '\n' :: s ++ t) := by simp
    rw [e, skipT, if_neg (by simp), if_neg (by decide), if_pos rfl, hcom c hc, ih]

theorem skipT_last {c : List Char} (hc : c = [] ∨ ∃ c', c = '#' :: c' ∧ ∀ x ∈ c', x ≠ '\n' ∧ x ≠ '\x00') :
    skipT false c = none := by
  rcases hc with rfl | ⟨c', rfl, hx⟩
  · rfl
  · rw [skipT, if_neg (by simp), if_neg (by decide), if_pos rfl]
    induction c' with
    | nil => rfl
    | cons x c ih =>
      have h1 := (hx x (by simp)).1
      rw [skipT, if_pos rfl]
      simp only [h1, ne_eq, not_false_eq_true, decide_true]
      exact ih fun y hy => hx y (by simp [hy])

theorem wordT_word {w : List Char} (h : ∀ c ∈ w, delim c = false ∧ c ≠ '\x00') {d : Char}
    (hd : delim d = true) (t : List Char) : wordT (w ++ d :: t) = (w, t) := by
  induction w with
  | nil => rw [List.nil_append, wordT, if_pos hd]
  | cons c w ih =>
    have hc := (h c (by simp)).1
    rw [List.cons_append, wordT, if_neg (by simp [hc]), ih fun x hx => h x (by simp [hx])]

theorem ws_delim {c : Char} (h : ws c = true) : delim c = true := by simp [delim, h]

theorem tokenT_word {s w : List Char} (hs : Sep s) (hw : IsWord w) {d : Char} (hd : ws d = true)
    (t : List Char) : tokenT (s ++ w ++ d :: t) = some (w, t) := by
  obtain ⟨hne, hall, hhash⟩ := hw
  cases w with
  | nil => exact absurd rfl hne
  | cons c w =>
    have hc := word_delim (hall c (by simp))
    have hnws : ws c = false := by
      have := hc.1
      simp only [delim, Bool.or_eq_false_iff] at this
      exact this.1.1.1
    have hnh : c ≠ '#' := by
      intro h; apply hhash; simp [h]
    rw [tokenT, List.append_assoc, skipT_sep hs, List.cons_append, skipT, if_neg (by simp),
      if_neg (by simp [hnws]), if_neg hnh]
    simp only [Option.map_some]
    rw [wordT_word (fun x hx => word_delim (hall x (List.mem_cons_of_mem _ hx))) (ws_delim hd)]

theorem readT_says {l : List (List Char × List Char)} {s : List Char} (h : Says l s) (f : ℕ)
    (hf : s.length < f) (tab : Table) :
    readT f tab s = l.foldl (fun t p => put t p.2 p.1) tab := by
  induction h generalizing f tab with
  | done hs hc =>
    cases f with
    | zero => omega
    | succ f =>
      rw [readT]
      simp only [tokenT, skipT_sep hs, skipT_last hc, Option.map_none]
      rfl
  | @bind k v s₁ s₂ s w₁ w₂ l h1 hk hw1 h2 hv hw2 _ ih =>
    cases f with
    | zero => omega
    | succ f =>
      have e : s₁ ++ k ++ w₁ :: s₂ ++ v ++ w₂ :: s = s₁ ++ k ++ w₁ :: (s₂ ++ v ++ w₂ :: s) := by simp
      rw [readT, e, tokenT_word h1 hk (white_ws hw1)]
      simp only
      rw [tokenT_word h2 hv (white_ws hw2)]
      simp only [List.foldl_cons]
      refine ih f ?_ _
      rw [e] at hf
      simp only [List.length_append, List.length_cons] at hf
      omega

/-- No NUL in a text that says something. -/
theorem says_nul {l : List (List Char × List Char)} {s : List Char} (h : Says l s) :
    ∀ c ∈ s, c ≠ '\x00' := by
  have hws : ∀ c, ws c = true → c ≠ '\x00' := by
    rintro c hc rfl; exact absurd hc (by decide)
  have hsep : ∀ s, Sep s → ∀ c ∈ s, c ≠ '\x00' := by
    intro s hs
    induction hs with
    | nil => simp
    | ws hc _ ih =>
      intro c hm
      rcases List.mem_cons.1 hm with rfl | hm
      · exact hws _ (white_ws hc)
      · exact ih c hm
    | comment hc _ ih =>
      intro c hm
      simp only [List.cons_append, List.mem_cons, List.mem_append] at hm
      rcases hm with rfl | hm | rfl | hm
      · decide
      · exact (hc c hm).2
      · decide
      · exact ih c hm
  induction h with
  | done hs hc =>
    intro c hm
    rcases List.mem_append.1 hm with hm | hm
    · exact hsep _ hs c hm
    · rcases hc with rfl | ⟨c', rfl, hx⟩
      · simp at hm
      · rcases List.mem_cons.1 hm with rfl | hm
        · decide
        · exact (hx c hm).2
  | bind h1 hk hw1 h2 hv hw2 _ ih =>
    intro c hm
    simp only [List.mem_append, List.mem_cons] at hm
    rcases hm with (((hm | hm) | rfl | hm) | hm) | rfl | hm
    · exact hsep _ h1 c hm
    · exact (word_delim (hk.2.1 c hm)).2
    · exact hws _ (white_ws hw1)
    · exact hsep _ h2 c hm
    · exact (word_delim (hv.2.1 c hm)).2
    · exact hws _ (white_ws hw2)
    · exact ih c hm

theorem stream_zero (m : List Char) : stream m (some 0) = some [] := by
  cases m <;> simp [stream]

theorem stream_text {s : List Char} (h : ∀ c ∈ s, c ≠ '\x00') (junk : List Char) :
    stream (s ++ '\x00' :: junk) none = some s ∧ stream (s ++ junk) (some s.length) = some s := by
  induction s with
  | nil => constructor <;> simp [stream, stream_zero]
  | cons c s ih =>
    obtain ⟨i1, i2⟩ := ih fun x hx => h x (by simp [hx])
    have hc := h c (by simp)
    constructor
    · rw [List.cons_append, stream, if_neg (by simp)]
      simp only [if_neg hc, Option.map_none, i1, Option.map_some]
    · rw [List.cons_append, stream, if_neg (by simp)]
      simp only [if_neg hc, Option.map_some, List.length_cons, Nat.add_sub_cancel, i2]

/-- **C60.**  Reading a text that says `l` — with any white space, blank lines, comments and order —
gives the table of the bindings in `l`, both as a C string (whatever follows the terminating NUL) and
with a length limit (whatever follows the text).  Nothing past the text is looked at. -/
theorem C60_read {l : List (List Char × List Char)} {s : List Char} (h : Says l s)
    (junk : List Char) :
    readSymtab (s ++ '\x00' :: junk) 0 = some (tableOf (l.map Prod.swap)) ∧
    (s ≠ [] → readSymtab (s ++ junk) s.length = some (tableOf (l.map Prod.swap))) := by
  obtain ⟨h1, h2⟩ := stream_text (says_nul h) junk
  have ht : ∀ f, s.length < f → readT f [] s = tableOf (l.map Prod.swap) := by
    intro f hf
    rw [readT_says h f hf, tableOf, List.foldl_map]
    rfl
  constructor
  · rw [readSymtab_stream _ 0 s (by simpa using h1), ht _ (by simp)]
  · intro hs
    have : s.length ≠ 0 := by simpa using hs
    rw [readSymtab_stream _ s.length s (by rw [if_neg this]; exact h2), ht _ (by simp)]

/-- **C60.**  A length limit is respected for every input, well formed or not: if the first `n`
characters are there, reading succeeds and depends on nothing else. -/
theorem C60_limit (mem junk : List Char) (n : ℕ) (hn : n ≠ 0) (hl : n ≤ mem.length) :
    ∃ tab, readSymtab mem n = some tab ∧ readSymtab (mem.take n ++ junk) n = some tab := by
  have hs : ∀ (m : List Char) (k : ℕ), k ≤ m.length → ∃ t, stream m (some k) = some t ∧ t.length ≤ k ∧
      stream (m.take k ++ junk) (some k) = some t := by
    intro m
    induction m with
    | nil => intro k hk; obtain rfl : k = 0 := by simpa using hk
             exact ⟨[], by simp [stream], by simp, by simp [stream_zero]⟩
    | cons c m ih =>
      intro k hk
      cases k with
      | zero => exact ⟨[], by simp [stream], by simp, by simp [stream_zero]⟩
      | succ k =>
        obtain ⟨t, h1, h2, h3⟩ := ih k (by simpa using hk)
        by_cases hc : c = '\x00'
        · exact ⟨[], by simp [stream, hc], by simp, by simp [stream, hc]⟩
        · exact ⟨c :: t, by simp [stream, hc, h1], by simpa using h2, by simp [stream, hc, h3]⟩
  obtain ⟨t, h1, h2, h3⟩ := hs mem n hl
  refine ⟨_, readSymtab_stream _ n t (by rw [if_neg hn]; exact h1), ?_⟩
  rw [readSymtab_stream _ n t (by rw [if_neg hn]; exact h3)]
  congr 1
  -- both fuels are enough
  have hfuel : ∀ (f g : ℕ) (tab : Table) (t : List Char), t.length < f → t.length < g →
      readT f tab t = readT g tab t := by
    intro f
    induction f with
    | zero => intro g tab t h; omega
    | succ f ih =>
      intro g tab t hf hg
      cases g with
      | zero => omega
      | succ g =>
        rw [readT, readT]
        cases ht : tokenT t with
        | none => rfl
        | some wt =>
          obtain ⟨w, t1⟩ := wt
          have hl1 := tokenT_length ht
          simp only
          cases ht1 : tokenT t1 with
          | none => rfl
          | some wt1 =>
            obtain ⟨v, t2⟩ := wt1
            have hl2 := tokenT_length ht1
            exact ih _ _ _ (by omega) (by omega)
  apply hfuel
  · simp; omega
  · omega

/-- **C60, discrepancy.**  A length of zero is taken for "no limit": reading an empty buffer of length
zero runs past it. -/
theorem C60_zero_limit_fails : readSymtab [] 0 = none := by decide

/-! ## Numbers -/

theorem digitVal_digitChar : ∀ d < 10, digitVal (Nat.digitChar d) = d := by decide

theorem natStr_word (n : ℕ) : (∀ c ∈ natStr n, c ∈ "0123456789".toList) ∧ natStr n ≠ [] := by
  rw [natStr]
  split_ifs with h
  · simp
  · constructor
    · intro c hc
      simp only [List.mem_map, List.mem_reverse] at hc
      obtain ⟨d, hd, rfl⟩ := hc
      have h10 : ∀ d < 10, Nat.digitChar d ∈ "0123456789".toList := by decide
      exact h10 d (Nat.digits_lt_base (by decide) hd)
    · simpa using Nat.digits_ne_nil_iff_ne_zero.2 h

theorem parseMag_natStr (n : ℕ) : parseMag (natStr n) = some n := by
  by_cases h : n = 0
  · subst h; decide
  · have hval : (natStr n).foldl (fun n c => 10 * n + digitVal c) 0 = n := by
      rw [natStr, if_neg h, List.foldl_map]
      have : ∀ l : List ℕ, (∀ d ∈ l, d < 10) →
          l.reverse.foldl (fun n c => 10 * n + digitVal (Nat.digitChar c)) 0 = Nat.ofDigits 10 l := by
        intro l
        induction l with
        | nil => intro _; rfl
        | cons d l ih =>
          intro hd
          rw [List.reverse_cons, List.foldl_append, ih fun x hx => hd x (by simp [hx])]
          simp only [List.foldl_cons, List.foldl_nil]
          rw [digitVal_digitChar d (hd d (by simp)), Nat.ofDigits_cons]
          simp [add_comm]
      rw [this _ fun d hd => Nat.digits_lt_base (by decide) hd, Nat.ofDigits_digits]
    obtain ⟨hdig, hne⟩ := natStr_word n
    have hparse : parseDigits 10 (natStr n) = some n := by
      rw [parseDigits, if_neg, hval]
      rintro (h1 | ⟨c, hc, h2⟩)
      · exact hne h1
      · have h3 : ∀ c ∈ "0123456789".toList, digitVal c < 10 := by decide
        exact absurd h2 (by have := h3 c (hdig c hc); omega)
    -- the first digit is not zero
    have hhead : ∀ s, natStr n ≠ '0' :: s := by
      intro s hs
      have hd := Nat.digits_ne_nil_iff_ne_zero (b := 10).2 h
      have hlast := Nat.getLast_digit_ne_zero 10 h
      have h1 : (natStr n).head? = some '0' := by rw [hs]; rfl
      rw [natStr, if_neg h, List.head?_map, List.head?_reverse, List.getLast?_eq_some_getLast hd,
        Option.map_some, Option.some.injEq] at h1
      have hlt := Nat.digits_lt_base (b := 10) (by decide) (List.getLast_mem hd)
      have h2 := digitVal_digitChar _ hlt
      rw [h1] at h2
      exact hlast (by rw [← h2]; decide)
    rw [parseMag]
    · exact hparse
    all_goals
      intros
      first
      | (rename_i hs; exact absurd hs (hhead _))
      | exact hhead _

theorem mpzSetStr_intStr (z : ℤ) : mpzSetStr (intStr z) = some z := by
  rw [intStr]
  split_ifs with h
  · rw [mpzSetStr, parseMag_natStr]
    exact congrArg some (by dsimp only; omega)
  · rw [mpzSetStr, parseMag_natStr]
    · exact congrArg some (by dsimp only; omega)
    · intro s hs
      obtain ⟨hdig, _⟩ := natStr_word z.natAbs
      have := hdig '-' (by rw [hs]; simp)
      revert this
      decide

theorem intStr_word (z : ℤ) : IsWord (intStr z) := by
  obtain ⟨hdig, hne⟩ := natStr_word z.natAbs
  have hd : ∀ c ∈ "0123456789".toList, ¬ NotInWord c ∧ c ≠ '#' := by decide
  rw [intStr]
  split_ifs
  · refine ⟨by simp, ?_, by simp⟩
    intro c hc
    rcases List.mem_cons.1 hc with rfl | hc
    · decide
    · exact (hd c (hdig c hc)).1
  · refine ⟨hne, fun c hc => (hd c (hdig c hc)).1, ?_⟩
    intro h
    have hm : '#' ∈ natStr z.natAbs := List.mem_of_mem_head? h
    exact (hd _ (hdig _ hm)).2 rfl

/-! ## Writing and reading back -/

/-- The bindings a parameter file makes. -/
def bindings (t : List Char) (vals : List (List Char × ℤ)) : List (List Char × List Char) :=
  ("type".toList, t) :: vals.map fun kv => (kv.1, intStr kv.2)

theorem outParam_says {t : List Char} {vals : List (List Char × ℤ)} (ht : IsWord t)
    (hk : ∀ kv ∈ vals, IsWord kv.1) : Says (bindings t vals) (outParam t vals) := by
  have hvals : Says (vals.map fun kv => (kv.1, intStr kv.2))
      ((vals.map fun kv => outMpz kv.1 kv.2).flatten) := by
    induction vals with
    | nil => exact Says.done Sep.nil (Or.inl rfl)
    | cons kv vals ih =>
      have h := Says.bind (s₁ := []) (s₂ := []) (w₁ := ' ') (w₂ := '\n') Sep.nil
        (hk kv (by simp)) (by decide) Sep.nil (intStr_word kv.2) (by decide)
        (ih fun x hx => hk x (by simp [hx]))
      simpa [outMpz] using h
  have htype : IsWord "type".toList := by
    refine ⟨by decide, by decide, by decide⟩
  have h := Says.bind (s₁ := []) (s₂ := []) (w₁ := ' ') (w₂ := '\n') Sep.nil htype (by decide)
    Sep.nil ht (by decide) hvals
  have e : outParam t vals = [] ++ "type".toList ++ ' ' :: [] ++ t ++ '\n' ::
      (vals.map fun kv => outMpz kv.1 kv.2).flatten := by
    simp only [outParam, outType]
    have : "type ".toList = "type".toList ++ [' '] := by decide
    rw [this]; simp
  rw [e]
  exact h

/-- The last binding of a name. -/
def lastBinding (l : List (List Char × List Char)) (k : List Char) : Option (List Char) :=
  (l.reverse.find? fun p => p.1 = k).map Prod.snd

theorem mapOf_last (l : List (List Char × List Char)) (k : List Char) :
    mapOf (l.map Prod.swap) k = lastBinding l k := by
  induction l using List.reverseRecOn with
  | nil => rfl
  | append_singleton l p ih =>
    have : mapOf ((l ++ [p]).map Prod.swap) = Function.update (mapOf (l.map Prod.swap)) p.1 (some p.2) := by
      simp [mapOf]
    rw [this, lastBinding, List.reverse_append, List.reverse_singleton, List.singleton_append]
    by_cases h : k = p.1
    · subst h; simp
    · rw [Function.update_of_ne h, ih, List.find?_cons_of_neg (by simpa using Ne.symm h)]
      rfl

/-- **C60.**  Looking up a number in a text gives the number that the last binding of the name spells;
if there is no binding the lookup fails. -/
theorem C60_lookup {l : List (List Char × List Char)} {s : List Char} (h : Says l s)
    (junk k : List Char) :
    ∃ tab, readSymtab (s ++ '\x00' :: junk) 0 = some tab ∧
      (lastBinding l k = none → lookupMpz tab k = none) ∧
      (∀ z, lastBinding l k = some (intStr z) → lookupMpz tab k = some z) := by
  refine ⟨_, (C60_read h junk).1, ?_, ?_⟩
  · intro hn
    rw [lookupMpz, (C62_map _ k).2, mapOf_last, hn]
    rfl
  · intro z hz
    rw [lookupMpz, (C62_map _ k).2, (C62_map _ k).1, mapOf_last, hz]
    simp [mpzSetStr_intStr]

/-- **C60, discrepancy.**  A value that is not a number is not an error: whatever the text, it reads
as zero. -/
theorem C60_bad_number_fails {l : List (List Char × List Char)} {s : List Char} (h : Says l s)
    (junk k v : List Char) (hv : lastBinding l k = some v) (hbad : mpzSetStr v = none) :
    ∃ tab, readSymtab (s ++ '\x00' :: junk) 0 = some tab ∧ lookupMpz tab k = some 0 := by
  refine ⟨_, (C60_read h junk).1, ?_⟩
  rw [lookupMpz, (C62_map _ k).2, (C62_map _ k).1, mapOf_last, hv]
  simp [hbad]

example : mpzSetStr "zzz".toList = none := by decide

theorem toInt_small {z : ℤ} (h1 : -(2 ^ 31) ≤ z) (h2 : z < 2 ^ 31) : toInt z = z := by
  have hs : z.sign * ((z.natAbs % 2 ^ 63 : ℕ) : ℤ) = z := by
    rw [Nat.mod_eq_of_lt (by omega), Int.sign_mul_natAbs]
  rw [toInt, hs]
  apply Int.bmod_eq_of_le <;> omega

/-- **C60.**  Writing and reading back.  For any type name and any values under distinct names,
whatever follows in memory: the type comes back, every value comes back, values read as `int` come
back if they are in range, and a name that was not written is an error. -/
theorem C60_round_trip {t : List Char} {vals : List (List Char × ℤ)} (ht : IsWord t)
    (hk : ∀ kv ∈ vals, IsWord kv.1) (hnd : (("type".toList) :: vals.map Prod.fst).Nodup)
    (junk : List Char) :
    ∃ tab, readSymtab (outParam t vals ++ '\x00' :: junk) 0 = some tab ∧
      «at» tab "type".toList = some t ∧
      (∀ kv ∈ vals, lookupMpz tab kv.1 = some kv.2) ∧
      (∀ kv ∈ vals, -(2 ^ 31) ≤ kv.2 → kv.2 < 2 ^ 31 → lookupInt tab kv.1 = some kv.2) ∧
      (∀ k, k ≠ "type".toList → k ∉ vals.map Prod.fst → lookupMpz tab k = none) := by
  have hsays := outParam_says ht hk
  refine ⟨_, (C60_read hsays junk).1, ?_⟩
  have hlast : ∀ (l : List (List Char × List Char)), (l.map Prod.fst).Nodup → ∀ p ∈ l,
      lastBinding l p.1 = some p.2 := by
    intro l hn p hp
    rw [lastBinding]
    have : l.reverse.find? (fun q => decide (q.1 = p.1)) = some p := by
      rw [List.find?_eq_some_iff_append]
      refine ⟨by simp, ?_⟩
      obtain ⟨a, b, e⟩ := List.append_of_mem (List.mem_reverse.2 hp)
      refine ⟨a, b, e, ?_⟩
      have hn' : (l.reverse.map Prod.fst).Nodup := by
        rw [List.map_reverse, List.nodup_reverse]; exact hn
      rw [e, List.map_append, List.map_cons, List.nodup_append] at hn'
      intro x hx
      have := hn'.2.2 x.1 (List.mem_map_of_mem hx) p.1 (by simp)
      simpa using this
    rw [this]; rfl
  have hnd' : ((bindings t vals).map Prod.fst).Nodup := by
    have : (bindings t vals).map Prod.fst = "type".toList :: vals.map Prod.fst := by
      simp [bindings, Function.comp_def]
    rw [this]; exact hnd
  have hval : ∀ kv ∈ vals, lookupMpz (tableOf ((bindings t vals).map Prod.swap)) kv.1 = some kv.2 := by
    intro kv hkv
    have := hlast _ hnd' (kv.1, intStr kv.2) (by
      simp only [bindings, List.mem_cons, List.mem_map]
      exact Or.inr ⟨kv, hkv, rfl⟩)
    rw [lookupMpz, (C62_map _ _).2, (C62_map _ _).1, mapOf_last, this]
    simp [mpzSetStr_intStr]
  refine ⟨?_, hval, ?_, ?_⟩
  · rw [(C62_map _ _).1, mapOf_last]
    exact hlast _ hnd' ("type".toList, t) (by simp [bindings])
  · intro kv hkv h1 h2
    rw [lookupInt, hval kv hkv, Option.map_some, toInt_small h1 h2]
  · intro k hk1 hk2
    rw [lookupMpz, (C62_map _ k).2, mapOf_last]
    have : lastBinding (bindings t vals) k = none := by
      rw [lastBinding, Option.map_eq_none_iff, List.find?_eq_none]
      intro x hx
      rw [List.mem_reverse] at hx
      simp only [bindings, List.mem_cons, List.mem_map] at hx
      simp only [decide_eq_true_eq]
      rcases hx with rfl | ⟨kv, hkv, rfl⟩
      · exact fun h => hk1 h.symm
      · intro h
        exact hk2 (List.mem_map.2 ⟨kv, hkv, h⟩)
    rw [this]; rfl

/-- The names used by every type are words, distinct, and every name read is written. -/
theorem C60_keys :
    (∀ ks ∈ [outKeysA, outKeysA1, outKeysE, outKeysF, outKeysG],
      ("type" :: ks).Nodup) ∧
    (inKeysA.map Prod.fst ⊆ outKeysA ∧ inKeysA1.map Prod.fst ⊆ outKeysA1 ∧
      inKeysE.map Prod.fst ⊆ outKeysE ∧ inKeysF.map Prod.fst ⊆ outKeysF ∧
      inKeysG.map Prod.fst ⊆ outKeysG ∧ inKeysD.map Prod.fst ⊆ outKeysD ++ ["nqr"]) := by
  decide

/-! ## The theorems applied -/

/-- A text of type A1 parameters, written and read back. -/
example : ∃ tab, readSymtab (outParam "a1".toList [("p".toList, 59), ("n".toList, 15), ("l".toList, 4)] ++
      ['\x00', 'z']) 0 = some tab ∧
    lookupMpz tab "n".toList = some 15 ∧ lookupInt tab "l".toList = some 4 ∧
    lookupMpz tab "q".toList = none := by
  obtain ⟨tab, h1, -, h2, h3, h4⟩ := C60_round_trip (t := "a1".toList)
    (vals := [("p".toList, 59), ("n".toList, 15), ("l".toList, 4)]) (by unfold IsWord; decide)
    (by unfold IsWord; decide)
    (by decide) ['z']
  exact ⟨tab, h1, h2 ("n".toList, 15) (by simp), h3 ("l".toList, 4) (by simp) (by decide) (by decide),
    h4 _ (by decide) (by decide)⟩

/-- Bytes after the stated length are never looked at. -/
example : ∃ tab, readSymtab "type a q 59 garbage".toList 11 = some tab ∧
    readSymtab "type a q 59".toList 11 = some tab := by
  obtain ⟨tab, h1, h2⟩ := C60_limit "type a q 59 garbage".toList [] 11 (by decide) (by decide)
  exact ⟨tab, h1, by simpa using h2⟩

/-! ## Which texts are numbers -/

/-- The character stands for the digit. -/
def IsDigit (c : Char) (d : ℕ) : Prop :=
  "0123456789abcdefghijklmnopqrstuvwxyz".toList[d]? = some c ∨
    "0123456789ABCDEFGHIJKLMNOPQRSTUVWXYZ".toList[d]? = some c

theorem isDigit_iff (c : Char) (d : ℕ) : IsDigit c d ↔ digitVal c = d ∧ d < 36 := by
  constructor
  · have h : ∀ d < 36, (∀ c, "0123456789abcdefghijklmnopqrstuvwxyz".toList[d]? = some c → digitVal c = d) ∧
        (∀ c, "0123456789ABCDEFGHIJKLMNOPQRSTUVWXYZ".toList[d]? = some c → digitVal c = d) := by
      have h1 : ∀ d < 36, ("0123456789abcdefghijklmnopqrstuvwxyz".toList[d]?).map digitVal = some d ∧
          ("0123456789ABCDEFGHIJKLMNOPQRSTUVWXYZ".toList[d]?).map digitVal = some d := by decide +kernel
      intro d hd
      constructor
      · intro c hc
        have := (h1 d hd).1
        rw [hc] at this
        exact Option.some.inj this
      · intro c hc
        have := (h1 d hd).2
        rw [hc] at this
        exact Option.some.inj this
    rintro (hc | hc)
    · have hd : d < 36 := by
        obtain ⟨hd, -⟩ := List.getElem?_eq_some_iff.1 hc
        exact hd
      exact ⟨(h d hd).1 c hc, hd⟩
    · have hd : d < 36 := by
        obtain ⟨hd, -⟩ := List.getElem?_eq_some_iff.1 hc
        exact hd
      exact ⟨(h d hd).2 c hc, hd⟩
  · rintro ⟨h, hd⟩
    have key : ∀ n < 128, digitVal (Char.ofNat n) < 36 →
        "0123456789abcdefghijklmnopqrstuvwxyz".toList[digitVal (Char.ofNat n)]? = some (Char.ofNat n) ∨
        "0123456789ABCDEFGHIJKLMNOPQRSTUVWXYZ".toList[digitVal (Char.ofNat n)]? = some (Char.ofNat n) := by
      decide +kernel
    have hn : c.toNat < 128 := by
      by_contra hc
      have h1 : ∀ a : Char, a.toNat < 128 → ¬ c ≤ a := fun a ha hca => by
        have : c.toNat ≤ a.toNat := hca
        omega
      have : digitVal c = 99 := by
        unfold digitVal
        rw [if_neg fun hh => h1 _ (by decide) hh.2, if_neg fun hh => h1 _ (by decide) hh.2,
          if_neg fun hh => h1 _ (by decide) hh.2]
      omega
    have := key c.toNat hn
    rw [Char.ofNat_toNat] at this
    rw [h] at this
    exact this hd

/-- **C60.**  Exactly the texts made of digits of the base are numbers, with the value of their digits. -/
theorem C60_digits {base : ℕ} (hb : base ≤ 36) (s : List Char) (n : ℕ) :
    parseDigits base s = some n ↔
      s ≠ [] ∧ ∃ ds : List ℕ, List.Forall₂ IsDigit s ds ∧ (∀ d ∈ ds, d < base) ∧ n = Nat.ofDigits base ds.reverse := by
  have hval : ∀ s : List Char, s.foldl (fun n c => base * n + digitVal c) 0 = Nat.ofDigits base (s.map digitVal).reverse := by
    intro s
    induction s using List.reverseRecOn with
    | nil => rfl
    | append_singleton s c ih =>
      rw [List.foldl_append, ih, List.map_append, List.reverse_append]
      simp [Nat.ofDigits_cons, add_comm]
  have hds : ∀ (s : List Char) (ds : List ℕ), List.Forall₂ IsDigit s ds → ds = s.map digitVal := by
    intro s ds h
    induction h with
    | nil => rfl
    | cons h _ ih => rw [List.map_cons, ← ih, ((isDigit_iff _ _).1 h).1]
  unfold parseDigits
  constructor
  · intro h
    split at h
    · cases h
    next hs =>
    simp only [not_or, not_exists, not_and, not_le] at hs
    cases h
    refine ⟨hs.1, s.map digitVal, ?_, ?_, hval s⟩
    · rw [List.forall₂_map_right_iff, List.forall₂_same]
      exact fun c hc => (isDigit_iff c _).2 ⟨rfl, lt_of_lt_of_le (hs.2 c hc) hb⟩
    · intro d hd
      obtain ⟨c, hc, rfl⟩ := List.mem_map.1 hd
      exact hs.2 c hc
  · rintro ⟨h0, ds, hf, hlt, rfl⟩
    have := hds s ds hf
    subst this
    rw [if_neg, hval]
    rintro (h | ⟨c, hc, h⟩)
    · exact h0 h
    · exact absurd (hlt _ (List.mem_map.2 ⟨c, hc, rfl⟩)) (by omega)

/-- **C60.**  Decimal, hexadecimal, binary and octal texts. -/
theorem C60_bases (s : List Char) (hs : s ≠ []) :
    mpzSetStr ('0' :: 'x' :: s) = (parseDigits 16 s).map (fun n : ℕ => (n : ℤ)) ∧
      mpzSetStr ('0' :: 'b' :: s) = (parseDigits 2 s).map (fun n : ℕ => (n : ℤ)) ∧
      (s.head? ≠ some '0' → s.head? ≠ some '-' → mpzSetStr s = (parseDigits 10 s).map (fun n : ℕ => (n : ℤ))) ∧
      (∀ n, parseDigits 8 s = some n → mpzSetStr ('0' :: s) = some (n : ℤ)) ∧
      (s.head? ≠ some '-' → mpzSetStr ('-' :: s) = (mpzSetStr s).map fun z => -z) := by
  cases s with
  | nil => exact absurd rfl hs
  | cons c s =>
  refine ⟨by simp [mpzSetStr, parseMag], by simp [mpzSetStr, parseMag], ?_, ?_, ?_⟩
  · intro h0 hm
    simp only [List.head?_cons, ne_eq, Option.some.injEq] at h0 hm
    have h1 : mpzSetStr (c :: s) = (parseMag (c :: s)).map (fun n : ℕ => (n : ℤ)) := by
      rw [mpzSetStr]
      intro t ht
      exact hm (List.cons.inj ht).1
    rw [h1, parseMag]
    all_goals
      intros
      first
      | (rename_i ht; exact h0 (List.cons.inj ht).1)
      | (intro ht; exact h0 (List.cons.inj ht).1)
  · intro n hn
    have hd : ∀ x ∈ c :: s, digitVal x < 8 := by
      unfold parseDigits at hn
      split at hn
      · cases hn
      next hh =>
      simp only [not_or, not_exists, not_and, not_le] at hh
      exact hh.2
    have hc := hd c (by simp)
    have h1 : parseMag ('0' :: c :: s) = parseDigits 8 ('0' :: c :: s) := by
      rw [parseMag]
      all_goals
        intros
        first
        | (rename_i ht; have := (List.cons.inj ht).1; subst this; revert hc; decide)
        | (intro ht; have := (List.cons.inj (List.cons.inj ht).2).1; subst this; revert hc; decide)
    have h2 : parseDigits 8 ('0' :: c :: s) = some n := by
      have e : ∀ t : List Char, (8 * 0 + digitVal '0') = 0 := fun _ => by decide
      unfold parseDigits at hn ⊢
      rw [if_neg] at hn
      · rw [if_neg]
        · rw [List.foldl_cons, e s]; exact hn
        · rintro (h | ⟨x, hx, h⟩)
          · cases h
          · rcases List.mem_cons.1 hx with rfl | hx
            · exact absurd h (by decide)
            · exact absurd (hd x hx) (by omega)
      · rintro (h | ⟨x, hx, h⟩)
        · cases h
        · exact absurd (hd x hx) (by omega)
    have h3 : mpzSetStr ('0' :: c :: s) = (parseMag ('0' :: c :: s)).map (fun n : ℕ => (n : ℤ)) := by
      rw [mpzSetStr]
      intro t ht
      exact absurd (List.cons.inj ht).1 (by decide)
    rw [h3, h1, h2]
    rfl
  · intro hm
    simp only [List.head?_cons, ne_eq, Option.some.injEq] at hm
    have h1 : mpzSetStr (c :: s) = (parseMag (c :: s)).map (fun n : ℕ => (n : ℤ)) := by
      rw [mpzSetStr]
      intro t ht
      exact hm (List.cons.inj ht).1
    rw [h1, mpzSetStr, Option.map_map]
    rfl

example : mpzSetStr "0x1F".toList = some 31 ∧ mpzSetStr "017".toList = some 15 ∧ mpzSetStr "018".toList = none ∧
    mpzSetStr "1A".toList = none ∧ mpzSetStr "-12".toList = some (-12) ∧ mpzSetStr "0b102".toList = none := by
  decide +kernel

end Pbc.Param
