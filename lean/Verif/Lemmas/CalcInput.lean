import Verif.Model.CalcInput
import Verif.Lemmas.CalcLex

/-!
# Lemmas on reading from the terminal
-/

set_option autoImplicit false

namespace Pbc.Calc

open Spec.Calc

/-- The end of a buffer. -/
def Ends (p : List Char) : Prop := p = [] ∨ ∃ q, p = q ++ ['\n']

theorem ends_tail {c : Char} {p : List Char} (h : Ends (c :: p)) : Ends p := by
  rcases h with h | ⟨q, h⟩
  · simp at h
  · rcases q with _ | ⟨d, q⟩
    · simp only [List.nil_append, List.cons.injEq] at h
      exact .inl h.2
    · simp only [List.cons_append, List.cons.injEq] at h
      exact .inr ⟨q, h.2⟩

theorem ends_single {c : Char} (h : Ends [c]) : c = '\n' := by
  rcases h with h | ⟨q, h⟩
  · simp at h
  · rcases q with _ | ⟨d, q⟩
    · simpa using h
    · simp at h

/-- Unless it is the last newline, a character is followed by another. -/
theorem ends_next {c : Char} {p : List Char} (h : Ends (c :: p)) (hc : c ≠ '\n') : ∃ d u, p = d :: u := by
  rcases p with _ | ⟨d, u⟩
  · exact absurd (ends_single h) hc
  · exact ⟨d, u, rfl⟩

theorem ends_dropWhile {f : Char → Bool} {p : List Char} (h : Ends p) : Ends (p.dropWhile f) := by
  induction p with
  | nil => exact .inl rfl
  | cons c p ih =>
    rw [List.dropWhile_cons]
    split
    · exact ih (ends_tail h)
    · exact h

theorem takeWhile_ends {f : Char → Bool} (hf : f '\n' = false) {p : List Char} (h : Ends p) (hp : p ≠ [])
    (rest : List Char) : (p ++ rest).takeWhile f = p.takeWhile f ∧ (p ++ rest).dropWhile f = p.dropWhile f ++ rest := by
  induction p with
  | nil => exact absurd rfl hp
  | cons c p ih =>
    rw [List.cons_append, List.takeWhile_cons, List.takeWhile_cons, List.dropWhile_cons, List.dropWhile_cons]
    by_cases hc : f c = true
    · rw [if_pos hc, if_pos hc, if_pos hc, if_pos hc]
      have hp' : p ≠ [] := by
        rintro rfl
        rw [ends_single h, hf] at hc
        cases hc
      have := ih (ends_tail h) hp'
      rw [this.1, this.2]
      exact ⟨rfl, rfl⟩
    · rw [if_neg hc, if_neg hc, if_neg hc, if_neg hc]
      exact ⟨rfl, rfl⟩

theorem endComment_append {p : List Char} (h : Ends p) (rest : List Char) :
    (∀ r, endComment p = some r → skipComment (p ++ rest) = r ++ rest ∧ Ends r ∧ r.length < p.length) ∧
    (endComment p = none → skipComment (p ++ rest) = skipComment rest) := by
  induction p using endComment.induct with
  | case1 cs =>
    rw [endComment]
    refine ⟨?_, by simp⟩
    rintro r ⟨⟩
    refine ⟨?_, ends_tail (ends_tail h), by simp only [List.length_cons]; omega⟩
    simp only [List.cons_append]
    rw [skipComment]
  | case2 c cs hne ih =>
    rw [endComment]
    · have hs : skipComment (c :: cs ++ rest) = skipComment (cs ++ rest) := by
        rw [List.cons_append, skipComment]
        intro v hc he
        obtain ⟨d, u, rfl⟩ := ends_next h (by rw [hc]; decide)
        simp only [List.cons_append, List.cons.injEq] at he
        exact hne u hc (by rw [he.1])
      have := ih (ends_tail h)
      rw [hs]
      refine ⟨fun r hr => ?_, this.2⟩
      obtain ⟨h1, h2, h3⟩ := this.1 r hr
      exact ⟨h1, h2, by simp only [List.length_cons]; omega⟩
    · exact hne
  | case3 =>
    exact ⟨by simp [endComment], fun _ => rfl⟩

theorem ends_mem {p : List Char} (h : Ends p) (hp : p ≠ []) : '\n' ∈ p := by
  rcases h with h | ⟨q, rfl⟩
  · exact absurd h hp
  · simp

theorem symbol_two (easy : Bool) (c d : Char) (u : List Char) :
    symbol easy (c :: d :: u) = ((symbol easy [c, d]).1, (symbol easy [c, d]).2 ++ u) := by
  rw [symbol.eq_def easy (c :: d :: u)]
  split <;> simp_all
  all_goals first
    | exact ⟨rfl, rfl⟩
    | (obtain ⟨rfl, rfl⟩ := ‹_ ∧ _›; rw [symbol] <;> simp_all)

theorem symbol_append (easy : Bool) {c : Char} {p : List Char} (h : Ends (c :: p)) (rest : List Char) :
    symbol easy (c :: (p ++ rest)) = ((symbol easy (c :: p)).1, (symbol easy (c :: p)).2 ++ rest) ∧
      Ends (symbol easy (c :: p)).2 := by
  by_cases hc : c = '\n'
  · subst hc
    simp only [symbol]
    exact ⟨trivial, ends_tail h⟩
  · obtain ⟨d, u, rfl⟩ := ends_next h hc
    have h1 := ends_tail h
    have h2 := ends_tail h1
    rw [List.cons_append, symbol_two, symbol_two easy c d u]
    refine ⟨by rw [List.append_assoc], ?_⟩
    have hl := symbol_length easy c [d]
    simp only at hl ⊢
    rcases hs : (symbol easy [c, d]).2 with _ | ⟨e, _ | ⟨e', l⟩⟩
    · exact h2
    · have : e = d := by
        revert hs
        rw [symbol.eq_def]
        split <;> simp_all
        all_goals (obtain ⟨-, rfl⟩ := ‹_ ∧ _›; simp; try exact Eq.symm)
      rw [this]
      exact h1
    · rw [hs] at hl
      simp only [List.length_cons, List.length_nil] at hl
      omega

/-- A match outside a comment does not cross the end of a buffer. -/
theorem lexStep_append (easy : Bool) {c : Char} {p : List Char} (h : Ends (c :: p))
    (hc : ∀ u, c = '/' → p ≠ '*' :: u) (rest : List Char) :
    lexStep easy (c :: (p ++ rest)) = ((lexStep easy (c :: p)).1, (lexStep easy (c :: p)).2 ++ rest) ∧
      Ends (lexStep easy (c :: p)).2 := by
  by_cases hh : c = '#'
  · subst hh
    obtain ⟨d, u, rfl⟩ := ends_next h (by decide)
    have hm := ends_mem (ends_tail h) (by simp)
    have ht := takeWhile_ends (f := (· ≠ '\n')) (by simp) (ends_tail h) (by simp) rest
    rw [lexStep_hash, lexStep_hash, if_pos hm, if_pos (List.mem_append_left _ hm), ht.2]
    exact ⟨rfl, ends_dropWhile (ends_tail h)⟩
  · have e1 : ∀ v, (∀ u, c = '/' → v ≠ '*' :: u) → lexStep easy (c :: v) =
        if c = ' ' ∨ c = '\t' ∨ c = '\r' then (none, v)
        else if isDigit c then (some (number (c :: v.takeWhile isDigit)), v.dropWhile isDigit)
        else if isAlpha c then (some (word (c :: v.takeWhile isAlnum)), v.dropWhile isAlnum)
        else symbol easy (c :: v) := by
      intro v hv
      rw [lexStep]
      · exact fun u e1 e2 => hv u e1 e2
      · exact fun e => hh e
    have hc' : ∀ u, c = '/' → p ++ rest ≠ '*' :: u := by
      intro u e e'
      obtain ⟨d, v, rfl⟩ := ends_next h (by rw [e]; decide)
      simp only [List.cons_append, List.cons.injEq] at e'
      exact hc v e (by rw [e'.1])
    rw [e1 _ hc, e1 _ hc']
    by_cases hb : c = ' ' ∨ c = '\t' ∨ c = '\r'
    · rw [if_pos hb, if_pos hb]
      exact ⟨rfl, ends_tail h⟩
    · rw [if_neg hb, if_neg hb]
      by_cases hd : isDigit c = true
      · have hn : c ≠ '\n' := by rintro rfl; revert hd; decide
        obtain ⟨d, u, rfl⟩ := ends_next h hn
        have ht := takeWhile_ends (f := isDigit) (by decide) (ends_tail h) (by simp) rest
        rw [if_pos hd, if_pos hd, ht.1, ht.2]
        exact ⟨rfl, ends_dropWhile (ends_tail h)⟩
      · rw [if_neg hd, if_neg hd]
        by_cases ha : isAlpha c = true
        · have hn : c ≠ '\n' := by rintro rfl; revert ha; decide
          obtain ⟨d, u, rfl⟩ := ends_next h hn
          have ht := takeWhile_ends (f := isAlnum) (by decide) (ends_tail h) (by simp) rest
          rw [if_pos ha, if_pos ha, ht.1, ht.2]
          exact ⟨rfl, ends_dropWhile (ends_tail h)⟩
        · rw [if_neg ha, if_neg ha]
          exact symbol_append easy h rest

/-- The scanner from inside or outside a comment on a whole text. -/
def lexFrom (easy inComment : Bool) (cs : List Char) : List Tok :=
  if inComment then lex easy (skipComment cs) else lex easy cs

theorem lexBuf_append (easy : Bool) (rest : List Char) (n : ℕ) : ∀ p : List Char, Ends p → p.length ≤ n →
    lex easy (p ++ rest) = (lexBuf easy n p).1 ++ lexFrom easy (lexBuf easy n p).2 rest := by
  induction n with
  | zero =>
    intro p _ hl
    obtain rfl : p = [] := List.length_eq_zero_iff.1 (by omega)
    simp [lexBuf, lexFrom]
  | succ n ih =>
    intro p h hl
    rcases p with _ | ⟨c, p⟩
    · simp [lexBuf, lexFrom]
    · simp only [List.length_cons] at hl
      by_cases hc : ∃ u, c = '/' ∧ p = '*' :: u
      · obtain ⟨u, rfl, rfl⟩ := hc
        have hu := ends_tail (ends_tail h)
        have he := endComment_append hu rest
        have e1 : lex easy ('/' :: '*' :: u ++ rest) = lex easy (skipComment (u ++ rest)) :=
          lex_none (by simp only [List.cons_append]; rw [lexStep]) (by simp)
        rw [e1, lexBuf]
        cases hq : endComment u with
        | none =>
          rw [he.2 hq]
          simp [lexFrom]
        | some r =>
          obtain ⟨g1, g2, g3⟩ := he.1 r hq
          simp only [List.length_cons] at hl
          rw [g1]
          exact ih r g2 (by omega)
      · have hc' : ∀ u, c = '/' → p ≠ '*' :: u := fun u e1 e2 => hc ⟨u, e1, e2⟩
        have hs := lexStep_append easy h hc' rest
        have hlen := lexStep_length easy c p
        simp only [List.length_cons] at hlen
        rw [List.cons_append, lex_cons, hs.1, lexBuf]
        · rcases hq : lexStep easy (c :: p) with ⟨t, r⟩
          rw [hq] at hs hlen
          simp only at hs hlen
          have := ih r hs.2 (by omega)
          rcases t with _ | t
          · simp only [this]
          · simp only [this, List.cons_append]
        · exact hc'

theorem scanBuf_append (easy b : Bool) (p rest : List Char) (h : Ends p) :
    lexFrom easy b (p ++ rest) = (scanBuf easy b p).1 ++ lexFrom easy (scanBuf easy b p).2 rest := by
  unfold scanBuf
  cases b with
  | false => simpa [lexFrom] using lexBuf_append easy rest p.length p h le_rfl
  | true =>
    have he := endComment_append h rest
    simp only [if_true]
    cases hq : endComment p with
    | none =>
      simp [lexFrom, he.2 hq]
    | some r =>
      obtain ⟨g1, g2, g3⟩ := he.1 r hq
      have := lexBuf_append easy rest r.length r g2 le_rfl
      simpa [lexFrom, g1] using this

/-- Scanning the buffers one after the other is scanning their concatenation. -/
theorem scan_flatten (easy : Bool) (ps : List (List Char)) (h : ∀ p ∈ ps, Ends p) : ∀ b,
    scan easy b ps = lexFrom easy b ps.flatten := by
  induction ps with
  | nil =>
    intro b
    cases b <;> rfl
  | cons p ps ih =>
    intro b
    rw [List.flatten_cons, scanBuf_append easy b p _ (h p (by simp)), scan,
      ih (fun q hq => h q (List.mem_cons_of_mem _ hq))]

theorem lexFrom_newline (b : Bool) (cs : List Char) : lexFrom false b ('\n' :: cs) = lexFrom false b cs := by
  cases b with
  | false => exact lex_none (lexStep_newline false cs) (by simp)
  | true =>
    unfold lexFrom
    rw [if_pos rfl, if_pos rfl, skipComment]
    intro v e
    exact absurd e (by decide)

/-- Empty lines do not matter, unless they end statements. -/
theorem lexFrom_double (ls : List (List Char)) : ∀ b,
    lexFrom false b (ls.map fun l => l ++ ['\n'] ++ ['\n']).flatten =
      lexFrom false b (ls.map fun l => l ++ ['\n']).flatten := by
  induction ls with
  | nil => intro b; rfl
  | cons l ls ih =>
    intro b
    simp only [List.map_cons, List.flatten_cons]
    have hE : Ends (l ++ ['\n']) := .inr ⟨l, rfl⟩
    rw [List.append_assoc (l ++ ['\n']), scanBuf_append _ _ _ _ hE, scanBuf_append _ _ _ _ hE, List.singleton_append,
      lexFrom_newline, ih]

theorem buffers_ends (get : List Char → Option (List Char × List Char)) (n : ℕ) : ∀ cs, ∀ p ∈ buffers get n cs, Ends p := by
  induction n with
  | zero => simp [buffers]
  | succ n ih =>
    intro cs p hp
    rw [buffers] at hp
    split at hp
    · rcases List.mem_cons.1 hp with rfl | hp
      · exact .inr ⟨_, rfl⟩
      · exact ih _ p hp
    · simp at hp

theorem interactive_eq (get : List Char → Option (List Char × List Char)) (easy : Bool) (cs : List Char) :
    interactive get easy cs = lex easy (buffers get (cs.length + 1) cs).flatten :=
  scan_flatten easy _ (buffers_ends get _ cs) false

/-! ### `fgets` -/

theorem fgets_line : ∀ (n : ℕ) (l rest : List Char), '\n' ∉ l → l.length < n →
    fgets n (l ++ '\n' :: rest) = (l ++ ['\n'], rest, false)
  | 0, l, rest, _, h => by omega
  | n + 1, [], rest, _, _ => by simp [fgets]
  | n + 1, c :: l, rest, hl, h => by
    simp only [List.mem_cons, not_or] at hl
    have := fgets_line n l rest hl.2 (by simp only [List.length_cons] at h; omega)
    rw [List.cons_append, fgets, if_neg (fun e => hl.1 e.symm), this]
    rfl

theorem fgets_last : ∀ (n : ℕ) (l : List Char), '\n' ∉ l → l.length < n → fgets n l = (l, [], true)
  | 0, l, _, h => by omega
  | n + 1, [], _, _ => by simp [fgets]
  | n + 1, c :: l, hl, h => by
    simp only [List.mem_cons, not_or] at hl
    have := fgets_last n l hl.2 (by simp only [List.length_cons] at h; omega)
    rw [fgets, if_neg (fun e => hl.1 e.symm), this]

theorem fgets_long : ∀ (n : ℕ) (l rest : List Char), '\n' ∉ l → l.length = n →
    fgets n (l ++ rest) = (l, rest, false)
  | 0, l, rest, _, h => by
    rw [List.length_eq_zero_iff.1 h]
    simp [fgets]
  | n + 1, [], rest, _, h => by simp at h
  | n + 1, c :: l, rest, hl, h => by
    simp only [List.mem_cons, not_or] at hl
    have := fgets_long n l rest hl.2 (by simpa using h)
    rw [List.cons_append, fgets, if_neg (fun e => hl.1 e.symm), this]

theorem ne_char {l : List Char} {d : Char} (h : d ∉ l) : ∀ c ∈ l, decide (c ≠ d) = true := by
  intro c hc
  simp only [decide_eq_true_eq]
  rintro rfl
  exact h hc

theorem takeWhile_no {l : List Char} (h : '\x00' ∉ l) : l.takeWhile (· ≠ '\x00') = l := by
  have := (takeWhile_all (cs := []) (ne_char h) (by simp)).1
  simpa using this

theorem getLine_line {l : List Char} (rest : List Char) (h : '\n' ∉ l) (h0 : '\x00' ∉ l) (hl : l.length ≤ 1022) :
    getLine (l ++ '\n' :: rest) = some (l ++ ['\n'], rest) := by
  unfold getLine
  rw [fgets_line 1023 l rest h (by omega)]
  simp only [List.append_eq_nil_iff, reduceCtorEq, and_false, if_false]
  rw [takeWhile_no (by simpa using h0)]

theorem getLine_last {l : List Char} (h : '\n' ∉ l) (hl : l.length ≤ 1022) : getLine l = none := by
  unfold getLine
  rw [fgets_last 1023 l h (by omega)]
  simp

theorem getLine_long {l : List Char} (rest : List Char) (h : '\n' ∉ l) (h0 : '\x00' ∉ l) (hl : l.length = 1023) :
    getLine (l ++ rest) = some (l, rest) := by
  unfold getLine
  rw [fgets_long 1023 l rest h hl]
  have : l ≠ [] := by rintro rfl; simp at hl
  simp only [this, if_false]
  rw [takeWhile_no h0]
  rfl

theorem getLineR_line {l : List Char} (rest : List Char) (h : '\n' ∉ l) :
    getLineR (l ++ '\n' :: rest) = some (l, rest) := by
  have h1 := takeWhile_all (cs := '\n' :: rest) (ne_char h) (by rintro c u ⟨⟩; simp)
  unfold getLineR
  rw [if_neg (by simp), h1.1, h1.2]
  rfl

theorem getLineR_last {l : List Char} (h : '\n' ∉ l) (hl : l ≠ []) : getLineR l = some (l, []) := by
  have h1 := takeWhile_all (cs := []) (ne_char h) (by simp)
  rw [List.append_nil] at h1
  unfold getLineR
  rw [if_neg hl, h1.1, h1.2]
  rfl

end Pbc.Calc
