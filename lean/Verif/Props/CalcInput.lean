import Verif.Lemmas.CalcInput
import Verif.Props.CalcSyntax

/-!
# C138: programs typed at the terminal
-/

set_option autoImplicit false

namespace Pbc.Calc

open Spec.Calc

/-- Lines of text, each ended by a newline. -/
def _root_.Spec.Calc.typed (ls : List (List Char)) : List Char := (ls.map fun l => l ++ ['\n']).flatten

theorem typed_cons (l : List Char) (ls : List (List Char)) (x : List Char) :
    typed (l :: ls) ++ x = l ++ '\n' :: (typed ls ++ x) := by
  simp [typed]

theorem buffers_lines (ls : List (List Char)) (h : ∀ l ∈ ls, '\n' ∉ l ∧ '\x00' ∉ l ∧ l.length ≤ 1022) (x : List Char) :
    ∀ n, buffers getLine (ls.length + n) (typed ls ++ x) =
      (ls.map fun l => l ++ ['\n'] ++ ['\n']) ++ buffers getLine n x := by
  induction ls with
  | nil => intro n; simp [typed]
  | cons l ls ih =>
    intro n
    obtain ⟨h1, h2, h3⟩ := h l (by simp)
    rw [typed_cons, List.length_cons, show ls.length + 1 + n = ls.length + n + 1 by omega, buffers,
      getLine_line _ h1 h2 h3]
    simp only [ih (fun m hm => h m (List.mem_cons_of_mem _ hm)) n, List.map_cons, List.cons_append]

theorem buffers_linesR (ls : List (List Char)) (h : ∀ l ∈ ls, '\n' ∉ l) (x : List Char) :
    ∀ n, buffers getLineR (ls.length + n) (typed ls ++ x) = (ls.map fun l => l ++ ['\n']) ++ buffers getLineR n x := by
  induction ls with
  | nil => intro n; simp [typed]
  | cons l ls ih =>
    intro n
    rw [typed_cons, List.length_cons, show ls.length + 1 + n = ls.length + n + 1 by omega, buffers,
      getLineR_line _ (h l (by simp))]
    simp only [ih (fun m hm => h m (List.mem_cons_of_mem _ hm)) n, List.map_cons, List.cons_append]

theorem typed_length (ls : List (List Char)) : ls.length ≤ (typed ls).length := by
  induction ls with
  | nil => simp
  | cons l ls ih =>
    have := typed_cons l ls []
    rw [List.append_nil, List.append_nil] at this
    rw [this]
    simp only [List.length_append, List.length_cons]
    omega

theorem buffers_nil (n : ℕ) : buffers getLine n [] = [] := by
  rcases n with _ | n
  · rfl
  · rw [buffers]
    rfl

theorem buffers_nilR (n : ℕ) : buffers getLineR n [] = [] := by
  rcases n with _ | n
  · rfl
  · rw [buffers]
    rfl

/-- With the end of the text `x` unfinished. -/
theorem buffers_text (ls : List (List Char)) (h : ∀ l ∈ ls, '\n' ∉ l ∧ '\x00' ∉ l ∧ l.length ≤ 1022) {x : List Char}
    (hx : '\n' ∉ x) (hl : x.length ≤ 1022) :
    buffers getLine ((typed ls ++ x).length + 1) (typed ls ++ x) = ls.map fun l => l ++ ['\n'] ++ ['\n'] := by
  have := typed_length ls
  have e := buffers_lines ls h x ((typed ls ++ x).length + 1 - ls.length)
  rw [show ls.length + ((typed ls ++ x).length + 1 - ls.length) = (typed ls ++ x).length + 1 by
    rw [List.length_append]; omega] at e
  rw [e]
  have : buffers getLine ((typed ls ++ x).length + 1 - ls.length) x = [] := by
    rcases (typed ls ++ x).length + 1 - ls.length with _ | n
    · rfl
    · rw [buffers, getLine_last hx hl]
  rw [this, List.append_nil]

/-- **C138.**  A program whose lines have at most 1022 characters, the last one ended by a newline, means the same typed at the
terminal as in a file. -/
theorem C138_terminal_partial (ls : List (List Char)) (h : ∀ l ∈ ls, '\n' ∉ l ∧ '\x00' ∉ l ∧ l.length ≤ 1022) :
    interactive getLine false (typed ls) = lex false (typed ls) := by
  rw [interactive_eq]
  have := buffers_text ls h (x := []) (by simp) (by simp)
  rw [List.append_nil] at this
  rw [this]
  exact lexFrom_double ls false

/-- A statement over two lines with a comment over two lines. -/
example : interactive getLine false (typed ["1 + /* one".toList, "two */ 2;".toList]) = [.num 1, .plus, .num 2, .term] := by
  rw [C138_terminal_partial _ (by decide)]
  decide +kernel

/-- **C138.**  With readline this is so for all lines, also with the option `-y`, and a last line without a newline counts. -/
theorem C138_readline (easy : Bool) (ls : List (List Char)) (h : ∀ l ∈ ls, '\n' ∉ l) :
    interactive getLineR easy (typed ls) = lex easy (typed ls) ∧
    ∀ l : List Char, l ≠ [] → '\n' ∉ l → interactive getLineR easy (typed ls ++ l) = lex easy (typed (ls ++ [l])) := by
  have hlen := typed_length ls
  constructor
  · rw [interactive_eq]
    have e := buffers_linesR ls h [] ((typed ls).length + 1 - ls.length)
    rw [List.append_nil, show ls.length + ((typed ls).length + 1 - ls.length) = (typed ls).length + 1 by omega] at e
    rw [e, buffers_nilR, List.append_nil]
    rfl
  · intro l hl hn
    rw [interactive_eq]
    have e := buffers_linesR ls h l ((typed ls ++ l).length - ls.length + 1)
    rw [show ls.length + ((typed ls ++ l).length - ls.length + 1) = (typed ls ++ l).length + 1 by
      rw [List.length_append]; omega] at e
    rw [e, buffers, getLineR_last hn hl]
    simp only [buffers_nilR]
    simp [typed]

example : interactive getLineR true (typed ["x = 1".toList] ++ "x".toList) =
    [.id "x", .assign, .num 1, .term, .id "x", .term] := by
  rw [(C138_readline true _ (by decide)).2 _ (by decide) (by decide)]
  decide +kernel

/-- **C138.**  Without readline a last line that does not end with a newline is not read at all, as `feof` holds after it. -/
theorem C138_last_line_fails (easy : Bool) (ls : List (List Char))
    (h : ∀ l ∈ ls, '\n' ∉ l ∧ '\x00' ∉ l ∧ l.length ≤ 1022) (l : List Char) (hl : '\n' ∉ l) (hn : l.length ≤ 1022) :
    interactive getLine easy (typed ls ++ l) = interactive getLine easy (typed ls) := by
  rw [interactive_eq, interactive_eq, buffers_text ls h hl hn]
  have := buffers_text ls h (x := []) (by simp) (by simp)
  rw [List.append_nil] at this
  rw [this]

example : interactive getLine false "1;".toList = [] ∧ lex false "1;".toList = [.num 1, .term] := by
  refine ⟨?_, by decide +kernel⟩
  have := C138_last_line_fails false [] (by simp) "1;".toList (by decide) (by decide)
  rw [C138_terminal_partial [] (by simp)] at this
  exact this

theorem lex_digits (l rest : List Char) (h : ∀ c ∈ l, c.isDigit = true) (hne : l ≠ [])
    (hr : ∀ c u, rest = c :: u → c.isDigit = false) : lex false (l ++ rest) = number l :: lex false rest := by
  rcases l with _ | ⟨c, l⟩
  · exact absurd rfl hne
  · have hc := h c (by simp)
    have h' : ∀ d ∈ l, isDigit d = true := fun d hd => by rw [isDigit_eq]; exact h d (by simp [hd])
    have ht := takeWhile_all (p := isDigit) h' (fun c u e => by rw [isDigit_eq]; exact hr c u e)
    have hb := digit_not_blank hc
    refine lex_some ?_ (by simp)
    rw [List.cons_append, lexStep, if_neg hb.1, if_pos (by rw [isDigit_eq]; exact hc), ht.1, ht.2]
    · exact fun u e _ => hb.2.1 e
    · exact hb.2.2

/-- **C138.**  Without readline a longer line is cut after 1023 characters, and a newline put there: a number that stands at the
place becomes two, which is not a statement. -/
theorem C138_long_line_fails (l m : List Char) (hl : ∀ c ∈ l, c.isDigit = true) (hm : ∀ c ∈ m, c.isDigit = true)
    (h : l.length = 1023) (hm0 : m ≠ []) (hm1 : m.length ≤ 1021) :
    lex false (typed [l ++ m ++ [';']]) = [number (l ++ m), .term] ∧
    interactive getLine false (typed [l ++ m ++ [';']]) = [number l, number m, .term] ∧
    parse (interactive getLine false (typed [l ++ m ++ [';']])) = ([], false) := by
  have hd : ∀ {l : List Char}, (∀ c ∈ l, c.isDigit = true) → '\n' ∉ l ∧ '\x00' ∉ l := fun h =>
    ⟨fun hc => by have := h _ hc; revert this; decide, fun hc => by have := h _ hc; revert this; decide⟩
  have hl0 : l ≠ [] := by rintro rfl; simp at h
  have hsemi : ∀ c u, ';' :: u = c :: u → c.isDigit = false := by
    rintro c u e
    simp only [List.cons.injEq, and_true] at e
    rw [← e]
    decide
  have hlex : ∀ x : List Char, lex false (';' :: x) = .term :: lex false x := fun x =>
    lex_some (by rw [lexStep] <;> simp [isDigit, isAlpha, symbol]) (by simp)
  have hnl : ∀ x : List Char, lex false ('\n' :: x) = lex false x := fun x => lex_none (lexStep_newline false x) (by simp)
  have e : typed [l ++ m ++ [';']] = l ++ (m ++ [';'] ++ '\n' :: []) := by simp [typed]
  have e2 : interactive getLine false (typed [l ++ m ++ [';']]) = [number l, number m, .term] := by
    rw [interactive_eq, e]
    have : buffers getLine ((l ++ (m ++ [';'] ++ ['\n'])).length + 1) (l ++ (m ++ [';'] ++ ['\n'])) =
        [l ++ ['\n'], m ++ [';'] ++ ['\n'] ++ ['\n']] := by
      obtain ⟨k, hk⟩ : ∃ k, (l ++ (m ++ [';'] ++ ['\n'])).length + 1 = k + 1 + 1 + 1 :=
        ⟨(l ++ (m ++ [';'] ++ ['\n'])).length - 2, by simp only [List.length_append, h]; omega⟩
      rw [hk, buffers, getLine_long _ (hd hl).1 (hd hl).2 h]
      simp only
      rw [buffers, getLine_line (l := m ++ [';']) [] (by simpa using (hd hm).1) (by simpa using (hd hm).2)
        (by simp only [List.length_append, List.length_cons, List.length_nil]; omega)]
      simp only
      rw [buffers_nil]
    rw [this]
    simp only [List.flatten_cons, List.flatten_nil, List.append_assoc, List.cons_append, List.nil_append]
    rw [lex_digits l _ hl hl0 (by rintro c u ⟨⟩; decide), hnl,
      lex_digits m _ hm hm0 (by rintro c u ⟨⟩; decide), hlex, hnl, hnl]
    rfl
  refine ⟨?_, e2, ?_⟩
  · rw [e, show l ++ (m ++ [';'] ++ ['\n']) = (l ++ m) ++ [';', '\n'] by simp,
      lex_digits (l ++ m) _ (by
        intro c hc
        rcases List.mem_append.1 hc with hc | hc
        · exact hl c hc
        · exact hm c hc) (by simp [hl0]) (by rintro c u ⟨⟩; decide), hlex, hnl]
    rfl
  · rw [e2]
    refine parse_fail (by simp) ?_
    rintro r ⟨n, hn⟩
    rcases n with _ | _ | _ | _ | n <;> simp [number, parseStmt, parseE, parsePrefix, parseLoop, infix?] at hn

/-- 1023 ones and a two. -/
example : (∀ c ∈ List.replicate 1023 '1', c.isDigit = true) ∧ (List.replicate 1023 '1').length = 1023 := by
  refine ⟨fun c hc => ?_, List.length_replicate⟩
  rw [List.eq_of_mem_replicate hc]
  decide

/-! ### The option `-y` -/

theorem lex_easy_line (l : List Char) (ts : List Tok) (h : Text true l ts) (rest : List Char) :
    lex true (l ++ '\n' :: rest) = ts ++ .term :: lex true rest := by
  rw [lex_text_append h _ (by
    rintro c u ⟨⟩
    refine ⟨fun t => ?_, by decide⟩
    cases t <;> simp [Glues]), lex_some (lexStep_newline true rest) (by simp)]

theorem session_expr (e : Ex) (rest : List Tok) (n : ℕ) :
    session (n + 1) (e.show ++ .term :: rest) = (session n rest).map fun r => (e.tree :: r.1, r.2) := by
  have hg := good_stmt (.expr e) rest
  simp only [St.show, St.tree, List.append_assoc, List.cons_append, List.nil_append] at hg
  obtain ⟨k, hk⟩ := hg
  have hk := parse_enough k _ _ hk
  rcases hts : e.show ++ .term :: rest with _ | ⟨t, ts⟩
  · simp at hts
  · rw [hts] at hk
    rw [session, hk]

theorem session_term (rest : List Tok) (n : ℕ) :
    session (n + 1) (.term :: rest) = (session n rest).map fun r => (r.1, r.2 + 1) := by
  have : parseStmt (depth (Tok.term :: rest).length) (.term :: rest) = none := by
    have h : ∀ k, parseStmt k (.term :: rest) = none := by
      intro k
      rcases k with _ | _ | _ | k <;> simp [parseStmt, parseE, parsePrefix]
    exact h _
  rw [session, this]
  simp [begins]

/-- **C138.**  With the option `-y` and expressions typed one on each line: with readline all are evaluated; without, they are
evaluated too but after every line there is a syntax error, as the line is given to the scanner with two newlines. -/
theorem C138_easy_fails (ls : List (List Char × Ex)) (h : ∀ x ∈ ls, '\n' ∉ x.1 ∧ '\x00' ∉ x.1 ∧ x.1.length ≤ 1022)
    (ht : ∀ x ∈ ls, Text true x.1 x.2.show) (n : ℕ) (hn : 2 * ls.length < n) :
    session n (interactive getLineR true (typed (ls.map Prod.fst))) = some (ls.map fun x => x.2.tree, 0) ∧
    session n (interactive getLine true (typed (ls.map Prod.fst))) = some (ls.map fun x => x.2.tree, ls.length) := by
  constructor
  · rw [(C138_readline true _ (by
      intro l hl
      obtain ⟨x, hx, rfl⟩ := List.mem_map.1 hl
      exact (h x hx).1)).1]
    clear h
    induction ls generalizing n with
    | nil =>
      obtain ⟨m, rfl⟩ : ∃ m, n = m + 1 := ⟨n - 1, by omega⟩
      rfl
    | cons x ls ih =>
      simp only [List.length_cons] at hn
      obtain ⟨m, rfl⟩ : ∃ m, n = m + 1 := ⟨n - 1, by omega⟩
      have := typed_cons x.1 (ls.map Prod.fst) []
      rw [List.append_nil, List.append_nil] at this
      rw [List.map_cons, this, lex_easy_line _ _ (ht x (by simp)), session_expr,
        ih (fun y hy => ht y (List.mem_cons_of_mem _ hy)) m (by omega)]
      rfl
  · rw [interactive_eq]
    have := buffers_text (ls.map Prod.fst) (by
      intro l hl
      obtain ⟨x, hx, rfl⟩ := List.mem_map.1 hl
      exact h x hx) (x := []) (by simp) (by simp)
    rw [List.append_nil] at this
    rw [this]
    clear h this
    induction ls generalizing n with
    | nil =>
      obtain ⟨m, rfl⟩ : ∃ m, n = m + 1 := ⟨n - 1, by omega⟩
      rfl
    | cons x ls ih =>
      simp only [List.length_cons] at hn
      obtain ⟨m, rfl⟩ : ∃ m, n = m + 1 + 1 := ⟨n - 2, by omega⟩
      simp only [List.map_cons, List.flatten_cons, List.append_assoc, List.cons_append, List.nil_append]
      have hnl : ∀ x : List Char, lex true ('\n' :: x) = .term :: lex true x := fun x =>
        lex_some (lexStep_newline true x) (by simp)
      have ih' := ih (fun y hy => ht y (List.mem_cons_of_mem _ hy)) m (by omega)
      simp only [List.append_assoc, List.cons_append, List.nil_append] at ih'
      rw [lex_easy_line _ _ (ht x (by simp)), hnl, session_expr, session_term, ih']
      rfl

/-- Two lines, `1` and `x`. -/
example : session 5 (interactive getLine true "1\nx\n".toList) = some ([.num 1, .id "x"], 2) := by
  have := (C138_easy_fails [(['1'], .num 1), (['x'], .id "x")] (by decide) (by
    simp only [List.mem_cons, List.not_mem_nil, or_false, forall_eq_or_imp, forall_eq, Ex.show]
    refine ⟨.tok (t := .num 1) (cs := []) trivial (by simp) .nil,
      .tok (t := .id "x") (cs := []) ⟨by decide, 'x', [], rfl, by decide, by simp⟩ (by simp) .nil⟩) 5 (by decide)).2
  simpa [typed, Ex.tree] using this

end Pbc.Calc
