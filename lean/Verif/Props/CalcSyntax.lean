import Verif.Lemmas.CalcAccept
import Verif.Lemmas.CalcLex

/-!
# C115, C116: the calculator reads programs as they are written
-/

set_option autoImplicit false

namespace Pbc.Calc

open Spec.Calc

/-! ### C115: text and tokens -/

/-- **C115.**  A text is split into the tokens it spells: blanks and comments do not matter, words and numbers are taken whole,
a number stands for its value; with the option `-y` the end of a line ends a statement and `=` assigns. -/
theorem C115_tokens (easy : Bool) (cs : List Char) (ts : List Tok) (h : Text easy cs ts) : lex easy cs = ts := lex_text h

/-- `x1 := 12 <= /* ** */ 7;` -/
example : lex false "x1 := 12 <=/* ** */7;\n# end\n".toList = [.id "x1", .assign, .num 12, .le, .num 7, .term] := by
  apply C115_tokens
  refine .tok (t := .id "x1") (cs := ' ' :: ":= 12 <=/* ** */7;\n# end\n".toList)
    ⟨by decide, 'x', ['1'], rfl, by decide, by decide⟩ (by rintro c u ⟨⟩; simp [Glues]) ?_
  refine .gap (g := [' ']) (.blank _ (by decide)) ?_
  refine .tok (t := .assign) (cs := " 12 <=/* ** */7;\n# end\n".toList) trivial (by simp [Glues]) ?_
  refine .gap (g := [' ']) (.blank _ (by decide)) ?_
  refine .tok (t := .num 12) (cs := ' ' :: "<=/* ** */7;\n# end\n".toList) trivial (by rintro c u ⟨⟩; simp [Glues]) ?_
  refine .gap (g := [' ']) (.blank _ (by decide)) ?_
  refine .tok (t := .le) (cs := "/* ** */7;\n# end\n".toList) trivial (by simp [Glues]) ?_
  refine .gap (g := "/* ** */".toList) (.block " ** ".toList ?_) ?_
  · intro u v e
    have : '/' ∈ " ** ".toList := by rw [e]; simp
    simp at this
  refine .tok (t := .num 7) (cs := ';' :: "\n# end\n".toList) trivial (by rintro c u ⟨⟩; simp [Glues]) ?_
  refine .tok (t := .term) (cs := "\n# end\n".toList) trivial (by simp [Glues]) ?_
  refine .gap (g := ['\n']) (.newline rfl) ?_
  exact .gap (g := "# end\n".toList) (.line " end".toList rfl (by decide)) .nil

/-- **C115.**  A comment that begins with `#` in the last line of a text without a newline at its end is not taken as a comment:
after the tokens before it comes a token that no statement contains. -/
theorem C115_last_line_fails (easy : Bool) (cs l : List Char) (ts : List Tok) (h : Text easy cs ts) (hl : '\n' ∉ l) :
    lex easy (cs ++ '#' :: l) = ts ++ .unknown :: lex easy l := by
  rw [lex_text_append h _ (by
    rintro c u ⟨⟩
    refine ⟨fun t => ?_, by decide⟩
    cases t <;> simp [Glues]), lex_hash easy l hl]

example : lex false "1;# x".toList = [.num 1, .term, .unknown, .id "x"] := by decide +kernel

/-! ### C116: tokens and syntax trees -/

theorem parse_show (prog : List St) (ts : List Tok) :
    parse ((prog.map St.show).flatten ++ ts) = (prog.map St.tree ++ (parse ts).1, (parse ts).2) := by
  induction prog with
  | nil => rfl
  | cons s prog ih =>
    simp only [List.map_cons, List.flatten_cons, List.append_assoc, List.cons_append]
    rw [parse_cons (good_stmt s _), ih]

/-- **C116.**  Statements written with parentheses only where the precedences ask for them are read back, and then the rest is
parsed as if it stood alone. -/
theorem C116_parse (prog : List St) (ts : List Tok) :
    parse ((prog.map St.show).flatten ++ ts) = (prog.map St.tree ++ (parse ts).1, (parse ts).2) := parse_show prog ts

/-- `-2^3^4*5 - 6 - 7 == x(1)[2];` is `(-(2^(3^4)) * 5 - 6) - 7 == ...`. -/
example : (Ex.bin .eq (.bin .sub (.bin .sub (.bin .mul (.neg (.bin .pow (.num 2) (.bin .pow (.num 3) (.num 4)))) (.num 5)) (.num 6))
    (.num 7)) (.item (.call (.id "x") [.num 1]) (.num 2))).show =
    [.minus, .num 2, .pow, .num 3, .pow, .num 4, .times, .num 5, .minus, .num 6, .minus, .num 7, .eq, .id "x", .lpar, .num 1,
      .rpar, .lsqu, .num 2, .rsqu] := by
  simp [Ex.show, par, Ex.level, Op.left, Op.right, Op.level, Op.tok, commas]

/-- `-(2 - (3 - 4))^5` needs its parentheses. -/
example : (Ex.neg (.bin .pow (.bin .sub (.num 2) (.bin .sub (.num 3) (.num 4))) (.num 5))).show =
    [.minus, .lpar, .num 2, .minus, .lpar, .num 3, .minus, .num 4, .rpar, .rpar, .pow, .num 5] := by
  simp [Ex.show, par, Ex.level, Op.left, Op.right, Op.level, Op.tok]

/-- **C116.**  The same from the text on. -/
theorem C116_program (easy : Bool) (cs : List Char) (prog : List St) (h : Text easy cs (prog.map St.show).flatten) :
    parse (lex easy cs) = (prog.map St.tree, true) := by
  rw [C115_tokens easy cs _ h]
  have := parse_show prog []
  simpa [parse, parseInput] using this

example : parse (lex false "1+2;".toList) = ([.call (.prim .add) [.num 1, .num 2]], true) := by
  have := C116_program false "1+2;".toList [.expr (.bin .add (.num 1) (.num 2))] (by
    simp only [List.map_cons, List.map_nil, St.show, Ex.show, par, Ex.level, Op.left, Op.right, Op.level, Op.tok]
    refine .tok (t := .num 1) (cs := '+' :: "2;".toList) trivial (by rintro c u ⟨⟩; simp [Glues]) ?_
    refine .tok (t := .plus) (cs := "2;".toList) trivial (by simp [Glues]) ?_
    refine .tok (t := .num 2) (cs := [';']) trivial (by rintro c u ⟨⟩; simp [Glues]) ?_
    exact .tok (t := .term) (cs := []) trivial (by simp) .nil)
  simpa [St.tree, Ex.tree, Op.prim] using this

theorem parse_nil : parse [] = ([], true) := rfl

theorem parse_fail {ts : List Tok} (hne : ts ≠ []) (h : ∀ r, ¬ PSt ts r) : parse ts = ([], false) := by
  unfold parse
  rw [parseInput]
  · rcases h1 : parseStmt (depth ts.length) ts with _ | r
    · rfl
    · exact absurd ⟨_, h1⟩ (h r)
  · exact hne

/-- **C116.**  What is parsed, up to the first syntax error, follows the grammar with the trees that are evaluated; and an error
is found only where no statement follows. -/
theorem C116_sound (ts : List Tok) : ∃ d rest, ts = d ++ rest ∧ DerivesBody d (parse ts).1 ∧
    ((parse ts).2 = true → rest = []) ∧
    ((parse ts).2 = false → rest ≠ [] ∧ ∀ d' e rest', DerivesSt d' e → rest ≠ d' ++ rest') := by
  induction hn : ts.length using Nat.strong_induction_on generalizing ts with
  | _ n ih =>
    subst hn
    by_cases hne : ts = []
    · subst hne
      exact ⟨[], [], rfl, .nil, fun _ => rfl, fun h => by simp [parse_nil] at h⟩
    · by_cases h : ∃ r, PSt ts r
      · obtain ⟨⟨s, u⟩, hs⟩ := h
        have hs' := hs
        obtain ⟨n, hn⟩ := hs
        obtain ⟨d1, e1, g1⟩ := (soundStmt n).1 _ _ _ hn
        have hlt := ((adequateStmt n).1 _ _ _ hn).1
        obtain ⟨d2, rest, e2, g2, g3, g4⟩ := ih _ hlt u rfl
        rw [parse_cons hs']
        exact ⟨d1 ++ d2, rest, by rw [e1, e2, List.append_assoc], .cons g1 g2, g3, g4⟩
      · have h' : ∀ r, ¬ PSt ts r := fun r hr => h ⟨r, hr⟩
        rw [parse_fail hne h']
        refine ⟨[], ts, rfl, .nil, fun h => by simp at h, fun _ => ⟨hne, fun d' e rest' hd he => ?_⟩⟩
        obtain ⟨e', he'⟩ := accept_stmt hd rest'
        exact h' _ (he ▸ he')

theorem body_append {ts us : List Tok} {b c : List Expr} : DerivesBody ts b → DerivesBody us c →
    DerivesBody (ts ++ us) (b ++ c)
  | .nil, h' => h'
  | .cons h h2, h' => by
    have := DerivesBody.cons h (body_append h2 h')
    simpa using this

theorem parse_body {ts : List Tok} {b : List Expr} : DerivesBody ts b → (parse ts).2 = true
  | .nil => rfl
  | .cons (us := us) h h2 => by
    obtain ⟨e', he'⟩ := accept_stmt h us
    rw [parse_cons he']
    exact parse_body h2

/-- **C116.**  Exactly the texts that the grammar derives are accepted: the precedences decide only which tree is taken. -/
theorem C116_accepts (ts : List Tok) : (parse ts).2 = true ↔ ∃ b, DerivesBody ts b := by
  constructor
  · intro h
    obtain ⟨d, rest, e, g, h1, -⟩ := C116_sound ts
    rw [h1 h, List.append_nil] at e
    subst e
    exact ⟨_, g⟩
  · rintro ⟨b, hb⟩
    exact parse_body hb

/-- **C116.**  Unlike in C, an assignment ends before a comparison or `?`: `x := a ? b : c` assigns `a`. -/
theorem C116_assign_ternary_fails (x : String) (a b c : Ex) (ha : 4 ≤ a.level) :
    parse (.id x :: .assign :: a.show ++ .question :: b.show ++ .colon :: c.show ++ [.term]) =
      ([.tern (.assign x a.tree) b.tree c.tree], true) := by
  have := parse_show [.expr (.tern (.assign x a) b c)] []
  have h1 : par 4 a.level a.show = a.show := if_pos ha
  have h2 : (Ex.assign x a).level = 3 := rfl
  simpa [St.show, Ex.show, St.tree, Ex.tree, h2, ha, par, parse_nil] using this

theorem C116_assign_compare_fails (x : String) (a b : Ex) (ha : 4 ≤ a.level) (hb : 3 ≤ b.level) :
    parse (.id x :: .assign :: a.show ++ .eq :: b.show ++ [.term]) =
      ([.call (.prim .eq) [.assign x a.tree, b.tree]], true) := by
  have := parse_show [.expr (.bin .eq (.assign x a) b)] []
  have h1 : par 4 a.level a.show = a.show := if_pos ha
  have h2 : (Ex.assign x a).level = 3 := rfl
  have h3 : par 3 b.level b.show = b.show := if_pos hb
  have h4 : Op.eq.left = 2 := rfl
  have h5 : Op.eq.right = 3 := rfl
  have h6 : par 2 3 (Tok.id x :: Tok.assign :: a.show) = Tok.id x :: Tok.assign :: a.show := if_pos (by decide)
  simpa [St.show, Ex.show, St.tree, Ex.tree, h1, h2, h3, h4, h5, h6, Op.tok, Op.prim, parse_nil] using this

example : 4 ≤ (Ex.bin .add (.id "y") (.num 1)).level := by decide

/-- **C116.**  There is no empty statement: `;;`, or an empty line with the option `-y`, is an error. -/
theorem C116_empty_statement_fails (prog : List St) (ts : List Tok) :
    parse ((prog.map St.show).flatten ++ .term :: ts) = (prog.map St.tree, false) := by
  rw [parse_show, parse_fail (by simp)]
  · simp
  · rintro r ⟨n, hn⟩
    rcases n with _ | _ | _ | n <;> simp [parseStmt, parseE, parsePrefix] at hn

end Pbc.Calc
