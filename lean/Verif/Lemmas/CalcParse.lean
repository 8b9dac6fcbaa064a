import Verif.Lemmas.CalcSyntax

/-!
# Lemmas on the parser of the calculator: it reads back what is written, and what it accepts follows the grammar
-/

set_option autoImplicit false

namespace Pbc.Calc

open Spec.Calc

/-- Precedence below which an operator after the expression is not absorbed by its last operand. -/
def endLevel : Ex → ℕ
  | .tern .. => 1
  | .bin o _ _ => o.right
  | .assign .. => 4
  | .neg _ => 6
  | _ => 9

theorem level_le_end (s : Ex) : s.level ≤ endLevel s := by
  cases s with
  | bin o a b => cases o <;> simp [Ex.level, endLevel, Op.level, Op.right]
  | _ => simp [Ex.level, endLevel]

/-- What is shown of every expression. -/
structure Good (s : Ex) : Prop where
  main : ∀ lev rest r, lev ≤ s.level → Stop (endLevel s) rest → PL lev s.tree rest r → PE lev (s.show ++ rest) r
  mol : s.level = 9 → ∀ rest r, (∀ u, rest ≠ .assign :: u) → PS s.tree rest r → PP (s.show ++ rest) r

theorem stop_rpar {k : ℕ} {u : List Tok} : Stop k (.rpar :: u) := by
  rintro t u ⟨⟩; simp [infix?]

theorem stop_rsqu {k : ℕ} {u : List Tok} : Stop k (.rsqu :: u) := by
  rintro t u ⟨⟩; simp [infix?]

theorem stop_colon {k : ℕ} {u : List Tok} : Stop k (.colon :: u) := by
  rintro t u ⟨⟩; simp [infix?]

theorem stop_comma {k : ℕ} {u : List Tok} : Stop k (.comma :: u) := by
  rintro t u ⟨⟩; simp [infix?]

theorem stop_term {k : ℕ} {u : List Tok} : Stop k (.term :: u) := by
  rintro t u ⟨⟩; simp [infix?]

theorem stop_nil {k : ℕ} : Stop k [] := by
  rintro t u ⟨⟩

theorem infix_tok (o : Op) : infix? o.tok = some (o.prim, o.level) := by cases o <;> rfl

/-- An expression closed by a token that ends any operand. -/
theorem Good.all {s : Ex} (h : Good s) {u : List Tok} (hu : ∀ k, Stop k u) {lev : ℕ} (hl : lev ≤ s.level) :
    PE lev (s.show ++ u) (s.tree, u) := h.main _ _ _ hl (hu _) (PL.stop (hu _))

/-- A parenthesised expression is a molecule. -/
theorem Good.paren {s : Ex} (h : Good s) {rest : List Tok} {r : Expr × List Tok} (hr : PS s.tree rest r) :
    PP (.lpar :: s.show ++ [.rpar] ++ rest) r := by
  have := PP.par (h.all (u := .rpar :: rest) (fun k => stop_rpar) (Nat.zero_le _)) hr
  simpa using this

/-- An operand, with or without parentheses. -/
theorem Good.par {s : Ex} (h : Good s) {need lev : ℕ} (hl : lev ≤ need) {rest : List Tok} {r : Expr × List Tok}
    (hs : need ≤ s.level → Stop (endLevel s) rest) {k : ℕ} (hs' : Stop k rest) (hr : PL lev s.tree rest r) :
    PE lev (Spec.Calc.par need s.level s.show ++ rest) r := by
  unfold Spec.Calc.par
  split
  · rename_i hle
    exact h.main _ _ _ (hl.trans hle) (hs hle) hr
  · exact PE.mk (h.paren hs'.ps) hr

/-- An operand that must be a molecule. -/
theorem Good.par9 {s : Ex} (h : Good s) {rest : List Tok} {r : Expr × List Tok} (hne : ∀ u, rest ≠ .assign :: u)
    (hr : PS s.tree rest r) : PP (Spec.Calc.par 9 s.level s.show ++ rest) r := by
  unfold Spec.Calc.par
  split
  · rename_i hle
    refine h.mol ?_ _ _ hne hr
    have : s.level ≤ 9 := by
      cases s with
      | bin o a b => cases o <;> simp [Ex.level, Op.level]
      | _ => simp [Ex.level]
    omega
  · exact h.paren hr

theorem good_list (l : List Ex) (hne : l ≠ []) (h : ∀ s ∈ l, Good s) (u : List Tok) (hu : ∀ k, Stop k u)
    (hc : ∀ v, u ≠ .comma :: v) : PI (commas (l.map Ex.show) ++ u) (l.map Ex.tree, u) := by
  induction l with
  | nil => exact absurd rfl hne
  | cons s l ih =>
    have hs := h s (by simp)
    rcases l with _ | ⟨s', l⟩
    · simp only [List.map_cons, List.map_nil, commas]
      exact PI.one (hs.all hu (Nat.zero_le _)) hc
    · have := ih (by simp) (fun t ht => h t (by simp [ht]))
      simp only [List.map_cons, commas, List.append_assoc, List.cons_append] at this ⊢
      exact PI.cons (hs.all (fun k => stop_comma) (Nat.zero_le _)) this

theorem good (s : Ex) : Good s := by
  induction s using Ex.rec (motive_2 := fun l => ∀ s ∈ l, Good s) with
  | num n =>
    refine ⟨fun lev rest r _ hs hr => ?_, fun h => by simp [Ex.level] at h⟩
    simp only [Ex.show, Ex.tree, List.cons_append, List.nil_append] at hr ⊢
    exact PE.mk PP.num hr
  | id x =>
    refine ⟨fun lev rest r _ hs hr => ?_, fun _ rest r hne hr => ?_⟩
    · simp only [Ex.show, Ex.tree, List.cons_append, List.nil_append] at hr ⊢
      exact PE.mk (PP.id hs.ps (fun u e => (hs _ _ e).2.2.2.1 rfl)) hr
    · simp only [Ex.show, Ex.tree, List.cons_append, List.nil_append] at hr ⊢
      exact PP.id hr hne
  | assign x e ih =>
    refine ⟨fun lev rest r _ hs hr => ?_, fun h => by simp [Ex.level] at h⟩
    simp only [Ex.show, Ex.tree, List.cons_append, List.nil_append] at hr ⊢
    refine PE.mk (PP.assign (u := rest) ?_) hr
    exact ih.par (le_refl 4) (fun h => hs.mono (h.trans (level_le_end e))) hs (PL.stop hs)
  | tern c a b ihc iha ihb =>
    refine ⟨fun lev rest r hlev hs hr => ?_, fun h => by simp [Ex.level] at h⟩
    have hl : lev ≤ 1 := hlev
    simp only [Ex.show, Ex.tree, List.append_assoc, List.cons_append] at hr ⊢
    have hq : Stop 2 (Tok.question :: (a.show ++ Tok.colon :: (b.show ++ rest))) := by
      rintro t u ⟨⟩; simp [infix?]
    refine ihc.par (show lev ≤ 2 by omega) (fun h => hq.mono (h.trans (level_le_end c))) hq ?_
    refine PL.tern hl (iha.all (fun k => stop_colon) (Nat.zero_le _)) (v := rest) (b := b.tree) ?_ hr
    have hb : 1 ≤ b.level := by
      cases b with
      | bin o a b => cases o <;> simp [Ex.level, Op.level]
      | _ => simp [Ex.level]
    exact ihb.main _ _ _ hb (hs.mono (hb.trans (level_le_end b))) (PL.stop hs)
  | bin o a b iha ihb =>
    refine ⟨fun lev rest r hlev hs hr => ?_, fun h => by cases o <;> simp [Ex.level, Op.level] at h⟩
    have hl : lev ≤ o.level := hlev
    have hs : Stop o.right rest := hs
    simp only [Ex.show, Ex.tree, List.append_assoc, List.cons_append] at hr ⊢
    have hend : o.left ≤ a.level → o.level < endLevel a := by
      cases a with
      | bin o' a b => cases o <;> cases o' <;> simp [Op.left, Op.level, Op.right, Ex.level, endLevel]
      | _ => cases o <;> simp [Op.left, Op.level, Ex.level, endLevel]
    have hstop : ∀ k v, o.level < k → Stop k (o.tok :: v) := by
      rintro k v hk t u ⟨⟩
      refine ⟨by cases o <;> simp [Op.tok], by cases o <;> simp [Op.tok], by cases o <;> simp [Op.tok],
        by cases o <;> simp [Op.tok], fun p j hp => ?_⟩
      rw [infix_tok] at hp
      simp only [Option.some.injEq, Prod.mk.injEq] at hp
      omega
    refine iha.par (show lev ≤ o.left from hl.trans (by cases o <;> decide)) (fun h => hstop _ _ (hend h))
      (hstop 8 _ (by cases o <;> decide)) ?_
    refine PL.op (infix_tok o) hl (u := rest) (b := b.tree) ?_ hr
    have hrl : rightLevel o.level = o.right := by cases o <;> rfl
    rw [hrl]
    exact ihb.par (le_refl _) (fun h => hs.mono (h.trans (level_le_end b))) hs (PL.stop hs)
  | neg a ih =>
    refine ⟨fun lev rest r hlev hs hr => ?_, fun h => by simp [Ex.level] at h⟩
    have hs : Stop 6 rest := hs
    simp only [Ex.show, Ex.tree, List.cons_append, List.nil_append] at hr ⊢
    refine PE.mk (PP.neg (u := rest) (e := a.tree) ?_) hr
    exact ih.par (le_refl _) (fun h => hs.mono (h.trans (level_le_end a))) hs (PL.stop hs)
  | item a i iha ihi =>
    refine ⟨fun lev rest r hlev hs hr => ?_, fun h => by simp [Ex.level] at h⟩
    simp only [Ex.show, Ex.tree, List.append_assoc, List.cons_append, List.nil_append] at hr ⊢
    refine PE.mk (iha.par9 (by simp) (PS.item (u := rest) (e := i.tree) ?_)) hr
    exact ihi.all (fun k => stop_rsqu) (Nat.zero_le _)
  | call f args ihf ihargs =>
    have key : ∀ rest r, PS (.call f.tree (args.map Ex.tree)) rest r → PP ((Ex.call f args).show ++ rest) r := by
      intro rest r hr
      simp only [Ex.show, List.append_assoc, List.cons_append, List.nil_append]
      refine ihf.par9 (by simp) ?_
      rcases args with _ | ⟨s, args⟩
      · exact PS.call0 hr
      · exact PS.call (good_list (s :: args) (by simp) ihargs _ (fun k => stop_rpar) (by simp)) hr
    refine ⟨fun lev rest r hlev hs hr => ?_, fun _ rest r hne hr => ?_⟩
    · refine PE.mk (key _ _ (PS.stop (fun u e => (hs _ _ e).1 rfl) (fun u e => (hs _ _ e).2.1 rfl))) ?_
      simpa [Ex.tree] using hr
    · exact key _ _ (by simpa [Ex.tree] using hr)
  | list e es ihe ihes =>
    refine ⟨fun lev rest r hlev hs hr => ?_, fun h => by simp [Ex.level] at h⟩
    refine PE.mk (u := rest) (e := .list (e.tree :: es.map Ex.tree)) ?_ (by simpa [Ex.tree] using hr)
    simp only [Ex.show, List.append_assoc, List.cons_append, List.nil_append]
    have := good_list (e :: es) (by simp) (by
      intro s hs
      rcases List.mem_cons.1 hs with rfl | hs
      · exact ihe
      · exact ihes s hs) (.rsqu :: rest) (fun k => stop_rsqu) (by simp)
    exact PP.list this
  | nil => simp at *
  | cons s l ihs ihl =>
    rename_i t ht
    rcases List.mem_cons.1 ht with rfl | ht
    · exact ihs
    · exact ihl _ ht

/-! ### Statements and programs -/

theorem params_params (ps : List String) (hne : ps ≠ []) (rest : List Tok) :
    parseParams (commas (ps.map fun x => [Tok.id x]) ++ .rpar :: rest) = some (ps, rest) := by
  induction ps with
  | nil => exact absurd rfl hne
  | cons x ps ih =>
    rcases ps with _ | ⟨y, ps⟩
    · simp [commas, parseParams]
    · have := ih (by simp)
      simp only [List.map_cons, commas, List.append_assoc, List.cons_append, List.nil_append, parseParams] at this ⊢
      rw [this]

theorem PE.not_define {lev : ℕ} {ts : List Tok} {r : Expr × List Tok} (h : PE lev ts r) : ∀ u, ts ≠ .define :: u := by
  rintro u rfl
  obtain ⟨n, hn⟩ := h
  rcases n with _ | _ | n <;> simp [parseE, parsePrefix] at hn

theorem PE.not_rbrace {lev : ℕ} {ts : List Tok} {r : Expr × List Tok} (h : PE lev ts r) : ∀ u, ts ≠ .rbrace :: u := by
  rintro u rfl
  obtain ⟨n, hn⟩ := h
  rcases n with _ | _ | n <;> simp [parseE, parsePrefix] at hn

theorem PSt.not_rbrace {ts : List Tok} {r : Expr × List Tok} (h : PSt ts r) : ∀ u, ts ≠ .rbrace :: u := by
  rintro u rfl
  obtain ⟨n, hn⟩ := h
  rcases n with _ | _ | _ | n <;> simp [parseStmt, parseE, parsePrefix] at hn

theorem PSt.expr {ts u : List Tok} {e : Expr} (h : PE 0 ts (e, .term :: u)) : PSt ts (e, u) := by
  refine ⟨4 * ts.length + 9, ?_⟩
  rw [parseStmt, h.ge _ (by omega)]
  · intro f v; exact h.not_define _
  · intro f v; exact h.not_define _

theorem PSt.define {f : String} {ps : List String} {ts u : List Tok} {b : List Expr} (h : PB ts (b, u)) :
    PSt (.define :: .id f :: .lpar :: commas (ps.map fun x => [.id x]) ++ .rpar :: .lbrace :: ts) (.define f ps b, u) := by
  refine ⟨4 * ts.length + 9, ?_⟩
  rcases ps with _ | ⟨x, ps⟩
  · simp only [List.map_nil, commas, List.cons_append, List.nil_append]
    rw [parseStmt, h.ge _ (by omega)]
  · have hp := params_params (x :: ps) (by simp) (.lbrace :: ts)
    simp only [List.cons_append]
    rw [parseStmt, hp]
    · simp only
      rw [h.ge _ (by omega)]
    · intro v
      rcases ps with _ | ⟨y, ps⟩ <;> simp [commas]

theorem PB.nil {ts : List Tok} : PB (.rbrace :: ts) ([], ts) := ⟨1, by rw [parseBody]⟩

theorem PB.cons {ts u v : List Tok} {s : Expr} {b : List Expr} (h : PSt ts (s, u)) (h' : PB u (b, v)) :
    PB ts (s :: b, v) := by
  refine ⟨4 * ts.length + 4 * u.length + 9, ?_⟩
  rw [parseBody, h.ge _ (by omega)]
  · simp only
    rw [h'.ge _ (by omega)]
  · exact h.not_rbrace

theorem good_stmt (s : St) : ∀ rest, PSt (s.show ++ rest) (s.tree, rest) := by
  induction s using St.rec
    (motive_2 := fun l => ∀ rest, PB ((l.map St.show).flatten ++ .rbrace :: rest) (l.map St.tree, rest)) with
  | expr e =>
    intro rest
    simp only [St.show, St.tree, List.append_assoc, List.cons_append, List.nil_append]
    exact PSt.expr ((good e).all (fun k => stop_term) (Nat.zero_le _))
  | define f ps body ih =>
    intro rest
    simp only [St.show, St.tree, List.append_assoc, List.cons_append, List.nil_append]
    exact PSt.define (ih rest)
  | nil rest => exact PB.nil
  | cons s l ihs ihl rest =>
    simp only [List.map_cons, List.flatten_cons, List.append_assoc]
    exact PB.cons (ihs _) (ihl _)

/-- No depth lets the parser accept a statement that it does not accept with the depth used. -/
theorem parse_enough (n : ℕ) (ts : List Tok) (r : Expr × List Tok) (h : parseStmt n ts = some r) :
    parseStmt (depth ts.length) ts = some r :=
  PSt.ge ⟨n, h⟩ _ (by unfold depth; omega)

theorem parseInput_enough (n : ℕ) (ts : List Tok) (h : ts.length < n) : parseInput n ts = parse ts := by
  induction n using Nat.strong_induction_on generalizing ts with
  | _ n ih =>
    obtain ⟨m, rfl⟩ : ∃ m, n = m + 1 := ⟨n - 1, by omega⟩
    rcases ts with _ | ⟨t, ts⟩
    · rfl
    · unfold parse
      rw [parseInput, parseInput]
      · rcases h1 : parseStmt (depth (t :: ts).length) (t :: ts) with _ | ⟨s, u⟩
        · rfl
        · have hu := ((adequateStmt _).1 _ _ _ h1).1
          simp only
          rw [ih m (by omega) u (by omega)]
          rw [ih _ h u hu]
      · simp
      · simp

theorem parse_cons {ts u : List Tok} {s : Expr} (h : PSt ts (s, u)) : parse ts = (s :: (parse u).1, (parse u).2) := by
  have hlt : u.length < ts.length := by
    obtain ⟨n, hn⟩ := h
    exact ((adequateStmt n).1 _ _ _ hn).1
  conv_lhs => unfold parse
  rw [parseInput, h.ge _ (by unfold depth; omega)]
  · simp only
    rw [parseInput_enough _ _ hlt]
  · rintro rfl; simp at hlt

/-! ### What is accepted follows the grammar -/

theorem infix_op {t : Tok} {p : Prim} {k : ℕ} (h : infix? t = some (p, k)) : ∃ o : Op, t = o.tok ∧ p = o.prim := by
  cases t <;> simp only [infix?, Option.some.injEq, Prod.mk.injEq, reduceCtorEq] at h
  · exact ⟨.eq, rfl, h.1.symm⟩
  · exact ⟨.ne, rfl, h.1.symm⟩
  · exact ⟨.lt, rfl, h.1.symm⟩
  · exact ⟨.gt, rfl, h.1.symm⟩
  · exact ⟨.le, rfl, h.1.symm⟩
  · exact ⟨.ge, rfl, h.1.symm⟩
  · exact ⟨.add, rfl, h.1.symm⟩
  · exact ⟨.sub, rfl, h.1.symm⟩
  · exact ⟨.div, rfl, h.1.symm⟩
  · exact ⟨.mul, rfl, h.1.symm⟩
  · exact ⟨.pow, rfl, h.1.symm⟩

def Sound (n : ℕ) : Prop :=
  (∀ lev ts e ts', parseE n lev ts = some (e, ts') → ∃ d, ts = d ++ ts' ∧ Derives d e) ∧
  (∀ ts e ts', parsePrefix n ts = some (e, ts') → ∃ d, ts = d ++ ts' ∧ Derives d e) ∧
  (∀ f ts e ts' df, parseSuffix n f ts = some (e, ts') → DerivesMol df f → ∃ d, ts = d ++ ts' ∧ Derives (df ++ d) e) ∧
  (∀ ts es ts', parseList n ts = some (es, ts') → ∃ d, ts = d ++ ts' ∧ DerivesList d es) ∧
  (∀ lev l ts e ts' dl, parseLoop n lev l ts = some (e, ts') → Derives dl l → ∃ d, ts = d ++ ts' ∧ Derives (dl ++ d) e)

theorem sound (n : ℕ) : Sound n := by
  induction n with
  | zero =>
    refine ⟨?_, ?_, ?_, ?_, ?_⟩ <;> intros <;> simp_all [parseE, parsePrefix, parseSuffix, parseList, parseLoop]
  | succ n ih =>
    obtain ⟨hE, hP, hS, hL, hO⟩ := ih
    refine ⟨?_, ?_, ?_, ?_, ?_⟩
    · intro lev ts e ts' h
      rw [parseE] at h
      split at h
      · rename_i e1 t1 h1
        obtain ⟨d1, rfl, g1⟩ := hP _ _ _ h1
        obtain ⟨d2, rfl, g2⟩ := hO _ _ _ _ _ _ h g1
        exact ⟨d1 ++ d2, by simp, g2⟩
      · simp at h
    · intro ts e ts' h
      rw [parsePrefix.eq_def] at h
      split at h
      · simp at h
      · rename_i k x u heq
        obtain rfl : n = k := Nat.succ.inj heq
        split at h
        · rename_i e1 t1 h1
          obtain ⟨d1, rfl, g1⟩ := hE _ _ _ _ h1
          simp only [Option.some.injEq, Prod.mk.injEq] at h
          obtain ⟨rfl, rfl⟩ := h
          exact ⟨.id x :: .assign :: d1, by simp, .assign x g1⟩
        · simp at h
      · rename_i k x u hne heq
        obtain rfl : n = k := Nat.succ.inj heq
        obtain ⟨d1, rfl, g1⟩ := hS _ _ _ _ _ h (.id x)
        exact ⟨.id x :: d1, by simp, by simpa using g1⟩
      · rename_i k u heq
        obtain rfl : n = k := Nat.succ.inj heq
        split at h
        · rename_i e1 t1 h1
          obtain ⟨d1, rfl, g1⟩ := hE _ _ _ _ h1
          obtain ⟨d2, rfl, g2⟩ := hS _ _ _ _ _ h (.par g1)
          exact ⟨_, by simp, g2⟩
        · simp at h
      · simp only [Option.some.injEq, Prod.mk.injEq] at h
        obtain ⟨rfl, rfl⟩ := h
        exact ⟨[_], by simp, .num _⟩
      · rename_i k u heq
        obtain rfl : n = k := Nat.succ.inj heq
        split at h
        · rename_i e1 t1 h1
          obtain ⟨d1, rfl, g1⟩ := hL _ _ _ h1
          simp only [Option.some.injEq, Prod.mk.injEq] at h
          obtain ⟨rfl, rfl⟩ := h
          exact ⟨_, by simp, .list g1⟩
        · simp at h
      · rename_i k u heq
        obtain rfl : n = k := Nat.succ.inj heq
        split at h
        · rename_i e1 t1 h1
          obtain ⟨d1, rfl, g1⟩ := hE _ _ _ _ h1
          simp only [Option.some.injEq, Prod.mk.injEq] at h
          obtain ⟨rfl, rfl⟩ := h
          exact ⟨.minus :: d1, by simp, .neg g1⟩
        · simp at h
      · simp at h
    · intro f ts e ts' df h hf
      rw [parseSuffix.eq_def] at h
      split at h
      · simp at h
      · rename_i k u heq
        obtain rfl : n = k := Nat.succ.inj heq
        obtain ⟨d1, rfl, g1⟩ := hS _ _ _ _ _ h (.call0 hf)
        exact ⟨.lpar :: .rpar :: d1, by simp, by simpa using g1⟩
      · rename_i k u hne heq
        obtain rfl : n = k := Nat.succ.inj heq
        split at h
        · rename_i e1 t1 h1
          obtain ⟨d1, rfl, g1⟩ := hL _ _ _ h1
          obtain ⟨d2, rfl, g2⟩ := hS _ _ _ _ _ h (.call hf g1)
          exact ⟨.lpar :: d1 ++ [.rpar] ++ d2, by simp, by simpa using g2⟩
        · simp at h
      · rename_i k u heq
        obtain rfl : n = k := Nat.succ.inj heq
        split at h
        · rename_i e1 t1 h1
          obtain ⟨d1, rfl, g1⟩ := hE _ _ _ _ h1
          simp only [Option.some.injEq, Prod.mk.injEq] at h
          obtain ⟨rfl, rfl⟩ := h
          exact ⟨.lsqu :: d1 ++ [.rsqu], by simp, by simpa [Expr.bin] using Derives.item hf g1⟩
        · simp at h
      · simp only [Option.some.injEq, Prod.mk.injEq] at h
        obtain ⟨rfl, rfl⟩ := h
        exact ⟨[], by simp, by simpa using Derives.molecule hf⟩
    · intro ts e ts' h
      rw [parseList] at h
      split at h
      · rename_i e1 t1 h1
        obtain ⟨d1, rfl, g1⟩ := hE _ _ _ _ h1
        split at h
        · rename_i es t2 h2
          obtain ⟨d2, rfl, g2⟩ := hL _ _ _ h2
          simp only [Option.some.injEq, Prod.mk.injEq] at h
          obtain ⟨rfl, rfl⟩ := h
          exact ⟨_, by simp, .cons g1 g2⟩
        · simp at h
      · rename_i e1 t1 hne h1
        obtain ⟨d1, rfl, g1⟩ := hE _ _ _ _ h1
        simp only [Option.some.injEq, Prod.mk.injEq] at h
        obtain ⟨rfl, rfl⟩ := h
        exact ⟨_, rfl, .one g1⟩
      · simp at h
    · intro lev l ts e ts' dl h hl
      rcases ts with _ | ⟨t, ts⟩
      · rw [parseLoop] at h
        simp only [Option.some.injEq, Prod.mk.injEq] at h
        obtain ⟨rfl, rfl⟩ := h
        exact ⟨[], by simp, by simpa using hl⟩
      · rw [parseLoop] at h
        have stop : some (l, t :: ts) = some (e, ts') → ∃ d, t :: ts = d ++ ts' ∧ Derives (dl ++ d) e := by
          intro h
          simp only [Option.some.injEq, Prod.mk.injEq] at h
          obtain ⟨rfl, rfl⟩ := h
          exact ⟨[], by simp, by simpa using hl⟩
        by_cases ht : t = .question
        · rw [if_pos ht] at h
          split at h
          · split at h
            · rename_i a t1 h1
              obtain ⟨d1, rfl, g1⟩ := hE _ _ _ _ h1
              split at h
              · rename_i b t2 h2
                obtain ⟨d2, rfl, g2⟩ := hE _ _ _ _ h2
                obtain ⟨d3, rfl, g3⟩ := hO _ _ _ _ _ _ h (.tern hl g1 g2)
                exact ⟨.question :: d1 ++ .colon :: d2 ++ d3, by simp [ht], by simpa using g3⟩
              · simp at h
            · simp at h
          · exact stop h
        · rw [if_neg ht] at h
          rcases hi : infix? t with _ | ⟨p, k⟩
          · rw [hi] at h
            exact stop h
          · rw [hi] at h
            simp only at h
            split at h
            · split at h
              · rename_i b t1 h1
                obtain ⟨d1, rfl, g1⟩ := hE _ _ _ _ h1
                obtain ⟨o, rfl, rfl⟩ := infix_op hi
                obtain ⟨d2, rfl, g2⟩ := hO _ _ _ _ _ _ h (.bin o hl g1)
                exact ⟨o.tok :: d1 ++ d2, by simp, by simpa using g2⟩
              · simp at h
            · exact stop h

theorem parseParams_sound (ts : List Tok) : ∀ xs ts', parseParams ts = some (xs, ts') →
    ts = commas (xs.map fun x => [Tok.id x]) ++ .rpar :: ts' ∧ xs ≠ [] := by
  induction ts using parseParams.induct with
  | case1 x ts =>
    intro xs ts' h
    rw [parseParams] at h
    simp only [Option.some.injEq, Prod.mk.injEq] at h
    obtain ⟨rfl, rfl⟩ := h
    simp [commas]
  | case2 x ts xs1 ts1 h1 ih =>
    intro xs ts' h
    rw [parseParams, h1] at h
    simp only [Option.some.injEq, Prod.mk.injEq] at h
    obtain ⟨rfl, rfl⟩ := h
    obtain ⟨rfl, hne⟩ := ih _ _ h1
    rcases xs1 with _ | ⟨y, xs1⟩
    · exact absurd rfl hne
    · simp [commas]
  | case3 x ts h1 ih =>
    intro xs ts' h
    rw [parseParams, h1] at h
    simp at h
  | case4 ts h1 h2 =>
    intro xs ts' h
    rw [parseParams] at h
    · simp at h
    · exact h1
    · exact h2

def SoundStmt (n : ℕ) : Prop :=
  (∀ ts e ts', parseStmt n ts = some (e, ts') → ∃ d, ts = d ++ ts' ∧ DerivesSt d e) ∧
  (∀ ts b ts', parseBody n ts = some (b, ts') → ∃ d, ts = d ++ .rbrace :: ts' ∧ DerivesBody d b)

theorem soundStmt (n : ℕ) : SoundStmt n := by
  induction n with
  | zero => constructor <;> intros <;> simp_all [parseStmt, parseBody]
  | succ n ih =>
    obtain ⟨hS, hB⟩ := ih
    constructor
    · intro ts e ts' h
      rw [parseStmt.eq_def] at h
      split at h
      · simp at h
      · rename_i k f u heq
        obtain rfl : n = k := Nat.succ.inj heq
        split at h
        · rename_i b t1 h1
          obtain ⟨d1, rfl, g1⟩ := hB _ _ _ h1
          simp only [Option.some.injEq, Prod.mk.injEq] at h
          obtain ⟨rfl, rfl⟩ := h
          exact ⟨_, by simp [commas], .define f [] g1⟩
        · simp at h
      · rename_i k f u hne heq
        obtain rfl : n = k := Nat.succ.inj heq
        split at h
        · rename_i xs t0 h0
          obtain ⟨rfl, -⟩ := parseParams_sound _ _ _ h0
          split at h
          · rename_i b t1 h1
            obtain ⟨d1, rfl, g1⟩ := hB _ _ _ h1
            simp only [Option.some.injEq, Prod.mk.injEq] at h
            obtain ⟨rfl, rfl⟩ := h
            exact ⟨_, by simp, .define f xs g1⟩
          · simp at h
        · simp at h
      · rename_i k heq h1 h2
        obtain rfl : n = k := Nat.succ.inj heq
        split at h
        · rename_i e1 t1 h3
          obtain ⟨d1, rfl, g1⟩ := (sound n).1 _ _ _ _ h3
          simp only [Option.some.injEq, Prod.mk.injEq] at h
          obtain ⟨rfl, rfl⟩ := h
          exact ⟨_, by simp, .expr g1⟩
        · simp at h
    · intro ts b ts' h
      rw [parseBody.eq_def] at h
      split at h
      · simp at h
      · simp only [Option.some.injEq, Prod.mk.injEq] at h
        obtain ⟨rfl, rfl⟩ := h
        exact ⟨[], by simp, .nil⟩
      · rename_i k heq hne
        obtain rfl : n = k := Nat.succ.inj heq
        split at h
        · rename_i e1 t1 h1
          obtain ⟨d1, rfl, g1⟩ := hS _ _ _ h1
          split at h
          · rename_i b1 t2 h2
            obtain ⟨d2, rfl, g2⟩ := hB _ _ _ h2
            simp only [Option.some.injEq, Prod.mk.injEq] at h
            obtain ⟨rfl, rfl⟩ := h
            exact ⟨_, by simp, .cons g1 g2⟩
          · simp at h
        · simp at h

end Pbc.Calc
