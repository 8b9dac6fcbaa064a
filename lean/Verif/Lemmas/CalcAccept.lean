import Verif.Lemmas.CalcParse

/-!
# Lemmas on the parser of the calculator: everything the grammar derives is accepted

The tokens of an expression are operands separated by operators; an operand is an atom with signs and assignments before
it.
-/

set_option autoImplicit false

namespace Pbc.Calc

open Spec.Calc

mutual

inductive Opnd : List Tok → Prop
  | num (n : ℕ) : Opnd [.num n]
  | list {ts : List Tok} : Items ts → Opnd (.lsqu :: ts ++ [.rsqu])
  | mol {ts : List Tok} : Mol ts → Opnd ts
  | item {a i : List Tok} : Mol a → Chain i → Opnd (a ++ .lsqu :: i ++ [.rsqu])
  | neg {a : List Tok} : Opnd a → Opnd (.minus :: a)
  | assign {a : List Tok} (x : String) : Opnd a → Opnd (.id x :: .assign :: a)

inductive Mol : List Tok → Prop
  | id (x : String) : Mol [.id x]
  | par {ts : List Tok} : Chain ts → Mol (.lpar :: ts ++ [.rpar])
  | call0 {f : List Tok} : Mol f → Mol (f ++ [.lpar, .rpar])
  | call {f ts : List Tok} : Mol f → Items ts → Mol (f ++ .lpar :: ts ++ [.rpar])

inductive Items : List Tok → Prop
  | one {ts : List Tok} : Chain ts → Items ts
  | cons {ts us : List Tok} : Chain ts → Items us → Items (ts ++ .comma :: us)

inductive Chain : List Tok → Prop
  | mk {a t : List Tok} : Opnd a → Tail t → Chain (a ++ t)

inductive Tail : List Tok → Prop
  | nil : Tail []
  | op {a t : List Tok} (o : Op) : Opnd a → Tail t → Tail (o.tok :: a ++ t)
  | tern {m a t : List Tok} : Chain m → Opnd a → Tail t → Tail (.question :: m ++ .colon :: a ++ t)

end

theorem Tail.append {t u : List Tok} (h : Tail t) (h' : Tail u) : Tail (t ++ u) := by
  match h with
  | .nil => exact h'
  | .op (a := a) (t := t) o ha ht =>
    have := Tail.op o ha (ht.append h')
    simpa using this
  | .tern (m := m) (a := a) (t := t) hm ha ht =>
    have := Tail.tern hm ha (ht.append h')
    simpa using this
termination_by t.length
decreasing_by
  all_goals simp_wf
  all_goals omega

mutual

theorem chain_of {ts : List Tok} {e : Expr} : Derives ts e → Chain ts
  | .num n => by simpa using Chain.mk (.num n) .nil
  | .list h => by simpa using Chain.mk (.list (items_of h)) .nil
  | .assign x h => by
    obtain ⟨ha, ht⟩ := chain_of h
    exact .mk (.assign x ha) ht
  | .tern hc ha hb => by
    obtain ⟨h1, h2⟩ := chain_of hc
    obtain ⟨h3, h4⟩ := chain_of hb
    have := Chain.mk h1 (h2.append (.tern (chain_of ha) h3 h4))
    simpa using this
  | .molecule h => by simpa using Chain.mk (.mol (mol_of h)) .nil
  | .item h h' => by simpa using Chain.mk (.item (mol_of h) (chain_of h')) .nil
  | .bin o ha hb => by
    obtain ⟨h1, h2⟩ := chain_of ha
    obtain ⟨h3, h4⟩ := chain_of hb
    have := Chain.mk h1 (h2.append (.op o h3 h4))
    simpa using this
  | .neg h => by
    obtain ⟨ha, ht⟩ := chain_of h
    exact .mk (.neg ha) ht

theorem mol_of {ts : List Tok} {e : Expr} : DerivesMol ts e → Mol ts
  | .id x => .id x
  | .par h => .par (chain_of h)
  | .call0 h => .call0 (mol_of h)
  | .call h h' => .call (mol_of h) (items_of h')

theorem items_of {ts : List Tok} {es : List Expr} : DerivesList ts es → Items ts
  | .one h => .one (chain_of h)
  | .cons h h' => .cons (chain_of h) (items_of h')

end

/-- What follows an expression that is complete. -/
def Closed (rest : List Tok) : Prop := ∀ k, Stop k rest

theorem Tail.stop {t rest : List Tok} (h : Tail t) (hr : Closed rest) : Stop 9 (t ++ rest) := by
  match h with
  | .nil => exact hr 9
  | .op o ha ht =>
    rintro t u ⟨⟩
    refine ⟨by cases o <;> simp [Op.tok], by cases o <;> simp [Op.tok], by cases o <;> simp [Op.tok],
      by cases o <;> simp [Op.tok], fun p j hp => ?_⟩
    rw [infix_tok] at hp
    simp only [Option.some.injEq, Prod.mk.injEq] at hp
    have : o.level ≤ 7 := by cases o <;> decide
    omega
  | .tern hm ha ht => rintro t u ⟨⟩; simp [infix?]

theorem Tail.eq_nil {t rest : List Tok} (h : Tail t) (hs : Stop 0 (t ++ rest)) : t = [] := by
  match h with
  | .nil => rfl
  | .op o ha ht =>
    have := (hs _ _ rfl).2.2.2.2 _ _ (infix_tok o)
    omega
  | .tern hm ha ht =>
    have := (hs _ _ rfl).2.2.1 rfl
    omega

structure Acc (N : ℕ) : Prop where
  mol : ∀ a, Mol a → a.length ≤ N → ∀ rest, (∀ u, rest ≠ .assign :: u) → ∃ e, ∀ r, PS e rest r → PP (a ++ rest) r
  tail : ∀ t, Tail t → t.length ≤ N → ∀ lev l rest, Closed rest →
    ∃ e t', Tail t' ∧ t'.length ≤ t.length ∧ Stop lev (t' ++ rest) ∧ PL lev l (t ++ rest) (e, t' ++ rest)
  opnd : ∀ a t, Opnd a → Tail t → (a ++ t).length ≤ N → ∀ lev rest, Closed rest →
    ∃ e t', Tail t' ∧ t'.length ≤ t.length ∧ Stop lev (t' ++ rest) ∧ PE lev (a ++ t ++ rest) (e, t' ++ rest)
  items : ∀ ts, Items ts → ts.length ≤ N → ∀ rest, Closed rest → (∀ v, rest ≠ .comma :: v) →
    ∃ es, PI (ts ++ rest) (es, rest)

theorem Acc.chain {N : ℕ} (h : Acc N) {ts : List Tok} (hc : Chain ts) (hl : ts.length ≤ N) {rest : List Tok}
    (hr : Closed rest) : ∃ e, PE 0 (ts ++ rest) (e, rest) := by
  obtain ⟨ha, ht⟩ := hc
  obtain ⟨e, t', h1, -, h3, h4⟩ := h.opnd _ _ ha ht hl 0 rest hr
  obtain rfl := h1.eq_nil h3
  exact ⟨e, by simpa using h4⟩

theorem closed_rpar {u : List Tok} : Closed (.rpar :: u) := fun _ => stop_rpar

theorem closed_rsqu {u : List Tok} : Closed (.rsqu :: u) := fun _ => stop_rsqu

theorem closed_colon {u : List Tok} : Closed (.colon :: u) := fun _ => stop_colon

theorem closed_comma {u : List Tok} : Closed (.comma :: u) := fun _ => stop_comma

theorem closed_term {u : List Tok} : Closed (.term :: u) := fun _ => stop_term

theorem acc (N : ℕ) : Acc N := by
  induction N using Nat.strong_induction_on with
  | _ N ih =>
    have hmol : ∀ a, Mol a → a.length ≤ N →
        ∀ rest, (∀ u, rest ≠ .assign :: u) → ∃ e, ∀ r, PS e rest r → PP (a ++ rest) r := by
      intro a ha hl rest hne
      match ha with
      | .id x => exact ⟨.id x, fun r hr => PP.id hr hne⟩
      | .par (ts := ts) h =>
        simp only [List.length_append, List.length_cons, List.length_nil] at hl
        obtain ⟨M, rfl⟩ : ∃ M, N = M + 1 := ⟨N - 1, by omega⟩
        obtain ⟨e, he⟩ := (ih M (by omega)).chain h (by omega) (closed_rpar (u := rest))
        refine ⟨e, fun r hr => ?_⟩
        simpa using PP.par he hr
      | .call0 (f := f) h =>
        simp only [List.length_append, List.length_cons, List.length_nil] at hl
        obtain ⟨M, rfl⟩ : ∃ M, N = M + 1 := ⟨N - 1, by omega⟩
        obtain ⟨e, he⟩ := (ih M (by omega)).mol f h (by omega) (.lpar :: .rpar :: rest) (by simp)
        refine ⟨.call e [], fun r hr => ?_⟩
        simpa using he r (PS.call0 hr)
      | .call (f := f) (ts := ts) h h' =>
        simp only [List.length_append, List.length_cons, List.length_nil] at hl
        obtain ⟨M, rfl⟩ : ∃ M, N = M + 1 := ⟨N - 1, by omega⟩
        obtain ⟨e, he⟩ := (ih M (by omega)).mol f h (by omega) (.lpar :: ts ++ .rpar :: rest) (by simp)
        obtain ⟨es, hes⟩ := (ih M (by omega)).items ts h' (by omega) (.rpar :: rest) closed_rpar (by simp)
        refine ⟨.call e es, fun r hr => ?_⟩
        simpa using he r (PS.call hes hr)
    have htail : ∀ t, Tail t → t.length ≤ N → ∀ lev l rest, Closed rest →
        ∃ e t', Tail t' ∧ t'.length ≤ t.length ∧ Stop lev (t' ++ rest) ∧ PL lev l (t ++ rest) (e, t' ++ rest) := by
      intro t ht hl lev l rest hr
      match ht with
      | .nil => exact ⟨l, [], .nil, le_refl _, hr lev, PL.stop (hr lev)⟩
      | .op (a := a) (t := t) o ha ht =>
        simp only [List.length_append, List.length_cons] at hl
        obtain ⟨M, rfl⟩ : ∃ M, N = M + 1 := ⟨N - 1, by omega⟩
        by_cases hlev : lev ≤ o.level
        · obtain ⟨b, t1, h1, h2, h3, h4⟩ := (ih M (by omega)).opnd a t ha ht
            (by simp only [List.length_append]; omega) (rightLevel o.level) rest hr
          obtain ⟨e, t2, g1, g2, g3, g4⟩ := (ih M (by omega)).tail t1 h1 (by omega) lev (.bin o.prim l b) rest hr
          refine ⟨e, t2, g1, by simp only [List.length_append, List.length_cons]; omega, g3, ?_⟩
          simpa using PL.op (infix_tok o) hlev h4 g4
        · have hs : Stop lev (o.tok :: a ++ t ++ rest) := by
            have := (Tail.op o ha ht).stop hr
            rintro t' u he
            obtain ⟨h1, h2, -, h4, -⟩ := this t' u he
            simp only [List.cons_append, List.cons.injEq] at he
            obtain ⟨rfl, -⟩ := he
            refine ⟨h1, h2, fun h => by cases o <;> simp [Op.tok] at h, h4, fun p j hp => ?_⟩
            rw [infix_tok] at hp
            simp only [Option.some.injEq, Prod.mk.injEq] at hp
            omega
          exact ⟨l, _, .op o ha ht, le_refl _, hs, PL.stop hs⟩
      | .tern (m := m) (a := a) (t := t) hm ha ht =>
        simp only [List.length_append, List.length_cons] at hl
        obtain ⟨M, rfl⟩ : ∃ M, N = M + 1 := ⟨N - 1, by omega⟩
        by_cases hlev : lev ≤ 1
        · obtain ⟨c, hc⟩ := (ih M (by omega)).chain hm (by omega) (closed_colon (u := a ++ t ++ rest))
          obtain ⟨b, t1, h1, h2, h3, h4⟩ := (ih M (by omega)).opnd a t ha ht
            (by simp only [List.length_append]; omega) 1 rest hr
          obtain ⟨e, t2, g1, g2, g3, g4⟩ := (ih M (by omega)).tail t1 h1 (by omega) lev (.tern l c b) rest hr
          refine ⟨e, t2, g1, by simp only [List.length_append, List.length_cons]; omega, g3, ?_⟩
          simpa using PL.tern hlev hc h4 g4
        · have hs : Stop lev (.question :: m ++ .colon :: a ++ t ++ rest) := by
            rintro t' u ⟨⟩
            simp only [infix?, reduceCtorEq, not_false_eq_true, ne_eq, true_and, false_implies, implies_true, and_true,
              true_implies]
            omega
          exact ⟨l, _, .tern hm ha ht, le_refl _, hs, PL.stop hs⟩
    have hopnd : ∀ a t, Opnd a → Tail t → (a ++ t).length ≤ N → ∀ lev rest, Closed rest →
        ∃ e t', Tail t' ∧ t'.length ≤ t.length ∧ Stop lev (t' ++ rest) ∧ PE lev (a ++ t ++ rest) (e, t' ++ rest) := by
      intro a t ha ht hl lev rest hr
      have hs := ht.stop hr
      match ha with
      | .num n =>
        simp only [List.length_append, List.length_cons, List.length_nil] at hl
        obtain ⟨e, t', h1, h2, h3, h4⟩ := htail t ht (by omega) lev (.num n) rest hr
        exact ⟨e, t', h1, h2, h3, PE.mk PP.num h4⟩
      | .list (ts := ts) h =>
        simp only [List.length_append, List.length_cons, List.length_nil] at hl
        obtain ⟨M, rfl⟩ : ∃ M, N = M + 1 := ⟨N - 1, by omega⟩
        obtain ⟨es, hes⟩ := (ih M (by omega)).items ts h (by omega) (.rsqu :: (t ++ rest)) closed_rsqu (by simp)
        obtain ⟨e, t', h1, h2, h3, h4⟩ := htail t ht (by omega) lev (.list es) rest hr
        exact ⟨e, t', h1, h2, h3, by simpa using PE.mk (PP.list hes) h4⟩
      | .mol h =>
        simp only [List.length_append] at hl
        obtain ⟨f, hf⟩ := hmol a h (by omega) (t ++ rest) (fun u he => (hs _ _ he).2.2.2.1 rfl)
        obtain ⟨e, t', h1, h2, h3, h4⟩ := htail t ht (by omega) lev f rest hr
        exact ⟨e, t', h1, h2, h3, by simpa using PE.mk (hf _ hs.ps) h4⟩
      | .item (a := a) (i := i) h h' =>
        simp only [List.length_append, List.length_cons, List.length_nil] at hl
        obtain ⟨M, rfl⟩ : ∃ M, N = M + 1 := ⟨N - 1, by omega⟩
        obtain ⟨f, hf⟩ := (ih M (by omega)).mol a h (by omega) (.lsqu :: (i ++ .rsqu :: (t ++ rest))) (by simp)
        obtain ⟨j, hj⟩ := (ih M (by omega)).chain h' (by omega) (closed_rsqu (u := t ++ rest))
        obtain ⟨e, t', h1, h2, h3, h4⟩ := htail t ht (by omega) lev (.bin .item f j) rest hr
        exact ⟨e, t', h1, h2, h3, by simpa using PE.mk (hf _ (PS.item hj)) h4⟩
      | .neg (a := a) h =>
        simp only [List.length_append, List.length_cons] at hl
        obtain ⟨M, rfl⟩ : ∃ M, N = M + 1 := ⟨N - 1, by omega⟩
        obtain ⟨b, t1, g1, g2, g3, g4⟩ := (ih M (by omega)).opnd a t h ht
          (by simp only [List.length_append]; omega) 6 rest hr
        obtain ⟨e, t', h1, h2, h3, h4⟩ := htail t1 g1 (by omega) lev (.neg b) rest hr
        exact ⟨e, t', h1, h2.trans g2, h3, by simpa using PE.mk (PP.neg g4) h4⟩
      | .assign (a := a) x h =>
        simp only [List.length_append, List.length_cons] at hl
        obtain ⟨M, rfl⟩ : ∃ M, N = M + 1 := ⟨N - 1, by omega⟩
        obtain ⟨b, t1, g1, g2, g3, g4⟩ := (ih M (by omega)).opnd a t h ht
          (by simp only [List.length_append]; omega) 4 rest hr
        obtain ⟨e, t', h1, h2, h3, h4⟩ := htail t1 g1 (by omega) lev (.assign x b) rest hr
        exact ⟨e, t', h1, h2.trans g2, h3, by simpa using PE.mk (PP.assign g4) h4⟩
    have hchain : ∀ ts, Chain ts → ts.length ≤ N → ∀ rest, Closed rest → ∃ e, PE 0 (ts ++ rest) (e, rest) := by
      rintro ts ⟨ha, ht⟩ hl rest hr
      obtain ⟨e, t', h1, -, h3, h4⟩ := hopnd _ _ ha ht hl 0 rest hr
      obtain rfl := h1.eq_nil h3
      exact ⟨e, by simpa using h4⟩
    refine ⟨hmol, htail, hopnd, ?_⟩
    intro ts h hl rest hr hc
    match h with
    | .one h =>
      obtain ⟨e, he⟩ := hchain _ h hl rest hr
      exact ⟨[e], PI.one he hc⟩
    | .cons (ts := ts) (us := us) h h' =>
      simp only [List.length_append, List.length_cons] at hl
      obtain ⟨M, rfl⟩ : ∃ M, N = M + 1 := ⟨N - 1, by omega⟩
      obtain ⟨e, he⟩ := (ih M (by omega)).chain h (by omega) (closed_comma (u := us ++ rest))
      obtain ⟨es, hes⟩ := (ih M (by omega)).items us h' (by omega) rest hr hc
      exact ⟨e :: es, by simpa using PI.cons he hes⟩

theorem accept {ts : List Tok} {e : Expr} (h : Derives ts e) {rest : List Tok} (hr : Closed rest) :
    ∃ e', PE 0 (ts ++ rest) (e', rest) := (acc ts.length).chain (chain_of h) (le_refl _) hr

mutual

theorem accept_stmt {ts : List Tok} {e : Expr} : DerivesSt ts e → ∀ rest, ∃ e', PSt (ts ++ rest) (e', rest)
  | .expr h, rest => by
    obtain ⟨e', he⟩ := accept h (closed_term (u := rest))
    exact ⟨e', by simpa using PSt.expr he⟩
  | .define f ps h, rest => by
    obtain ⟨b, hb⟩ := accept_body h rest
    exact ⟨_, by simpa using PSt.define (f := f) (ps := ps) hb⟩

theorem accept_body {ts : List Tok} {b : List Expr} : DerivesBody ts b → ∀ rest, ∃ b', PB (ts ++ .rbrace :: rest) (b', rest)
  | .nil, rest => ⟨[], PB.nil⟩
  | .cons (us := us) h h', rest => by
    obtain ⟨s, hs⟩ := accept_stmt h (us ++ .rbrace :: rest)
    obtain ⟨b', hb⟩ := accept_body h' rest
    exact ⟨s :: b', by simpa using PB.cons hs hb⟩

end

end Pbc.Calc
