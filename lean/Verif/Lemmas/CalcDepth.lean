import Verif.Model.Calc

/-!
# Lemmas on the depth of evaluation: a result does not depend on it
-/

set_option autoImplicit false

namespace Pbc.Calc

variable {Fd V : Type*}

/-- The same result, unless the first gave up. -/
def Upto {α : Type*} (r r' : Res Fd V α) : Prop := r = .deep ∨ r = r'

theorem Upto.refl {α : Type*} (r : Res Fd V α) : Upto r r := .inr rfl

theorem Upto.bind {α β : Type*} {r r' : Res Fd V α} {f f' : α → Res Fd V β} (h : Upto r r') (hf : ∀ a, Upto (f a) (f' a)) :
    Upto (r.bind f) (r'.bind f') := by
  rcases h with rfl | rfl
  · exact .inl rfl
  · cases r with
    | ok a => exact hf a
    | _ => exact .inr rfl

theorem Upto.orUb {α β : Type*} {x : Option α} {f f' : α → Res Fd V β} (hf : ∀ a, Upto (f a) (f' a)) :
    Upto (Pbc.Calc.orUb x f) (Pbc.Calc.orUb x f') := by
  cases x with
  | none => exact .inr rfl
  | some a => exact hf a

/-- One evaluator goes deeper than the other. -/
def Deeper (ev ev' : Eval Fd V) : Prop := ∀ s e, Upto (ev s e) (ev' s e)

variable {ev ev' : Eval Fd V}

theorem upto_args (h : Deeper ev ev') (p : Prim) (es : List Expr) : ∀ ts i s,
    Upto (builtinArgs ev p s i ts es) (builtinArgs ev' p s i ts es) := by
  induction es with
  | nil =>
    intro ts i s
    cases ts <;> exact .refl _
  | cons e es ih =>
    intro ts i s
    cases ts with
    | nil => exact .refl _
    | cons t ts =>
      rw [builtinArgs, builtinArgs]
      refine (h s e).bind fun a => .orUb fun q => .orUb fun v => ?_
      split
      · exact .refl _
      · exact (ih ts (i + 1) a.1).bind fun b => .refl _

theorem upto_params (h : Deeper ev ev') (es : List Expr) : ∀ xs s, Upto (bindParams ev s xs es) (bindParams ev' s xs es) := by
  induction es with
  | nil =>
    intro xs s
    cases xs <;> exact .refl _
  | cons e es ih =>
    intro xs s
    cases xs with
    | nil => exact .refl _
    | cons x xs => exact (h s e).bind fun a => ih xs _

theorem upto_body (h : Deeper ev ev') (es : List Expr) : ∀ s, Upto (runBody ev s es) (runBody ev' s es) := by
  induction es with
  | nil => exact fun s => .refl _
  | cons e es ih => exact fun s => (h s e).bind fun a => ih _

theorem upto_items (h : Deeper ev ev') (es : List Expr) : ∀ s, Upto (listItems ev s es) (listItems ev' s es) := by
  induction es with
  | nil => exact fun s => .refl _
  | cons e es ih =>
    intro s
    rw [listItems, listItems]
    refine (h s e).bind fun a => .orUb fun q => ?_
    dsimp only
    split
    · exact (ih _).bind fun b => .refl _
    all_goals exact .refl _

theorem upto_step (o : Ops Fd V) (h : Deeper ev ev') : Deeper (step o ev) (step o ev') := by
  intro s e
  cases e with
  | num n => exact .refl _
  | id x => exact .refl _
  | prim p => exact .refl _
  | assign x e => exact (h s e).bind fun a => .refl _
  | tern c a b =>
    refine (h s c).bind fun r => .orUb fun q => ?_
    split
    · split
      · exact h _ _
      · exact h _ _
    all_goals exact .refl _
  | call f as =>
    refine (h s f).bind fun r => .orUb fun q => ?_
    split
    · unfold callBuiltin
      split
      · exact .refl _
      · exact (upto_args h _ as _ _ _).bind fun b => .refl _
    · unfold callDef
      split
      · exact .refl _
      · exact (upto_params h as _ _).bind fun s => (upto_body h _ s).bind fun _ => .refl _
    · cases as with
      | nil => exact .refl _
      | cons e es => exact (h _ e).bind fun b => .refl _
    all_goals exact .refl _
  | list es => exact (upto_items h es s).bind fun a => .refl _
  | define f ps b => exact .refl _

theorem upto_succ (o : Ops Fd V) (n : ℕ) : Deeper (eval o n) (eval o (n + 1)) := by
  induction n with
  | zero => exact fun s e => .inl rfl
  | succ n ih => exact upto_step o ih

theorem upto_le (o : Ops Fd V) {n m : ℕ} (h : n ≤ m) : Deeper (eval o n) (eval o m) := by
  induction h with
  | refl => exact fun s e => .refl _
  | step _ ih =>
    intro s e
    rcases ih s e with h | h
    · exact .inl h
    · rw [h]
      exact upto_succ o _ s e

theorem eval_depth (o : Ops Fd V) {n m : ℕ} {s : State Fd V} {e : Expr} (h1 : eval o n s e ≠ .deep)
    (h2 : eval o m s e ≠ .deep) : eval o n s e = eval o m s e := by
  rcases le_total n m with h | h
  · rcases upto_le o h s e with h' | h'
    · exact absurd h' h1
    · exact h'
  · rcases upto_le o h s e with h' | h'
    · exact absurd h' h2
    · exact h'.symm

theorem upto_program (o : Ops Fd V) {n m : ℕ} (h : n ≤ m) (es : List Expr) : ∀ s,
    Upto (evalProgram o n s es) (evalProgram o m s es) := by
  induction es with
  | nil => exact fun s => .refl _
  | cons e es ih => exact fun s => ((upto_le o h s e).bind fun a => .refl _).bind fun s => ih s

end Pbc.Calc
