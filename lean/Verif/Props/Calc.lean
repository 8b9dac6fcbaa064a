import Verif.Lemmas.Calc
import Verif.Lemmas.CalcDepth
import Verif.Lemmas.CalcParse
import Mathlib.Tactic.NormNum
import Mathlib.Data.List.Nodup

/-!
# The calculator `pbc`: what programs compute (C117–C119)
-/

set_option autoImplicit false

namespace Pbc.Calc

open Spec.Calc (Env Clean NotAssign)

variable {Fd V : Type*}

/-- The value of a variable. -/
def State.value (s : State Fd V) (x : String) : Option (Val Fd V) := (s.tab x).bind fun p => s.heap[p]?

/-- Integers with addition, subtraction, multiplication and comparison, for examples. -/
def intOps : Ops Unit ℤ where
  ofNat n := n
  bin p x y := match p with | .add => some (x + y) | .sub => some (x - y) | .mul => some (x * y) | _ => none
  un p x := match p with | .neg => some (-x) | _ => none
  cmp x y := some (x - y)
  is0 x := x = 0
  is1 x := x = 1
  item _ _ := none
  list _ := none
  isM _ := true
  inM _ := true
  set0 _ := some 0
  set1 _ := some 1
  setMultiz _ x := some x
  toM x := some x
  order _ := none
  random _ n := some n
  pairing x y := some (x * y)
  zmod _ := none
  poly _ := none
  polymod _ := none
  fieldM := ()
  fieldZ := ()
  groups _ := ((), (), (), ())

/-! ### C117: variables hold values -/

/-- **C117.**  A program in which no argument and no item of a list is an assignment behaves as if variables held values:
the interpreter, which works on shared cells and changes operands in place, ends in the same way, with the same output and
the same variables. -/
theorem C117_by_value_partial (o : Ops Fd V) (n : ℕ) (prog : List Expr) (h : ∀ e ∈ prog, Clean e) :
    (evalProgram o n (State.start o) prog).bind (fun s => .ok (s.out, s.value)) =
      (Spec.Calc.program o n (Env.start o) prog).bind (fun g => .ok (g.out, g.vars)) := by
  have := sim_program o n prog h (rel_start o)
  generalize evalProgram o n (State.start o) prog = r at this ⊢
  generalize Spec.Calc.program o n (Env.start o) prog = r' at this ⊢
  cases this with
  | ok hr =>
    simp only [Res.bind]
    rw [hr.out, funext hr.vars]
    rfl
  | halt => rfl
  | ub => rfl
  | deep => rfl

/-- The program `x := 2; y := x; x := x + y; y` is one of these. -/
example : ∀ e ∈ [Expr.assign "x" (.num 2), .assign "y" (.id "x"), .assign "x" (.call (.prim .add) [.id "x", .id "y"]),
    .id "y"], Clean e := by
  simp [Clean, NotAssign]

/-- **C117.**  The bound on the depth does not matter: two runs that do not exceed it agree. -/
theorem C117_depth (o : Ops Fd V) (n m : ℕ) (prog : List Expr) (s : State Fd V) (hn : evalProgram o n s prog ≠ .deep)
    (hm : evalProgram o m s prog ≠ .deep) : evalProgram o n s prog = evalProgram o m s prog := by
  rcases le_total n m with h | h
  · exact (upto_program o h prog s).resolve_left hn
  · exact ((upto_program o h prog s).resolve_left hm).symm

theorem eval_id {o : Ops Fd V} {s : State Fd V} {a : String} {v : V} (n : ℕ) (hr : reserved o a = none)
    (h : s.value a = some (.elem v)) :
    eval o (n + 1) s (.id a) = .ok ({ s with heap := s.heap ++ [.elem v] }, some s.heap.length) := by
  unfold State.value at h
  rcases hp : s.tab a with _ | p
  · rw [hp] at h
    simp at h
  · rw [hp, Option.bind_some] at h
    simp only [eval, step, hr, hp, h, orUb, State.alloc]

/-- An operator with an assignment as its first operand: the state afterwards. -/
theorem eval_assign_operand {o : Ops Fd V} {s : State Fd V} {p : Prim} {x a b : String} {va vb : V} (n : ℕ)
    (hp : p.sig = [some .elem, some .elem]) (hx : reserved o x = none)
    (ha : reserved o a = none) (hb : reserved o b = none) (hxb : x ≠ b) (hva : s.value a = some (.elem va))
    (hvb : s.value b = some (.elem vb)) :
    eval o (n + 3) s (.call (.prim p) [.assign x (.id a), .id b]) =
      run o p { s with
        heap := s.heap ++ [.fn p] ++ [.elem va] ++ [.elem vb]
        tab := fun y => if y = x then some (s.heap.length + 1) else s.tab y } [s.heap.length + 1, s.heap.length + 2] := by
  have hval : ∀ {s : State Fd V} {y : String} {v w : Val Fd V}, s.value y = some v →
      State.value { s with heap := s.heap ++ [w] } y = some v := by
    intro s y v w h
    unfold State.value at h ⊢
    rcases hp : s.tab y with _ | q
    · rw [hp] at h
      simp at h
    · rw [hp, Option.bind_some] at h
      simp only [hp, Option.bind_some]
      have hq := List.getElem?_eq_some_iff.1 h
      rw [List.getElem?_append_left hq.1, h]
  have e0 : eval o (n + 2) s (.prim p) = .ok ({ s with heap := s.heap ++ [.fn p] }, some s.heap.length) := rfl
  have e1 : eval o (n + 2) { s with heap := s.heap ++ [.fn p] } (.assign x (.id a)) = .ok ({ s with
      heap := s.heap ++ [.fn p] ++ [.elem va]
      tab := fun y => if y = x then some (s.heap.length + 1) else s.tab y }, some (s.heap.length + 1)) := by
    have := eval_id (o := o) n ha (hval (w := .fn p) hva)
    rw [eval, step]
    simp only [this, Res.bind, hx, State.put]
    simp
  have e2 := eval_id (o := o) (s := { s with
      heap := s.heap ++ [.fn p] ++ [.elem va]
      tab := fun y => if y = x then some (s.heap.length + 1) else s.tab y }) (n + 1) hb (v := vb) (by
    have h1 := hval (w := .elem va) (hval (w := .fn p) hvb)
    unfold State.value at h1 ⊢
    simp only [if_neg (Ne.symm hxb)] at h1 ⊢
    exact h1)
  rw [eval, step]
  simp only [e0, Res.bind, orUb, List.getElem?_append_right (le_refl _), Nat.sub_self, List.getElem?_cons_zero]
  simp only [callBuiltin, hp, List.length_cons, List.length_nil, ne_eq, not_true_eq_false, if_false, builtinArgs, e1,
    Res.bind, orUb]
  have g1 : (s.heap ++ [.fn p] ++ [.elem va])[s.heap.length + 1]? = some (.elem va : Val Fd V) := by simp
  simp only [g1, Val.type, Option.isSome_some, not_true_eq_false, decide_false, Bool.and_false, Bool.false_eq_true,
    if_false, e2, Res.bind]
  have g2 : (s.heap ++ [.fn p] ++ [.elem va] ++ [.elem vb])[s.heap.length + 1 + 1]? = some (.elem vb : Val Fd V) := by
    have : (s.heap ++ [.fn p] ++ [.elem va] : List (Val Fd V)).length = s.heap.length + 1 + 1 := by simp
    rw [← this, List.getElem?_concat_length]
  simp [g2, Val.type]

/-- **C117.**  Not with an assignment as operand: after `(x := a) + b`, the variable `x` holds the sum (and likewise with
the other operators). -/
theorem C117_assign_operand_fails (o : Ops Fd V) (s : State Fd V) (p : Prim)
    (hp : p = .add ∨ p = .sub ∨ p = .mul ∨ p = .div ∨ p = .pow) (x a b : String) (va vb vc : V) (n : ℕ)
    (hx : reserved o x = none) (ha : reserved o a = none) (hb : reserved o b = none) (hxb : x ≠ b)
    (hva : s.value a = some (.elem va)) (hvb : s.value b = some (.elem vb)) (hc : o.bin p va vb = some vc) :
    ∃ s' q, eval o (n + 3) s (.call (.prim p) [.assign x (.id a), .id b]) = .ok (s', some q) ∧
      s'.value x = some (.elem vc) := by
  have hsig : p.sig = [some .elem, some .elem] := by
    rcases hp with rfl | rfl | rfl | rfl | rfl <;> rfl
  rw [eval_assign_operand n hsig hx ha hb hxb hva hvb]
  have h1 : ∀ t, State.elem { s with
        heap := s.heap ++ [.fn p] ++ [.elem va] ++ [.elem vb], tab := t } (s.heap.length + 1) = some va := by
    intro t
    simp [State.elem]
  have h2 : ∀ t, State.elem { s with
        heap := s.heap ++ [.fn p] ++ [.elem va] ++ [.elem vb], tab := t } (s.heap.length + 2) = some vb := by
    intro t
    simp [State.elem]
  have h3 : ∀ t : String → Option ℕ, t x = some (s.heap.length + 1) → State.value (State.write { s with
        heap := s.heap ++ [.fn p] ++ [.elem va] ++ [.elem vb], tab := t } (s.heap.length + 1) (.elem vc)) x =
          some (.elem vc) := by
    intro t ht
    simp only [State.value, State.write, ht, Option.bind_some]
    rw [List.getElem?_set_self (by simp)]
  rcases hp with rfl | rfl | rfl | rfl | rfl <;>
    · simp only [run, h1, h2, orUb, hc]
      exact ⟨_, _, rfl, h3 _ (by simp)⟩

/-- **C117.**  In particular `x := a == b`, which is read as `(x := a) == b`, leaves `0` or `1` in `x`. -/
theorem C117_assign_compare_fails (o : Ops Fd V) (s : State Fd V) (x a b : String) (va vb : V) (i : ℤ) (n : ℕ)
    (hx : reserved o x = none) (ha : reserved o a = none) (hb : reserved o b = none) (hxb : x ≠ b)
    (hva : s.value a = some (.elem va)) (hvb : s.value b = some (.elem vb)) (hc : o.cmp va vb = some i) :
    ∃ s' q, eval o (n + 3) s (.call (.prim .eq) [.assign x (.id a), .id b]) = .ok (s', some q) ∧
      s'.value x = some (.elem (o.ofNat (if i = 0 then 1 else 0))) := by
  rw [eval_assign_operand n rfl hx ha hb hxb hva hvb]
  have h1 : ∀ t, State.elem { s with
        heap := s.heap ++ [.fn .eq] ++ [.elem va] ++ [.elem vb], tab := t } (s.heap.length + 1) = some va := by
    intro t
    simp [State.elem]
  have h2 : ∀ t, State.elem { s with
        heap := s.heap ++ [.fn .eq] ++ [.elem va] ++ [.elem vb], tab := t } (s.heap.length + 2) = some vb := by
    intro t
    simp [State.elem]
  simp only [run, h1, h2, orUb, hc, cmpResult, decide_eq_true_eq]
  refine ⟨_, _, rfl, ?_⟩
  simp only [State.value, State.write, if_true, Option.bind_some]
  rw [List.getElem?_set_self (by simp)]

/-- With `a = 2` and `b = 3`, after `(x := a) + b` the variable `x` is `5`. -/
example : ∃ s : State Unit ℤ, s.value "a" = some (.elem 2) ∧ s.value "b" = some (.elem 3) ∧
    reserved intOps "x" = none ∧ reserved intOps "a" = none ∧ reserved intOps "b" = none ∧
    intOps.bin .add 2 3 = some 5 :=
  ⟨⟨[.elem 2, .elem 3], fun y => if y = "a" then some 0 else if y = "b" then some 1 else none, 0, []⟩,
    rfl, rfl, by simp [reserved], by simp [reserved], by simp [reserved], rfl⟩

/-! ### C118: functions of the user -/

/-- **C118.**  A call of a function of the user does what the assignments of the arguments to the parameters, from left to
right, and then the statements of the body would do, without printing; it has no value. -/
theorem C118_call_is_assignments (o : Ops Fd V) (n : ℕ) (s s0 : State Fd V) (f : Expr) (g : String) (ps : List String)
    (as b : List Expr) (q : ℕ) (hf : eval o n s f = .ok (s0, some q)) (hq : s0.heap[q]? = some (.defn g ps b))
    (hlen : ps.length = as.length) (hps : ∀ x ∈ ps, reserved o x = none)
    (h : runBody (eval o n) s0 (List.zipWith Expr.assign ps as ++ b) ≠ .deep) :
    eval o (n + 1) s (.call f as) =
      (runBody (eval o n) s0 (List.zipWith Expr.assign ps as ++ b)).bind fun s => .ok (s, none) := by
  have key : ∀ (ps : List String) (as : List Expr) (s : State Fd V), ps.length = as.length →
      (∀ x ∈ ps, reserved o x = none) → Upto (runBody (eval o n) s (List.zipWith Expr.assign ps as ++ b))
        ((bindParams (eval o n) s ps as).bind fun s => runBody (eval o n) s b) := by
    intro ps
    induction ps with
    | nil =>
      intro as s hl _
      cases as with
      | nil => exact .refl _
      | cons => simp at hl
    | cons x ps ih =>
      intro as s hl hps
      cases as with
      | nil => simp at hl
      | cons e as =>
        rw [List.zipWith_cons_cons, List.cons_append, runBody, bindParams]
        have h1 : Upto (eval o n s (.assign x e)) ((eval o n s e).bind fun a => .ok (a.1.put x a.2, a.2)) := by
          rcases n with _ | m
          · exact .inl rfl
          · refine (upto_succ o m s e).bind fun a => ?_
            simp only [hps x (by simp)]
            exact .refl _
        have h2 := h1.bind (f := fun a => runBody (eval o n) a.1 (List.zipWith Expr.assign ps as ++ b))
          (f' := fun a => (bindParams (eval o n) a.1 ps as).bind fun s => runBody (eval o n) s b)
          fun a => ih as a.1 (by simpa using hl) (fun y hy => hps y (by simp [hy]))
        rcases h2 with h2 | h2
        · exact .inl h2
        · refine .inr (h2.trans ?_)
          cases eval o n s e <;> rfl
  have h1 := (key ps as s0 hlen hps).resolve_left h
  rw [h1, eval, step]
  simp only [hf, Res.bind, orUb, hq, callDef, hlen, ne_eq, not_true_eq_false, if_false]
  cases bindParams (eval o n) s0 ps as <;> rfl

/-- The function is that of a variable, as made by `define f(x) { y := x; }`. -/
example : ∃ (s : State Unit ℤ) (q : ℕ), eval intOps 5 s (.id "f") = .ok (s, some q) ∧
    s.heap[q]? = some (.defn "f" ["x"] [.assign "y" (.id "x")]) ∧
    ∃ s', runBody (eval intOps 5) s (List.zipWith Expr.assign ["x"] [.num 7] ++ [.assign "y" (.id "x")]) = .ok s' ∧
      s'.value "y" = some (.elem 7) :=
  ⟨⟨[.defn "f" ["x"] [.assign "y" (.id "x")]], fun y => if y = "f" then some 0 else none, 0, []⟩, 0,
    by simp [eval, step, reserved, orUb], rfl,
    ⟨[.defn "f" ["x"] [.assign "y" (.id "x")], .elem 7, .elem 7],
      fun y => if y = "y" then some 2 else if y = "x" then some 1 else if y = "f" then some 0 else none, 0, []⟩,
    by simp [eval, step, runBody, Res.bind, State.alloc, State.put, reserved, orUb, intOps], by simp [State.value]⟩

/-- **C118.**  So parameters are not local: after a call of a function with an empty body the parameter keeps the value of the
argument, whatever it was before. -/
theorem C118_parameters_fails (o : Ops Fd V) (n : ℕ) (s s0 s1 : State Fd V) (f e : Expr) (g x : String) (q r : ℕ)
    (v : Val Fd V) (hf : eval o n s f = .ok (s0, some q)) (hq : s0.heap[q]? = some (.defn g [x] []))
    (he : eval o n s0 e = .ok (s1, some r)) (hr : s1.heap[r]? = some v) :
    ∃ s', eval o (n + 1) s (.call f [e]) = .ok (s', none) ∧ s'.value x = some v := by
  refine ⟨s1.put x (some r), ?_, by simp [State.value, State.put, hr]⟩
  rw [eval, step]
  simp [hf, Res.bind, orUb, hq, callDef, bindParams, he, runBody]

/-- **C118.**  And a later argument sees the new value of an earlier parameter: in `f(e, x)` the second argument is that of
`e`, where `x` is the first parameter. -/
theorem C118_arguments_fails (o : Ops Fd V) (n : ℕ) (s s0 s1 : State Fd V) (f e : Expr) (g x y : String) (q r : ℕ)
    (v : V) (hx : reserved o x = none) (hf : eval o (n + 1) s f = .ok (s0, some q))
    (hq : s0.heap[q]? = some (.defn g [x, y] [])) (he : eval o (n + 1) s0 e = .ok (s1, some r))
    (hr : s1.heap[r]? = some (.elem v)) :
    ∃ s', eval o (n + 2) s (.call f [e, .id x]) = .ok (s', none) ∧ s'.value y = some (.elem v) := by
  have h1 := eval_id (o := o) (s := s1.put x (some r)) (v := v) n hx (by simp [State.value, State.put, hr])
  have h2 : eval o (n + 2) s (.call f [e, .id x]) = .ok (State.put { s1.put x (some r) with
      heap := (s1.put x (some r)).heap ++ [.elem v] } y (some (s1.put x (some r)).heap.length), none) := by
    rw [eval, step]
    simp only [hf, Res.bind, orUb, hq, callDef, bindParams, he, runBody, h1, List.length_cons, List.length_nil, ne_eq,
      not_true_eq_false, if_false]
  exact ⟨_, h2, by simp [State.value, State.put]⟩

/-- **C118.**  A call of a function of the user never has a value: as an operand of a built-in function or of an operator,
it reads through a null pointer. -/
theorem C118_no_value_fails (o : Ops Fd V) (n : ℕ) (s s0 : State Fd V) (f : Expr) (g : String) (ps : List String)
    (as b : List Expr) (q : ℕ) (hf : eval o n s f = .ok (s0, some q)) (hq : s0.heap[q]? = some (.defn g ps b))
    (hlen : ps.length = as.length) :
    (∀ s' r, eval o (n + 1) s (.call f as) = .ok (s', r) → r = none) ∧
    (∀ p t ts i es s', eval o (n + 1) s (.call f as) = .ok (s', none) →
      builtinArgs (eval o (n + 1)) p s i (t :: ts) (.call f as :: es) = .ub) := by
  constructor
  · intro s' r h
    rw [eval, step] at h
    simp only [hf, Res.bind, orUb, hq, callDef, hlen, ne_eq, not_true_eq_false, if_false] at h
    cases h1 : bindParams (eval o n) s0 ps as with
    | ok s1 =>
      simp only [h1] at h
      cases h2 : runBody (eval o n) s1 b with
      | ok s2 =>
        simp only [h2, Res.ok.injEq, Prod.mk.injEq] at h
        exact h.2.symm
      | _ => simp [h2] at h
    | _ => simp [h1] at h
  · intro p t ts i es s' h
    simp only [builtinArgs, h, Res.bind, orUb]

/-- **C118.**  `x := f(…)` makes `x` undefined, whatever it held. -/
theorem C118_assign_result_fails (o : Ops Fd V) (n : ℕ) (s s' : State Fd V) (f : Expr) (as : List Expr) (x : String)
    (hx : reserved o x = none) (h : eval o n s (.call f as) = .ok (s', none)) :
    ∃ s'', eval o (n + 1) s (.assign x (.call f as)) = .ok (s'', none) ∧ s''.value x = none := by
  refine ⟨s'.put x none, ?_, by simp [State.value, State.put]⟩
  rw [eval, step]
  simp [h, Res.bind, hx]

/-! ### C119: built-in functions and reserved names -/

/-- **C119.**  With a wrong number of arguments a built-in function gives an error, and no argument is evaluated. -/
theorem C119_arity (o : Ops Fd V) (n : ℕ) (s : State Fd V) (p : Prim) (as : List Expr) (h : as.length ≠ p.sig.length) :
    ∃ s' q, eval o (n + 2) s (.call (.prim p) as) = .ok (s', some q) ∧
      s'.heap[q]? = some (.err (errMsg (p.name ++ ": wrong number of arguments"))) ∧
      s'.tab = s.tab ∧ s'.out = s.out ∧ s'.rng = s.rng ∧ (∀ i, i < s.heap.length → s'.heap[i]? = s.heap[i]?) := by
  rw [eval, step]
  simp only [eval, step, State.alloc, Res.bind, orUb, List.getElem?_append_right (le_refl _), Nat.sub_self,
    List.getElem?_cons_zero, callBuiltin, if_pos (Ne.symm h)]
  refine ⟨_, _, rfl, by simp, rfl, rfl, rfl, fun i hi => ?_⟩
  rw [List.append_assoc, List.getElem?_append_left hi]

example : [Expr.num 1].length ≠ Prim.pairing.sig.length := by decide

/-- **C119.**  An argument of the wrong type gives an error that names it; the arguments after it are not evaluated. -/
theorem C119_type_mismatch (o : Ops Fd V) (n : ℕ) (p : Prim) (s s' : State Fd V) (i : ℕ) (t : VType)
    (ts : List (Option VType)) (e : Expr) (es : List Expr) (q : ℕ) (v : Val Fd V)
    (he : eval o n s e = .ok (s', some q)) (hv : s'.heap[q]? = some v) (ht : v.type ≠ t) :
    builtinArgs (eval o n) p s i (some t :: ts) (e :: es) =
      .ok (s', .inr (.err (errMsg (p.name ++ ": argument " ++ toString (i + 1) ++ " type mismatch")))) := by
  simp [builtinArgs, he, Res.bind, orUb, hv, Ne.symm ht]

/-- A reserved name. -/
theorem eval_reserved {o : Ops Fd V} {x : String} {v : Val Fd V} (n : ℕ) (s : State Fd V) (h : reserved o x = some v) :
    ∃ s' q, eval o (n + 1) s (.id x) = .ok (s', some q) ∧ s'.heap[q]? = some v ∧ s'.tab = s.tab := by
  simp only [eval, step, h, State.alloc]
  exact ⟨_, _, rfl, by simp, rfl⟩

/-- **C119.**  A reserved name keeps its meaning whatever the program does: in every state it evaluates to the built-in value. -/
theorem C119_reserved (o : Ops Fd V) (x : String) (v : Val Fd V) (h : reserved o x = some v) (n : ℕ) (s : State Fd V) :
    ∃ s' q, eval o (n + 1) s (.id x) = .ok (s', some q) ∧ s'.heap[q]? = some v := by
  obtain ⟨s', q, h1, h2, -⟩ := eval_reserved n s h
  exact ⟨s', q, h1, h2⟩

/-- **C119.**  An assignment to a reserved name is an error and changes no variable (beyond what its right side changes). -/
theorem C119_assign_reserved (o : Ops Fd V) (x : String) (v : Val Fd V) (h : reserved o x = some v) (n : ℕ)
    (s s1 : State Fd V) (e : Expr) (r : Option ℕ) (he : eval o n s e = .ok (s1, r)) :
    ∃ s' q, eval o (n + 1) s (.assign x e) = .ok (s', some q) ∧
      s'.heap[q]? = some (.err (errMsg (x ++ " is reserved"))) ∧ s'.tab = s1.tab := by
  rw [eval, step]
  simp only [he, Res.bind, h, State.alloc]
  exact ⟨_, _, rfl, by simp, rfl⟩

example : reserved intOps "pairing" = some (.fn .pairing) := by simp [reserved]

/-- **C119.**  `define` of a reserved name reports no error, though the function can never be called by that name. -/
theorem C119_define_reserved_fails (o : Ops Fd V) (x : String) (v : Val Fd V) (h : reserved o x = some v) (n : ℕ)
    (s : State Fd V) (ps : List String) (b : List Expr) :
    ∃ s' q, eval o (n + 1) s (.define x ps b) = .ok (s', some q) ∧ s'.heap[q]? = some (.defn x ps b) ∧
      ∃ s'' q', eval o (n + 1) s' (.id x) = .ok (s'', some q') ∧ s''.heap[q']? = some v := by
  refine ⟨_, _, rfl, by simp, ?_⟩
  obtain ⟨s', q, h1, h2, -⟩ := eval_reserved n _ h
  exact ⟨s', q, h1, h2⟩

/-- **C119.**  `extend` never works: with one argument, as it is declared, a field, the second argument is read beyond the
end of the array; with any other number of arguments it gives an error. -/
theorem C119_extend_fails (o : Ops Fd V) (n : ℕ) (s : State Fd V) (as : List Expr) (s' : State Fd V) (q : ℕ)
    (h : eval o n s (.call (.id "extend") as) = .ok (s', some q)) : ∃ m, s'.heap[q]? = some (.err m) := by
  rcases n with _ | _ | n
  · cases h
  · cases h
  · rw [eval, step] at h
    simp only [eval, step, show reserved o "extend" = some (.fn .extend) by simp [reserved], State.alloc, Res.bind, orUb,
      List.getElem?_append_right (le_refl _), Nat.sub_self, List.getElem?_cons_zero, callBuiltin] at h
    split at h
    · simp only [Res.ok.injEq, Prod.mk.injEq, Option.some.injEq] at h
      obtain ⟨rfl, rfl⟩ := h
      exact ⟨_, by rw [List.getElem?_concat_length]⟩
    · split at h
      · rename_i a ha
        obtain ⟨s1, qs | e⟩ := a
        · simp only [run] at h
          cases h
        · simp only [State.alloc] at h
          have hargs : ∀ (es : List Expr) (ts : List (Option VType)) (i : ℕ) (s s1 : State Fd V) (e : Val Fd V),
              builtinArgs (eval o (n + 1)) .extend s i ts es = .ok (s1, .inr e) → ∃ m, e = .err m := by
            intro es
            induction es with
            | nil =>
              intro ts i s s1 e h
              cases ts <;> simp [builtinArgs] at h
            | cons a es ih =>
              intro ts i s s1 e h
              cases ts with
              | nil => simp [builtinArgs] at h
              | cons t ts =>
                rw [builtinArgs] at h
                cases h1 : eval o (n + 1) s a with
                | ok r =>
                  obtain ⟨s2, _ | q⟩ := r
                  · simp [h1, Res.bind, orUb] at h
                  · simp only [h1, Res.bind, orUb] at h
                    split at h
                    · split at h
                      · simp only [Res.ok.injEq, Prod.mk.injEq, Sum.inr.injEq] at h
                        exact ⟨_, h.2.symm⟩
                      · split at h
                        · rename_i b hb
                          obtain ⟨s3, qs | e'⟩ := b
                          · simp at h
                          · simp only [Res.ok.injEq, Prod.mk.injEq, Sum.inr.injEq] at h
                            obtain ⟨m, hm⟩ := ih _ _ _ _ _ hb
                            exact ⟨m, h.2.symm.trans hm⟩
                        all_goals simp at h
                    · simp at h
                | _ => simp [h1, Res.bind] at h
          obtain ⟨m, hm⟩ := hargs _ _ _ _ _ _ ha
          simp only [Res.ok.injEq, Prod.mk.injEq, Option.some.injEq] at h
          obtain ⟨rfl, rfl⟩ := h
          exact ⟨m, by rw [List.getElem?_concat_length, hm]⟩
      all_goals cases h

/-- **C119.**  A field used as a function converts from and to `M` only: an element of any other field is returned as it is,
still in its own field. -/
theorem C119_cast_fails (o : Ops Fd V) (n : ℕ) (s s' : State Fd V) (f : Fd) (e : Expr) (es : List Expr) (q : ℕ) (x : V)
    (he : eval o n s e = .ok (s', some q)) (hv : s'.heap[q]? = some (.elem x)) (hx : o.inM x = false)
    (hf : o.isM f = false) : castTo o (eval o n) s f (e :: es) = .ok (s', some q) := by
  simp [castTo, he, Res.bind, orUb, State.elem, hv, hx, hf]

/-- The relation that an operator stands for. -/
def relation : Prim → Option (ℤ → Prop)
  | .eq => some (· = 0) | .ne => some (· ≠ 0) | .le => some (· ≤ 0) | .ge => some (0 ≤ ·) | .lt => some (· < 0)
  | .gt => some (0 < ·)
  | _ => none

/-- **C119.**  A comparison gives `1` in `M` if the order of the two elements is as the operator says, else `0`. -/
theorem C119_comparison (o : Ops Fd V) (p : Prim) (R : ℤ → Prop) (hp : relation p = some R) (s : State Fd V) (a b : ℕ)
    (x y : V) (i : ℤ) (ha : s.elem a = some x) (hb : s.elem b = some y) (hi : o.cmp x y = some i) :
    ∃ s', run o p s [a, b] = .ok (s', some a) ∧ (R i → s'.elem a = some (o.ofNat 1)) ∧
      (¬ R i → s'.elem a = some (o.ofNat 0)) := by
  have hlt : a < s.heap.length := by
    by_contra h
    simp [State.elem, List.getElem?_eq_none (not_lt.1 h)] at ha
  have hw : ∀ v : V, (s.write a (.elem v)).elem a = some v := by
    intro v
    simp only [State.elem, State.write]
    rw [List.getElem?_set_self hlt]
  cases p <;> simp only [relation, Option.some.injEq, reduceCtorEq] at hp <;> subst hp <;>
    · simp only [run, ha, hb, hi, orUb]
      refine ⟨_, rfl, fun h => ?_, fun h => ?_⟩ <;> rw [hw] <;> simp [cmpResult, h]
      try omega

/-- The operations are all defined. -/
structure Total (o : Ops Fd V) : Prop where
  bin : ∀ p x y, (o.bin p x y).isSome
  un : ∀ p x, (o.un p x).isSome
  cmp : ∀ x y, (o.cmp x y).isSome
  item : ∀ x y, (o.item x y).isSome
  pairing : ∀ x y, (o.pairing x y).isSome
  random : ∀ f n, (o.random f n).isSome
  order : ∀ f, (o.order f).isSome
  poly : ∀ f, (o.poly f).isSome
  zmod : ∀ x, (o.zmod x).isSome
  polymod : ∀ x, (o.polymod x).isSome

theorem orUb_ne {α β : Type*} {z : Option α} (h : z.isSome) {f : α → Res Fd V β} (hf : ∀ a, f a ≠ .ub) :
    orUb z f ≠ .ub := by
  obtain ⟨a, rfl⟩ := Option.isSome_iff_exists.1 h
  exact hf a

/-- **C119.**  The check of the types is enough: with arguments that have passed it, every built-in function except `extend`
finds the values it reads, so it is undefined only where an operation on elements is. -/
theorem C119_type_safe (o : Ops Fd V) (ho : Total o) (p : Prim) (hp : p ≠ .extend) (s : State Fd V) (qs : List ℕ)
    (h : List.Forall₂ (fun q t => ∃ v, s.heap[q]? = some v ∧ (t = none ∨ t = some v.type)) qs p.sig) :
    run o p s qs ≠ .ub := by
  have he : ∀ {q : ℕ}, (∃ v, s.heap[q]? = some v ∧ ((some VType.elem : Option VType) = none ∨ some VType.elem = some v.type)) →
      ∃ x, s.elem q = some x := by
    rintro q ⟨v, hv, h | h⟩
    · cases h
    · cases v <;> simp [Val.type] at h
      exact ⟨_, by simp [State.elem, hv]; rfl⟩
  have hfd : ∀ {q : ℕ}, (∃ v, s.heap[q]? = some v ∧ ((some VType.field : Option VType) = none ∨ some VType.field = some v.type)) →
      ∃ x, s.field q = some x := by
    rintro q ⟨v, hv, h | h⟩
    · cases h
    · cases v <;> simp [Val.type] at h
      exact ⟨_, by simp [State.field, hv]; rfl⟩
  cases p <;> simp only [Prim.sig] at h
  all_goals first | exact absurd rfl hp | skip
  case init t =>
    cases h
    simp [run]
  case type =>
    obtain _ | ⟨⟨v, hv, -⟩, _ | _⟩ := h
    simp [run, hv, orUb]
  case rnd | random =>
    obtain _ | ⟨h1, _ | _⟩ := h
    obtain ⟨x, hx⟩ := hfd h1
    obtain ⟨z, hz⟩ := Option.isSome_iff_exists.1 (ho.random x s.rng)
    simp [run, hx, hz, orUb, State.alloc]
  case ord | order =>
    obtain _ | ⟨h1, _ | _⟩ := h
    obtain ⟨x, hx⟩ := hfd h1
    obtain ⟨z, hz⟩ := Option.isSome_iff_exists.1 (ho.order x)
    simp [run, hx, hz, orUb, State.alloc]
  case poly =>
    obtain _ | ⟨h1, _ | _⟩ := h
    obtain ⟨x, hx⟩ := hfd h1
    obtain ⟨z, hz⟩ := Option.isSome_iff_exists.1 (ho.poly x)
    simp [run, hx, hz, orUb, State.alloc]
  case zmod =>
    obtain _ | ⟨h1, _ | _⟩ := h
    obtain ⟨x, hx⟩ := he h1
    obtain ⟨z, hz⟩ := Option.isSome_iff_exists.1 (ho.zmod x)
    simp [run, hx, hz, orUb, State.alloc]
  case polymod =>
    obtain _ | ⟨h1, _ | _⟩ := h
    obtain ⟨x, hx⟩ := he h1
    obtain ⟨z, hz⟩ := Option.isSome_iff_exists.1 (ho.polymod x)
    simp [run, hx, hz, orUb, State.alloc]
  case check =>
    obtain _ | ⟨h1, _ | _⟩ := h
    obtain ⟨x, hx⟩ := he h1
    simp only [run, hx, orUb]
    split <;> simp
  case exit =>
    obtain _ | ⟨h1, _ | _⟩ := h
    obtain ⟨x, hx⟩ := he h1
    simp [run, hx, orUb]
  case neg | nextprime | sqrt | inv =>
    obtain _ | ⟨h1, _ | _⟩ := h
    obtain ⟨x, hx⟩ := he h1
    simp only [run, hx]
    exact orUb_ne (ho.un _ x) (by simp)
  case item =>
    obtain _ | ⟨h1, _ | ⟨h2, _ | _⟩⟩ := h
    obtain ⟨x, hx⟩ := he h1
    obtain ⟨y, hy⟩ := he h2
    obtain ⟨z, hz⟩ := Option.isSome_iff_exists.1 (ho.item x y)
    simp [run, hx, hy, hz, orUb, State.alloc]
  case pairing =>
    obtain _ | ⟨h1, _ | ⟨h2, _ | _⟩⟩ := h
    obtain ⟨x, hx⟩ := he h1
    obtain ⟨y, hy⟩ := he h2
    obtain ⟨z, hz⟩ := Option.isSome_iff_exists.1 (ho.pairing x y)
    simp [run, hx, hy, hz, orUb, State.alloc]
  case add | sub | mul | div | pow =>
    obtain _ | ⟨h1, _ | ⟨h2, _ | _⟩⟩ := h
    obtain ⟨x, hx⟩ := he h1
    obtain ⟨y, hy⟩ := he h2
    simp only [run, hx, hy]
    exact orUb_ne (ho.bin _ x y) (by simp)
  all_goals
    obtain _ | ⟨h1, _ | ⟨h2, _ | _⟩⟩ := h
    obtain ⟨x, hx⟩ := he h1
    obtain ⟨y, hy⟩ := he h2
    obtain ⟨z, hz⟩ := Option.isSome_iff_exists.1 (ho.cmp x y)
    simp [run, hx, hy, hz, orUb]

/-- Two elements for an operator. -/
example : List.Forall₂ (fun q t => ∃ v, ([.elem 2, .elem 3] : List (Val Unit ℤ))[q]? = some v ∧
    (t = none ∨ t = some v.type)) [0, 1] Prim.add.sig :=
  .cons ⟨.elem 2, rfl, .inr rfl⟩ (.cons ⟨.elem 3, rfl, .inr rfl⟩ .nil)

/-- **C119.**  `type` prints the name of the type of any value and returns the value. -/
theorem C119_type (o : Ops Fd V) (n : ℕ) (s s' : State Fd V) (e : Expr) (q : ℕ) (v : Val Fd V)
    (he : eval o (n + 1) { s with heap := s.heap ++ [.fn .type] } e = .ok (s', some q)) (hv : s'.heap[q]? = some v) :
    eval o (n + 2) s (.call (.prim .type) [e]) = .ok ({ s' with out := s'.out ++ [.typeName v.type] }, some q) := by
  have e0 : eval o (n + 1) s (.prim .type) = .ok ({ s with heap := s.heap ++ [.fn .type] }, some s.heap.length) := rfl
  rw [eval, step]
  simp only [e0, Res.bind, orUb, List.getElem?_concat_length]
  simp [callBuiltin, Prim.sig, builtinArgs, he, Res.bind, orUb, hv, run]

/-! ### Output is only added to -/

/-- However it ends, what was printed before comes first. -/
def Grows {α : Type*} (l : List (Printed Fd V)) (out : α → List (Printed Fd V)) : Res Fd V α → Prop
  | .ok a => l <+: out a
  | .halt o _ => l <+: o
  | .ub => True
  | .deep => True

theorem Grows.mono {α : Type*} {l l' : List (Printed Fd V)} {out : α → List (Printed Fd V)} {r : Res Fd V α}
    (h : Grows l' out r) (hl : l <+: l') : Grows l out r := by
  cases r with
  | ok a => exact hl.trans h
  | halt o b => exact hl.trans h
  | ub => trivial
  | deep => trivial

theorem Grows.bind {α β : Type*} {l : List (Printed Fd V)} {out : α → List (Printed Fd V)}
    {out' : β → List (Printed Fd V)} {r : Res Fd V α} {f : α → Res Fd V β} (h : Grows l out r)
    (hf : ∀ a, Grows (out a) out' (f a)) : Grows l out' (r.bind f) := by
  cases r with
  | ok a => exact (hf a).mono h
  | halt o b => exact h
  | ub => trivial
  | deep => trivial

theorem Grows.orUb {α β : Type*} {l : List (Printed Fd V)} {out : β → List (Printed Fd V)} {x : Option α}
    {f : α → Res Fd V β} (hf : ∀ a, Grows l out (f a)) : Grows l out (orUb x f) := by
  cases x with
  | none => trivial
  | some a => exact hf a

theorem grows_ok {α : Type*} {l : List (Printed Fd V)} {out : α → List (Printed Fd V)} {a : α} (h : out a = l) :
    Grows l out (.ok a : Res Fd V α) := by
  show l <+: out a
  rw [h]
  exact List.prefix_refl l

theorem grows_run (o : Ops Fd V) (p : Prim) (s : State Fd V) (args : List ℕ) :
    Grows s.out (fun a => a.1.out) (run o p s args) := by
  unfold run
  split <;> first
    | exact .orUb fun _ => .orUb fun _ => .orUb fun _ => grows_ok rfl
    | exact .orUb fun _ => .orUb fun _ => grows_ok rfl
    | exact .orUb fun _ => show s.out <+: s.out ++ _ from List.prefix_append _ _
    | exact .orUb fun _ => List.prefix_refl _
    | exact grows_ok rfl
    | trivial
    | skip
  · refine .orUb fun x => ?_
    split
    · exact List.prefix_refl _
    · exact grows_ok rfl

section
variable {ev : Eval Fd V} (hev : ∀ s e, Grows s.out (fun a => a.1.out) (ev s e))
include hev

theorem grows_builtinArgs (p : Prim) : (ts : List (Option VType)) → (s : State Fd V) → (i : ℕ) → (es : List Expr) →
    Grows s.out (fun a => a.1.out) (builtinArgs ev p s i ts es)
  | [], s, i, es => by simp only [builtinArgs]; exact grows_ok rfl
  | t :: ts, s, i, [] => by simp only [builtinArgs]; exact grows_ok rfl
  | t :: ts, s, i, e :: es => by
    simp only [builtinArgs]
    refine (hev s e).bind fun (s, r) => .orUb fun q => .orUb fun v => ?_
    split
    · exact grows_ok rfl
    · refine (grows_builtinArgs p ts s (i + 1) es).bind fun (s, r) => ?_
      cases r <;> exact grows_ok rfl

theorem grows_bindParams : (xs : List String) → (s : State Fd V) → (es : List Expr) →
    Grows s.out (fun a => a.out) (bindParams ev s xs es)
  | [], s, es => by simp only [bindParams]; exact grows_ok rfl
  | x :: xs, s, [] => by simp only [bindParams]; exact grows_ok rfl
  | x :: xs, s, e :: es => by
    simp only [bindParams]
    exact (hev s e).bind fun (s, r) => grows_bindParams xs (s.put x r) es

theorem grows_runBody : (es : List Expr) → (s : State Fd V) → Grows s.out (fun a => a.out) (runBody ev s es)
  | [], s => by simp only [runBody]; exact grows_ok rfl
  | e :: es, s => by
    simp only [runBody]
    exact (hev s e).bind fun (s, _) => grows_runBody es s

theorem grows_listItems : (es : List Expr) → (s : State Fd V) →
    Grows s.out (fun a => a.1.out) (listItems ev s es)
  | [], s => by simp only [listItems]; exact grows_ok rfl
  | e :: es, s => by
    simp only [listItems]
    refine (hev s e).bind fun (s, r) => .orUb fun q => ?_
    split
    · refine (grows_listItems es s).bind fun (s, r) => ?_
      cases r <;> exact grows_ok rfl
    · exact grows_ok rfl
    · exact grows_ok rfl
    · trivial

theorem grows_step (o : Ops Fd V) (s : State Fd V) (e : Expr) : Grows s.out (fun a => a.1.out) (step o ev s e) := by
  unfold step
  split
  · exact grows_ok rfl
  · split
    · exact grows_ok rfl
    · split
      · exact grows_ok rfl
      · refine .orUb fun v => ?_
        split <;> exact grows_ok rfl
  · exact grows_ok rfl
  · refine (hev _ _).bind fun (s, r) => ?_
    dsimp only
    split <;> exact grows_ok rfl
  · refine (hev _ _).bind fun (s, r) => .orUb fun q => ?_
    split
    · split <;> exact hev _ _
    · exact grows_ok rfl
    · exact grows_ok rfl
    · trivial
  · refine (hev _ _).bind fun (s, r) => .orUb fun q => ?_
    split
    · unfold callBuiltin
      split
      · exact grows_ok rfl
      · refine (grows_builtinArgs hev _ _ s _ _).bind fun (s, r) => ?_
        cases r with
        | inl qs => exact grows_run o _ s qs
        | inr err => exact grows_ok rfl
    · unfold callDef
      split
      · exact grows_ok rfl
      · exact (grows_bindParams hev _ s _).bind fun s => (grows_runBody hev _ s).bind fun s => grows_ok rfl
    · unfold castTo
      split
      · trivial
      · refine (hev _ _).bind fun (s, r) => .orUb fun q => .orUb fun x => ?_
        split
        · split
          · exact grows_ok rfl
          · exact .orUb fun _ => grows_ok rfl
        · split
          · exact .orUb fun _ => grows_ok rfl
          · exact grows_ok rfl
    · exact grows_ok rfl
    · trivial
  · refine (grows_listItems hev _ s).bind fun (s, r) => ?_
    cases r with
    | inl vs => exact .orUb fun _ => grows_ok rfl
    | inr q => exact grows_ok rfl
  · exact grows_ok rfl

end

theorem grows_eval (o : Ops Fd V) : (n : ℕ) → (s : State Fd V) → (e : Expr) →
    Grows s.out (fun a => a.1.out) (eval o n s e)
  | 0, _, _ => trivial
  | n + 1, s, e => grows_step (grows_eval o n) o s e

/-- **C117.**  Whether a program ends, calls `exit` or is stopped by `CHECK`: what was printed before stays printed. -/
theorem C117_output_kept (o : Ops Fd V) (n : ℕ) (prog : List Expr) (s : State Fd V) :
    (∀ s', evalProgram o n s prog = .ok s' → s.out <+: s'.out) ∧
      (∀ out b, evalProgram o n s prog = .halt out b → s.out <+: out) := by
  have key : ∀ (prog : List Expr) (s : State Fd V), Grows s.out (fun a => a.out) (evalProgram o n s prog) := by
    intro prog
    induction prog with
    | nil => intro s; exact grows_ok rfl
    | cons e es ih =>
      intro s
      simp only [evalProgram]
      refine Grows.bind (out := fun a => a.out) ?_ ih
      unfold evalStmt
      refine (grows_eval o n s e).bind fun (s, r) => ?_
      cases r with
      | none => exact grows_ok rfl
      | some q =>
        refine .orUb fun v => ?_
        split
        · exact List.prefix_append _ _
        · exact grows_ok rfl
  have := key prog s
  constructor
  · intro s' h
    rw [h] at this
    exact this
  · intro out b h
    rw [h] at this
    exact this

/-- **C117.**  A number is printed; then `CHECK(0)` stops the program with a failure, and the number stays printed. -/
theorem C117_check_stops (o : Ops Fd V) (h0 : o.is0 (o.ofNat 0) = true) (n a : ℕ) (s : State Fd V) (prog : List Expr) :
    evalProgram o (n + 2) s (.num a :: .call (.prim .check) [.num 0] :: prog) =
      .halt (s.out ++ [.val (.elem (o.ofNat a))]) true := by
  simp [evalProgram, evalStmt, eval, step, State.alloc, Res.bind, orUb, callBuiltin, builtinArgs, Prim.sig, run, State.elem,
    Val.type, Expr.isAssign, h0]

/-! ### Names -/

/-- **C119.**  The names printed for the types tell them apart. -/
theorem C119_type_names : Function.Injective VType.name := by
  intro a b h
  cases a <;> cases b <;> first | rfl | exact absurd h (by decide)

/-- **C119.**  Every function that is not an operator is found under the name it reports in error messages; no operator is. -/
theorem C119_names (o : Ops Fd V) (p : Prim) :
    reserved o p.name = if p ∈ [.add, .sub, .mul, .div, .pow, .eq, .ne, .le, .ge, .lt, .gt, .neg, .item] then none
      else some (.fn p) := by
  cases p <;> first | (rename_i t; cases t) | skip
  all_goals simp [reserved, Prim.name]

/-- **C119.**  Names are different. -/
theorem C119_names_differ : Function.Injective Prim.name := by
  let all : List Prim := [.add, .sub, .mul, .div, .pow, .eq, .ne, .le, .ge, .lt, .gt, .neg, .item, .rnd, .random, .ord, .order,
    .nextprime, .sqrt, .inv, .type, .pairing, .zmod, .poly, .polymod, .extend, .exit, .check, .init .a, .init .d, .init .e,
    .init .f, .init .g, .init .i]
  have h1 : ∀ p, p ∈ all := by
    intro p
    cases p <;> first | (rename_i t; cases t) | skip
    all_goals simp [all]
  have h2 : (all.map Prim.name).Nodup := by decide +kernel
  exact fun a b h => List.inj_on_of_nodup_map h2 (h1 a) (h1 b) h

/-- **C119.**  An error message and its terminating zero fit into 80 characters; messages that fit are not cut, others are cut at
the end. -/
theorem C119_message (m : String) :
    (errMsg m).length + 1 ≤ 80 ∧ (m.length + 1 ≤ 80 → errMsg m = m) ∧ (errMsg m).toList <+: m.toList ∧
      (80 < m.length + 1 → (errMsg m).length + 1 = 80) := by
  refine ⟨?_, ?_, ?_, ?_⟩
  · simp [errMsg, ← String.length_toList]
  · intro h
    unfold errMsg
    rw [List.take_of_length_le (by rw [String.length_toList]; omega)]
    simp
  · simpa [errMsg] using List.take_prefix _ _
  · intro h
    simp [errMsg, ← String.length_toList]
    rw [String.length_toList]
    omega

example : errMsg "undefined variable x" = "undefined variable x" := (C119_message _).2.1 (by decide)

end Pbc.Calc
