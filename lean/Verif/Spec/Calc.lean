import Verif.Model.Calc

/-!
# What calculator programs mean

Variables hold values; nothing is shared.  An operation makes a new value; only assignments, definitions, calls of the functions
of the user and `init_pairing_*` change variables.
-/

set_option autoImplicit false

namespace Spec.Calc

open Pbc.Calc (Ops Val VType Printed Res Prim Expr PType orUb errMsg cmpResult reserved)

variable {Fd V : Type*}

/-- Variables, random numbers drawn, output. -/
structure Env (Fd V : Type*) where
  vars : String → Option (Val Fd V)
  rng : ℕ
  out : List (Printed Fd V)

def Env.set (s : Env Fd V) (x : String) (v : Option (Val Fd V)) : Env Fd V :=
  { s with vars := fun y => if y = x then v else s.vars y }

/-- The four groups of a pairing. -/
def Env.setGroups (o : Ops Fd V) (s : Env Fd V) (t : PType) : Env Fd V :=
  { s with vars := fun y =>
      if y = "Zr" then some (.field (o.groups t).2.2.2) else if y = "GT" then some (.field (o.groups t).2.2.1)
      else if y = "G2" then some (.field (o.groups t).2.1) else if y = "G1" then some (.field (o.groups t).1)
      else s.vars y }

abbrev Result (Fd V : Type*) := Res Fd V (Env Fd V × Option (Val Fd V))

/-- A new value, if it is defined. -/
def value (s : Env Fd V) (v : Option (Val Fd V)) : Result Fd V := orUb v fun v => .ok (s, some v)

/-- Built-in functions, on values. -/
def apply (o : Ops Fd V) (p : Prim) (s : Env Fd V) (args : List (Val Fd V)) : Result Fd V :=
  match p, args with
  | .add, [.elem x, .elem y] | .sub, [.elem x, .elem y] | .mul, [.elem x, .elem y] | .div, [.elem x, .elem y]
  | .pow, [.elem x, .elem y] => value s ((o.bin p x y).map .elem)
  | .eq, [.elem x, .elem y] | .ne, [.elem x, .elem y] | .le, [.elem x, .elem y] | .ge, [.elem x, .elem y]
  | .lt, [.elem x, .elem y] | .gt, [.elem x, .elem y] =>
    value s ((o.cmp x y).map fun i => .elem (o.ofNat (if cmpResult p i then 1 else 0)))
  | .neg, [.elem x] | .sqrt, [.elem x] | .inv, [.elem x] | .nextprime, [.elem x] => value s ((o.un p x).map .elem)
  | .item, [.elem x, .elem y] => value s ((o.item x y).map .elem)
  | .pairing, [.elem x, .elem y] => value s ((o.pairing x y).map .elem)
  | .rnd, [.field f] | .random, [.field f] => value { s with rng := s.rng + 1 } ((o.random f s.rng).map .elem)
  | .ord, [.field f] | .order, [.field f] => value s ((o.order f).map .elem)
  | .poly, [.field f] => value s ((o.poly f).map .field)
  | .zmod, [.elem x] => value s ((o.zmod x).map .field)
  | .polymod, [.elem x] => value s ((o.polymod x).map .field)
  | .type, [v] => .ok ({ s with out := s.out ++ [.typeName v.type] }, some v)
  | .check, [.elem x] => if o.is0 x then .halt s.out true else .ok (s, some (.elem x))
  | .exit, [.elem _] => .halt s.out false
  | .init t, [] => .ok (s.setGroups o t, none)
  | _, _ => .ub

abbrev Eval (Fd V : Type*) := Env Fd V → Expr → Result Fd V

/-- Arguments from left to right, each checked before the next is evaluated. -/
def args (ev : Eval Fd V) (p : Prim) : Env Fd V → ℕ → List (Option VType) → List Expr →
    Res Fd V (Env Fd V × (List (Val Fd V) ⊕ Val Fd V))
  | s, i, t :: ts, e :: es =>
    (ev s e).bind fun (s, r) =>
      orUb r fun v =>
        if t.isSome && t ≠ some v.type then
          .ok (s, .inr (.err (errMsg (p.name ++ ": argument " ++ toString (i + 1) ++ " type mismatch"))))
        else
          (args ev p s (i + 1) ts es).bind fun (s, r) =>
            match r with
            | .inl vs => .ok (s, .inl (v :: vs))
            | .inr err => .ok (s, .inr err)
  | s, _, _, _ => .ok (s, .inl [])

/-- Parameters are variables like others. -/
def params (ev : Eval Fd V) : Env Fd V → List String → List Expr → Res Fd V (Env Fd V)
  | s, x :: xs, e :: es => (ev s e).bind fun (s, r) => params ev (s.set x r) xs es
  | s, _, _ => .ok s

def body (ev : Eval Fd V) : Env Fd V → List Expr → Res Fd V (Env Fd V)
  | s, [] => .ok s
  | s, e :: es => (ev s e).bind fun (s, _) => body ev s es

/-- Conversion between `M` and a field. -/
def convert (o : Ops Fd V) (f : Fd) (x : V) : Option V :=
  if o.inM x then
    if o.isM f then some x else if o.is0 x then o.set0 f else if o.is1 x then o.set1 f else o.setMultiz f x
  else if o.isM f then o.toM x else some x

/-- A field as a function: it converts its argument. -/
def cast (o : Ops Fd V) (ev : Eval Fd V) (s : Env Fd V) (f : Fd) : List Expr → Result Fd V
  | [] => .ub
  | e :: _ =>
    (ev s e).bind fun (s, r) =>
      orUb r fun v =>
        match v with
        | .elem x => value s ((convert o f x).map .elem)
        | _ => .ub

def items (ev : Eval Fd V) : Env Fd V → List Expr → Res Fd V (Env Fd V × (List V ⊕ Val Fd V))
  | s, [] => .ok (s, .inl [])
  | s, e :: es =>
    (ev s e).bind fun (s, r) =>
      orUb r fun v =>
        match v with
        | .elem v =>
          (items ev s es).bind fun (s, r) =>
            match r with
            | .inl vs => .ok (s, .inl (v :: vs))
            | .inr q => .ok (s, .inr q)
        | .err m => .ok (s, .inr (.err m))
        | _ => .ok (s, .inr (.err "element expected in list"))

def step (o : Ops Fd V) (ev : Eval Fd V) : Eval Fd V := fun s e =>
  match e with
  | .num n => .ok (s, some (.elem (o.ofNat n)))
  | .id x =>
    match reserved o x with
    | some v => .ok (s, some v)
    | none =>
      match s.vars x with
      | none => .ok (s, some (.err (errMsg ("undefined variable " ++ x))))
      | some v => .ok (s, some v)
  | .prim p => .ok (s, some (.fn p))
  | .assign x e =>
    (ev s e).bind fun (s, r) =>
      match reserved o x with
      | some _ => .ok (s, some (.err (errMsg (x ++ " is reserved"))))
      | none => .ok (s.set x r, r)
  | .tern c a b =>
    (ev s c).bind fun (s, r) =>
      orUb r fun v =>
        match v with
        | .elem v => if o.is0 v then ev s b else ev s a
        | .err m => .ok (s, some (.err m))
        | _ => .ok (s, some (.err "element expected in ternary operator"))
  | .call f as =>
    (ev s f).bind fun (s, r) =>
      orUb r fun v =>
        match v with
        | .fn p =>
          if p.sig.length ≠ as.length then .ok (s, some (.err (errMsg (p.name ++ ": wrong number of arguments"))))
          else (args ev p s 0 p.sig as).bind fun (s, r) =>
            match r with
            | .inl vs => apply o p s vs
            | .inr err => .ok (s, some err)
        | .defn f ps b =>
          if ps.length ≠ as.length then .ok (s, some (.err (errMsg (f ++ ": wrong number of arguments"))))
          else (params ev s ps as).bind fun s => (body ev s b).bind fun s => .ok (s, none)
        | .field f => cast o ev s f as
        | .err m => .ok (s, some (.err m))
        | .elem _ => .ub
  | .list es =>
    (items ev s es).bind fun (s, r) =>
      match r with
      | .inl vs => value s ((o.list vs).map .elem)
      | .inr v => .ok (s, some v)
  | .define f ps b => .ok (s.set f (some (.defn f ps b)), some (.defn f ps b))

def eval (o : Ops Fd V) : ℕ → Eval Fd V
  | 0 => fun _ _ => .deep
  | n + 1 => step o (eval o n)

/-- The value of a statement is printed, unless it is an assignment; errors always are. -/
def stmt (o : Ops Fd V) (n : ℕ) (s : Env Fd V) (e : Expr) : Res Fd V (Env Fd V) :=
  (eval o n s e).bind fun (s, r) =>
    match r with
    | none => .ok s
    | some v =>
      match v, e with
      | .err m, _ => .ok { s with out := s.out ++ [.val (.err m)] }
      | _, .assign .. => .ok s
      | v, _ => .ok { s with out := s.out ++ [.val v] }

def program (o : Ops Fd V) (n : ℕ) : Env Fd V → List Expr → Res Fd V (Env Fd V)
  | s, [] => .ok s
  | s, e :: es => (stmt o n s e).bind fun s => program o n s es

def Env.start (o : Ops Fd V) : Env Fd V := Env.setGroups o ⟨fun _ => none, 0, []⟩ .a

/-! ### Programs in which assignments are not operands -/

/-- The value of the expression is not that of an assignment. -/
def NotAssign : Expr → Prop
  | .assign .. => False
  | .tern _ a b => NotAssign a ∧ NotAssign b
  | _ => True

/-- No argument, and no item of a list, has the value of an assignment. -/
def Clean : Expr → Prop
  | .num _ | .id _ | .prim _ => True
  | .assign _ e => Clean e
  | .tern c a b => Clean c ∧ Clean a ∧ Clean b
  | .call f as => Clean f ∧ ∀ a ∈ as, Clean a ∧ NotAssign a
  | .list es => ∀ a ∈ es, Clean a ∧ NotAssign a
  | .define _ _ b => ∀ a ∈ b, Clean a

end Spec.Calc
