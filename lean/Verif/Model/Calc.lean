import Verif.Model.CalcSyntax

/-!
# The calculator `pbc`: evaluation (`/repo/pbc/pbc.c`)

Values (`val_s`) live in a heap that only grows, and are referred to by their index.  A value and the element it points to
are one cell: no two values share an element, as every element is allocated together with its value.  The operations on
elements and fields are parameters (`Ops`); they are modelled elsewhere, each with its own theorems.

Not modelled: the sharing of the data of items with the list made of them (`multiz_new_list`, `multiz_append`); that
`init_pairing_*` overwrites the object `pairing` in place, so that elements made before belong to the new groups
afterwards; that a name in `reserved` is evaluated to the same pointer each time (a fresh copy here).
-/

set_option autoImplicit false

namespace Pbc.Calc

/-- The operations on elements `V` and fields `Fd` that the calculator calls; `none` stands for undefined behaviour and for
`pbc_die`. -/
structure Ops (Fd V : Type*) where
  /-- `element_set_str` of a numeral, in `M` -/
  ofNat : ℕ → V
  /-- `element_add`, `element_sub`, `element_mul`, `element_div`, `element_pow_zn` -/
  bin : Prim → V → V → Option V
  /-- `element_neg`, `element_sqrt`, `element_invert`; and `element_to_mpz`, `mpz_nextprime`, `element_set_mpz` -/
  un : Prim → V → Option V
  /-- `element_cmp` -/
  cmp : V → V → Option ℤ
  /-- `element_is0`, `element_is1` -/
  is0 : V → Bool
  is1 : V → Bool
  /-- `element_to_mpz`, `element_item` and a copy -/
  item : V → V → Option V
  /-- `multiz_new_list`, `multiz_append` -/
  list : List V → Option V
  /-- the field is `M` -/
  isM : Fd → Bool
  /-- the element belongs to `M` -/
  inM : V → Bool
  /-- `element_set0`, `element_set1`, `element_set_multiz` in the field -/
  set0 : Fd → Option V
  set1 : Fd → Option V
  setMultiz : Fd → V → Option V
  /-- `element_to_mpz`, `element_set_mpz` in `M` -/
  toM : V → Option V
  /-- `element_set_mpz` of the order, in `M` -/
  order : Fd → Option V
  /-- `element_random`, for each state of the generator -/
  random : Fd → ℕ → Option V
  /-- `element_pairing` -/
  pairing : V → V → Option V
  /-- `field_init_fp`, `field_init_poly`, `field_init_polymod` -/
  zmod : V → Option Fd
  poly : Fd → Option Fd
  polymod : V → Option Fd
  /-- `M` and `Z` -/
  fieldM : Fd
  fieldZ : Fd
  /-- `G1`, `G2`, `GT`, `Zr` of the parameters -/
  groups : PType → Fd × Fd × Fd × Fd

/-- Values (`/repo/pbc/pbc.c:89-100`). -/
inductive Val (Fd V : Type*)
  | elem (v : V)
  | field (f : Fd)
  | fn (p : Prim)
  | defn (f : String) (params : List String) (body : List Expr)
  | err (msg : String)

/-- Types of values (`/repo/pbc/pbc.c:222-228`). -/
inductive VType
  | elem | field | fn | defn | err
deriving DecidableEq, Repr

/-- `name` of the type (`/repo/pbc/pbc.c:222-228`). -/
def VType.name : VType → String
  | .elem => "element" | .field => "field" | .fn => "builtin" | .defn => "function" | .err => "error"

/-- What is printed: a value (`v_elem_out`, …, `/repo/pbc/pbc.c:111-131`, `205-215`) or the name of a type (`run_type`). -/
inductive Printed (Fd V : Type*)
  | val (v : Val Fd V)
  | typeName (t : VType)

variable {Fd V : Type*}

/-- `v->type`. -/
def Val.type : Val Fd V → VType
  | .elem _ => .elem | .field _ => .field | .fn _ => .fn | .defn .. => .defn | .err _ => .err

/-- `name` of a built-in function (`/repo/pbc/pbc.c:285-289`, `346-351`, `416`, `588`, `623-734`, `813-860`). -/
def Prim.name : Prim → String
  | .add => "add" | .sub => "sub" | .mul => "mul" | .div => "div" | .pow => "pow"
  | .eq => "==" | .ne => "!=" | .le => "<=" | .ge => ">=" | .lt => "<" | .gt => ">"
  | .neg => "neg" | .item => "item"
  | .rnd => "rnd" | .random => "random" | .ord => "ord" | .order => "order" | .nextprime => "nextprime" | .sqrt => "sqrt"
  | .inv => "inv" | .type => "type" | .pairing => "pairing" | .zmod => "zmod" | .poly => "poly" | .polymod => "polymod"
  | .extend => "extend" | .exit => "exit" | .check => "CHECK"
  | .init .a => "init_pairing_a" | .init .d => "init_pairing_d" | .init .e => "init_pairing_e"
  | .init .f => "init_pairing_f" | .init .g => "init_pairing_g" | .init .i => "init_pairing_i"

/-- The first `arity` types of `sig`; `none` is `NULL`, any type (same lines).  `extend` is declared with arity 1 and a
signature of length 2. -/
def Prim.sig : Prim → List (Option VType)
  | .add | .sub | .mul | .div | .pow | .eq | .ne | .le | .ge | .lt | .gt | .item | .pairing => [some .elem, some .elem]
  | .neg | .nextprime | .sqrt | .inv | .zmod | .polymod | .exit | .check => [some .elem]
  | .rnd | .random | .ord | .order | .poly | .extend => [some .field]
  | .type => [none]
  | .init _ => []

/-- `val_new_error` (`/repo/pbc/pbc.c:251-263`): a buffer of 80 characters. -/
def errMsg (s : String) : String := String.ofList (s.toList.take 79)

/-- `symtab_at(reserved, …)` after `main` (`/repo/pbc/pbc.c:862-864, 913-936`).  The operators are not in the table. -/
def reserved (o : Ops Fd V) (x : String) : Option (Val Fd V) :=
  if x = "rnd" then some (.fn .rnd) else if x = "random" then some (.fn .random)
  else if x = "ord" then some (.fn .ord) else if x = "order" then some (.fn .order)
  else if x = "nextprime" then some (.fn .nextprime) else if x = "sqrt" then some (.fn .sqrt)
  else if x = "inv" then some (.fn .inv) else if x = "type" then some (.fn .type)
  else if x = "pairing" then some (.fn .pairing) else if x = "zmod" then some (.fn .zmod)
  else if x = "poly" then some (.fn .poly) else if x = "polymod" then some (.fn .polymod)
  else if x = "extend" then some (.fn .extend) else if x = "exit" then some (.fn .exit)
  else if x = "CHECK" then some (.fn .check)
  else if x = "init_pairing_a" then some (.fn (.init .a)) else if x = "init_pairing_d" then some (.fn (.init .d))
  else if x = "init_pairing_e" then some (.fn (.init .e)) else if x = "init_pairing_f" then some (.fn (.init .f))
  else if x = "init_pairing_g" then some (.fn (.init .g)) else if x = "init_pairing_i" then some (.fn (.init .i))
  else if x = "M" then some (.field o.fieldM) else if x = "Z" then some (.field o.fieldZ)
  else none

/-- The state: heap, `tab` (`none` is a name not in the table, or in it with `NULL`), random numbers drawn, output. -/
structure State (Fd V : Type*) where
  heap : List (Val Fd V)
  tab : String → Option ℕ
  rng : ℕ
  out : List (Printed Fd V)

/-- How an evaluation ends: with a result; `exit` or `pbc_die`, with the output up to then; undefined behaviour; or not
within the depth. -/
inductive Res (Fd V : Type*) (α : Type*)
  | ok (a : α)
  | halt (out : List (Printed Fd V)) (failed : Bool)
  | ub
  | deep

/-- Sequencing. -/
def Res.bind {α β : Type*} (r : Res Fd V α) (f : α → Res Fd V β) : Res Fd V β :=
  match r with
  | .ok a => f a
  | .halt o b => .halt o b
  | .ub => .ub
  | .deep => .deep

/-- Undefined behaviour if there is no value. -/
def orUb {α β : Type*} (x : Option α) (f : α → Res Fd V β) : Res Fd V β :=
  match x with
  | some a => f a
  | none => .ub

/-- `val_new_element`, `val_new_field`, `val_new_error`, `val_new_fun` (`/repo/pbc/pbc.c:237-270`). -/
def State.alloc (s : State Fd V) (v : Val Fd V) : Res Fd V (State Fd V × Option ℕ) :=
  .ok ({ s with heap := s.heap ++ [v] }, some s.heap.length)

/-- A change of the element of a value. -/
def State.write (s : State Fd V) (p : ℕ) (v : Val Fd V) : State Fd V := { s with heap := s.heap.set p v }

/-- `symtab_put(tab, …)`. -/
def State.put (s : State Fd V) (x : String) (p : Option ℕ) : State Fd V :=
  { s with tab := fun y => if y = x then p else s.tab y }

/-- The element of the value, which has passed the check of its type. -/
def State.elem (s : State Fd V) (p : ℕ) : Option V :=
  match s.heap[p]? with
  | some (.elem v) => some v
  | _ => none

/-- The field of the value. -/
def State.field (s : State Fd V) (p : ℕ) : Option Fd :=
  match s.heap[p]? with
  | some (.field f) => some f
  | _ => none

/-- `assign_field` (`/repo/pbc/pbc.c:428-430`). -/
def State.assignField (s : State Fd V) (f : Fd) (x : String) : State Fd V :=
  { s with heap := s.heap ++ [.field f], tab := fun y => if y = x then some s.heap.length else s.tab y }

/-- `init_pairing` (`/repo/pbc/pbc.c:712-718`). -/
def State.initPairing (o : Ops Fd V) (s : State Fd V) (t : PType) : State Fd V :=
  let (g1, g2, gt, zr) := o.groups t
  (((s.assignField g1 "G1").assignField g2 "G2").assignField gt "GT").assignField zr "Zr"

/-- The functions `is0`, …, `isgt` of `fun_cmp` (`/repo/pbc/pbc.c:300-322`). -/
def cmpResult (p : Prim) (i : ℤ) : Bool :=
  match p with
  | .eq => i = 0
  | .ne => i ≠ 0
  | .le => i ≤ 0
  | .ge => 0 ≤ i
  | .lt => i < 0
  | .gt => 0 < i
  | _ => false

/-- `run` of a built-in function (`/repo/pbc/pbc.c:272-351`, `412-416`, `576-588`, `614-734`, `808-860`): operators work on
the element of their first argument in place. -/
def run (o : Ops Fd V) (p : Prim) (s : State Fd V) (args : List ℕ) : Res Fd V (State Fd V × Option ℕ) :=
  match p, args with
  | .add, [a, b] | .sub, [a, b] | .mul, [a, b] | .div, [a, b] | .pow, [a, b] =>
    orUb (s.elem a) fun x => orUb (s.elem b) fun y => orUb (o.bin p x y) fun z => .ok (s.write a (.elem z), some a)
  | .eq, [a, b] | .ne, [a, b] | .le, [a, b] | .ge, [a, b] | .lt, [a, b] | .gt, [a, b] =>
    orUb (s.elem a) fun x => orUb (s.elem b) fun y => orUb (o.cmp x y) fun i =>
      .ok (s.write a (.elem (o.ofNat (if cmpResult p i then 1 else 0))), some a)
  | .neg, [a] | .sqrt, [a] | .inv, [a] | .nextprime, [a] =>
    orUb (s.elem a) fun x => orUb (o.un p x) fun z => .ok (s.write a (.elem z), some a)
  | .item, [a, b] => orUb (s.elem a) fun x => orUb (s.elem b) fun y => orUb (o.item x y) fun z => s.alloc (.elem z)
  | .pairing, [a, b] => orUb (s.elem a) fun x => orUb (s.elem b) fun y => orUb (o.pairing x y) fun z => s.alloc (.elem z)
  | .rnd, [a] | .random, [a] =>
    orUb (s.field a) fun f => orUb (o.random f s.rng) fun z => State.alloc { s with rng := s.rng + 1 } (.elem z)
  | .ord, [a] | .order, [a] => orUb (s.field a) fun f => orUb (o.order f) fun z => s.alloc (.elem z)
  | .poly, [a] => orUb (s.field a) fun f => orUb (o.poly f) fun g => s.alloc (.field g)
  | .zmod, [a] => orUb (s.elem a) fun x => orUb (o.zmod x) fun g => s.alloc (.field g)
  | .polymod, [a] => orUb (s.elem a) fun x => orUb (o.polymod x) fun g => s.alloc (.field g)
  | .type, [a] => orUb s.heap[a]? fun v => .ok ({ s with out := s.out ++ [.typeName v.type] }, some a)
  | .check, [a] => orUb (s.elem a) fun x => if o.is0 x then .halt s.out true else .ok (s, some a)
  | .exit, [a] => orUb (s.elem a) fun _ => .halt s.out false
  | .init t, [] => .ok (s.initPairing o t, none)
  | _, _ => .ub

/-- An evaluator of expressions: the value is a pointer or `NULL`. -/
abbrev Eval (Fd V : Type*) := State Fd V → Expr → Res Fd V (State Fd V × Option ℕ)

/-- The loop of `v_builtin` (`/repo/pbc/pbc.c:140-146`), from the argument with index `i` on: the arguments, or the error
value returned.  Reading the type of `NULL` is undefined. -/
def builtinArgs (ev : Eval Fd V) (p : Prim) : State Fd V → ℕ → List (Option VType) → List Expr →
    Res Fd V (State Fd V × (List ℕ ⊕ Val Fd V))
  | s, i, t :: ts, e :: es =>
    (ev s e).bind fun (s, r) =>
      orUb r fun q =>
        orUb s.heap[q]? fun v =>
          if t.isSome && t ≠ some v.type then
            .ok (s, .inr (.err (errMsg (p.name ++ ": argument " ++ toString (i + 1) ++ " type mismatch"))))
          else
            (builtinArgs ev p s (i + 1) ts es).bind fun (s, r) =>
              match r with
              | .inl qs => .ok (s, .inl (q :: qs))
              | .inr err => .ok (s, .inr err)
  | s, _, _, _ => .ok (s, .inl [])

/-- `v_builtin` (`/repo/pbc/pbc.c:133-150`). -/
def callBuiltin (o : Ops Fd V) (ev : Eval Fd V) (s : State Fd V) (p : Prim) (args : List Expr) :
    Res Fd V (State Fd V × Option ℕ) :=
  if p.sig.length ≠ args.length then s.alloc (.err (errMsg (p.name ++ ": wrong number of arguments")))
  else (builtinArgs ev p s 0 p.sig args).bind fun (s, r) =>
    match r with
    | .inl qs => run o p s qs
    | .inr err => s.alloc err

/-- The loop over the parameters in `v_def_call` (`/repo/pbc/pbc.c:164-169`). -/
def bindParams (ev : Eval Fd V) : State Fd V → List String → List Expr → Res Fd V (State Fd V)
  | s, x :: xs, e :: es => (ev s e).bind fun (s, r) => bindParams ev (s.put x r) xs es
  | s, _, _ => .ok s

/-- `darray_forall(a, eval_stmt)` (`/repo/pbc/pbc.c:152-154, 170-172`). -/
def runBody (ev : Eval Fd V) : State Fd V → List Expr → Res Fd V (State Fd V)
  | s, [] => .ok s
  | s, e :: es => (ev s e).bind fun (s, _) => runBody ev s es

/-- `v_def_call` (`/repo/pbc/pbc.c:156-174`). -/
def callDef (ev : Eval Fd V) (s : State Fd V) (f : String) (params : List String) (body args : List Expr) :
    Res Fd V (State Fd V × Option ℕ) :=
  if params.length ≠ args.length then s.alloc (.err (errMsg (f ++ ": wrong number of arguments")))
  else (bindParams ev s params args).bind fun s => (runBody ev s body).bind fun s => .ok (s, none)

/-- `v_field_cast` (`/repo/pbc/pbc.c:176-203`).  Arguments after the first are not looked at.  Without arguments the first child
is the function itself, a field read as an element. -/
def castTo (o : Ops Fd V) (ev : Eval Fd V) (s : State Fd V) (f : Fd) (args : List Expr) :
    Res Fd V (State Fd V × Option ℕ) :=
  match args with
  | [] => .ub
  | e :: _ =>
    (ev s e).bind fun (s, r) =>
      orUb r fun q => orUb (s.elem q) fun x =>
        if o.inM x then
          if o.isM f then .ok (s, some q)
          else orUb (if o.is0 x then o.set0 f else if o.is1 x then o.set1 f else o.setMultiz f x) fun z =>
            .ok (s.write q (.elem z), some q)
        else if o.isM f then orUb (o.toM x) fun z => .ok (s.write q (.elem z), some q)
        else .ok (s, some q)

/-- The loop of `eval_list` (`/repo/pbc/pbc.c:365-377`): the items, or the value returned early. -/
def listItems (ev : Eval Fd V) : State Fd V → List Expr → Res Fd V (State Fd V × (List V ⊕ Option ℕ))
  | s, [] => .ok (s, .inl [])
  | s, e :: es =>
    (ev s e).bind fun (s, r) =>
      orUb r fun q =>
        match s.heap[q]? with
        | some (.elem v) =>
          (listItems ev s es).bind fun (s, r) =>
            match r with
            | .inl vs => .ok (s, .inl (v :: vs))
            | .inr q => .ok (s, .inr q)
        | some (.err _) => .ok (s, .inr (some q))
        | some _ => (s.alloc (.err "element expected in list")).bind fun (s, q) => .ok (s, .inr q)
        | none => .ub

/-- The `eval` functions (`/repo/pbc/pbc.c:353-426`, `465-471`), with `ev` for the evaluation of the children. -/
def step (o : Ops Fd V) (ev : Eval Fd V) : Eval Fd V := fun s e =>
  match e with
  | .num n => s.alloc (.elem (o.ofNat n))
  | .id x =>
    match reserved o x with
    | some v => s.alloc v
    | none =>
      match s.tab x with
      | none => s.alloc (.err (errMsg ("undefined variable " ++ x)))
      | some p =>
        orUb s.heap[p]? fun v =>
          match v with
          | .elem w => s.alloc (.elem w)
          | _ => .ok (s, some p)
  | .prim p => s.alloc (.fn p)
  | .assign x e =>
    (ev s e).bind fun (s, r) =>
      match reserved o x with
      | some _ => s.alloc (.err (errMsg (x ++ " is reserved")))
      | none => .ok (s.put x r, r)
  | .tern c a b =>
    (ev s c).bind fun (s, r) =>
      orUb r fun q =>
        match s.heap[q]? with
        | some (.elem v) => if o.is0 v then ev s b else ev s a
        | some (.err _) => .ok (s, some q)
        | some _ => s.alloc (.err "element expected in ternary operator")
        | none => .ub
  | .call f args =>
    (ev s f).bind fun (s, r) =>
      orUb r fun q =>
        match s.heap[q]? with
        | some (.fn p) => callBuiltin o ev s p args
        | some (.defn f ps body) => callDef ev s f ps body args
        | some (.field f) => castTo o ev s f args
        | some (.err _) => .ok (s, some q)
        | _ => .ub
  | .list es =>
    (listItems ev s es).bind fun (s, r) =>
      match r with
      | .inl vs => orUb (o.list vs) fun z => s.alloc (.elem z)
      | .inr q => .ok (s, q)
  | .define f ps body =>
    .ok ({ s with heap := s.heap ++ [.defn f ps body], tab := fun y => if y = f then some s.heap.length else s.tab y },
      some s.heap.length)

/-- `tree_eval` (`/repo/pbc/pbc.c:107-109`); the depth is bounded, as functions of the user may call themselves. -/
def eval (o : Ops Fd V) : ℕ → Eval Fd V
  | 0 => fun _ _ => .deep
  | n + 1 => step o (eval o n)

/-- The node is an assignment: `stmt->eval == eval_assign`. -/
def Expr.isAssign : Expr → Bool
  | .assign .. => true
  | _ => false

/-- `tree_eval_stmt` (`/repo/pbc/pbc.c:603-612`). -/
def evalStmt (o : Ops Fd V) (n : ℕ) (s : State Fd V) (e : Expr) : Res Fd V (State Fd V) :=
  (eval o n s e).bind fun (s, r) =>
    match r with
    | none => .ok s
    | some q =>
      orUb s.heap[q]? fun v =>
        if v.type = .err || !e.isAssign then .ok { s with out := s.out ++ [.val v] } else .ok s

/-- `yyparse` (`/repo/pbc/parser.y:35-38`): the statements one after the other. -/
def evalProgram (o : Ops Fd V) (n : ℕ) : State Fd V → List Expr → Res Fd V (State Fd V)
  | s, [] => .ok s
  | s, e :: es => (evalStmt o n s e).bind fun s => evalProgram o n s es

/-- The state when `main` begins to read (`/repo/pbc/pbc.c:909-936`). -/
def State.start (o : Ops Fd V) : State Fd V := State.initPairing o ⟨[], fun _ => none, 0, []⟩ .a

end Pbc.Calc
