import Verif.Model.SetMultiz
import Mathlib.Logic.Function.Basic

/-!
# Nested lists of integers in memory (`/repo/arith/multiz.c`)

`Verif/Model/Multiz.lean` has the values; here are the nodes, in memory, with every allocation and
every `free`.  A node (`struct multiz_s`) and the buffer of its array are one cell; addresses are
never used twice, so that a stale pointer is always noticed.  Every routine takes a number of calls
it may nest (`more` when it does not suffice).
-/

set_option autoImplicit false

namespace Pbc.MultizHeap

open Pbc.Multiz (MZ)

/-- The result of a call: a value, undefined behaviour (a node that was freed or never allocated, an
entry past the end of an array, an integer used as a list, a division by zero), or not enough
nesting. -/
inductive Res (α : Type)
  | val (a : α)
  | bad
  | more
  deriving DecidableEq

/-- Sequencing. -/
def Res.bind {α β : Type} : Res α → (α → Res β) → Res β
  | .val a, f => f a
  | .bad, _ => .bad
  | .more, _ => .more

instance : Monad Res where
  pure := .val
  bind := Res.bind

/-- `struct multiz_s` (`/repo/arith/multiz.c:22-29`): an integer, or the addresses of the entries. -/
inductive Cell
  | int (z : ℤ)
  | arr (l : List ℕ)
  deriving DecidableEq

/-- The nodes in use and the next address to hand out. -/
structure Heap where
  cells : ℕ → Option Cell
  next : ℕ

/-- Nothing allocated. -/
def empty : Heap := ⟨fun _ => none, 0⟩

/-- Reading a node. -/
def read (h : Heap) (a : ℕ) : Res Cell :=
  match h.cells a with
  | some c => .val c
  | none => .bad

/-- `pbc_malloc` and the initialisation of the node (`/repo/arith/multiz.c:36-41,48-53`). -/
def alloc (h : Heap) (c : Cell) : ℕ × Heap :=
  (h.next, ⟨Function.update h.cells h.next (some c), h.next + 1⟩)

/-- Changing a node that is in use. -/
def write (h : Heap) (a : ℕ) (c : Cell) : Res Heap :=
  match h.cells a with
  | some _ => .val ⟨Function.update h.cells a (some c), h.next⟩
  | none => .bad

/-- `pbc_free` of a node with what it holds (`/repo/arith/multiz.c:62,67,70`). -/
def release (h : Heap) (a : ℕ) : Res Heap :=
  match h.cells a with
  | some _ => .val ⟨Function.update h.cells a none, h.next⟩
  | none => .bad

/-- `darray_append(x->a, c)` (`/repo/misc/darray.c:48-57`). -/
def push (h : Heap) (x c : ℕ) : Res Heap := do
  match ← read h x with
  | .int _ => .bad
  | .arr l => write h x (.arr (l ++ [c]))

/-- `multiz_free` (`/repo/arith/multiz.c:59-71`). -/
def free : ℕ → Heap → ℕ → Res Heap
  | 0, _, _ => .more
  | n + 1, h, a => do
    match ← read h a with
    | .int _ => release h a
    | .arr l => do
      let h ← l.foldlM (fun h b => free n h b) h
      release h a

/-- `multiz_new_unary` with `add_to_x` (`/repo/arith/multiz.c:161-190`). -/
def newUnary (f : ℤ → ℤ) : ℕ → Heap → ℕ → Res (ℕ × Heap)
  | 0, _, _ => .more
  | n + 1, h, y => do
    match ← read h y with
    | .int z => .val (alloc h (.int (f z)))
    | .arr l => do
      let x := (alloc h (.arr [])).1
      let h ← l.foldlM (fun h b => do
        let r ← newUnary f n h b
        push r.2 x r.1) (alloc h (.arr [])).2
      .val (x, h)

/-- `while(z->type == T_ARR) z = darray_at(z->a, 0)` (`/repo/arith/multiz.c:136,147,211,221`). -/
def first : ℕ → Heap → ℕ → Res ℕ
  | 0, _, _ => .more
  | n + 1, h, a => do
    match ← read h a with
    | .int _ => .val a
    | .arr [] => .bad
    | .arr (b :: _) => first n h b

/-- Copy a list and change its first integer (`/repo/arith/multiz.c:208-213` and `:218-223`). -/
def cloneMod (f : ℤ → ℤ) (n : ℕ) (h : Heap) (a : ℕ) : Res (ℕ × Heap) := do
  let r ← newUnary id n h a
  let z ← first n r.2 r.1
  match ← read r.2 z with
  | .arr _ => .bad
  | .int v => do
    let h ← write r.2 z (.int (f v))
    .val (r.1, h)

/-- `multiz_new_bin` (`/repo/arith/multiz.c:200-247`).  Of the two runs over the rest of the arrays
at most one does anything. -/
def newBin (f : ℤ → ℤ → ℤ) : ℕ → Heap → ℕ → ℕ → Res (ℕ × Heap)
  | 0, _, _, _ => .more
  | n + 1, h, a, b => do
    match ← read h a, ← read h b with
    | .int u, .int v => .val (alloc h (.int (f u v)))
    | .int u, .arr _ => cloneMod (fun z => f u z) (n + 1) h b
    | .arr _, .int v => cloneMod (fun z => f v z) (n + 1) h a
    | .arr l, .arr l' => do
      let x := (alloc h (.arr [])).1
      let h ← (l.zip l').foldlM (fun h ab => do
        let r ← newBin f n h ab.1 ab.2
        push r.2 x r.1) (alloc h (.arr [])).2
      let zero := (alloc h (.int 0)).1
      let h ← (l.drop l'.length).foldlM (fun h a => do
        let r ← newBin f n h a zero
        push r.2 x r.1) (alloc h (.int 0)).2
      let h ← (l'.drop l.length).foldlM (fun h b => do
        let r ← newBin f n h zero b
        push r.2 x r.1) h
      let h ← free n h zero
      .val (x, h)

/-- `multiz_new_mul` (`/repo/arith/multiz.c:271-305`). -/
def newMul : ℕ → Heap → ℕ → ℕ → Res (ℕ × Heap)
  | 0, _, _, _ => .more
  | n + 1, h, a, b => do
    match ← read h a, ← read h b with
    | .int u, _ => newUnary (· * u) (n + 1) h b
    | .arr _, .int v => newUnary (· * v) (n + 1) h a
    | .arr l, .arr l' => do
      let x := (alloc h (.arr [])).1
      let h := (alloc h (.arr [])).2
      let zero := (alloc h (.int 0)).1
      let h ← (List.range (l.length + l'.length - 1)).foldlM (fun h i => do
        let z ← (List.range (i + 1)).foldlM (fun (zh : ℕ × Heap) j => do
          let y ← newMul n zh.2 (l.getD j zero) (l'.getD (i - j) zero)
          let t ← newBin (· + ·) n y.2 zh.1 y.1
          let h ← free n t.2 y.1
          let h ← free n h zh.1
          .val (t.1, h)) (alloc h (.int 0))
        push z.2 x z.1) (alloc h (.int 0)).2
      let h ← free n h zero
      .val (x, h)

/-- Walking over the whole tree, as `multiz_out_str` does (`/repo/arith/multiz.c:107-126`). -/
def look : ℕ → Heap → ℕ → Res MZ
  | 0, _, _ => .more
  | n + 1, h, a => do
    match ← read h a with
    | .int z => .val (.int z)
    | .arr l => do
      let t ← l.mapM (fun b => look n h b)
      .val (.arr t)

/-- `multiz_to_mpz` (`/repo/arith/multiz.c:135-139`). -/
def toMpz (n : ℕ) (h : Heap) (a : ℕ) : Res ℤ := do
  let z ← first n h a
  match ← read h z with
  | .int v => .val v
  | .arr _ => .bad

/-- Memory and, for every initialised element, its `data`. -/
structure State where
  heap : Heap
  data : ℕ → Option ℕ

/-- The calls a program can make. -/
inductive Op
  | init (i : ℕ)
  | clear (i : ℕ)
  | setZ (i : ℕ) (z : ℤ)
  | set (i j : ℕ)
  | neg (i j : ℕ)
  | add (i j k : ℕ)
  | sub (i j k : ℕ)
  | mul (i j k : ℕ)
  | mulZ (i j : ℕ) (z : ℤ)
  | div (i j k : ℕ)
  | random (i : ℕ)
  | newList (i j : ℕ)
  | append (i j : ℕ)

/-- `e->data`. -/
def State.at (σ : State) (i : ℕ) : Res ℕ :=
  match σ.data i with
  | some a => .val a
  | none => .bad

/-- A new tree for `n->data`, then `multiz_free(delme)` (`/repo/arith/multiz.c:252-256`). -/
def State.replace (n : ℕ) (σ : State) (i : ℕ) (r : Res (ℕ × Heap)) : Res State := do
  let old ← σ.at i
  let r ← r
  let h ← free n r.2 old
  .val ⟨h, Function.update σ.data i (some r.1)⟩

/-- One call: `f_init` (`/repo/arith/multiz.c:55-57`), `f_clear` (73-75), `f_set_si`, `f_set_mpz`,
`f_set0`, `f_set1` (86-110; they free first), `f_set` (337-341), `f_neg` (343-347), `f_add`
(252-256), `f_sub` (261-265), `f_mul` (306-310), `f_mul_mpz`, `f_mul_si` (312-326), `f_div`
(349-357), `f_random` (360-364), `multiz_new_list` (77-84: the element it allocates, set to zero,
freed and made an empty list, is `i`) and `multiz_append` (43-46). -/
def exec (n : ℕ) (σ : State) : Op → Res State
  | .init i =>
    .val ⟨(alloc σ.heap (.int 0)).2, Function.update σ.data i (some (alloc σ.heap (.int 0)).1)⟩
  | .clear i => do
    let a ← σ.at i
    let h ← free n σ.heap a
    .val ⟨h, Function.update σ.data i none⟩
  | .setZ i z => do
    let a ← σ.at i
    let h ← free n σ.heap a
    .val ⟨(alloc h (.int z)).2, Function.update σ.data i (some (alloc h (.int z)).1)⟩
  | .set i j => do σ.replace n i (newUnary id n σ.heap (← σ.at j))
  | .neg i j => do σ.replace n i (newUnary (fun z => -z) n σ.heap (← σ.at j))
  | .add i j k => do σ.replace n i (newBin (· + ·) n σ.heap (← σ.at j) (← σ.at k))
  | .sub i j k => do σ.replace n i (newBin (· - ·) n σ.heap (← σ.at j) (← σ.at k))
  | .mul i j k => do σ.replace n i (newMul n σ.heap (← σ.at j) (← σ.at k))
  | .mulZ i j z => do σ.replace n i (newUnary (· * z) n σ.heap (← σ.at j))
  | .div i j k => do
    let d ← toMpz n σ.heap (← σ.at k)
    if d = 0 then .bad else
      σ.replace n i (newUnary (fun z => Int.tdiv z d) n σ.heap (← σ.at j))
  | .random i => σ.replace n i (.val (alloc σ.heap (.int 0)))
  | .newList i j => do
    let x := (alloc σ.heap (.int 0)).1
    let h ← free n (alloc σ.heap (.int 0)).2 x
    let l := (alloc h (.arr [])).1
    let h ← push (alloc h (.arr [])).2 l (← σ.at j)
    .val ⟨h, Function.update σ.data i (some l)⟩
  | .append i j => do
    let h ← push σ.heap (← σ.at i) (← σ.at j)
    .val ⟨h, σ.data⟩

/-- A program. -/
def run (n : ℕ) (σ : State) (prog : List Op) : Res State := prog.foldlM (exec n) σ

/-- No element initialised, nothing allocated. -/
def start : State := ⟨empty, fun _ => none⟩

/-- `f_item` (`/repo/arith/multiz.c:394-401`): a second element `r` whose data is a node of the
first; `none` (a null pointer) for an integer. -/
def item (σ : State) (r e i : ℕ) : Res (Option State) := do
  match ← read σ.heap (← σ.at e) with
  | .int _ => .val none
  | .arr l =>
    match l[i]? with
    | some a => .val (some ⟨σ.heap, Function.update σ.data r (some a)⟩)
    | none => .bad

end Pbc.MultizHeap
