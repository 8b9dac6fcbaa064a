import Mathlib.Data.List.Basic

/-!
# Dynamic arrays and symbol tables (`/repo/misc/darray.c`, `/repo/misc/symtab.c`)

The allocated block is a list of cells; `none` in a cell is uninitialised memory.  A `none` result is
an access outside the block, a read of uninitialised memory, or the process ending.  Array sizes are
not wrapped (the C counts are `int`).
-/

set_option autoImplicit false

namespace Pbc.Darray

/-- `struct darray_s` (`/repo/misc/darray.h:9-13`); `max` is the length of the block. -/
structure DA (α : Type) where
  item : List (Option α)
  count : ℕ

variable {α : Type}

/-- `max_init` (`/repo/misc/darray.c:10-12`). -/
def maxInit : ℕ := 8

/-- `darray_init` (`/repo/misc/darray.c:14-19`), `darray_remove_all` (28-34). -/
def init : DA α := ⟨List.replicate maxInit none, 0⟩

/-- `darray_clear` (`/repo/misc/darray.c:68-73`). -/
def clear : DA α := ⟨[], 0⟩

/-- `pbc_realloc` of the block: contents are kept up to the smaller size.  With size zero `realloc`
frees the block and returns a null pointer, which `pbc_realloc` takes for an error and exits
(`/repo/misc/memory.c`, default functions without `SAFE_CLEAN`, glibc). -/
def realloc (l : List (Option α)) (n : ℕ) : Option (List (Option α)) :=
  if n = 0 then none else some (l.take n ++ List.replicate (n - l.length) none)

/-- A store into the block. -/
def store (l : List (Option α)) (i : ℕ) (c : Option α) : Option (List (Option α)) :=
  if i < l.length then some (l.set i c) else none

/-- `darray_append` (`/repo/misc/darray.c:48-57`). -/
def append (a : DA α) (p : α) : Option (DA α) :=
  let block :=
    if a.count = a.item.length then
      realloc a.item (if a.item.length = 0 then maxInit else a.item.length * 2)
    else some a.item
  block.bind fun b => (store b a.count (some p)).map fun b' => ⟨b', a.count + 1⟩

/-- `darray_at` (`/repo/misc/darray.h:39-41`): one read of the block. -/
def read (a : DA α) (i : ℕ) : Option α := (a.item[i]?).join

/-- `darray_remove_last` (`/repo/misc/darray.c:36-40`); on an empty array the count becomes
negative. -/
def removeLast (a : DA α) : Option (DA α) :=
  if a.count = 0 then none else some { a with count := a.count - 1 }

/-- `memmove(&item[n], &item[n+1], k cells)`. -/
def memmove (l : List (Option α)) (n k : ℕ) : Option (List (Option α)) :=
  if n + 1 + k ≤ l.length then some (l.take n ++ (l.drop (n + 1)).take k ++ l.drop (n + k)) else none

/-- `darray_remove_index` (`/repo/misc/darray.c:80-85`).  An index that is too large makes the size of
the `memmove` negative. -/
def removeIndex (a : DA α) (n : ℕ) : Option (DA α) :=
  if n < a.count then (memmove a.item n (a.count - 1 - n)).map fun b => ⟨b, a.count - 1⟩ else none

/-- The search loop shared by `darray_index_of` and `darray_remove`
(`/repo/misc/darray.c:61-65,89-91`): the first index from `i` whose cell passes the test; the outer
`none` is a bad read. -/
def search (test : α → Bool) (a : DA α) : ℕ → ℕ → Option (Option ℕ)
  | 0, _ => some none
  | k + 1, i => (read a i).bind fun x => if test x then some (some i) else search test a k (i + 1)

/-- `darray_index_of` (`/repo/misc/darray.c:59-66`); the inner `none` is `-1`. -/
def indexOf [DecidableEq α] (a : DA α) (p : α) : Option (Option ℕ) :=
  search (fun x => x = p) a a.count 0

/-- `darray_remove` (`/repo/misc/darray.c:87-98`); the assertion at the end is compiled out. -/
def remove [DecidableEq α] (a : DA α) (p : α) : Option (DA α) :=
  (indexOf a p).bind fun
    | none => some a
    | some i => (memmove a.item i (a.count - 1 - i)).map fun b => ⟨b, a.count - 1⟩

/-- The inner loop of `darray_remove_with_test` (`/repo/misc/darray.c:105-107`): `k` rounds of
`item[i] = item[i+1]`; the copy may move an uninitialised cell but not read outside the block. -/
def shiftLoop (l : List (Option α)) : ℕ → ℕ → Option (List (Option α))
  | 0, _ => some l
  | k + 1, i => (l[i + 1]?).bind fun c => (store l i c).bind fun l' => shiftLoop l' k (i + 1)

/-- `darray_remove_with_test` (`/repo/misc/darray.c:100-111`): after the inner loop `i` is past the
end, so the outer loop ends too. -/
def removeWithTest (a : DA α) (test : α → Bool) : Option (DA α) :=
  (search test a a.count 0).bind fun
    | none => some a
    | some i => (shiftLoop a.item (a.count - i) i).map fun b => ⟨b, a.count - 1⟩

/-- `darray_copy` (`/repo/misc/darray.c:113-118`); returns the new destination. -/
def copy (dst src : DA α) : Option (DA α) :=
  (realloc dst.item src.count).bind fun b =>
    if src.count ≤ b.length ∧ src.count ≤ src.item.length then
      some ⟨src.item.take src.count ++ b.drop src.count, src.count⟩
    else none

/-- `darray_at_test` (`/repo/misc/darray.c:166-176`); the inner `none` is a null pointer. -/
def atTest (a : DA α) (test : α → Bool) : Option (Option α) :=
  (search test a a.count 0).bind fun
    | none => some none
    | some i => (read a i).map some

/-- `darray_forall` and its variants (`/repo/misc/darray.c:120-164`): the arguments of the calls, in
order. -/
def forall' (a : DA α) : Option (List α) := (List.range a.count).mapM (read a)

/-! ## Symbol tables -/

/-- `symtab_put` (`/repo/misc/symtab.c:29-41`), on the list of entries (the array of entries is
covered by the properties of `darray`). -/
def put {κ : Type} [DecidableEq κ] (t : List (κ × α)) (data : α) (key : κ) : List (κ × α) :=
  match t with
  | [] => [(key, data)]
  | (k, v) :: rest => if k = key then (k, data) :: rest else (k, v) :: put rest data key

/-- `symtab_has` (`/repo/misc/symtab.c:43-50`). -/
def has {κ : Type} [DecidableEq κ] (t : List (κ × α)) (key : κ) : Bool :=
  match t with
  | [] => false
  | (k, _) :: rest => if k = key then true else has rest key

/-- `symtab_at` (`/repo/misc/symtab.c:52-59`); `none` is the null pointer. -/
def «at» {κ : Type} [DecidableEq κ] (t : List (κ × α)) (key : κ) : Option α :=
  match t with
  | [] => none
  | (k, v) :: rest => if k = key then some v else «at» rest key

/-- `symtab_forall_data` (`/repo/misc/symtab.c:61-67`): the arguments of the calls, in order. -/
def forallData {κ : Type} (t : List (κ × α)) : List α := t.map Prod.snd

end Pbc.Darray
