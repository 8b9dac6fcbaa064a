import Mathlib.Data.List.Basic
import Verif.Spec.Memory

/-!
# The allocator (`/repo/misc/memory.c`)

Blocks of the system's heap are lists of bytes (natural numbers); a heap maps block numbers to live
blocks and keeps, for each block given back to the system, the bytes it held at that moment.  The
system's `malloc` is an oracle: whether it succeeds, and what bytes the block holds, is not known.
`size_t` has 8 bytes, stored least significant byte first.  Accesses outside a live block are
undefined behaviour (`ub`), `pbc_die` ends the process (`die`).
-/

set_option autoImplicit false

namespace Pbc.Memory

/-- The ways a call ends: with a value, in `pbc_die`, in undefined behaviour. -/
inductive Res (α : Type) where
  | val (a : α)
  | die
  | ub
  deriving DecidableEq

/-- Sequencing of C statements. -/
def Res.bind {α β : Type} (x : Res α) (f : α → Res β) : Res β :=
  match x with
  | .val a => f a
  | .die => .die
  | .ub => .ub

/-- The heap of the C library: live blocks, the next block number, and the contents of the blocks
given back, at the moment they were given back (latest first). -/
structure Heap where
  live : ℕ → Option (List ℕ)
  next : ℕ
  freed : List (List ℕ)

/-- What the C library decides: whether block `k` of `n` bytes can be had, and what byte is at each
offset. -/
structure Env where
  ok : ℕ → ℕ → Bool
  junk : ℕ → ℕ → ℕ

/-- A number of type `size_t` (8 bytes). -/
def sz (n : ℕ) : ℕ := n % 2 ^ 64

/-- The heap with block `k` replaced. -/
def Heap.put (H : Heap) (k : ℕ) (b : Option (List ℕ)) : Heap :=
  { H with live := fun j => if j = k then b else H.live j }

/-- `malloc` of the C library. -/
def sysMalloc (E : Env) (H : Heap) (n : ℕ) : Option ℕ × Heap :=
  if E.ok H.next n then
    (some H.next,
      { H.put H.next (some ((List.range n).map (E.junk H.next))) with next := H.next + 1 })
  else (none, H)

/-- `free` of the C library, of a live block. -/
def sysFree (H : Heap) (k : ℕ) : Res Heap :=
  match H.live k with
  | some b => .val { H.put k none with freed := b :: H.freed }
  | none => .ub

/-- A run of bytes stored at offset `o` of block `k`. -/
def store (H : Heap) (k o : ℕ) (l : List ℕ) : Res Heap :=
  match H.live k with
  | some b =>
    if o + l.length ≤ b.length then .val (H.put k (some (b.take o ++ l ++ b.drop (o + l.length))))
    else .ub
  | none => .ub

/-- `n` bytes loaded from offset `o` of block `k`. -/
def load (H : Heap) (k o n : ℕ) : Res (List ℕ) :=
  match H.live k with
  | some b => if o + n ≤ b.length then .val ((b.drop o).take n) else .ub
  | none => .ub

/-- `memset(p, 0, n)`. -/
def zero (H : Heap) (k o n : ℕ) : Res Heap := store H k o (List.replicate n 0)

/-- `memcpy(p, q, n)` between blocks. -/
def memcpy (H : Heap) (k o k' o' n : ℕ) : Res Heap := (load H k' o' n).bind fun l => store H k o l

/-- The 8 bytes of a `size_t`, least significant first. -/
def bytes : ℕ → ℕ → List ℕ
  | 0, _ => []
  | c + 1, n => n % 256 :: bytes c (n / 256)

/-- The number of these bytes. -/
def number : List ℕ → ℕ
  | [] => 0
  | b :: l => b + 256 * number l

/-- `pbc_mem_get_size` (`/repo/misc/memory.c:40-42`). -/
def memGetSize (H : Heap) (k : ℕ) : Res ℕ := (load H k 0 8).bind fun l => .val (number l)

/-- `pbc_mem_set_size` (`/repo/misc/memory.c:44-46`). -/
def memSetSize (H : Heap) (k n : ℕ) : Res Heap := store H k 0 (bytes 8 n)

/-- `pbc_mem_malloc` (`/repo/misc/memory.c:56-61`); the sum wraps. -/
def memMalloc (E : Env) (H : Heap) (n : ℕ) : Res (Option ℕ × Heap) :=
  match sysMalloc E H (sz (n + 8)) with
  | (some k, H') => (memSetSize H' k n).bind fun H'' => .val (some k, H'')
  | (none, H') => .val (none, H')

/-- `pbc_mem_free` (`/repo/misc/memory.c:63-66`). -/
def memFree (H : Heap) (k : ℕ) : Res Heap :=
  (memGetSize H k).bind fun n => (zero H k 0 (sz (n + 8))).bind fun H' => sysFree H' k

/-- `default_pbc_malloc` with `SAFE_CLEAN` (`/repo/misc/memory.c:68-72`).  The pointer returned is to
offset 8 of the block; pointers are given by the number of the block. -/
def safeMalloc (E : Env) (H : Heap) (n : ℕ) : Res (ℕ × Heap) :=
  (memMalloc E H n).bind fun
    | (some k, H') => .val (k, H')
    | (none, _) => .die

/-- `default_pbc_realloc` with `SAFE_CLEAN` (`/repo/misc/memory.c:74-83`). -/
def safeRealloc (E : Env) (H : Heap) (old : Option ℕ) (n : ℕ) : Res (ℕ × Heap) :=
  (memMalloc E H n).bind fun
    | (some k, H') =>
      match old with
      | some j =>
        (memGetSize H' j).bind fun m =>
          (memcpy H' k 8 j 8 m).bind fun H'' => (memFree H'' j).bind fun H3 => .val (k, H3)
      | none => .val (k, H')
    | (none, _) => .die

/-- `default_pbc_free` with `SAFE_CLEAN` (`/repo/misc/memory.c:85-88`). -/
def safeFree (H : Heap) (p : Option ℕ) : Res Heap :=
  match p with
  | some k => memFree H k
  | none => .val H

/-- `default_pbc_malloc` without `SAFE_CLEAN` (`/repo/misc/memory.c:90-94`). -/
def plainMalloc (E : Env) (H : Heap) (n : ℕ) : Res (ℕ × Heap) :=
  match sysMalloc E H n with
  | (some k, H') => .val (k, H')
  | (none, _) => .die

/-- `realloc` of the C library: a new block with the old bytes as far as they fit; the old block is
given back.  (The C library may also leave the block in place.)  With a block and size zero glibc
gives the block back and returns a null pointer. -/
def sysRealloc (E : Env) (H : Heap) (old : Option ℕ) (n : ℕ) : Res (Option ℕ × Heap) :=
  match old with
  | none => .val (sysMalloc E H n)
  | some j =>
    match H.live j with
    | none => .ub
    | some b =>
      if n = 0 then (sysFree H j).bind fun H' => .val (none, H')
      else
        match sysMalloc E H n with
        | (some k, H') =>
          (store H' k 0 (b.take n)).bind fun H'' => (sysFree H'' j).bind fun H3 => .val (some k, H3)
        | (none, H') => .val (none, H')

/-- `default_pbc_realloc` without `SAFE_CLEAN` (`/repo/misc/memory.c:96-100`). -/
def plainRealloc (E : Env) (H : Heap) (old : Option ℕ) (n : ℕ) : Res (ℕ × Heap) :=
  (sysRealloc E H old n).bind fun
    | (some k, H') => .val (k, H')
    | (none, _) => .die

/-- `default_pbc_free` without `SAFE_CLEAN` (`/repo/misc/memory.c:102`); `free(NULL)` does nothing. -/
def plainFree (H : Heap) (p : Option ℕ) : Res Heap :=
  match p with
  | some k => sysFree H k
  | none => .val H

/-- `pbc_malloc` as the library is configured (`/repo/misc/memory.c:106`, `/repo/configure.ac:134-139`,
166-168). -/
def pbcMalloc (safe : Bool) (E : Env) (H : Heap) (n : ℕ) : Res (ℕ × Heap) :=
  if safe then safeMalloc E H n else plainMalloc E H n

/-- `pbc_realloc` (`/repo/misc/memory.c:108`). -/
def pbcRealloc (safe : Bool) (E : Env) (H : Heap) (old : Option ℕ) (n : ℕ) : Res (ℕ × Heap) :=
  if safe then safeRealloc E H old n else plainRealloc E H old n

/-- `pbc_free` (`/repo/misc/memory.c:110`). -/
def pbcFree (safe : Bool) (H : Heap) (p : Option ℕ) : Res Heap :=
  if safe then safeFree H p else plainFree H p

/-- Where the pointer to block `k` points: past the size with `SAFE_CLEAN`
(`/repo/misc/memory.c:48-54`). -/
def base (safe : Bool) : ℕ := if safe then 8 else 0

/-- `pbc_calloc` (`/repo/misc/memory.c:119-124`); the product wraps. -/
def pbcCalloc (safe : Bool) (E : Env) (H : Heap) (m n : ℕ) : Res (ℕ × Heap) :=
  (pbcMalloc safe E H (sz (m * n))).bind fun r =>
    (zero r.2 r.1 (base safe) (sz (m * n))).bind fun H' => .val (r.1, H')

/-- `pbc_strdup` (`/repo/misc/memory.c:126-131`) of a string given without its final zero. -/
def pbcStrdup (safe : Bool) (E : Env) (H : Heap) (s : List ℕ) : Res (ℕ × Heap) :=
  (pbcMalloc safe E H (sz (s.length + 1))).bind fun r =>
    (store r.2 r.1 (base safe) (s ++ [0])).bind fun H' => .val (r.1, H')

/-- `gmp_free` (`/repo/misc/memory.c:10-14`). -/
def gmpFree (H : Heap) (p : Option ℕ) (n : ℕ) : Res Heap :=
  match p with
  | some k => (zero H k 0 n).bind fun H' => sysFree H' k
  | none => .val H

/-- `gmp_malloc` (`/repo/misc/memory.c:16-18`). -/
def gmpMalloc (E : Env) (H : Heap) (n : ℕ) : Option ℕ × Heap := sysMalloc E H n

/-- `gmp_realloc` (`/repo/misc/memory.c:23-29`). -/
def gmpRealloc (E : Env) (H : Heap) (old : Option ℕ) (m n : ℕ) : Res (Option ℕ × Heap) :=
  match sysMalloc E H n with
  | (r, H') =>
    (match r, old with
      | some k, some j => memcpy H' k 0 j 0 m
      | _, _ => .val H').bind fun H'' =>
        (gmpFree H'' old m).bind fun H3 => .val (r, H3)

/-- One step of a program; the new pointer, if any. -/
def exec (safe : Bool) (E : Env) (H : Heap) : Spec.Memory.Op → Res (Option ℕ × Heap)
  | .malloc n => (pbcMalloc safe E H n).bind fun r => .val (some r.1, r.2)
  | .calloc m n => (pbcCalloc safe E H m n).bind fun r => .val (some r.1, r.2)
  | .strdup s => (pbcStrdup safe E H s).bind fun r => .val (some r.1, r.2)
  | .realloc p n => (pbcRealloc safe E H p n).bind fun r => .val (some r.1, r.2)
  | .free p => (pbcFree safe H p).bind fun H' => .val (none, H')
  | .write k i b => (store H k (base safe + i) [b]).bind fun H' => .val (none, H')

/-- The heap before the first call. -/
def Heap.empty : Heap := ⟨fun _ => none, 0, []⟩

end Pbc.Memory
