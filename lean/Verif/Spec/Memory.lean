import Mathlib.Data.List.Basic

/-!
# What a program expects of an allocator

Blocks are named by pointers; a block has a size and bytes, those not yet stored are unknown
(`none`).  Nothing is said about where blocks are kept.
-/

set_option autoImplicit false

namespace Spec.Memory

/-- What a program does with memory: the calls of the library, and bytes stored through the pointers
it was given. -/
inductive Op where
  | malloc (n : ℕ)
  | calloc (m n : ℕ)
  | strdup (s : List ℕ)
  | realloc (p : Option ℕ) (n : ℕ)
  | free (p : Option ℕ)
  | write (k i b : ℕ)

/-- The blocks a program holds. -/
abbrev Store := ℕ → Option (List (Option ℕ))

/-- The store with block `k` replaced. -/
def put (s : Store) (k : ℕ) (b : Option (List (Option ℕ))) : Store := fun j => if j = k then b else s j

/-- A block of `n` unknown bytes. -/
def fresh (n : ℕ) : List (Option ℕ) := List.replicate n none

/-- A block after a change of its size: the bytes that fit are kept, further bytes are unknown. -/
def resize (b : List (Option ℕ)) (n : ℕ) : List (Option ℕ) := b.take n ++ fresh (n - b.length)

/-- What is known agrees with what is there. -/
def Agrees (b : List (Option ℕ)) (c : List ℕ) : Prop :=
  b.length = c.length ∧ ∀ (i v : ℕ), b[i]? = some (some v) → c[i]? = some v

/-- The program makes no mistake: the pointers it uses are live, it writes inside blocks. -/
def Legal (s : Store) : Op → Prop
  | .realloc (some j) _ => s j ≠ none
  | .free (some j) => s j ≠ none
  | .write k i _ => ∃ b, s k = some b ∧ i < b.length
  | _ => True

/-- The number of bytes asked for. -/
def size : Op → ℕ
  | .malloc n => n
  | .calloc m n => m * n
  | .strdup s => s.length + 1
  | .realloc _ n => n
  | _ => 0

/-- The sizes are numbers of type `size_t`. -/
def Fits : Op → Prop
  | .malloc n => n < 2 ^ 64
  | .calloc m n => m < 2 ^ 64 ∧ n < 2 ^ 64
  | .strdup s => s.length + 1 < 2 ^ 64
  | .realloc _ n => n < 2 ^ 64
  | _ => True

/-- No block is made smaller. -/
def Grows (s : Store) : Op → Prop
  | .realloc (some j) n => ∀ b, s j = some b → b.length ≤ n
  | _ => True

/-- The store after a call that returned the pointer `r` (calls that return nothing: any `r`). -/
def after (s : Store) (r : ℕ) : Op → Store
  | .malloc n => put s r (some (fresh n))
  | .calloc m n => put s r (some (List.replicate (m * n) (some 0)))
  | .strdup t => put s r (some ((t ++ [0]).map some))
  | .realloc none n => put s r (some (fresh n))
  | .realloc (some j) n => put (put s j none) r ((s j).map fun b => resize b n)
  | .free none => s
  | .free (some j) => put s j none
  | .write k i v => put s k ((s k).map fun b => b.set i (some v))

/-- The call returns a pointer. -/
def returns : Op → Bool
  | .free _ => false
  | .write _ _ _ => false
  | _ => true

end Spec.Memory
