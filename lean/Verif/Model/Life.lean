import Mathlib.Data.Finset.Card

/-!
# The temporaries of a routine

Routines of `/repo` initialise local integers, elements, fields, parameters, ..., and clear them again.
This file gives a machine for what a routine does with its local variables; `Verif/Model/LifeCode.lean` has the routines.

A routine is a list of instructions.  Every condition of the C code is a free choice (`fork`), so the
executions of a routine here include those of the C code.
-/

set_option autoImplicit false

namespace Pbc.Life

/-- What a C statement does with the local variables.
* `init x`: a call such as `mpz_init(x)`, `element_init(x, f)`, `field_init_fp(x, q)`, `x = pbc_malloc(n)`;
* `clear x`: `mpz_clear(x)`, `element_clear(x)`, `field_clear(x)`, `pbc_free(x)`;
* `use x`: any other mention of `x`;
* `goto`, `fork`: `goto`, `break`, `continue`, the ends of loops, `if`, `while`, `for`, `switch`;
* `ret`: `return` or the closing brace;
* `halt`: `exit` or `pbc_die` (`/repo/misc/utils.c:70-77`). -/
inductive Instr
  | init (x : ℕ)
  | clear (x : ℕ)
  | use (x : ℕ)
  | goto (l : ℕ)
  | fork (l m : ℕ)
  | ret
  | halt
  deriving DecidableEq

/-- A state: the instruction to come, the block that each initialised variable owns, the blocks that are allocated.
All that a variable owns counts as one block. -/
structure St where
  pc : ℕ
  env : ℕ → Option ℕ
  heap : Finset ℕ

/-- `x` becomes the owner of `b`, or of nothing. -/
def St.own (s : St) (x : ℕ) (b : Option ℕ) : ℕ → Option ℕ := fun y => if y = x then b else s.env y

/-- One step.  `init` may deliver any block not allocated; a variable that owned a block loses it, the block stays
allocated.  `clear` gives back the block of `x`. -/
inductive Step (p : List Instr) : St → St → Prop
  | init {s : St} {x b : ℕ} (h : p[s.pc]? = some (.init x)) (hb : b ∉ s.heap) :
      Step p s ⟨s.pc + 1, s.own x (some b), insert b s.heap⟩
  | clear {s : St} {x b : ℕ} (h : p[s.pc]? = some (.clear x)) (hb : s.env x = some b) :
      Step p s ⟨s.pc + 1, s.own x none, s.heap.erase b⟩
  | use {s : St} {x b : ℕ} (h : p[s.pc]? = some (.use x)) (hb : s.env x = some b) :
      Step p s ⟨s.pc + 1, s.env, s.heap⟩
  | goto {s : St} {l : ℕ} (h : p[s.pc]? = some (.goto l)) : Step p s ⟨l, s.env, s.heap⟩
  | left {s : St} {l m : ℕ} (h : p[s.pc]? = some (.fork l m)) : Step p s ⟨l, s.env, s.heap⟩
  | right {s : St} {l m : ℕ} (h : p[s.pc]? = some (.fork l m)) : Step p s ⟨m, s.env, s.heap⟩

/-- The routine is entered with the blocks `H` allocated; no local variable is initialised. -/
def start (H : Finset ℕ) : St := ⟨0, fun _ => none, H⟩

/-- A routine: where it is, and what it does. -/
structure Routine where
  file : String
  name : String
  first : ℕ
  last : ℕ
  code : List Instr

end Pbc.Life
