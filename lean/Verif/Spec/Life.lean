import Verif.Model.Life
import Mathlib.Logic.Relation

/-!
# What a user expects of the temporaries of a routine
-/

set_option autoImplicit false

namespace Spec.Life

open Pbc.Life

/-- The states that an execution entered with the blocks `H` can reach. -/
def Reach (p : List Instr) (H : Finset ℕ) (s : St) : Prop := Relation.ReflTransGen (Step p) (start H) s

/-- The behaviour of the C program is undefined: a variable that owns nothing is used or cleared, or control leaves the
routine other than by returning. -/
def Undefined (p : List Instr) (s : St) : Prop :=
  match p[s.pc]? with
  | some (.use x) => s.env x = none
  | some (.clear x) => s.env x = none
  | none => True
  | _ => False

/-- The routine returns. -/
def Returns (p : List Instr) (s : St) : Prop := p[s.pc]? = some .ret

/-- In every execution: nothing is used or cleared that is not initialised, and on return the blocks allocated are
those at the call. -/
structure Tidy (p : List Instr) : Prop where
  defined : ∀ H s, Reach p H s → ¬ Undefined p s
  balanced : ∀ H s, Reach p H s → Returns p s → s.heap = H

/-- Some execution returns and leaves behind `k` more blocks than were allocated, all of those included; whatever was
allocated at the call. -/
def Leaks (p : List Instr) (k : ℕ) : Prop :=
  ∀ H, ∃ s, Reach p H s ∧ Returns p s ∧ H ⊆ s.heap ∧ s.heap.card = H.card + k

/-- `n` calls one after the other, from blocks `H` to blocks `H'`. -/
inductive Calls (p : List Instr) : ℕ → Finset ℕ → Finset ℕ → Prop
  | none (H : Finset ℕ) : Calls p 0 H H
  | more {n : ℕ} {H H' : Finset ℕ} {s : St} (h : Calls p n H H') (r : Reach p H' s) (t : Returns p s) :
      Calls p (n + 1) H s.heap

end Spec.Life
