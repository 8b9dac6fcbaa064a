import Verif.Model.Objects

/-!
# What it means that clearing releases what set-up allocated
-/

set_option autoImplicit false

namespace Spec.Obj

open Pbc.Obj

/-- Making parts one after the other: a part must not exist already, and what it is made over must exist. -/
def make (o : Obj) : List Nm → Finset Nm → Option (Finset Nm)
  | [], H => some H
  | n :: l, H => if n ∉ H ∧ ∀ m ∈ o.over n, m ∈ H then make o l (insert n H) else none

/-- Releasing parts one after the other: a part must exist, and what its clear routine reads must still exist. -/
def drop (o : Obj) : List Nm → Finset Nm → Option (Finset Nm)
  | [], H => some H
  | n :: l, H => if n ∈ H ∧ ∀ m ∈ o.needs n, m ∈ H then drop o l (H.erase n) else none

/-- Set-up followed by clear, from a state in which the parts `H` of other objects exist. -/
def life (o : Obj) (H : Finset Nm) : Option (Finset Nm) := (make o o.init H).bind (drop o o.clear)

/-- The other objects have no part in common with this one, and no object has a place outside blocks. -/
def Apart (o : Obj) (H : Finset Nm) : Prop := (∀ n ∈ o.init, n ∉ H) ∧ Nm.oob ∉ H

/-- Set-up and clear are defined, and afterwards exactly those parts exist that existed before. -/
def Restores (o : Obj) : Prop := ∀ H, Apart o H → life o H = some H

/-- Set-up and clear are defined, and afterwards the parts `K` of the object still exist. -/
def Leaves (o : Obj) (K : Finset Nm) : Prop :=
  K ⊆ o.init.toFinset ∧ ∀ H, Apart o H → life o H = some (H ∪ K)

/-- No part is released while another, still to be released, is built on it. -/
def Ordered (o : Obj) : Prop := ∀ l₁ n l₂, o.clear = l₁ ++ n :: l₂ → ∀ m ∈ l₂, n ∉ o.over m

end Spec.Obj
