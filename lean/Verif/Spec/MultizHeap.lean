import Verif.Model.MultizHeap
import Mathlib.Data.Finset.Lattice.Lemmas

/-!
# Specification: elements that are nested lists of integers, by value

Every element is either not initialised or holds a nested list.  Putting an element into a list
hands it over: afterwards it counts as not initialised.
-/

set_option autoImplicit false

namespace Spec.MultizHeap

open Pbc.MultizHeap
open Pbc.Multiz (MZ)

/-- What the elements should hold; `none` for an element that is not initialised. -/
abbrev Store := ℕ → Option MZ

/-- The effect of a call; `none` when the caller may not make it: an element initialised twice, used
before it is initialised or after it was cleared or put into a list, an entry appended to an
integer, a division by zero, or a sum or a conversion that needs the first entry of an empty list. -/
def step (s : Store) : Op → Option Store
  | .init i => match s i with
    | none => some (Function.update s i (some (.int 0)))
    | some _ => none
  | .clear i => (s i).bind fun _ => some (Function.update s i none)
  | .setZ i z => (s i).bind fun _ => some (Function.update s i (some (.int z)))
  | .set i j => (s i).bind fun _ => (s j).bind fun t => some (Function.update s i (some t))
  | .neg i j =>
    (s i).bind fun _ => (s j).bind fun t => some (Function.update s i (some (Pbc.Multiz.neg t)))
  | .add i j k => (s i).bind fun _ => (s j).bind fun t => (s k).bind fun u =>
    (Pbc.Multiz.add t u).bind fun v => some (Function.update s i (some v))
  | .sub i j k => (s i).bind fun _ => (s j).bind fun t => (s k).bind fun u =>
    (Pbc.Multiz.sub t u).bind fun v => some (Function.update s i (some v))
  | .mul i j k => (s i).bind fun _ => (s j).bind fun t => (s k).bind fun u =>
    (Pbc.Multiz.mul t u).bind fun v => some (Function.update s i (some v))
  | .mulZ i j z => (s i).bind fun _ => (s j).bind fun t =>
    some (Function.update s i (some (Pbc.Multiz.mulMpz t z)))
  | .div i j k => (s i).bind fun _ => (s j).bind fun t => (s k).bind fun u =>
    (Pbc.SetMultiz.toMpz u).bind fun d => if d = 0 then none else
      some (Function.update s i (some (Pbc.Multiz.unary (fun z => Int.tdiv z d) t)))
  | .random i => (s i).bind fun _ => some (Function.update s i (some (.int 0)))
  | .newList i j => match s i with
    | none => (s j).bind fun t =>
      some (Function.update (Function.update s j none) i (some (.arr [t])))
    | some _ => none
  | .append i j => match s i with
    | some (.arr l) => if i = j then none else (s j).bind fun t =>
      some (Function.update (Function.update s j none) i (some (.arr (l ++ [t]))))
    | _ => none

/-- The effect of a program. -/
def steps (s : Store) (prog : List Op) : Option Store := prog.foldlM step s

mutual

/-- The nested list `t` is in memory at the address `a`, and `F` are the nodes it consists of. -/
def Holds (c : ℕ → Option Cell) : MZ → ℕ → Finset ℕ → Prop
  | .int z, a, F => c a = some (.int z) ∧ F = {a}
  | .arr l, a, F => ∃ as G, c a = some (.arr as) ∧ HoldsL c l as G ∧ a ∉ G ∧ F = insert a G

/-- The same for the entries of a list; they share no nodes. -/
def HoldsL (c : ℕ → Option Cell) : List MZ → List ℕ → Finset ℕ → Prop
  | [], as, F => as = [] ∧ F = ∅
  | t :: l, as, F => ∃ a as' G G', as = a :: as' ∧ Holds c t a G ∧ HoldsL c l as' G' ∧
      Disjoint G G' ∧ F = G ∪ G'

end

/-- Every initialised element holds its value, in nodes of its own, and no other nodes are in use. -/
def Owns (σ : State) (s : Store) : Prop :=
  ∃ F : ℕ → Finset ℕ,
    (∀ i t, s i = some t → ∃ a, σ.data i = some a ∧ Holds σ.heap.cells t a (F i)) ∧
    (∀ i, s i = none → F i = ∅) ∧
    (∀ i j, i ≠ j → Disjoint (F i) (F j)) ∧
    (∀ a, σ.heap.cells a ≠ none ↔ ∃ i, a ∈ F i) ∧
    (∀ a, σ.heap.next ≤ a → σ.heap.cells a = none)

end Spec.MultizHeap
