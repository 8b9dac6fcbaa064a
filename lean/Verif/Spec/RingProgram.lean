import Mathlib.Algebra.Field.Basic
import Mathlib.Logic.Function.Basic

/-!
# Specification: programs over a field

The `element_*` calls on any field of the library, as operations on numbered variables.
-/

set_option autoImplicit false

namespace Spec

/-- One call; the first argument is the variable that receives the result. -/
inductive RingOp
  | setSi (c : ℕ) (z : ℤ)
  | setMpz (c : ℕ) (z : ℤ)
  | set0 (c : ℕ)
  | set1 (c : ℕ)
  | set (c a : ℕ)
  | add (c a b : ℕ)
  | sub (c a b : ℕ)
  | neg (c a : ℕ)
  | double (c a : ℕ)
  | halve (c a : ℕ)
  | mul (c a b : ℕ)
  | square (c a : ℕ)
  | mulMpz (c a : ℕ) (z : ℤ)
  | mulSi (c a : ℕ) (z : ℤ)
  | invert (c a : ℕ)
  | div (c a b : ℕ)

variable {L : Type*} [Field L]

/-- The value an operation computes. -/
def RingOp.value (s : ℕ → L) : RingOp → L
  | setSi _ z => (z : L)
  | setMpz _ z => (z : L)
  | set0 _ => 0
  | set1 _ => 1
  | set _ a => s a
  | add _ a b => s a + s b
  | sub _ a b => s a - s b
  | neg _ a => - s a
  | double _ a => 2 * s a
  | halve _ a => s a / 2
  | mul _ a b => s a * s b
  | square _ a => s a ^ 2
  | mulMpz _ a z => s a * (z : L)
  | mulSi _ a z => s a * (z : L)
  | invert _ a => (s a)⁻¹
  | div _ a b => s a / s b

/-- The variable an operation writes. -/
def RingOp.dest : RingOp → ℕ
  | setSi c _ => c | setMpz c _ => c | set0 c => c | set1 c => c | set c _ => c
  | add c _ _ => c | sub c _ _ => c | neg c _ => c | double c _ => c | halve c _ => c
  | mul c _ _ => c | square c _ => c | mulMpz c _ _ => c | mulSi c _ _ => c
  | invert c _ => c | div c _ _ => c

/-- The variables an operation mentions. -/
def RingOp.vars : RingOp → List ℕ
  | setSi c _ => [c] | setMpz c _ => [c] | set0 c => [c] | set1 c => [c] | set c a => [c, a]
  | add c a b => [c, a, b] | sub c a b => [c, a, b] | neg c a => [c, a] | double c a => [c, a]
  | halve c a => [c, a] | mul c a b => [c, a, b] | square c a => [c, a] | mulMpz c a _ => [c, a]
  | mulSi c a _ => [c, a] | invert c a => [c, a] | div c a b => [c, a, b]

/-- One step. -/
def RingOp.step (s : ℕ → L) (o : RingOp) : ℕ → L := Function.update s o.dest (o.value s)

/-- Run a program. -/
def ringRun (s : ℕ → L) (prog : List RingOp) : ℕ → L := prog.foldl RingOp.step s

/-- Division only by something nonzero. -/
def RingOp.ok (s : ℕ → L) : RingOp → Prop
  | .halve _ _ => (2 : L) ≠ 0
  | .invert _ a => s a ≠ 0
  | .div _ _ b => s b ≠ 0
  | _ => True

/-- Every call of the program is allowed in the state where it runs. -/
def RingAllowed : (ℕ → L) → List RingOp → Prop
  | _, [] => True
  | s, o :: rest => o.ok s ∧ RingAllowed (o.step s) rest

end Spec
