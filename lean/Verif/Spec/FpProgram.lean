import Mathlib.Data.ZMod.Basic

/-!
# Specification: programs over `Z/p`

What a user of the `element_*` interface of a prime field expects: a set of variables holding
residues modulo `p`, and the operations acting on them as in `Z/p`.  Variables are numbered, so
a program can use the same variable several times in one call (aliasing).
-/

set_option autoImplicit false

namespace Spec

/-- One call of the `element_*` interface on a prime field. The first argument is the variable
that receives the result. -/
inductive FpOp
  | setMpz (c : ℕ) (z : ℤ)
  | setSi (c : ℕ) (z : ℤ)
  | set0 (c : ℕ)
  | set1 (c : ℕ)
  | set (c a : ℕ)
  | add (c a b : ℕ)
  | sub (c a b : ℕ)
  | neg (c a : ℕ)
  | double (c a : ℕ)
  | halve (c a : ℕ)
  | mul (c a b : ℕ)
  | square (c a : ℕ)
  | mulMpz (c a : ℕ) (z : ℤ)
  | mulSi (c a : ℕ) (z : ℤ)
  | pow (c a : ℕ) (n : ℕ)
  | invert (c a : ℕ)
  | random (c : ℕ) (z : ℕ)
  | fromBytes (c : ℕ) (data : List ℕ)
deriving DecidableEq

/-- Big-endian value of a byte string. -/
def bytesVal (data : List ℕ) : ℕ := data.foldl (fun acc b => 256 * acc + b) 0

/-- The residues held by the variables. -/
abbrev FpState (p : ℕ) := ℕ → ZMod p

/-- The value an operation computes from the current variables. -/
def FpOp.value {p : ℕ} (s : FpState p) : FpOp → ZMod p
  | setMpz _ z => (z : ZMod p)
  | setSi _ z => (z : ZMod p)
  | set0 _ => 0
  | set1 _ => 1
  | set _ a => s a
  | add _ a b => s a + s b
  | sub _ a b => s a - s b
  | neg _ a => - s a
  | double _ a => 2 * s a
  | halve _ a => s a * 2⁻¹
  | mul _ a b => s a * s b
  | square _ a => s a ^ 2
  | mulMpz _ a z => s a * (z : ZMod p)
  | mulSi _ a z => s a * (z : ZMod p)
  | pow _ a n => s a ^ n
  | invert _ a => (s a)⁻¹
  | random _ z => (z : ZMod p)
  | fromBytes _ data => (bytesVal data : ZMod p)

/-- The variable an operation writes. -/
def FpOp.dest : FpOp → ℕ
  | setMpz c _ => c | setSi c _ => c | set0 c => c | set1 c => c | set c _ => c
  | add c _ _ => c | sub c _ _ => c | neg c _ => c | double c _ => c | halve c _ => c
  | mul c _ _ => c | square c _ => c | mulMpz c _ _ => c | mulSi c _ _ => c | pow c _ _ => c
  | invert c _ => c | random c _ => c | fromBytes c _ => c

/-- One step of the specification. -/
def FpOp.step {p : ℕ} (s : FpState p) (o : FpOp) : FpState p :=
  Function.update s o.dest (o.value s)

/-- Run a program. -/
def fpRun {p : ℕ} (s : FpState p) (prog : List FpOp) : FpState p := prog.foldl FpOp.step s

/-- Every operation of the program meets the precondition `ok` in the state where it runs. -/
def FpAllowed {p : ℕ} (ok : FpState p → FpOp → Prop) : FpState p → List FpOp → Prop
  | _, [] => True
  | s, o :: rest => ok s o ∧ FpAllowed ok (o.step s) rest

end Spec
