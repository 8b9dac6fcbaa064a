import Mathlib.Algebra.Polynomial.Eval.Degree
import Mathlib.Algebra.Polynomial.Div
import Mathlib.Logic.Function.Basic

/-!
# Specification: polynomials

What an array of coefficients stands for, when it is normalised, and programs over a polynomial ring.
-/

set_option autoImplicit false

namespace Spec

open Polynomial

variable {R : Type*} [CommRing R]

/-- The polynomial with the given coefficients, lowest first. -/
noncomputable def toPoly (l : List R) : R[X] := l.foldr (fun a p => C a + X * p) 0

/-- No leading zero. -/
def Normal (l : List R) : Prop := l.getLast? ≠ some 0

/-- Calls on a polynomial ring; the first argument receives the result. -/
inductive PolyOp (R : Type*)
  | setZ (c : ℕ) (z : ℤ)
  | set0 (c : ℕ)
  | set1 (c : ℕ)
  | setX (c : ℕ)
  | set (c a : ℕ)
  | add (c a b : ℕ)
  | sub (c a b : ℕ)
  | neg (c a : ℕ)
  | double (c a : ℕ)
  | mul (c a b : ℕ)
  | square (c a : ℕ)
  | mulZ (c a : ℕ) (z : ℤ)
  | constMul (c : ℕ) (r : R) (a : ℕ)
  | setCoeff (c : ℕ) (r : R) (n : ℕ)
  | setCoeff0 (c : ℕ) (n : ℕ)
  | setCoeff1 (c : ℕ) (n : ℕ)

namespace PolyOp

/-- The variable that is written. -/
def dest : PolyOp R → ℕ
  | setZ c _ => c | set0 c => c | set1 c => c | setX c => c | set c _ => c | add c _ _ => c
  | sub c _ _ => c | neg c _ => c | double c _ => c | mul c _ _ => c | square c _ => c
  | mulZ c _ _ => c | constMul c _ _ => c | setCoeff c _ _ => c | setCoeff0 c _ => c
  | setCoeff1 c _ => c

/-- The polynomial that is written. -/
noncomputable def value (s : ℕ → R[X]) : PolyOp R → R[X]
  | setZ _ z => (z : R[X])
  | set0 _ => 0
  | set1 _ => 1
  | setX _ => X
  | set _ a => s a
  | add _ a b => s a + s b
  | sub _ a b => s a - s b
  | neg _ a => - s a
  | double _ a => 2 * s a
  | mul _ a b => s a * s b
  | square _ a => s a ^ 2
  | mulZ _ a z => s a * (z : R[X])
  | constMul _ r a => C r * s a
  | setCoeff c r n => s c + C (r - (s c).coeff n) * X ^ n
  | setCoeff0 c n => s c - C ((s c).coeff n) * X ^ n
  | setCoeff1 c n => s c + C (1 - (s c).coeff n) * X ^ n

/-- One step. -/
noncomputable def step (s : ℕ → R[X]) (o : PolyOp R) : ℕ → R[X] :=
  Function.update s o.dest (o.value s)

/-- Multiplication by an integer only if the integer annihilates nothing. -/
def ok : PolyOp R → Prop
  | double _ _ => ∀ x : R, 2 * x = 0 → x = 0
  | mulZ _ _ z => ∀ x : R, x * (z : R) = 0 → x = 0
  | _ => True

end PolyOp

/-- Run a program. -/
noncomputable def polyRun (s : ℕ → R[X]) (prog : List (PolyOp R)) : ℕ → R[X] :=
  prog.foldl PolyOp.step s

/-- The store holds normalised arrays standing for `s`. -/
def PolyRep (m : ℕ → List R) (s : ℕ → R[X]) : Prop :=
  ∀ e, toPoly (m e) = s e ∧ Normal (m e)

end Spec
