import Verif.Model.Curve
import Mathlib.AlgebraicGeometry.EllipticCurve.Affine.Point

/-!
# Specification of the curve elements

Points are Mathlib's nonsingular affine points of `Y² = X³ + a X + b` with Mathlib's group law.
-/

set_option autoImplicit false

namespace Spec

open Pbc.Curve

variable {K : Type*} [Field K]

/-- The curve `Y² = X³ + a X + b`. -/
def EC (a b : K) : WeierstrassCurve.Affine K := ⟨0, 0, 0, a, b⟩

/-- The stored element stands for the point `P`. -/
def PtRep {W : WeierstrassCurve.Affine K} (p : Pt K) : W.Point → Prop
  | .zero => p.inf = true
  | .some x y _ => p.inf = false ∧ p.x = x ∧ p.y = y

/-- The plain equation of the curve. -/
def OnCurve (a b : K) (p : Pt K) : Prop := p.inf = true ∨ p.y ^ 2 = p.x ^ 3 + a * p.x + b

/-- Calls on curve elements; the first argument receives the result. -/
inductive GroupOp
  | set0 (c : ℕ)
  | set (c a : ℕ)
  | add (c a b : ℕ)
  | sub (c a b : ℕ)
  | neg (c a : ℕ)
  | double (c a : ℕ)
  | mulMpz (c a n : ℕ)

/-- The variables a call mentions. -/
def GroupOp.vars : GroupOp → List ℕ
  | set0 c => [c] | set c a => [c, a] | add c a b => [c, a, b] | sub c a b => [c, a, b]
  | neg c a => [c, a] | double c a => [c, a] | mulMpz c a _ => [c, a]

variable {G : Type*} [AddCommGroup G]

/-- Meaning of one call in a commutative group. -/
def GroupOp.step (s : ℕ → G) : GroupOp → ℕ → G
  | set0 c => Function.update s c 0
  | set c a => Function.update s c (s a)
  | add c a b => Function.update s c (s a + s b)
  | sub c a b => Function.update s c (s a - s b)
  | neg c a => Function.update s c (- s a)
  | double c a => Function.update s c (2 • s a)
  | mulMpz c a n => Function.update s c (n • s a)

/-- Run a program. -/
def groupRun (s : ℕ → G) (prog : List GroupOp) : ℕ → G := prog.foldl GroupOp.step s

end Spec

namespace Pbc.Curve

open Spec

variable {K : Type*} [Field K] [DecidableEq K]

/-- One call on the store of a curve with coefficient `ca`; `t` is the temporary of `generic_sub`. -/
def exec (ca : K) (t : ℕ) (m : Mem K) : GroupOp → Option (Mem K)
  | .set0 c => some (wInf m c true)
  | .set c a => some (set m c a)
  | .add c a b => add ca m c a b
  | .sub c a b => sub ca t m c a b
  | .neg c a => some (invert m c a)
  | .double c a => double ca m c a
  | .mulMpz c a n => mulMpz ca m c a n

/-- Run a program. -/
def run (ca : K) (t : ℕ) : Mem K → List GroupOp → Option (Mem K)
  | m, [] => some m
  | m, op :: rest =>
    match exec ca t m op with
    | none => none
    | some m => run ca t m rest

end Pbc.Curve
