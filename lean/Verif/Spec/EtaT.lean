import Verif.Model.EtaT
import Verif.Spec.Curve

/-!
# Specification of the type I pairing

The curve is `Y² = X³ - X + 1` with Mathlib's group law.  Its number of points over `GF(3^m)`, `m`
prime to 6, and the exponent of the final powering are given by closed formulas.
-/

set_option autoImplicit false

namespace Spec.EtaT

/-- `3^((m+1)/2)` with the sign `μ` of the curve: `+` for `m ≡ ±1 mod 12`, `-` for `m ≡ ±5`. -/
def trace (m : ℕ) : ℤ := (if m % 12 = 1 ∨ m % 12 = 11 then 1 else -1) * 3 ^ ((m + 1) / 2)

/-- The order of the group of points over `GF(3^m)`. -/
def order (m : ℕ) : ℕ := ((3 : ℤ) ^ m + 1 + trace m).toNat

/-- The exponent of the final powering. -/
def expo (m : ℕ) : ℕ :=
  (3 ^ (3 * m) - 1) * (3 ^ m + 1) * ((3 : ℤ) ^ m + 1 - trace m).toNat

end Spec.EtaT

namespace Pbc.EtaT

open Spec
open Pbc.Curve (Mem wInf)

variable {F : Type*} [Field F] [DecidableEq F]

/-- One call on the store; `t` is the temporary of `generic_sub`. -/
def exec (t : ℕ) (m : Mem F) : GroupOp → Option (Mem F)
  | .set0 c => some (wInf m c true)
  | .set c a => some (set m c a)
  | .add c a b => add m c a b
  | .sub c a b => sub t m c a b
  | .neg c a => some (invert m c a)
  | .double c a => double m c a
  | .mulMpz c a n => mulMpz m c a n

/-- Run a program. -/
def run (t : ℕ) : Mem F → List GroupOp → Option (Mem F)
  | m, [] => some m
  | m, op :: rest =>
    match exec t m op with
    | none => none
    | some m => run t m rest

/-- The product of `n` factors `v` in the field of `3^(6m)` elements. -/
def npow (v : Pbc.Ternary.E3 (Pbc.Ternary.E2 F)) : ℕ → Pbc.Ternary.E3 (Pbc.Ternary.E2 F)
  | 0 => Pbc.Ternary.E3.one
  | n + 1 => (npow v n).mul v

end Pbc.EtaT
