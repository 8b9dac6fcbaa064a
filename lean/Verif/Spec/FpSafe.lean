import Verif.Spec.FpProgram

/-!
# Specification: which calls behave as in `Z/p`

Preconditions under which the prime-field backends are claimed to compute in `Z/p`.  That each
of the unusual ones is needed is shown in `Verif/Props/FpBugs.lean`.
-/

set_option autoImplicit false

namespace Spec

/-- Montgomery backend, any odd modulus. -/
def montSafe {p : ℕ} (s : FpState p) : FpOp → Prop
  | .halve c a => s c ≠ 0 ∨ s a = 0
  | .mul _ a b => s a * s b = 0 → s a = 0 ∨ s b = 0
  | .square _ a => s a * s a = 0 → s a = 0
  | .mulMpz _ a z => s a * z = 0 → s a = 0 ∨ (z : ZMod p) = 0
  | .mulSi _ a z => s a * z = 0 → s a = 0 ∨ (z : ZMod p) = 0
  | .pow _ a n => (s a ≠ 0 ∨ n ≠ 0) ∧ (s a ^ n = 0 → s a = 0)
  | .invert _ a => IsUnit (s a)
  | .random _ z => z < p
  | .fromBytes _ data => bytesVal data = 0 ∨ ¬ p ∣ bytesVal data
  | _ => True

/-- Montgomery backend, prime modulus. -/
def montSafePrime {p : ℕ} (s : FpState p) : FpOp → Prop
  | .halve c a => s c ≠ 0 ∨ s a = 0
  | .pow _ a n => s a ≠ 0 ∨ n ≠ 0
  | .invert _ a => s a ≠ 0
  | .random _ z => z < p
  | .fromBytes _ data => bytesVal data = 0 ∨ ¬ p ∣ bytesVal data
  | _ => True

/-- `fasterfp.c`, prime modulus. -/
def fasterSafe (w : ℕ) {p : ℕ} (s : FpState p) : FpOp → Prop
  | .setMpz _ z => z = 0 ∨ (z : ZMod p) ≠ 0
  | .setSi _ z => z.natAbs < 2 ^ w
  | .mulMpz _ _ z => z = 0 ∨ (z : ZMod p) ≠ 0
  | .mulSi _ _ z => z.natAbs < 2 ^ w
  | .halve c a => s c ≠ 0 ∨ s a = 0
  | .pow _ a n => s a ≠ 0 ∨ n ≠ 0
  | .invert _ a => s a ≠ 0
  | .random _ z => z < p
  | .fromBytes _ data => bytesVal data < p
  | _ => True

/-- `fastfp.c`, prime modulus. -/
def fastSafe (w : ℕ) {p : ℕ} (s : FpState p) : FpOp → Prop
  | .setSi _ z => z.natAbs < 2 ^ w
  | .mulSi _ _ z => z.natAbs < 2 ^ w
  | .invert _ a => s a ≠ 0
  | .random _ z => z < p
  | _ => True

/-- `naivefp.c`, prime modulus. -/
def naiveSafe {p : ℕ} (s : FpState p) : FpOp → Prop
  | .invert _ a => s a ≠ 0
  | .random _ z => z < p
  | .fromBytes _ data => bytesVal data < p
  | _ => True

/-- Calls on which all four backends are claimed to agree. -/
def commonSafe (w : ℕ) {p : ℕ} (s : FpState p) (o : FpOp) : Prop :=
  montSafePrime s o ∧ fasterSafe w s o

/-- Number of `w`-bit words of `p`. -/
def words (w p : ℕ) : ℕ := (Nat.size p + w - 1) / w

/-- The most significant word of `p` is not all ones. -/
def TopWordFree (w p : ℕ) : Prop := p + 2 ^ (w * (words w p - 1)) ≤ 2 ^ (w * words w p)

/-- The calls that the Montgomery backend carries out with its modular product (exponentiation is
handed to GMP). -/
def FpOp.multiplies : FpOp → Prop
  | .mul _ _ _ | .square _ _ | .mulMpz _ _ _ | .mulSi _ _ _ | .invert _ _ => True
  | _ => False

/-- A precondition together with: no modular product is taken when the top word of `p` is all
ones (the product is wrong for such moduli, see C02). -/
def FpGuard (w : ℕ) {p : ℕ} (safe : FpState p → FpOp → Prop) (s : FpState p) (o : FpOp) : Prop :=
  safe s o ∧ (o.multiplies → TopWordFree w p)

end Spec
