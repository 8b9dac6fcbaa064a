/-
Specification: binary quadratic forms of negative discriminant.
-/
import Mathlib.Data.Int.GCD
import Mathlib.Algebra.GCDMonoid.Nat

set_option autoImplicit false

namespace Spec.Forms

/-- The form `a x² + b x y + c y²`. -/
structure Form where
  a : ℤ
  b : ℤ
  c : ℤ
  deriving DecidableEq, Repr

/-- The discriminant. -/
def Form.disc (f : Form) : ℤ := f.b ^ 2 - 4 * f.a * f.c

/-- Positive definite and reduced in the sense of Gauss. -/
def Form.Reduced (f : Form) : Prop :=
  0 < f.a ∧ |f.b| ≤ f.a ∧ f.a ≤ f.c ∧ ((|f.b| = f.a ∨ f.a = f.c) → 0 ≤ f.b)

/-- The coefficients have no common factor. -/
def Form.Primitive (f : Form) : Prop := ∀ g : ℤ, g ∣ f.a → g ∣ f.b → g ∣ f.c → IsUnit g

/-- `-D` is a discriminant that is not a square multiple of another one: every form of
discriminant `-D` is then primitive. -/
def Fundamental (D : ℕ) : Prop :=
  ∀ f E : ℕ, D = f ^ 2 * E → E % 4 = 0 ∨ E % 4 = 3 → f = 1

end Spec.Forms
