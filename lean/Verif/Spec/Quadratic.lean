import Verif.Model.Quadratic
import Mathlib.Algebra.QuadraticAlgebra.Basic

/-! # Specification of the quadratic extensions: Mathlib's `K[ω]/(ω² - v)` -/

set_option autoImplicit false

namespace Pbc.Quad

variable {K : Type*} [Field K]

/-- The element a pair stands for. -/
def alg (v : K) (e : El K) : QuadraticAlgebra K v 0 := ⟨e.x, e.y⟩

/-- The store read as elements of the extension field. -/
def view (v : K) (m : Mem K) : ℕ → QuadraticAlgebra K v 0 := fun i => alg v (m i)

/-- Decoding undoes encoding, whatever follows in the buffer, and reports the `L` bytes it used. -/
def RoundTrip {K : Type*} (c : Codec K) (L : ℕ) : Prop :=
  ∀ x rest, (c.enc x).length = L ∧ (∀ b ∈ c.enc x, b < 256) ∧ c.dec (c.enc x ++ rest) = (x, L)

end Pbc.Quad
