import Verif.Spec.Curve
import Verif.Spec.Pairing
import Mathlib.FieldTheory.Finite.Basic

/-! # What parameters of type E are

Stated without reference to the routines. -/

set_option autoImplicit false

namespace Spec

/-- `K` is the field of `q` elements, `r = 2^exp2 ± 2^exp1 ± 1` a prime dividing `q - 1`. -/
structure TypeE (K : Type*) [Field K] [Fintype K] (q r exp2 exp1 : ℕ) (sign1 sign0 : ℤ) : Prop where
  card : Fintype.card K = q
  two : (2 : K) ≠ 0
  prime : r.Prime
  dvd : r ∣ q - 1
  pos : 1 ≤ exp1
  lt : exp1 < exp2
  s1 : sign1 = 1 ∨ sign1 = -1
  s0 : sign0 = 1 ∨ sign0 = -1
  hr : (r : ℤ) = 2 ^ exp2 + sign1 * 2 ^ exp1 + sign0
  big : 5 < r

/-- The points killed by `r`. -/
def tors {A : Type*} [AddCommGroup A] (r : ℕ) : AddSubgroup A := (nsmulAddMonoidHom r : A →+ A).ker

theorem mem_tors {A : Type*} [AddCommGroup A] {r : ℕ} {P : A} : P ∈ tors r ↔ r • P = 0 := Iff.rfl

/-- The random point drawn when the pairing is set up: twice it is not killed by `r`. -/
def GoodShift {A : Type*} [AddCommGroup A] (r : ℕ) (R : A) : Prop := r • (R + R) ≠ 0

end Spec
