import Verif.Spec.PairingD
import Mathlib.Algebra.Algebra.Tower
import Mathlib.Data.Nat.Prime.Defs

/-! # What the parameters of type F are -/

set_option autoImplicit false

namespace Pbc.PairingF

open Pbc.PairingD (Ext)

variable {F K L : Type*} [Field F] [Fintype F] [Field K] [Fintype K] [Field L] [Fintype L]
  [Algebra F K] [Algebra K L]

/-- The fields have `q`, `q²` and `q^12` elements, `q` is 1 modulo 6, `ξ` is a root of `x^6 + alpha` with
`alpha = alpha0 + alpha1 η`, and `r` is a prime that divides `q⁴ - q² + 1`. -/
structure TypeF (E2 : Ext F K) (E12 : Ext K L) (η : K) (ξ : L) (q r : ℕ) (alpha0 alpha1 : F) : Prop where
  ok2 : E2.Ok η
  d2 : E2.d = 2
  ok12 : E12.Ok ξ
  d12 : E12.d = 6
  cardF : Fintype.card F = q
  cardK : Fintype.card K = q ^ 2
  cardL : Fintype.card L = q ^ 12
  six : q % 6 = 1
  root : ξ ^ 6 + algebraMap K L (algebraMap F K alpha0 + algebraMap F K alpha1 * η) = 0
  prime : r.Prime
  dvd : r ∣ q ^ 4 - q ^ 2 + 1

end Pbc.PairingF
