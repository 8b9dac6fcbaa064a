import Verif.Spec.Curve
import Mathlib.AlgebraicGeometry.EllipticCurve.DivisionPolynomial.Basic

/-! # Specification of the elliptic net methods -/

set_option autoImplicit false

namespace Spec

/-- The value at `(x, y)` of the `n`-th division polynomial of `Y² = X³ + a X + b`, an elliptic
divisibility sequence. -/
noncomputable def divPoly {K : Type*} [Field K] (a b x y : K) (n : ℤ) : K :=
  ((EC a b).ψ n).evalEval x y

end Spec
