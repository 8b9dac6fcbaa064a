import Verif.Spec.Curve

/-! # Membership in the groups of a pairing -/

set_option autoImplicit false

namespace Spec

open WeierstrassCurve WeierstrassCurve.Affine
open Pbc.Curve (Pt)

variable {K : Type*} [Field K] [DecidableEq K]

/-- The element is a point of the curve `y² = x³ + a x + b` of order dividing `r`. -/
def InGroup (a b : K) (r : ℕ) (p : Pt K) : Prop := ∃ P : (EC a b).Point, PtRep p P ∧ r • P = 0

end Spec
