import Verif.Model.Multiz
import Verif.Model.Poly
import Verif.Model.Curve

/-!
# Elements from nested lists of integers (`element_set_multiz`) and their items (`element_item`)

A field is given by the function `element_set_multiz` calls for it, so towers of fields are nested
calls.  `none` is an access outside a list.  Every routine writes all of the destination except
`curve_set_multiz`, which takes the old contents.
-/

set_option autoImplicit false

namespace Pbc.SetMultiz

open Pbc.Multiz

/-- `multiz_to_mpz` (`/repo/arith/multiz.c:136-140`): down to the first integer. -/
def toMpz : MZ → Option ℤ
  | .int z => some z
  | .arr [] => none
  | .arr (a :: _) => toMpz a

/-- `multiz_is_z` (`/repo/arith/multiz.c:576-578`). -/
def isZ : MZ → Bool
  | .int _ => true
  | .arr _ => false

/-- `multiz_count` (`/repo/arith/multiz.c:580-583`). -/
def count : MZ → ℤ
  | .int _ => -1
  | .arr l => l.length

/-- `multiz_at` (`/repo/arith/multiz.c:585-589`); the assertions are not compiled in by default. -/
def «at» : MZ → ℕ → Option MZ
  | .int _, _ => none
  | .arr l, i => l[i]?

section

variable {K : Type*}

/-- `generic_set_multiz` (`/repo/arith/field.c:437-443`); `setMpz` is `element_set_mpz`.  Used by the prime
fields and the integers. -/
def generic (setMpz : ℤ → K) (m : MZ) : Option K := (toMpz m).map setMpz

/-- `fq_set_multiz` (`/repo/arith/fieldquadratic.c:133-143`) over a base field with the given function. -/
def fq [Zero K] (base : MZ → Option K) (m : MZ) : Option (Quad.El K) :=
  if isZ m then (base m).map fun x => ⟨x, 0⟩
  else
    ((«at» m 0).bind base).bind fun x =>
      if 2 > count m then some ⟨x, 0⟩
      else ((«at» m 1).bind base).map fun y => ⟨x, y⟩

/-- `polymod_set_multiz` (`/repo/arith/poly.c:1253-1267`): the `n` coefficients. -/
def polymod [Zero K] (n : ℕ) (base : MZ → Option K) (m : MZ) : Option (List K) :=
  if isZ m then (base m).map fun x => x :: List.replicate (n - 1) 0
  else (List.range n).mapM fun i : ℕ => if Int.ofNat i ≥ count m then some 0 else («at» m i).bind base

/-- `poly_set_multiz` (`/repo/arith/poly.c:144-162`), with `poly_set_mpz` (`/repo/arith/poly.c:136-142`). -/
def poly [CommRing K] [DecidableEq K] (base : MZ → Option K) (m : MZ) : Option (List K) :=
  if isZ m then (toMpz m).map fun z : ℤ => Poly.strip [(Int.cast z : K)]
  else ((List.range (count m).toNat).mapM fun i => («at» m i).bind base).map Poly.strip

/-- `curve_set_multiz` (`/repo/ecc/curve.c:535-553`): a warning leaves the element as it was. -/
def curve (base : MZ → Option K) (old : Curve.Pt K) (m : MZ) : Option (Curve.Pt K) :=
  if isZ m then some (if Multiz.is0 m then { old with inf := true } else old)
  else if count m < 2 then some old
  else ((«at» m 0).bind base).bind fun x => ((«at» m 1).bind base).map fun y => ⟨false, x, y⟩

/-! ### Items -/

/-- `fq_item_count`, `fq_item` (`/repo/arith/fieldquadratic.c:395-410`). -/
def fqItems (e : Quad.El K) : List K := [e.x, e.y]

/-- `poly_coeff_count`, `poly_coeff` (`/repo/arith/poly.c:175-183`) and `polymod_coeff_count`,
`polymod_coeff` (`/repo/arith/poly.c:1286-1295`): an element is its list of coefficients. -/
def polyItems (e : List K) : List K := e

/-- `curve_item_count`, `curve_item` (`/repo/ecc/curve.c:658-676`). -/
def curveItems (p : Curve.Pt K) : List K := if p.inf then [] else [p.x, p.y]

end

end Pbc.SetMultiz
