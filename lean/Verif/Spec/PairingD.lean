import Verif.Model.PairingD
import Mathlib.Algebra.Algebra.Defs
import Mathlib.Algebra.BigOperators.Group.Finset.Basic
import Mathlib.Data.Fintype.Card

/-! # What the parameters of types D and G are -/

set_option autoImplicit false

namespace Pbc.PairingD

variable {F K : Type*} [Field F] [Field K] [Algebra F K]

/-- The routines that read and write coefficients are those of the basis `1, ξ, …, ξ^(d-1)`. -/
structure Ext.Ok (E : Ext F K) (ξ : K) : Prop where
  pos : 0 < E.d
  make : ∀ g, E.make g = ∑ i ∈ Finset.range E.d, algebraMap F K (g i) * ξ ^ i
  item : ∀ x, E.make (E.item x) = x

end Pbc.PairingD
