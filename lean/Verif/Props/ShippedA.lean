import Verif.Props.Shipped

/-! # C140, type A: `a.param` -/

set_option autoImplicit false
set_option linter.style.longLine false

namespace Pbc.Shipped

open Pbc.Param Pbc.Certify

set_option maxRecDepth 20000 in
theorem a_good : GoodA 8780710799663312522437781984754049815806883199414208211028653399266475630880222957078625179422662221423155858769582317459277713367317481324925129998224791 730750818665451621361119245571504901405976559617 12016012264891146079388821366740534204802954401251311822919615131047207289359704531102844802183906537786776 159 107 1 :=
  goodA a_q a_r (by decide +kernel) ⟨by decide, by decide, by decide, by decide +kernel, by decide⟩ (by decide +kernel) (by decide +kernel)

/-- **C140** for `a.param`: it is read as what it says, and gives a working pairing. -/
theorem C140_a : Reads aText aPar ∧ ∃ (q r h exp2 exp1 : ℕ) (sign1 sign0 : ℤ), aPar = .a q r h exp2 exp1 sign1 sign0 ∧
    (r : ℤ) = 2 ^ exp2 + sign1 * 2 ^ exp1 + sign0 ∧ GoodA q r h exp2 exp1 sign1 :=
  ⟨a_reads, _, _, _, _, _, _, _, rfl, by decide +kernel, a_good⟩

end Pbc.Shipped
