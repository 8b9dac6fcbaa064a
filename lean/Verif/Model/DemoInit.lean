import Verif.Model.ParamInit

/-! # `/repo/include/pbc_test.h`: how the example programs get their parameters -/

set_option autoImplicit false

namespace Pbc.DemoInit

open Pbc.Param

/-- `pbc_demo_pairing_init` (`/repo/include/pbc_test.h:10-23`): the outer `none` is an access outside of memory, the inner one
`pbc_die`; otherwise the parameters the pairing is made from.  `file` is what the file or the standard input holds (`none` if
it cannot be opened), `stack` what the 16384 bytes of `s` held before; reading does not fail half-way. -/
def demoInit (stack : List Char) (file : Option (List Char)) : Option (Option Par) :=
  match file with
  | none => some none
  | some f =>
    let got := f.take 16384
    let s := got ++ stack.drop got.length
    let count := got.length
    if count = 0 then some none
    else match pairingInit s count with
      | none => none
      | some none => some none
      | some (some (res, par)) => if res ≠ 0 then some none else some par

end Pbc.DemoInit
