import Verif.Model.MontProgram
import Verif.Model.OtherFp

/-!
# Which implementation of a prime field is used (`/repo/arith/fp.c`)
-/

set_option autoImplicit false

namespace Pbc.FpChoice

open Spec

/-- The implementations (`/repo/arith/naivefp.c`, `/repo/arith/fastfp.c`, `/repo/arith/fasterfp.c`,
`/repo/arith/montfp.c`). -/
inductive Impl
  /-- `field_init_naive_fp` -/
  | naive
  /-- `field_init_fast_fp` -/
  | fast
  /-- `field_init_faster_fp` -/
  | faster
  /-- `field_init_mont_fp` -/
  | mont
  deriving DecidableEq

/-- `option_fpinit` and the number of error messages printed (`/repo/arith/fp.c:20,32`). -/
structure State where
  /-- `option_fpinit` -/
  opt : Impl
  /-- calls of `pbc_error` -/
  errors : ℕ
  deriving DecidableEq

/-- The initial value of `option_fpinit` (`/repo/arith/fp.c:20`). -/
def State.start : State := ⟨.mont, 0⟩

/-- `pbc_tweak_use_fp` (`/repo/arith/fp.c:22-34`). -/
def tweak (st : State) (s : String) : State :=
  if s = "naive" then { st with opt := .naive }
  else if s = "fast" then { st with opt := .fast }
  else if s = "faster" then { st with opt := .faster }
  else if s = "mont" then { st with opt := .mont }
  else { st with errors := st.errors + 1 }

/-- The routine that `field_init_fp` calls (`/repo/arith/fp.c:36-49`), words of `w` bits. -/
def fieldInitFp (w : ℕ) (st : State) (p : ℕ) : Impl :=
  if p < 2 ^ w then .naive
  else if p % 2 = 1 then st.opt
  else .faster

/-- The calls of a program. -/
inductive Call
  /-- `pbc_tweak_use_fp` -/
  | tweak (s : String)
  /-- `field_init_fp` -/
  | init (p : ℕ)

/-- The fields that a program makes: modulus and implementation, in order; and the state at its
end. -/
def fields (w : ℕ) : State → List Call → List (ℕ × Impl) × State
  | st, [] => ([], st)
  | st, .tweak s :: rest => fields w (tweak st s) rest
  | st, .init p :: rest =>
    let r := fields w st rest
    ((p, fieldInitFp w st p) :: r.1, r.2)

/-- What freshly allocated elements hold before they are set: the words of the elements themselves
and of temporaries (`fp_init` of `/repo/arith/fasterfp.c:31-36`, `/repo/arith/montfp.c:31-36`). -/
structure Junk where
  /-- elements -/
  mem : ℕ → Mont.El
  /-- temporaries -/
  temp : Mont.El

/-- The variable `i` as an integer after a list of calls on new elements of a field of the given
implementation. -/
def result (w p : ℕ) (j : Junk) (prog : List FpOp) (i : ℕ) : Impl → Option ℕ
  | .naive => some (Naive.run p (fun _ => 0) prog i)
  | .fast => some (Fast.toMpz (Mont.init w p) (Fast.run (Mont.init w p) (fun _ => Fast.set0 (Mont.init w p)) prog i))
  | .faster => some (Faster.toMpz (Mont.init w p) (Faster.run (Mont.init w p) j.temp j.mem prog i))
  | .mont => (Mont.run (Mont.init w p) j.temp j.mem prog).bind fun m => Mont.toMpz (Mont.init w p) (m i)

end Pbc.FpChoice
