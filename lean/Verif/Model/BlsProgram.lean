import Verif.Model.Session
import Verif.Model.OtherFp
import Verif.Model.PairingA

/-! # The example program `/repo/example/bls.c` as a whole

What it draws (the two points, the secret key, the hash of the message) are arguments; what is modelled is which of its
verdicts it prints.  The values it prints besides are left out. -/

set_option autoImplicit false

namespace Pbc.BlsProgram

open Pbc.Curve (Pt toBytesCompressed fromBytesCompressed toBytesXOnly fromBytesXOnly)
open Pbc.Quad (Codec)

/-- The verdicts (`/repo/example/bls.c:79`, `:81`, `:103`, `:107`, `:109`, `:118`, `:120`); the texts of `:81` and `:109`
are the same. -/
inductive Line
  | verifies
  | bug
  | firstGuess
  | secondGuess
  | randomFails
  | randomVerifies
deriving DecidableEq

/-- `element_sgn` in a prime field of odd order, on values (`/repo/arith/naivefp.c:58-62`, `/repo/arith/montfp.c:460-472`). -/
def sign (q : ℕ) (x : ZMod q) : ℤ := Naive.sgnOdd x.val

variable {K Q L : Type*} [Field K] [DecidableEq K] [DecidableEq L]

/-- The block that tries the two points with the first coordinate of the signature (`/repo/example/bls.c:84-113`); `gtInv` is
`element_invert` in the target group. -/
def guess (cd : Codec K) (sq : K → K) (a b : K) (e : Pt K → Q → Option L) (gtInv : L → Option L) (g : Q) (t2 : L)
    (sig : Pt K) : Option Line :=
  (e (fromBytesXOnly cd sq a b (toBytesXOnly cd sig)).1 g).bind fun t1 =>
    if t1 = t2 then some .firstGuess
    else (gtInv t1).bind fun t1 => some (if t1 = t2 then .secondGuess else .bug)

/-- `main` (`/repo/example/bls.c:9-133`): `g` the system parameter, `x` the secret key, `h` the hash, `rnd` the point drawn in
line 116. -/
def main (cd : Codec K) (sq : K → K) (sgn : K → ℤ) (a b : K) (G₁ : Spec.Ops (Pt K)) (G₂ : Spec.Ops Q)
    (e : Pt K → Q → Option L) (gtInv : L → Option L) (g : Q) (x : ℕ) (h rnd : Pt K) : Option (List Line) :=
  (G₂.pow g x).bind fun pk =>
  (G₁.pow h x).bind fun sig =>
  (fromBytesCompressed cd sq sgn a b (toBytesCompressed cd sgn sig)).bind fun d =>
  (e d.1 g).bind fun t1 =>
  (e h pk).bind fun t2 =>
  (guess cd sq a b e gtInv g t2 d.1).bind fun l =>
  (e rnd g).bind fun t3 =>
  some [if t1 = t2 then .verifies else .bug, l, if t3 = t2 then .randomVerifies else .randomFails]

end Pbc.BlsProgram
