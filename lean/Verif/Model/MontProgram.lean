import Verif.Model.MontFp
import Verif.Spec.FpSafe

/-! Running a program of `element_*` calls on the Montgomery backend. -/

set_option autoImplicit false

namespace Pbc.Mont

open Spec (FpOp)

/-- The memory: element variables. -/
abbrev Mem := ℕ → El

/-- Effect of one call on the destination, dispatched as `field_init_mont_fp`
(`/repo/arith/montfp.c:537-567`) sets the function pointers.  `fresh` is the (uninitialised)
contents of the temporary allocated by `generic_mul_mpz`/`generic_mul_si`.  `none` is undefined
behaviour. -/
def exec (F : Field) (fresh : El) (m : Mem) : FpOp → Option El
  | .setMpz c z => some (setMpz F (m c) z)
  | .setSi c z => some (setSi F (m c) z)
  | .set0 c => some (set0 (m c))
  | .set1 c => some (set1 F (m c))
  | .set c a => some (set (m c) (m a))
  | .add c a b => some (add F (m c) (m a) (m b))
  | .sub c a b => some (sub F (m c) (m a) (m b))
  | .neg c a => some (neg F (m c) (m a))
  | .double c a => some (double F (m c) (m a))
  | .halve c a => some (halve F (m c) (m a))
  | .mul c a b => some (mul F (m c) (m a) (m b))
  | .square c a => some (square F (m c) (m a))
  | .mulMpz c a z => some (mulMpz F fresh (m c) (m a) z)
  | .mulSi c a z => some (mulSi F fresh (m c) (m a) z)
  | .pow c a n => powMpz F (m c) (m a) n
  | .invert c a => some (invert F (m c) (m a))
  | .random c z => some (random F (m c) z)
  | .fromBytes c data => some (fromBytes F (m c) data)

/-- Run a program. -/
def run (F : Field) (fresh : El) : Mem → List FpOp → Option Mem
  | m, [] => some m
  | m, o :: rest =>
    match exec F fresh m o with
    | none => none
    | some e => run F fresh (Function.update m o.dest e) rest

/-- A freshly initialised element (`fp_init`, `/repo/arith/montfp.c:51-56`): flag 0, and an
uninitialised array of `t` words. -/
def Fresh (F : Field) (e : El) : Prop := e.flag = false ∧ Limbs F.β F.t e.d

end Pbc.Mont
