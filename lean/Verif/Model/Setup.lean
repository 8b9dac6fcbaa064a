import Verif.Model.CmGen
import Verif.Model.PairingD
import Verif.Model.PairingF

/-!
# The groups of points that setting up a pairing makes

`field_init_curve_ab` (`/repo/ecc/curve.c:688-758`), `field_init_curve_ab_map` (`:867-882`),
`field_reinit_curve_twist` (`:885-901`), and the calls to them in `a_init_pairing`
(`/repo/ecc/a_param.c:1431-1472`), `a1_init_pairing` (`:2231-2272`), `d_init_pairing`
(`/repo/ecc/d_param.c:993-1095`), `e_init_pairing` (`/repo/ecc/e_param.c:832-872`), `f_init_pairing`
(`/repo/ecc/f_param.c:335-447`), `g_init_pairing` (`/repo/ecc/g_param.c:1248-1354`).

The base field is a type `K` with its test for squares and its square root as parameters.  Random values are
lists; `none` when a list runs out.  The table of functions is not modelled except for the entry `random`.
-/

set_option autoImplicit false

namespace Pbc.Setup

open Pbc.Curve
open Pbc.CmGen (scalar)

/-- `struct curve_data_s` (`/repo/ecc/curve.c:16-30`), the order of the group and the entry `random`. -/
structure Group (K : Type*) where
  a : K
  b : K
  order : ℕ
  cofac : Option ℕ
  genNoCofac : Pt K
  gen : Pt K
  quotient : Option ℕ
  solve : Bool
  deriving DecidableEq

section curve

variable {K : Type*} [Field K] [DecidableEq K] (isSqr : K → Bool) (sq : K → K)

/-- The end of `field_init_curve_ab` (`/repo/ecc/curve.c:746-757`) and of `field_reinit_curve_twist`
(`:894-900`): the two generators. -/
def generators (a b : K) (cofac : Option ℕ) (draws : List K) : Option (Pt K × Pt K) :=
  match randomNoCofac isSqr sq a b draws with
  | none => none
  | some g =>
    match cofac with
    | none => some (g, g)
    | some h => (scalar a g h).map fun gen => (g, gen)

/-- `field_init_curve_ab` (`/repo/ecc/curve.c:688-758`). -/
def initCurve (a b : K) (order : ℕ) (cofac : Option ℕ) (draws : List K) : Option (Group K) :=
  match generators isSqr sq a b cofac draws with
  | none => none
  | some (g, gen) => some ⟨a, b, order, cofac, g, gen, none, false⟩

/-- `field_reinit_curve_twist` (`/repo/ecc/curve.c:885-901`), where `nqr` is what `field_get_nqr` returns. -/
def reinitTwist (nqr : K) (G : Group K) (draws : List K) : Option (Group K) :=
  let ab := twist nqr G.a G.b
  match generators isSqr sq ab.1 ab.2 G.cofac draws with
  | none => none
  | some (g, gen) => some { G with a := ab.1, b := ab.2, genNoCofac := g, gen := gen }

/-- `field_curve_set_quotient_cmp` (`/repo/ecc/curve.c:904-909`). -/
def setQuotient (G : Group K) (n : ℕ) : Group K := { G with quotient := some n }

/-- `field_curve_use_random_solvefory` (`/repo/ecc/curve.c:440-442`). -/
def useSolve (G : Group K) : Group K := { G with solve := true }

/-- `element_random`: `curve_random_solvefory` (`/repo/ecc/curve.c:424-428`) with the values `draws`, or
`curve_random_pointmul` (`:430-438`) with the scalar `x`. -/
def random (G : Group K) (draws : List K) (x : ℕ) : Option (Pt K) :=
  if G.solve then randomSolve isSqr sq G.a G.b G.cofac draws else randomPointMul G.a G.gen x

/-- `element_from_hash` (`/repo/ecc/curve.c:455-482`) from the hash `x` of the base field. -/
def hash (sgn : K → ℤ) (G : Group K) (fuel : ℕ) (x : K) : Option (Pt K) :=
  fromHash isSqr sq sgn G.a G.b G.cofac fuel x

/-- G1 and G2 of `a_init_pairing` (`/repo/ecc/a_param.c:1447-1451`, `:1461-1462`). -/
def typeA (r h : ℕ) (draws : List K) : Option (Group K) := initCurve isSqr sq 1 0 r (some h) draws

/-- G1 and G2 of `a1_init_pairing` (`/repo/ecc/a_param.c:2246-2253`, `:2260`). -/
def typeA1 (n l : ℕ) (draws : List K) : Option (Group K) :=
  (initCurve isSqr sq 1 0 n (some l) draws).map useSolve

/-- G1 and G2 of `e_init_pairing` (`/repo/ecc/e_param.c:849-853`, `:860`), and the point `R` (`:866-867`). -/
def typeE (a b : K) (r h : ℕ) (draws : List K) : Option (Group K × Pt K) :=
  (initCurve isSqr sq a b r (some h) draws).map fun G => (G, G.genNoCofac)

/-- G1 of `d_init_pairing` (`/repo/ecc/d_param.c:1011-1016`, `:1077`) and `g_init_pairing`
(`/repo/ecc/g_param.c:1262-1267`, `:1339`). -/
def typeD1 (a b : K) (r h : ℕ) (draws : List K) : Option (Group K) := initCurve isSqr sq a b r (some h) draws

/-- G1 of `f_init_pairing` (`/repo/ecc/f_param.c:370-372`, `:401`). -/
def typeF1 (b : K) (r : ℕ) (draws : List K) : Option (Group K) := initCurve isSqr sq 0 b r none draws

end curve

section twists

variable {F K : Type*} [Field F] [Field K] [DecidableEq K] (isSqr : K → Bool) (sq : K → K)

/-- G2 of `d_init_pairing` (`/repo/ecc/d_param.c:1057-1070`, `:1078`), `d = k / 2`, and of `g_init_pairing`
(`/repo/ecc/g_param.c:1319-1333`, `:1340`), `d = 5`: the coefficients of G1 mapped to `F_q^d`, twisted by the
nonresidue, whose lowest coefficient is `nqr`. -/
def typeD2 (E : PairingD.Ext F K) (q n r d : ℕ) (a b nqr : F) (draws draws' : List K) : Option (Group K) :=
  let const := fun c : F => E.make (fun i => if i = 0 then c else 0)
  match initCurve isSqr sq (const a) (const b) r none draws with
  | none => none
  | some G =>
    match reinitTwist isSqr sq (const nqr) G draws' with
    | none => none
    | some G => some (setQuotient G (PairingD.quotient q n r d).1.natAbs)

/-- G2 of `f_init_pairing` (`/repo/ecc/f_param.c:374-399`, `:402`). -/
def typeF2 (E2 : PairingD.Ext F K) (q r : ℕ) (b alpha0 alpha1 : F) (draws : List K) : Option (Group K) :=
  let e2 := E2.make (fun i => if i = 0 then -alpha0 * b else -alpha1 * b)
  match initCurve isSqr sq 0 e2 r none draws with
  | none => none
  | some G => some (setQuotient G (PairingF.quotient q r).1.natAbs)

end twists

end Pbc.Setup
