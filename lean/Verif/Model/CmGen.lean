import Verif.Model.Curve
import Verif.Model.PolyFactor

/-!
# Choosing the curve and the fields when parameters are generated

`compute_cm_curve` of `/repo/ecc/d_param.c:1100-1174` and `/repo/ecc/g_param.c:1173-1246` (the same
text), `pbc_param_init_d_gen` (`d_param.c:1227-1265`), `pbc_param_init_g_gen` (`g_param.c:1404-1441`),
the second halves of `pbc_param_init_e_gen` (`e_param.c:988-1004`) and of `pbc_param_init_f_gen`
(`f_param.c:517-590`).

Random values are given as lists; `none` when a list runs out, for an inversion of 0 and for an access out
of bounds.  The field `K` is the prime field (or its quadratic extension) with the tests and square roots as
parameters; storing a coefficient as an integer (`element_to_mpz`) and reading it back is not modelled.
-/

set_option autoImplicit false

namespace Pbc.CmGen

open Pbc.Curve

variable {K : Type*} [Field K] [DecidableEq K]

/-- `field_gen_nqr` (`/repo/arith/field.c:370-376`): draw until the test fails.  `field_get_nqr`
(`:378-381`) keeps the first result. -/
def genNqr (isSqr : K → Bool) : List K → Option K
  | [] => none
  | x :: rest => if isSqr x then genNqr isSqr rest else some x

/-- `element_random` on a curve just set up without cofactor: the generator is found by
`curve_random_no_cofac_solvefory` (`/repo/ecc/curve.c:748`, `draws`), the point is a random multiple of it
(`curve_random_pointmul`, `:430-438`, `x` the random scalar). -/
def randomPoint (isSqr : K → Bool) (sq : K → K) (a b : K) (draws : List K) (x : ℕ) : Option (Pt K) :=
  match randomNoCofac isSqr sq a b draws with
  | none => none
  | some gen => randomPointMul a gen x

/-- `element_mul_mpz` on a curve. -/
def scalar (a : K) (p : Pt K) (n : ℕ) : Option (Pt K) := (Gen.powMpz (⟨some p⟩ : GPt K a) n).bind (·.val)

/-- "We may need to twist it" (`/repo/ecc/d_param.c:1139-1148`, `/repo/ecc/g_param.c:1212-1221`,
`/repo/ecc/e_param.c:993-1002`): the coefficients after the test.  The new generators that
`field_reinit_curve_twist` computes are not kept. -/
def twistTest (isSqr : K → Bool) (sq : K → K) (nqr : K) (n : ℕ) (a b : K) (draws : List K) (x : ℕ) :
    Option (K × K) :=
  match randomPoint isSqr sq a b draws x with
  | none => none
  | some P =>
    match scalar a P n with
    | none => none
    | some P => some (if P.inf then (a, b) else twist nqr a b)

/-- The polynomial `hp` of `compute_cm_curve` (`/repo/ecc/d_param.c:1105-1119`): the coefficients of the
class polynomial in the field. -/
def classPoly (coeffs : List ℤ) : List K := coeffs.map fun (c : ℤ) => (c : K)

/-- The root of `compute_cm_curve` (`/repo/ecc/d_param.c:1127-1128`): the return value of `poly_findroot` is
ignored, and `root` is 0 from `element_init` on when there is no root. -/
def classRoot (q : ℕ) (coeffs : List ℤ) (rnd : List K) : Option K :=
  match PolyFactor.findRoot q (classPoly coeffs) rnd with
  | none => none
  | some .noRoot => some 0
  | some (.root r) => some r

/-- The curve of `compute_cm_curve` (`/repo/ecc/d_param.c:1127-1148`). -/
def cmCurve (isSqr : K → Bool) (sq : K → K) (nqr : K) (q n : ℕ) (coeffs : List ℤ) (rnd draws : List K)
    (x : ℕ) : Option (K × K) :=
  match classRoot q coeffs rnd with
  | none => none
  | some root =>
    match curveJ root with
    | none => none
    | some (a, b) => twistTest isSqr sq nqr n a b draws x

/-- `nk` and `hk` of `compute_cm_curve` (`/repo/ecc/d_param.c:1157-1171`).  `mpz_divexact` is the quotient
when the division is exact and unspecified otherwise. -/
def cmOrders (q n r : ℤ) (k : ℕ) : ℤ × ℤ :=
  let z := q - n
  let z := z + 1
  let z := traceN q z k
  let nk := q ^ k
  let z := z - 1
  let nk := nk - z
  let z := r * r
  (nk, nk / z)

/-- The search for an irreducible polynomial (`/repo/ecc/d_param.c:1240-1242`, `/repo/ecc/g_param.c:1416-1418`):
each draw holds the low coefficients. -/
noncomputable def irredLoop (q : ℕ) : List (List K) → Option (List K)
  | [] => none
  | c :: rest =>
    let f := c ++ [1]
    match PolyFactor.isIrred q f with
    | none => none
    | some false => irredLoop q rest
    | some true => some f

/-- The search for a nonresidue of the extension in the prime field (`/repo/ecc/d_param.c:1245-1249`,
`/repo/ecc/g_param.c:1421-1425`), `n` the degree of the extension. -/
def nqrLoop (q n : ℕ) (f : List K) : List K → Option K
  | [] => none
  | v :: rest =>
    match Polymod.isSqr (q ^ n) (⟨fun i => if i = 0 then v else 0⟩ : Polymod.Arr n f) with
    | none => none
    | some true => nqrLoop q n f rest
    | some false => some v

/-- What `pbc_param_init_d_gen` and `pbc_param_init_g_gen` record apart from the numbers given. -/
structure DGen (K : Type*) where
  a : K
  b : K
  nk : ℤ
  hk : ℤ
  irred : List K
  nqr : K

/-- `pbc_param_init_d_gen` (`/repo/ecc/d_param.c:1227-1265`) with `d = k / 2`, and
`pbc_param_init_g_gen` (`/repo/ecc/g_param.c:1404-1441`) with `d = 5` (there `k` is 10); `polys` has
the polynomials drawn, each with `d` coefficients. -/
noncomputable def dGen (isSqr : K → Bool) (sq : K → K) (nqr : K) (q n r k d : ℕ) (coeffs : List ℤ)
    (rnd draws : List K) (x : ℕ) (polys : List (List K)) (vs : List K) : Option (DGen K) :=
  match cmCurve isSqr sq nqr q n coeffs rnd draws x with
  | none => none
  | some (a, b) =>
    match irredLoop q polys with
    | none => none
    | some f =>
      match nqrLoop q d f vs with
      | none => none
      | some v => some ⟨a, b, (cmOrders q n r k).1, (cmOrders q n r k).2, f, v⟩

/-- The curve of `pbc_param_init_e_gen` (`/repo/ecc/e_param.c:988-1004`): `y² = x³ + 1`, or its twist. -/
def eCurve (isSqr : K → Bool) (sq : K → K) (nqr : K) (n : ℕ) (draws : List K) (x : ℕ) : Option (K × K) :=
  twistTest isSqr sq nqr n 0 1 draws x

/-- The loop of `pbc_param_init_f_gen` that finds the curve (`/repo/ecc/f_param.c:520-532`): each draw has the
coefficient, the values for the generator and the scalar. -/
def fCurve (isSqr : K → Bool) (sq : K → K) (r : ℕ) : List (K × List K × ℕ) → Option K
  | [] => none
  | (e1, draws, x) :: rest =>
    match randomPoint isSqr sq 0 e1 draws x with
    | none => none
    | some P =>
      match scalar 0 P r with
      | none => none
      | some P => if P.inf then some e1 else fCurve isSqr sq r rest

/-- The search for `x^6 + alpha` (`/repo/ecc/f_param.c:539-546`) over a field of `q` elements. -/
noncomputable def alphaLoop (q : ℕ) : List K → Option K
  | [] => none
  | α :: rest =>
    match PolyFactor.isIrred q [α, 0, 0, 0, 0, 0, 1] with
    | none => none
    | some false => alphaLoop q rest
    | some true => some α

/-- The multiplier of the twist test (`/repo/ecc/f_param.c:570-575`). -/
def twistMultiplier (q r t : ℤ) : ℤ :=
  let z0 := q ^ 12
  let z0 := z0 + 1
  let z1 := traceN q t 12
  let z1 := z0 - z1
  let z0 := r * r
  z1 / z0

/-- The choice between `alpha` and its fifth power (`/repo/ecc/f_param.c:551-587`); the field is `F_q²`. -/
def fTwist (isSqr : K → Bool) (sq : K → K) (q r t : ℤ) (b α : K) (draws : List K) (x : ℕ) : Option K :=
  let e1 := b
  let e1 := e1 * α
  let e1 := -e1
  match randomPoint isSqr sq 0 e1 draws x with
  | none => none
  | some P =>
    match scalar 0 P (twistMultiplier q r t).toNat with
    | none => none
    | some P => if P.inf then Gen.powMpz α 5 else some α

end Pbc.CmGen
