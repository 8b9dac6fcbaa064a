import Verif.Model.PairingF

/-!
# `/repo/ecc/e_param.c`: the pairing of type E

`K` is the field `F_q`, a Mathlib field; the embedding degree is 1, so everything happens in it.
Temporaries of a routine are distinct elements (apart from `e2`, `e3`, which share storage with `a`, `b`
and never hold a value at the same time), so calls are written as functions of values.  Inverting 0 is
`none`.  `exp1` and `exp2` are natural numbers; a negative one acts as 0.
-/

set_option autoImplicit false

namespace Pbc.PairingE

open Pbc.Curve (Pt)
open Pbc.Quad (inv?)
open Pbc.PairingA (Abc copy neg)

variable {K : Type*} [Field K] [DecidableEq K]

/-- The data of the pairing (`/repo/ecc/e_param.c:31-36`) and the first coefficient of its curve. -/
structure Data (K : Type*) where
  a : K
  exp2 : ℕ
  exp1 : ℕ
  sign1 : ℤ
  sign0 : ℤ
  phikonr : ℕ
  R : Pt K

/-- The accumulators `v` and `vd`. -/
structure Acc (K : Type*) where
  v : K
  vd : K

/-- `element_set1(v); element_set1(vd);`. -/
def Acc.one : Acc K := ⟨1, 1⟩

/-- `element_square(v, v); element_square(vd, vd);`. -/
def Acc.sq (e : Acc K) : Acc K := ⟨e.v ^ 2, e.vd ^ 2⟩

/-- Multiply `e` by the value of a line at `QR` and `edenom` by its value at `R`: the end of `do_tangent`
(`/repo/ecc/e_param.c:353-363`, `:167-177`) and of `do_line` (`:378-388`, `:202-212`). -/
def Acc.line (l : Abc K) (num denom : Pt K) (e : Acc K) : Acc K :=
  let e0 := l.a * num.x
  let e1 := l.b * num.y
  let e0 := e0 + e1
  let e0 := e0 + l.c
  let v := e.v * e0
  let e0 := l.a * denom.x
  let e1 := l.b * denom.y
  let e0 := e0 + e1
  let e0 := e0 + l.c
  let vd := e.vd * e0
  ⟨v, vd⟩

/-- `do_vertical(v, vd, Ax)` of `e_miller_proj` (`/repo/ecc/e_param.c:180-187`); with `z2 = 1` it is
`do_vertical(v, vd, Ax)` of `e_miller_affine` (`:321-327`). -/
def Acc.vert (num denom : Pt K) (z2 Ax : K) (e : Acc K) : Acc K :=
  let e0 := num.x * z2
  let e0 := e0 - Ax
  let v := e.v * e0
  let e0 := denom.x * z2
  let e0 := e0 - Ax
  let vd := e.vd * e0
  ⟨v, vd⟩

/-- `v` and `vd` exchanged. -/
def Acc.swap (e : Acc K) : Acc K := ⟨e.vd, e.v⟩

/-- `do_vertical(vd, v, Ax)`. -/
def Acc.vertInv (num denom : Pt K) (z2 Ax : K) (e : Acc K) : Acc K := (e.swap.vert num denom z2 Ax).swap

/-- The line of `do_line` (`/repo/ecc/e_param.c:366-376`, `:190-200`). -/
def line (A B : Pt K) : Abc K :=
  let b := B.x - A.x
  let a := A.y - B.y
  let c := A.x * B.y
  let e0 := A.y * B.x
  let c := c - e0
  ⟨a, b, c⟩

/-- What both routines do between and after the loops (`/repo/ecc/e_param.c:421-430`, `:250-259`):
`v1`, `vd1` and `Z1`. -/
def branch (p : Data K) (num denom : Pt K) (Z : Pt K) (e : Acc K) : Pt K × Acc K :=
  if p.sign1 < 0 then
    let e1 := e.swap
    let e1 := e1.vertInv num denom 1 Z.x
    (neg Z, e1)
  else (copy Z, e)

/-- The end of both routines (`/repo/ecc/e_param.c:439-450`, `:269-280`). -/
def finish (p : Data K) (P num denom : Pt K) (Z1 : Pt K) (e1 : Acc K) (Z : Pt K) (e : Acc K) : Option K :=
  let e : Acc K := ⟨e.v * e1.v, e.vd * e1.vd⟩
  let e := e.line (line Z Z1) num denom
  match PairingD.add p.a Z Z1 with
  | none => none
  | some Z =>
    let e := e.vertInv num denom 1 Z.x
    let e := if p.sign0 > 0 then e.vert num denom 1 P.x else e
    match inv? e.vd with
    | none => none
    | some vd => some (e.v * vd)

/-! ### Affine coordinates -/

/-- `n` rounds of the loops of `e_miller_affine` (`/repo/ecc/e_param.c:413-420`, `:431-438`). -/
def affineLoop (ca : K) (num denom : Pt K) : ℕ → Pt K → Acc K → Option (Pt K × Acc K)
  | 0, Z, e => some (Z, e)
  | n + 1, Z, e =>
    let e := e.sq
    let e := e.line (PairingD.tangent ca Z.x Z.y) num denom
    match PairingD.dbl ca Z with
    | none => none
    | some Z => affineLoop ca num denom n Z (e.vertInv num denom 1 Z.x)

/-- `e_miller_affine` (`/repo/ecc/e_param.c:302-466`). -/
def millerAffine (p : Data K) (P QR R : Pt K) : Option K :=
  match affineLoop p.a QR R p.exp1 (copy P) Acc.one with
  | none => none
  | some (Z, e) =>
    let s := branch p QR R Z e
    match affineLoop p.a QR R (p.exp2 - p.exp1) Z e with
    | none => none
    | some (Z, e) => finish p P QR R s.1 s.2 Z e

/-! ### Weighted projective coordinates -/

/-- `Z` with its third coordinate `z` and `z2 = z²`. -/
structure Proj (K : Type*) where
  x : K
  y : K
  z : K
  z2 : K

/-- `proj_double` (`/repo/ecc/e_param.c:98-140`). -/
def projDouble (ca : K) (Z : Proj K) : Proj K :=
  let e0 := Z.x ^ 2
  let e1 := 2 * e0
  let e0 := e0 + e1
  let e1 := Z.z2 ^ 2
  let e1 := e1 * ca
  let e0 := e0 + e1
  let z := Z.y * Z.z
  let z := 2 * z
  let z2 := z ^ 2
  let e2 := Z.y ^ 2
  let e1 := Z.x * e2
  let e1 := 2 * e1
  let e1 := 2 * e1
  let e3 := 2 * e1
  let x := e0 ^ 2
  let x := x - e3
  let e2 := e2 ^ 2
  let e2 := 2 * e2
  let e2 := 2 * e2
  let e2 := 2 * e2
  let e1 := e1 - x
  let e0 := e0 * e1
  let y := e0 - e2
  ⟨x, y, z, z2⟩

/-- The line of `do_tangent` in `e_miller_proj` (`/repo/ecc/e_param.c:142-165`). -/
def tangentProj (ca : K) (Z : Proj K) : Abc K :=
  let a := Z.z2 ^ 2
  let a := a * ca
  let b := Z.x ^ 2
  let e0 := 2 * b
  let b := b + e0
  let a := a + b
  let a := -a
  let e0 := 2 * Z.y
  let b := e0 * Z.z2
  let b := b * Z.z
  let c := Z.x * a
  let a := a * Z.z2
  let e0 := e0 * Z.y
  let c := c + e0
  let c := -c
  ⟨a, b, c⟩

/-- `to_affine` (`/repo/ecc/e_param.c:88-96`). -/
def toAffine (Z : Proj K) : Option (Pt K) :=
  match inv? Z.z with
  | none => none
  | some z =>
    let e0 := z ^ 2
    let x := Z.x * e0
    let e0 := e0 * z
    let y := Z.y * e0
    some ⟨false, x, y⟩

/-- `n` rounds of the loops of `e_miller_proj` (`/repo/ecc/e_param.c:241-248`, `:260-267`). -/
def projLoop (ca : K) (num denom : Pt K) : ℕ → Proj K → Acc K → Proj K × Acc K
  | 0, Z, e => (Z, e)
  | n + 1, Z, e =>
    let e := e.sq
    let e := e.line (tangentProj ca Z) num denom
    let Z := projDouble ca Z
    projLoop ca num denom n Z (e.vertInv num denom Z.z2 Z.x)

/-- `e_miller_proj` (`/repo/ecc/e_param.c:64-300`).  The point at infinity as `P` is not an argument
(`pairing_apply` answers before), so the flag of `Z` is not set. -/
def millerProj (p : Data K) (P QR R : Pt K) : Option K :=
  let s := projLoop p.a QR R p.exp1 ⟨(copy P).x, (copy P).y, 1, 1⟩ Acc.one
  match toAffine s.1 with
  | none => none
  | some Z =>
    let b := branch p QR R Z s.2
    let s := projLoop p.a QR R (p.exp2 - p.exp1) ⟨Z.x, Z.y, 1, 1⟩ s.2
    match toAffine s.1 with
    | none => none
    | some Z => finish p P QR R b.1 b.2 Z s.2

/-! ### The pairing -/

/-- `e_pairing` (`/repo/ecc/e_param.c:472-482`); `miller` is what `e_miller_fn` points to. -/
def pairing (miller : Data K → Pt K → Pt K → Pt K → Option K) (p : Data K) (P Q : Pt K) : Option K :=
  match Curve.addV p.a Q p.R with
  | none => none
  | some QR =>
    match miller p P QR p.R with
    | none => none
    | some out => Gen.powMpz out p.phikonr

/-- What `e_init_pairing` computes (`/repo/ecc/e_param.c:832-872`): the field has `q` elements, `R` is the
generator of the curve before its cofactor is applied, a random point. -/
def init (q r : ℕ) (a : K) (exp2 exp1 : ℕ) (sign1 sign0 : ℤ) (R : Pt K) : Data K :=
  let phikonr := q - 1
  let phikonr := phikonr / r
  ⟨a, exp2, exp1, sign1, sign0, phikonr, R⟩

/-- `e_finalpow` (`/repo/ecc/e_param.c:828-830`). -/
def finalpow (p : Data K) (e : K) : Option K := Gen.powMpz e p.phikonr

/-! ### `pairing_option_set`

`e_miller_fn` is one variable shared by all pairings of type E. -/

/-- The values of `method`. -/
inductive Method | miller | millerAffine | shipseyStange | other
  deriving DecidableEq

/-- The routines `e_miller_fn` and `pairing->map` can point to. -/
inductive MillerFn | proj | affine
  deriving DecidableEq

/-- `pairing->map` of each pairing (`true`: `e_pairing_ellnet`), and `e_miller_fn`. -/
structure Globals where
  fn : MillerFn
  ellnet : ℕ → Bool

/-- `e_pairing_option_set(pairing, "method", value)` (`/repo/ecc/e_param.c:799-813`). -/
def optionSet (g : Globals) (i : ℕ) : Method → Globals
  | .miller => ⟨.proj, Function.update g.ellnet i false⟩
  | .millerAffine => ⟨.affine, Function.update g.ellnet i false⟩
  | .shipseyStange => ⟨g.fn, Function.update g.ellnet i true⟩
  | .other => g

/-- `e_init_pairing` also resets the shared variable (`/repo/ecc/e_param.c:840-841`). -/
def initGlobals (g : Globals) (i : ℕ) : Globals := ⟨.proj, Function.update g.ellnet i false⟩

/-- What `e_miller_fn` points to. -/
def millerOf : MillerFn → Data K → Pt K → Pt K → Pt K → Option K
  | .proj => millerProj
  | .affine => millerAffine

/-- `pairing->map` of pairing `i`: `e_pairing`, which calls what `e_miller_fn` points to at this moment
(`/repo/ecc/e_param.c:472-482`), or `ellnet`, which stands for `e_pairing_ellnet` (`:486-792`) and does not
read this variable. -/
def mapOf (ellnet : Data K → Pt K → Pt K → Option K) (g : Globals) (i : ℕ) (p : Data K) :
    Pt K → Pt K → Option K :=
  if g.ellnet i then ellnet p else pairing (millerOf g.fn) p

/-- What a program does to pairings of type E: it sets a method, or sets up a new pairing. -/
inductive Op | option (i : ℕ) (m : Method) | init (i : ℕ)

/-- The pairing it is done to. -/
def Op.target : Op → ℕ
  | .option i _ => i
  | .init i => i

/-- Its effect. -/
def Op.run (g : Globals) : Op → Globals
  | .option i m => optionSet g i m
  | .init i => initGlobals g i

end Pbc.PairingE
