import Verif.Model.Curve
import Verif.Model.Quadratic
import Verif.Model.FieldGeneric

/-!
# `/repo/ecc/a_param.c`: the pairings of types A and A1

The base field is a Mathlib field `K`.  `F_q²` is the field of pairs with the operations of
`/repo/arith/fieldquadratic.c` (`fi_*`).  Temporaries of a routine are distinct elements, so calls
are written as functions of values; calls that work in place on a curve element keep the
coordinates they would leave behind.  Inverting 0 is `none`, except inside `lucas_odd`.
-/

set_option autoImplicit false

namespace Pbc.PairingA

open Pbc.Curve (Pt)
open Pbc.Quad (El inv?)

variable {K : Type*} [Field K] [DecidableEq K]

/-! ## Calls on the two kinds of element -/

/-- `element_mul(f, f, g)` in `F_q²`: `fi_mul` (`/repo/arith/fieldquadratic.c:425-457`). -/
def mul2 (f g : El K) : El K := Quad.fiMul (fun i => if i = 0 then f else g) 0 0 1 0

/-- `element_square(f, f)` in `F_q²`: `fi_square` (`/repo/arith/fieldquadratic.c:459-477`). -/
def square2 (f : El K) : El K := Quad.fiSquare (fun _ => f) 0 0 0

/-- `element_invert(g, f)` in `F_q²`: `fi_invert` (`/repo/arith/fieldquadratic.c:479-496`). -/
def invert2 (f : El K) : Option (El K) := (Quad.fiInvert (fun _ => f) 0 1).map (· 0)

/-- `element_set1` in `F_q²` (`/repo/arith/fieldquadratic.c:76-80`). -/
def one2 : El K := ⟨1, 0⟩

/-- The operations `generic_pow_mpz` calls on `F_q²`. -/
structure F2 (K : Type*) where
  val : El K

instance : Mul (F2 K) := ⟨fun f g => ⟨mul2 f.val g.val⟩⟩
instance : One (F2 K) := ⟨⟨one2⟩⟩
instance : Gen.Sqr (F2 K) := ⟨fun f => ⟨square2 f.val⟩⟩

/-- `element_pow_mpz` on `F_q²` (`/repo/arith/field.c:113-126`). -/
def pow2 (f : El K) (n : ℕ) : Option (El K) := (Gen.powMpz (⟨f⟩ : F2 K) n).map (·.val)

/-- `element_double(V, V)`: `curve_double` (`/repo/ecc/curve.c:139-151`) on `Y² = X³ + X`. -/
def dbl (V : Pt K) : Option (Pt K) := (Curve.double 1 (fun _ => V) 0 0).map (· 0)

/-- `element_add(V, V, P)`: `curve_mul` (`/repo/ecc/curve.c:153-207`) on `Y² = X³ + X`. -/
def add (V P : Pt K) : Option (Pt K) := (Curve.add 1 (fun i => if i = 0 then V else P) 0 0 1).map (· 0)

/-- `element_set(V1, V)` of a fresh `V1` (`/repo/ecc/curve.c:91-100`). -/
def copy (V : Pt K) : Pt K := Curve.set (fun i => if i = 0 then Curve.fresh else V) 0 1 0

/-- `element_neg(V1, V)` of a fresh `V1` (`/repo/ecc/curve.c:79-89`). -/
def neg (V : Pt K) : Pt K := Curve.invert (fun i => if i = 0 then Curve.fresh else V) 0 1 0

/-! ## Lines -/

/-- The line `a X + b Y + c` (`/repo/ecc/a_param.c:132-138`). -/
structure Abc (K : Type*) where
  a : K
  b : K
  c : K
deriving DecidableEq

/-- `compute_abc_tangent` (`/repo/ecc/a_param.c:61-84`). -/
def tangent (Vx Vy : K) : Abc K :=
  let a := Vx ^ 2
  let e0 := a + a
  let a := e0 + a
  let b := 1
  let a := a + b
  let a := -a
  let b := 2 * Vy
  let e0 := b * Vy
  let c := a * Vx
  let c := c + e0
  let c := -c
  ⟨a, b, c⟩

/-- `compute_abc_tangent_proj` (`/repo/ecc/a_param.c:86-112`). -/
def tangentProj (Vx Vy z z2 : K) : Abc K :=
  let a := z2 ^ 2
  let b := Vx ^ 2
  let e0 := 2 * b
  let b := e0 + b
  let a := a + b
  let a := -a
  let e0 := 2 * Vy
  let b := e0 * z2
  let b := b * z
  let c := Vx * a
  let a := a * z2
  let e0 := e0 * Vy
  let c := c + e0
  let c := -c
  ⟨a, b, c⟩

/-- `compute_abc_line` (`/repo/ecc/a_param.c:114-130`). -/
def line (Vx Vy V1x V1y : K) : Abc K :=
  let a := Vy - V1y
  let b := V1x - Vx
  let c := Vx * V1y
  let e0 := Vy * V1x
  let c := c - e0
  ⟨a, b, c⟩

/-- `compute_abc_line_proj` (`/repo/ecc/a_param.c:1820-1837`). -/
def lineProj (Vx Vy z z2 V1x V1y : K) : Abc K :=
  let c := z * z2
  let e0 := V1y * c
  let a := Vy - e0
  let b := c * V1x
  let e0 := Vx * z
  let b := b - e0
  let c := b * V1y
  let e0 := a * V1x
  let c := c + e0
  let c := -c
  ⟨a, b, c⟩

/-- `a_miller_evalfn` (`/repo/ecc/a_param.c:306-315`). -/
def evalfn (l : Abc K) (Qx Qy : K) : El K :=
  let y := l.a * Qx
  let x := l.c - y
  let y := l.b * Qy
  ⟨x, y⟩

/-! ## Final powering -/

/-- The loop of `lucas_odd` (`/repo/ecc/a_param.c:241-260`): the last round ignores the bit. -/
def lucasLoop (t0 t1 : K) (cofactor : ℕ) : ℕ → K × K → K × K
  | 0, (v0, v1) =>
    let v1 := v0 * v1
    let v1 := v1 - t1
    let v0 := v0 ^ 2
    let v0 := v0 - t0
    (v0, v1)
  | j + 1, (v0, v1) =>
    if cofactor.testBit (j + 1) then
      let v0 := v0 * v1
      let v0 := v0 - t1
      let v1 := v1 ^ 2
      let v1 := v1 - t0
      lucasLoop t0 t1 cofactor j (v0, v1)
    else
      let v1 := v0 * v1
      let v1 := v1 - t1
      let v0 := v0 ^ 2
      let v0 := v0 - t0
      lucasLoop t0 t1 cofactor j (v0, v1)

/-- `lucas_odd` (`/repo/ecc/a_param.c:226-283`).  `inv` is the base field's inversion; what it
returns for 0 is unspecified, and it is called on 0 when the input is 1 or -1. -/
def lucasOdd (inv : K → K) (i : El K) (cofactor : ℕ) : El K :=
  let t0 : K := ((2 : ℤ) : K)
  let t1 := 2 * i.x
  let v := lucasLoop t0 t1 cofactor (Gen.bits cofactor - 1) (t0, t1)
  let in0 := v.1 * t1
  let v1 := 2 * v.2
  let v1 := v1 - in0
  let t1 := t1 ^ 2
  let t1 := t1 - t0
  let t1 := t1 - t0
  let v1 := v1 * inv t1
  let v0 := v.1 * inv 2
  let v1 := v1 * i.y
  ⟨v0, v1⟩

/-- `a_tateexp` (`/repo/ecc/a_param.c:285-303`); also `a_finalpow` (`/repo/ecc/a_param.c:1420-1429`). -/
def tateexp (inv : K → K) (i : El K) (cofactor : ℕ) : Option (El K) :=
  match invert2 i with
  | none => none
  | some temp =>
    let i : El K := ⟨i.x, -i.y⟩
    let i := mul2 i temp
    some (lucasOdd inv i cofactor)

/-- The final powering of type A1 (`/repo/ecc/a_param.c:1987-1994`). -/
def a1exp (f : El K) (cofactor : ℕ) : Option (El K) :=
  match invert2 f with
  | none => none
  | some f0 =>
    let f : El K := ⟨f.x, -f.y⟩
    let f := mul2 f f0
    pow2 f cofactor

/-! ## Type A -/

/-- The parameters the type A routines read (`/repo/ecc/a_param.c:30-37`); `h = (q + 1) / r`. -/
structure Params where
  exp2 : ℕ
  exp1 : ℕ
  sign1 : ℤ
  h : ℕ

/-- `do_tangent` (`/repo/ecc/a_param.c:1214-1217`). -/
def doTangent (V Q : Pt K) (f : El K) : El K :=
  let l := tangent V.x V.y
  let f0 := evalfn l Q.x Q.y
  mul2 f f0

/-- `do_line` (`/repo/ecc/a_param.c:1219-1222`). -/
def doLine (V V1 Q : Pt K) (f : El K) : El K :=
  let l := line V.x V.y V1.x V1.y
  let f0 := evalfn l Q.x Q.y
  mul2 f f0

/-- The loops at `/repo/ecc/a_param.c:1242-1248` and `:1257-1261`. -/
def affineLoop (Q : Pt K) : ℕ → Pt K → El K → Option (Pt K × El K)
  | 0, V, f => some (V, f)
  | n + 1, V, f =>
    let f := square2 f
    let f := doTangent V Q f
    match dbl V with
    | none => none
    | some V => affineLoop Q n V f

/-- The Miller part of `a_pairing_affine` (`/repo/ecc/a_param.c:1201-1264`). -/
def affineMiller (p : Params) (P Q : Pt K) : Option (El K) :=
  match affineLoop Q p.exp1 (copy P) one2 with
  | none => none
  | some (V, f) =>
    let V1 := if p.sign1 < 0 then neg V else copy V
    match (if p.sign1 < 0 then invert2 f else some f) with
    | none => none
    | some f1 =>
      match affineLoop Q (p.exp2 - p.exp1) V f with
      | none => none
      | some (V, f) =>
        let f := mul2 f f1
        some (doLine V V1 Q f)

/-- `a_pairing_affine` (`/repo/ecc/a_param.c:1201-1279`). -/
def pairingAffine (inv : K → K) (p : Params) (P Q : Pt K) : Option (El K) :=
  (affineMiller p P Q).bind fun f => tateexp inv f p.h

/-- A point in Jacobian coordinates, with the flag of the element that holds `x` and `y`. -/
structure Jac (K : Type*) where
  inf : Bool
  x : K
  y : K
  z : K
  z2 : K

/-- `proj_double` (`/repo/ecc/a_param.c:1082-1121`); also `:1899-1938`. -/
def projDouble (V : Jac K) : Jac K :=
  let e0 := V.x ^ 2
  let e1 := 2 * e0
  let e0 := e1 + e0
  let e1 := V.z2 ^ 2
  let e0 := e0 + e1
  let z := V.y * V.z
  let z := 2 * z
  let z2 := z ^ 2
  let e2 := V.y ^ 2
  let e1 := V.x * e2
  let e1 := 2 * e1
  let e1 := 2 * e1
  let e3 := 2 * e1
  let x := e0 ^ 2
  let x := x - e3
  let e2 := e2 ^ 2
  let e2 := 2 * e2
  let e2 := 2 * e2
  let e2 := 2 * e2
  let e1 := e1 - x
  let e0 := e0 * e1
  let y := e0 - e2
  ⟨V.inf, x, y, z, z2⟩

/-- `point_to_affine` (`/repo/ecc/a_param.c:1073-1080`). -/
def toAffine (V : Jac K) : Option (Jac K) :=
  match inv? V.z with
  | none => none
  | some z =>
    let e0 := z ^ 2
    let x := V.x * e0
    let e0 := e0 * z
    let y := V.y * e0
    some ⟨V.inf, x, y, 1, 1⟩

/-- `do_tangent` (`/repo/ecc/a_param.c:1123-1126`). -/
def doTangentProj (V : Jac K) (Q : Pt K) (f : El K) : El K :=
  let l := tangentProj V.x V.y V.z V.z2
  let f0 := evalfn l Q.x Q.y
  mul2 f f0

/-- The loops at `/repo/ecc/a_param.c:1155-1161` and `:1171-1175`. -/
def projLoop (Q : Pt K) : ℕ → Jac K → El K → Jac K × El K
  | 0, V, f => (V, f)
  | n + 1, V, f =>
    let f := square2 f
    let f := doTangentProj V Q f
    let V := projDouble V
    projLoop Q n V f

/-- The element that holds the coordinates of a Jacobian point. -/
def Jac.pt (V : Jac K) : Pt K := ⟨V.inf, V.x, V.y⟩

/-- The Miller part of `a_pairing_proj` (`/repo/ecc/a_param.c:1053-1179`). -/
def projMiller (p : Params) (P Q : Pt K) : Option (El K) :=
  let V := copy P
  let r := projLoop Q p.exp1 ⟨V.inf, V.x, V.y, 1, 1⟩ one2
  match toAffine r.1 with
  | none => none
  | some V =>
    let f := r.2
    let V1 := if p.sign1 < 0 then neg V.pt else copy V.pt
    match (if p.sign1 < 0 then invert2 f else some f) with
    | none => none
    | some f1 =>
      let r := projLoop Q (p.exp2 - p.exp1) V f
      let f := mul2 r.2 f1
      match toAffine r.1 with
      | none => none
      | some V => some (doLine V.pt V1 Q f)

/-- `a_pairing_proj` (`/repo/ecc/a_param.c:1053-1198`), the default method. -/
def pairingProj (inv : K → K) (p : Params) (P Q : Pt K) : Option (El K) :=
  (projMiller p P Q).bind fun f => tateexp inv f p.h

/-- The tangents of `a_pairing_pp_init` (`/repo/ecc/a_param.c:181-184`, `:192-195`): the stored
coefficients in order, and the last point. -/
def ppLoop : ℕ → Pt K → List (Abc K) → Option (Pt K × List (Abc K))
  | 0, V, coeff => some (V, coeff)
  | n + 1, V, coeff =>
    let coeff := coeff ++ [tangent V.x V.y]
    match dbl V with
    | none => none
    | some V => ppLoop n V coeff

/-- `a_pairing_pp_init` (`/repo/ecc/a_param.c:149-207`).  The array has `exp2 + 1` entries; writing
past it is `none`. -/
def ppInit (p : Params) (P : Pt K) : Option (List (Abc K)) :=
  match ppLoop p.exp1 (copy P) [] with
  | none => none
  | some (V, coeff) =>
    let V1 := if p.sign1 < 0 then neg V else copy V
    match ppLoop (p.exp2 - p.exp1) V coeff with
    | none => none
    | some (V, coeff) =>
      let coeff := coeff ++ [line V.x V.y V1.x V1.y]
      if coeff.length ≤ p.exp2 + 1 then some coeff else none

/-- One step of `a_pairing_pp_apply` (`/repo/ecc/a_param.c:331-334`): reading outside the array is
`none`. -/
def ppStep (coeff : List (Abc K)) (Q : Pt K) (i : ℕ) (f : El K) : Option (El K) :=
  match coeff[i]? with
  | none => none
  | some pp =>
    let f0 := evalfn pp Q.x Q.y
    some (mul2 f f0)

/-- The loops at `/repo/ecc/a_param.c:330-335` and `:342-347`: `n` rounds from index `i`. -/
def ppApplyLoop (coeff : List (Abc K)) (Q : Pt K) : ℕ → ℕ → El K → Option (El K)
  | 0, _, f => some f
  | n + 1, i, f =>
    let f := square2 f
    match ppStep coeff Q i f with
    | none => none
    | some f => ppApplyLoop coeff Q n (i + 1) f

/-- The Miller part of `a_pairing_pp_apply` (`/repo/ecc/a_param.c:317-354`). -/
def ppMiller (p : Params) (coeff : List (Abc K)) (Q : Pt K) : Option (El K) :=
  match ppApplyLoop coeff Q p.exp1 0 one2 with
  | none => none
  | some f =>
    match (if p.sign1 < 0 then invert2 f else some f) with
    | none => none
    | some out =>
      match ppApplyLoop coeff Q (p.exp2 - p.exp1) p.exp1 f with
      | none => none
      | some f =>
        let f := mul2 f out
        ppStep coeff Q (p.exp1 + (p.exp2 - p.exp1)) f

/-- `a_pairing_pp_apply` (`/repo/ecc/a_param.c:317-360`). -/
def ppApply (inv : K → K) (p : Params) (coeff : List (Abc K)) (Q : Pt K) : Option (El K) :=
  (ppMiller p coeff Q).bind fun f => tateexp inv f p.h

/-! ## Type A1 -/

/-- Where the loops of type A1 start (`/repo/ecc/a_param.c:1969-1970`). -/
def a1Start (r : ℕ) : ℕ :=
  let m := Gen.bits r
  if m > 2 then m - 2 else 0

/-- The loop of `a1_pairing` (`/repo/ecc/a_param.c:2061-2073`). -/
def a1Loop (r : ℕ) (P Q : Pt K) : ℕ → Pt K → El K → Option (El K)
  | 0, V, f => some (doTangent V Q f)
  | m + 1, V, f =>
    let f := doTangent V Q f
    match dbl V with
    | none => none
    | some V =>
      if r.testBit (m + 1) then
        let f := doLine V P Q f
        match add V P with
        | none => none
        | some V => a1Loop r P Q m V (square2 f)
      else a1Loop r P Q m V (square2 f)

/-- The Miller part of `a1_pairing` (`/repo/ecc/a_param.c:2017-2073`). -/
def a1Miller (r : ℕ) (P Q : Pt K) : Option (El K) :=
  a1Loop r P Q (a1Start r) (copy P) one2

/-- `a1_pairing` (`/repo/ecc/a_param.c:2017-2097`); `l = (p + 1) / n`. -/
def a1PairingAffine (r l : ℕ) (P Q : Pt K) : Option (El K) :=
  (a1Miller r P Q).bind fun f => a1exp f l

/-- `proj_add` (`/repo/ecc/a_param.c:1868-1897`). -/
def projAdd (V : Jac K) (P : Pt K) : Jac K :=
  let e0 := P.x * V.z2
  let e0 := e0 - V.x
  let e1 := e0 ^ 2
  let e2 := V.z * V.z2
  let e2 := e2 * P.y
  let e2 := e2 - V.y
  let z2 := V.x
  let x := e2 ^ 2
  let e3 := e0 * e1
  let x := x - e3
  let e3 := 2 * z2
  let e3 := e3 * e1
  let x := x - e3
  let e3 := z2 * e1
  let e3 := e3 - x
  let e3 := e3 * e2
  let e2 := e0 * e1
  let e2 := e2 * V.y
  let y := e3 - e2
  let z := V.z * e0
  let z2 := z ^ 2
  ⟨V.inf, x, y, z, z2⟩

/-- `do_line` (`/repo/ecc/a_param.c:1946-1950`). -/
def doLineProj (V : Jac K) (P Q : Pt K) (f : El K) : El K :=
  let l := lineProj V.x V.y V.z V.z2 P.x P.y
  let f0 := evalfn l Q.x Q.y
  mul2 f f0

/-- The loop of `a1_pairing_proj` (`/repo/ecc/a_param.c:1972-1985`). -/
def a1ProjLoop (r : ℕ) (P Q : Pt K) : ℕ → Jac K → El K → El K
  | 0, V, f => doTangentProj V Q f
  | m + 1, V, f =>
    let f := doTangentProj V Q f
    let V := projDouble V
    if r.testBit (m + 1) then
      let f := doLineProj V P Q f
      let V := projAdd V P
      a1ProjLoop r P Q m V (square2 f)
    else a1ProjLoop r P Q m V (square2 f)

/-- The Miller part of `a1_pairing_proj` (`/repo/ecc/a_param.c:1840-1985`). -/
def a1ProjMiller (r : ℕ) (P Q : Pt K) : El K :=
  let V := copy P
  a1ProjLoop r P Q (a1Start r) ⟨V.inf, V.x, V.y, 1, 1⟩ one2

/-- `a1_pairing_proj` (`/repo/ecc/a_param.c:1840-2014`), the default method. -/
def a1PairingProj (r l : ℕ) (P Q : Pt K) : Option (El K) := a1exp (a1ProjMiller r P Q) l

/-- An entry of the table of `a1_pairing_pp_init`: `pp_coeff_s` or `pp2_coeff_s`
(`/repo/ecc/a_param.c:1595-1604`). -/
inductive Pp1 (K : Type*)
  | tangent (l : Abc K)
  | both (cx2 cy2 cxy cx cy c : K)

/-- The product of two lines (`/repo/ecc/a_param.c:1676-1699`). -/
def pp2 (t l : Abc K) : Pp1 K :=
  let e0 := t.a * l.c
  let e1 := l.a * t.c
  let e0 := e0 + e1
  let e1 := l.b * t.c
  let e2 := t.b * l.c
  let e1 := e1 + e2
  let c := t.c * l.c
  let c2 := t.a * l.b
  let e2 := l.a * t.b
  let c2 := c2 + e2
  let a := t.a * l.a
  let b := t.b * l.b
  .both a b c2 e0 e1 c

/-- The loop of `a1_pairing_pp_init` (`/repo/ecc/a_param.c:1667-1712`). -/
def a1PpLoop (r : ℕ) (P : Pt K) : ℕ → Pt K → List (Pp1 K) → Option (List (Pp1 K))
  | 0, V, pp => some (pp ++ [.tangent (tangent V.x V.y)])
  | m + 1, V, pp =>
    let t := tangent V.x V.y
    match dbl V with
    | none => none
    | some V =>
      if r.testBit (m + 1) then
        let l := line V.x V.y P.x P.y
        match add V P with
        | none => none
        | some V => a1PpLoop r P m V (pp ++ [pp2 t l])
      else a1PpLoop r P m V (pp ++ [.tangent t])

/-- `a1_pairing_pp_init` (`/repo/ecc/a_param.c:1632-1726`).  The array holds `mpz_sizeinbase(r, 2)`
pointers, one of them the final null; writing past it is `none`. -/
def a1PpInit (r : ℕ) (P : Pt K) : Option (List (Pp1 K)) :=
  match a1PpLoop r P (a1Start r) (copy P) [] with
  | none => none
  | some pp => if pp.length + 1 ≤ Gen.bits r then some pp else none

/-- `do_line` (`/repo/ecc/a_param.c:1742-1760`) and `do_tangent` (`:1738-1740`).  Reading an entry as
the wrong kind is `none`. -/
def a1PpEval (isLine : Bool) (pp : Option (Pp1 K)) (Qx Qy Qx2 Qy2 Qxy : K) : Option (El K) :=
  match isLine, pp with
  | true, some (.both cx2 cy2 cxy cx cy c) =>
    let e0 := cx2 * Qx2
    let e1 := cy2 * Qy2
    let e0 := e0 - e1
    let e1 := cx * Qx
    let e0 := e0 - e1
    let x := e0 + c
    let e0 := cy * Qy
    let e1 := cxy * Qxy
    let y := e0 - e1
    some ⟨x, y⟩
  | false, some (.tangent l) => some (evalfn l Qx Qy)
  | _, _ => none

/-- The loop of `a1_pairing_pp_apply` (`/repo/ecc/a_param.c:1780-1792`); `i` is the position of
`pp`. -/
def a1PpApplyLoop (r : ℕ) (pp : List (Pp1 K)) (Qx Qy Qx2 Qy2 Qxy : K) : ℕ → ℕ → El K → Option (El K)
  | 0, i, f =>
    match a1PpEval false pp[i]? Qx Qy Qx2 Qy2 Qxy with
    | none => none
    | some f0 => some (mul2 f f0)
  | m + 1, i, f =>
    match a1PpEval (r.testBit (m + 1)) pp[i]? Qx Qy Qx2 Qy2 Qxy with
    | none => none
    | some f0 =>
      let f := mul2 f f0
      a1PpApplyLoop r pp Qx Qy Qx2 Qy2 Qxy m (i + 1) (square2 f)

/-- The Miller part of `a1_pairing_pp_apply` (`/repo/ecc/a_param.c:1728-1792`). -/
def a1PpMiller (r : ℕ) (pp : List (Pp1 K)) (Q : Pt K) : Option (El K) :=
  let Qx2 := Q.x ^ 2
  let Qy2 := Q.y ^ 2
  let Qxy := Q.x * Q.y
  a1PpApplyLoop r pp Q.x Q.y Qx2 Qy2 Qxy (a1Start r) 0 one2

/-- `a1_pairing_pp_apply` (`/repo/ecc/a_param.c:1728-1816`). -/
def a1PpApply (r l : ℕ) (pp : List (Pp1 K)) (Q : Pt K) : Option (El K) :=
  (a1PpMiller r pp Q).bind fun f => a1exp f l

/-! ## Products of pairings

`V[j]` is element `j` of a store and, where `element_multi_add` reads it, `in1[j]` is element
`n_prod + j`. -/

/-- `do_tangents` (`/repo/ecc/a_param.c:1296-1306`, `:2113-2123`). -/
def doTangents (V : Curve.Mem K) (Q : ℕ → Pt K) : ℕ → El K → El K
  | 0, f => f
  | j + 1, f => doTangent (V j) (Q j) (doTangents V Q j f)

/-- `do_lines` (`/repo/ecc/a_param.c:1308-1320`, `:2125-2137`). -/
def doLines (V : Curve.Mem K) (V1 Q : ℕ → Pt K) : ℕ → El K → El K
  | 0, f => f
  | j + 1, f => doLine (V j) (V1 j) (Q j) (doLines V V1 Q j f)

/-- `element_multi_double(V, V, n_prod)` (`/repo/ecc/curve.c:210-281`). -/
def multiDbl (n : ℕ) (V : Curve.Mem K) : Option (Curve.Mem K) := Curve.multiDouble 1 V id id n

/-- The loops at `/repo/ecc/a_param.c:1338-1344` and `:1357-1361`. -/
def prodLoop (Q : ℕ → Pt K) (nProd : ℕ) : ℕ → Curve.Mem K → El K → Option (Curve.Mem K × El K)
  | 0, V, f => some (V, f)
  | n + 1, V, f =>
    let f := square2 f
    let f := doTangents V Q nProd f
    match multiDbl nProd V with
    | none => none
    | some V => prodLoop Q nProd n V f

/-- The Miller part of `a_pairings_affine` (`/repo/ecc/a_param.c:1283-1364`). -/
def prodMiller (p : Params) (P Q : ℕ → Pt K) (nProd : ℕ) : Option (El K) :=
  match prodLoop Q nProd p.exp1 (fun j => copy (P j)) one2 with
  | none => none
  | some (V, f) =>
    let V1 := fun j => if p.sign1 < 0 then neg (V j) else copy (V j)
    match (if p.sign1 < 0 then invert2 f else some f) with
    | none => none
    | some f1 =>
      match prodLoop Q nProd (p.exp2 - p.exp1) V f with
      | none => none
      | some (V, f) =>
        let f := mul2 f f1
        some (doLines V V1 Q nProd f)

/-- `a_pairings_affine` (`/repo/ecc/a_param.c:1283-1383`). -/
def prodPairings (inv : K → K) (p : Params) (P Q : ℕ → Pt K) (nProd : ℕ) : Option (El K) :=
  (prodMiller p P Q nProd).bind fun f => tateexp inv f p.h

/-- The loop of `a1_pairings_affine` (`/repo/ecc/a_param.c:2155-2166`). -/
def a1ProdLoop (r : ℕ) (P Q : ℕ → Pt K) (nProd : ℕ) : ℕ → Curve.Mem K → El K → Option (El K)
  | 0, V, f => some (doTangents V Q nProd f)
  | m + 1, V, f =>
    let f := doTangents V Q nProd f
    match multiDbl nProd V with
    | none => none
    | some V =>
      if r.testBit (m + 1) then
        let f := doLines V P Q nProd f
        match Curve.multiAdd 1 V id id (nProd + ·) nProd with
        | none => none
        | some V => a1ProdLoop r P Q nProd m V (square2 f)
      else a1ProdLoop r P Q nProd m V (square2 f)

/-- The Miller part of `a1_pairings_affine` (`/repo/ecc/a_param.c:2100-2166`). -/
def a1ProdMiller (r : ℕ) (P Q : ℕ → Pt K) (nProd : ℕ) : Option (El K) :=
  a1ProdLoop r P Q nProd (a1Start r) (fun j => if j < nProd then copy (P j) else P (j - nProd)) one2

/-- `a1_pairings_affine` (`/repo/ecc/a_param.c:2100-2193`). -/
def a1ProdPairings (r l : ℕ) (P Q : ℕ → Pt K) (nProd : ℕ) : Option (El K) :=
  (a1ProdMiller r P Q nProd).bind fun f => a1exp f l

/-! ## The functions the user calls -/

/-- `a_finalpow` (`/repo/ecc/a_param.c:1420-1429`), used by types A (`:1464`) and A1 (`:2258`);
`phikonr` is `h` for type A and `l` for type A1. -/
def finalpow (inv : K → K) (phikonr : ℕ) (e : El K) : Option (El K) := tateexp inv e phikonr

/-- `gt_from_hash` and `gt_random` (`/repo/ecc/pairing.c:118-128`); `x` is what `element_from_hash` or
`element_random` of the field left in `e->data`. -/
def gtFrom (inv : K → K) (phikonr : ℕ) (x : El K) : Option (El K) := finalpow inv phikonr x

/-- `pairing_apply` and `element_pairing` (`/repo/include/pbc_pairing.h:118-146`); `map` is the
routine of the pairing type.  `element_set0` of GT stores 1 (`/repo/ecc/pairing.c:191-193`, `:263`). -/
def pairingApply (map : Pt K → Pt K → Option (El K)) (P Q : Pt K) : Option (El K) :=
  if P.inf then some one2
  else if Q.inf then some one2
  else map P Q

/-- `pairing_pp_init` (`/repo/include/pbc_pairing.h:54-61`); `some none` is a null `p->pairing`. -/
def pairingPpInit {T : Type*} (init : Pt K → Option T) (P : Pt K) : Option (Option T) :=
  if P.inf then some none else (init P).map some

/-- `pairing_pp_apply` (`/repo/include/pbc_pairing.h:79-89`). -/
def pairingPpApply {T : Type*} (app : T → Pt K → Option (El K)) (p : Option T) (Q : Pt K) :
    Option (El K) :=
  match p with
  | none => some one2
  | some p => if Q.inf then some one2 else app p Q

/-- The checks of `element_prod_pairing` (`/repo/include/pbc_pairing.h:158-169`): is there an
identity among the inputs? -/
def anyZero (P Q : ℕ → Pt K) : ℕ → Bool
  | 0 => false
  | n + 1 => anyZero P Q n || (P n).inf || (Q n).inf

/-- `element_prod_pairing` (`/repo/include/pbc_pairing.h:153-171`). -/
def prodPairing (map : (ℕ → Pt K) → (ℕ → Pt K) → ℕ → Option (El K)) (P Q : ℕ → Pt K) (n : ℕ) :
    Option (El K) :=
  if anyZero P Q n then some one2 else map P Q n

end Pbc.PairingA
