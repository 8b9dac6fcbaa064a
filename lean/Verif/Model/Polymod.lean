import Verif.Model.Poly
import Verif.Model.FieldGeneric
import Verif.Spec.RingProgram

/-!
# `/repo/arith/poly.c`: rings `R[x]/(f)`

An element is an array of `n` coefficients; the store is indexed by element and coefficient, and
every write to a coefficient is one step, so any aliasing of the arguments is visible.  Elements
start as 0 (`element_init` of the base field).
-/

set_option autoImplicit false

namespace Pbc.Polymod

open Pbc.Poly (forUp strip)
open Pbc.Quad (inv? Codec)

variable {R : Type*}

/-- The store: coefficient `i` of element `e` is `m e i`. -/
abbrev Mem (R : Type*) := ℕ → ℕ → R

/-- Write one coefficient. -/
def wr (m : Mem R) (e i : ℕ) (v : R) : Mem R :=
  Function.update m e (Function.update (m e) i v)

section ring

variable [CommRing R]

/-- `compute_x_powers` (`/repo/arith/poly.c:1302-1333`): row `i` is `xpwr[i]`, that is `x^(n+i)`
modulo the polynomial with coefficients `poly`.  Row 0 is `poly_to_polymod_truncate` followed by
`element_neg`. -/
def xRow (n : ℕ) (poly : List R) : ℕ → ℕ → R
  | 0 => fun j => if j < n then - (if j < poly.length then poly.getD j 0 else 0) else 0
  | i + 1 => fun j =>
    if j < n then
      (if j = 0 then 0 else xRow n poly i (j - 1)) + xRow n poly 0 j * xRow n poly i (n - 1)
    else 0

/-- `polymod_set_si`, `polymod_set_mpz` (`/repo/arith/poly.c:776-794`). -/
def setZ (n : ℕ) (m : Mem R) (e : ℕ) (z : ℤ) : Mem R :=
  let m := wr m e 0 (z : R)
  forUp (fun i m => wr m e i 0) 1 (n - 1) m

/-- `polymod_set0` (`/repo/arith/poly.c:1168-1176`). -/
def set0 (n : ℕ) (m : Mem R) (e : ℕ) : Mem R := forUp (fun i m => wr m e i 0) 0 n m

/-- `polymod_set1` (`/repo/arith/poly.c:1178-1187`). -/
def set1 (n : ℕ) (m : Mem R) (e : ℕ) : Mem R :=
  let m := wr m e 0 1
  forUp (fun i m => wr m e i 0) 1 (n - 1) m

/-- `element_field_to_polymod` (`/repo/arith/poly.c:1634-1642`). -/
def setBase (n : ℕ) (m : Mem R) (e : ℕ) (g : R) : Mem R :=
  let m := wr m e 0 g
  forUp (fun i m => wr m e i 0) 1 (n - 1) m

/-- `polymod_set` (`/repo/arith/poly.c:796-803`). -/
def set (n : ℕ) (m : Mem R) (e f : ℕ) : Mem R := forUp (fun i m => wr m e i (m f i)) 0 n m

/-- `polymod_neg` (`/repo/arith/poly.c:805-812`). -/
def neg (n : ℕ) (m : Mem R) (e f : ℕ) : Mem R := forUp (fun i m => wr m e i (- m f i)) 0 n m

/-- `polymod_add` (`/repo/arith/poly.c:824-831`). -/
def add (n : ℕ) (m : Mem R) (r e f : ℕ) : Mem R :=
  forUp (fun i m => wr m r i (m e i + m f i)) 0 n m

/-- `polymod_double` (`/repo/arith/poly.c:833-840`). -/
def double (n : ℕ) (m : Mem R) (r f : ℕ) : Mem R := forUp (fun i m => wr m r i (2 * m f i)) 0 n m

/-- `polymod_sub` (`/repo/arith/poly.c:842-849`). -/
def sub (n : ℕ) (m : Mem R) (r e f : ℕ) : Mem R :=
  forUp (fun i m => wr m r i (m e i - m f i)) 0 n m

/-- `polymod_mul_mpz`, `polymod_mul_si` (`/repo/arith/poly.c:851-867`). -/
def mulZ (n : ℕ) (m : Mem R) (e f : ℕ) (z : ℤ) : Mem R :=
  forUp (fun i m => wr m e i (m f i * (z : R))) 0 n m

/-- `polymod_const_mul` (`/repo/arith/poly.c:1550-1558`); the scalar is not part of an element. -/
def constMul (n : ℕ) (m : Mem R) (res : ℕ) (a : R) (e : ℕ) : Mem R :=
  forUp (fun i m => wr m res i (m e i * a)) 0 n m

/-- `polymod_const_mul(p0, c, row)` into a fresh element `p0` followed by `element_add(res, res, p0)`. -/
def addRow (n : ℕ) (m : Mem R) (res : ℕ) (c : R) (row : ℕ → R) : Mem R :=
  forUp (fun j m => wr m res j (m res j + row j * c)) 0 n m

/-- `kar_poly_2` (`/repo/arith/poly.c:870-907`): `s1` and `s2` are given by an element and an offset.
`c3`, `c4` and the scratch space are different from `dst`, `s1` and `s2` in all the calls, so they are
local here. -/
def karPoly2 (m : Mem R) (dst : ℕ) (s1 o1 s2 o2 : ℕ) : Mem R × R × R :=
  let c3 := m s1 o1 + m s1 (o1 + 1)
  let c4 := m s2 o2 + m s2 (o2 + 1)
  let c01 := c3 * c4
  let c3 := m s1 o1 + m s1 (o1 + 2)
  let c4 := m s2 o2 + m s2 (o2 + 2)
  let c02 := c3 * c4
  let c3 := m s1 (o1 + 1) + m s1 (o1 + 2)
  let c4 := m s2 (o2 + 1) + m s2 (o2 + 2)
  let c12 := c3 * c4
  let m := wr m dst 1 (m s1 (o1 + 1) * m s2 (o2 + 1))
  let m := wr m dst 0 (m s1 o1 * m s2 o2)
  let c4 := m s1 (o1 + 2) * m s2 (o2 + 2)
  let c3 := m dst 1 + c4
  let c3 := c12 - c3
  let m := wr m dst 2 (c4 + m dst 0)
  let c02 := c02 - m dst 2
  let m := wr m dst 2 (m dst 1 + c02)
  let c01 := c01 - m dst 0
  let m := wr m dst 1 (c01 - m dst 1)
  (m, c3, c4)

/-- `polymod_mul_degree3` (`/repo/arith/poly.c:910-930`). -/
def mulDegree3 (xp : ℕ → ℕ → R) (m : Mem R) (res e f : ℕ) : Mem R :=
  let r := karPoly2 m res e 0 f 0
  let m := addRow 3 r.1 res r.2.1 (xp 0)
  addRow 3 m res r.2.2 (xp 1)

/-- The sums at the start of `polymod_mul_degree6` (`/repo/arith/poly.c:951-957`) in the fresh
elements `s0`, `s1`. -/
def deg6Sums (s0 s1 : ℕ) (m : Mem R) (e f : ℕ) : Mem R :=
  let m := wr m s0 0 (m e 0 + m e 3)
  let m := wr m s0 1 (m e 1 + m e 4)
  let m := wr m s0 2 (m e 2 + m e 5)
  let m := wr m s1 0 (m f 0 + m f 3)
  let m := wr m s1 1 (m f 1 + m f 4)
  wr m s1 2 (m f 2 + m f 5)

/-- `kar_poly_2(d, d[3], d[4], &a[oa], &b[ob], ...)` as called at `/repo/arith/poly.c:959-961`. -/
def deg6Kar (m : Mem R) (d a oa b ob : ℕ) : Mem R :=
  let r := karPoly2 m d a oa b ob
  let m := wr r.1 d 3 r.2.1
  wr m d 4 r.2.2

/-- The combination in `polymod_mul_degree6` (`/repo/arith/poly.c:963-976`). -/
def deg6Low (s0 s1 s2 : ℕ) (m : Mem R) (res : ℕ) : Mem R :=
  let m := wr m res 0 (m s0 0)
  let m := wr m res 1 (m s0 1)
  let m := wr m res 2 (m s0 2)
  let m := wr m res 3 (m s0 3 - m s0 0)
  let m := wr m res 3 (m res 3 - m s1 0)
  let m := wr m res 3 (m res 3 + m s2 0)
  let m := wr m res 4 (m s0 4 - m s0 1)
  let m := wr m res 4 (m res 4 - m s1 1)
  let m := wr m res 4 (m res 4 + m s2 1)
  let m := wr m res 5 (m s2 2 - m s0 2)
  wr m res 5 (m res 5 - m s1 2)

/-- The reuse of `s0` in `polymod_mul_degree6` (`/repo/arith/poly.c:979-985`). -/
def deg6High (s0 s1 s2 : ℕ) (m : Mem R) : Mem R :=
  let m := wr m s0 0 (m s2 3 - m s0 3)
  let m := wr m s0 0 (m s0 0 - m s1 3)
  let m := wr m s0 0 (m s0 0 + m s1 0)
  let m := wr m s0 1 (m s2 4 - m s0 4)
  let m := wr m s0 1 (m s0 1 - m s1 4)
  wr m s0 1 (m s0 1 + m s1 1)

/-- `polymod_mul_degree6` (`/repo/arith/poly.c:932-1002`); the fresh elements `p0`, `p1`, `p2` are
`s`, `s + 1`, `s + 2`. -/
def mulDegree6 (xp : ℕ → ℕ → R) (s : ℕ) (m : Mem R) (res e f : ℕ) : Mem R :=
  let m := deg6Sums s (s + 1) m e f
  let m := deg6Kar m (s + 2) s 0 (s + 1) 0
  let m := deg6Kar m s e 0 f 0
  let m := deg6Kar m (s + 1) e 3 f 3
  let m := deg6Low s (s + 1) (s + 2) m res
  let m := deg6High s (s + 1) (s + 2) m
  let m := addRow 6 m res (m s 0) (xp 0)
  let m := addRow 6 m res (m s 1) (xp 1)
  let m := addRow 6 m res (m (s + 1) 2) (xp 2)
  let m := addRow 6 m res (m (s + 1) 3) (xp 3)
  addRow 6 m res (m (s + 1) 4) (xp 4)

/-- The private product and the coefficients of `x^n, ..., x^(2n-2)`
(`/repo/arith/poly.c:1010-1020`). -/
structure Acc (R : Type*) where
  dst : ℕ → R
  high : ℕ → R

/-- `element_add(dst[k], dst[k], c)`. -/
def addLo (s : Acc R) (k : ℕ) (c : R) : Acc R :=
  { s with dst := Function.update s.dst k (s.dst k + c) }
/-- `element_add(high[k], high[k], c)`. -/
def addHi (s : Acc R) (k : ℕ) (c : R) : Acc R :=
  { s with high := Function.update s.high k (s.high k + c) }

/-- The double loop of `polymod_mul` (`/repo/arith/poly.c:1024-1034`). -/
def mulAcc (n : ℕ) (a b : ℕ → R) : Acc R :=
  forUp (fun i s =>
    let ni := n - i
    let s := forUp (fun j s => addLo s (i + j) (a i * b j)) 0 ni s
    forUp (fun j s => addHi s (j - ni) (a i * b j)) ni (n - ni) s) 0 n ⟨fun _ => 0, fun _ => 0⟩

/-- The last loop of `polymod_mul` and `polymod_square` (`/repo/arith/poly.c:1036-1040`): the
coefficientwise operations on the private elements are given as functions. -/
def reduceAcc (n : ℕ) (xp : ℕ → ℕ → R) (s : Acc R) : ℕ → R :=
  forUp (fun i prod => fun j => if j < n then prod j + xp i j * s.high i else prod j) 0 (n - 1) s.dst

/-- `polymod_mul` (`/repo/arith/poly.c:1005-1047`). -/
def mulGeneral (n : ℕ) (xp : ℕ → ℕ → R) (m : Mem R) (res e f : ℕ) : Mem R :=
  let prod := reduceAcc n xp (mulAcc n (m e) (m f))
  forUp (fun i m => wr m res i (prod i)) 0 n m

/-- `polymod_square_degree3` (`/repo/arith/poly.c:1049-1089`); `c1` and `c3` are in the fresh `p0`. -/
def squareDegree3 (xp : ℕ → ℕ → R) (m : Mem R) (res e : ℕ) : Mem R :=
  let c3 := m e 0 * m e 1
  let c1 := m e 0 * m e 2
  let m := wr m res 0 (m e 0 ^ 2)
  let c2 := m e 1 * m e 2
  let c0 := m e 2 ^ 2
  let m := wr m res 2 (m e 1 ^ 2)
  let m := wr m res 1 (c3 + c3)
  let c1 := c1 + c1
  let m := wr m res 2 (m res 2 + c1)
  let m := addRow 3 m res c0 (xp 1)
  let c2 := c2 + c2
  addRow 3 m res c2 (xp 0)

/-- The double loop of `polymod_square` (`/repo/arith/poly.c:1111-1130`). -/
def squareAcc (n : ℕ) (a : ℕ → R) : Acc R :=
  forUp (fun i s =>
    let c0 := a i ^ 2
    let s := if 2 * i < n then addLo s (2 * i) c0 else addHi s (2 * i - n) c0
    let s := forUp (fun j s => addLo s (i + j) (a i * a j + a i * a j)) (i + 1) (n - i - (i + 1)) s
    forUp (fun j s => addHi s (i + j - n) (a i * a j + a i * a j)) (max (i + 1) (n - i))
      (n - max (i + 1) (n - i)) s) 0 n ⟨fun _ => 0, fun _ => 0⟩

/-- `polymod_square` (`/repo/arith/poly.c:1091-1143`). -/
def squareGeneral (n : ℕ) (xp : ℕ → ℕ → R) (m : Mem R) (res e : ℕ) : Mem R :=
  let prod := reduceAcc n xp (squareAcc n (m e))
  forUp (fun i m => wr m res i (prod i)) 0 n m

/-- The choice of multiplication in `field_init_polymod` (`/repo/arith/poly.c:1508-1521`); the fresh
elements are at `s` and above. -/
def mul (n : ℕ) (xp : ℕ → ℕ → R) (s : ℕ) (m : Mem R) (res e f : ℕ) : Mem R :=
  if n = 3 then mulDegree3 xp m res e f
  else if n = 6 then mulDegree6 xp s m res e f
  else mulGeneral n xp m res e f

/-- The choice of squaring in `field_init_polymod` (`/repo/arith/poly.c:1508-1521`). -/
def square (n : ℕ) (xp : ℕ → ℕ → R) (m : Mem R) (res e : ℕ) : Mem R :=
  if n = 3 then squareDegree3 xp m res e else squareGeneral n xp m res e

variable [DecidableEq R]

/-- `polymod_is0` (`/repo/arith/poly.c:1145-1154`). -/
def is0 (n : ℕ) (a : ℕ → R) : Bool := (List.range n).all fun i => decide (a i = 0)

/-- `polymod_is1` (`/repo/arith/poly.c:1156-1166`). -/
def is1 (n : ℕ) (a : ℕ → R) : Bool :=
  if a 0 ≠ 1 then false else (List.range (n - 1)).all fun i => decide (a (i + 1) = 0)

/-- `polymod_cmp` (`/repo/arith/poly.c:814-822`): `true` is "different". -/
def cmp (n : ℕ) (a b : ℕ → R) : Bool := (List.range n).any fun i => decide (a i ≠ b i)

/-- `polymod_sgn` (`/repo/arith/poly.c:1189-1199`). -/
def sgn (s : R → ℤ) (n : ℕ) (a : ℕ → R) : ℤ := Poly.sgn s ((List.range n).map a)

/-- `polymod_to_poly` (`/repo/arith/poly.c:510-519`). -/
def toPolyList (n : ℕ) (a : ℕ → R) : List R := strip ((List.range n).map a)

/-- `poly_to_polymod_truncate` (`/repo/arith/poly.c:494-508`). -/
def truncate (n : ℕ) (m : Mem R) (e : ℕ) (f : List R) : Mem R :=
  let k := if f.length > n then n else f.length
  let m := forUp (fun i m => wr m e i (f.getD i 0)) 0 k m
  forUp (fun i m => wr m e i 0) k (n - k) m

end ring

section field

variable {K : Type*} [Field K] [DecidableEq K]

/-- `polymod_invert` (`/repo/arith/poly.c:521-536`). -/
def invert (n : ℕ) (poly : List K) (m : Mem K) (r e : ℕ) : Option (Mem K) :=
  match Poly.invert (toPolyList n (m e)) poly with
  | none => none
  | some r1 => some (truncate n m r r1)

/-- `generic_halve` (`/repo/arith/field.c:406-413`) with a temporary at `t`. -/
def halve (n : ℕ) (poly : List K) (t : ℕ) (m : Mem K) (r a : ℕ) : Option (Mem K) :=
  let m := setZ n m t 2
  match invert n poly m t t with
  | none => none
  | some m => some (mul n (xRow n poly) (t + 1) m r a t)

/-- `generic_div` (`/repo/arith/field.c:458-469`) with a temporary at `t`. -/
def div (n : ℕ) (poly : List K) (t : ℕ) (m : Mem K) (c a b : ℕ) : Option (Mem K) :=
  if c ≠ a then
    match invert n poly m c b with
    | none => none
    | some m => some (mul n (xRow n poly) (t + 1) m c c a)
  else
    match invert n poly m t b with
    | none => none
    | some m => some (mul n (xRow n poly) (t + 1) m c t a)

/-- One call; `t` and above are fresh. -/
def exec (n : ℕ) (poly : List K) (t : ℕ) (m : Mem K) : Spec.RingOp → Option (Mem K)
  | .setSi c z => some (setZ n m c z)
  | .setMpz c z => some (setZ n m c z)
  | .set0 c => some (set0 n m c)
  | .set1 c => some (set1 n m c)
  | .set c a => some (set n m c a)
  | .add c a b => some (add n m c a b)
  | .sub c a b => some (sub n m c a b)
  | .neg c a => some (neg n m c a)
  | .double c a => some (double n m c a)
  | .halve c a => halve n poly t m c a
  | .mul c a b => some (mul n (xRow n poly) (t + 1) m c a b)
  | .square c a => some (square n (xRow n poly) m c a)
  | .mulMpz c a z => some (mulZ n m c a z)
  | .mulSi c a z => some (mulZ n m c a z)
  | .invert c a => invert n poly m c a
  | .div c a b => div n poly t m c a b

/-- Run a program. -/
def run (n : ℕ) (poly : List K) (t : ℕ) : Mem K → List Spec.RingOp → Option (Mem K)
  | m, [] => some m
  | m, op :: rest =>
    match exec n poly t m op with
    | none => none
    | some m => run n poly t m rest

end field

section powers

variable [CommRing R] [DecidableEq R]

/-- An element of the ring of residues by itself: its coefficients. -/
structure Arr (n : ℕ) (poly : List R) where
  /-- coefficients -/
  c : ℕ → R

variable {n : ℕ} {poly : List R}

/-- `element_mul` into a third element. -/
instance : Mul (Arr n poly) :=
  ⟨fun a b => ⟨mul n (xRow n poly) 3 (fun e => if e = 0 then a.c else b.c) 2 0 1 2⟩⟩

/-- `element_set1`. -/
instance : One (Arr n poly) := ⟨⟨set1 n (fun _ _ => 0) 0 0⟩⟩

/-- `element_square` into another element. -/
instance : Gen.Sqr (Arr n poly) := ⟨fun a => ⟨square n (xRow n poly) (fun _ => a.c) 1 0 1⟩⟩

/-- `polymod_is_sqr` (`/repo/arith/poly.c:617-632`): `q` is the order of the field, and
`element_pow_mpz` is `generic_pow_mpz`. -/
def isSqr (q : ℕ) (a : Arr n poly) : Option Bool :=
  match Gen.powMpz a ((q - 1) / 2) with
  | none => none
  | some e0 => some (is1 n e0.c)

end powers

section bytes

/-- `polymod_to_bytes` (`/repo/arith/poly.c:718-727`). -/
def toBytes (c : Codec R) (n : ℕ) (a : ℕ → R) : List ℕ := (List.range n).flatMap fun i => c.enc (a i)

/-- `polymod_from_bytes` (`/repo/arith/poly.c:742-752`). -/
def fromBytes (c : Codec R) (n : ℕ) (data : List ℕ) : List R × ℕ := Poly.fromLoop c n data 0

end bytes

end Pbc.Polymod
