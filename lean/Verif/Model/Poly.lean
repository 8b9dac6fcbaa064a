import Verif.Model.Quadratic
import Verif.Spec.Poly
import Mathlib.Algebra.Field.Basic

/-!
# `/repo/arith/poly.c`: polynomial rings

An element is its array of coefficients, lowest first; the store is indexed by numbers.  Coefficients
are in a Mathlib ring.  Indices are in range wherever the code indexes a coefficient, so reading is
modelled by `getD`.
-/

set_option autoImplicit false

namespace Pbc.Poly

open Pbc.Quad (inv? Codec)

variable {R : Type*}

/-- The store. -/
abbrev Mem (R : Type*) := ℕ → List R

/-- `for (i = start; i < start + count; i++)`. -/
def forUp {S : Type*} (body : ℕ → S → S) : ℕ → ℕ → S → S
  | _, 0, s => s
  | i, k + 1, s => forUp body (i + 1) k (body i s)

section ring

variable [CommRing R]

/-- Coefficient `i` of element `e`. -/
def rd (m : Mem R) (e i : ℕ) : R := (m e).getD i 0

/-- Write coefficient `i` of element `e`. -/
def wr (m : Mem R) (e i : ℕ) (v : R) : Mem R := Function.update m e ((m e).set i v)

/-- `poly_alloc` (`/repo/arith/poly.c:49-67`) on an array. -/
def resize (l : List R) (n : ℕ) : List R := l.take n ++ List.replicate (n - l.length) 0

/-- `poly_alloc` (`/repo/arith/poly.c:49-67`). -/
def alloc (m : Mem R) (e n : ℕ) : Mem R := Function.update m e (resize (m e) n)

variable [DecidableEq R]

/-- `poly_remove_leading_zeroes` (`/repo/arith/poly.c:87-98`) on an array: the loop of at most `k`
steps. -/
def stripLoop : ℕ → List R → List R
  | 0, l => l
  | k + 1, l => if l.getD k 0 ≠ 0 then l else stripLoop k l.dropLast

/-- `poly_remove_leading_zeroes` (`/repo/arith/poly.c:87-98`) on an array. -/
def strip (l : List R) : List R := stripLoop l.length l

/-- `poly_remove_leading_zeroes`. -/
def stripE (m : Mem R) (e : ℕ) : Mem R := Function.update m e (strip (m e))

/-- `poly_set0` (`/repo/arith/poly.c:100-102`). -/
def set0 (m : Mem R) (e : ℕ) : Mem R := alloc m e 0

/-- `poly_set1` (`/repo/arith/poly.c:104-111`). -/
def set1 (m : Mem R) (e : ℕ) : Mem R :=
  let m := alloc m e 1
  wr m e 0 1

/-- `poly_set_si`, `poly_set_mpz` (`/repo/arith/poly.c:126-142`). -/
def setZ (m : Mem R) (e : ℕ) (z : ℤ) : Mem R :=
  let m := alloc m e 1
  let m := wr m e 0 (z : R)
  stripE m e

/-- `poly_is0` (`/repo/arith/poly.c:113-116`). -/
def is0 (l : List R) : Bool := l.length = 0

/-- `poly_is1` (`/repo/arith/poly.c:118-124`). -/
def is1 (l : List R) : Bool := if l.length = 1 then decide (l.getD 0 0 = 1) else false

/-- `poly_set` (`/repo/arith/poly.c:164-173`). -/
def set (m : Mem R) (dst src : ℕ) : Mem R :=
  let n := (m src).length
  let m := alloc m dst n
  forUp (fun i m => wr m dst i (rd m src i)) 0 n m

/-- `poly_add` (`/repo/arith/poly.c:196-218`). -/
def add (m : Mem R) (sum f g : ℕ) : Mem R :=
  let n := (m f).length
  let n1 := (m g).length
  let big := if n > n1 then f else g
  let lo := if n > n1 then n1 else n
  let hi := if n > n1 then n else n1
  let m := alloc m sum hi
  let m := forUp (fun i m => wr m sum i (rd m f i + rd m g i)) 0 lo m
  let m := forUp (fun i m => wr m sum i (rd m big i)) lo (hi - lo) m
  stripE m sum

/-- `poly_sub` (`/repo/arith/poly.c:220-246`). -/
def sub (m : Mem R) (diff f g : ℕ) : Mem R :=
  let n := (m f).length
  let n1 := (m g).length
  let big := if n > n1 then f else g
  let lo := if n > n1 then n1 else n
  let hi := if n > n1 then n else n1
  let m := alloc m diff hi
  let m := forUp (fun i m => wr m diff i (rd m f i - rd m g i)) 0 lo m
  let m := forUp (fun i m =>
    if big = f then wr m diff i (rd m big i) else wr m diff i (- rd m big i)) lo (hi - lo) m
  stripE m diff

/-- The coefficientwise loops without normalisation: `poly_neg`, `poly_double`, `poly_mul_mpz`,
`poly_mul_si` (`/repo/arith/poly.c:248-294`) are this with different `op`. -/
def mapLoop (op : R → R) (m : Mem R) (f g : ℕ) : Mem R :=
  let n := (m g).length
  let m := alloc m f n
  forUp (fun i m => wr m f i (op (rd m g i))) 0 n m

/-- `poly_neg` (`/repo/arith/poly.c:248-258`). -/
def neg (m : Mem R) (f g : ℕ) : Mem R := mapLoop (fun x => -x) m f g
/-- `poly_double` (`/repo/arith/poly.c:260-270`). -/
def double (m : Mem R) (f g : ℕ) : Mem R := mapLoop (fun x => 2 * x) m f g
/-- `poly_mul_mpz`, `poly_mul_si` (`/repo/arith/poly.c:272-294`). -/
def mulZ (m : Mem R) (f g : ℕ) (z : ℤ) : Mem R := mapLoop (fun x => x * (z : R)) m f g

/-- `poly_const_mul` (`/repo/arith/poly.c:1453-1460`). -/
def constMul (m : Mem R) (res : ℕ) (a : R) (poly : ℕ) : Mem R :=
  stripE (mapLoop (fun x => a * x) m res poly) res

/-- The inner loop of `poly_mul` (`/repo/arith/poly.c:319-324`). -/
def mulCoeff (f g : List R) (i : ℕ) : R :=
  forUp (fun j x => if j < f.length ∧ i - j < g.length then x + f.getD j 0 * g.getD (i - j) 0 else x)
    0 (i + 1) 0

/-- `poly_mul` (`/repo/arith/poly.c:296-330`) as a function of the two arrays: the product is built
in a private element and then copied. -/
def mulV (f g : List R) : List R :=
  if f.length = 0 ∨ g.length = 0 then []
  else
    let n := f.length + g.length - 1
    strip ((List.range n).map (mulCoeff f g))

/-- `poly_mul`. -/
def mul (m : Mem R) (r f g : ℕ) : Mem R := Function.update m r (mulV (m f) (m g))

/-- `poly_cmp` (`/repo/arith/poly.c:538-547`): `true` is "different". -/
def cmp (f g : List R) : Bool :=
  if f.length ≠ g.length then true
  else (List.range f.length).any fun i => decide (f.getD i 0 ≠ g.getD i 0)

/-- `poly_degree` (`/repo/include/pbc_poly.h:21-23`). -/
def degree (f : List R) : ℤ := (f.length : ℤ) - 1

/-- `poly_sgn` (`/repo/arith/poly.c:185-194`). -/
def sgn (s : R → ℤ) : List R → ℤ
  | [] => 0
  | x :: l => if s x ≠ 0 then s x else sgn s l

/-- `poly_set_coeff` (`/repo/arith/poly.c:1421-1429`). -/
def setCoeff (l : List R) (a : R) (n : ℕ) : List R :=
  let l := if l.length < n + 1 then resize l (n + 1) else l
  let l := l.set n a
  if l.length = n + 1 ∧ a = 0 then strip l else l

/-- `poly_set_coeff0` (`/repo/arith/poly.c:1431-1437`). -/
def setCoeff0 (l : List R) (n : ℕ) : List R :=
  if n < l.length then
    let l := l.set n 0
    if n = l.length - 1 then strip l else l
  else l

/-- `poly_set_coeff1` (`/repo/arith/poly.c:1439-1445`). -/
def setCoeff1 (l : List R) (n : ℕ) : List R :=
  let l := if l.length < n + 1 then resize l (n + 1) else l
  l.set n 1

/-- `poly_setx` (`/repo/arith/poly.c:1447-1451`). -/
def setx (l : List R) : List R :=
  let l := resize l 2
  let l := l.set 1 1
  l.set 0 0

/-- One call on a polynomial ring.  `element_square` is `poly_mul` with equal arguments
(`generic_square`, `/repo/arith/field.c:383-385`). -/
def exec (m : Mem R) : Spec.PolyOp R → Mem R
  | .setZ c z => setZ m c z
  | .set0 c => set0 m c
  | .set1 c => set1 m c
  | .setX c => Function.update m c (setx (m c))
  | .set c a => set m c a
  | .add c a b => add m c a b
  | .sub c a b => sub m c a b
  | .neg c a => neg m c a
  | .double c a => double m c a
  | .mul c a b => mul m c a b
  | .square c a => mul m c a a
  | .mulZ c a z => mulZ m c a z
  | .constMul c r a => constMul m c r a
  | .setCoeff c r n => Function.update m c (setCoeff (m c) r n)
  | .setCoeff0 c n => Function.update m c (setCoeff0 (m c) n)
  | .setCoeff1 c n => Function.update m c (setCoeff1 (m c) n)

end ring

section division

variable {K : Type*} [Field K] [DecidableEq K]

/-- The inner loop of `poly_div` (`/repo/arith/poly.c:437-440`): `r[i+k] -= qe * b[i]` for
`i = 0, ..., n`. -/
def divInner (b : List K) (qe : K) (k n : ℕ) (r : List K) : List K :=
  forUp (fun i r => r.set (i + k) (r.getD (i + k) 0 - qe * b.getD i 0)) 0 (n + 1) r

/-- The outer loop of `poly_div` (`/repo/arith/poly.c:434-443`) for `k = j - 1, ..., 0`, where
`m = n + k` throughout. -/
def divLoop (b : List K) (binv : K) (n : ℕ) : ℕ → List K → List K → List K × List K
  | 0, q, r => (q, r)
  | k + 1, q, r =>
    let qe := binv * r.getD (n + k) 0
    let q := q.set k qe
    let r := divInner b qe k n r
    divLoop b binv n k q r

/-- `poly_div` (`/repo/arith/poly.c:406-452`): quotient and remainder.  `none` is `pbc_die` or the
inversion of 0.  Called only with four different elements. -/
def div (a b : List K) : Option (List K × List K) :=
  if is0 b then none
  else
    let n := b.length - 1
    if b.length > a.length then some ([], a)
    else
      let k := a.length - b.length
      match inv? (b.getD n 0) with
      | none => none
      | some binv =>
        let p := divLoop b binv n (k + 1) (List.replicate (k + 1) 0) a
        some (p.1, strip p.2)

/-- The loop of `poly_gcd` (`/repo/arith/poly.c:1351-1357`). -/
def gcdLoop : ℕ → List K → List K → Option (List K)
  | 0, _, _ => none
  | fuel + 1, a, b =>
    match div a b with
    | none => none
    | some (_, r) => if is0 r then some b else gcdLoop fuel b r

/-- `poly_gcd` (`/repo/arith/poly.c:1342-1363`).  The remainders get shorter, so `fuel` one more than
the length of `g` never runs out. -/
def gcd (f g : List K) : Option (List K) := gcdLoop (g.length + 1) f g

/-- `poly_make_monic` (`/repo/arith/poly.c:1366-1379`). -/
def makeMonic (m : Mem K) (f g : ℕ) : Option (Mem K) :=
  let n := (m g).length
  let m := alloc m f n
  if n = 0 then some m
  else
    match inv? (rd m g (n - 1)) with
    | none => none
    | some e =>
      let m := wr m f (n - 1) e
      let m := forUp (fun i m => wr m f i (rd m g i * rd m f (n - 1))) 0 (n - 1) m
      some (wr m f (n - 1) 1)

/-- The loop of `poly_invert` (`/repo/arith/poly.c:472-481`); returns `r1` and `b1`. -/
def invLoop : ℕ → List K → List K → List K → List K → Option (List K × List K)
  | 0, _, _, _, _ => none
  | fuel + 1, b0, b1, r0, r1 =>
    match div r0 r1 with
    | none => none
    | some (q, r2) =>
      if is0 r2 then some (r1, b1)
      else
        let b2 := mulV b1 q
        let b2 := (sub (fun i => if i = 1 then b0 else b2) 2 1 2) 2
        invLoop fuel b1 b2 r1 r2

/-- `poly_invert` (`/repo/arith/poly.c:454-492`). -/
def invert (f m : List K) : Option (List K) :=
  match invLoop (f.length + 1) [] [1] m f with
  | none => none
  | some (r1, b1) =>
    match inv? (r1.getD 0 0) with
    | none => none
    | some e => some (constMul (fun _ => b1) 0 e 1 0)

end division

section bytes

/-- `poly_to_bytes` (`/repo/arith/poly.c:566-576`): the count is written in two bytes. -/
def toBytes (c : Codec R) (l : List R) : List ℕ :=
  [l.length % 256, l.length / 256 % 256] ++ l.flatMap c.enc

/-- The loop of `poly_from_bytes` (`/repo/arith/poly.c:583-585`). -/
def fromLoop (c : Codec R) : ℕ → List ℕ → ℕ → List R × ℕ
  | 0, _, n => ([], n)
  | k + 1, data, n =>
    let r := c.dec data
    let s := fromLoop c k (data.drop r.2) (n + r.2)
    (r.1 :: s.1, s.2)

/-- `poly_from_bytes` (`/repo/arith/poly.c:578-587`). -/
def fromBytes (c : Codec R) (data : List ℕ) : List R × ℕ :=
  let count := data.getD 0 0 + data.getD 1 0 * 256
  fromLoop c count (data.drop 2) 2

end bytes

end Pbc.Poly
