import Verif.Spec.RingProgram
import Verif.Model.Bytes
import Mathlib.Algebra.Group.Even

/-!
# `/repo/arith/fieldquadratic.c`: quadratic extensions

Elements live in a store indexed by numbers; the two coordinates of an element are written one
after the other, in the order of the code, so that any aliasing of arguments is visible.  The base
field is a Mathlib field `K`: its own arithmetic is the subject of other files.  Inverting 0 in the
base field is `none`.
-/

set_option autoImplicit false

namespace Pbc.Quad

open Spec

variable {K : Type*} [Field K] [DecidableEq K]

/-- An element `x + y a`, `a² = nqr` (`/repo/arith/fieldquadratic.c:22-27`). -/
structure El (K : Type*) where
  x : K
  y : K
deriving DecidableEq

/-- The store. -/
abbrev Mem (K : Type*) := ℕ → El K

/-- Write the first coordinate of element `n`. -/
def wx (m : Mem K) (n : ℕ) (v : K) : Mem K := Function.update m n { m n with x := v }
/-- Write the second coordinate of element `n`. -/
def wy (m : Mem K) (n : ℕ) (v : K) : Mem K := Function.update m n { m n with y := v }

/-- `element_invert` of the base field. -/
def inv? (a : K) : Option K := if a = 0 then none else some a⁻¹

/-- `fq_set_si`, `fq_set_mpz` (`/repo/arith/fieldquadratic.c:52-62`). -/
def setZ (m : Mem K) (n : ℕ) (z : ℤ) : Mem K :=
  let m := wx m n (z : K)
  wy m n 0

/-- `fq_set0` (`/repo/arith/fieldquadratic.c:70-74`). -/
def set0 (m : Mem K) (n : ℕ) : Mem K :=
  let m := wx m n 0
  wy m n 0

/-- `fq_set1` (`/repo/arith/fieldquadratic.c:76-80`). -/
def set1 (m : Mem K) (n : ℕ) : Mem K :=
  let m := wx m n 1
  wy m n 0

/-- `fq_is0` (`/repo/arith/fieldquadratic.c:82-85`). -/
def is0 (e : El K) : Bool := decide (e.x = 0) && decide (e.y = 0)

/-- `fq_is1` (`/repo/arith/fieldquadratic.c:87-90`). -/
def is1 (e : El K) : Bool := decide (e.x = 1) && decide (e.y = 0)

/-- `fq_add` (`/repo/arith/fieldquadratic.c:167-173`). -/
def add (m : Mem K) (n a b : ℕ) : Mem K :=
  let m := wx m n ((m a).x + (m b).x)
  wy m n ((m a).y + (m b).y)

/-- `fq_double` (`/repo/arith/fieldquadratic.c:175-180`). -/
def double (m : Mem K) (n a : ℕ) : Mem K :=
  let m := wx m n (2 * (m a).x)
  wy m n (2 * (m a).y)

/-- `fq_sub` (`/repo/arith/fieldquadratic.c:182-188`). -/
def sub (m : Mem K) (n a b : ℕ) : Mem K :=
  let m := wx m n ((m a).x - (m b).x)
  wy m n ((m a).y - (m b).y)

/-- `fq_set` (`/repo/arith/fieldquadratic.c:190-195`). -/
def set (m : Mem K) (n a : ℕ) : Mem K :=
  let m := wx m n (m a).x
  wy m n (m a).y

/-- `fq_mul` (`/repo/arith/fieldquadratic.c:197-233`). -/
def mul (nqr : K) (m : Mem K) (n a b : ℕ) : Mem K :=
  let e0 := (m a).x + (m a).y
  let e1 := (m b).x + (m b).y
  let e2 := e0 * e1
  let e0 := (m a).x * (m b).x
  let e1 := (m a).y * (m b).y
  let m := wx m n (e1 * nqr)
  let m := wx m n ((m n).x + e0)
  let e2 := e2 - e0
  wy m n (e2 - e1)

/-- `fq_mul_mpz`, `fq_mul_si` (`/repo/arith/fieldquadratic.c:235-247`). -/
def mulZ (m : Mem K) (n a : ℕ) (z : ℤ) : Mem K :=
  let m := wx m n ((m a).x * (z : K))
  wy m n ((m a).y * (z : K))

/-- `fq_square` (`/repo/arith/fieldquadratic.c:249-269`). -/
def square (nqr : K) (m : Mem K) (n a : ℕ) : Mem K :=
  let e0 := (m a).x ^ 2
  let e1 := (m a).y ^ 2
  let e1 := e1 * nqr
  let e0 := e0 + e1
  let e1 := (m a).x * (m a).y
  let e1 := 2 * e1
  let m := wx m n e0
  wy m n e1

/-- `fq_neg` (`/repo/arith/fieldquadratic.c:271-276`). -/
def neg (m : Mem K) (n a : ℕ) : Mem K :=
  let m := wx m n (-(m a).x)
  wy m n (-(m a).y)

/-- `fq_cmp` (`/repo/arith/fieldquadratic.c:284-288`): `true` means different.  The base field's
`element_cmp` is taken as an inequality test. -/
def cmp (a b : El K) : Bool := decide (a.x ≠ b.x) || decide (a.y ≠ b.y)

/-- `fq_invert` (`/repo/arith/fieldquadratic.c:290-309`). -/
def invert (nqr : K) (m : Mem K) (n a : ℕ) : Option (Mem K) :=
  let e0 := (m a).x ^ 2
  let e1 := (m a).y ^ 2
  let e1 := e1 * nqr
  let e0 := e0 - e1
  match inv? e0 with
  | none => none
  | some e0 =>
    let m := wx m n ((m a).x * e0)
    let e0 := -e0
    some (wy m n ((m a).y * e0))

/-- `fq_is_sqr` (`/repo/arith/fieldquadratic.c:339-355`) with the base field's `is_sqr`. -/
def isSqr (baseIsSqr : K → Bool) (nqr : K) (e : El K) : Bool :=
  let e0 := e.x ^ 2
  let e1 := e.y ^ 2
  let e1 := e1 * nqr
  let e0 := e0 - e1
  baseIsSqr e0

/-- `fq_sqrt` (`/repo/arith/fieldquadratic.c:357-393`) with the base field's `is_sqr` and `sqrt`. -/
def sqrt (baseIsSqr : K → Bool) (baseSqrt : K → K) (nqr : K) (m : Mem K) (n e : ℕ) :
    Option (Mem K) :=
  let e0 := (m e).x ^ 2
  let e1 := (m e).y ^ 2
  let e1 := e1 * nqr
  let e0 := e0 - e1
  let e0 := baseSqrt e0
  let e1 := (m e).x + e0
  match inv? (2 : K) with
  | none => none
  | some e2 =>
    let e1 := e1 * e2
    let e1 := if !baseIsSqr e1 then e1 - e0 else e1
    let e0 := baseSqrt e1
    let e1 := e0 + e0
    match inv? e1 with
    | none => none
    | some e1 =>
      let m := wy m n ((m e).y * e1)
      some (wx m n e0)

/-- `fi_mul` (`/repo/arith/fieldquadratic.c:425-457`). -/
def fiMul (m : Mem K) (n a b : ℕ) : Mem K :=
  let e0 := (m a).x + (m a).y
  let e1 := (m b).x + (m b).y
  let e2 := e0 * e1
  let e0 := (m a).x * (m b).x
  let e2 := e2 - e0
  let e1 := (m a).y * (m b).y
  let m := wx m n (e0 - e1)
  wy m n (e2 - e1)

/-- `fi_square` (`/repo/arith/fieldquadratic.c:459-477`). -/
def fiSquare (m : Mem K) (n a : ℕ) : Mem K :=
  let e0 := (m a).x + (m a).y
  let e1 := (m a).x - (m a).y
  let e0 := e0 * e1
  let e1 := (m a).x * (m a).y
  let e1 := e1 + e1
  let m := wx m n e0
  wy m n e1

/-- `fi_invert` (`/repo/arith/fieldquadratic.c:479-496`). -/
def fiInvert (m : Mem K) (n a : ℕ) : Option (Mem K) :=
  let e0 := (m a).x ^ 2
  let e1 := (m a).y ^ 2
  let e0 := e0 + e1
  match inv? e0 with
  | none => none
  | some e0 =>
    let m := wx m n ((m a).x * e0)
    let e0 := -e0
    some (wy m n ((m a).y * e0))

/-- `fi_is_sqr` (`/repo/arith/fieldquadratic.c:498-525`). -/
def fiIsSqr (baseIsSqr : K → Bool) (e : El K) : Bool :=
  let e0 := e.x ^ 2
  let e1 := e.y ^ 2
  let e0 := e0 + e1
  baseIsSqr e0

/-- `fi_sqrt` (`/repo/arith/fieldquadratic.c:527-560`). -/
def fiSqrt (baseIsSqr : K → Bool) (baseSqrt : K → K) (m : Mem K) (n e : ℕ) : Option (Mem K) :=
  let e0 := (m e).x ^ 2
  let e1 := (m e).y ^ 2
  let e0 := e0 + e1
  let e0 := baseSqrt e0
  let e1 := (m e).x + e0
  match inv? (2 : K) with
  | none => none
  | some e2 =>
    let e1 := e1 * e2
    let e1 := if !baseIsSqr e1 then e1 - e0 else e1
    let e0 := baseSqrt e1
    let e1 := e0 + e0
    match inv? e1 with
    | none => none
    | some e1 =>
      let m := wy m n ((m e).y * e1)
      some (wx m n e0)

/-- A temporary that no user variable names: the routines of `/repo/arith/field.c` that need one
put it in a fresh element.  The store has such an element at `t`. -/
abbrev Tmp := ℕ

/-- The table of operations of a field that the generic routines use. -/
structure Ops (K : Type*) where
  mul : Mem K → ℕ → ℕ → ℕ → Mem K
  square : Mem K → ℕ → ℕ → Mem K
  invert : Mem K → ℕ → ℕ → Option (Mem K)

/-- The table of `field_init_quadratic` (`/repo/arith/fieldquadratic.c:592-642`). -/
def fqOps (nqr : K) : Ops K := ⟨mul nqr, square nqr, invert nqr⟩
/-- The table of `field_init_fi` (`/repo/arith/fieldquadratic.c:644-692`). -/
def fiOps : Ops K := ⟨fiMul, fiSquare, fiInvert⟩

/-- `generic_halve` (`/repo/arith/field.c:406-413`) with a temporary at `t`. -/
def halve (o : Ops K) (t : Tmp) (m : Mem K) (n a : ℕ) : Option (Mem K) :=
  let m := setZ m t 2
  match o.invert m t t with
  | none => none
  | some m => some (o.mul m n a t)

/-- `generic_div` (`/repo/arith/field.c:458-469`) with a temporary at `t`. -/
def div (o : Ops K) (t : Tmp) (m : Mem K) (n a b : ℕ) : Option (Mem K) :=
  if n ≠ a then
    match o.invert m n b with
    | none => none
    | some m => some (o.mul m n n a)
  else
    match o.invert m t b with
    | none => none
    | some m => some (o.mul m n t a)

/-- One call. -/
def exec (o : Ops K) (t : Tmp) (m : Mem K) : RingOp → Option (Mem K)
  | .setSi c z => some (setZ m c z)
  | .setMpz c z => some (setZ m c z)
  | .set0 c => some (set0 m c)
  | .set1 c => some (set1 m c)
  | .set c a => some (set m c a)
  | .add c a b => some (add m c a b)
  | .sub c a b => some (sub m c a b)
  | .neg c a => some (neg m c a)
  | .double c a => some (double m c a)
  | .halve c a => halve o t m c a
  | .mul c a b => some (o.mul m c a b)
  | .square c a => some (o.square m c a)
  | .mulMpz c a z => some (mulZ m c a z)
  | .mulSi c a z => some (mulZ m c a z)
  | .invert c a => o.invert m c a
  | .div c a b => div o t m c a b

/-- Run a program. -/
def run (o : Ops K) (t : Tmp) : Mem K → List RingOp → Option (Mem K)
  | m, [] => some m
  | m, op :: rest =>
    match exec o t m op with
    | none => none
    | some m => run o t m rest

section bytes

/-- The byte encoding of a field: `to_bytes`, and `from_bytes` returning the element and the number
of bytes read. -/
structure Codec (K : Type*) where
  enc : K → List ℕ
  dec : List ℕ → K × ℕ

/-- `fq_to_bytes` and `fq_from_bytes` (`/repo/arith/fieldquadratic.c:323-337`). -/
def codec {K : Type*} (c : Codec K) : Codec (El K) where
  enc e := c.enc e.x ++ c.enc e.y
  dec data :=
    let r := c.dec data
    let s := c.dec (data.drop r.2)
    (⟨r.1, s.1⟩, r.2 + s.2)

/-- `fq_sign` (`/repo/arith/fieldquadratic.c:159-165`). -/
def sign {K : Type*} (baseSign : K → ℤ) (e : El K) : ℤ :=
  let res := baseSign e.x
  if res = 0 then baseSign e.y else res

/-- `fq_from_hash` (`/repo/arith/fieldquadratic.c:311-316`). -/
def fromHash {K : Type*} (base : List ℕ → K) (data : List ℕ) : El K :=
  let k := data.length / 2
  ⟨base (data.take k), base (data.drop k)⟩

end bytes

end Pbc.Quad
