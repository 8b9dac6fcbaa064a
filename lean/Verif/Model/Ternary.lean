import Verif.Model.FieldGeneric
import Verif.Spec.RingProgram

/-!
# Ternary extension fields (`/repo/arith/ternary_extension_field.c`)

`w` is the number of bits `W` of an `unsigned long`.  An element is two bit planes of `len` words each
(`DATA1`, `DATA2`): bit `i` of the first says that the coefficient of `x^i` is 1, of the second that it
is 2.  `PARAM(e)->len` is changed by some functions while they run, so every access is passed the
current `len`; an access with a `len` different from the one the element was allocated with would find
the second plane in the wrong place and is `none`, as is an access outside the arrays.
-/

set_option autoImplicit false

namespace Pbc.Ternary

/-- The words of one plane. -/
abbrev Plane (w : ℕ) := List (BitVec w)

/-- `DATA1(e)` and `DATA2(e)` (`/repo/arith/ternary_extension_field.c:50-51`). -/
structure El (w : ℕ) where
  p1 : Plane w
  p2 : Plane w
  deriving DecidableEq

variable {w : ℕ}

/-- The element was allocated with this `len`. -/
def El.has (e : El w) (len : ℕ) : Bool := e.p1.length == len && e.p2.length == len

/-- `gf3m_zero`, `gf3m_init` (`/repo/arith/ternary_extension_field.c:74-81`). -/
def zero (len : ℕ) : El w := ⟨List.replicate len 0, List.replicate len 0⟩

/-- The loop of `shift_down` (`/repo/arith/ternary_extension_field.c:93-104`), from the last word to the
first: the new words and the final `h`. -/
def shiftDownGo : Plane w → Plane w × BitVec w
  | [] => ([], 0)
  | a :: as =>
    let r := shiftDownGo as
    let h := r.2
    let l := a &&& 1
    let a := a >>> 1
    let a := if h ≠ 0 then a ||| ((1 : BitVec w) <<< (w - 1)) else a
    (a :: r.1, l)

/-- `gf3m_shift_down` (`/repo/arith/ternary_extension_field.c:107-110`). -/
def shiftDown (len : ℕ) (e : El w) : Option (El w) :=
  if e.has len then some ⟨(shiftDownGo e.p1).1, (shiftDownGo e.p2).1⟩ else none

/-- The loop of `shift_up` (`/repo/arith/ternary_extension_field.c:113-122`). -/
def shiftUpGo (l : BitVec w) : Plane w → Plane w
  | [] => []
  | a :: as =>
    let x : BitVec w := (1 : BitVec w) <<< (w - 1)
    let y := x - 1
    let h := a &&& x
    (((a &&& y) <<< 1) ||| l) :: shiftUpGo (if h ≠ 0 then 1 else 0) as

/-- `gf3m_shift_up` (`/repo/arith/ternary_extension_field.c:125-128`). -/
def shiftUp (len : ℕ) (e : El w) : Option (El w) :=
  if e.has len then some ⟨shiftUpGo 0 e.p1, shiftUpGo 0 e.p2⟩ else none

/-- `gf3m_get` (`/repo/arith/ternary_extension_field.c:131-136`). -/
def get (len : ℕ) (e : El w) (pos : ℕ) : Option ℕ :=
  if e.has len then
    (e.p1[pos / w]?).bind fun a1 =>
      (e.p2[pos / w]?).bind fun a2 =>
        let y : BitVec w := (1 : BitVec w) <<< (pos % w)
        let v1 := a1 &&& y
        let v2 := a2 &&& y
        some (if v1 ≠ 0 then 1 else if v2 ≠ 0 then 2 else 0)
  else none

/-- `a[pos / W] |= 1ul << (pos % W)`. -/
def orBit (a : Plane w) (pos : ℕ) : Option (Plane w) :=
  (a[pos / w]?).map fun v => a.set (pos / w) (v ||| ((1 : BitVec w) <<< (pos % w)))

/-- `gf3m_set` (`/repo/arith/ternary_extension_field.c:139-146`). -/
def set (len : ℕ) (e : El w) (pos value : ℕ) : Option (El w) :=
  if e.has len then
    if value = 2 then (orBit e.p2 pos).map fun p => ⟨e.p1, p⟩
    else if value ≠ 0 then (orBit e.p1 pos).map fun p => ⟨p, e.p2⟩
    else some e
  else none

/-- One word of `gf3m_add` (`/repo/arith/ternary_extension_field.c:154-155`). -/
def addW (a1 a2 b1 b2 : BitVec w) : BitVec w × BitVec w :=
  let t := (a1 ||| a2) &&& (b1 ||| b2)
  let c1 := t ^^^ (a1 ||| b1)
  let c2 := t ^^^ (a2 ||| b2)
  (c1, c2)

/-- The loop of `gf3m_add` and `gf3m_sub` (`/repo/arith/ternary_extension_field.c:153-158`).  A word is
stored after everything at that position has been read, so `e` may be `a` or `b`. -/
def addGo : Plane w → Plane w → Plane w → Plane w → El w
  | a1 :: as1, a2 :: as2, b1 :: bs1, b2 :: bs2 =>
    let c := addW a1 a2 b1 b2
    let r := addGo as1 as2 bs1 bs2
    ⟨c.1 :: r.p1, c.2 :: r.p2⟩
  | _, _, _, _ => ⟨[], []⟩

/-- `gf3m_add` (`/repo/arith/ternary_extension_field.c:149-159`). -/
def add (len : ℕ) (a b : El w) : Option (El w) :=
  if a.has len && b.has len then some (addGo a.p1 a.p2 b.p1 b.p2) else none

/-- `gf3m_sub` (`/repo/arith/ternary_extension_field.c:162-172`): the planes of `b` exchanged. -/
def sub (len : ℕ) (a b : El w) : Option (El w) :=
  if a.has len && b.has len then some (addGo a.p1 a.p2 b.p2 b.p1) else none

/-- The loops of `gf3m_cmp` and `gf3m_is0` compare all words of both planes
(`/repo/arith/ternary_extension_field.c:175-182`). -/
def cmp (len : ℕ) (a b : El w) : Option ℕ :=
  if a.has len && b.has len then
    some (if (List.zip (a.p1 ++ a.p2) (b.p1 ++ b.p2)).any fun p => p.1 != p.2 then 1 else 0)
  else none

/-- `gf3m_one` (`/repo/arith/ternary_extension_field.c:185-188`): `*DATA1(a) = 1`. -/
def one (len : ℕ) : Option (El w) :=
  if len = 0 then none else some ⟨(zero len).p1.set 0 1, (zero (w := w) len).p2⟩

/-- `gf3m_is0` (`/repo/arith/ternary_extension_field.c:190-196`). -/
def is0 (len : ℕ) (e : El w) : Option ℕ :=
  if e.has len then some (if (e.p1 ++ e.p2).any (fun v => v != 0) then 0 else 1) else none

/-- `gf3m_is1` (`/repo/arith/ternary_extension_field.c:198-206`). -/
def is1 (len : ℕ) (e : El w) : Option ℕ :=
  if e.has len then
    ((e.p1 ++ e.p2)[0]?).map fun v =>
      if v ≠ 1 then 0 else if ((e.p1 ++ e.p2).drop 1).any (fun v => v != 0) then 0 else 1
  else none

/-- `swap` by three exclusive ors (`/repo/arith/ternary_extension_field.c:226-230`); the two words are
always different objects. -/
def swapW (a b : BitVec w) : BitVec w × BitVec w :=
  let a := a ^^^ b
  let b := b ^^^ a
  let a := a ^^^ b
  (a, b)

/-- The loop of `gf3m_neg` in place (`/repo/arith/ternary_extension_field.c:236-239`). -/
def negGo : Plane w → Plane w → El w
  | a1 :: as1, a2 :: as2 =>
    let s := swapW a1 a2
    let r := negGo as1 as2
    ⟨s.1 :: r.p1, s.2 :: r.p2⟩
  | _, _ => ⟨[], []⟩

/-- `gf3m_neg` (`/repo/arith/ternary_extension_field.c:233-244`); `inPlace`: the result is the operand. -/
def neg (inPlace : Bool) (len : ℕ) (x : El w) : Option (El w) :=
  if x.has len then some (if inPlace then negGo x.p1 x.p2 else ⟨x.p2, x.p1⟩) else none

/-- `params` (`/repo/arith/ternary_extension_field.c:28-33`). -/
structure Params (w : ℕ) where
  len : ℕ
  m : ℕ
  t : ℕ
  p : El w

/-- `field_init_gf3m` (`/repo/arith/ternary_extension_field.c:476-493`): the trinomial. -/
def fieldInit (m t : ℕ) : Option (Params w) :=
  let len := (m + (w - 1) + 1) / w
  let z : El w := zero len
  if len = 0 then none
  else
    let p2 := z.p2.set 0 1
    (orBit z.p1 t).bind fun p1 =>
      (orBit p1 m).bind fun p1 => some ⟨len, m, t, ⟨p1, p2⟩⟩

/-- Subtract or add `px` according to the coefficient `v` (`/repo/arith/ternary_extension_field.c:262-266`,
`:291-295`). -/
def adjust (len v : ℕ) (e px : El w) : Option (El w) :=
  if v = 1 then sub len e px else if v = 2 then add len e px else some e

/-- The loop of `gf3m_reduct` (`/repo/arith/ternary_extension_field.c:260-269`), `k` iterations, the last of
them at `degree = m`. -/
def reductLoop (len m : ℕ) : ℕ → El w → El w → Option (El w)
  | 0, e, _ => some e
  | k + 1, e, px =>
    (get len e (m + k)).bind fun v =>
      (adjust len v e px).bind fun e =>
        (shiftDown len px).bind fun px => reductLoop len m k e px

/-- `gf3m_reduct` (`/repo/arith/ternary_extension_field.c:250-271`).  `none` also when `degree < m`: then
`degree - m` wraps around and the write at that position is outside the array. -/
def reduct (P : Params w) (e : El w) (len degree : ℕ) : Option (El w) :=
  if degree < P.m then none
  else
    (set len (zero len) degree 1).bind fun px =>
      (set len px (degree - P.m + P.t) 1).bind fun px =>
        (set len px (degree - P.m) 2).bind fun px => reductLoop len P.m (degree - P.m + 1) e px

/-- `gf3m_f1` (`/repo/arith/ternary_extension_field.c:275-285`). -/
def f1 (len n : ℕ) (a : El w) : Option (El w) :=
  if a.has len then
    some (if n = 0 then zero len else if n = 1 then a else ⟨a.p2, a.p1⟩)
  else none

/-- `gf3m_f2` (`/repo/arith/ternary_extension_field.c:288-296`). -/
def f2 (P : Params w) (e : El w) : Option (El w) :=
  (shiftUp P.len e).bind fun e =>
    (get P.len e P.m).bind fun v => adjust P.len v e P.p

/-- The loop of `gf3m_mult` (`/repo/arith/ternary_extension_field.c:309-314`). -/
def multLoop (P : Params w) (b : El w) : ℕ → ℕ → El w → El w → Option (El w)
  | 0, _, _, c => some c
  | k + 1, i, a, c =>
    (get P.len b i).bind fun v =>
      (f1 P.len v a).bind fun t =>
        (add P.len c t).bind fun c =>
          (f2 P a).bind fun a => multLoop P b k (i + 1) a c

/-- `gf3m_mult` (`/repo/arith/ternary_extension_field.c:300-319`); the result is stored last, so it may be
one of the operands. -/
def mult (P : Params w) (a b : El w) : Option (El w) :=
  if a.has P.len then multLoop P b P.m 0 a (zero P.len) else none

/-- The loop of `gf3m_cubic` (`/repo/arith/ternary_extension_field.c:330-335`). -/
def cubicLoop (P : Params w) (len : ℕ) (x : El w) : ℕ → ℕ → El w → Option (El w)
  | 0, _, a => some a
  | k + 1, i, a =>
    (get P.len x i).bind fun v =>
      (set len a (3 * i) v).bind fun a => cubicLoop P len x k (i + 1) a

/-- The two `memcpy` of `n` words at the end of `gf3m_cubic`; reading beyond the words of a plane is
`none` (it would read the other plane or beyond the allocation). -/
def copyOut (n : ℕ) (a : El w) : Option (El w) :=
  if n ≤ a.p1.length && n ≤ a.p2.length then some ⟨a.p1.take n, a.p2.take n⟩ else none

/-- `gf3m_cubic` (`/repo/arith/ternary_extension_field.c:322-342`). -/
def cubic (P : Params w) (x : El w) : Option (El w) :=
  let len := (3 * P.m - 2 + w - 1) / w
  (cubicLoop P len x P.m 0 (zero len)).bind fun a =>
    (reduct P a len (3 * P.m - 3)).bind fun a =>
      if a.has len then copyOut P.len a else none

/-- `gf3_mult` (`/repo/arith/ternary_extension_field.c:346-349`). -/
def gf3Mult (a b : ℕ) : Option ℕ := [0, 1, 2, 0, 1][a * b]?

/-- The variables of `gf3m_invert` that change in its loop. -/
structure InvState (w : ℕ) where
  S : El w
  R : El w
  U : El w
  V : El w
  d : ℕ

/-- `U <- U / x` modulo the trinomial (`/repo/arith/ternary_extension_field.c:404-409`). -/
def divX (P : Params w) (U : El w) : Option (El w) :=
  (get P.len U 0).bind fun x =>
    (if x = 1 then add P.len U P.p else if x = 2 then sub P.len U P.p else some U).bind fun U =>
      shiftDown P.len U

/-- One iteration (`/repo/arith/ternary_extension_field.c:384-412`). -/
def invStep (P : Params w) (lenS : ℕ) (s : InvState w) : Option (InvState w) :=
  (get lenS s.R P.m).bind fun rm =>
    (get lenS s.S P.m).bind fun sm =>
      if rm = 0 then
        (shiftUp lenS s.R).bind fun R =>
          (f2 P s.U).bind fun U => some { s with R := R, U := U, d := s.d + 1 }
      else
        (gf3Mult rm sm).bind fun q =>
          (f1 lenS q s.R).bind fun t =>
            (sub lenS s.S t).bind fun S =>
              (shiftUp lenS S).bind fun S =>
                (f1 P.len q s.U).bind fun t2 =>
                  (sub P.len s.V t2).bind fun V =>
                    if s.d = 0 then
                      (f2 P V).bind fun U => some ⟨s.R, S, U, s.U, s.d + 1⟩
                    else
                      (divX P s.U).bind fun U => some ⟨S, s.R, U, V, s.d - 1⟩

/-- The loop (`/repo/arith/ternary_extension_field.c:383-413`). -/
def invLoop (P : Params w) (lenS : ℕ) : ℕ → InvState w → Option (InvState w)
  | 0, s => some s
  | k + 1, s => (invStep P lenS s).bind fun s => invLoop P lenS k s

/-- The `memcpy` of both planes into a longer element (`/repo/arith/ternary_extension_field.c:372-375`). -/
def widen (lenA lenS : ℕ) (a : El w) : Option (El w) :=
  if a.has lenA && lenA ≤ lenS then
    some ⟨a.p1 ++ List.replicate (lenS - lenA) 0, a.p2 ++ List.replicate (lenS - lenA) 0⟩
  else none

/-- `gf3m_invert` (`/repo/arith/ternary_extension_field.c:362-426`). -/
def invert (P : Params w) (a : El w) : Option (El w) :=
  let lenA := P.len
  let lenS := (3 * P.m + w - 1) / w
  (widen lenA lenS P.p).bind fun S =>
    (widen lenA lenS a).bind fun R =>
      (one lenA).bind fun U =>
        (invLoop P lenS (P.m * 2) ⟨S, R, U, zero lenA, 0⟩).bind fun s =>
          (get lenS s.R P.m).bind fun rm =>
            if rm = 2 then neg true lenA s.U else some s.U

/-- The bytes of one word of each plane, interleaved (`/repo/arith/ternary_extension_field.c:443-446`); `w`
is a multiple of 8. -/
def wordBytes (a b : BitVec w) : List (BitVec 8) :=
  (List.range (w / 8)).flatMap fun j => [(a >>> (8 * j)).setWidth 8, (b >>> (8 * j)).setWidth 8]

/-- `gf3m_to_bytes` (`/repo/arith/ternary_extension_field.c:439-449`). -/
def toBytes (len : ℕ) (e : El w) : Option (List (BitVec 8)) :=
  if e.has len then some ((List.zip e.p1 e.p2).flatMap fun p => wordBytes p.1 p.2) else none

/-- The inner loop of `gf3m_from_bytes` (`/repo/arith/ternary_extension_field.c:457-462`): `k` more bytes
of each word to read, highest first. -/
def bytesWord (d : List (BitVec 8)) : ℕ → BitVec w → BitVec w → Option (BitVec w × BitVec w)
  | 0, a, b => some (a, b)
  | k + 1, a, b =>
    (d[2 * k]?).bind fun x =>
      (d[2 * k + 1]?).bind fun y =>
        bytesWord d k ((a <<< 8) + x.setWidth w) ((b <<< 8) + y.setWidth w)

/-- The outer loop of `gf3m_from_bytes` (`/repo/arith/ternary_extension_field.c:455`). -/
def fromBytes : ℕ → List (BitVec 8) → Option (El w)
  | 0, _ => some ⟨[], []⟩
  | len + 1, d =>
    (bytesWord d (w / 8) 0 0).bind fun ab =>
      (fromBytes len (d.drop (2 * (w / 8)))).map fun r => ⟨ab.1 :: r.p1, ab.2 :: r.p2⟩

/-- The loop of `gf3m_random` (`/repo/arith/ternary_extension_field.c:217-220`): `rand` gives the answers
of `rand()`, converted to words. -/
def randomGo (rand : ℕ → BitVec w) (last : BitVec w) : ℕ → ℕ → El w
  | 0, k =>
    let a1 := rand k &&& last
    let a2 := rand (k + 1) &&& last &&& ~~~a1
    ⟨[a1], [a2]⟩
  | n + 1, k =>
    let i1 : BitVec w := ~~~0
    let a1 := rand k &&& i1
    let a2 := rand (k + 1) &&& i1 &&& ~~~a1
    let r := randomGo rand last n (k + 2)
    ⟨a1 :: r.p1, a2 :: r.p2⟩

/-- `gf3m_random` (`/repo/arith/ternary_extension_field.c:209-224`). -/
def random (P : Params w) (rand : ℕ → BitVec w) : El w :=
  let rm := P.m % w
  let i1 : BitVec w := ~~~0
  let i2 : BitVec w := ((1 : BitVec w) <<< rm) - 1
  randomGo rand (if rm ≠ 0 then i2 else i1) (P.len - 1) 0

/-- An element, or the failure of a routine, as the argument of the generic power routine. -/
structure GEl (P : Params w) where
  val : Option (El w)

instance (P : Params w) : Mul (GEl P) := ⟨fun a b => ⟨a.val.bind fun a => b.val.bind fun b => mult P a b⟩⟩
instance (P : Params w) : One (GEl P) := ⟨⟨one P.len⟩⟩

/-- `element_pow_mpz`, which is `generic_pow_mpz` for this field. -/
def powMpz (P : Params w) (a : El w) (n : ℕ) : Option (El w) :=
  (Gen.powMpz (⟨some a⟩ : GEl P) n).bind (·.val)

/-- `gf3m_sqrt` (`/repo/arith/ternary_extension_field.c:428-437`); the order is set at
`/repo/arith/ternary_extension_field.c:516-517`. -/
def sqrt (P : Params w) (a : El w) : Option (El w) :=
  let t := 3 ^ P.m
  let t := t + 1
  let t := t / 2 ^ 2
  powMpz P a t

/-- `element_set_mpz`: this field has no `set_mpz`, so `zero_set_mpz` (`/repo/arith/field.c:420-423`) is
called: whatever the number, the element becomes 0. -/
def setMpz (len : ℕ) (_ : ℤ) : El w := zero len

/-- The `element_*` calls on numbered elements: the functions set at
`/repo/arith/ternary_extension_field.c:496-511`, the defaults of `field_init`
(`/repo/arith/field.c:383-412,429-435,458-469`) for the others. -/
def step (P : Params w) (s : ℕ → El w) : Spec.RingOp → Option (ℕ → El w)
  | .setSi c z => some (Function.update s c (setMpz P.len z))
  | .setMpz c z => some (Function.update s c (setMpz P.len z))
  | .set0 c => some (Function.update s c (zero P.len))
  | .set1 c => (one P.len).map (Function.update s c)
  | .set c a => some (Function.update s c (s a))
  | .add c a b => (add P.len (s a) (s b)).map (Function.update s c)
  | .sub c a b => (sub P.len (s a) (s b)).map (Function.update s c)
  | .neg c a => (neg (c == a) P.len (s a)).map (Function.update s c)
  | .double c a => (add P.len (s a) (s a)).map (Function.update s c)
  | .halve c a =>
    (invert P (setMpz P.len 2)).bind fun e => (mult P (s a) e).map (Function.update s c)
  | .mul c a b => (mult P (s a) (s b)).map (Function.update s c)
  | .square c a => (mult P (s a) (s a)).map (Function.update s c)
  | .mulMpz c a z => (mult P (s a) (setMpz P.len z)).map (Function.update s c)
  | .mulSi c a z => (mult P (s a) (setMpz P.len z)).map (Function.update s c)
  | .invert c a => (invert P (s a)).map (Function.update s c)
  | .div c a b =>
    (invert P (s b)).bind fun e => (mult P e (s a)).map (Function.update s c)

/-- Run a program. -/
def run (P : Params w) (s : ℕ → El w) : List Spec.RingOp → Option (ℕ → El w)
  | [] => some s
  | o :: rest => (step P s o).bind fun s => run P s rest

/-! ### Towers

The base field is any commutative ring here; `GF(3^m)` itself is treated above.  Results are stored
after all operands have been read. -/

section tower

variable {K : Type*} [CommRing K]

/-- `gf32m_s` (`/repo/arith/ternary_extension_field.c:35-37`). -/
structure E2 (K : Type*) where
  c0 : K
  c1 : K

/-- `gf33m_s` (`/repo/arith/ternary_extension_field.c:41-43`). -/
structure E3 (K : Type*) where
  c0 : K
  c1 : K
  c2 : K

/-- `gf32m_add` (`/repo/arith/ternary_extension_field.c:585-590`). -/
def E2.add (a b : E2 K) : E2 K := ⟨a.c0 + b.c0, a.c1 + b.c1⟩

/-- `gf32m_sub` (`/repo/arith/ternary_extension_field.c:593-598`). -/
def E2.sub (a b : E2 K) : E2 K := ⟨a.c0 - b.c0, a.c1 - b.c1⟩

/-- `gf32m_neg` (`/repo/arith/ternary_extension_field.c:601-606`). -/
def E2.neg (a : E2 K) : E2 K := ⟨-a.c0, -a.c1⟩

/-- `gf32m_set1` (`/repo/arith/ternary_extension_field.c:546-550`). -/
def E2.one : E2 K := ⟨1, 0⟩

/-- `gf32m_mult` (`/repo/arith/ternary_extension_field.c:609-637`). -/
def E2.mul (a b : E2 K) : E2 K :=
  let a0b0 := a.c0 * b.c0
  let a1b1 := a.c1 * b.c1
  let t0 := a.c1 + a.c0
  let t1 := b.c1 + b.c0
  let c1 := t0 * t1
  let c1 := c1 - a1b1
  let c1 := c1 - a0b0
  let c0 := a0b0 - a1b1
  ⟨c0, c1⟩

/-- `gf32m_cubic` (`/repo/arith/ternary_extension_field.c:640-654`). -/
def E2.cubic (a : E2 K) : E2 K :=
  let c0 := a.c0 ^ 3
  let c1 := a.c1 ^ 3
  let c1 := -c1
  ⟨c0, c1⟩

/-- `gf33m_add` (`/repo/arith/ternary_extension_field.c:756-763`). -/
def E3.add (a b : E3 K) : E3 K := ⟨a.c0 + b.c0, a.c1 + b.c1, a.c2 + b.c2⟩

/-- `gf33m_sub` (`/repo/arith/ternary_extension_field.c:766-773`). -/
def E3.sub (a b : E3 K) : E3 K := ⟨a.c0 - b.c0, a.c1 - b.c1, a.c2 - b.c2⟩

/-- `gf33m_set1` (`/repo/arith/ternary_extension_field.c:715-720`). -/
def E3.one : E3 K := ⟨1, 0, 0⟩

/-- `gf33m_mult` (`/repo/arith/ternary_extension_field.c:776-835`). -/
def E3.mul (a b : E3 K) : E3 K :=
  let a0b0 := a.c0 * b.c0
  let a1b1 := a.c1 * b.c1
  let a2b2 := a.c2 * b.c2
  let d0 := a0b0
  let t0 := a.c1 + a.c0
  let t1 := b.c1 + b.c0
  let d1 := t0 * t1
  let d1 := d1 - a1b1
  let d1 := d1 - a0b0
  let t0 := a.c2 + a.c0
  let t1 := b.c2 + b.c0
  let d2 := t0 * t1
  let d2 := d2 + a1b1
  let d2 := d2 - a2b2
  let d2 := d2 - a0b0
  let t0 := a.c2 + a.c1
  let t1 := b.c2 + b.c1
  let d3 := t0 * t1
  let d3 := d3 - a2b2
  let d3 := d3 - a1b1
  let d4 := a2b2
  let c0 := d0 + d3
  let c1 := d1 + d3
  let c1 := c1 + d4
  let c2 := d2 + d4
  ⟨c0, c1, c2⟩

/-- `gf33m_cubic` (`/repo/arith/ternary_extension_field.c:838-861`). -/
def E3.cubic (a : E3 K) : E3 K :=
  let a03 := a.c0 ^ 3
  let a13 := a.c1 ^ 3
  let a23 := a.c2 ^ 3
  let a03 := a03 + a13
  let a03 := a03 + a23
  let c0 := a03
  let a13 := a13 - a23
  ⟨c0, a13, a23⟩

/-- `gf33m_invert` (`/repo/arith/ternary_extension_field.c:864-921`); `inv` is the inversion of the base. -/
def E3.invert (inv : K → K) (a : E3 K) : E3 K :=
  let a02 := a.c0 * a.c0
  let a12 := a.c1 * a.c1
  let a22 := a.c2 * a.c2
  let v0 := a.c0 - a.c2
  let delta := v0 * a02
  let v0 := a.c1 - a.c0
  let c0 := v0 * a12
  let delta := delta + c0
  let v0 := a.c2 - v0
  let c1 := v0 * a22
  let delta := delta + c1
  let delta := inv delta
  let v0 := a02 + a22
  let c2 := a.c0 * a.c2
  let c0 := v0 - c2
  let v0 := a.c1 + a.c2
  let c3 := a.c1 * v0
  let c0 := c0 - c3
  let c0 := c0 * delta
  let c1 := a.c0 * a.c1
  let c1 := a22 - c1
  let c1 := c1 * delta
  let c2 := a12 - c2
  let c2 := c2 - a22
  let c2 := c2 * delta
  ⟨c0, c1, c2⟩

end tower

end Pbc.Ternary
