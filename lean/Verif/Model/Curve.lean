import Verif.Model.FieldGeneric
import Verif.Model.Quadratic
import Mathlib.Algebra.Field.Basic

/-!
# `/repo/ecc/curve.c`: the curves `Y² = X³ + a X + b`

Elements live in a store indexed by numbers.  An element is a flag and two coordinates; setting the
flag leaves the old coordinates in place, as in the code.  The coordinates are in a Mathlib field
`K`.  Inverting 0 in `K` is `none`.
-/

set_option autoImplicit false

namespace Pbc.Curve

open Pbc.Quad (inv? Codec)

variable {K : Type*}

/-- `point_ptr` (`/repo/ecc/curve.c:37-40`). -/
structure Pt (K : Type*) where
  inf : Bool
  x : K
  y : K
deriving DecidableEq

/-- The store. -/
abbrev Mem (K : Type*) := ℕ → Pt K

/-- Write the flag of element `n`. -/
def wInf (m : Mem K) (n : ℕ) (b : Bool) : Mem K := Function.update m n { m n with inf := b }
/-- Write the first coordinate of element `n`. -/
def wX (m : Mem K) (n : ℕ) (v : K) : Mem K := Function.update m n { m n with x := v }
/-- Write the second coordinate of element `n`. -/
def wY (m : Mem K) (n : ℕ) (v : K) : Mem K := Function.update m n { m n with y := v }

variable [Field K] [DecidableEq K]

/-- `curve_init` (`/repo/ecc/curve.c:42-48`): fresh field elements are zero. -/
def fresh : Pt K := ⟨true, 0, 0⟩

/-- `curve_is_valid_point` (`/repo/ecc/curve.c:57-77`). -/
def isValid (a b : K) (p : Pt K) : Bool :=
  if p.inf then true
  else
    let t0 := p.x ^ 2
    let t0 := t0 + a
    let t0 := t0 * p.x
    let t0 := t0 + b
    let t1 := p.y ^ 2
    decide (t0 = t1)

/-- `curve_invert` (`/repo/ecc/curve.c:79-89`). -/
def invert (m : Mem K) (c a : ℕ) : Mem K :=
  if (m a).inf then wInf m c true
  else
    let m := wInf m c false
    let m := wX m c (m a).x
    wY m c (-(m a).y)

/-- `curve_set` (`/repo/ecc/curve.c:91-100`). -/
def set (m : Mem K) (c a : ℕ) : Mem K :=
  if (m a).inf then wInf m c true
  else
    let m := wInf m c false
    let m := wX m c (m a).x
    wY m c (m a).y

/-- `curve_set` from an element outside the store (a temporary). -/
def setFrom (m : Mem K) (c : ℕ) (p : Pt K) : Mem K :=
  if p.inf then wInf m c true
  else
    let m := wInf m c false
    let m := wX m c p.x
    wY m c p.y

/-- `double_no_check` (`/repo/ecc/curve.c:102-137`). -/
def doubleNoCheck (ca : K) (m : Mem K) (r p : ℕ) : Option (Mem K) :=
  let lambda := (m p).x ^ 2
  let lambda := lambda * ((3 : ℤ) : K)
  let lambda := lambda + ca
  let e0 := 2 * (m p).y
  match inv? e0 with
  | none => none
  | some e0 =>
    let lambda := lambda * e0
    let e1 := 2 * (m p).x
    let e0 := lambda ^ 2
    let e0 := e0 - e1
    let e1 := (m p).x - e0
    let e1 := e1 * lambda
    let e1 := e1 - (m p).y
    let m := wX m r e0
    let m := wY m r e1
    some (wInf m r false)

/-- `curve_double` (`/repo/ecc/curve.c:139-151`). -/
def double (ca : K) (m : Mem K) (c a : ℕ) : Option (Mem K) :=
  if (m a).inf then some (wInf m c true)
  else if (m a).y = 0 then some (wInf m c true)
  else doubleNoCheck ca m c a

/-- `curve_mul` (`/repo/ecc/curve.c:153-207`), the addition of points. -/
def add (ca : K) (m : Mem K) (c a b : ℕ) : Option (Mem K) :=
  if (m a).inf then some (set m c b)
  else if (m b).inf then some (set m c a)
  else if (m a).x = (m b).x then
    if (m a).y = (m b).y then
      if (m a).y = 0 then some (wInf m c true)
      else doubleNoCheck ca m c a
    else some (wInf m c true)
  else
    let e0 := (m b).x - (m a).x
    match inv? e0 with
    | none => none
    | some e0 =>
      let lambda := (m b).y - (m a).y
      let lambda := lambda * e0
      let e0 := lambda ^ 2
      let e0 := e0 - (m a).x
      let e0 := e0 - (m b).x
      let e1 := (m a).x - e0
      let e1 := e1 * lambda
      let e1 := e1 - (m a).y
      let m := wX m c e0
      let m := wY m c e1
      some (wInf m c false)

/-- `generic_sub` (`/repo/arith/field.c:445-456`) with the curve's `neg` and `add`; `t` is the
temporary. -/
def sub (ca : K) (t : ℕ) (m : Mem K) (c a b : ℕ) : Option (Mem K) :=
  if c ≠ a then
    let m := invert m c b
    add ca m c c a
  else
    let m := invert m t b
    add ca m c t a

/-- `curve_mul` as a function of values, for the generic power routine whose operands and results
are private temporaries.  (The coordinates left behind in an infinite result are not tracked
here.) -/
def addV (ca : K) (p q : Pt K) : Option (Pt K) :=
  (add ca (fun i => if i = 1 then p else if i = 2 then q else fresh) 0 1 2).map (· 0)

/-- `curve_double` as a function of values. -/
def doubleV (ca : K) (p : Pt K) : Option (Pt K) :=
  (double ca (fun i => if i = 1 then p else fresh) 0 1).map (· 0)

/-- Curve elements with the operations the generic power routine calls; `none` is a failed
inversion. -/
structure GPt (K : Type*) (ca : K) where
  val : Option (Pt K)

instance (ca : K) : Mul (GPt K ca) := ⟨fun p q => ⟨p.val.bind fun p => q.val.bind fun q => addV ca p q⟩⟩
instance (ca : K) : One (GPt K ca) := ⟨⟨some fresh⟩⟩
instance (ca : K) : Gen.Sqr (GPt K ca) := ⟨fun p => ⟨p.val.bind fun p => doubleV ca p⟩⟩

/-- `element_mul_mpz` of a curve is `element_pow_mpz` (`/repo/ecc/curve.c:713`,
`/repo/arith/field.c:113-126`). -/
def mulMpz (ca : K) (m : Mem K) (c a n : ℕ) : Option (Mem K) :=
  ((Gen.powMpz (⟨some (m a)⟩ : GPt K ca) n).bind (·.val)).map (setFrom m c)

/-- `point_cmp` (`/repo/ecc/curve.c:368-373`); `true` means different. -/
def pointCmp (p q : Pt K) : Bool :=
  if p.inf || q.inf then !(p.inf && q.inf)
  else decide (p.x ≠ q.x) || decide (p.y ≠ q.y)

/-- `curve_cmp` (`/repo/ecc/curve.c:375-393`): `a / b` by `generic_div`
(`/repo/arith/field.c:458-469`), then its power.  `quotient = none` is the null pointer. -/
def cmp (ca : K) (quotient : Option ℕ) (m : Mem K) (a b : ℕ) : Option Bool :=
  if a = b then some false
  else
    match quotient with
    | none => some (pointCmp (m a) (m b))
    | some h =>
      let inv : Pt K := if (m b).inf then fresh else ⟨false, (m b).x, -(m b).y⟩
      match addV ca inv (m a) with
      | none => none
      | some e =>
        match (Gen.powMpz (⟨some e⟩ : GPt K ca) h).bind (·.val) with
        | none => none
        | some e => some (!e.inf)

/-- `curve_is1`, also `is0` (`/repo/ecc/curve.c:400-403`). -/
def isZero (p : Pt K) : Bool := p.inf

/-- `odd_curve_is_sqr` and `even_curve_is_sqr` (`/repo/ecc/curve.c:634-656`), chosen by the parity of
the order at `/repo/ecc/curve.c:738-742`. -/
def isSqr (ca : K) (order : ℕ) (p : Pt K) : Option Bool :=
  if order % 2 = 1 then some true
  else
    let z := (order - 1) / 2
    ((Gen.powMpz (⟨some p⟩ : GPt K ca) z).bind (·.val)).map (·.inf)

section batch

/-- First loop of `multi_double` (`/repo/ecc/curve.c:222-234`), for `i = s, ..., s + k - 1`. -/
def mdFlags (c a : ℕ → ℕ) : ℕ → ℕ → Mem K → Mem K
  | 0, _, m => m
  | k + 1, i, m =>
    let m := if (m (a i)).inf then wInf m (c i) true
      else if (m (a i)).y = 0 then wInf m (c i) true
      else m
    mdFlags c a k (i + 1) m

/-- Second loop (`/repo/ecc/curve.c:236-240`): `table[i] = d i * table[i-1]`. -/
def mdPrefix (d : ℕ → K) : ℕ → ℕ → (ℕ → K) → ℕ → K
  | 0, _, t => t
  | k + 1, i, t =>
    let t := Function.update t i (d i)
    let t := if i > 0 then Function.update t i (t i * t (i - 1)) else t
    mdPrefix d k (i + 1) t

/-- Third loop of `multi_double` (`/repo/ecc/curve.c:242-247`), for `i = k, ..., 1`. -/
def mdBack (y : ℕ → K) : ℕ → (ℕ → K) → K → (ℕ → K) × K
  | 0, t, e2 => (t, e2)
  | k + 1, t, e2 =>
    let t := Function.update t (k + 1) (t k * e2)
    let e2 := e2 * y (k + 1)
    let e2 := 2 * e2
    mdBack y k t e2

/-- Last loop of `multi_double` (`/repo/ecc/curve.c:250-272`). -/
def mdFinish (ca : K) (c a : ℕ → ℕ) (t : ℕ → K) : ℕ → ℕ → Mem K → Mem K
  | 0, _, m => m
  | k + 1, i, m =>
    let m :=
      if (m (c i)).inf then m
      else
        let e2 := (m (a i)).x ^ 2
        let e2 := e2 * ((3 : ℤ) : K)
        let e2 := e2 + ca
        let e2 := e2 * t i
        let e1 := 2 * (m (a i)).x
        let e0 := e2 ^ 2
        let e0 := e0 - e1
        let e1 := (m (a i)).x - e0
        let e1 := e1 * e2
        let e1 := e1 - (m (a i)).y
        let m := wX m (c i) e0
        let m := wY m (c i) e1
        wInf m (c i) false
    mdFinish ca c a t k (i + 1) m

/-- `multi_double` (`/repo/ecc/curve.c:210-281`), reached by `element_multi_double`
(`/repo/arith/field.c:847-860`), for arrays of `n ≥ 1` elements: `c i` and `a i` name the `i`-th
output and input. -/
def multiDouble (ca : K) (m : Mem K) (c a : ℕ → ℕ) (n : ℕ) : Option (Mem K) :=
  let m := mdFlags c a n 0 m
  let t := mdPrefix (fun i => 2 * (m (a i)).y) n 0 (fun _ => 0)
  match inv? (t (n - 1)) with
  | none => none
  | some e2 =>
    let r := mdBack (fun i => (m (a i)).y) (n - 1) t e2
    let t := Function.update r.1 0 r.2
    some (mdFinish ca c a t n 0 m)

/-- Second loop of `multi_add` (`/repo/ecc/curve.c:307-313`). -/
def maBack (d : ℕ → K) : ℕ → (ℕ → K) → K → (ℕ → K) × K
  | 0, t, e2 => (t, e2)
  | k + 1, t, e2 =>
    let t := Function.update t (k + 1) (t k * e2)
    let e1 := d (k + 1)
    let e2 := e2 * e1
    maBack d k t e2

/-- Last loop of `multi_add` (`/repo/ecc/curve.c:316-357`). -/
def maFinish (ca : K) (c a b : ℕ → ℕ) (t : ℕ → K) : ℕ → ℕ → Mem K → Option (Mem K)
  | 0, _, m => some m
  | k + 1, i, m =>
    let r : Option (Mem K) :=
      if (m (a i)).inf then some (set m (c i) (b i))
      else if (m (b i)).inf then some (set m (c i) (a i))
      else if (m (a i)).x = (m (b i)).x then
        if (m (a i)).y = (m (b i)).y then
          if (m (a i)).y = 0 then some (wInf m (c i) true)
          else doubleNoCheck ca m (c i) (a i)
        else some (wInf m (c i) true)
      else
        let e2 := (m (b i)).y - (m (a i)).y
        let e2 := e2 * t i
        let e0 := e2 ^ 2
        let e0 := e0 - (m (a i)).x
        let e0 := e0 - (m (b i)).x
        let e1 := (m (a i)).x - e0
        let e1 := e1 * e2
        let e1 := e1 - (m (a i)).y
        let m := wX m (c i) e0
        let m := wY m (c i) e1
        some (wInf m (c i) false)
    match r with
    | none => none
    | some m => maFinish ca c a b t k (i + 1) m

/-- `multi_add` (`/repo/ecc/curve.c:284-365`), reached by `element_multi_add`
(`/repo/arith/field.c:862-880`), for `n ≥ 1`.  Its first loop builds the same products of
differences as `mdPrefix`, peeling off `i = 0`. -/
def multiAdd (ca : K) (m : Mem K) (c a b : ℕ → ℕ) (n : ℕ) : Option (Mem K) :=
  let d := fun i => (m (b i)).x - (m (a i)).x
  let t := mdPrefix d n 0 (fun _ => 0)
  match inv? (t (n - 1)) with
  | none => none
  | some e2 =>
    let r := maBack d (n - 1) t e2
    let t := Function.update r.1 0 r.2
    maFinish ca c a b t n 0 m

end batch

section encoding

/-- The right-hand side `x³ + a x + b` as the code computes it (e.g. `/repo/ecc/curve.c:783-786`). -/
def rhs (a b x : K) : K :=
  let t := x ^ 2
  let t := t + a
  let t := t * x
  t + b

/-- `curve_to_bytes` (`/repo/ecc/curve.c:603-609`). -/
def toBytes (cd : Codec K) (p : Pt K) : List ℕ := cd.enc p.x ++ cd.enc p.y

/-- `curve_from_bytes` (`/repo/ecc/curve.c:611-623`): the new element and the bytes read. -/
def fromBytes (cd : Codec K) (a b : K) (data : List ℕ) : Pt K × ℕ :=
  let r := cd.dec data
  let s := cd.dec (data.drop r.2)
  let p : Pt K := ⟨false, r.1, s.1⟩
  let p := if !isValid a b p then { p with inf := true } else p
  (p, r.2 + s.2)

/-- `point_from_x` (`/repo/ecc/curve.c:778-791`). -/
def pointFromX (sq : K → K) (a b x : K) : Pt K := ⟨false, x, sq (rhs a b x)⟩

/-- `element_to_bytes_compressed` (`/repo/ecc/curve.c:762-773`). -/
def toBytesCompressed (cd : Codec K) (sgn : K → ℤ) (p : Pt K) : List ℕ :=
  cd.enc p.x ++ [if sgn p.y > 0 then 1 else 0]

/-- `element_from_bytes_compressed` (`/repo/ecc/curve.c:799-813`); `none` is a read past the end of
the buffer. -/
def fromBytesCompressed (cd : Codec K) (sq : K → K) (sgn : K → ℤ) (a b : K) (data : List ℕ) :
    Option (Pt K × ℕ) :=
  let r := cd.dec data
  let p := pointFromX sq a b r.1
  match data[r.2]? with
  | none => none
  | some f =>
    let p := if f ≠ 0 then (if sgn p.y < 0 then { p with y := -p.y } else p)
      else if sgn p.y > 0 then { p with y := -p.y } else p
    some (p, r.2 + 1)

/-- `element_to_bytes_x_only` (`/repo/ecc/curve.c:821-826`). -/
def toBytesXOnly (cd : Codec K) (p : Pt K) : List ℕ := cd.enc p.x

/-- `element_from_bytes_x_only` (`/repo/ecc/curve.c:829-836`). -/
def fromBytesXOnly (cd : Codec K) (sq : K → K) (a b : K) (data : List ℕ) : Pt K × ℕ :=
  let r := cd.dec data
  (pointFromX sq a b r.1, r.2)

/-- The search of `curve_from_hash` (`/repo/ecc/curve.c:464-474`); `none` when `fuel` runs out. -/
def hashSearch (isSqr : K → Bool) (a b : K) : ℕ → K → Option K
  | 0, _ => none
  | fuel + 1, x =>
    if isSqr (rhs a b x) then some x
    else hashSearch isSqr a b fuel (x ^ 2 + 1)

/-- `curve_from_hash` (`/repo/ecc/curve.c:455-482`), starting from the hash `x` of the base field;
`cofac = none` is the null pointer. -/
def fromHash (isSqr : K → Bool) (sq : K → K) (sgn : K → ℤ) (a b : K) (cofac : Option ℕ) (fuel : ℕ)
    (x : K) : Option (Pt K) :=
  match hashSearch isSqr a b fuel x with
  | none => none
  | some x =>
    let y := sq (rhs a b x)
    let y := if sgn y < 0 then -y else y
    match cofac with
    | none => some ⟨false, x, y⟩
    | some h => (Gen.powMpz (⟨some ⟨false, x, y⟩⟩ : GPt K a) h).bind (·.val)

/-- `curve_random_no_cofac_solvefory` (`/repo/ecc/curve.c:405-422`) on the sequence of values the
random source delivers; `none` when they run out. -/
def randomNoCofac (isSqr : K → Bool) (sq : K → K) (a b : K) : List K → Option (Pt K)
  | [] => none
  | x :: rest =>
    if isSqr (rhs a b x) then some ⟨false, x, sq (rhs a b x)⟩
    else randomNoCofac isSqr sq a b rest

/-- `curve_random_solvefory` (`/repo/ecc/curve.c:424-428`). -/
def randomSolve (isSqr : K → Bool) (sq : K → K) (a b : K) (cofac : Option ℕ) (draws : List K) :
    Option (Pt K) :=
  match randomNoCofac isSqr sq a b draws with
  | none => none
  | some p =>
    match cofac with
    | none => some p
    | some h => (Gen.powMpz (⟨some p⟩ : GPt K a) h).bind (·.val)

/-- `curve_random_pointmul` (`/repo/ecc/curve.c:430-438`): `x` is the random scalar. -/
def randomPointMul (a : K) (gen : Pt K) (x : ℕ) : Option (Pt K) :=
  (Gen.powMpz (⟨some gen⟩ : GPt K a) x).bind (·.val)

end encoding

section orders

/-- The loop of `pbc_mpz_trace_n` (`/repo/ecc/curve.c:953-959`), `k` iterations. -/
def traceLoop (q trace : ℤ) : ℕ → ℤ → ℤ → ℤ
  | 0, c1, _ => c1
  | k + 1, c1, c2 =>
    let c0 := trace * c1
    let t0 := q * c2
    let c0 := c0 - t0
    traceLoop q trace k c0 c1

/-- `pbc_mpz_trace_n` (`/repo/ecc/curve.c:942-965`): `for (i = 2; i <= n; i++)`. -/
def traceN (q trace : ℤ) (n : ℕ) : ℤ := traceLoop q trace (n - 1) trace 2

/-- `pbc_mpz_curve_order_extn` (`/repo/ecc/curve.c:968-980`). -/
def orderExtn (q t : ℤ) (k : ℕ) : ℤ :=
  let z := q ^ k
  let z := z + 1
  z - traceN q t k

/-- `field_init_curve_j` (`/repo/ecc/curve.c:912-930`): the coefficients. -/
def curveJ (j : K) : Option (K × K) :=
  let a := ((1728 : ℤ) : K)
  let a := a - j
  match inv? a with
  | none => none
  | some a =>
    let a := a * j
    let b := a + a
    let a := a + b
    some (a, b)

/-- `field_reinit_curve_twist` (`/repo/ecc/curve.c:885-892`): the coefficients. -/
def twist (nqr a b : K) : K × K :=
  let a := a * nqr
  let a := a * nqr
  let b := b * nqr
  let b := b * nqr
  let b := b * nqr
  (a, b)

end orders

end Pbc.Curve
