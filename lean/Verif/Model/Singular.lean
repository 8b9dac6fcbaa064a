import Verif.Model.Curve

/-!
# `/repo/ecc/singular.c`: the nodal curve `Y² = X³ + X²`

Elements and store as for the other curves.
-/

set_option autoImplicit false

namespace Pbc.Singular

open Pbc.Quad (inv?)
open Pbc.Curve (Pt Mem wInf wX wY fresh)

variable {K : Type*} [Field K] [DecidableEq K]

/-- `sn_double_no_check` (`/repo/ecc/singular.c:68-103`). -/
def doubleNoCheck (m : Mem K) (r p : ℕ) : Option (Mem K) :=
  let lambda := (m p).x * ((3 : ℤ) : K)
  let e0 := ((2 : ℤ) : K)
  let lambda := lambda + e0
  let lambda := lambda * (m p).x
  let e0 := (m p).y + (m p).y
  match inv? e0 with
  | none => none
  | some e0 =>
    let lambda := lambda * e0
    let e1 := (m p).x + (m p).x
    let e0 := lambda ^ 2
    let e0 := e0 - e1
    let e1 := ((1 : ℤ) : K)
    let e0 := e0 - e1
    let e1 := (m p).x - e0
    let e1 := e1 * lambda
    let e1 := e1 - (m p).y
    let m := wX m r e0
    let m := wY m r e1
    some (wInf m r false)

/-- `sn_double` (`/repo/ecc/singular.c:105-117`). -/
def double (m : Mem K) (c a : ℕ) : Option (Mem K) :=
  if (m a).inf then some (wInf m c true)
  else if (m a).y = 0 then some (wInf m c true)
  else doubleNoCheck m c a

/-- `sn_set` (`/repo/ecc/singular.c:119-128`). -/
def set (m : Mem K) (c a : ℕ) : Mem K :=
  if (m a).inf then wInf m c true
  else
    let m := wInf m c false
    let m := wX m c (m a).x
    wY m c (m a).y

/-- `sn_add` (`/repo/ecc/singular.c:130-186`). -/
def add (m : Mem K) (c a b : ℕ) : Option (Mem K) :=
  if (m a).inf then some (set m c b)
  else if (m b).inf then some (set m c a)
  else if (m a).x = (m b).x then
    if (m a).y = (m b).y then
      if (m a).y = 0 then some (wInf m c true)
      else doubleNoCheck m c a
    else some (wInf m c true)
  else
    let e0 := (m b).x - (m a).x
    match inv? e0 with
    | none => none
    | some e0 =>
      let lambda := (m b).y - (m a).y
      let lambda := lambda * e0
      let e0 := lambda ^ 2
      let e0 := e0 - (m a).x
      let e0 := e0 - (m b).x
      let e1 := (1 : K)
      let e0 := e0 - e1
      let e1 := (m a).x - e0
      let e1 := e1 * lambda
      let e1 := e1 - (m a).y
      let m := wX m c e0
      let m := wY m c e1
      some (wInf m c false)

/-- `sn_invert` (`/repo/ecc/singular.c:188-198`). -/
def invert (m : Mem K) (c a : ℕ) : Mem K :=
  if (m a).inf then wInf m c true
  else
    let m := wInf m c false
    let m := wX m c (m a).x
    wY m c (-(m a).y)

/-- `sn_add` as a function of values. -/
def addV (p q : Pt K) : Option (Pt K) :=
  (add (fun i => if i = 1 then p else if i = 2 then q else fresh) 0 1 2).map (· 0)

/-- `sn_double` as a function of values. -/
def doubleV (p : Pt K) : Option (Pt K) :=
  (double (fun i => if i = 1 then p else fresh) 0 1).map (· 0)

/-- Elements with the operations the generic power routine calls. -/
structure GPt (K : Type*) where
  val : Option (Pt K)

instance : Mul (GPt K) := ⟨fun p q => ⟨p.val.bind fun p => q.val.bind fun q => addV p q⟩⟩
instance : One (GPt K) := ⟨⟨some fresh⟩⟩
instance : Gen.Sqr (GPt K) := ⟨fun p => ⟨p.val.bind fun p => doubleV p⟩⟩

/-- `mul_mpz` is the default field's `pow_mpz` (`/repo/ecc/singular.c:295`,
`/repo/arith/field.c:113-126`). -/
def mulMpz (m : Mem K) (c a n : ℕ) : Option (Mem K) :=
  ((Gen.powMpz (⟨some (m a)⟩ : GPt K) n).bind (·.val)).map (Curve.setFrom m c)

/-- The loop of `sn_random` (`/repo/ecc/singular.c:50-66`) on the values the random source delivers.
`t` is the temporary, 0 at first.  `continue` in a `do ... while` goes to the condition, so the value
0 leaves `t` as it was.  `none` when the values run out. -/
def random (isSqr : K → Bool) (sq : K → K) : List K → K → Option (Pt K)
  | [], _ => none
  | x :: rest, t =>
    let t := if x = 0 then t else
      let t := x ^ 2
      let t := t + x
      t * x
    if isSqr t then some ⟨false, x, sq t⟩ else random isSqr sq rest t

/-! ### The pairing -/

/-- The variables of `sn_miller` that change in the loop: the products `v`, `vd` and the store with `Z` at 0 and `P` at 1. -/
structure St (K : Type*) where
  v : K
  vd : K
  m : Mem K

/-- `do_vertical` (`/repo/ecc/singular.c:318-320`): the factor. -/
def vertical (Qx : K) (Z : Pt K) : K := Qx - Z.x

/-- `do_tangent` (`/repo/ecc/singular.c:329-345`): the factor. -/
def tangent (Qx Qy : K) (Z : Pt K) : K :=
  let e0 := Z.x + Z.x
  let a := Z.x + e0
  let e0 := ((2 : ℤ) : K)
  let a := a + e0
  let a := a * Z.x
  let a := -a
  let b := Z.y + Z.y
  let e0 := b * Z.y
  let c := a * Z.x
  let c := c + e0
  let c := -c
  let e0 := a * Qx
  let e1 := b * Qy
  let e0 := e0 + e1
  e0 + c

/-- `do_line` (`/repo/ecc/singular.c:351-362`): the factor. -/
def line (Qx Qy : K) (P Z : Pt K) : K :=
  let b := P.x - Z.x
  let a := Z.y - P.y
  let e0 := b * Z.y
  let c := a * Z.x
  let c := c + e0
  let c := -c
  let e0 := a * Qx
  let e1 := b * Qy
  let e0 := e0 + e1
  e0 + c

/-- The body of the loop of `sn_miller` (`/repo/ecc/singular.c:384-393`) when the bit is `bit`.  Doubling and adding write
`Z` in place, so a `Z` at infinity keeps the coordinates it had. -/
def step (Qx Qy : K) (bit : Bool) (s : St K) : Option (St K) :=
  let v := s.v * s.v
  let vd := s.vd * s.vd
  let v := v * tangent Qx Qy (s.m 0)
  match double s.m 0 0 with
  | none => none
  | some m =>
    let vd := vd * vertical Qx (m 0)
    if bit then
      let v := v * line Qx Qy (m 1) (m 0)
      match add m 0 0 1 with
      | none => none
      | some m => some ⟨v, vd * vertical Qx (m 0), m⟩
    else some ⟨v, vd, m⟩

/-- The loop (`/repo/ecc/singular.c:383-396`) from bit `i` down to bit 0. -/
def loop (Qx Qy : K) (r : ℕ) : ℕ → St K → Option (St K)
  | 0, s => step Qx Qy (r.testBit 0) s
  | i + 1, s =>
    match step Qx Qy (r.testBit (i + 1)) s with
    | none => none
    | some s => loop Qx Qy r i s

/-- `sn_miller` (`/repo/ecc/singular.c:305-412`), `r` the argument called `q` there.  `none` when the denominator is 0. -/
def miller (r : ℕ) (P : Pt K) (Qx Qy : K) : Option K :=
  let m := set (fun i => if i = 1 then P else fresh) 0 1
  let i := (if r = 0 then 1 else Nat.log2 r + 1)
  let i := if i > 2 then i - 2 else 0
  match loop Qx Qy r i ⟨1, 1, m⟩ with
  | none => none
  | some s =>
    match inv? s.vd with
    | none => none
    | some vd => some (s.v * vd)

/-- `sn_pairing` (`/repo/ecc/singular.c:420-438`), where `R` is the point that `element_random` delivers. -/
def pairing (r : ℕ) (P Q R : Pt K) : Option K :=
  match add (fun i => if i = 1 then Q else if i = 2 then R else fresh) 0 1 2 with
  | none => none
  | some m =>
    match miller r P (m 0).x (m 0).y with
    | none => none
    | some out =>
      match miller r P R.x R.y with
      | none => none
      | some e0 =>
        match inv? e0 with
        | none => none
        | some e0 => some (out * e0)

/-- `pairing_init_singular_with_node` (`/repo/ecc/singular.c:440-459`): the order is `q - 1`. -/
def order (q : ℕ) : ℕ := q - 1

end Pbc.Singular
