import Verif.Model.PairingD

/-!
# `/repo/ecc/f_param.c`: the pairing of type F

`F` is the field `F_q`, `K` is `F_q^2`, built by `/repo/arith/fieldquadratic.c`, and `L` is `F_q^12`,
built as polynomials over `K` modulo `x^6 + alpha`.  All three are Mathlib fields; the routines read and
write the coordinates of elements of `K` and the coefficients of elements of `L` directly, which two
`Ext` give them (`element_x(e)` is item 0 and `element_y(e)` item 1 of an element of `K`).  Temporaries
of a routine are distinct elements, so calls are written as functions of values.  Inverting 0 is `none`.
-/

set_option autoImplicit false

namespace Pbc.PairingF

open Pbc.Curve (Pt)
open Pbc.Quad (inv?)
open Pbc.PairingA (Abc copy)
open Pbc.PairingD (Ext line start loop)

variable {F K L : Type*} [Field F] [DecidableEq F] [Field K] [DecidableEq K] [Field L] [DecidableEq L]

/-- The data of the pairing (`/repo/ecc/f_param.c:35-45`); `E2` and `E12` give the coordinates in `F_q^2`
and `F_q^12`, `b` is the coefficient of the curve, `bt` that of the twist. -/
structure Data (F K L : Type*) where
  E2 : Ext F K
  E12 : Ext K L
  r : ℕ
  b : F
  bt : K
  negalpha : K
  negalphainv : K
  tateexp : ℕ
  xpowq2 : K
  xpowq6 : K
  xpowq8 : K

/-- `element_mul(element_x(e), element_x(e), a); element_mul(element_y(e), element_y(e), a);`. -/
def scale (E2 : Ext F K) (e : K) (a : F) : K := E2.make (fun i => E2.item e i * a)

/-- `do_term(i, j, k, flag)` (`/repo/ecc/f_param.c:109-124`): the new coefficient `i` of `e0`. -/
def doTerm (E2 : Ext F K) (E12 : Ext K L) (negalpha Qx Qy : K) (l : Abc F) (v : L) (i j k flag : ℕ) : K :=
  let e1 := E12.item v j * Qx
  let e1 := if flag = 1 then e1 * negalpha else e1
  let e1 := scale E2 e1 l.a
  let e2 := E12.item v k * Qy
  let e2 := scale E2 e2 l.b
  let e2 := e2 + e1
  let e2 := if flag = 2 then e2 * negalpha else e2
  let e1 := scale E2 (E12.item v i) l.c
  e2 + e1

/-- `f_miller_evalfn` (`/repo/ecc/f_param.c:142-150`). -/
def evalfn (E2 : Ext F K) (E12 : Ext K L) (negalpha Qx Qy : K) (l : Abc F) (v : L) : L :=
  let t := doTerm E2 E12 negalpha Qx Qy l v
  E12.make (fun i =>
    if i = 0 then t 0 2 3 2
    else if i = 1 then t 1 3 4 2
    else if i = 2 then t 2 4 5 2
    else if i = 3 then t 3 5 0 1
    else if i = 4 then t 4 0 1 0
    else t 5 1 2 0)

/-- The line of `do_tangent` (`/repo/ecc/f_param.c:171-180`); the curve is `Y² = X³ + b`. -/
def tangent (Zx Zy : F) : Abc F :=
  let a := Zx ^ 2
  let a := a * ((3 : ℤ) : F)
  let a := -a
  let b := Zy + Zy
  let t0 := b * Zy
  let c := a * Zx
  let c := c + t0
  let c := -c
  ⟨a, b, c⟩

/-- `cc_miller_no_denom` (`/repo/ecc/f_param.c:97-248`); the loop is the one of type D, on a curve whose
first coefficient is 0. -/
def miller (p : Data F K L) (P : Pt F) (Qx Qy : K) : Option L :=
  loop tangent 0 p.r P (evalfn p.E2 p.E12 p.negalpha Qx Qy) (fun v => v ^ 2) (start p.r) (copy P) 1

/-- `qpower` (`/repo/ecc/f_param.c:258-269`). -/
def qpower (E12 : Ext K L) (out : L) (e : K) : L :=
  let epow2 := e ^ 2
  let epow3 := epow2 * e
  let epow4 := epow3 * e
  let epow5 := epow4 * e
  E12.make (fun i =>
    if i = 0 then E12.item out 0
    else if i = 1 then E12.item out 1 * e
    else if i = 2 then E12.item out 2 * epow2
    else if i = 3 then E12.item out 3 * epow3
    else if i = 4 then E12.item out 4 * epow4
    else E12.item out 5 * epow5)

/-- `f_tateexp` (`/repo/ecc/f_param.c:250-283`). -/
def tatepower (p : Data F K L) (out : L) : Option L :=
  let y := qpower p.E12 out p.xpowq8
  let x := qpower p.E12 out p.xpowq6
  let y := y * x
  let x := qpower p.E12 out p.xpowq2
  let x := x * out
  match inv? x with
  | none => none
  | some x =>
    let out := y * x
    Gen.powMpz out p.tateexp

/-- Map from the twist (`/repo/ecc/f_param.c:302-303`). -/
def untwist (p : Data F K L) (Q : Pt K) : K × K :=
  let x := Q.x * p.negalphainv
  let y := Q.y * p.negalphainv
  (x, y)

/-- `f_pairing` (`/repo/ecc/f_param.c:289-311`). -/
def pairing (p : Data F K L) (P : Pt F) (Q : Pt K) : Option L :=
  let q := untwist p Q
  (miller p P q.1 q.2).bind (tatepower p)

/-- Repeated `element_pow_mpz(xpowq, xpowq, param->q)`. -/
def powTimes (q : ℕ) : ℕ → L → Option L
  | 0, x => some x
  | n + 1, x =>
    match Gen.powMpz x q with
    | none => none
    | some x => powTimes q n x

/-- What `f_init_pairing` computes (`/repo/ecc/f_param.c:335-447`), from the fields `F` of `q` elements,
`K` and `L`; without the quotient used to compare points of the twist (`quotient`). -/
def init (E2 : Ext F K) (E12 : Ext K L) (q r : ℕ) (b alpha0 alpha1 : F) : Option (Data F K L) :=
  let negalpha := E2.make (fun i => if i = 0 then alpha0 else alpha1)
  let negalpha := -negalpha
  match inv? negalpha with
  | none => none
  | some negalphainv =>
    let bt := E2.make (fun i => if i = 0 then -alpha0 * b else -alpha1 * b)
    let z := q * q
    let z := z - 1
    let z := z * q
    let z := z * q
    let z := z + 1
    let z := z / r
    let xpowq := E12.make (fun i => if i = 1 then 1 else 0)
    match powTimes q 2 xpowq with
    | none => none
    | some xpowq =>
      let xpowq2 := E12.item xpowq 1
      match powTimes q 4 xpowq with
      | none => none
      | some xpowq =>
        let xpowq6 := E12.item xpowq 1
        match powTimes q 2 xpowq with
        | none => none
        | some xpowq =>
          let xpowq8 := E12.item xpowq 1
          some ⟨E2, E12, r, b, bt, negalpha, negalphainv, z, xpowq2, xpowq6, xpowq8⟩

/-- The exponent with which points of the twist are compared (`/repo/ecc/f_param.c:388-399`), and whether
both `mpz_divexact` were exact. -/
def quotient (q r : ℤ) : ℤ × Bool :=
  let ndonr := q - r
  let ndonr := ndonr + 1
  let ndonr := Curve.orderExtn q ndonr 12
  (ndonr / r / r, decide (ndonr % r = 0) && decide (ndonr / r % r = 0))

/-! ### The functions the user calls -/

/-- `pairing_apply` and `element_pairing` (`/repo/include/pbc_pairing.h:118-146`). -/
def apply (map : Pt F → Pt K → Option L) (P : Pt F) (Q : Pt K) : Option L :=
  if P.inf then some 1
  else if Q.inf then some 1
  else map P Q

/-- `generic_prod_pairings` (`/repo/ecc/pairing.c:35-46`). -/
def genericProd (map : Pt F → Pt K → Option L) (P : ℕ → Pt F) (Q : ℕ → Pt K) : ℕ → Option L
  | 0 => none
  | 1 => map (P 0) (Q 0)
  | n + 2 =>
    match genericProd map P Q (n + 1), map (P (n + 1)) (Q (n + 1)) with
    | some out, some tmp => some (out * tmp)
    | _, _ => none

/-- `element_prod_pairing` (`/repo/include/pbc_pairing.h:153-171`). -/
def prodPairing (map : (ℕ → Pt F) → (ℕ → Pt K) → ℕ → Option L) (P : ℕ → Pt F) (Q : ℕ → Pt K) (n : ℕ) :
    Option L :=
  if PairingD.anyZero P Q n then some 1 else map P Q n

/-- `generic_is_almost_coddh` (`/repo/ecc/pairing.c:15-33`). -/
def almostCoddh (map : Pt F → Pt K → Option L) (a b : Pt F) (c d : Pt K) : Option Bool :=
  match apply map a d, apply map b c with
  | some t0, some t1 =>
    if t0 = t1 then some true
    else
      let t0 := t0 * t1
      some (decide (t0 = 1))
  | _, _ => none

/-! ### Preprocessing

`default_pp_init` keeps the address of its argument, not a copy of it. -/

/-- `pairing_pp_init` (`/repo/include/pbc_pairing.h:54-61`) with `default_pp_init`
(`/repo/ecc/pairing.c:61-64`) on the element at address `i`; `none` is a null `p->pairing`, `some i` the
stored address. -/
def ppInit (m : ℕ → Pt F) (i : ℕ) : Option ℕ :=
  if (m i).inf then none else some i

/-- `pairing_pp_apply` (`/repo/include/pbc_pairing.h:79-89`) with `default_pp_apply`
(`/repo/ecc/pairing.c:66-68`); `m` is the memory at the time of this call. -/
def ppApply (map : Pt F → Pt K → Option L) (m : ℕ → Pt F) (p : Option ℕ) (Q : Pt K) : Option L :=
  match p with
  | none => some 1
  | some i => if Q.inf then some 1 else map (m i) Q

end Pbc.PairingF
