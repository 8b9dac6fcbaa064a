import Verif.Model.Mpn
import Verif.Model.Bytes
import Mathlib.Data.Int.GCD
import Mathlib.NumberTheory.LegendreSymbol.JacobiSymbol

/-!
# The Montgomery backend of prime fields, `/repo/arith/montfp.c`

`w` is the number of bits of a limb (64 on common platforms).
-/

set_option autoImplicit false

namespace Pbc.Mont

/-- Per-field data, the struct at `/repo/arith/montfp.c:26-33` together with `f->order`. -/
structure Field where
  /-- bits per limb: `sizeof(mp_limb_t) * 8` -/
  w : ℕ
  /-- `f->order`, the modulus -/
  p : ℕ
  /-- `limbs` -/
  t : ℕ
  /-- `primelimbs` -/
  P : List ℕ
  /-- `negpinv` -/
  negpinv : ℕ
  /-- `R` -/
  R : List ℕ
  /-- `R3` -/
  R3 : List ℕ

/-- Limb base. -/
def Field.β (F : Field) : ℕ := 2 ^ F.w

/-- `mpz_invert(z, a, m)`: the inverse in `[0, m)`, when `gcd(a, m) = 1`.  GMP computes it by the
extended Euclidean algorithm; the result for non-invertible `a` is unspecified by GMP and is
whatever the formula gives here. -/
def mpzInvert (a m : ℕ) : ℕ := ((Nat.gcdA a m) % (m : ℤ)).toNat

/-- `field_init_mont_fp` (`/repo/arith/montfp.c:533-600`).  `mpz_size(prime)` is the number of
`w`-bit limbs of `prime`. -/
def init (w p : ℕ) : Field :=
  let β := 2 ^ w
  let t := (Nat.size p + w - 1) / w
  let r := β ^ t % p
  { w := w
    p := p
    t := t
    P := toLimbs β t p
    -- `~0 - (mpz_get_ui(z) - 1)` in word arithmetic, `mpz_get_ui` takes the low word
    negpinv := (2 * β - 1 - (mpzInvert p (β ^ t) % β + β - 1) % β) % β
    R := toLimbs β t r
    R3 := toLimbs β t (r ^ 3 % p) }

/-- Per-element data, the struct at `/repo/arith/montfp.c:36-39`.  `flag = false` means zero (C: 0,
otherwise C stores 2); the array `d` keeps whatever it contained before. -/
structure El where
  flag : Bool
  d : List ℕ
deriving DecidableEq, Repr

variable (F : Field)

/-- `fp_set_mpz` (`/repo/arith/montfp.c:64-80`); `c` is the previous contents of `e`. -/
def setMpz (c : El) (z : ℤ) : El :=
  if z = 0 then { c with flag := false }
  else
    let tmp := ((z * 2 ^ (F.w * F.t)) % (F.p : ℤ)).toNat
    if tmp = 0 then { c with flag := false }
    else { flag := true, d := toLimbs F.β F.t tmp }

/-- `fp_set_si` (`/repo/arith/montfp.c:82-100`). -/
def setSi (c : El) (op : ℤ) : El :=
  if op = 0 then { c with flag := false }
  else
    let tmp := ((op * 2 ^ (F.w * F.t)) % (F.p : ℤ)).toNat
    if tmp = 0 then { c with flag := false }
    else { flag := true, d := toLimbs F.β F.t tmp }

/-- The loop of `mont_reduce` (`/repo/arith/montfp.c:108-113`).  `y` is the part `&y[i]` of the
array; the low limb is dropped after each round because it is not read again.  Returns the
remaining limbs and `flag`. -/
def montReduceLoop : ℕ → List ℕ → ℕ → List ℕ × ℕ
  | 0, y, flag => (y, flag)
  | n + 1, y, flag =>
    let u := (y.headD 0 * F.negpinv) % F.β
    let am := mpnAddmul1 F.β (y.take F.t) F.P u 0
    let ad := mpnAdd1 F.β (y.drop F.t) am.2
    montReduceLoop n (am.1 ++ ad.1).tail (flag + ad.2)

/-- `mont_reduce` (`/repo/arith/montfp.c:104-120`). -/
def montReduce (y : List ℕ) : List ℕ :=
  let r := montReduceLoop F F.t y 0
  if r.2 ≠ 0 ∨ mpnCmp r.1 F.P ≠ Ordering.lt then (mpnSubN F.β r.1 F.P 0).1
  else r.1

/-- `fp_to_mpz` (`/repo/arith/montfp.c:122-139`).  `none`: the loop of line 137 that strips leading
zero limbs runs off the array if all limbs are zero. -/
def toMpz (e : El) : Option ℕ :=
  if e.flag = false then some 0
  else
    let z := montReduce F (e.d ++ List.replicate F.t 0)
    if z.all (· == 0) then none else some (val F.β z)

/-- `fp_set0` (`/repo/arith/montfp.c:141-144`). -/
def set0 (c : El) : El := { c with flag := false }

/-- `fp_set1` (`/repo/arith/montfp.c:146-151`). -/
def set1 (_c : El) : El := { flag := true, d := F.R }

/-- `fp_is1` (`/repo/arith/montfp.c:153-160`). -/
def is1 (e : El) : Bool := e.flag && (mpnCmp e.d F.R == Ordering.eq)

/-- `fp_is0` (`/repo/arith/montfp.c:162-165`). -/
def is0 (e : El) : Bool := !e.flag

/-- `fp_set` (`/repo/arith/montfp.c:197-218`); when `a == c` nothing changes, which is also what the
assignment below does. -/
def set (c a : El) : El :=
  if a.flag = false then { c with flag := false } else { flag := true, d := a.d }

/-- `fp_add` (`/repo/arith/montfp.c:220-251`). -/
def add (c a b : El) : El :=
  if a.flag = false then set c b
  else if b.flag = false then set c a
  else
    let s := mpnAddN F.β a.d b.d 0
    if s.2 ≠ 0 then { flag := true, d := (mpnSubN F.β s.1 F.P 0).1 }
    else
      match mpnCmp s.1 F.P with
      | Ordering.eq => { flag := false, d := s.1 }
      | Ordering.gt => { flag := true, d := (mpnSubN F.β s.1 F.P 0).1 }
      | Ordering.lt => { flag := true, d := s.1 }

/-- `fp_double` (`/repo/arith/montfp.c:253-276`). -/
def double (c a : El) : El :=
  if a.flag = false then { c with flag := false }
  else
    let s := mpnLshift1 F.β a.d 0
    if s.2 ≠ 0 then { flag := true, d := (mpnSubN F.β s.1 F.P 0).1 }
    else
      match mpnCmp s.1 F.P with
      | Ordering.eq => { flag := false, d := s.1 }
      | Ordering.gt => { flag := true, d := (mpnSubN F.β s.1 F.P 0).1 }
      | Ordering.lt => { flag := true, d := s.1 }

/-- `l[n] |= b` for an array of limbs. -/
def orAt : List ℕ → ℕ → ℕ → List ℕ
  | [], _, _ => []
  | x :: xs, 0, b => (x ||| b) :: xs
  | x :: xs, n + 1, b => x :: orAt xs n b

/-- `fp_halve` (`/repo/arith/montfp.c:278-295`).  In the odd branch `cd->flag` is not assigned. -/
def halve (c a : El) : El :=
  if a.flag = false then { c with flag := false }
  else if a.d.headD 0 % 2 = 1 then
    let s := mpnAddN F.β a.d F.P 0
    let d := mpnRshift1 F.β s.1
    { flag := c.flag
      d := if s.2 ≠ 0 then orAt d (F.t - 1) (2 ^ (F.w - 1)) else d }
  else
    let c' := set c a
    { c' with d := mpnRshift1 F.β c'.d }

/-- `fp_neg` (`/repo/arith/montfp.c:297-305`). -/
def neg (c a : El) : El :=
  if a.flag = false then { c with flag := false }
  else { flag := true, d := (mpnSubN F.β F.P a.d 0).1 }

/-- `fp_sub` (`/repo/arith/montfp.c:307-330`). -/
def sub (c a b : El) : El :=
  if a.flag = false then neg F c b
  else if b.flag = false then set c a
  else
    match mpnCmp a.d b.d with
    | Ordering.eq => { c with flag := false }
    | Ordering.gt => { flag := true, d := (mpnSubN F.β a.d b.d 0).1 }
    | Ordering.lt => { flag := true, d := (mpnAddN F.β (mpnSubN F.β a.d b.d 0).1 F.P 0).1 }

/-- One round `i ≥ 1` of `mont_mul` (`/repo/arith/montfp.c:344-349`).  `win` is the part
`z[i .. i+t]` of the array (`t+1` limbs); the result is `z[i+1 .. i+1+t]`.  The limb `z[i]` is
dropped because it is never read again.  All additions and multiplications of words wrap. -/
def montMulStep (b : List ℕ) (win : List ℕ) (ai : ℕ) : List ℕ :=
  let u := ((win.headD 0 + ai * b.headD 0) * F.negpinv) % F.β
  let am := mpnAddmul1 F.β (win.take F.t) b ai 0
  let v := ((win.drop F.t).headD 0 + am.2) % F.β
  let am2 := mpnAddmul1 F.β am.1 F.P u 0
  let top := (v + am2.2) % F.β
  (am2.1 ++ [top, if top < v then 1 else 0]).tail

/-- Round 0 of `mont_mul` (`/repo/arith/montfp.c:340-343`). -/
def montMulFirst (b : List ℕ) (a0 : ℕ) : List ℕ :=
  let u := ((a0 * b.headD 0) * F.negpinv) % F.β
  let m := mpnMul1 F.β b a0 0
  let v := m.2
  let am2 := mpnAddmul1 F.β m.1 F.P u 0
  let top := (v + am2.2) % F.β
  (am2.1 ++ [top, if top < v then 1 else 0]).tail

/-- `mont_mul` (`/repo/arith/montfp.c:334-364`). -/
def montMul (a b : List ℕ) : List ℕ :=
  let z := a.tail.foldl (montMulStep F b) (montMulFirst F b (a.headD 0))
  let lo := z.take F.t
  if (z.drop F.t).headD 0 ≠ 0 ∨ mpnCmp lo F.P ≠ Ordering.lt then (mpnSubN F.β lo F.P 0).1
  else lo

/-- `fp_mul` (`/repo/arith/montfp.c:366-377`). -/
def mul (c a b : El) : El :=
  if a.flag = false ∨ b.flag = false then { c with flag := false }
  else { flag := true, d := montMul F a.d b.d }

/-- `generic_square` (`/repo/arith/field.c:383-385`), which the Montgomery backend keeps. -/
def square (c a : El) : El := mul F c a a

/-- `generic_mul_mpz` (`/repo/arith/field.c:386-392`) with a fresh temporary `fresh`. -/
def mulMpz (fresh c a : El) (z : ℤ) : El := mul F c a (setMpz F fresh z)

/-- `generic_mul_si` (`/repo/arith/field.c:394-400`) with a fresh temporary `fresh`. -/
def mulSi (fresh c a : El) (z : ℤ) : El := mul F c a (setSi F fresh z)

/-- `fp_pow_mpz` (`/repo/arith/montfp.c:379-396`) for `op ≥ 0`; `none` if `fp_to_mpz` is undefined. -/
def powMpz (c a : El) (op : ℕ) : Option El :=
  if a.flag = false then some { c with flag := false }
  else
    match toMpz F a with
    | none => none
    | some z => some { flag := true,
                       d := toLimbs F.β F.t ((z ^ op % F.p) * 2 ^ (F.w * F.t) % F.p) }

/-- `fp_invert` (`/repo/arith/montfp.c:401-422`). -/
def invert (_c a : El) : El :=
  let z := mpzInvert (val F.β a.d) F.p
  { flag := true, d := montMul F (toLimbs F.β F.t z) F.R3 }

/-- `fp_random` (`/repo/arith/montfp.c:424-439`) given the number `z` drawn by `pbc_mpz_random`. -/
def random (c : El) (z : ℕ) : El :=
  if z ≠ 0 then { flag := true, d := toLimbs F.β F.t (z * 2 ^ (F.w * F.t) % F.p) }
  else { c with flag := false }

/-- `fp_cmp` (`/repo/arith/montfp.c:450-458`), as the sign of the returned `int`. -/
def cmp (a b : El) : Ordering :=
  if a.flag = false then (if b.flag then Ordering.gt else Ordering.eq)
  else mpnCmp a.d b.d

/-- `fp_sgn_odd` (`/repo/arith/montfp.c:460-472`). -/
def sgn (a : El) : Option ℤ :=
  if a.flag = false then some 0
  else (toMpz F a).map fun z => if z % 2 = 1 then 1 else -1

/-- `fp_is_sqr` (`/repo/arith/montfp.c:474-485`); `mpz_legendre` is the Jacobi symbol in GMP. -/
def isSqr (a : El) : Option Bool :=
  if a.flag = false then some true
  else (toMpz F a).map fun z => decide (jacobiSym (z : ℤ) F.p = 1)

/-- `fp_to_bytes` (`/repo/arith/montfp.c:487-496`). -/
def toBytes (a : El) : Option (List ℕ) := (toMpz F a).bind (outRawN (fpLength F.p))

/-- `fp_from_bytes` (`/repo/arith/montfp.c:498-517`) on a buffer of `fixed_length_in_bytes` bytes. -/
def fromBytes (c : El) (data : List ℕ) : El :=
  let z := importBE data
  if z = 0 then { c with flag := false }
  else { flag := true, d := toLimbs F.β F.t (z * 2 ^ (F.w * F.t) % F.p) }

end Pbc.Mont
