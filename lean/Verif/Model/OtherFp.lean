import Verif.Model.MontFp
import Verif.Model.MontProgram

/-!
# The other prime-field backends: `fasterfp.c`, `fastfp.c`, `naivefp.c`

The per-field data (`limbs`, `primelimbs`, `order`) is kept in `Mont.Field`, of which only the
components `w`, `p`, `t`, `P` are used here.
-/

set_option autoImplicit false

namespace Pbc

open Spec (FpOp)
open Mont (El Field mpzInvert)

/-! ## `fasterfp.c`: flag plus limbs, no Montgomery factor -/

namespace Faster

variable (F : Field)

/-- `fp_set_mpz` (`/repo/arith/fasterfp.c:64-76`): no test for a zero remainder. -/
def setMpz (c : El) (z : ℤ) : El :=
  if z = 0 then { c with flag := false }
  else { flag := true, d := toLimbs F.β F.t (z % (F.p : ℤ)).toNat }

/-- `fp_set_si` (`/repo/arith/fasterfp.c:78-93`). -/
def setSi (c : El) (op : ℤ) : El :=
  if op = 0 then { c with flag := false }
  else if op < 0 then { flag := true, d := (mpnSub1 F.β F.P (-op).toNat).1 }
  else { flag := true, d := op.toNat :: List.replicate (F.t - 1) 0 }

/-- `fp_to_mpz` (`/repo/arith/fasterfp.c:95-103`). -/
def toMpz (e : El) : ℕ := if e.flag = false then 0 else val F.β e.d

/-- `fp_set1` (`/repo/arith/fasterfp.c:110-116`). -/
def set1 (_c : El) : El := { flag := true, d := 1 :: List.replicate (F.t - 1) 0 }

/-- `fp_is1` (`/repo/arith/fasterfp.c:118-128`). -/
def is1 (e : El) : Bool := e.flag && (e.d.headD 0 == 1) && e.d.tail.all (· == 0)

/-- `fp_set0` (`/repo/arith/fasterfp.c:105-108`), same text as `montfp.c`. -/
def set0 (c : El) : El := Mont.set0 c
/-- `fp_set` (`/repo/arith/fasterfp.c:145-168`), same text as `montfp.c`. -/
def set (c a : El) : El := Mont.set c a
/-- `fp_add` (`/repo/arith/fasterfp.c:170-201`), same text as `montfp.c`. -/
def add (c a b : El) : El := Mont.add F c a b
/-- `fp_double` (`/repo/arith/fasterfp.c:203-226`), same text as `montfp.c`. -/
def double (c a : El) : El := Mont.double F c a
/-- `fp_halve` (`/repo/arith/fasterfp.c:228-245`), same text as `montfp.c`. -/
def halve (c a : El) : El := Mont.halve F c a
/-- `fp_neg` (`/repo/arith/fasterfp.c:247-255`), same text as `montfp.c`. -/
def neg (c a : El) : El := Mont.neg F c a
/-- `fp_sub` (`/repo/arith/fasterfp.c:257-280`), same text as `montfp.c`. -/
def sub (c a b : El) : El := Mont.sub F c a b
/-- `fp_cmp` (`/repo/arith/fasterfp.c:419-428`), same text as `montfp.c`. -/
def cmp (a b : El) : Ordering := Mont.cmp a b

/-- `fp_mul` (`/repo/arith/fasterfp.c:282-306`). -/
def mul (c a b : El) : El :=
  if a.flag = false ∨ b.flag = false then { c with flag := false }
  else { flag := true, d := mpnTdivR F.β F.t (mpnMulN F.β F.t a.d b.d) F.P }

/-- `fp_square` (`/repo/arith/fasterfp.c:308-345`), via `mpz_powm_ui(.., 2, order)`. -/
def square (c a : El) : El :=
  if a.flag = false then { c with flag := false }
  else { flag := true, d := toLimbs F.β F.t (val F.β a.d ^ 2 % F.p) }

/-- `generic_mul_mpz` (`/repo/arith/field.c:386-392`), kept by this backend. -/
def mulMpz (fresh c a : El) (z : ℤ) : El := mul F c a (setMpz F fresh z)

/-- `fp_mul_si` (`/repo/arith/fasterfp.c:347-367`). -/
def mulSi (c a : El) (op : ℤ) : El :=
  if a.flag = false ∨ op = 0 then { c with flag := false }
  else
    let m := mpnMul1 F.β a.d op.natAbs 0
    let c' : El := { flag := true, d := mpnTdivR F.β F.t (m.1 ++ [m.2]) F.P }
    if op < 0 then neg F c' c' else c'

/-- `fp_pow_mpz` (`/repo/arith/fasterfp.c:369-382`) for `op ≥ 0`. -/
def powMpz (c a : El) (op : ℕ) : El :=
  if a.flag = false then { c with flag := false }
  else { flag := true, d := toLimbs F.β F.t (toMpz F a ^ op % F.p) }

/-- `fp_invert` (`/repo/arith/fasterfp.c:384-394`). -/
def invert (_c a : El) : El :=
  { flag := true, d := toLimbs F.β F.t (mpzInvert (toMpz F a) F.p) }

/-- `fp_random` (`/repo/arith/fasterfp.c:396-408`) given the number drawn. -/
def random (c : El) (z : ℕ) : El :=
  if z ≠ 0 then { flag := true, d := toLimbs F.β F.t z } else { c with flag := false }

/-- `fp_from_bytes` (`/repo/arith/fasterfp.c:480-496`): no reduction.  `mpz_export` writes as
many limbs as the number has; it fits since the buffer is no longer than the modulus. -/
def fromBytes (c : El) (data : List ℕ) : El :=
  let z := importBE data
  if z = 0 then { c with flag := false } else { flag := true, d := toLimbs F.β F.t z }

/-- `fp_sgn_odd` (`/repo/arith/fasterfp.c:430-434`). -/
def sgn (a : El) : ℤ := if a.flag = false then 0 else if a.d.headD 0 % 2 = 1 then 1 else -1

/-- `fp_to_bytes` (`/repo/arith/fasterfp.c:464-478`). -/
def toBytes (a : El) : Option (List ℕ) :=
  if a.flag = false then some (List.replicate (fpLength F.p) 0)
  else outRawN (fpLength F.p) (toMpz F a)

/-- `fp_is0` (`/repo/arith/fasterfp.c:130-133`). -/
def is0 (a : El) : Bool := !a.flag

/-- `fp_is_sqr` (`/repo/arith/fasterfp.c:452-462`). -/
def isSqr (a : El) : Bool :=
  if a.flag = false then true else decide (jacobiSym (toMpz F a : ℤ) F.p = 1)

/-- One call, dispatched as in `field_init_faster_fp` (`/repo/arith/fasterfp.c:508-553`). -/
def exec (fresh : El) (m : ℕ → El) : FpOp → El
  | .setMpz c z => setMpz F (m c) z
  | .setSi c z => setSi F (m c) z
  | .set0 c => set0 (m c)
  | .set1 c => set1 F (m c)
  | .set c a => set (m c) (m a)
  | .add c a b => add F (m c) (m a) (m b)
  | .sub c a b => sub F (m c) (m a) (m b)
  | .neg c a => neg F (m c) (m a)
  | .double c a => double F (m c) (m a)
  | .halve c a => halve F (m c) (m a)
  | .mul c a b => mul F (m c) (m a) (m b)
  | .square c a => square F (m c) (m a)
  | .mulMpz c a z => mulMpz F fresh (m c) (m a) z
  | .mulSi c a z => mulSi F (m c) (m a) z
  | .pow c a n => powMpz F (m c) (m a) n
  | .invert c a => invert F (m c) (m a)
  | .random c z => random F (m c) z
  | .fromBytes c data => fromBytes F (m c) data

/-- Run a program. -/
def run (fresh : El) (m : ℕ → El) (prog : List FpOp) : ℕ → El :=
  prog.foldl (fun m o => Function.update m o.dest (exec F fresh m o)) m

end Faster

/-! ## `fastfp.c`: limbs only -/

namespace Fast

variable (F : Field)

/-- `fp_init`/`fp_set0` (`/repo/arith/fastfp.c:29-34,73-76`). -/
def set0 : List ℕ := List.replicate F.t 0
/-- `fp_set_mpz` (`/repo/arith/fastfp.c:48-54`). -/
def setMpz (z : ℤ) : List ℕ := toLimbs F.β F.t (z % (F.p : ℤ)).toNat
/-- `fp_set_si` (`/repo/arith/fastfp.c:56-66`). -/
def setSi (op : ℤ) : List ℕ :=
  if op < 0 then (mpnSub1 F.β F.P (-op).toNat).1 else op.toNat :: List.replicate (F.t - 1) 0
/-- `fp_to_mpz` (`/repo/arith/fastfp.c:68-71`). -/
def toMpz (a : List ℕ) : ℕ := val F.β a
/-- `fp_set1` (`/repo/arith/fastfp.c:78-83`). -/
def set1 : List ℕ := 1 :: List.replicate (F.t - 1) 0
/-- `fp_is0` (`/repo/arith/fastfp.c:94-100`). -/
def is0 (a : List ℕ) : Bool := a.all (· == 0)
/-- `fp_add` (`/repo/arith/fastfp.c:112-121`). -/
def add (a b : List ℕ) : List ℕ :=
  let s := mpnAddN F.β a b 0
  if s.2 ≠ 0 ∨ mpnCmp s.1 F.P ≠ Ordering.lt then (mpnSubN F.β s.1 F.P 0).1 else s.1
/-- `fp_double` (`/repo/arith/fastfp.c:123-130`). -/
def double (a : List ℕ) : List ℕ :=
  let s := mpnLshift1 F.β a 0
  if s.2 ≠ 0 ∨ mpnCmp s.1 F.P ≠ Ordering.lt then (mpnSubN F.β s.1 F.P 0).1 else s.1
/-- `fp_halve` (`/repo/arith/fastfp.c:149-160`). -/
def halve (a : List ℕ) : List ℕ :=
  if a.headD 0 % 2 = 1 then
    let s := mpnAddN F.β a F.P 0
    let d := mpnRshift1 F.β s.1
    if s.2 ≠ 0 then Mont.orAt d (F.t - 1) (2 ^ (F.w - 1)) else d
  else mpnRshift1 F.β a
/-- `fp_sub` (`/repo/arith/fastfp.c:162-168`). -/
def sub (a b : List ℕ) : List ℕ :=
  let s := mpnSubN F.β a b 0
  if s.2 ≠ 0 then (mpnAddN F.β s.1 F.P 0).1 else s.1
/-- `fp_mul` (`/repo/arith/fastfp.c:170-186`). -/
def mul (a b : List ℕ) : List ℕ := mpnTdivR F.β F.t (mpnMulN F.β F.t a b) F.P
/-- `fp_square` (`/repo/arith/fastfp.c:188-218`). -/
def square (a : List ℕ) : List ℕ := toLimbs F.β F.t (val F.β a ^ 2 % F.p)
/-- `fp_neg` (`/repo/arith/fastfp.c:220-227`). -/
def neg (a : List ℕ) : List ℕ :=
  if is0 a then List.replicate F.t 0 else (mpnSubN F.β F.P a 0).1
/-- `generic_mul_mpz` (`/repo/arith/field.c:386-392`), kept by this backend. -/
def mulMpz (a : List ℕ) (z : ℤ) : List ℕ := mul F a (setMpz F z)
/-- `fp_mul_si` (`/repo/arith/fastfp.c:229-241`). -/
def mulSi (a : List ℕ) (op : ℤ) : List ℕ :=
  let m := mpnMul1 F.β a op.natAbs 0
  let c := mpnTdivR F.β F.t (m.1 ++ [m.2]) F.P
  if op < 0 then neg F c else c
/-- `fp_pow_mpz` (`/repo/arith/fastfp.c:243-250`). -/
def powMpz (a : List ℕ) (op : ℕ) : List ℕ := toLimbs F.β F.t (toMpz F a ^ op % F.p)
/-- `fp_invert` (`/repo/arith/fastfp.c:252-259`). -/
def invert (a : List ℕ) : List ℕ := toLimbs F.β F.t (mpzInvert (toMpz F a) F.p)
/-- `fp_random` (`/repo/arith/fastfp.c:261-267`). -/
def random (z : ℕ) : List ℕ := toLimbs F.β F.t z
/-- `fp_from_bytes` (`/repo/arith/fastfp.c:327-338`). -/
def fromBytes (data : List ℕ) : List ℕ := setMpz F (importBE data : ℤ)
/-- `fp_cmp` (`/repo/arith/fastfp.c:278-282`). -/
def cmp (a b : List ℕ) : Ordering := mpnCmp a b

/-- `fp_is1` (`/repo/arith/fastfp.c:85-92`). -/
def is1 (a : List ℕ) : Bool := (a.headD 0 == 1) && a.tail.all (· == 0)
/-- `fp_sgn_odd` (`/repo/arith/fastfp.c:284-288`). -/
def sgn (a : List ℕ) : ℤ := if is0 a then 0 else if a.headD 0 % 2 = 1 then 1 else -1
/-- `fp_is_sqr` (`/repo/arith/fastfp.c:304-314`). -/
def isSqr (a : List ℕ) : Bool :=
  if is0 a then true else decide (jacobiSym (toMpz F a : ℤ) F.p = 1)
/-- `fp_to_bytes` (`/repo/arith/fastfp.c:316-326`). -/
def toBytes (a : List ℕ) : Option (List ℕ) := outRawN (fpLength F.p) (toMpz F a)

/-- One call, dispatched as in `field_init_fast_fp` (`/repo/arith/fastfp.c:346-389`). -/
def exec (m : ℕ → List ℕ) : FpOp → List ℕ
  | .setMpz _ z => setMpz F z
  | .setSi _ z => setSi F z
  | .set0 _ => set0 F
  | .set1 _ => set1 F
  | .set _ a => m a
  | .add _ a b => add F (m a) (m b)
  | .sub _ a b => sub F (m a) (m b)
  | .neg _ a => neg F (m a)
  | .double _ a => double F (m a)
  | .halve _ a => halve F (m a)
  | .mul _ a b => mul F (m a) (m b)
  | .square _ a => square F (m a)
  | .mulMpz _ a z => mulMpz F (m a) z
  | .mulSi _ a z => mulSi F (m a) z
  | .pow _ a n => powMpz F (m a) n
  | .invert _ a => invert F (m a)
  | .random _ z => random F z
  | .fromBytes _ data => fromBytes F data

/-- Run a program. -/
def run (m : ℕ → List ℕ) (prog : List FpOp) : ℕ → List ℕ :=
  prog.foldl (fun m o => Function.update m o.dest (exec F m o)) m

end Fast

/-! ## `naivefp.c`: GMP integers -/

namespace Naive

variable (p : ℕ)

/-- `zp_set_mpz`, `zp_set_si` (`/repo/arith/naivefp.c:26-34`). -/
def setMpz (z : ℤ) : ℕ := (z % (p : ℤ)).toNat
/-- `zp_add` (`/repo/arith/naivefp.c:79-89`). -/
def add (a b : ℕ) : ℕ := if p ≤ a + b then a + b - p else a + b
/-- `zp_sub` (`/repo/arith/naivefp.c:91-98`). -/
def sub (a b : ℕ) : ℕ := if a < b then a + p - b else a - b
/-- `zp_square` (`/repo/arith/naivefp.c:100-119`). -/
def square (a : ℕ) : ℕ := a ^ 2 % p
/-- `zp_double` (`/repo/arith/naivefp.c:121-127`). -/
def double (a : ℕ) : ℕ := if p ≤ 2 * a then 2 * a - p else 2 * a
/-- `zp_halve` (`/repo/arith/naivefp.c:129-137`). -/
def halve (a : ℕ) : ℕ := if a % 2 = 1 then (a + p) / 2 else a / 2
/-- `zp_mul` (`/repo/arith/naivefp.c:139-142`). -/
def mul (a b : ℕ) : ℕ := a * b % p
/-- `zp_mul_mpz`, `zp_mul_si` (`/repo/arith/naivefp.c:144-152`). -/
def mulMpz (a : ℕ) (z : ℤ) : ℕ := ((a * z) % (p : ℤ)).toNat
/-- `zp_pow_mpz` (`/repo/arith/naivefp.c:154-156`) for exponents `≥ 0`. -/
def powMpz (a n : ℕ) : ℕ := a ^ n % p
/-- `zp_neg` (`/repo/arith/naivefp.c:162-168`). -/
def neg (a : ℕ) : ℕ := if a = 0 then 0 else p - a
/-- `zp_invert` (`/repo/arith/naivefp.c:170-172`). -/
def invert (a : ℕ) : ℕ := mpzInvert a p
/-- `zp_from_bytes` (`/repo/arith/naivefp.c:213-219`): no reduction. -/
def fromBytes (data : List ℕ) : ℕ := importBE data
/-- `zp_to_bytes` (`/repo/arith/naivefp.c:204-211`). -/
def toBytes (a : ℕ) : Option (List ℕ) := outRawN (fpLength p) a
/-- `zp_cmp` (`/repo/arith/naivefp.c:190-192`). -/
def cmp (a b : ℕ) : Ordering := compare a b
/-- `zp_sgn_odd` (`/repo/arith/naivefp.c:58-62`). -/
def sgnOdd (a : ℕ) : ℤ := if a = 0 then 0 else if a % 2 = 1 then 1 else -1
/-- `zp_sgn_even` (`/repo/arith/naivefp.c:64-77`), as a sign. -/
def sgnEven (a : ℕ) : ℤ :=
  if a = 0 then 0 else if 2 * a < p then -1 else if 2 * a = p then 0 else 1
/-- `zp_is_sqr` (`/repo/arith/naivefp.c:194-198`). -/
def isSqr (a : ℕ) : Bool := if a = 0 then true else decide (jacobiSym (a : ℤ) p = 1)

/-- `zp_is0` (`/repo/arith/naivefp.c:186-188`). -/
def is0 (a : ℕ) : Bool := a == 0
/-- `zp_is1` (`/repo/arith/naivefp.c:182-184`). -/
def is1 (a : ℕ) : Bool := a == 1

/-- One call, dispatched as in `field_init_naive_fp` (`/repo/arith/naivefp.c:229-270`). -/
def exec (m : ℕ → ℕ) : FpOp → ℕ
  | .setMpz _ z => setMpz p z
  | .setSi _ z => setMpz p z
  | .set0 _ => 0
  | .set1 _ => 1
  | .set _ a => m a
  | .add _ a b => add p (m a) (m b)
  | .sub _ a b => sub p (m a) (m b)
  | .neg _ a => neg p (m a)
  | .double _ a => double p (m a)
  | .halve _ a => halve p (m a)
  | .mul _ a b => mul p (m a) (m b)
  | .square _ a => square p (m a)
  | .mulMpz _ a z => mulMpz p (m a) z
  | .mulSi _ a z => mulMpz p (m a) z
  | .pow _ a n => powMpz p (m a) n
  | .invert _ a => invert p (m a)
  | .random _ z => z
  | .fromBytes _ data => fromBytes data

/-- Run a program. -/
def run (m : ℕ → ℕ) (prog : List FpOp) : ℕ → ℕ :=
  prog.foldl (fun m o => Function.update m o.dest (exec p m o)) m

end Naive

end Pbc
