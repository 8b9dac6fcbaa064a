import Verif.Model.Bytes
import Mathlib.Data.Int.GCD

/-!
# `F_p` in one machine word (`/repo/arith/tinyfp.c`)

`W` is the number of values of an `unsigned long` (`pbc_mpui`, `/repo/include/pbc_utils.h:90-93`); with
`W = 2^64`, `unsigned long long` has the same width, so `*p * *q` is truncated to a word.
-/

set_option autoImplicit false

namespace Pbc.Tiny

/-- `fp_set_mpz` (`/repo/arith/tinyfp.c:29-37`). -/
def setMpz (p : ℕ) (z : ℤ) : ℕ := (z % (p : ℤ)).toNat

/-- `fp_set_si` (`/repo/arith/tinyfp.c:39-48`); the argument is a `long`.  The negation of the
smallest `long` overflows: `none`. -/
def setSi (W p : ℕ) (op : ℤ) : Option ℕ :=
  if op < 0 then
    if op.natAbs = W / 2 then none else some ((p + W - op.natAbs % p) % W)
  else some (op.natAbs % p)

/-- `fp_add` (`/repo/arith/tinyfp.c:85-97`). -/
def add (W p a b : ℕ) : ℕ :=
  let l0 := (a + b) % W
  let l1 := if l0 < a then (l0 + W - p) % W else l0
  l1 % p

/-- `fp_double` (`/repo/arith/tinyfp.c:99-109`).  `alias` says that the output is the input: then the
overflow test compares the doubled value with itself. -/
def double (W p : ℕ) («alias» : Bool) (a : ℕ) : ℕ :=
  let r := 2 * a % W
  let a' := if «alias» then r else a
  let r' := if r < a' then (r + W - p) % W else r
  r' % p

/-- `fp_sub` (`/repo/arith/tinyfp.c:111-122`). -/
def sub (W p a b : ℕ) : ℕ := if a ≥ b then a - b else ((p + W - b) % W + a) % W

/-- `fp_mul` (`/repo/arith/tinyfp.c:124-133`), `fp_square` (135-137). -/
def mul (W p a b : ℕ) : ℕ := a * b % W % p

/-- `fp_neg` (`/repo/arith/tinyfp.c:139-148`). -/
def neg (p a : ℕ) : ℕ := if a ≠ 0 then p - a else 0

/-- `fp_mul_si` (`/repo/arith/tinyfp.c:150-158`): the `long` is converted to `unsigned long`. -/
def mulSi (W p a : ℕ) (op : ℤ) : ℕ := ((a : ℤ) * op % (W : ℤ)).toNat % p

/-- `fp_pow_mpz` (`/repo/arith/tinyfp.c:160-168`), for a nonnegative exponent: `mpz_powm`. -/
def powMpz (p a n : ℕ) : ℕ := a ^ n % p

/-- `fp_invert` (`/repo/arith/tinyfp.c:176-184`): `mpz_invert` with the result in `[0, p)`. -/
def invert (p a : ℕ) : ℕ := (Nat.gcdA a p % (p : ℤ)).toNat

/-- `fp_cmp` (`/repo/arith/tinyfp.c:204-208`). -/
def cmp (a b : ℕ) : Bool := a ≠ b

/-- The loop that finds the length (`/repo/arith/tinyfp.c:294-302`); fuel for the at most 8 rounds. -/
def lengthLoop (W p : ℕ) : ℕ → ℕ → ℕ → Option ℕ
  | 0, _, _ => none
  | f + 1, l, n => if l < p then lengthLoop W p f ((l * 256 % W + 255) % W) (n + 1) else some n

/-- `fixed_length_in_bytes` (`/repo/arith/tinyfp.c:294-302`). -/
def length (W p : ℕ) : Option ℕ := lengthLoop W p 9 255 1

/-- `fp_to_bytes` (`/repo/arith/tinyfp.c:228-237`). -/
def toBytes (n a : ℕ) : List ℕ := (toLimbs 256 n a).reverse

/-- `fp_from_bytes` (`/repo/arith/tinyfp.c:239-250`). -/
def fromBytes (W : ℕ) (data : List ℕ) : ℕ := data.foldl (fun l b => (l * 256 % W + b) % W) 0

end Pbc.Tiny
