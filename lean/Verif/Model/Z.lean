import Verif.Model.Bytes
import Verif.Spec.RingProgram

/-!
# The integer ring (`/repo/arith/z.c`)

GMP integers are Lean integers.
-/

set_option autoImplicit false

namespace Pbc.Z

/-- The shift count that the argument `-1` of `z_halve` becomes (`mp_bitcnt_t` is a 64-bit unsigned
type; `/repo/arith/z.c:68`). -/
@[irreducible] def halveCount : ℕ := 2 ^ 64 - 1

/-- `z_halve` (`/repo/arith/z.c:67-69`): `mpz_tdiv_q_2exp(n, a, -1)`. -/
def halve (a : ℤ) : ℤ := Int.tdiv a (2 ^ halveCount)

/-- `z_pow_mpz` (`/repo/arith/z.c:83-85`): `mpz_get_ui` keeps the low 64 bits of `|z|`. -/
def powMpz (a z : ℤ) : ℤ := a ^ (z.natAbs % 2 ^ 64)

/-- `z_invert` (`/repo/arith/z.c:95-99`). -/
def invert (a : ℤ) : ℤ := if a.natAbs = 1 then a else 0

/-- `z_div` (`/repo/arith/z.c:101-103`); `none` is GMP's division by zero trap. -/
def div (a b : ℤ) : Option ℤ := if b = 0 then none else some (Int.tdiv a b)

/-- `z_is_sqr` (`/repo/arith/z.c:126-128`): `mpz_perfect_power_p`, true if the number is `x^k` for
some `k > 1`. -/
def isSqr (a : ℤ) : Prop := ∃ x : ℤ, ∃ k : ℕ, 1 < k ∧ a = x ^ k

/-- `z_sqrt` (`/repo/arith/z.c:130-132`); `none` is GMP's square root of a negative number trap. -/
def sqrt (a : ℤ) : Option ℤ := if a < 0 then none else some (Nat.sqrt a.natAbs : ℤ)

/-- `z_sgn` (`/repo/arith/z.c:46-49`). -/
def sgn (a : ℤ) : ℤ := a.sign

/-- `z_cmp` (`/repo/arith/z.c:122-124`). -/
def cmp (a b : ℤ) : ℤ := (a - b).sign

/-- One `element_*` call on elements of `Z`, kept in numbered variables
(`/repo/arith/z.c:26-103`: `set_si` 26-28, `set_mpz` 30-32, `set0` 34-36, `set1` 38-40, `add` 51-53,
`sub` 55-57, `square` 59-61, `double` 63-65, `halve` 67-69, `mul` 71-73, `mul_mpz` 75-77, `mul_si`
79-81, `set` 87-89, `neg` 91-93, `invert` 95-99, `div` 101-103). -/
def step (s : ℕ → ℤ) : Spec.RingOp → Option (ℕ → ℤ)
  | .setSi c z => some (Function.update s c z)
  | .setMpz c z => some (Function.update s c z)
  | .set0 c => some (Function.update s c 0)
  | .set1 c => some (Function.update s c 1)
  | .set c a => some (Function.update s c (s a))
  | .add c a b => some (Function.update s c (s a + s b))
  | .sub c a b => some (Function.update s c (s a - s b))
  | .neg c a => some (Function.update s c (- s a))
  | .double c a => some (Function.update s c (s a * 2))
  | .halve c a => some (Function.update s c (halve (s a)))
  | .mul c a b => some (Function.update s c (s a * s b))
  | .square c a => some (Function.update s c (s a * s a))
  | .mulMpz c a z => some (Function.update s c (s a * z))
  | .mulSi c a z => some (Function.update s c (s a * z))
  | .invert c a => some (Function.update s c (invert (s a)))
  | .div c a b => (div (s a) (s b)).map (Function.update s c)

/-- Run a program. -/
def run (s : ℕ → ℤ) : List Spec.RingOp → Option (ℕ → ℤ)
  | [] => some s
  | o :: rest => (step s o).bind fun s' => run s' rest

/-- A block of bytes written at a position of a buffer. -/
def writeAt (buf : ℕ → ℕ) (pos : ℕ) (l : List ℕ) : ℕ → ℕ := fun i =>
  if pos ≤ i ∧ i < pos + l.length then l.getD (i - pos) 0 else buf i

/-- `mpz_sizeinbase(z, 2)`: the number of bits of `|z|`, 1 for zero. -/
def sizeInBase2 (z : ℤ) : ℕ := if z = 0 then 1 else Nat.size z.natAbs

/-- The bytes `mpz_export` produces: none for zero. -/
def exported (z : ℤ) : List ℕ :=
  if z = 0 then [] else exportBE ((Nat.size z.natAbs + 7) / 8) z.natAbs

/-- `z_to_bytes` (`/repo/arith/z.c:143-166`) into a buffer whose contents are given; returns the
buffer and the count returned (an `int`, not wrapped here). -/
def toBytes (buf : ℕ → ℕ) (z : ℤ) : (ℕ → ℕ) × ℕ :=
  let msb := sizeInBase2 z
  let b1 := if msb % 8 = 0 then writeAt buf 4 [0] else buf
  let n := if msb % 8 = 0 then 5 else 4
  let b2 := writeAt b1 n (exported z)
  let b3 := if z < 0 then writeAt b2 4 [b2 4 ||| 128] else b2
  let n' := n + (msb + 7) / 8 - 4
  let b4 := writeAt b3 0
    [n' / 2 ^ 24 % 256, n' / 2 ^ 16 % 256, n' / 2 ^ 8 % 256, n' % 256]
  (b4, n' + 4)

/-- `z_from_bytes` (`/repo/arith/z.c:168-197`): the value, the buffer (the sign bit is cleared in the
caller's buffer) and the count returned. -/
def fromBytes (buf : ℕ → ℕ) : ℤ × (ℕ → ℕ) × ℕ :=
  let n := buf 0 * 2 ^ 24 + buf 1 * 2 ^ 16 + buf 2 * 2 ^ 8 + buf 3
  let neg := buf 4 &&& 128 ≠ 0
  let buf' := if neg then writeAt buf 4 [buf 4 &&& 127] else buf
  let z := (List.range n).foldl (fun z i => z + buf' (4 + i) * 2 ^ (8 * (n - 1 - i))) 0
  (if neg then - (z : ℤ) else z, buf', n)

/-- `z_length_in_bytes` (`/repo/arith/z.c:203-205`). -/
def lengthInBytes (z : ℤ) : ℕ := (sizeInBase2 z + 7) / 8 + 4

end Pbc.Z
