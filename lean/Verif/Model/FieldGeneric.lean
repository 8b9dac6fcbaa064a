import Verif.Model.Bytes
import Mathlib.Algebra.Field.Basic
import Mathlib.Data.Nat.Prime.Infinite
import Mathlib.Data.Nat.Find
import Mathlib.Logic.Function.Basic

/-!
# The generic routines of `/repo/arith/field.c`

These routines call the field's own `mul`, `square`, `invert`, ... through function pointers.  The
model takes the element type as a Mathlib algebraic structure: what the concrete backends do is
modelled and related to that structure elsewhere (`Verif/Props/Fp.lean` for the prime fields).
Table lookups are list lookups that return `none` outside the table, so that a result `some _`
also says that no access was out of bounds.
-/

set_option autoImplicit false

namespace Pbc.Gen

/-- `mpz_sizeinbase(n, 2)` of GMP, exact for base 2: number of bits, and 1 for 0. -/
def bits (n : ℕ) : ℕ := if n = 0 then 1 else Nat.size n

section pow

/-- `element_square`: fields and curves have their own squaring routine, used by the generic
routines instead of `element_mul(x, x)`. -/
class Sqr (G : Type*) where
  /-- `element_square` -/
  sqr : G → G

export Sqr (sqr)

/-- `generic_square` (`/repo/arith/field.c:383-385`): `x * x`. -/
instance (priority := 50) genericSquare {G : Type*} [Mul G] : Sqr G := ⟨fun x => x * x⟩

variable {G : Type*} [Mul G] [One G] [Sqr G]

/-- `optimal_pow_window_size` (`/repo/arith/field.c:14-27`). -/
def windowSize (n : ℕ) : ℕ :=
  let e := bits n
  if e > 9065 then 8
  else if e > 3529 then 7
  else if e > 1324 then 6
  else if e > 474 then 5
  else if e > 157 then 4
  else if e > 47 then 3
  else 2

/-- The loop of `build_pow_window` (`/repo/arith/field.c:43-48`): `count` further entries, each
the previous one times `a`. -/
def windowFrom (a last : G) : ℕ → List G
  | 0 => [last]
  | count + 1 => last :: windowFrom a (last * a) count

/-- `build_pow_window` (`/repo/arith/field.c:30-51`): `lookup[0..2^k-1]`.  The C function returns
`NULL` for `k < 1`, which never happens with `windowSize`. -/
def buildWindow (a : G) (k : ℕ) : List G := windowFrom a 1 (2 ^ k - 1)

/-- The variables of `element_pow_wind` (`/repo/arith/field.c:68-73`). -/
structure WindState (G : Type*) where
  result : G
  inword : Bool
  word : ℕ
  wbits : ℕ

/-- One iteration of the loop of `element_pow_wind` (`/repo/arith/field.c:85-105`). -/
def windStep (n k : ℕ) (lookup : List G) (s : ℕ) (st : WindState G) : Option (WindState G) :=
  let result := sqr st.result
  let bit : ℕ := if n.testBit s then 1 else 0
  if !st.inword && bit = 0 then some { st with result := result }
  else
    let word := if !st.inword then 1 else 2 * st.word + bit
    let wbits := if !st.inword then 1 else st.wbits + 1
    if wbits = k ∨ s = 0 then
      match lookup[word]? with
      | none => none
      | some e => some ⟨result * e, false, word, wbits⟩
    else some ⟨result, true, word, wbits⟩

/-- `for (s = mpz_sizeinbase(n, 2) - 1; s >= 0; s--)` (`/repo/arith/field.c:85`). -/
def windLoop (n k : ℕ) (lookup : List G) : ℕ → WindState G → Option (WindState G)
  | 0, st => some st
  | s + 1, st =>
    match windStep n k lookup s st with
    | none => none
    | some st' => windLoop n k lookup s st'

/-- `element_pow_wind` (`/repo/arith/field.c:67-111`). -/
def powWind (n k : ℕ) (lookup : List G) : Option G :=
  if n = 0 then some 1
  else (windLoop n k lookup (bits n) ⟨1, false, 0, 0⟩).map (·.result)

/-- `generic_pow_mpz` (`/repo/arith/field.c:113-126`). -/
def powMpz (a : G) (n : ℕ) : Option G :=
  if n = 0 then some 1
  else
    let k := windowSize n
    powWind n k (buildWindow a k)

/-- Body of the loop of `element_pow2_mpz` (`/repo/arith/field.c:171-182`). -/
def pow2Step (a1 a2 a1a2 : G) (n1 n2 s : ℕ) (x : G) : G :=
  let x := sqr x
  if n1.testBit s then
    if n2.testBit s then x * a1a2 else x * a1
  else
    if n2.testBit s then x * a2 else x

/-- The loop of `element_pow2_mpz` (`/repo/arith/field.c:170-183`). -/
def pow2Loop (a1 a2 a1a2 : G) (n1 n2 : ℕ) : ℕ → G → G
  | 0, x => x
  | s + 1, x => pow2Loop a1 a2 a1a2 n1 n2 s (pow2Step a1 a2 a1a2 n1 n2 s x)

/-- `element_pow2_mpz` (`/repo/arith/field.c:153-189`). -/
def pow2 (a1 : G) (n1 : ℕ) (a2 : G) (n2 : ℕ) : G :=
  if n1 = 0 ∧ n2 = 0 then 1
  else
    let s1 := bits n1 - 1
    let s2 := bits n2 - 1
    let s := if s1 > s2 then s1 else s2
    pow2Loop a1 a2 (a1 * a2) n1 n2 (s + 1) 1

/-- The eight-entry table of `element_pow3_mpz` (`/repo/arith/field.c:204-214`). -/
def pow3Table (a1 a2 a3 : G) : List G :=
  [1, a1, a2, a1 * a2, a3, a1 * a3, a2 * a3, (a2 * a3) * a1]

/-- The loop of `element_pow3_mpz` (`/repo/arith/field.c:227-233`). -/
def pow3Loop (lookup : List G) (n1 n2 n3 : ℕ) : ℕ → G → Option G
  | 0, x => some x
  | s + 1, x =>
    let x := sqr x
    let b := (if n1.testBit s then 1 else 0) + (if n2.testBit s then 1 else 0) * 2
      + (if n3.testBit s then 1 else 0) * 4
    match lookup[b]? with
    | none => none
    | some e => pow3Loop lookup n1 n2 n3 s (x * e)

/-- `element_pow3_mpz` (`/repo/arith/field.c:191-241`). -/
def pow3 (a1 : G) (n1 : ℕ) (a2 : G) (n2 : ℕ) (a3 : G) (n3 : ℕ) : Option G :=
  if n1 = 0 ∧ n2 = 0 ∧ n3 = 0 then some 1
  else
    let s1 := bits n1 - 1
    let s2 := bits n2 - 1
    let s3 := bits n3 - 1
    let s := if s1 > s2 then (if s1 > s3 then s1 else s3) else (if s2 > s3 then s2 else s3)
    pow3Loop (pow3Table a1 a2 a3) n1 n2 n3 (s + 1) 1

/-- The struct `element_base_table` (`/repo/arith/field.c:243-249`): window width and rows. -/
structure BaseTable (G : Type*) where
  k : ℕ
  table : List (List G)

/-- One row of `element_build_base_table` (`/repo/arith/field.c:272-277`): `count` further
entries, each `m` times the previous one. -/
def rowFrom (m last : G) : ℕ → List G
  | 0 => [last]
  | count + 1 => last :: rowFrom m (m * last) count

/-- The rows of `element_build_base_table` (`/repo/arith/field.c:262-284`): each row is
`1, m, m², …, m^(2^k-1)` and the next multiplier is `m` times the last entry of the row. -/
def tableRows (k : ℕ) : ℕ → G → List (List G)
  | 0, _ => []
  | rows + 1, m =>
    let row := rowFrom m 1 (2 ^ k - 1)
    row :: tableRows k rows (m * row.getLastD 1)

/-- `element_build_base_table` (`/repo/arith/field.c:251-286`). -/
def buildTable (a : G) (bts k : ℕ) : BaseTable G := ⟨k, tableRows k (bts / k + 1) a⟩

/-- `default_element_pp_init` (`/repo/arith/field.c:333-340`): `k = 5`, one row more than
`bits(order) / 5`. -/
def ppInit (a : G) (order : ℕ) : BaseTable G := buildTable a (bits order) 5

/-- The word of a row (`/repo/arith/field.c:312-315`): `word |= tstbit(n, k*row + s) << s`. -/
def tableWord (n k row : ℕ) : ℕ → ℕ
  | 0 => 0
  | s + 1 => tableWord n k row s ||| ((if n.testBit (k * row + s) then 1 else 0) <<< s)

/-- The loop over the rows of `element_pow_base_table` (`/repo/arith/field.c:310-320`). -/
def tableLoop (t : BaseTable G) (n : ℕ) : ℕ → ℕ → G → Option G
  | 0, _, x => some x
  | rows + 1, row, x =>
    let word := tableWord n t.k row t.k
    if word > 0 then
      match (t.table[row]?).bind (·[word]?) with
      | none => none
      | some e => tableLoop t n rows (row + 1) (x * e)
    else tableLoop t n rows (row + 1) x

/-- `element_pow_base_table` (`/repo/arith/field.c:292-331`) with the `order` of the field the
element belongs to.  `none` is also the division by zero of `mpz_mod(n, n, 0)`, which happens in
the rings that declare order 0. -/
def powBaseTable (t : BaseTable G) (order n : ℕ) : Option G :=
  if n = 0 then some 1
  else
    if n > order ∧ order = 0 then none
    else
      let n := if n > order then n % order else n
      tableLoop t n (bits n / t.k + 1) 0 1

end pow

section aliasing
variable {G : Type*}

/-- `generic_sub` (`/repo/arith/field.c:445-456`) on a store of elements named by numbers: two
arguments are the same C object when their names are equal. -/
def sub [AddGroup G] (m : ℕ → G) (c a b : ℕ) : ℕ → G :=
  if c ≠ a then
    let m := Function.update m c (-(m b))
    Function.update m c (m c + m a)
  else
    let tmp := -(m b)
    Function.update m c (tmp + m a)

/-- `generic_div` (`/repo/arith/field.c:458-469`). -/
def div [DivInvMonoid G] (m : ℕ → G) (c a b : ℕ) : ℕ → G :=
  if c ≠ a then
    let m := Function.update m c (m b)⁻¹
    Function.update m c (m c * m a)
  else
    let tmp := (m b)⁻¹
    Function.update m c (tmp * m a)

end aliasing

section hash

/-- The filling loop of `pbc_mpz_from_hash` (`/repo/arith/field.c:649-662`).  `room` is
`count - i`.  The counter is an `unsigned char`. -/
def hashFill (data : List ℕ) (room counter : ℕ) : List ℕ :=
  if _h : data.length ≥ room then data.take room
  else
    let room' := room - data.length - 1
    if room' = 0 then data ++ [counter]
    else data ++ counter :: hashFill data room' ((counter + 1) % 256)
termination_by room

/-- The final loop of `pbc_mpz_from_hash` (`/repo/arith/field.c:664-666`). -/
def hashShift (limit z : ℕ) : ℕ :=
  if _h : z > limit then hashShift limit (z / 2) else z
termination_by z

/-- `pbc_mpz_from_hash` (`/repo/arith/field.c:643-668`): the buffer has
`(mpz_sizeinbase(limit, 2) + 7) / 8` bytes. -/
def fromHash (limit : ℕ) (data : List ℕ) : ℕ :=
  hashShift limit (importBE (hashFill data ((bits limit + 7) / 8) 0))

end hash

section tonelli
variable {K : Type*} [Field K] [DecidableEq K]

/-- The loop of `element_tonelli` over `i = 2 … s` (`/repo/arith/field.c:694-701`).  `steps`
iterations remain, `i` is the next index; `mpz_setbit(e, i - 1)` is a bitwise or. -/
def tonelliLoop (q : ℕ) (a ginv : K) : ℕ → ℕ → ℕ → ℕ
  | 0, _, e => e
  | steps + 1, i, e =>
    let t0 := (q - 1) / 2 ^ i
    let e0 := (ginv ^ e * a) ^ t0
    tonelliLoop q a ginv steps (i + 1) (if e0 ≠ 1 then e ||| 2 ^ (i - 1) else e)

/-- `mpz_scan1(t, 0)`: the number of trailing zero bits of `t > 0`, found by a search with `fuel`
steps. -/
def scan1 : ℕ → ℕ → ℕ
  | 0, _ => 0
  | fuel + 1, t => if t % 2 = 1 then 0 else scan1 fuel (t / 2) + 1

/-- `element_tonelli` (`/repo/arith/field.c:672-720`) with the field order `q` and the nonresidue
`nqr` of the field. -/
def tonelli (q : ℕ) (nqr a : K) : K :=
  let ginv := nqr⁻¹
  let s := scan1 q (q - 1)
  let t := (q - 1) / 2 ^ s
  let e := tonelliLoop q a ginv (s - 1) 2 0
  let e0 := ginv ^ e * a
  let t := (t + 1) / 2
  let e := e / 2
  nqr ^ e * e0 ^ t

end tonelli

section text

/-- `isspace` in the C locale, on a byte. -/
def isSpace (c : ℕ) : Bool := c = 32 || (9 ≤ c && c ≤ 13)

/-- The digit value of a character (`/repo/arith/field.c:740-747`). -/
def digitVal (c : ℕ) : Option ℕ :=
  if 48 ≤ c ∧ c ≤ 57 then some (c - 48)
  else if 65 ≤ c ∧ c ≤ 90 then some (c - 65 + 10)
  else if 97 ≤ c ∧ c ≤ 122 then some (c - 97 + 10)
  else none

/-- The loop of `pbc_mpz_set_str` (`/repo/arith/field.c:732-753`).  The string is the list of
its bytes, ended by the end of the list or by a 0 byte. -/
def setStrLoop (b : ℕ) : List ℕ → ℕ → ℕ → ℕ × ℕ
  | [], z, i => (z, i)
  | c :: s, z, i =>
    if c = 0 then (z, i)
    else if isSpace c then setStrLoop b s z (i + 1)
    else match digitVal c with
      | none => (z, i)
      | some j => if j ≥ b then (z, i) else setStrLoop b s (z * b + j) (i + 1)

/-- `pbc_mpz_set_str` (`/repo/arith/field.c:725-755`): value and number of characters read. -/
def setStr (s : List ℕ) (base : ℕ) : ℕ × ℕ :=
  if base = 0 then setStrLoop 10 s 0 0
  else if base < 2 ∨ base > 36 then (0, 0)
  else setStrLoop base s 0 0

variable {σ : Type*}

/-- The tail of `pbc_mpz_trickle` (`/repo/arith/field.c:833-838`): `len` zeros and the last
digit.  The callback `f` is a state machine: state and character to new state and return value. -/
def trickleTail (f : σ → ℕ → σ × ℕ) : ℕ → ℕ → σ → σ × ℕ
  | 0, z, st => f st (48 + z)
  | len + 1, z, st =>
    let (st, res) := f st 48
    if res ≠ 0 then (st, res) else trickleTail f len z st

/-- The main loop of `pbc_mpz_trickle` (`/repo/arith/field.c:826-832`).  `none` is the inexact
`mpz_divexact_ui(d, d, base)` or a negative `len`. -/
def trickleLoop (f : σ → ℕ → σ × ℕ) (base : ℕ) : ℕ → ℕ → ℕ → σ → Option (σ × ℕ)
  | 0, d, z, st =>
    if base ≤ z then
      let (st, res) := f st (48 + z / d)
      if res ≠ 0 then some (st, res) else none
    else some (trickleTail f 0 z st)
  | len + 1, d, z, st =>
    if base ≤ z then
      let (st, res) := f st (48 + z / d)
      if res ≠ 0 then some (st, res)
      else if d % base ≠ 0 then none
      else trickleLoop f base len (d / base) (z % d) st
    else some (trickleTail f (len + 1) z st)

/-- `pbc_mpz_trickle` (`/repo/arith/field.c:808-845`); `len` is what `mpz_sizeinbase(n, base)`
returned, which for bases other than powers of two may be one more than the number of digits. -/
def trickle (f : σ → ℕ → σ × ℕ) (base len n : ℕ) (st : σ) : Option (σ × ℕ) :=
  let base := if base = 0 then 10 else base
  if base < 2 ∨ base > 10 then some (st, 1)
  else
    let d := base ^ len
    if d > n then trickleLoop f base (len - 1) (d / base) n st
    else trickleLoop f base len d n st

end text

section trial
variable {σ : Type*}

open Classical in
/-- `mpz_nextprime` (exact here; GMP uses a probabilistic test). -/
noncomputable def nextPrime (p : ℕ) : ℕ := Nat.find (Nat.exists_infinite_primes (p + 1))

/-- The inner loop of `pbc_trial_divide` (`/repo/arith/field.c:785-788`), entered when `p ∣ m`.
Returns the cofactor and the multiplicity; `none` when `fuel` iterations are not enough. -/
def divOut (p : ℕ) : ℕ → ℕ → ℕ → Option (ℕ × ℕ)
  | 0, _, _ => none
  | fuel + 1, m, mul =>
    let m := m / p
    let mul := mul + 1
    if p ∣ m then divOut p fuel m mul else some (m, mul)

/-- `if (limit && mpz_cmp(p, limit) > 0) mpz_set(p, m);` (`/repo/arith/field.c:780-782`). -/
def overLimit (limit : Option ℕ) (m p : ℕ) : ℕ :=
  match limit with
  | none => p
  | some l => if p > l then m else p

open Classical in
/-- The loop of `pbc_trial_divide` (`/repo/arith/field.c:776-798`); `limit = none` is the `NULL`
limit; the primality test is taken to be exact.  `none` when `fuel` iterations are not enough. -/
noncomputable def trialLoop (f : σ → ℕ → ℕ → σ × Bool) (limit : Option ℕ) :
    ℕ → ℕ → ℕ → σ → Option (σ × ℕ)
  | 0, _, _, _ => none
  | fuel + 1, p, m, st =>
    if m = 1 then some (st, 0)
    else
      let p := if m.Prime then m else p
      let p := overLimit limit m p
      if p ∣ m then
        match divOut p fuel m 0 with
        | none => none
        | some (m', mul) =>
          let (st, abort) := f st p mul
          if abort then some (st, 1) else trialLoop f limit fuel (nextPrime p) m' st
      else trialLoop f limit fuel (nextPrime p) m st

/-- `pbc_trial_divide` (`/repo/arith/field.c:760-804`). -/
noncomputable def trialDivide (f : σ → ℕ → ℕ → σ × Bool) (limit : Option ℕ) (fuel n : ℕ) (st : σ) :
    Option (σ × ℕ) := trialLoop f limit fuel 2 n st

end trial

end Pbc.Gen
