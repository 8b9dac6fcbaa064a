import Mathlib.Data.Int.Basic
import Mathlib.Data.Nat.Basic

/-!
# Generating parameters (`/repo/ecc/a_param.c`, `e_param.c`, `f_param.c`)

`rand` is the sequence of answers of `rand()`, `mrand i limit` the answer of the `i`-th call of
`pbc_mpz_random` with that limit, `pp` the answer of `mpz_probab_prime_p`.  `none` is a loop that has
not ended when its fuel is used up, or a division by zero.
-/

set_option autoImplicit false

namespace Pbc.ParamGen

/-- The shape of a group order `2^exp2 + sign1 2^exp1 + sign0`. -/
structure Solinas where
  exp2 : ℕ
  exp1 : ℕ
  sign1 : ℤ
  sign0 : ℤ
  r : ℤ

/-- A random candidate for the order (`/repo/ecc/a_param.c:1513-1543`,
`/repo/ecc/e_param.c:930-963`) from the next three answers of `rand()`.  `none` when `exp2 - 1` is not
positive: `rand() % 0`, or a remainder by a negative number, which is not modelled. -/
def candidate (rbits : ℕ) (r1 r2 r3 : ℕ) : Option Solinas :=
  let exp2 := if r1 % 2 ≠ 0 then rbits - 1 else rbits
  let sign1 : ℤ := if r1 % 2 ≠ 0 then 1 else -1
  if exp2 ≤ 1 then none
  else
    let r : ℤ := 2 ^ exp2
    let exp1 := r2 % (exp2 - 1) + 1
    let q : ℤ := 2 ^ exp1
    let r := if sign1 > 0 then r + q else r - q
    if r3 % 2 ≠ 0 then some ⟨exp2, exp1, sign1, 1, r + 1⟩ else some ⟨exp2, exp1, sign1, -1, r - 1⟩

/-- The cofactor and `q` of type A (`/repo/ecc/a_param.c:1548-1555`). -/
def aTry (rbits qbits : ℤ) (mrand : ℕ → ℕ → ℕ) (c : ℕ) (r : ℤ) : ℤ × ℤ :=
  let bit := qbits - rbits - 4 + 1
  let bit := if bit < 3 then 3 else bit
  let h : ℤ := mrand c (2 ^ bit.toNat)
  let h := h * 12
  (h, h * r - 1)

/-- The cofactor and `q` of type E (`/repo/ecc/e_param.c:965-976`); `hbits` from `:913,923-924`. -/
def eTry (rbits qbits : ℤ) (mrand : ℕ → ℕ → ℕ) (c : ℕ) (r : ℤ) : ℤ × ℤ :=
  let hbits := Int.tdiv (qbits - 2) 2 - rbits
  let hbits := if hbits < 3 then 3 else hbits
  let h : ℤ := mrand c (2 ^ (hbits + 1).toNat)
  let h := h * h
  let h := h * 3
  (h, r * r * h + 1)

/-- The ten attempts (`/repo/ecc/a_param.c:1545-1560`, `/repo/ecc/e_param.c:965-981`): the pair found,
if any, and the number of the next call of `pbc_mpz_random`. -/
def attempts (pp : ℤ → Bool) (try_ : ℕ → ℤ × ℤ) : ℕ → ℕ → Option (ℤ × ℤ) × ℕ
  | 0, c => (none, c)
  | i + 1, c => if pp (try_ c).2 then (some (try_ c), c + 1) else attempts pp try_ i (c + 1)

/-- What is generated. -/
structure Result extends Solinas where
  h : ℤ
  q : ℤ

/-- The result of a successful round. -/
def finish (s : Solinas) (hq : ℤ × ℤ) : Result := { s with h := hq.1, q := hq.2 }

/-- The outer loop (`/repo/ecc/a_param.c:1511-1561`, `/repo/ecc/e_param.c:928-982`); `k` counts the
calls of `rand()`, `c` those of `pbc_mpz_random`. -/
def genLoop (pp : ℤ → Bool) (try_ : ℤ → ℕ → ℤ × ℤ) (rbits : ℕ) (rand : ℕ → ℕ) :
    ℕ → ℕ → ℕ → Option Result
  | 0, _, _ => none
  | f + 1, k, c =>
    (candidate rbits (rand k) (rand (k + 1)) (rand (k + 2))).bind fun s =>
      if ¬ pp s.r then genLoop pp try_ rbits rand f (k + 3) c
      else
        let a := attempts pp (try_ s.r) 10 c
        (a.1.map (finish s)).orElse fun _ => genLoop pp try_ rbits rand f (k + 3) a.2

/-- `pbc_param_init_a_gen` (`/repo/ecc/a_param.c:1504-1562`). -/
def aGen (pp : ℤ → Bool) (rand : ℕ → ℕ) (mrand : ℕ → ℕ → ℕ) (fuel rbits : ℕ) (qbits : ℤ) : Option Result :=
  genLoop pp (fun r c => aTry rbits qbits mrand c r) rbits rand fuel 0 0

/-- `pbc_param_init_e_gen` (`/repo/ecc/e_param.c:908-982`) up to the choice of `q`, `r` and `h`; the
curve coefficients are chosen by `CmGen.eCurve`. -/
def eGen (pp : ℤ → Bool) (rand : ℕ → ℕ) (mrand : ℕ → ℕ → ℕ) (fuel rbits : ℕ) (qbits : ℤ) : Option Result :=
  genLoop pp (fun r c => eTry rbits qbits mrand c r) rbits rand fuel 0 0

/-- The loop of `pbc_param_init_a1_gen` (`/repo/ecc/a_param.c:2312-2318`): `p` and `l`, an
`unsigned int`. -/
def a1Loop (pp : ℤ → Bool) (n : ℤ) : ℕ → ℤ → ℕ → Option (ℤ × ℕ)
  | 0, _, _ => none
  | f + 1, p, l => if pp p then some (p, l) else a1Loop pp n f (p + n) ((l + 4) % 2 ^ 32)

/-- `pbc_param_init_a1_gen` (`/repo/ecc/a_param.c:2300-2321`). -/
def a1Gen (pp : ℤ → Bool) (fuel : ℕ) (order : ℤ) : Option (ℤ × ℕ) :=
  a1Loop pp (order * 4) fuel (order * 4 - 1) 4

/-- `tryminusx` (`/repo/ecc/f_param.c:71-82`). -/
def tryminusx (x : ℤ) : ℤ :=
  let q := x - 1
  let q := q * x
  let q := q * 36
  let q := q + 24
  let q := q * x
  let q := q - 6
  let q := q * x
  q + 1

/-- `tryplusx` (`/repo/ecc/f_param.c:84-95`). -/
def tryplusx (x : ℤ) : ℤ :=
  let q := x + 1
  let q := q * x
  let q := q * 36
  let q := q + 24
  let q := q * x
  let q := q + 6
  let q := q * x
  q + 1

/-- `q`, `r` and the trace of a type F pairing. -/
structure BN where
  q : ℤ
  r : ℤ
  t : ℤ

/-- The loop of `pbc_param_init_f_gen` (`/repo/ecc/f_param.c:500-515`). -/
def fLoop (pp : ℤ → Bool) : ℕ → ℤ → Option BN
  | 0, _ => none
  | f + 1, x =>
    let t := x * x
    let t := t * 6
    let t := t + 1
    let q := tryminusx x
    let r := q - t + 1
    if pp q && pp r then some ⟨q, r, t⟩
    else
      let q := tryplusx x
      let r := q - t + 1
      if pp q && pp r then some ⟨q, r, t⟩ else fLoop pp f (x + 1)

/-- `pbc_param_init_f_gen` (`/repo/ecc/f_param.c:481-515`) up to the choice of `q` and `r`; the curve
and the tower (`:517-599`) are not modelled.  `none` also for a negative number of bits, where
`mpz_setbit` gets a huge position. -/
def fGen (pp : ℤ → Bool) (fuel : ℕ) (bits : ℤ) : Option BN :=
  let xbit := Int.tdiv (bits - 6) 4
  if xbit < 0 then none else fLoop pp fuel (2 ^ xbit.toNat)

end Pbc.ParamGen
