import Mathlib.Data.Int.Basic
import Mathlib.Data.Nat.Sqrt
import Mathlib.Data.Nat.Size
import Mathlib.Data.List.Basic

/-!
# Finding MNT and Freeman curves (`/repo/ecc/mnt.c`)

GMP integers are Lean integers.  `none` is a loop that has not ended when its fuel is used up, or the
process ending.  `pp` is the answer of `mpz_probab_prime_p(·, 10)`, `np` is `mpz_nextprime`.
-/

set_option autoImplicit false

namespace Pbc.Mnt

/-- The square factors of `N` (`/repo/ecc/mnt.c:39-48`): all `f ≥ 1` with `f² ≤ |N|` and `f² ∣ |N|`,
in order. -/
def squareFactors (N : ℤ) : List ℕ :=
  ((List.range (Nat.sqrt N.natAbs + 1)).drop 1).filter fun f => N.natAbs % (f * f) = 0

/-- The variables of the continued fraction loop (`/repo/ecc/mnt.c:50-60`). -/
structure CF where
  P1 : ℤ
  Q1 : ℤ
  a1 : ℤ
  p0 : ℤ
  p1 : ℤ
  q0 : ℤ
  q1 : ℤ
  d : ℤ
  deriving DecidableEq

/-- `a0` (`/repo/ecc/mnt.c:76`). -/
def root (D : ℤ) : ℤ := Nat.sqrt D.toNat

/-- The start of the expansion (`/repo/ecc/mnt.c:76-95`). -/
def cfStart (D : ℤ) : CF :=
  let a0 := root D
  let P1 := a0
  let Q1 := D - a0 * a0
  let a1 := Int.tdiv (a0 + P1) Q1
  ⟨P1, Q1, a1, a0, a0 * a1 + 1, 1, a1, -1⟩

/-- One more term of the expansion (`/repo/ecc/mnt.c:119-138`).  `mpz_divexact` is `Int.tdiv`: that
the division is exact is part of what is proved. -/
def cfStep (D : ℤ) (s : CF) : CF :=
  let P1 := s.a1 * s.Q1 - s.P1
  let Q1 := Int.tdiv (D - P1 * P1) s.Q1
  let a1 := Int.tdiv (root D + P1) Q1
  ⟨P1, Q1, a1, s.p1, a1 * s.p1 + s.p0, s.q1, a1 * s.q1 + s.q0, -s.d⟩

/-- The solutions recorded in one round (`/repo/ecc/mnt.c:97-114`). -/
def cfFound (N : ℤ) (s : CF) : List (ℤ × ℤ) :=
  if s.d = (if N > 0 then 1 else -1) then
    ((squareFactors N).filter fun f => s.Q1 = ((N.natAbs / (f * f) : ℕ) : ℤ)).map fun f : ℕ =>
      (s.p0 * (f : ℤ), s.q0 * (f : ℤ))
  else []

/-- The loop (`/repo/ecc/mnt.c:96-139`): the last state and the solutions. -/
def cfLoop (D N : ℤ) : ℕ → CF → List (ℤ × ℤ) → Option (CF × List (ℤ × ℤ))
  | 0, _, _ => none
  | f + 1, s, sols =>
    let sols := sols ++ cfFound N s
    if root D + root D = s.a1 ∧ s.d = 1 then some (s, sols)
    else cfLoop D N f (cfStep D s) sols

/-- `struct pell_solution_s` (`/repo/ecc/mnt.c:15-21`). -/
structure Pell where
  minx : ℤ
  miny : ℤ
  sols : List (ℤ × ℤ)
  deriving DecidableEq

/-- `general_pell` (`/repo/ecc/mnt.c:31-171`). -/
def generalPell (fuel : ℕ) (D N : ℤ) : Option Pell :=
  (cfLoop D N fuel (cfStart D) []).map fun out => ⟨out.1.p0, out.1.q0, out.2⟩

/-- The next solution (`/repo/ecc/mnt.c:325-335`, `:478-488`). -/
def advance (D : ℤ) (ps : Pell) (s : ℤ × ℤ) : ℤ × ℤ :=
  (ps.minx * s.1 + ps.miny * s.2 * D, ps.minx * s.2 + ps.miny * s.1)

/-- `pbc_cm_t` (`/repo/include/pbc_mnt.h`). -/
structure CM where
  k : ℕ
  D : ℤ
  q : ℤ
  r : ℤ
  h : ℤ
  n : ℤ
  deriving DecidableEq

/-- Divide out a prime (`/repo/ecc/mnt.c:245-248`, `:403-406`); fuel for the divisions. -/
def divOut (p : ℤ) : ℕ → ℤ × ℤ → Option (ℤ × ℤ)
  | 0, _ => none
  | f + 1, (r, cofac) =>
    if r % p = 0 then divOut p f (Int.tdiv r p, cofac * p) else some (r, cofac)

/-- The loop over the small primes (`/repo/ecc/mnt.c:244-262`, `:402-420`).  The inner `none` is a
cofactor with a prime of more than 16 bits. -/
def splitLoop (pp : ℤ → Bool) (np : ℤ → ℤ) : ℕ → ℤ → ℤ × ℤ → Option (Option (ℤ × ℤ))
  | 0, _, _ => none
  | f + 1, p, rc =>
    (divOut p (rc.1.natAbs + 1) rc).bind fun rc =>
      if pp rc.1 then some (some rc)
      else if Nat.size (np p).natAbs > 16 then some none
      else splitLoop pp np f (np p) rc

/-- The cofactor (`/repo/ecc/mnt.c:240-263`, `:398-421`). -/
def split (pp : ℤ → Bool) (np : ℤ → ℤ) (fuel : ℕ) (n : ℤ) : Option (Option (ℤ × ℤ)) :=
  if pp n then some (some (n, 1)) else splitLoop pp np fuel 2 (n, 1)

/-- `mnt_step2` up to the call-back (`/repo/ecc/mnt.c:202-274`); the inner `none` is a return without
a call. -/
def mntStep2 (pp : ℤ → Bool) (np : ℤ → ℤ) (fuel : ℕ) (D U : ℤ) : Option (Option CM) :=
  let l := U % 6
  if l ≠ 1 ∧ l ≠ 5 then some none
  else
    let d : ℤ := if l = 1 then 1 else -1
    let l := if l = 1 then U - 1 else U + 1
    let l := Int.tdiv l 3
    let q := l * l + 1
    if ¬ pp q then some none
    else
      let n := if d < 0 then q - l else q + l
      (split pp np fuel n).map fun rc => rc.map fun rc => ⟨6, D, q, rc.1, rc.2, n⟩

/-- `freeman_step2` up to the call-back (`/repo/ecc/mnt.c:345-432`).  `none` is also the call of
`pbc_die`. -/
def freemanStep2 (pp : ℤ → Bool) (np : ℤ → ℤ) (fuel : ℕ) (D U : ℤ) : Option (Option CM) :=
  let x := U % 15
  if x ≠ 5 ∧ x ≠ 10 then none
  else
    let x := if x = 5 then U - 5 else U + 5
    let x := Int.tdiv x 15
    let r := x * x
    let q := x + x
    let r := r * 5
    let q := q + r
    let r := r * x
    let q := q + r
    let r := r * x
    let q := q + r
    let q := q * 5
    let q := q + 3
    if ¬ pp q then some none
    else
      let n := x * 5
      let r := n * x
      let r := r + r
      let n := n + r
      let n := q - n
      let n := n - 2
      (split pp np fuel n).map fun rc => rc.map fun rc => ⟨10, D, q, rc.1, rc.2, n⟩

/-- The double loop of the searches (`/repo/ecc/mnt.c:314-337`, `:468-490`): the solutions are visited
in turn, each replaced by the next one, until the call-back (`stop`) asks to stop or a solution is
too long.  `todo` are the solutions of this round still to visit, `done` those already advanced.
Returns the curves reported, in order. -/
def searchLoop (step2 : ℤ → Option (Option CM)) (stop : CM → Bool) (bitlimit : ℕ) (D : ℤ) (ps : Pell) :
    ℕ → List (ℤ × ℤ) → List (ℤ × ℤ) → Option (List CM)
  | 0, _, _ => none
  | f + 1, done, [] => searchLoop step2 stop bitlimit D ps f [] done
  | f + 1, done, s :: todo =>
    (step2 s.1).bind fun cm =>
      if cm.any stop then some cm.toList
      else if 2 * Nat.size (advance D ps s).1.natAbs > bitlimit + 10 then some cm.toList
      else (searchLoop step2 stop bitlimit D ps f (done ++ [advance D ps s]) todo).map fun l =>
        cm.toList ++ l

/-- A search for a given coefficient and constant (`mpz_perfect_square_p` and `if (n)`); no solution,
no search. -/
def search (step2 : ℤ → Option (Option CM)) (stop : CM → Bool) (bitlimit : ℕ) (fuel : ℕ) (D N : ℤ) :
    Option (List CM) :=
  if root D * root D = D then some []
  else
    (generalPell fuel D N).bind fun ps =>
      if ps.sols = [] then some [] else searchLoop step2 stop bitlimit D ps fuel [] ps.sols

/-- `pbc_cm_search_d` (`/repo/ecc/mnt.c:288-343`): `D * 3` is computed as an `unsigned int`. -/
def searchD (pp : ℤ → Bool) (np : ℤ → ℤ) (stop : CM → Bool) (D bitlimit fuel : ℕ) : Option (List CM) :=
  search (mntStep2 pp np fuel D) stop bitlimit fuel ((D * 3 % 2 ^ 32 : ℕ) : ℤ) (-8)

/-- `pbc_cm_search_g` (`/repo/ecc/mnt.c:444-496`). -/
def searchG (pp : ℤ → Bool) (np : ℤ → ℤ) (stop : CM → Bool) (D bitlimit fuel : ℕ) : Option (List CM) :=
  search (freemanStep2 pp np fuel D) stop bitlimit fuel ((D : ℤ) * 15) (-20)

end Pbc.Mnt
