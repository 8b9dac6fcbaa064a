import Mathlib.Data.Int.Basic
import Mathlib.Data.List.Basic

/-! # The program `/repo/gen/hilbertpoly.c`

`pbc_hilbert` is a parameter (it is modelled in `Verif/Model/Hilbert.lean`): the list of coefficients, lowest first. -/

set_option autoImplicit false

namespace Pbc.HilbertPoly

/-- An integer in base ten: `%d` of `printf`, and `mpz_out_str` with base 0. -/
def dec (z : ℤ) : List Char := if z < 0 then '-' :: Nat.toDigits 10 z.natAbs else Nat.toDigits 10 z.natAbs

/-- `xpow` (`/repo/gen/hilbertpoly.c:19-25`). -/
def xpow (degree : ℤ) : List Char :=
  if degree = 1 then ['X'] else if degree ≠ 0 then ['X', '^'] ++ dec degree else []

/-- The inner loop (`/repo/gen/hilbertpoly.c:45-52`), from `i - 1` down to 0; `none` is a read outside the list. -/
def terms (coefflist : List ℤ) : ℕ → Option (List Char)
  | 0 => some []
  | i + 1 =>
    match coefflist[i]? with
    | none => none
    | some c => (terms coefflist i).map fun rest =>
        (if 0 ≤ c then ['+'] else []) ++ dec c ++ xpow i ++ ['\n'] ++ rest

/-- What is printed for one list (`/repo/gen/hilbertpoly.c:39-52`). -/
def poly (coefflist : List ℤ) : Option (List Char) :=
  let n := coefflist.length
  (terms coefflist (n - 1)).map fun rest => [' '] ++ xpow ((n : ℤ) - 1) ++ ['\n'] ++ rest

/-- The outer loop (`/repo/gen/hilbertpoly.c:33-54`), `D ≤ Dlimit` with `k` values of `D` left: the discriminants with their
texts.  `none` is a run of `pbc_hilbert` that does not return. -/
def blocks (hilbert : ℤ → Option (List ℤ)) : ℤ → ℕ → Option (List (List Char))
  | _, 0 => some []
  | D, k + 1 =>
    let m := D % 4
    if m = 1 ∨ m = 2 then blocks hilbert (D + 1) k
    else (hilbert D).bind fun coefflist => (poly coefflist).bind fun p =>
      (blocks hilbert (D + 1) k).map fun rest => (['D', ' ', '=', ' '] ++ dec D ++ ['\n'] ++ p) :: rest

/-- `main` (`/repo/gen/hilbertpoly.c:27-57`); the arguments are what `atoi` gives.  `none`: `pbc_die`, `pbc_hilbert` does not
return, or `D` overflows. -/
def main (hilbert : ℤ → Option (List ℤ)) (lower upper : Option ℤ) : Option (List Char) :=
  let D := lower.getD 3
  if D ≤ 0 then none
  else
    let Dlimit := (lower.bind fun _ => upper).getD D
    if Dlimit = 2 ^ 31 - 1 then none
    else (blocks hilbert D (Dlimit + 1 - D).toNat).map List.flatten

end Pbc.HilbertPoly
