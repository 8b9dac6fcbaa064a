import Verif.Model.Mpn
import Mathlib.Data.Nat.Size

/-!
# Byte encodings of integers
-/

set_option autoImplicit false

namespace Pbc

/-- `mpz_import(z, n, 1, 1, 1, 0, data)`: big-endian bytes to a number
(used at `/repo/arith/montfp.c:507`, `/repo/arith/naivefp.c:217`, `/repo/arith/field.c:663`). -/
def importBE : List ℕ → ℕ := fun data => data.foldl (fun acc b => 256 * acc + b) 0

/-- `mpz_export(dst, NULL, 1, 1, 1, 0, z)`: the big-endian bytes of a positive number, without
leading zero bytes; `count` is the number of bytes (used at `/repo/arith/field.c:633`). -/
def exportBE (count z : ℕ) : List ℕ := (toLimbs 256 count z).reverse

/-- `pbc_mpz_out_raw_n` (`/repo/arith/field.c:629-638`).  `none` is the out-of-bounds write
`&data[n - count]` with `count > n`. -/
def outRawN (n z : ℕ) : Option (List ℕ) :=
  if z = 0 then some (List.replicate n 0)
  else
    let count := (Nat.size z + 7) / 8
    if n < count then none
    else some (List.replicate (n - count) 0 ++ exportBE count z)

/-- `fixed_length_in_bytes` of a prime field: `(mpz_sizeinbase(prime, 2) + 7) / 8`
(`/repo/arith/montfp.c:577`, `/repo/arith/naivefp.c:269`). -/
def fpLength (p : ℕ) : ℕ := (Nat.size p + 7) / 8

end Pbc
