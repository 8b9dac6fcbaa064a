import Verif.Model.Bytes

/-!
# Random numbers from a file (`/repo/arith/random.c`)

The file is a list of bytes; the buffer keeps its old contents where a short read does not fill it.
-/

set_option autoImplicit false

namespace Pbc.Random

/-- The number of bits read: `mpz_sizeinbase(limit, 2)`, 1 for zero (`/repo/arith/random.c:37`). -/
def bits (limit : ℕ) : ℕ := if limit = 0 then 1 else Nat.size limit

/-- `bytecount` (`/repo/arith/random.c:38`). -/
def byteCount (limit : ℕ) : ℕ := (bits limit + 7) / 8

/-- `*bytes = *bytes % (1 << leftover)` if `leftover` (`/repo/arith/random.c:39,46-48`). -/
def mask (limit : ℕ) : List ℕ → List ℕ
  | [] => []
  | b :: rest => (if bits limit % 8 ≠ 0 then b % 2 ^ (bits limit % 8) else b) :: rest

/-- What a call ends with. -/
inductive Result
  /-- the value stored and the rest of the file -/
  | value (z : ℕ) (rest : List ℕ)
  /-- end of file: `r` is left unchanged, the file and the memory are not released -/
  | warn
  deriving DecidableEq

/-- The loop of `file_mpz_random` (`/repo/arith/random.c:41-51`).  `fread` reads what is there;
`!fread(…)` is true only if nothing was read.  Fuel counts rounds; each round consumes at least one
byte. -/
def loop (limit : ℕ) : ℕ → List ℕ → List ℕ → Option Result
  | 0, _, _ => none
  | f + 1, buf, file =>
    let got := file.take (byteCount limit)
    if got = [] then some .warn
    else
      let buf' := mask limit (got ++ buf.drop got.length)
      let z := importBE buf'
      if z < limit then some (.value z (file.drop (byteCount limit)))
      else loop limit f buf' (file.drop (byteCount limit))

/-- `file_mpz_random` (`/repo/arith/random.c:27-56`); `junk` is what the fresh buffer holds. -/
def fileRandom (limit : ℕ) (junk file : List ℕ) : Option Result :=
  loop limit (file.length + 1) junk file

/-- `pbc_mpz_randomb` (`/repo/arith/random.c:73-79`). -/
def fileRandomb (bits : ℕ) (junk file : List ℕ) : Option Result := fileRandom (2 ^ bits) junk file

end Pbc.Random
