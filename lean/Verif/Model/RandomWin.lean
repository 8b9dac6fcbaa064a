import Verif.Model.Random

/-!
# Random numbers on Windows (`/repo/arith/init_random.win32.c`)

The system is a parameter: what the two calls that open the provider return, and for each call of `CryptGenRandom` either the
bytes it fills the buffer with, or that it failed and left the buffer as it was.
-/

set_option autoImplicit false

namespace Pbc.RandomWin

open Pbc.Random (byteCount mask)

/-- What the system does during one call. `open1`, `open2`: the error code of `CryptAcquireContext` without and with
`CRYPT_NEWKEYSET`, `none` if it succeeds (`/repo/arith/init_random.win32.c:16,19`). `gen`: the calls of `CryptGenRandom`
(`/repo/arith/init_random.win32.c:38`), `none` for a failing one. -/
structure System where
  open1 : Option ℕ
  open2 : Option ℕ
  gen : List (Option (List ℕ))

/-- Whether a provider is opened (`/repo/arith/init_random.win32.c:16-27`). -/
def opened (s : System) : Bool :=
  match s.open1 with
  | none => true
  | some e => if e = 0x80090016 then s.open2.isNone else false

/-- The loop (`/repo/arith/init_random.win32.c:36-44`). The return value of `CryptGenRandom` is not looked at. `none`: the
calls listed have been made and the next one is due. -/
def loop (limit : ℕ) (buf : List ℕ) : List (Option (List ℕ)) → Option ℕ
  | [] => none
  | c :: cs =>
    let buf' := mask limit (c.getD buf)
    let z := importBE buf'
    if z < limit then some z else loop limit buf' cs

/-- `win32_mpz_random` (`/repo/arith/init_random.win32.c:12-50`): the value of `r` afterwards; `old` is its value before, `junk`
what the fresh buffer holds. Without a provider a message is printed and `r` keeps its value. More bytes than `MAXDWORD`
fail the assertion. -/
def winRandom (s : System) (limit : ℕ) (junk : List ℕ) (old : ℕ) : Option ℕ :=
  if opened s then (if byteCount limit ≤ 0xffffffff then loop limit junk s.gen else none) else some old

end Pbc.RandomWin
