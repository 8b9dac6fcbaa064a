import Mathlib.Data.Rat.Defs
import Mathlib.Algebra.Order.Field.Rat
import Mathlib.Algebra.Field.Rat

/-! # `pbc_get_time` (`/repo/misc/get_time.c`, `/repo/misc/get_time.win32.c`)

`double` is taken as the rational numbers: rounding is left out.  The clock is an input. -/

set_option autoImplicit false

namespace Pbc.GetTime

/-- `struct timeval`. -/
structure Tv where
  sec : ℤ
  usec : ℤ
deriving DecidableEq

/-- The static variables (`/repo/misc/get_time.c:5-7`). -/
structure St where
  last : Tv
  first : Bool
  res : ℚ

/-- Before the first call. -/
def start : St := ⟨⟨0, 0⟩, true, 0⟩

/-- The difference of two numbers of type `long`, of `w` bits; `none` is overflow. -/
def subLong (w : ℕ) (a b : ℤ) : Option ℤ := if -2 ^ (w - 1) ≤ a - b ∧ a - b < 2 ^ (w - 1) then some (a - b) else none

/-- `pbc_get_time` (`/repo/misc/get_time.c:4-21`, `/repo/misc/get_time.win32.c:29-46`) when the clock shows `tv`. -/
def getTime (w : ℕ) (st : St) (tv : Tv) : Option (ℚ × St) :=
  if st.first then some (0, ⟨tv, false, st.res⟩)
  else
    (subLong w tv.sec st.last.sec).bind fun ds =>
    (subLong w tv.usec st.last.usec).bind fun du =>
    let res := st.res + ds
    let res := res + du / 1000000
    some (res, ⟨tv, false, res⟩)

/-- Successive calls: what they return. -/
def calls (w : ℕ) : St → List Tv → Option (List ℚ)
  | _, [] => some []
  | st, tv :: l => (getTime w st tv).bind fun p => (calls w p.2 l).map (p.1 :: ·)

/-- A number stored in a `long` of 32 bits. -/
def toLong (z : ℤ) : ℤ := (z + 2 ^ 31) % 2 ^ 32 - 2 ^ 31

/-- `gettimeofday` on Windows (`/repo/misc/get_time.win32.c:16-27`); `ns100` is the time since 1601 in units of 100 ns. -/
def winTv (ns100 : ℤ) : Tv :=
  ⟨toLong ((ns100 - 116444736000000000).tdiv 10000000), toLong ((ns100.tdiv 10).tmod 1000000)⟩

end Pbc.GetTime
