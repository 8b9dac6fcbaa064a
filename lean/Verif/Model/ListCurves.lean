import Verif.Model.Mnt

/-! # The programs `/repo/gen/listmnt.c`, `/repo/gen/listfreeman.c`, `/repo/gen/gendparam.c` and `/repo/gen/gengparam.c` -/

set_option autoImplicit false

namespace Pbc.ListCurves

open Pbc.Mnt

/-- An `int` stored as `unsigned int`. -/
def toUnsigned (z : ℤ) : ℕ := (z % 2 ^ 32).toNat

/-- The loop of `main` (`/repo/gen/listmnt.c:33-38`): the discriminants tried, in order.  No number here reaches `2^32`. -/
def mntTried (maxD D : ℕ) : List ℕ :=
  if D < maxD then D :: (D + 1) :: mntTried maxD (D + 1 + 3) else []
termination_by maxD - D

/-- `main` (`/repo/gen/listmnt.c:20-41`) up to the searches; the argument is what `atoi` gives, `none` is `pbc_die`. -/
def mntMain (arg : Option ℤ) : Option (List ℕ) :=
  match arg with
  | none => some (mntTried 1000000000 7)
  | some z =>
    let D := toUnsigned z
    if D < 7 ∨ D % 4 ≠ 3 then none else some (mntTried 1000000000 D)

/-- The loop of `main` (`/repo/gen/listfreeman.c:32-36`). -/
def freemanTried (maxD D : ℕ) : List ℕ :=
  if D < maxD then (D + 43) :: (D + 67) :: freemanTried maxD (D + 120) else []
termination_by maxD - D

/-- `main` (`/repo/gen/listfreeman.c:21-39`) up to the searches. -/
def freemanMain (arg : Option ℤ) : Option (List ℕ) :=
  match arg with
  | none => some (freemanTried 1000000000 0)
  | some z =>
    let D := toUnsigned z
    if D % 120 ≠ 0 then none else some (freemanTried 1000000000 D)

/-- The lines printed by `consider` and `show` (`/repo/gen/listmnt.c:6-14`, `/repo/gen/listfreeman.c:6-14`) for the curves
that `find` (the search, which goes on after every curve) reports; `none` if a search does not end. -/
def lines (find : ℕ → Option (List CM)) : List ℕ → Option (List (ℕ × ℕ × ℕ))
  | [] => some []
  | D :: l => (find D).bind fun cms => (lines find l).map fun rest =>
    cms.map (fun cm => (D, Nat.size cm.q.natAbs, Nat.size cm.r.natAbs)) ++ rest

/-- The discriminant that `main` of `/repo/gen/gendparam.c:18-35` searches with; `none` is `pbc_die`.  `%` of C rounds towards
zero. -/
def gendD (arg : Option ℤ) : Option ℤ :=
  match arg with
  | none => some 9563
  | some D =>
    let m := Int.tmod D 4
    if D ≤ 0 ∨ m = 1 ∨ m = 2 then none else some D

/-- The discriminant that `main` of `/repo/gen/gengparam.c:16-34` searches with. -/
def gengD (arg : Option ℤ) : Option ℤ :=
  match arg with
  | none => some 35707
  | some D =>
    let m := Int.tmod D 120
    if D ≤ 0 ∨ (m ≠ 43 ∧ m ≠ 67) then none else some D

end Pbc.ListCurves
