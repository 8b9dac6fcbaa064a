import Verif.Model.Dispatch

/-!
# The lengths that a program asks for before it makes room for the bytes of an element

`int` is unbounded here.
-/

set_option autoImplicit false

namespace Pbc.Lengths

open Pbc.Dispatch

/-- `pairing_length_in_bytes_G1`, `_G2`, `_GT`, `_Zr` (`/repo/include/pbc_pairing.h:183-185, 206-208, 229-231, 236-238`) for the
group at the head of a tower; also `element_length_in_bytes` (`/repo/include/pbc_field.h:462-468`) if not negative. -/
def length {γ : Type} (t : List (Table γ)) : LenCell := topLen t

/-- `pairing_length_in_bytes_x_only_G1`, `_G2` (`/repo/include/pbc_pairing.h:191-193, 222-224`). -/
def lengthX {γ : Type} (t : List (Table γ)) : LenCell := (topLen t).map (Int.tdiv · 2)

/-- `pairing_length_in_bytes_compressed_G1`, `_G2` (`/repo/include/pbc_pairing.h:199-201, 214-216`). -/
def lengthC {γ : Type} (t : List (Table γ)) : LenCell := (topLen t).map (Int.tdiv · 2 + 1)

/-- `element_length_in_bytes_x_only` (`/repo/ecc/curve.c:838-841`) on a point: the length of the coordinate, for coordinates
of fixed length. -/
def elementX {γ : Type} (t : List (Table γ)) : LenCell := topLen t.tail

/-- `element_length_in_bytes_compressed` (`/repo/ecc/curve.c:815-818`). -/
def elementC {γ : Type} (t : List (Table γ)) : LenCell := (topLen t.tail).map (· + 1)

end Pbc.Lengths
