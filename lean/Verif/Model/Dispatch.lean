import Mathlib.Data.List.Basic
import Mathlib.Data.Int.Notation

/-!
# The table of operations of a field or group

Every element of the library points to a `struct field_s`, a table of function pointers
(`/repo/include/pbc_field.h:39-102`); the public operations `element_add`, `element_sqrt`, … only
jump through that table.  A table is filled in by `field_init` (`/repo/arith/field.c:569-617`),
which sets some members to defaults, and then by the set-up of the particular kind of field or
group.  The structure is not cleared first: a member that nobody sets keeps what the memory held.

The model follows which member gets which routine, statement by statement, and for each routine
which public operations it calls again: on elements of the same field (`self`) and on elements of
the field it is built over (`base`).  What the routines compute is modelled elsewhere
(`Verif/Model/*`).
-/

set_option autoImplicit false

namespace Pbc.Dispatch

/-- The members of `struct field_s` that are functions (`/repo/include/pbc_field.h:40-93`);
`lengthInBytes` stands for the public `element_length_in_bytes`, which first looks at
`fixed_length_in_bytes`. -/
inductive Op
  | fieldClear | init | clear | setMpz | setMultiz | set | set0 | set1
  | setStr | outStr | add | sub | mul | isSqr | sqrt | itemCount
  | item | getX | getY | setSi | addUi | mulMpz | mulSi | div
  | doub | multiDoub | multiAdd | halve | square | cubic | powMpz | invert
  | neg | random | fromHash | is1 | is0 | sign | cmp | toBytes
  | fromBytes | lengthInBytes | snprint | toMpz | outInfo | ppInit | ppClear | ppPow
  deriving DecidableEq, Repr

/-- A routine: its name, the public operations it calls on elements of its own field, those it
calls on elements of the field it is built over, and whether it is one of the defaults that
`field_init` describes as reading every integer as 0, converting every element to 0, always
drawing 0, printing `?` and reading every text as 0 (`/repo/arith/field.c:414-427,543-560`).
Where a routine calls different operations on different branches, all are listed. -/
structure Routine where
  name : String
  self : List Op
  base : List Op
  placeholder : Bool
  deriving DecidableEq, Repr

/-- What a member of the table holds: what the memory held before, or a routine. -/
inductive Cell (γ : Type)
  | stale (g : γ)
  | fn (r : Routine)
  deriving DecidableEq, Repr

/-- What the member `fixed_length_in_bytes` holds (`/repo/include/pbc_field.h:87`). -/
inductive LenCell
  | stale (z : ℤ)
  | val (z : ℤ)
  deriving DecidableEq, Repr

/-- The number in the cell, written or not. -/
def LenCell.get : LenCell → ℤ
  | .stale z => z
  | .val z => z

/-- A number computed from the cell; stale contents stay stale. -/
def LenCell.map (f : ℤ → ℤ) : LenCell → LenCell
  | .stale z => .stale (f z)
  | .val z => .val (f z)

/-- A `struct field_s` (`/repo/include/pbc_field.h:39-102`): the functions and the fixed length.
The other members (order, non-residue, name, private data) are not modelled here. -/
structure Table (γ : Type) where
  slot : Op → Cell γ
  len : LenCell

/-- The contents of the memory of a structure before it is set up. -/
structure Raw (γ : Type) where
  slot : Op → γ
  len : ℤ

/-- A structure before it is set up. -/
def fresh {γ : Type} (m : Raw γ) : Table γ := ⟨fun o => .stale (m.slot o), .stale m.len⟩

/-- A statement of a set-up function: `f->o = r;`, `f->dst = f->src;` and
`f->fixed_length_in_bytes = …;`. -/
inductive Stmt
  | put (o : Op) (r : Routine)
  | copy (dst src : Op)
  | len (c : LenCell)

/-- Execution of one statement. -/
def Stmt.exec {γ : Type} (t : Table γ) : Stmt → Table γ
  | .put o r => { t with slot := fun x => if x = o then .fn r else t.slot x }
  | .copy d s => { t with slot := fun x => if x = d then t.slot s else t.slot x }
  | .len c => { t with len := c }

/-- Execution of a list of statements. -/
def execAll {γ : Type} (t : Table γ) (l : List Stmt) : Table γ := l.foldl Stmt.exec t

/-- `field_init` (`/repo/arith/field.c:569-617`). -/
def fieldInit : List Stmt :=
  [.put .fieldClear ⟨"warn_field_clear", [], [], false⟩,
   .put .outInfo ⟨"generic_out_info", [], [], false⟩,
   .put .halve ⟨"generic_halve", [.init, .setSi, .invert, .mul, .clear], [], false⟩,
   .put .doub ⟨"generic_double", [.add], [], false⟩,
   .put .square ⟨"generic_square", [.mul], [], false⟩,
   .put .mulMpz ⟨"generic_mul_mpz", [.init, .setMpz, .mul, .clear], [], false⟩,
   .put .mulSi ⟨"generic_mul_si", [.init, .setSi, .mul, .clear], [], false⟩,
   .put .cmp ⟨"generic_cmp", [.lengthInBytes, .toBytes], [], false⟩,
   .put .sub ⟨"generic_sub", [.neg, .add, .init, .clear], [], false⟩,
   .put .div ⟨"generic_div", [.invert, .mul, .init, .clear], [], false⟩,
   .put .addUi ⟨"generic_add_ui", [.init, .setMpz, .add, .clear], [], false⟩,
   .put .toMpz ⟨"zero_to_mpz", [], [], true⟩,
   .put .setMpz ⟨"zero_set_mpz", [.set0], [], true⟩,
   .put .setMultiz ⟨"generic_set_multiz", [.setMpz], [], false⟩,
   .put .random ⟨"zero_random", [.set0], [], true⟩,
   .put .setSi ⟨"generic_set_si", [.setMpz], [], false⟩,
   .put .is1 ⟨"generic_is1", [.init, .set1, .cmp, .clear], [], false⟩,
   .put .is0 ⟨"generic_is0", [.init, .cmp, .clear], [], false⟩,
   .put .itemCount ⟨"generic_item_count", [], [], false⟩,
   .put .item ⟨"generic_item", [], [], false⟩,
   .put .getX ⟨"generic_get_x", [.item], [], false⟩,
   .put .getY ⟨"generic_get_y", [.item], [], false⟩,
   .put .powMpz ⟨"generic_pow_mpz", [.set1, .init, .set, .square, .mul, .clear], [], false⟩,
   .put .ppInit ⟨"default_element_pp_init", [.init, .set, .set1, .mul, .clear], [], false⟩,
   .put .ppClear ⟨"default_element_pp_clear", [.clear], [], false⟩,
   .put .ppPow ⟨"default_element_pp_pow", [.set1, .init, .set, .mul, .clear], [], false⟩,
   .put .snprint ⟨"default_element_snprint", [], [], true⟩,
   .put .setStr ⟨"default_element_set_str", [.set0], [], true⟩]

/-- `field_init_naive_fp` (`/repo/arith/naivefp.c:229-271`); `odd` says whether the modulus is odd,
`n` is its length in bytes. -/
def naiveFp (odd : Bool) (n : ℕ) : List Stmt :=
  [.put .init ⟨"zp_init", [], [], false⟩,
   .put .clear ⟨"zp_clear", [], [], false⟩,
   .put .setSi ⟨"zp_set_si", [], [], false⟩,
   .put .setMpz ⟨"zp_set_mpz", [], [], false⟩,
   .put .outStr ⟨"zp_out_str", [], [], false⟩,
   .put .snprint ⟨"zp_snprint", [], [], false⟩,
   .put .setStr ⟨"zp_set_str", [], [], false⟩,
   .put .sign (if odd then ⟨"zp_sgn_odd", [], [], false⟩ else ⟨"zp_sgn_even", [], [], false⟩),
   .put .add ⟨"zp_add", [], [], false⟩,
   .put .sub ⟨"zp_sub", [], [], false⟩,
   .put .set ⟨"zp_set", [], [], false⟩,
   .put .square ⟨"zp_square", [], [], false⟩,
   .put .doub ⟨"zp_double", [], [], false⟩,
   .put .halve ⟨"zp_halve", [], [], false⟩,
   .put .mul ⟨"zp_mul", [], [], false⟩,
   .put .mulMpz ⟨"zp_mul_mpz", [], [], false⟩,
   .put .mulSi ⟨"zp_mul_si", [], [], false⟩,
   .put .powMpz ⟨"zp_pow_mpz", [], [], false⟩,
   .put .neg ⟨"zp_neg", [], [], false⟩,
   .put .cmp ⟨"zp_cmp", [], [], false⟩,
   .put .invert ⟨"zp_invert", [], [], false⟩,
   .put .random ⟨"zp_random", [], [], false⟩,
   .put .fromHash ⟨"zp_from_hash", [], [], false⟩,
   .put .is1 ⟨"zp_is1", [], [], false⟩,
   .put .is0 ⟨"zp_is0", [], [], false⟩,
   .put .set0 ⟨"zp_set0", [], [], false⟩,
   .put .set1 ⟨"zp_set1", [], [], false⟩,
   .put .isSqr ⟨"zp_is_sqr", [], [], false⟩,
   .put .sqrt ⟨"element_tonelli", [.init, .invert, .powMpz, .mul, .is1, .random, .isSqr, .clear], [], false⟩,
   .put .fieldClear ⟨"zp_field_clear", [], [], false⟩,
   .put .toBytes ⟨"zp_to_bytes", [], [], false⟩,
   .put .fromBytes ⟨"zp_from_bytes", [], [], false⟩,
   .put .toMpz ⟨"zp_to_mpz", [], [], false⟩,
   .put .outInfo ⟨"zp_out_info", [], [], false⟩] ++
  [.len (.val n)]

/-- `field_init_fast_fp` (`/repo/arith/fastfp.c:346-389`). -/
def fastFp (odd : Bool) (n : ℕ) : List Stmt :=
  [.put .init ⟨"fp_init", [], [], false⟩,
   .put .clear ⟨"fp_clear", [], [], false⟩,
   .put .setSi ⟨"fp_set_si", [], [], false⟩,
   .put .setMpz ⟨"fp_set_mpz", [], [], false⟩,
   .put .outStr ⟨"fp_out_str", [], [], false⟩,
   .put .add ⟨"fp_add", [], [], false⟩,
   .put .sub ⟨"fp_sub", [], [], false⟩,
   .put .set ⟨"fp_set", [], [], false⟩,
   .put .mul ⟨"fp_mul", [], [], false⟩,
   .put .mulSi ⟨"fp_mul_si", [], [], false⟩,
   .put .square ⟨"fp_square", [], [], false⟩,
   .put .doub ⟨"fp_double", [], [], false⟩,
   .put .halve ⟨"fp_halve", [], [], false⟩,
   .put .powMpz ⟨"fp_pow_mpz", [], [], false⟩,
   .put .neg ⟨"fp_neg", [], [], false⟩,
   .put .cmp ⟨"fp_cmp", [], [], false⟩,
   .put .sign (if odd then ⟨"fp_sgn_odd", [], [], false⟩ else ⟨"fp_sgn_even", [], [], false⟩),
   .put .invert ⟨"fp_invert", [], [], false⟩,
   .put .random ⟨"fp_random", [], [], false⟩,
   .put .fromHash ⟨"fp_from_hash", [], [], false⟩,
   .put .is1 ⟨"fp_is1", [], [], false⟩,
   .put .is0 ⟨"fp_is0", [], [], false⟩,
   .put .set0 ⟨"fp_set0", [], [], false⟩,
   .put .set1 ⟨"fp_set1", [], [], false⟩,
   .put .isSqr ⟨"fp_is_sqr", [], [], false⟩,
   .put .sqrt ⟨"element_tonelli", [.init, .invert, .powMpz, .mul, .is1, .random, .isSqr, .clear], [], false⟩,
   .put .fieldClear ⟨"fp_field_clear", [], [], false⟩,
   .put .toBytes ⟨"fp_to_bytes", [], [], false⟩,
   .put .fromBytes ⟨"fp_from_bytes", [], [], false⟩,
   .put .toMpz ⟨"fp_to_mpz", [], [], false⟩] ++
  [.len (.val n)]

/-- `field_init_faster_fp` (`/repo/arith/fasterfp.c:508-554`). -/
def fasterFp (odd : Bool) (n : ℕ) : List Stmt :=
  [.put .init ⟨"fp_init", [], [], false⟩,
   .put .clear ⟨"fp_clear", [], [], false⟩,
   .put .setSi ⟨"fp_set_si", [], [], false⟩,
   .put .setMpz ⟨"fp_set_mpz", [], [], false⟩,
   .put .outStr ⟨"fp_out_str", [], [], false⟩,
   .put .add ⟨"fp_add", [], [], false⟩,
   .put .sub ⟨"fp_sub", [], [], false⟩,
   .put .set ⟨"fp_set", [], [], false⟩,
   .put .mul ⟨"fp_mul", [], [], false⟩,
   .put .mulSi ⟨"fp_mul_si", [], [], false⟩,
   .put .square ⟨"fp_square", [], [], false⟩,
   .put .doub ⟨"fp_double", [], [], false⟩,
   .put .halve ⟨"fp_halve", [], [], false⟩,
   .put .powMpz ⟨"fp_pow_mpz", [], [], false⟩,
   .put .neg ⟨"fp_neg", [], [], false⟩,
   .put .cmp ⟨"fp_cmp", [], [], false⟩,
   .put .sign (if odd then ⟨"fp_sgn_odd", [], [], false⟩ else ⟨"fp_sgn_even", [], [], false⟩),
   .put .invert ⟨"fp_invert", [], [], false⟩,
   .put .random ⟨"fp_random", [], [], false⟩,
   .put .fromHash ⟨"fp_from_hash", [], [], false⟩,
   .put .is1 ⟨"fp_is1", [], [], false⟩,
   .put .is0 ⟨"fp_is0", [], [], false⟩,
   .put .set0 ⟨"fp_set0", [], [], false⟩,
   .put .set1 ⟨"fp_set1", [], [], false⟩,
   .put .isSqr ⟨"fp_is_sqr", [], [], false⟩,
   .put .sqrt ⟨"element_tonelli", [.init, .invert, .powMpz, .mul, .is1, .random, .isSqr, .clear], [], false⟩,
   .put .fieldClear ⟨"fp_field_clear", [], [], false⟩,
   .put .toBytes ⟨"fp_to_bytes", [], [], false⟩,
   .put .fromBytes ⟨"fp_from_bytes", [], [], false⟩,
   .put .toMpz ⟨"fp_to_mpz", [], [], false⟩,
   .put .outInfo ⟨"fp_out_info", [], [], false⟩] ++
  [.len (.val n)]

/-- `field_init_mont_fp` (`/repo/arith/montfp.c:533-577`). -/
def montFp (n : ℕ) : List Stmt :=
  [.put .init ⟨"fp_init", [], [], false⟩,
   .put .clear ⟨"fp_clear", [], [], false⟩,
   .put .setSi ⟨"fp_set_si", [], [], false⟩,
   .put .setMpz ⟨"fp_set_mpz", [], [], false⟩,
   .put .outStr ⟨"fp_out_str", [], [], false⟩,
   .put .snprint ⟨"fp_snprint", [], [], false⟩,
   .put .setStr ⟨"fp_set_str", [], [], false⟩,
   .put .add ⟨"fp_add", [], [], false⟩,
   .put .sub ⟨"fp_sub", [], [], false⟩,
   .put .set ⟨"fp_set", [], [], false⟩,
   .put .mul ⟨"fp_mul", [], [], false⟩,
   .put .doub ⟨"fp_double", [], [], false⟩,
   .put .halve ⟨"fp_halve", [], [], false⟩,
   .put .powMpz ⟨"fp_pow_mpz", [], [], false⟩,
   .put .neg ⟨"fp_neg", [], [], false⟩,
   .put .sign ⟨"fp_sgn_odd", [], [], false⟩,
   .put .cmp ⟨"fp_cmp", [], [], false⟩,
   .put .invert ⟨"fp_invert", [], [], false⟩,
   .put .random ⟨"fp_random", [], [], false⟩,
   .put .fromHash ⟨"fp_from_hash", [], [], false⟩,
   .put .is1 ⟨"fp_is1", [], [], false⟩,
   .put .is0 ⟨"fp_is0", [], [], false⟩,
   .put .set0 ⟨"fp_set0", [], [], false⟩,
   .put .set1 ⟨"fp_set1", [], [], false⟩,
   .put .isSqr ⟨"fp_is_sqr", [], [], false⟩,
   .put .sqrt ⟨"element_tonelli", [.init, .invert, .powMpz, .mul, .is1, .random, .isSqr, .clear], [], false⟩,
   .put .fieldClear ⟨"fp_field_clear", [], [], false⟩,
   .put .toBytes ⟨"fp_to_bytes", [], [], false⟩,
   .put .fromBytes ⟨"fp_from_bytes", [], [], false⟩,
   .put .toMpz ⟨"fp_to_mpz", [], [], false⟩,
   .put .outInfo ⟨"fp_out_info", [], [], false⟩] ++
  [.len (.val n)]

/-- `field_init_tiny_fp` (`/repo/arith/tinyfp.c:254-304`). -/
def tinyFp (n : ℕ) : List Stmt :=
  [.put .init ⟨"fp_init", [], [], false⟩,
   .put .clear ⟨"fp_clear", [], [], false⟩,
   .put .setSi ⟨"fp_set_si", [], [], false⟩,
   .put .setMpz ⟨"fp_set_mpz", [], [], false⟩,
   .put .outStr ⟨"fp_out_str", [], [], false⟩,
   .put .add ⟨"fp_add", [], [], false⟩,
   .put .sub ⟨"fp_sub", [], [], false⟩,
   .put .set ⟨"fp_set", [], [], false⟩,
   .put .mul ⟨"fp_mul", [], [], false⟩,
   .put .mulSi ⟨"fp_mul_si", [], [], false⟩,
   .put .square ⟨"fp_square", [], [], false⟩,
   .put .doub ⟨"fp_double", [], [], false⟩,
   .put .powMpz ⟨"fp_pow_mpz", [], [], false⟩,
   .put .neg ⟨"fp_neg", [], [], false⟩,
   .put .cmp ⟨"fp_cmp", [], [], false⟩,
   .put .sign ⟨"fp_sgn_odd", [], [], false⟩,
   .put .invert ⟨"fp_invert", [], [], false⟩,
   .put .random ⟨"fp_random", [], [], false⟩,
   .put .fromHash ⟨"fp_from_hash", [], [], false⟩,
   .put .is1 ⟨"fp_is1", [], [], false⟩,
   .put .is0 ⟨"fp_is0", [], [], false⟩,
   .put .set0 ⟨"fp_set0", [], [], false⟩,
   .put .set1 ⟨"fp_set1", [], [], false⟩,
   .put .isSqr ⟨"fp_is_sqr", [], [], false⟩,
   .put .sqrt ⟨"element_tonelli", [.init, .invert, .powMpz, .mul, .is1, .random, .isSqr, .clear], [], false⟩,
   .put .fieldClear ⟨"fp_field_clear", [], [], false⟩,
   .put .toBytes ⟨"fp_to_bytes", [], [], false⟩,
   .put .fromBytes ⟨"fp_from_bytes", [], [], false⟩,
   .put .toMpz ⟨"fp_to_mpz", [], [], false⟩] ++
  [.len (.val n)]

/-- `field_init_z` (`/repo/arith/z.c:221-263`). -/
def zRing : List Stmt :=
  [.put .init ⟨"z_init", [], [], false⟩,
   .put .clear ⟨"z_clear", [], [], false⟩,
   .put .setSi ⟨"z_set_si", [], [], false⟩,
   .put .setMpz ⟨"z_set_mpz", [], [], false⟩,
   .put .setStr ⟨"z_set_str", [], [], false⟩,
   .put .outStr ⟨"z_out_str", [], [], false⟩,
   .put .sign ⟨"z_sgn", [], [], false⟩,
   .put .add ⟨"z_add", [], [], false⟩,
   .put .sub ⟨"z_sub", [], [], false⟩,
   .put .set ⟨"z_set", [], [], false⟩,
   .put .square ⟨"z_square", [], [], false⟩,
   .put .doub ⟨"z_double", [], [], false⟩,
   .put .halve ⟨"z_halve", [], [], false⟩,
   .put .mul ⟨"z_mul", [], [], false⟩,
   .put .mulMpz ⟨"z_mul_mpz", [], [], false⟩,
   .put .mulSi ⟨"z_mul_si", [], [], false⟩,
   .put .powMpz ⟨"z_pow_mpz", [], [], false⟩,
   .put .neg ⟨"z_neg", [], [], false⟩,
   .put .cmp ⟨"z_cmp", [], [], false⟩,
   .put .invert ⟨"z_invert", [], [], false⟩,
   .put .div ⟨"z_div", [], [], false⟩,
   .put .random ⟨"z_random", [], [], false⟩,
   .put .fromHash ⟨"z_from_hash", [], [], false⟩,
   .put .is1 ⟨"z_is1", [], [], false⟩,
   .put .is0 ⟨"z_is0", [], [], false⟩,
   .put .set0 ⟨"z_set0", [], [], false⟩,
   .put .set1 ⟨"z_set1", [], [], false⟩,
   .put .isSqr ⟨"z_is_sqr", [], [], false⟩,
   .put .sqrt ⟨"z_sqrt", [], [], false⟩,
   .put .fieldClear ⟨"z_field_clear", [], [], false⟩,
   .put .toBytes ⟨"z_to_bytes", [], [], false⟩,
   .put .fromBytes ⟨"z_from_bytes", [], [], false⟩,
   .put .toMpz ⟨"z_to_mpz", [], [], false⟩,
   .put .lengthInBytes ⟨"z_length_in_bytes", [], [], false⟩,
   .put .outInfo ⟨"z_out_info", [], [], false⟩] ++
  [.len (.val (-1))]

/-- `field_init_multiz` (`/repo/arith/multiz.c:536-574`). -/
def multizRing : List Stmt :=
  [.put .init ⟨"f_init", [], [], false⟩,
   .put .clear ⟨"f_clear", [], [], false⟩,
   .put .setSi ⟨"f_set_si", [], [], false⟩,
   .put .setMpz ⟨"f_set_mpz", [], [], false⟩,
   .put .setMultiz ⟨"f_set_multiz", [], [], false⟩,
   .put .setStr ⟨"f_set_str", [], [], false⟩,
   .put .outStr ⟨"f_out_str", [], [], false⟩,
   .put .sign ⟨"f_sgn", [], [], false⟩,
   .put .add ⟨"f_add", [], [], false⟩,
   .put .sub ⟨"f_sub", [], [], false⟩,
   .put .set ⟨"f_set", [], [], false⟩,
   .put .mul ⟨"f_mul", [], [], false⟩,
   .put .mulMpz ⟨"f_mul_mpz", [], [], false⟩,
   .put .mulSi ⟨"f_mul_si", [], [], false⟩,
   .put .neg ⟨"f_neg", [], [], false⟩,
   .put .cmp ⟨"f_cmp", [], [], false⟩,
   .put .div ⟨"f_div", [.toMpz], [], false⟩,
   .put .random ⟨"f_random", [], [], false⟩,
   .put .fromHash ⟨"f_from_hash", [], [], false⟩,
   .put .is1 ⟨"f_is1", [], [], false⟩,
   .put .is0 ⟨"f_is0", [], [], false⟩,
   .put .set0 ⟨"f_set0", [], [], false⟩,
   .put .set1 ⟨"f_set1", [], [], false⟩,
   .put .fieldClear ⟨"f_field_clear", [], [], false⟩,
   .put .toBytes ⟨"z_to_bytes", [], [], false⟩,
   .put .fromBytes ⟨"z_from_bytes", [], [], false⟩,
   .put .toMpz ⟨"f_to_mpz", [], [], false⟩,
   .put .lengthInBytes ⟨"z_length_in_bytes", [], [], false⟩,
   .put .item ⟨"f_item", [], [], false⟩,
   .put .itemCount ⟨"f_item_count", [], [], false⟩,
   .put .outInfo ⟨"f_out_info", [], [], false⟩] ++
  [.len (.val (-1))]

/-- `field_init_quadratic` (`/repo/arith/fieldquadratic.c:592-642`); `b` is the base field's
`fixed_length_in_bytes`. -/
def quadratic (b : LenCell) : List Stmt :=
  [.put .fieldClear ⟨"field_clear_fq", [], [], false⟩,
   .put .init ⟨"fq_init", [], [.init], false⟩,
   .put .clear ⟨"fq_clear", [], [.clear], false⟩,
   .put .setSi ⟨"fq_set_si", [], [.setSi, .set0], false⟩,
   .put .setMpz ⟨"fq_set_mpz", [], [.setMpz, .set0], false⟩,
   .put .toMpz ⟨"fq_to_mpz", [], [.toMpz], false⟩,
   .put .outStr ⟨"fq_out_str", [], [.outStr], false⟩,
   .put .snprint ⟨"fq_snprint", [], [.snprint], false⟩,
   .put .setMultiz ⟨"fq_set_multiz", [], [.setMultiz, .set0], false⟩,
   .put .setStr ⟨"fq_set_str", [.set0], [.setStr], false⟩,
   .put .sign ⟨"fq_sign", [], [.sign], false⟩,
   .put .add ⟨"fq_add", [], [.add], false⟩,
   .put .sub ⟨"fq_sub", [], [.sub], false⟩,
   .put .set ⟨"fq_set", [], [.set], false⟩,
   .put .mul ⟨"fq_mul", [], [.init, .random, .isSqr, .add, .mul, .sub, .clear], false⟩,
   .put .mulMpz ⟨"fq_mul_mpz", [], [.mulMpz], false⟩,
   .put .mulSi ⟨"fq_mul_si", [], [.mulSi], false⟩,
   .put .square ⟨"fq_square", [], [.init, .random, .isSqr, .square, .mul, .add, .doub, .set, .clear], false⟩,
   .put .doub ⟨"fq_double", [], [.doub], false⟩,
   .put .neg ⟨"fq_neg", [], [.neg], false⟩,
   .put .cmp ⟨"fq_cmp", [], [.cmp], false⟩,
   .put .invert ⟨"fq_invert", [], [.init, .random, .isSqr, .square, .mul, .sub, .invert, .neg, .clear], false⟩,
   .put .random ⟨"fq_random", [], [.random], false⟩,
   .put .fromHash ⟨"fq_from_hash", [], [.fromHash], false⟩,
   .put .is1 ⟨"fq_is1", [], [.is1, .is0], false⟩,
   .put .is0 ⟨"fq_is0", [], [.is0], false⟩,
   .put .set0 ⟨"fq_set0", [], [.set0], false⟩,
   .put .set1 ⟨"fq_set1", [], [.set1, .set0], false⟩,
   .put .isSqr ⟨"fq_is_sqr", [], [.init, .random, .isSqr, .square, .mul, .sub, .clear], false⟩,
   .put .sqrt ⟨"fq_sqrt", [], [.init, .random, .isSqr, .square, .mul, .sub, .sqrt, .add, .setSi, .invert, .set, .clear], false⟩,
   .put .toBytes ⟨"fq_to_bytes", [], [.toBytes], false⟩,
   .put .fromBytes ⟨"fq_from_bytes", [], [.fromBytes], false⟩,
   .put .outInfo ⟨"fq_out_info", [], [.init, .random, .isSqr, .outStr, .outInfo], false⟩,
   .put .itemCount ⟨"fq_item_count", [], [], false⟩,
   .put .item ⟨"fq_item", [], [], false⟩,
   .put .getX ⟨"fq_get_x", [], [], false⟩,
   .put .getY ⟨"fq_get_y", [], [], false⟩] ++
  (if b.get < 0 then [.put .lengthInBytes ⟨"fq_length_in_bytes", [], [.lengthInBytes], false⟩, .len (.val (-1))]
   else [.len (b.map (2 * ·))])

/-- `field_init_fi` (`/repo/arith/fieldquadratic.c:644-693`). -/
def fi (b : LenCell) : List Stmt :=
  [.put .fieldClear ⟨"field_clear_fi", [], [], false⟩,
   .put .init ⟨"fq_init", [], [.init], false⟩,
   .put .clear ⟨"fq_clear", [], [.clear], false⟩,
   .put .setSi ⟨"fq_set_si", [], [.setSi, .set0], false⟩,
   .put .setMpz ⟨"fq_set_mpz", [], [.setMpz, .set0], false⟩,
   .put .toMpz ⟨"fq_to_mpz", [], [.toMpz], false⟩,
   .put .outStr ⟨"fq_out_str", [], [.outStr], false⟩,
   .put .snprint ⟨"fq_snprint", [], [.snprint], false⟩,
   .put .setMultiz ⟨"fq_set_multiz", [], [.setMultiz, .set0], false⟩,
   .put .setStr ⟨"fq_set_str", [.set0], [.setStr], false⟩,
   .put .sign ⟨"fq_sign", [], [.sign], false⟩,
   .put .add ⟨"fq_add", [], [.add], false⟩,
   .put .sub ⟨"fq_sub", [], [.sub], false⟩,
   .put .set ⟨"fq_set", [], [.set], false⟩,
   .put .mul ⟨"fi_mul", [], [.init, .add, .mul, .sub, .clear], false⟩,
   .put .mulMpz ⟨"fq_mul_mpz", [], [.mulMpz], false⟩,
   .put .mulSi ⟨"fq_mul_si", [], [.mulSi], false⟩,
   .put .square ⟨"fi_square", [], [.init, .add, .sub, .mul, .set, .clear], false⟩,
   .put .doub ⟨"fq_double", [], [.doub], false⟩,
   .put .neg ⟨"fq_neg", [], [.neg], false⟩,
   .put .cmp ⟨"fq_cmp", [], [.cmp], false⟩,
   .put .invert ⟨"fi_invert", [], [.init, .square, .add, .invert, .mul, .neg, .clear], false⟩,
   .put .random ⟨"fq_random", [], [.random], false⟩,
   .put .fromHash ⟨"fq_from_hash", [], [.fromHash], false⟩,
   .put .is1 ⟨"fq_is1", [], [.is1, .is0], false⟩,
   .put .is0 ⟨"fq_is0", [], [.is0], false⟩,
   .put .set0 ⟨"fq_set0", [], [.set0], false⟩,
   .put .set1 ⟨"fq_set1", [], [.set1, .set0], false⟩,
   .put .isSqr ⟨"fi_is_sqr", [], [.init, .square, .add, .isSqr, .clear], false⟩,
   .put .sqrt ⟨"fi_sqrt", [], [.init, .square, .add, .sqrt, .setSi, .invert, .mul, .isSqr, .sub, .set, .clear], false⟩,
   .put .toBytes ⟨"fq_to_bytes", [], [.toBytes], false⟩,
   .put .fromBytes ⟨"fq_from_bytes", [], [.fromBytes], false⟩,
   .put .outInfo ⟨"fi_out_info", [], [.outInfo], false⟩,
   .put .itemCount ⟨"fq_item_count", [], [], false⟩,
   .put .item ⟨"fq_item", [], [], false⟩,
   .put .getX ⟨"fq_get_x", [], [], false⟩,
   .put .getY ⟨"fq_get_y", [], [], false⟩] ++
  (if b.get < 0 then [.put .lengthInBytes ⟨"fq_length_in_bytes", [], [.lengthInBytes], false⟩, .len (.val (-1))]
   else [.len (b.map (2 * ·))])

/-- `field_init_poly` (`/repo/arith/poly.c:1383-1419`). -/
def poly : List Stmt :=
  [.put .fieldClear ⟨"field_clear_poly", [], [], false⟩,
   .put .init ⟨"poly_init", [], [], false⟩,
   .put .clear ⟨"poly_clear", [], [.clear], false⟩,
   .put .setSi ⟨"poly_set_si", [], [.init, .clear, .is0, .setSi], false⟩,
   .put .setMultiz ⟨"poly_set_multiz", [], [.init, .clear, .is0, .setMpz, .setMultiz], false⟩,
   .put .setMpz ⟨"poly_set_mpz", [], [.init, .clear, .is0, .setMpz], false⟩,
   .put .toMpz ⟨"poly_to_mpz", [], [.toMpz], false⟩,
   .put .outStr ⟨"poly_out_str", [], [.outStr], false⟩,
   .put .snprint ⟨"poly_snprint", [], [.snprint], false⟩,
   .put .set ⟨"poly_set", [], [.init, .clear, .set], false⟩,
   .put .sign ⟨"poly_sgn", [], [.sign], false⟩,
   .put .add ⟨"poly_add", [], [.init, .clear, .is0, .add, .set], false⟩,
   .put .doub ⟨"poly_double", [], [.init, .clear, .doub], false⟩,
   .put .is0 ⟨"poly_is0", [], [], false⟩,
   .put .is1 ⟨"poly_is1", [], [.is1], false⟩,
   .put .set0 ⟨"poly_set0", [], [.clear], false⟩,
   .put .set1 ⟨"poly_set1", [], [.init, .clear, .set1], false⟩,
   .put .sub ⟨"poly_sub", [], [.init, .clear, .is0, .sub, .set, .neg], false⟩,
   .put .neg ⟨"poly_neg", [], [.init, .clear, .neg], false⟩,
   .put .mul ⟨"poly_mul", [.set0, .init, .set, .clear], [.init, .clear, .is0, .set0, .mul, .add], false⟩,
   .put .mulMpz ⟨"poly_mul_mpz", [], [.init, .clear, .mulMpz], false⟩,
   .put .mulSi ⟨"poly_mul_si", [], [.init, .clear, .mulSi], false⟩,
   .put .cmp ⟨"poly_cmp", [], [.cmp], false⟩,
   .put .outInfo ⟨"poly_out_info", [], [.outInfo], false⟩,
   .put .itemCount ⟨"poly_coeff_count", [], [], false⟩,
   .put .item ⟨"poly_coeff", [], [], false⟩,
   .put .toBytes ⟨"poly_to_bytes", [], [.toBytes], false⟩,
   .put .fromBytes ⟨"poly_from_bytes", [], [.init, .clear, .fromBytes], false⟩,
   .put .lengthInBytes ⟨"poly_length_in_bytes", [], [.lengthInBytes], false⟩] ++
  [.len (.val (-1))]

/-- `field_init_polymod` (`/repo/arith/poly.c:1476-1544`); `n` is the degree. -/
def polymod (n : ℕ) (b : LenCell) : List Stmt :=
  [.put .fieldClear ⟨"field_clear_polymod", [], [], false⟩,
   .put .init ⟨"polymod_init", [], [.init], false⟩,
   .put .clear ⟨"polymod_clear", [], [.clear], false⟩,
   .put .setSi ⟨"polymod_set_si", [], [.setSi, .set0], false⟩,
   .put .setMpz ⟨"polymod_set_mpz", [], [.setMpz, .set0], false⟩,
   .put .outStr ⟨"polymod_out_str", [], [.outStr], false⟩,
   .put .snprint ⟨"polymod_snprint", [], [.snprint], false⟩,
   .put .setMultiz ⟨"polymod_set_multiz", [], [.setMultiz, .set0], false⟩,
   .put .setStr ⟨"polymod_set_str", [.set0], [.setStr], false⟩,
   .put .set ⟨"polymod_set", [], [.set], false⟩,
   .put .sign ⟨"polymod_sgn", [], [.sign], false⟩,
   .put .add ⟨"polymod_add", [], [.add], false⟩,
   .put .doub ⟨"polymod_double", [], [.doub], false⟩,
   .put .sub ⟨"polymod_sub", [], [.sub], false⟩,
   .put .neg ⟨"polymod_neg", [], [.neg], false⟩,
   .put .is0 ⟨"polymod_is0", [], [.is0], false⟩,
   .put .is1 ⟨"polymod_is1", [], [.is1, .is0], false⟩,
   .put .set0 ⟨"polymod_set0", [], [.set0], false⟩,
   .put .set1 ⟨"polymod_set1", [], [.set1, .set0], false⟩,
   .put .cmp ⟨"polymod_cmp", [], [.cmp], false⟩,
   .put .toMpz ⟨"polymod_to_mpz", [], [.toMpz], false⟩,
   .put .itemCount ⟨"polymod_coeff_count", [], [], false⟩,
   .put .item ⟨"polymod_coeff", [], [], false⟩] ++
  (if n = 3 then [.put .mul ⟨"polymod_mul_degree3", [.init, .add, .clear], [.init, .add, .sub, .mul, .clear], false⟩,
      .put .square ⟨"polymod_square_degree3", [.init, .add, .clear], [.init, .mul, .square, .add, .clear], false⟩]
   else if n = 6 then [.put .mul ⟨"polymod_mul_degree6", [.init, .add, .clear], [.add, .sub, .mul, .set], false⟩,
      .put .square ⟨"polymod_square", [.init, .add, .set, .clear], [.init, .set0, .square, .mul, .add, .clear], false⟩]
   else [.put .mul ⟨"polymod_mul", [.init, .add, .set, .clear], [.init, .set0, .mul, .add, .clear], false⟩,
      .put .square ⟨"polymod_square", [.init, .add, .set, .clear], [.init, .set0, .square, .mul, .add, .clear], false⟩]) ++
  [.put .mulSi ⟨"polymod_mul_si", [], [.mulSi], false⟩,
   .put .random ⟨"polymod_random", [], [.random], false⟩,
   .put .fromHash ⟨"polymod_from_hash", [], [.fromHash], false⟩,
   .put .invert ⟨"polymod_invert", [], [.init, .clear, .is0, .set, .set0, .set1, .mul, .add, .sub, .neg, .invert], false⟩,
   .put .isSqr ⟨"polymod_is_sqr", [.init, .powMpz, .is1, .clear], [], false⟩,
   .put .sqrt ⟨"polymod_sqrt", [.init, .clear, .set1, .neg, .random, .mul, .cmp, .set, .set0, .add, .invert, .is0], [], false⟩,
   .put .toBytes ⟨"polymod_to_bytes", [], [.toBytes], false⟩,
   .put .fromBytes ⟨"polymod_from_bytes", [], [.fromBytes], false⟩,
   .put .outInfo ⟨"polymod_out_info", [], [.outStr, .outInfo], false⟩] ++
  (if b.get < 0 then [.len (.val (-1)), .put .lengthInBytes ⟨"polymod_length_in_bytes", [], [.lengthInBytes], false⟩]
   else [.len (b.map (· * n))])

/-- `field_init_curve_ab` (`/repo/ecc/curve.c:688-757`); `odd` says whether the order of the group is
odd.  When the coordinates have variable length the member `fixed_length_in_bytes` is not written
(`/repo/ecc/curve.c:727-731`). -/
def curve (odd : Bool) (b : LenCell) : List Stmt :=
  [.put .init ⟨"curve_init", [], [.init], false⟩,
   .put .clear ⟨"curve_clear", [], [.clear], false⟩,
   .put .invert ⟨"curve_invert", [], [.set, .neg], false⟩,
   .copy .neg .invert,
   .put .doub ⟨"curve_double", [], [.is0, .init, .square, .mulSi, .add, .doub, .invert, .mul, .sub, .set, .clear], false⟩,
   .copy .square .doub,
   .put .multiDoub ⟨"multi_double", [], [.is0, .init, .square, .mulSi, .add, .doub, .invert, .mul, .sub, .set, .clear], false⟩,
   .put .mul ⟨"curve_mul", [], [.cmp, .is0, .init, .square, .mulSi, .add, .doub, .invert, .mul, .sub, .set, .clear], false⟩,
   .copy .add .mul,
   .put .multiAdd ⟨"multi_add", [], [.cmp, .is0, .init, .square, .mulSi, .add, .doub, .invert, .mul, .sub, .set, .clear], false⟩,
   .put .mulMpz ⟨"element_pow_mpz", [.powMpz], [], false⟩,
   .put .cmp ⟨"curve_cmp", [.init, .div, .powMpz, .is1, .clear], [.cmp], false⟩,
   .put .set1 ⟨"curve_set1", [], [], false⟩,
   .copy .set0 .set1,
   .put .is1 ⟨"curve_is1", [], [], false⟩,
   .copy .is0 .is1,
   .put .sign ⟨"curve_sign", [], [.sign], false⟩,
   .put .set ⟨"curve_set", [], [.set], false⟩,
   .put .random ⟨"curve_random_pointmul", [.mulMpz], [], false⟩,
   .put .fromHash ⟨"curve_from_hash", [.mulMpz], [.init, .fromHash, .square, .add, .mul, .isSqr, .set1, .sqrt, .sign, .neg, .clear], false⟩,
   .put .outStr ⟨"curve_out_str", [], [.outStr], false⟩,
   .put .snprint ⟨"curve_snprint", [], [.snprint], false⟩,
   .put .setMultiz ⟨"curve_set_multiz", [.set0], [.setMultiz], false⟩,
   .put .setStr ⟨"curve_set_str", [.set0], [.setStr, .init, .square, .add, .mul, .cmp, .clear], false⟩,
   .put .fieldClear ⟨"field_clear_curve", [.clear], [.clear], false⟩] ++
  (if b.get < 0 then [.put .lengthInBytes ⟨"curve_length_in_bytes", [], [.lengthInBytes], false⟩]
   else [.len (b.map (2 * ·))]) ++
  [.put .toBytes ⟨"curve_to_bytes", [], [.toBytes], false⟩,
   .put .fromBytes ⟨"curve_from_bytes", [.set0], [.fromBytes, .init, .square, .add, .mul, .cmp, .clear], false⟩,
   .put .outInfo ⟨"curve_out_info", [], [], false⟩,
   .put .itemCount ⟨"curve_item_count", [.is0], [], false⟩,
   .put .item ⟨"curve_item", [.is0], [], false⟩,
   .put .getX ⟨"curve_get_x", [], [], false⟩,
   .put .getY ⟨"curve_get_y", [], [], false⟩] ++
  [.put .isSqr (if odd then ⟨"odd_curve_is_sqr", [], [], false⟩ else ⟨"even_curve_is_sqr", [.init, .powMpz, .is1, .clear], [], false⟩)]

/-- `pairing_GT_init` (`/repo/ecc/pairing.c:233-284`); what the final powering called by `gt_random` and
`gt_from_hash` does is not followed. -/
def gt (b : LenCell) : List Stmt :=
  [.put .fieldClear ⟨"mulg_field_clear", [], [], false⟩,
   .put .outInfo ⟨"gt_out_info", [], [.outInfo], false⟩,
   .put .init ⟨"mulg_init", [], [.init, .set1], false⟩,
   .put .clear ⟨"mulg_clear", [], [.clear], false⟩,
   .put .set ⟨"mulg_set", [], [.set], false⟩,
   .put .cmp ⟨"mulg_cmp", [], [.cmp], false⟩,
   .put .outStr ⟨"mulg_out_str", [], [.outStr], false⟩,
   .put .setMultiz ⟨"mulg_set_multiz", [], [.setMultiz], false⟩,
   .put .setStr ⟨"mulg_set_str", [], [.setStr], false⟩,
   .put .toBytes ⟨"mulg_to_bytes", [], [.toBytes], false⟩,
   .put .fromBytes ⟨"mulg_from_bytes", [], [.fromBytes], false⟩,
   .put .lengthInBytes ⟨"mulg_length_in_bytes", [], [.lengthInBytes], false⟩,
   .put .toMpz ⟨"mulg_to_mpz", [], [.toMpz], false⟩,
   .put .snprint ⟨"mulg_snprint", [], [.snprint], false⟩,
   .put .item ⟨"mulg_item", [], [.item], false⟩,
   .put .itemCount ⟨"mulg_item_count", [], [.itemCount], false⟩,
   .put .set0 ⟨"mulg_set1", [], [.set1], false⟩,
   .put .add ⟨"mulg_mul", [], [.mul], false⟩,
   .put .sub ⟨"mulg_div", [], [.div], false⟩,
   .put .mulMpz ⟨"mulg_pow_mpz", [], [.powMpz], false⟩,
   .put .neg ⟨"mulg_invert", [], [.invert], false⟩,
   .put .is0 ⟨"mulg_is1", [], [.is1], false⟩,
   .put .set1 ⟨"mulg_set1", [], [.set1], false⟩,
   .put .mul ⟨"mulg_mul", [], [.mul], false⟩,
   .put .div ⟨"mulg_div", [], [.div], false⟩,
   .put .powMpz ⟨"mulg_pow_mpz", [], [.powMpz], false⟩,
   .put .invert ⟨"mulg_invert", [], [.invert], false⟩,
   .put .is1 ⟨"mulg_is1", [], [.is1], false⟩,
   .put .ppInit ⟨"mulg_pp_init", [], [.ppInit], false⟩,
   .put .ppClear ⟨"mulg_pp_clear", [], [.ppClear], false⟩,
   .put .ppPow ⟨"mulg_pp_pow", [], [.ppPow], false⟩,
   .put .random ⟨"gt_random", [], [.random], false⟩,
   .put .fromHash ⟨"gt_from_hash", [], [.fromHash], false⟩] ++
  [.len b]

/-- The change that type I makes to the table of GT (`/repo/ecc/eta_T_3.c:727`); the pairing that
`GT_random` (`/repo/ecc/eta_T_3.c:689-698`) computes is not followed. -/
def gtI : List Stmt :=
  [.put .random ⟨"GT_random", [], [], false⟩]

/-- `field_init_gf3m` (`/repo/arith/ternary_extension_field.c:476-518`). -/
def gf3m (n : ℕ) : List Stmt :=
  [.put .fieldClear ⟨"field_clear_gf3m", [], [], false⟩,
   .put .init ⟨"gf3m_init", [], [], false⟩,
   .put .clear ⟨"gf3m_clear", [], [], false⟩,
   .put .set ⟨"gf3m_assign", [], [], false⟩,
   .put .set0 ⟨"gf3m_zero", [], [], false⟩,
   .put .set1 ⟨"gf3m_one", [], [], false⟩,
   .put .is0 ⟨"gf3m_is0", [], [], false⟩,
   .put .is1 ⟨"gf3m_is1", [], [], false⟩,
   .put .add ⟨"gf3m_add", [], [], false⟩,
   .put .sub ⟨"gf3m_sub", [], [], false⟩,
   .put .mul ⟨"gf3m_mult", [.init, .set, .clear], [], false⟩,
   .put .cubic ⟨"gf3m_cubic", [.init, .clear], [], false⟩,
   .put .invert ⟨"gf3m_invert", [.init, .clear], [], false⟩,
   .put .neg ⟨"gf3m_neg", [], [], false⟩,
   .put .random ⟨"gf3m_random", [], [], false⟩,
   .put .cmp ⟨"gf3m_cmp", [], [], false⟩,
   .put .sqrt ⟨"gf3m_sqrt", [.powMpz], [], false⟩,
   .put .fromBytes ⟨"gf3m_from_bytes", [], [], false⟩,
   .put .toBytes ⟨"gf3m_to_bytes", [], [], false⟩,
   .put .outStr ⟨"gf3m_out_str", [], [], false⟩] ++
  [.len (.val n)]

/-- `field_init_gf32m` (`/repo/arith/ternary_extension_field.c:661-682`). -/
def gf32m : List Stmt :=
  [.put .fieldClear ⟨"field_clear_gf32m", [], [], false⟩,
   .put .init ⟨"gf32m_init", [], [.init], false⟩,
   .put .clear ⟨"gf32m_clear", [], [.clear], false⟩,
   .put .set ⟨"gf32m_assign", [], [.set], false⟩,
   .put .set0 ⟨"gf32m_set0", [], [.set0], false⟩,
   .put .set1 ⟨"gf32m_set1", [], [.set1, .set0], false⟩,
   .put .random ⟨"gf32m_random", [], [.random], false⟩,
   .put .cmp ⟨"gf32m_cmp", [], [.cmp], false⟩,
   .put .add ⟨"gf32m_add", [], [.add], false⟩,
   .put .sub ⟨"gf32m_sub", [], [.sub], false⟩,
   .put .neg ⟨"gf32m_neg", [], [.neg], false⟩,
   .put .mul ⟨"gf32m_mult", [], [.init, .mul, .add, .sub, .set, .clear], false⟩,
   .put .cubic ⟨"gf32m_cubic", [], [.init, .cubic, .neg, .set, .clear], false⟩,
   .put .itemCount ⟨"gf32m_item_count", [], [], false⟩,
   .put .item ⟨"gf32m_item", [], [], false⟩,
   .put .outStr ⟨"gf32m_out_str", [], [.outStr], false⟩]

/-- `field_init_gf33m` (`/repo/arith/ternary_extension_field.c:928-950`). -/
def gf33m : List Stmt :=
  [.put .fieldClear ⟨"field_clear_gf33m", [], [], false⟩,
   .put .init ⟨"gf33m_init", [], [.init], false⟩,
   .put .clear ⟨"gf33m_clear", [], [.clear], false⟩,
   .put .set ⟨"gf33m_assign", [], [.set], false⟩,
   .put .set0 ⟨"gf33m_set0", [], [.set0], false⟩,
   .put .set1 ⟨"gf33m_set1", [], [.set1, .set0], false⟩,
   .put .random ⟨"gf33m_random", [], [.random], false⟩,
   .put .cmp ⟨"gf33m_cmp", [], [.cmp], false⟩,
   .put .add ⟨"gf33m_add", [], [.add], false⟩,
   .put .sub ⟨"gf33m_sub", [], [.sub], false⟩,
   .put .mul ⟨"gf33m_mult", [], [.init, .mul, .add, .sub, .set, .clear], false⟩,
   .put .cubic ⟨"gf33m_cubic", [], [.init, .cubic, .add, .sub, .set, .clear], false⟩,
   .put .invert ⟨"gf33m_invert", [], [.init, .mul, .sub, .add, .invert, .set, .clear], false⟩,
   .put .itemCount ⟨"gf33m_item_count", [], [], false⟩,
   .put .item ⟨"gf33m_item", [], [], false⟩,
   .put .outStr ⟨"gf33m_out_str", [], [.outStr], false⟩]

/-- `field_init_eta_T_3` (`/repo/ecc/eta_T_3.c:204-219`). -/
def etaT : List Stmt :=
  [.put .init ⟨"point_init", [], [.init], false⟩,
   .put .clear ⟨"point_clear", [], [.clear], false⟩,
   .put .random ⟨"point_random", [.powMpz], [.init, .set1, .random, .is0, .cubic, .sub, .add, .sqrt, .mul, .cmp, .clear], false⟩,
   .put .set ⟨"point_set", [], [.set], false⟩,
   .put .cmp ⟨"point_cmp", [], [.cmp], false⟩,
   .put .neg ⟨"point_invert", [], [.set, .neg], false⟩,
   .copy .invert .neg,
   .put .add ⟨"point_add", [], [.set, .init, .cmp, .neg, .invert, .mul, .add, .cubic, .sub, .clear], false⟩,
   .copy .mul .add,
   .put .set0 ⟨"point_set0", [], [], false⟩,
   .copy .set1 .set0,
   .put .is0 ⟨"point_is0", [], [], false⟩,
   .copy .is1 .is0,
   .copy .mulMpz .powMpz,
   .put .outStr ⟨"point_out_str", [], [.outStr], false⟩,
   .put .fieldClear ⟨"point_field_clear", [], [], false⟩]

/-- `field_init_curve_singular_with_node` (`/repo/ecc/singular.c:278-301`).  `field_init` is run on a
structure of its own, from which only `pow_mpz` is taken. -/
def singular : List Stmt :=
  [.put .init ⟨"sn_init", [], [.init], false⟩,
   .put .clear ⟨"sn_clear", [], [.clear], false⟩,
   .put .random ⟨"sn_random", [], [.init, .random, .is0, .square, .add, .mul, .isSqr, .sqrt, .clear], false⟩,
   .put .set ⟨"sn_set", [], [.set], false⟩,
   .put .neg ⟨"sn_invert", [], [.set, .neg], false⟩,
   .copy .invert .neg,
   .put .doub ⟨"sn_double", [], [.is0, .init, .mulSi, .setSi, .add, .mul, .invert, .square, .sub, .set, .clear], false⟩,
   .copy .square .doub,
   .put .add ⟨"sn_add", [], [.cmp, .is0, .set1, .init, .mulSi, .setSi, .add, .mul, .invert, .square, .sub, .set, .clear], false⟩,
   .copy .mul .add,
   .put .set0 ⟨"sn_set0", [], [], false⟩,
   .copy .set1 .set0,
   .put .is0 ⟨"sn_is0", [], [], false⟩,
   .copy .is1 .is0,
   .put .mulMpz ⟨"generic_pow_mpz", [.set1, .init, .set, .square, .mul, .clear], [], false⟩,
   .put .outStr ⟨"sn_out_str", [], [.outStr], false⟩,
   .put .fieldClear ⟨"sn_field_clear", [], [], false⟩]

/-- The kinds of fields and groups, with the field they are built over. -/
inductive Kind
  | naiveFp (odd : Bool) (n : ℕ)
  | fastFp (odd : Bool) (n : ℕ)
  | fasterFp (odd : Bool) (n : ℕ)
  | montFp (n : ℕ)
  | tinyFp (n : ℕ)
  | z
  | multiz
  | gf3m (n : ℕ)
  | quadratic (b : Kind)
  | fi (b : Kind)
  | poly (b : Kind)
  | polymod (n : ℕ) (b : Kind)
  | curve (odd : Bool) (b : Kind)
  | gt (b : Kind)
  | gtI (b : Kind)
  | gf32m (b : Kind)
  | gf33m (b : Kind)
  | etaT (b : Kind)
  | singular (b : Kind)

/-- The `fixed_length_in_bytes` of the field at the head of a tower. -/
def topLen {γ : Type} : List (Table γ) → LenCell
  | [] => .stale 0
  | t :: _ => t.len

/-- The structure of one field after `field_init` and the statements `l`. -/
def build {γ : Type} (m : Raw γ) (l : List Stmt) : Table γ := execAll (fresh m) (fieldInit ++ l)

/-- Set-up of a field or group and of the fields it is built over, as a list: the structure itself,
that of its base field, and so on.  `old i` is what the memory of the `i`-th structure held.
The fields over which nothing is built are alone in their list. -/
def setUp {γ : Type} : Kind → (ℕ → Raw γ) → List (Table γ)
  | .naiveFp odd n, old => [build (old 0) (naiveFp odd n)]
  | .fastFp odd n, old => [build (old 0) (fastFp odd n)]
  | .fasterFp odd n, old => [build (old 0) (fasterFp odd n)]
  | .montFp n, old => [build (old 0) (montFp n)]
  | .tinyFp n, old => [build (old 0) (tinyFp n)]
  | .z, old => [build (old 0) zRing]
  | .multiz, old => [build (old 0) multizRing]
  | .gf3m n, old => [build (old 0) (gf3m n)]
  | .quadratic b, old =>
    let t := setUp b fun i => old (i + 1)
    build (old 0) (quadratic (topLen t)) :: t
  | .fi b, old =>
    let t := setUp b fun i => old (i + 1)
    build (old 0) (fi (topLen t)) :: t
  | .poly b, old => build (old 0) poly :: setUp b fun i => old (i + 1)
  | .polymod n b, old =>
    let t := setUp b fun i => old (i + 1)
    build (old 0) (polymod n (topLen t)) :: t
  | .curve odd b, old =>
    let t := setUp b fun i => old (i + 1)
    build (old 0) (curve odd (topLen t)) :: t
  | .gt b, old =>
    let t := setUp b fun i => old (i + 1)
    build (old 0) (gt (topLen t)) :: t
  | .gtI b, old =>
    let t := setUp b fun i => old (i + 1)
    build (old 0) (gt (topLen t) ++ gtI) :: t
  | .gf32m b, old => build (old 0) gf32m :: setUp b fun i => old (i + 1)
  | .gf33m b, old => build (old 0) gf33m :: setUp b fun i => old (i + 1)
  | .etaT b, old => build (old 0) etaT :: setUp b fun i => old (i + 1)
  | .singular b, old => execAll (fresh (old 0)) singular :: setUp b fun i => old (i + 1)

/-- What `element_length_in_bytes` (`/repo/include/pbc_field.h:462-468`) and the other public
operations, which only jump, run on an element of the field at the head of a tower: nothing (a
number is returned), a routine, or whatever an unset member points to. -/
inductive Jump (γ : Type)
  | returns (z : ℤ)
  | runs (r : Routine)
  | lost

/-- Dispatch of a public operation. -/
def jump {γ : Type} (t : Table γ) (o : Op) : Jump γ :=
  if o = .lengthInBytes then
    match t.len with
    | .stale _ => .lost
    | .val z =>
      if 0 ≤ z then .returns z
      else match t.slot o with
        | .stale _ => .lost
        | .fn r => .runs r
  else match t.slot o with
    | .stale _ => .lost
    | .fn r => .runs r

end Pbc.Dispatch
