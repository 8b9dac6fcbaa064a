import Verif.Model.FieldGeneric
import Verif.Model.Curve
import Verif.Model.Multiz

/-!
# Reading elements from text (`element_set_str`)

A string is the list of its bytes before the NUL.  A pointer into it is the rest of the string; moving a
pointer past the NUL is `none`.  `zero` is what `element_set0` stores.
-/

set_option autoImplicit false

namespace Pbc.Text

open Pbc.Quad (El)
open Pbc.Curve (Pt)

/-- `*cp`. -/
def hd (s : List ℕ) : ℕ := s.headD 0

/-- `while (*cp && isspace(*cp)) cp++;`. -/
def skip (s : List ℕ) : List ℕ := s.dropWhile Gen.isSpace

/-- `cp += k`. -/
def adv (s : List ℕ) (k : ℕ) : Option (List ℕ) := if k ≤ s.length then some (s.drop k) else none

/-- `element_set_str(e, s, base)` for one kind of elements: the element and the result.  It may use what `e`
held before. -/
abbrev Reader (α : Type*) := ℕ → α → List ℕ → Option (α × ℕ)

/-- `fp_set_str` (`/repo/arith/montfp.c:187-195`), `zp_set_str` (`/repo/arith/naivefp.c:52-56`): `setZ` is
`fp_set_mpz`. -/
def readPrime {α : Type*} (order : ℕ) (setZ : ℕ → α) : Reader α := fun base _ s =>
  let zk := Gen.setStr s base
  some (setZ (zk.1 % order), zk.2)

/-- `z_set_str` (`/repo/arith/z.c:212-220`). -/
def readZ : Reader ℤ := fun base _ s =>
  let zk := Gen.setStr s base
  some ((zk.1 : ℤ), zk.2)

/-- `f_set_str` (`/repo/arith/multiz.c:520-528`). -/
def readMultiz : Reader Multiz.MZ := fun base _ s =>
  let zk := Gen.setStr s base
  some (.int zk.1, zk.2)

/-- `default_element_set_str` (`/repo/arith/field.c:554-559`), for polynomial rings, `fastfp`, `fasterfp`,
`tinyfp` and the fields of characteristic 3, which have no routine of their own. -/
def readDefault {α : Type*} (zero : α) : Reader α := fun _ _ _ => some (zero, 0)

/-- `fq_set_str` (`/repo/arith/fieldquadratic.c:145-157`). -/
def readQuad {α : Type*} (zero : α) (rd : Reader α) : Reader (El α) := fun base _ s =>
  let cp := skip s
  if hd cp ≠ 91 then some (⟨zero, zero⟩, 0)
  else
    let cp := cp.tail
    match rd base zero cp with
    | none => none
    | some (x, k) =>
      match adv cp k with
      | none => none
      | some cp =>
        let cp := skip cp
        if hd cp ≠ 44 then some (⟨x, zero⟩, 0)
        else
          let cp := cp.tail
          match rd base zero cp with
          | none => none
          | some (y, k) =>
            match adv cp k with
            | none => none
            | some cp =>
              if hd cp ≠ 93 then some (⟨x, y⟩, 0)
              else some (⟨x, y⟩, s.length - cp.tail.length)

/-- The loop of `polymod_set_str` (`/repo/arith/poly.c:1277-1281`) over the coefficients from the current one
on: what they hold, and the pointer, or `none` if the routine returns 0. -/
def readCoeffs {α : Type*} (rd : Reader α) (base : ℕ) : List α → List ℕ → Option (List α × Option (List ℕ))
  | [], cp => some ([], some cp)
  | c :: cs, cp =>
    match rd base c cp with
    | none => none
    | some (x, k) =>
      match adv cp k with
      | none => none
      | some cp =>
        let cp := skip cp
        if cs.isEmpty then some ([x], some cp)
        else if hd cp ≠ 44 then some (x :: cs, none)
        else (readCoeffs rd base cs cp.tail).map fun r => (x :: r.1, r.2)

/-- `polymod_set_str` (`/repo/arith/poly.c:1269-1284`); `n` is the degree of the modulus. -/
def readPolymod {α : Type*} (zero : α) (rd : Reader α) (n : ℕ) : Reader (List α) := fun base _ s =>
  let cs := List.replicate n zero
  let cp := skip s
  if hd cp ≠ 91 then some (cs, 0)
  else
    match readCoeffs rd base cs cp.tail with
    | none => none
    | some (cs, none) => some (cs, 0)
    | some (cs, some cp) =>
      if hd cp ≠ 93 then some (cs, 0) else some (cs, s.length - cp.tail.length)

/-- `curve_set_str` (`/repo/ecc/curve.c:555-578`); `valid` is `curve_is_valid_point`. -/
def readCurve {α : Type*} (valid : Pt α → Bool) (rd : Reader α) : Reader (Pt α) := fun base e s =>
  let e : Pt α := { e with inf := true }
  let cp := skip s
  if hd cp = 79 then some (e, s.length - cp.length + 1)
  else
    let e : Pt α := { e with inf := false }
    if hd cp ≠ 91 then some (e, 0)
    else
      let cp := cp.tail
      match rd base e.x cp with
      | none => none
      | some (x, k) =>
        let e : Pt α := { e with x := x }
        match adv cp k with
        | none => none
        | some cp =>
          let cp := skip cp
          if hd cp ≠ 44 then some (e, 0)
          else
            let cp := cp.tail
            match rd base e.y cp with
            | none => none
            | some (y, k) =>
              let e : Pt α := { e with y := y }
              match adv cp k with
              | none => none
              | some cp =>
                if hd cp ≠ 93 then some (e, 0)
                else if !valid e then some ({ e with inf := true }, 0)
                else some (e, s.length - cp.length + 1)

/-- `mulg_set_str` (`/repo/ecc/pairing.c:163-165`). -/
def readGt {α : Type*} (rd : Reader α) : Reader α := rd

end Pbc.Text
