/-
Model of the class polynomial computation: the enumeration of quadratic forms, the product of the
linear and quadratic factors, and the rounding to integers.

* `/repo/ecc/hilbert.c:333-532` (`pbc_hilbert`)

Simplifications.
* `int` arithmetic is arithmetic of `ℕ`: for `D < 2 ^ 30` no intermediate value overflows.
* `(int) floor(sqrt((double) D / 3.0))` is the integer square root of `D / 3`.
* GMP floats are elements of an ordered field `R`, so every float operation is exact; `double d`
  is a rational number.  The function `jf` stands for `compute_j` (modelled in
  `Verif.Model.Mpc`); the loops do not look inside it.
* `pbc_info` and the `if (0)` block are left out.
-/
import Mathlib.Algebra.Order.Floor.Ring
import Mathlib.Algebra.Order.Field.Basic
import Mathlib.Data.Nat.Sqrt
import Mathlib.Data.Rat.Floor

set_option autoImplicit false

namespace Pbc.Hilbert

/-- `struct mpc_s`, `/repo/ecc/mpc.h:13-16`. -/
structure Mpc (R : Type*) where
  /-- real part -/
  a : R
  /-- imaginary part -/
  b : R
  deriving DecidableEq, Repr

/-- The bound `B`, `/repo/ecc/hilbert.c:336`. -/
def bound (D : ℕ) : ℕ := Nat.sqrt (D / 3)

/-- The test `a == b || a * a == t || !b`, `/repo/ecc/hilbert.c:359`, `:427`. -/
def isSingle (a b t : ℕ) : Bool := a == b || a * a == t || b == 0

/-- The counters of the first pass, `/repo/ecc/hilbert.c:343-345`. -/
structure Count where
  d : ℚ
  h : ℕ
  jcount : ℕ
  deriving DecidableEq, Repr

/-- A form was met (`/repo/ecc/hilbert.c:357-366`). -/
def Count.visit (a b t : ℕ) (s : Count) : Count :=
  if isSingle a b t then ⟨s.d + 1 / (a : ℚ), s.h + 1, s.jcount + 1⟩
  else ⟨s.d + 2 / (a : ℚ), s.h + 2, s.jcount + 1⟩

/-- The loop over `a`: `step535_3` and `step535_4`, `/repo/ecc/hilbert.c:356-370`, and `step3`
and `step4`, `:401-405` and `:493`; what is done with a form is the argument `visit`. -/
def loopA {S : Type*} (visit : ℕ → ℕ → ℕ → S → S) (t b : ℕ) : ℕ → ℕ → S → Option S
  | 0, _, _ => none
  | n + 1, a, s =>
    let s := if t % a = 0 then visit a b t s else s
    if (a + 1) * (a + 1) ≤ t then loopA visit t b n (a + 1) s else some s

/-- One value of `b` in the first pass, `/repo/ecc/hilbert.c:350-371`: for `b ≤ 1` the loop
starts behind the test of `a = 1`. -/
def rowCount (fuel t b : ℕ) (s : Count) : Option Count :=
  if b ≤ 1 then
    (if 2 * 2 ≤ t then loopA Count.visit t b fuel 2 s else some s)
  else loopA Count.visit t b fuel b s

/-- One value of `b` in the second pass, `/repo/ecc/hilbert.c:395-400`. -/
def rowVisit {S : Type*} (visit : ℕ → ℕ → ℕ → S → S) (fuel t b : ℕ) (s : S) : Option S :=
  loopA visit t b fuel (if 1 < b then b else 1) s

/-- The loop over `b`, `/repo/ecc/hilbert.c:349-375`, `:394-497`. -/
def loopB {S : Type*} (row : ℕ → ℕ → S → Option S) (D : ℕ) : ℕ → ℕ → S → Option S
  | 0, _, _ => none
  | n + 1, b, s =>
    match row ((b * b + D) / 4) b s with
    | none => none
    | some s' => if bound D < b + 2 then some s' else loopB row D n (b + 2) s'

/-- The first pass, `/repo/ecc/hilbert.c:343-375`. -/
def firstPass (fuel D : ℕ) : Option Count :=
  loopB (rowCount fuel) D fuel (D % 2) ⟨1, 1, 1⟩

section Poly
variable {R : Type*} [Field R]

/-- `mpc_add`, `/repo/ecc/mpc.h:38-41`. -/
def Mpc.add (z w : Mpc R) : Mpc R := ⟨z.a + w.a, z.b + w.b⟩

/-- `mpc_neg`, `/repo/ecc/mpc.h:48-51`. -/
def Mpc.neg (z : Mpc R) : Mpc R := ⟨-z.a, -z.b⟩

/-- `mpc_mul`, `/repo/ecc/mpc.c:7-24` (value only; see `Verif.Model.Mpc` for the version with
destinations). -/
def Mpc.mul (z w : Mpc R) : Mpc R :=
  ⟨z.a * w.a - z.b * w.b, (w.a + w.b) * (z.a + z.b) - z.a * w.a - z.b * w.b⟩

/-- The argument `alpha`, `/repo/ecc/hilbert.c:412-416`. -/
def alpha (sqrtD : R) (a b : ℕ) : Mpc R :=
  let f0 : R := 1 / ((2 * a : ℕ) : R)
  ⟨-(f0 * (b : R)), sqrtD * f0⟩

/-- The loop of `/repo/ecc/hilbert.c:438-442`; the result is the new items and the last `z1`. -/
def linLoop (p0 : Mpc R) : Mpc R → List (Mpc R) → List (Mpc R) × Mpc R
  | z1, [] => ([], z1)
  | z1, x :: xs =>
    let r := linLoop p0 x xs
    (x.add (z1.mul p0) :: r.1, r.2)

/-- `P *= X - j`, `/repo/ecc/hilbert.c:428-445`. -/
def mulLin (j : Mpc R) (Pz : List (Mpc R)) : List (Mpc R) :=
  let p0 := j.neg
  match Pz with
  | [] => [p0]
  | x :: xs =>
    let r := linLoop p0 x xs
    x.add p0 :: r.1 ++ [p0.mul r.2]

/-- The loop of `/repo/ecc/hilbert.c:477-484`; the result is the new items and the last `z1`, `z2`. -/
def quadLoop (p1 p0 : Mpc R) : Mpc R → Mpc R → List (Mpc R) → List (Mpc R) × Mpc R × Mpc R
  | z2, z1, [] => ([], z1, z2)
  | z2, z1, x :: xs =>
    let z0 := z1.mul p1
    let al := z2.mul p0
    let r := quadLoop p1 p0 z1 x xs
    (x.add (al.add z0) :: r.1, r.2)

/-- `P *= X^2 - 2 Re(j) X + |j|^2`, `/repo/ecc/hilbert.c:447-491`.  `mpc_init` makes both
components zero, so the imaginary parts of `p1` and `p0` are zero. -/
def mulQuad (j : Mpc R) (Pz : List (Mpc R)) : List (Mpc R) :=
  let p1 : Mpc R := ⟨-(j.a * 2), 0⟩
  let p0 : Mpc R := ⟨j.b * j.b + j.a * j.a, 0⟩
  match Pz with
  | [] => [p1, p0]
  | [x] => [x.add p1, (x.mul p1).add p0, p0.mul x]
  | x :: y :: xs =>
    let r := quadLoop p1 p0 x y xs
    x.add p1 :: (y.add (x.mul p1)).add p0 :: r.1 ++
      [(p1.mul r.2.1).add (r.2.2.mul p0), p0.mul r.2.1]

/-- One form of the second pass, `/repo/ecc/hilbert.c:406-493`. -/
def visitPoly (jf : Mpc R → Mpc R) (sqrtD : R) (a b t : ℕ) (Pz : List (Mpc R)) : List (Mpc R) :=
  let j := jf (alpha sqrtD a b)
  if isSingle a b t then mulLin j Pz else mulQuad j Pz

/-- The second pass, `/repo/ecc/hilbert.c:391-497`. -/
def secondPass (jf : Mpc R → Mpc R) (sqrtD : R) (fuel D : ℕ) : Option (List (Mpc R)) :=
  loopB (rowVisit (visitPoly jf sqrtD) fuel) D fuel (D % 2) []

/-- `mpz_set_f` of the value shifted by one half away from zero, `/repo/ecc/hilbert.c:505-512`: `mpz_set_f` truncates. -/
def roundF [LinearOrder R] [FloorRing R] (x : R) : ℤ :=
  let f0 : R := (if x < 0 then -(1 / 2) else 1 / 2) + x
  if f0 < 0 then ⌈f0⌉ else ⌊f0⌋

/-- Rounding and assigning, `/repo/ecc/hilbert.c:499-520`: the coefficient of the highest
power comes last. -/
def rounded [LinearOrder R] [FloorRing R] (Pz : List (Mpc R)) : List ℤ :=
  Pz.reverse.map (fun z => roundF z.a) ++ [1]

/-- `pbc_hilbert`, `/repo/ecc/hilbert.c:333-532`.  The first pass only chooses the
precision, so its result is not used here. -/
def hilbert [LinearOrder R] [FloorRing R] (jf : Mpc R → Mpc R) (sqrtD : R) (fuel D : ℕ) :
    Option (List ℤ) :=
  match firstPass fuel D with
  | none => none
  | some _ => (secondPass jf sqrtD fuel D).map rounded

end Poly

end Pbc.Hilbert
