import Verif.Model.Polymod

/-!
# `/repo/arith/poly.c`: square roots in `K[x]/(f)`, irreducibility, root finding

Random elements are taken from a given sequence.  The square root routine works in an arbitrary field
`L` (the field of residues is one, `Verif/Props/Polymod.lean`) with the polynomial code over it.
-/

set_option autoImplicit false

namespace Pbc.PolyFactor

open Pbc.Poly (strip resize mulV)
open Pbc.Polymod (Arr xRow toPolyList is0 truncate)
open Pbc.Quad (inv?)

section sqrt

variable {L : Type*} [Field L] [DecidableEq L]

/-- The reduction modulo `x² - a` in `polymod_sqrt` (`/repo/arith/poly.c:675-682` and `685-692`). -/
def reduceSq (a : L) (s : List L) : List L :=
  if Poly.degree s = 2 then
    let e0 := s.getD 2 0 * a
    let s := s.set 0 (s.getD 0 0 + e0)
    let s := resize s 2
    strip s
  else s

/-- The inner loop of `polymod_sqrt` (`/repo/arith/poly.c:673-694`) for `i = k - 1, ..., 0`. -/
def sqrtPow (a : L) (r : List L) (z : ℕ) : ℕ → List L → List L
  | 0, s => s
  | i + 1, s =>
    let s := mulV s s
    let s := reduceSq a s
    let s := if z.testBit i then reduceSq a (mulV s r) else s
    sqrtPow a r z i s

/-- What one round of the outer loop does. -/
inductive Round (L : Type*)
  | again
  | found (r : L)
  | dies

/-- One round of the outer loop of `polymod_sqrt` (`/repo/arith/poly.c:657-706`) with random value `x`.
`mpz_sizeinbase(z, 2)` is `Gen.bits z`. -/
def sqrtTry (a : L) (z : ℕ) (x : L) : Round L :=
  let r := [x, 1]
  let e0 := x * x
  if e0 = a then .found x
  else
    let s := sqrtPow a r z (Gen.bits z) [1]
    if Poly.degree s < 1 then .again
    else
      let e0 : L := 1
      let e1 := s.getD 0 0
      let e2 := s.getD 1 0
      let e1 := e1 + e0
      match inv? e2 with
      | none => .dies
      | some e0 =>
        let e0 := e0 * e1
        let e2 := e0 * e0
        if e2 = a then .found e0 else .again

/-- `polymod_sqrt` (`/repo/arith/poly.c:636-716`) in a field of `q` elements with the given random
values; `none` if they run out (or an inversion of 0). -/
def sqrt (q : ℕ) (a : L) : List L → Option L
  | [] => none
  | x :: rest =>
    match sqrtTry a ((q - 1) / 2) x with
    | .found r => some r
    | .again => sqrt q a rest
    | .dies => none

end sqrt

section factor

variable {K : Type*} [Field K] [DecidableEq K]

/-- The residue `x`: a fresh element with `element_set1` of coefficient 1. -/
def xArr (n : ℕ) (f : List K) : Arr n f := ⟨fun i => if i = 1 then 1 else 0⟩

/-- `element_sub` of two residues. -/
def subArr {n : ℕ} {f : List K} (a b : Arr n f) : ℕ → K :=
  Polymod.sub n (fun e => if e = 0 then a.c else b.c) 0 0 1 0

/-- `checkgcd` (`/repo/arith/poly.c:1567-1577`) for a field of `q` elements; `none` is `pbc_die`. -/
def checkgcd (q n : ℕ) (f : List K) (fac : ℕ) : Option Bool :=
  let z := n / fac
  let z := q ^ z
  match Gen.powMpz (xArr n f) z with
  | none => none
  | some xpow =>
    let xpow := subArr xpow (xArr n f)
    if is0 n xpow then some true
    else
      match Poly.gcd f (toPolyList n xpow) with
      | none => none
      | some g => some (Poly.degree g ≠ 0)

/-- `checkgcd` as the callback of `pbc_trial_divide`: the state records a `pbc_die`. -/
def checkCallback (q n : ℕ) (f : List K) (bad : Bool) (fac _mul : ℕ) : Bool × Bool :=
  match checkgcd q n f fac with
  | none => (true, true)
  | some b => (bad, b)

/-- `poly_is_irred` (`/repo/arith/poly.c:1584-1626`) for a field of `q` elements.  `none` is `pbc_die`
or a loop that does not end. -/
noncomputable def isIrred (q : ℕ) (f : List K) : Option Bool :=
  if Poly.degree f ≤ 0 then some false
  else if Poly.degree f = 1 then some true
  else
    let n := f.length - 1
    match Gen.trialDivide (checkCallback q n f) none (2 * n + 3) n false with
    | none => none
    | some (true, _) => none
    | some (false, r) =>
      if r = 0 then
        let z := q ^ n
        match Gen.powMpz (xArr n f) z with
        | none => none
        | some xpow => some (is0 n (subArr xpow (xArr n f)))
      else some false

/-- `poly_make_monic(g, f)`. -/
def monic (f : List K) : Option (List K) := (Poly.makeMonic (fun _ => f) 0 1).map fun m => m 0

/-- One round of the loop of `poly_findroot` (`/repo/arith/poly.c:1688-1715`), the random polynomial
being `X + a`: the new `g`. -/
def rootRound (q : ℕ) (g : List K) (a : K) : Option (List K) :=
  let r := [a, 1]
  match Poly.gcd r g with
  | none => none
  | some fac =>
    if Poly.degree fac > 0 then monic fac
    else
      let n := g.length - 1
      let p : Arr n g := ⟨truncate n (fun _ _ => 0) 0 r 0⟩
      match Gen.powMpz p ((q - 1) / 2) with
      | none => none
      | some p =>
        let r := toPolyList n p.c
        let r := Poly.add (fun e => if e = 0 then r else [1]) 0 0 1 0
        match Poly.gcd r g with
        | none => none
        | some fac =>
          if Poly.degree fac > 0 ∧ Poly.degree fac < Poly.degree g then monic fac else some g

/-- The loop of `poly_findroot` (`/repo/arith/poly.c:1686-1717`).  After `goto step_random` the test at
the head would fail again, so it makes no difference that it is skipped. -/
def rootLoop (q : ℕ) : List K → List K → Option K
  | [], g => if Poly.degree g = 1 then some (- g.getD 0 0) else none
  | a :: rest, g =>
    if Poly.degree g = 1 then some (- g.getD 0 0)
    else
      match rootRound q g a with
      | none => none
      | some g => rootLoop q rest g

/-- The first part of `poly_findroot` (`/repo/arith/poly.c:1647-1669`): `gcd(x^q - x, poly)`.  The
coefficient of `x` does not exist when `poly` has degree below 2. -/
def rootGcd (q : ℕ) (poly : List K) : Option (List K) :=
  let n := poly.length - 1
  if n < 2 then none
  else
    match Gen.powMpz (xArr n poly) q with
    | none => none
    | some p =>
      match Poly.gcd (toPolyList n (subArr p (xArr n poly))) poly with
      | none => none
      | some g => monic g

/-- What `poly_findroot` returns. -/
inductive RootResult (K : Type*)
  | noRoot
  | root (r : K)

/-- `poly_findroot` (`/repo/arith/poly.c:1645-1724`) in a field of `q` elements with the given random
values; `none` if they run out, or for an access out of bounds. -/
def findRoot (q : ℕ) (poly : List K) (rnd : List K) : Option (RootResult K) :=
  match rootGcd q poly with
  | none => none
  | some g =>
    if Poly.degree g = 0 then some .noRoot
    else (rootLoop q rnd g).map .root

end factor

end Pbc.PolyFactor
