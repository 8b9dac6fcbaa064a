import Mathlib.Data.ZMod.Basic
import Mathlib.Data.Int.GCD

/-!
# Discrete logarithms (`/repo/arith/dlog.c`)

The group is any group with decidable equality, `Z_r` is `ZMod r`.  `none` is a loop that has not
ended when the fuel is used up.
-/

set_option autoImplicit false

namespace Pbc.Dlog

variable {G : Type} [Group G] [DecidableEq G]

/-- The loop of `element_dlog_brute_force` (`/repo/arith/dlog.c:45-49`); `element_cmp` is zero for
equal elements. -/
def bruteLoop (g h : G) : ℕ → G → ℕ → Option ℕ
  | 0, _, _ => none
  | f + 1, g0, count => if g0 = h then some count else bruteLoop g h f (g0 * g) (count + 1)

/-- `element_dlog_brute_force` (`/repo/arith/dlog.c:36-53`): the value handed to `element_set_mpz`. -/
def brute (fuel : ℕ) (g h : G) : Option ℕ := bruteLoop g h fuel g 1

variable {r : ℕ}

/-- `struct snapshot_s` (`/repo/arith/dlog.c:12-16`). -/
structure Snap (G : Type) (r : ℕ) where
  a : ZMod r
  b : ZMod r
  snark : G

/-- The random choices: the exponents of the 20 multipliers and of the starting point
(`/repo/arith/dlog.c:84-97`). -/
structure Choices (r : ℕ) where
  a : ℕ → ZMod r
  b : ℕ → ZMod r
  a0 : ZMod r
  b0 : ZMod r

/-- `element_pow_zn`. -/
def powZn (g : G) (a : ZMod r) : G := g ^ a.val

/-- `g^a h^b` (`/repo/arith/dlog.c:90-92,99-101`). -/
def combine (g h : G) (a b : ZMod r) : G := powZn h b * powZn g a

/-- The index of the multiplier: the sum of the bytes of the element in an `unsigned char`, modulo 20
(`/repo/arith/dlog.c:105-114`). -/
def index (bytes : G → List ℕ) (x : G) : ℕ := (bytes x).sum % 256 % 20

/-- The state of the search (`/repo/arith/dlog.c:61-72`). -/
structure St (G : Type) (r : ℕ) where
  asum : ZMod r
  bsum : ZMod r
  snark : G
  hole : List (Snap G r)
  counter : ℕ
  interval : ℕ

/-- `record` (`/repo/arith/dlog.c:19-30`); the line it prints is not modelled. -/
def record (s : St G r) : St G r := { s with hole := s.hole ++ [⟨s.asum, s.bsum, s.snark⟩] }

/-- The start of the search (`/repo/arith/dlog.c:97-103`). -/
def start (g h : G) (c : Choices r) : St G r :=
  record ⟨c.a0, c.b0, combine g h c.a0 c.b0, [], 0, 5⟩

/-- One step of the walk (`/repo/arith/dlog.c:105-120`). -/
def advance (bytes : G → List ℕ) (g h : G) (c : Choices r) (s : St G r) : St G r :=
  let i := index bytes s.snark
  { s with
    snark := s.snark * combine g h (c.a i) (c.b i)
    asum := s.asum + c.a i
    bsum := s.bsum + c.b i }

/-- What a search ends with. -/
inductive Answer (r : ℕ)
  /-- `x` was set -/
  | found (x : ZMod r)
  /-- `x` was left as it was -/
  | unchanged
  /-- `mpz_divexact` on a number that is not a multiple -/
  | inexact

/-- The loop over the candidates (`/repo/arith/dlog.c:148-156`). -/
def tryLoop (g h : G) (zm : ℕ) : ℕ → ℕ → Answer r
  | 0, _ => .unchanged
  | d + 1, zb => if g ^ zb = h then .found (zb : ZMod r) else tryLoop g h zm d (zb + zm)

/-- The case of an order that is not prime (`/repo/arith/dlog.c:129-160`). -/
def solveComposite (g h : G) (asum bsum : ZMod r) : Answer r :=
  let za := asum.val
  let zb := bsum.val
  let zd := Nat.gcd zb r
  let zm := r / zd
  let zb := zb / zd
  if ¬ zd ∣ za then .inexact
  else
    let za := za / zd
    let zb := (Nat.gcdA zb zm % (zm : ℤ)).toNat
    let zb := za * zb
    let zb := zb % zm
    tryLoop g h zm zd zb

/-- A collision with `ss` (`/repo/arith/dlog.c:124-163`).  `prime` is the answer of
`mpz_probab_prime_p`, `inv0` what `element_div` takes for the inverse of zero. -/
def solve (prime : Bool) (inv0 : ZMod r) (g h : G) (s : St G r) (ss : Snap G r) : Answer r :=
  let bsum := s.bsum - ss.b
  let asum := ss.a - s.asum
  if prime then .found (asum * if bsum = 0 then inv0 else bsum⁻¹) else solveComposite g h asum bsum

/-- The counter and the record after a step without a collision (`/repo/arith/dlog.c:170-174`). -/
def tick (s : St G r) : St G r :=
  let s := { s with counter := s.counter + 1 }
  if s.counter.testBit s.interval then
    let s := record s
    { s with interval := s.interval + 1 }
  else s

/-- The main loop (`/repo/arith/dlog.c:104-175`); the fuel counts rounds. -/
def rhoLoop (prime : Bool) (inv0 : ZMod r) (bytes : G → List ℕ) (g h : G) (c : Choices r) :
    ℕ → St G r → Option (Answer r)
  | 0, _ => none
  | f + 1, s =>
    let s1 := advance bytes g h c s
    match s1.hole.find? (fun ss => s1.snark = ss.snark) with
    | some ss => some (solve prime inv0 g h s1 ss)
    | none => rhoLoop prime inv0 bytes g h c f (tick s1)

/-- `element_dlog_pollard_rho` (`/repo/arith/dlog.c:57-187`). -/
def rho (prime : Bool) (inv0 : ZMod r) (bytes : G → List ℕ) (fuel : ℕ) (g h : G) (c : Choices r) :
    Option (Answer r) :=
  rhoLoop prime inv0 bytes g h c fuel (start g h c)

end Pbc.Dlog
