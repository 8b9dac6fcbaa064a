import Mathlib.Data.Nat.Prime.Defs
import Mathlib.Data.List.GetD
import Mathlib.Algebra.BigOperators.Group.List.Basic

/-!
# Specifications for the generic routines

Nothing here refers to the model.
-/

set_option autoImplicit false

namespace Spec

/-- The infinite stream `H ‖ c ‖ H ‖ c+1 ‖ …` of a digest `H`, position by position; the counter
is a byte. -/
def hashStream (data : List ℕ) (c i : ℕ) : ℕ :=
  data.getD (i % (data.length + 1)) ((c + i / (data.length + 1)) % 256)

/-- The characters that stand for digits, in order. -/
def digitChars : List Char := "0123456789abcdefghijklmnopqrstuvwxyz".toList
/-- The same with capital letters. -/
def digitCharsUpper : List Char := "0123456789ABCDEFGHIJKLMNOPQRSTUVWXYZ".toList
/-- White space in the C locale. -/
def spaceChars : List Char := [' ', '\t', '\n', '\x0b', '\x0c', '\r']

/-- Digit value of a byte in a given base. -/
def digitOf (b c : ℕ) : Option ℕ :=
  (List.range b).find? fun j =>
    (digitChars[j]?).map Char.toNat = some c ∨ (digitCharsUpper[j]?).map Char.toNat = some c

/-- Is the byte white space? -/
def isSpaceByte (c : ℕ) : Bool := (spaceChars.map Char.toNat).contains c

/-- The longest prefix made of white space and digits of the base. -/
def numberPrefix (b : ℕ) (s : List ℕ) : List ℕ :=
  s.takeWhile fun c => isSpaceByte c || (digitOf b c).isSome

/-- The value of the digits in a text, ignoring everything else. -/
def textValue (b : ℕ) (s : List ℕ) : ℕ := (s.filterMap (digitOf b)).foldl (fun acc j => acc * b + j) 0

/-- Feed characters to a callback until it returns nonzero; the last return value. -/
def feed {σ : Type*} (f : σ → ℕ → σ × ℕ) : List ℕ → σ → σ × ℕ
  | [], st => (st, 0)
  | c :: cs, st => if (f st c).2 ≠ 0 ∨ cs = [] then f st c else feed f cs (f st c).1

/-- Feed factors with multiplicities to a callback until it asks to stop. -/
def feedFactors {σ : Type*} (f : σ → ℕ → ℕ → σ × Bool) : List (ℕ × ℕ) → σ → σ × ℕ
  | [], st => (st, 0)
  | x :: xs, st => if (f st x.1 x.2).2 then ((f st x.1 x.2).1, 1) else feedFactors f xs (f st x.1 x.2).1

/-- A factorisation of `m` into increasing factors `≥ p`, all prime except that with a limit the
last may be a cofactor without prime factors up to the limit. -/
structure Factored (limit : Option ℕ) (p m : ℕ) (fs : List (ℕ × ℕ)) : Prop where
  prod : (fs.map fun x => x.1 ^ x.2).prod = m
  ge : ∀ x ∈ fs, p ≤ x.1
  sorted : (fs.map Prod.fst).Pairwise (· < ·)
  mult : ∀ x ∈ fs, 1 ≤ x.2
  prime : ∀ x ∈ fs.dropLast, x.1.Prime
  last : ∀ x ∈ fs, x.1.Prime ∨ ∃ l, limit = some l ∧ ∀ r, r.Prime → r ∣ x.1 → l < r

end Spec
