import Verif.Spec.Ternary
import Verif.Lemmas.EtaTPairing
import Mathlib.Dynamics.PeriodicPts.Defs
import Mathlib.Algebra.Polynomial.Expand
import Mathlib.FieldTheory.Finite.Basic
import Mathlib.Algebra.Field.ZMod
import Mathlib.RingTheory.AdjoinRoot
import Mathlib.FieldTheory.Finiteness

/-!
# A checker for irreducible trinomials over the field of three elements

Polynomials over GF(3) as pairs of bit masks, so that the kernel computes with big numbers.
-/

set_option autoImplicit false

namespace Tri3

open Polynomial
open Pbc.Ternary (trinomial)

private instance : Fact (Nat.Prime 3) := ⟨by decide⟩

/-- The polynomial with the bits of `n` as coefficients. -/
noncomputable def poly (n : ℕ) : (ZMod 3)[X] := ∑ i ∈ Finset.range (n + 1), if n.testBit i then X ^ i else 0

theorem coeff_poly (n i : ℕ) : (poly n).coeff i = if n.testBit i then 1 else 0 := by
  rw [poly, finsetSum_coeff]
  have h : ∀ j ∈ Finset.range (n + 1), (if n.testBit j then (X : (ZMod 3)[X]) ^ j else 0).coeff i =
      if i = j then (if n.testBit i then 1 else 0) else 0 := by
    intro j _
    by_cases hij : i = j
    · subst hij
      rw [if_pos rfl]
      by_cases hb : n.testBit i = true
      · rw [if_pos hb, if_pos hb, coeff_X_pow_self]
      · rw [if_neg hb, if_neg hb, coeff_zero]
    · rw [if_neg hij]
      by_cases hb : n.testBit j = true
      · rw [if_pos hb, coeff_X_pow, if_neg hij]
      · rw [if_neg hb, coeff_zero]
  rw [Finset.sum_congr rfl h, Finset.sum_ite_eq]
  by_cases hi : i ∈ Finset.range (n + 1)
  · rw [if_pos hi]
  · rw [if_neg hi]
    have : n < 2 ^ i := lt_of_lt_of_le (Nat.lt_succ_self n) (le_trans (by simpa using hi) (Nat.lt_two_pow_self).le)
    rw [Nat.testBit_lt_two_pow this]
    rfl

theorem poly_zero : poly 0 = 0 := by ext i; simp [coeff_poly]

theorem poly_shl (n t : ℕ) : poly (n <<< t) = poly n * X ^ t := by
  ext i
  rw [coeff_poly, coeff_mul_X_pow', Nat.testBit_shiftLeft, coeff_poly]
  by_cases h : t ≤ i
  · simp [h]
  · simp [h]

theorem poly_split (n m : ℕ) : poly n = poly (n % 2 ^ m) + X ^ m * poly (n >>> m) := by
  ext i
  rw [coeff_add, coeff_poly, coeff_X_pow_mul', coeff_poly, coeff_poly, Nat.testBit_mod_two_pow, Nat.testBit_shiftRight]
  by_cases h : m ≤ i
  · rw [if_pos h, Nat.add_sub_cancel' h]
    simp [Nat.not_lt.2 h]
  · rw [if_neg h]
    simp [Nat.not_le.1 h]

theorem poly_bit (n : ℕ) : poly n = poly (n % 2) + X * poly (n / 2) := by
  have := poly_split n 1
  rwa [pow_one, pow_one, Nat.shiftRight_eq_div_pow, pow_one] at this

theorem poly_one : poly 1 = 1 := by
  ext i
  rw [coeff_poly, coeff_one]
  simp only [Nat.testBit_one_eq_true_iff_self_eq_zero]

theorem poly_two : poly 2 = X := by
  rw [poly_bit, show 2 % 2 = 0 from rfl, show 2 / 2 = 1 from rfl, poly_zero, poly_one]; ring

/-- A polynomial over GF(3): the difference of two. -/
structure P where
  p : ℕ
  n : ℕ

noncomputable def P.val (a : P) : (ZMod 3)[X] := poly a.p - poly a.n

def P.norm (a : P) : P := let x := a.p &&& a.n; ⟨a.p ^^^ x, a.n ^^^ x⟩

def addN (a b : P) : P :=
  let t := (a.p ||| a.n) &&& (b.p ||| b.n)
  ⟨t ^^^ (a.p ||| b.p), t ^^^ (a.n ||| b.n)⟩

def P.add (a b : P) : P := addN a.norm b.norm

def P.neg (a : P) : P := ⟨a.n, a.p⟩

theorem val_add (a b : P) : (a.add b).val = a.val + b.val := by
  ext i
  simp only [P.val, coeff_sub, coeff_add, coeff_poly, P.add, addN, P.norm, Nat.testBit_xor, Nat.testBit_and,
    Nat.testBit_or]
  generalize a.p.testBit i = x
  generalize a.n.testBit i = y
  generalize b.p.testBit i = z
  generalize b.n.testBit i = w
  revert x y z w
  decide

theorem val_neg (a : P) : a.neg.val = -a.val := by rw [P.val, P.val, P.neg, neg_sub]

/-- One reduction by `X^m = 1 - X^t`. -/
def fold (m t : ℕ) (a : P) : P :=
  let h : P := ⟨a.p >>> m, a.n >>> m⟩
  let l : P := ⟨a.p % 2 ^ m, a.n % 2 ^ m⟩
  (l.add h).add (P.neg ⟨h.p <<< t, h.n <<< t⟩)

/-- One step of spreading the bits. -/
def mstep (l h k x : ℕ) : ℕ := (x &&& l) ^^^ ((x &&& h) <<< k)

theorem mstep_xor (l h k x y : ℕ) : mstep l h k (x ^^^ y) = mstep l h k x ^^^ mstep l h k y := by
  rw [mstep, mstep, mstep]
  apply Nat.eq_of_testBit_eq
  intro i
  simp only [Nat.testBit_xor, Nat.testBit_and, Nat.testBit_shiftLeft]
  generalize x.testBit i = x0
  generalize y.testBit i = y0
  generalize l.testBit i = l0
  generalize x.testBit (i - k) = x1
  generalize y.testBit (i - k) = y1
  generalize h.testBit (i - k) = h1
  generalize decide (i ≥ k) = c
  revert x0 y0 l0 x1 y1 h1 c
  decide

/-- Evaluation of the argument first. -/
def strict {α : Type} (n : ℕ) (f : ℕ → α) : α :=
  match n with
  | 0 => f 0
  | k + 1 => f (k + 1)

theorem strict_eq {α : Type} (n : ℕ) (f : ℕ → α) : strict n f = f n := by cases n <;> rfl

/-- Several steps. -/
def msteps : List (ℕ × ℕ × ℕ) → ℕ → ℕ
  | [], x => x
  | (l, h, k) :: r, x => strict x fun x => msteps r (mstep l h k x)

theorem msteps_xor (L : List (ℕ × ℕ × ℕ)) (x y : ℕ) : msteps L (x ^^^ y) = msteps L x ^^^ msteps L y := by
  induction L generalizing x y with
  | nil => rfl
  | cons c L ih =>
    obtain ⟨l, h, k⟩ := c
    rw [msteps, msteps, msteps, strict_eq, strict_eq, strict_eq, mstep_xor, ih]

theorem msteps_zero (L : List (ℕ × ℕ × ℕ)) : msteps L 0 = 0 := by
  induction L with
  | nil => rfl
  | cons c L ih =>
    obtain ⟨l, h, k⟩ := c
    rw [msteps, strict_eq, mstep]
    simpa using ih

/-- The masks that spread 1024 bits: position `i` to position `3 i`. -/
def masks : List (ℕ × ℕ × ℕ) :=
  [(0xffffffffffffffffffffffffffffffffffffffffffffffffffffffffffffffffffffffffffffffffffffffffffffffffffffffffffffffffffffffffffffffff, 0xffffffffffffffffffffffffffffffffffffffffffffffffffffffffffffffffffffffffffffffffffffffffffffffffffffffffffffffffffffffffffffffff00000000000000000000000000000000000000000000000000000000000000000000000000000000000000000000000000000000000000000000000000000000, 1024),
   (0xffffffffffffffffffffffffffffffffffffffffffffffffffffffffffffffff00000000000000000000000000000000000000000000000000000000000000000000000000000000000000000000000000000000000000000000000000000000000000000000000000000000000000000000000000000000000000000000000000000000000000000000000000000000000000000000000000000000000000000000000000000000000000000000000000000000000000000000000000000000ffffffffffffffffffffffffffffffffffffffffffffffffffffffffffffffff, 0xffffffffffffffffffffffffffffffffffffffffffffffffffffffffffffffff00000000000000000000000000000000000000000000000000000000000000000000000000000000000000000000000000000000000000000000000000000000000000000000000000000000000000000000000000000000000000000000000000000000000000000000000000000000000000000000000000000000000000000000000000000000000000000000000000000000000000000000000000000000ffffffffffffffffffffffffffffffffffffffffffffffffffffffffffffffff0000000000000000000000000000000000000000000000000000000000000000, 512),
   (0xffffffffffffffffffffffffffffffff0000000000000000000000000000000000000000000000000000000000000000000000000000000000000000000000000000000000000000000000000000000000000000000000000000000000000000ffffffffffffffffffffffffffffffff0000000000000000000000000000000000000000000000000000000000000000000000000000000000000000000000000000000000000000000000000000000000000000000000000000000000000000ffffffffffffffffffffffffffffffff0000000000000000000000000000000000000000000000000000000000000000000000000000000000000000000000000000000000000000000000000000000000000000000000000000000000000000ffffffffffffffffffffffffffffffff, 0xffffffffffffffffffffffffffffffff0000000000000000000000000000000000000000000000000000000000000000000000000000000000000000000000000000000000000000000000000000000000000000000000000000000000000000ffffffffffffffffffffffffffffffff0000000000000000000000000000000000000000000000000000000000000000000000000000000000000000000000000000000000000000000000000000000000000000000000000000000000000000ffffffffffffffffffffffffffffffff0000000000000000000000000000000000000000000000000000000000000000000000000000000000000000000000000000000000000000000000000000000000000000000000000000000000000000ffffffffffffffffffffffffffffffff00000000000000000000000000000000, 256),
   (0xffffffffffffffff00000000000000000000000000000000000000000000000000000000000000000000000000000000ffffffffffffffff00000000000000000000000000000000000000000000000000000000000000000000000000000000ffffffffffffffff00000000000000000000000000000000000000000000000000000000000000000000000000000000ffffffffffffffff00000000000000000000000000000000000000000000000000000000000000000000000000000000ffffffffffffffff00000000000000000000000000000000000000000000000000000000000000000000000000000000ffffffffffffffff00000000000000000000000000000000000000000000000000000000000000000000000000000000ffffffffffffffff00000000000000000000000000000000000000000000000000000000000000000000000000000000ffffffffffffffff, 0xffffffffffffffff00000000000000000000000000000000000000000000000000000000000000000000000000000000ffffffffffffffff00000000000000000000000000000000000000000000000000000000000000000000000000000000ffffffffffffffff00000000000000000000000000000000000000000000000000000000000000000000000000000000ffffffffffffffff00000000000000000000000000000000000000000000000000000000000000000000000000000000ffffffffffffffff00000000000000000000000000000000000000000000000000000000000000000000000000000000ffffffffffffffff00000000000000000000000000000000000000000000000000000000000000000000000000000000ffffffffffffffff00000000000000000000000000000000000000000000000000000000000000000000000000000000ffffffffffffffff0000000000000000, 128),
   (0xffffffff0000000000000000000000000000000000000000ffffffff0000000000000000000000000000000000000000ffffffff0000000000000000000000000000000000000000ffffffff0000000000000000000000000000000000000000ffffffff0000000000000000000000000000000000000000ffffffff0000000000000000000000000000000000000000ffffffff0000000000000000000000000000000000000000ffffffff0000000000000000000000000000000000000000ffffffff0000000000000000000000000000000000000000ffffffff0000000000000000000000000000000000000000ffffffff0000000000000000000000000000000000000000ffffffff0000000000000000000000000000000000000000ffffffff0000000000000000000000000000000000000000ffffffff0000000000000000000000000000000000000000ffffffff0000000000000000000000000000000000000000ffffffff, 0xffffffff0000000000000000000000000000000000000000ffffffff0000000000000000000000000000000000000000ffffffff0000000000000000000000000000000000000000ffffffff0000000000000000000000000000000000000000ffffffff0000000000000000000000000000000000000000ffffffff0000000000000000000000000000000000000000ffffffff0000000000000000000000000000000000000000ffffffff0000000000000000000000000000000000000000ffffffff0000000000000000000000000000000000000000ffffffff0000000000000000000000000000000000000000ffffffff0000000000000000000000000000000000000000ffffffff0000000000000000000000000000000000000000ffffffff0000000000000000000000000000000000000000ffffffff0000000000000000000000000000000000000000ffffffff0000000000000000000000000000000000000000ffffffff00000000, 64),
   (0xffff00000000000000000000ffff00000000000000000000ffff00000000000000000000ffff00000000000000000000ffff00000000000000000000ffff00000000000000000000ffff00000000000000000000ffff00000000000000000000ffff00000000000000000000ffff00000000000000000000ffff00000000000000000000ffff00000000000000000000ffff00000000000000000000ffff00000000000000000000ffff00000000000000000000ffff00000000000000000000ffff00000000000000000000ffff00000000000000000000ffff00000000000000000000ffff00000000000000000000ffff00000000000000000000ffff00000000000000000000ffff00000000000000000000ffff00000000000000000000ffff00000000000000000000ffff00000000000000000000ffff00000000000000000000ffff00000000000000000000ffff00000000000000000000ffff00000000000000000000ffff00000000000000000000ffff, 0xffff00000000000000000000ffff00000000000000000000ffff00000000000000000000ffff00000000000000000000ffff00000000000000000000ffff00000000000000000000ffff00000000000000000000ffff00000000000000000000ffff00000000000000000000ffff00000000000000000000ffff00000000000000000000ffff00000000000000000000ffff00000000000000000000ffff00000000000000000000ffff00000000000000000000ffff00000000000000000000ffff00000000000000000000ffff00000000000000000000ffff00000000000000000000ffff00000000000000000000ffff00000000000000000000ffff00000000000000000000ffff00000000000000000000ffff00000000000000000000ffff00000000000000000000ffff00000000000000000000ffff00000000000000000000ffff00000000000000000000ffff00000000000000000000ffff00000000000000000000ffff00000000000000000000ffff0000, 32),
   (0xff0000000000ff0000000000ff0000000000ff0000000000ff0000000000ff0000000000ff0000000000ff0000000000ff0000000000ff0000000000ff0000000000ff0000000000ff0000000000ff0000000000ff0000000000ff0000000000ff0000000000ff0000000000ff0000000000ff0000000000ff0000000000ff0000000000ff0000000000ff0000000000ff0000000000ff0000000000ff0000000000ff0000000000ff0000000000ff0000000000ff0000000000ff0000000000ff0000000000ff0000000000ff0000000000ff0000000000ff0000000000ff0000000000ff0000000000ff0000000000ff0000000000ff0000000000ff0000000000ff0000000000ff0000000000ff0000000000ff0000000000ff0000000000ff0000000000ff0000000000ff0000000000ff0000000000ff0000000000ff0000000000ff0000000000ff0000000000ff0000000000ff0000000000ff0000000000ff0000000000ff0000000000ff0000000000ff0000000000ff, 0xff0000000000ff0000000000ff0000000000ff0000000000ff0000000000ff0000000000ff0000000000ff0000000000ff0000000000ff0000000000ff0000000000ff0000000000ff0000000000ff0000000000ff0000000000ff0000000000ff0000000000ff0000000000ff0000000000ff0000000000ff0000000000ff0000000000ff0000000000ff0000000000ff0000000000ff0000000000ff0000000000ff0000000000ff0000000000ff0000000000ff0000000000ff0000000000ff0000000000ff0000000000ff0000000000ff0000000000ff0000000000ff0000000000ff0000000000ff0000000000ff0000000000ff0000000000ff0000000000ff0000000000ff0000000000ff0000000000ff0000000000ff0000000000ff0000000000ff0000000000ff0000000000ff0000000000ff0000000000ff0000000000ff0000000000ff0000000000ff0000000000ff0000000000ff0000000000ff0000000000ff0000000000ff0000000000ff0000000000ff00, 16),
   (0xf00000f00000f00000f00000f00000f00000f00000f00000f00000f00000f00000f00000f00000f00000f00000f00000f00000f00000f00000f00000f00000f00000f00000f00000f00000f00000f00000f00000f00000f00000f00000f00000f00000f00000f00000f00000f00000f00000f00000f00000f00000f00000f00000f00000f00000f00000f00000f00000f00000f00000f00000f00000f00000f00000f00000f00000f00000f00000f00000f00000f00000f00000f00000f00000f00000f00000f00000f00000f00000f00000f00000f00000f00000f00000f00000f00000f00000f00000f00000f00000f00000f00000f00000f00000f00000f00000f00000f00000f00000f00000f00000f00000f00000f00000f00000f00000f00000f00000f00000f00000f00000f00000f00000f00000f00000f00000f00000f00000f00000f00000f00000f00000f00000f00000f00000f00000f00000f00000f00000f00000f00000f00000f00000f00000f00000f00000f00000f, 0xf00000f00000f00000f00000f00000f00000f00000f00000f00000f00000f00000f00000f00000f00000f00000f00000f00000f00000f00000f00000f00000f00000f00000f00000f00000f00000f00000f00000f00000f00000f00000f00000f00000f00000f00000f00000f00000f00000f00000f00000f00000f00000f00000f00000f00000f00000f00000f00000f00000f00000f00000f00000f00000f00000f00000f00000f00000f00000f00000f00000f00000f00000f00000f00000f00000f00000f00000f00000f00000f00000f00000f00000f00000f00000f00000f00000f00000f00000f00000f00000f00000f00000f00000f00000f00000f00000f00000f00000f00000f00000f00000f00000f00000f00000f00000f00000f00000f00000f00000f00000f00000f00000f00000f00000f00000f00000f00000f00000f00000f00000f00000f00000f00000f00000f00000f00000f00000f00000f00000f00000f00000f00000f00000f00000f00000f00000f00000f0, 8),
   (0x3003003003003003003003003003003003003003003003003003003003003003003003003003003003003003003003003003003003003003003003003003003003003003003003003003003003003003003003003003003003003003003003003003003003003003003003003003003003003003003003003003003003003003003003003003003003003003003003003003003003003003003003003003003003003003003003003003003003003003003003003003003003003003003003003003003003003003003003003003003003003003003003003003003003003003003003003003003003003003003003003003003003003003003003003003003003003003003003003003003003003003003003003003003003003003003003003003003003003003003003003003003003003003003003003003003003003003003003003003003003003003003003003003003003003003003003003003003003003003003003003003003003003003003003003003003003003003003003, 0xc00c00c00c00c00c00c00c00c00c00c00c00c00c00c00c00c00c00c00c00c00c00c00c00c00c00c00c00c00c00c00c00c00c00c00c00c00c00c00c00c00c00c00c00c00c00c00c00c00c00c00c00c00c00c00c00c00c00c00c00c00c00c00c00c00c00c00c00c00c00c00c00c00c00c00c00c00c00c00c00c00c00c00c00c00c00c00c00c00c00c00c00c00c00c00c00c00c00c00c00c00c00c00c00c00c00c00c00c00c00c00c00c00c00c00c00c00c00c00c00c00c00c00c00c00c00c00c00c00c00c00c00c00c00c00c00c00c00c00c00c00c00c00c00c00c00c00c00c00c00c00c00c00c00c00c00c00c00c00c00c00c00c00c00c00c00c00c00c00c00c00c00c00c00c00c00c00c00c00c00c00c00c00c00c00c00c00c00c00c00c00c00c00c00c00c00c00c00c00c00c00c00c00c00c00c00c00c00c00c00c00c00c00c00c00c00c00c00c00c00c00c00c00c00c00c00c00c00c00c00c00c00c00c00c00c00c00c00c00c00c00c00c00c00c00c00c00c00c00c00c00c00c00c00c00c, 4),
   (0x41041041041041041041041041041041041041041041041041041041041041041041041041041041041041041041041041041041041041041041041041041041041041041041041041041041041041041041041041041041041041041041041041041041041041041041041041041041041041041041041041041041041041041041041041041041041041041041041041041041041041041041041041041041041041041041041041041041041041041041041041041041041041041041041041041041041041041041041041041041041041041041041041041041041041041041041041041041041041041041041041041041041041041041041041041041041041041041041041041041041041041041041041041041041041041041041041041041041041041041041041041041041041041041041041041041041041041041041041041041041041041041041041041041041041041041041041041041041041041041041041041041041041041041041041041041041041041041041, 0x82082082082082082082082082082082082082082082082082082082082082082082082082082082082082082082082082082082082082082082082082082082082082082082082082082082082082082082082082082082082082082082082082082082082082082082082082082082082082082082082082082082082082082082082082082082082082082082082082082082082082082082082082082082082082082082082082082082082082082082082082082082082082082082082082082082082082082082082082082082082082082082082082082082082082082082082082082082082082082082082082082082082082082082082082082082082082082082082082082082082082082082082082082082082082082082082082082082082082082082082082082082082082082082082082082082082082082082082082082082082082082082082082082082082082082082082082082082082082082082082082082082082082082082082082082082082082082082082, 2)]

def spread (n : ℕ) : ℕ := msteps masks n

/-- The bit `x` goes to `y`. Checked with `j` added, to keep the numbers apart for the kernel's caches. -/
def step1 (x y j : ℕ) : Bool := strict (x ^^^ j) fun z => Nat.beq (spread z) (y ^^^ spread j)

theorem step1_sound (x y j : ℕ) (h : step1 x y j = true) : spread x = y := by
  rw [step1, strict_eq] at h
  have h2 := Nat.eq_of_beq_eq_true h
  rw [spread, msteps_xor] at h2
  exact Nat.xor_left_injective h2

/-- The single bits from `x` on, `k` of them, are spread well. -/
def single (k : ℕ) : ℕ → ℕ → Bool :=
  Nat.rec (motive := fun _ => ℕ → ℕ → Bool) (fun _ _ => true)
    (fun k ih x y => strict x fun x => strict y fun y => step1 x y k && ih (x * 2) (y * 8)) k

theorem single_succ (k x y : ℕ) : single (k + 1) x y =
    strict x fun x => strict y fun y => step1 x y k && single k (x * 2) (y * 8) := rfl

theorem single_sound (k x y : ℕ) (h : single k x y = true) : ∀ i < k, spread (x * 2 ^ i) = y * 2 ^ (3 * i) := by
  induction k generalizing x y with
  | zero => intro i hi; omega
  | succ k ih =>
    rw [single_succ, strict_eq, strict_eq, Bool.and_eq_true] at h
    intro i hi
    cases i with
    | zero => simpa using step1_sound _ _ _ h.1
    | succ i =>
      have := ih _ _ h.2 i (by omega)
      rw [pow_succ', ← mul_assoc, this, mul_assoc, show 8 = 2 ^ 3 from rfl, ← pow_add]
      congr 2
      omega

set_option maxRecDepth 20000 in
theorem single_all : single 1024 1 1 = true := by decide +kernel

theorem spread_pow (i : ℕ) (hi : i < 1024) : spread (2 ^ i) = 2 ^ (3 * i) := by
  have := single_sound _ 1 1 single_all i hi
  rwa [one_mul, one_mul] at this

theorem spread_bits (k : ℕ) (hk : k ≤ 1024) (n : ℕ) (hn : n < 2 ^ k) (j : ℕ) :
    (spread n).testBit j = (decide (3 ∣ j) && n.testBit (j / 3)) := by
  induction k generalizing n with
  | zero =>
    have : n = 0 := by simpa using hn
    rw [this, spread, msteps_zero]
    simp
  | succ k ih =>
    by_cases hlt : n < 2 ^ k
    · exact ih (by omega) n hlt
    · have e : n = (n - 2 ^ k) ^^^ 2 ^ k := by
        apply Nat.eq_of_testBit_eq
        intro i
        have hn' : n - 2 ^ k < 2 ^ k := by rw [pow_succ] at hn; omega
        conv_lhs => rw [show n = 2 ^ k + (n - 2 ^ k) by omega]
        rw [Nat.testBit_xor, Nat.testBit_two_pow]
        by_cases hi : i = k
        · subst hi
          rw [Nat.testBit_two_pow_add_eq, Nat.testBit_lt_two_pow hn']
          simp
        · by_cases hlt : i < k
          · rw [Nat.testBit_two_pow_add_gt hlt]
            simp [Ne.symm hi]
          · rw [Nat.testBit_lt_two_pow, Nat.testBit_lt_two_pow]
            · simp [Ne.symm hi]
            · exact lt_of_lt_of_le hn' (Nat.pow_le_pow_right (by decide) (by omega))
            · have : 2 ^ (k + 1) ≤ 2 ^ i := Nat.pow_le_pow_right (by decide) (by omega)
              rw [pow_succ] at this hn
              omega
      have hn' : n - 2 ^ k < 2 ^ k := by rw [pow_succ] at hn; omega
      rw [e, spread, msteps_xor]
      have h2 := spread_pow k (by omega)
      have h1 := ih (by omega) _ hn'
      rw [spread] at h1 h2
      rw [Nat.testBit_xor, h1, h2, Nat.testBit_xor, Nat.testBit_two_pow, Nat.testBit_two_pow]
      generalize (n - 2 ^ k).testBit (j / 3) = x
      by_cases hd : 3 ∣ j
      · have : (3 * k = j) = (k = j / 3) := by rw [eq_iff_iff]; omega
        simp only [this, hd, decide_true, Bool.true_and]
      · have : ¬ (3 * k = j) := by omega
        simp [this, hd]

theorem poly_spread (n : ℕ) (h : n < 2 ^ 1024) : poly (spread n) = poly n ^ 3 := by
  rw [← ZMod.expand_card]
  ext j
  rw [coeff_expand (by decide), coeff_poly, coeff_poly, spread_bits 1024 le_rfl n h]
  by_cases hd : 3 ∣ j
  · simp [hd]
  · simp [hd]

/-- A fixed number of reductions. -/
def folds (m t : ℕ) : ℕ → P → P
  | 0, a => a
  | k + 1, a => strict a.p fun p => strict a.n fun n => folds m t k (fold m t ⟨p, n⟩)

def cube (m t K : ℕ) (a : P) : P := folds m t K ⟨spread a.p, spread a.n⟩

/-- Repeated cubing; `none` when a value is not reduced. -/
def frob (m t K k : ℕ) : P → Option P :=
  Nat.rec (motive := fun _ => P → Option P) (fun a => some a)
    (fun _ ih a => strict a.p fun p => strict a.n fun n =>
      if p < 2 ^ m ∧ n < 2 ^ m then ih (cube m t K ⟨p, n⟩) else none) k

theorem frob_zero (m t K : ℕ) (a : P) : frob m t K 0 a = some a := rfl

theorem frob_succ (m t K k : ℕ) (a : P) : frob m t K (k + 1) a =
    strict a.p fun p => strict a.n fun n =>
      if p < 2 ^ m ∧ n < 2 ^ m then frob m t K k (cube m t K ⟨p, n⟩) else none := rfl

/-- Product modulo the trinomial; `k` bits of `v`. -/
def mul (m t : ℕ) (g : P) (k : ℕ) : P → P :=
  Nat.rec (motive := fun _ => P → P) (fun _ => ⟨0, 0⟩)
    (fun _ ih v =>
      let s : P := if v.p % 2 = 1 then g else if v.n % 2 = 1 then g.neg else ⟨0, 0⟩
      strict (v.p / 2) fun p => strict (v.n / 2) fun n =>
        let r := ih ⟨p, n⟩
        strict r.p fun rp => strict r.n fun rn => s.add (fold m t ⟨rp <<< 1, rn <<< 1⟩)) k

theorem mul_zero' (m t : ℕ) (g v : P) : mul m t g 0 v = ⟨0, 0⟩ := rfl

theorem mul_succ' (m t : ℕ) (g : P) (k : ℕ) (v : P) : mul m t g (k + 1) v =
    strict (v.p / 2) fun p => strict (v.n / 2) fun n =>
      strict (mul m t g k ⟨p, n⟩).p fun rp => strict (mul m t g k ⟨p, n⟩).n fun rn =>
        (if v.p % 2 = 1 then g else if v.n % 2 = 1 then g.neg else ⟨0, 0⟩ : P).add
          (fold m t ⟨rp <<< 1, rn <<< 1⟩) := rfl

section sound

variable (m t : ℕ)

/-- The residue. -/
noncomputable def ev (a : P) : AdjoinRoot (trinomial m t) := AdjoinRoot.mk _ a.val

theorem root_pow : AdjoinRoot.root (trinomial m t) ^ m =
    1 - AdjoinRoot.root (trinomial m t) ^ t := by
  have e : ∀ r : AdjoinRoot (trinomial m t), eval₂ (AdjoinRoot.of (trinomial m t)) r (X ^ m + X ^ t + C 2) = r ^ m + r ^ t + 2 := by
    intro r
    rw [eval₂_add, eval₂_add, eval₂_X_pow, eval₂_X_pow, eval₂_C, map_ofNat]
  have h := (e _).symm.trans (AdjoinRoot.eval₂_root (trinomial m t))
  have h3 : (3 : AdjoinRoot (trinomial m t)) = 0 := by
    rw [← map_ofNat (AdjoinRoot.of (trinomial m t)) 3, show (OfNat.ofNat 3 : ZMod 3) = 0 by decide, map_zero]
  linear_combination h - h3

theorem ev_add (a b : P) : ev m t (a.add b) = ev m t a + ev m t b := by rw [ev, val_add, map_add]; rfl

theorem ev_neg (a : P) : ev m t a.neg = -ev m t a := by rw [ev, val_neg, map_neg]; rfl

theorem ev_shl (a : P) (k : ℕ) : ev m t ⟨a.p <<< k, a.n <<< k⟩ = ev m t a * AdjoinRoot.root _ ^ k := by
  rw [ev, ev, P.val, P.val, poly_shl, poly_shl, ← sub_mul, map_mul, map_pow, AdjoinRoot.mk_X]

theorem ev_fold (a : P) : ev m t (fold m t a) = ev m t a := by
  have h : ev m t a = ev m t ⟨a.p % 2 ^ m, a.n % 2 ^ m⟩ + AdjoinRoot.root _ ^ m * ev m t ⟨a.p >>> m, a.n >>> m⟩ := by
    rw [ev, ev, ev, ← AdjoinRoot.mk_X, ← map_pow, ← map_mul, ← map_add]
    refine congrArg _ ?_
    rw [P.val, P.val, P.val, poly_split a.p m, poly_split a.n m]
    ring
  rw [fold, ev_add, ev_add, ev_neg, ev_shl m t ⟨a.p >>> m, a.n >>> m⟩, h, root_pow]
  ring

theorem ev_folds (k : ℕ) (a : P) : ev m t (folds m t k a) = ev m t a := by
  induction k generalizing a with
  | zero => rfl
  | succ k ih => rw [folds, strict_eq, strict_eq, ih, ev_fold]

theorem ev_cube (hm : m ≤ 1024) (K : ℕ) (a : P) (hp : a.p < 2 ^ m) (hn : a.n < 2 ^ m) :
    ev m t (cube m t K a) = ev m t a ^ 3 := by
  have hm : 2 ^ m ≤ 2 ^ 1024 := Nat.pow_le_pow_right (by decide) hm
  rw [cube, ev_folds, ev, P.val, poly_spread _ (lt_of_lt_of_le hp hm), poly_spread _ (lt_of_lt_of_le hn hm),
    ← sub_pow_char, map_pow]
  rfl

theorem ev_frob (hm : m ≤ 1024) (K k : ℕ) (a b : P) (h : frob m t K k a = some b) : ev m t b = ev m t a ^ 3 ^ k := by
  induction k generalizing a with
  | zero =>
    rw [frob_zero] at h
    rw [← Option.some.inj h, pow_zero, pow_one]
  | succ k ih =>
    rw [frob_succ, strict_eq, strict_eq] at h
    by_cases hc : a.p < 2 ^ m ∧ a.n < 2 ^ m
    · rw [if_pos hc] at h
      rw [ih _ h, ev_cube m t hm K _ hc.1 hc.2, ← pow_mul, pow_succ, mul_comm 3]
    · rw [if_neg hc] at h
      exact absurd h (by simp)

theorem ev_mul (g : P) (k : ℕ) (v : P) (hp : v.p < 2 ^ k) (hn : v.n < 2 ^ k) (hd : v.p &&& v.n = 0) :
    ev m t (mul m t g k v) = ev m t v * ev m t g := by
  induction k generalizing v with
  | zero =>
    have h1 : v.p = 0 := by simpa using hp
    have h2 : v.n = 0 := by simpa using hn
    rw [mul_zero', ev, ev, P.val, P.val, h1, h2, poly_zero]
    simp
  | succ k ih =>
    have hb : v.p % 2 = 1 → v.n % 2 = 0 := by
      intro h1
      have := congrArg (fun x => Nat.testBit x 0) hd
      simp at this
      omega
    have hs : ev m t (if v.p % 2 = 1 then g else if v.n % 2 = 1 then g.neg else ⟨0, 0⟩) =
        ev m t ⟨v.p % 2, v.n % 2⟩ * ev m t g := by
      have hp2 : v.p % 2 = 0 ∨ v.p % 2 = 1 := by omega
      have hn2 : v.n % 2 = 0 ∨ v.n % 2 = 1 := by omega
      rcases hp2 with e | e
      · rw [if_neg (by omega)]
        rcases hn2 with e' | e'
        · rw [if_neg (by omega), e, e']
          simp [ev, P.val, poly_zero]
        · rw [if_pos e', e, e', ev_neg]
          rw [show ev m t ⟨0, 1⟩ = -1 by simp [ev, P.val, poly_zero, poly_one]]
          ring
      · rw [if_pos e, e, hb e, show ev m t ⟨1, 0⟩ = 1 by simp [ev, P.val, poly_zero, poly_one], one_mul]
    have hd2 : (v.p / 2) &&& (v.n / 2) = 0 := by
      rw [← Nat.and_div_two, hd]
    have hv : ev m t v = ev m t ⟨v.p % 2, v.n % 2⟩ + AdjoinRoot.root _ * ev m t ⟨v.p / 2, v.n / 2⟩ := by
      rw [ev, ev, ev, ← AdjoinRoot.mk_X, ← map_mul, ← map_add]
      refine congrArg _ ?_
      rw [P.val, P.val, P.val, poly_bit v.p, poly_bit v.n]
      ring
    rw [mul_succ']
    simp only [strict_eq]
    rw [ev_add, hs, ev_fold, ev_shl, ih _ (by rw [pow_succ] at hp; simp only; omega)
      (by rw [pow_succ] at hn; simp only; omega) hd2, hv]
    ring

end sound

/-- Certificate: the root is fixed by `m` cubings, and for every listed `e` the difference of the root
after `e` cubings and the root has the listed inverse. -/
def check (m t K : ℕ) (L : List (ℕ × P)) : Bool :=
  (match frob m t K m ⟨2, 0⟩ with
  | some a => a.p == 2 && a.n == 0
  | none => false) &&
  L.all fun c =>
    match frob m t K c.1 ⟨2, 0⟩ with
    | some a =>
      let r := mul m t (a.add ⟨0, 2⟩) m c.2
      decide (c.2.p < 2 ^ m) && decide (c.2.n < 2 ^ m) && (c.2.p &&& c.2.n) == 0 && r.p == 1 && r.n == 0
    | none => false

theorem ev_X (m t : ℕ) : ev m t ⟨2, 0⟩ = AdjoinRoot.root _ := by
  rw [ev, P.val, poly_two, poly_zero, sub_zero, AdjoinRoot.mk_X]

theorem check_root {m t K : ℕ} {L : List (ℕ × P)} (hm : m ≤ 1024) (h : check m t K L = true) :
    AdjoinRoot.root (trinomial m t) ^ 3 ^ m = AdjoinRoot.root (trinomial m t) := by
  rw [check, Bool.and_eq_true] at h
  have h1 := h.1
  cases e : frob m t K m ⟨2, 0⟩ with
  | none => rw [e] at h1; exact absurd h1 (by simp)
  | some a =>
    rw [e] at h1
    simp only [Bool.and_eq_true, beq_iff_eq] at h1
    have := ev_frob m t hm K m _ _ e
    obtain ⟨ap, an⟩ := a
    simp only at h1
    rw [h1.1, h1.2, ev_X] at this
    exact this.symm

theorem check_unit {m t K : ℕ} {L : List (ℕ × P)} (hm : m ≤ 1024) (h : check m t K L = true) (c : ℕ × P) (hc : c ∈ L) :
    IsUnit (AdjoinRoot.root (trinomial m t) ^ 3 ^ c.1 - AdjoinRoot.root (trinomial m t)) := by
  rw [check, Bool.and_eq_true] at h
  have h1 := List.all_eq_true.1 h.2 c hc
  cases e : frob m t K c.1 ⟨2, 0⟩ with
  | none => rw [e] at h1; exact absurd h1 (by simp)
  | some a =>
    rw [e] at h1
    simp only [Bool.and_eq_true, beq_iff_eq, decide_eq_true_eq] at h1
    obtain ⟨⟨⟨⟨hp, hn⟩, hd⟩, r1⟩, r2⟩ := h1
    have h2 := ev_mul m t (a.add ⟨0, 2⟩) m c.2 hp hn hd
    have h3 := ev_frob m t hm K _ _ _ e
    have h4 : ev m t ⟨0, 2⟩ = -AdjoinRoot.root _ := by rw [← ev_X]; exact ev_neg m t ⟨2, 0⟩
    rw [ev_add, h3, ev_X, h4, ← sub_eq_add_neg] at h2
    have h5 : ev m t (mul m t (a.add ⟨0, 2⟩) m c.2) = 1 := by
      rw [ev, P.val, r1, r2, poly_one, poly_zero, sub_zero, map_one]
    rw [h5] at h2
    exact IsUnit.of_mul_eq_one _ (by rw [mul_comm]; exact h2.symm)

/-- A certificate that covers all proper divisors proves irreducibility. -/
theorem irreducible_of_check {m t K : ℕ} {L : List (ℕ × P)} (htm : t < m) (hm1 : m ≤ 1024) (h : check m t K L = true)
    (hL : ∀ d < m, d ∣ m → ∃ c ∈ L, d ∣ c.1) : Irreducible (trinomial m t) := by
  have hdeg : (trinomial m t).natDegree = m := by
    rw [trinomial, natDegree_add_C, natDegree_add_eq_left_of_natDegree_lt, natDegree_X_pow]
    rw [natDegree_X_pow, natDegree_X_pow]; exact htm
  have hmon : (trinomial m t).Monic := by
    rw [trinomial, add_assoc]
    refine monic_X_pow_add (lt_of_le_of_lt (degree_add_le _ _) (max_lt ?_ ?_))
    · rw [degree_X_pow]; exact_mod_cast htm
    · exact lt_of_le_of_lt degree_C_le (by exact_mod_cast (by omega : 0 < m))
  obtain ⟨g, hg, hgirr, hgf⟩ := exists_monic_irreducible_factor (trinomial m t) (by
    intro hu
    have := natDegree_eq_zero_of_isUnit hu
    omega)
  have : Fact (Irreducible g) := ⟨hgirr⟩
  have hd : g.natDegree ≤ m := by rw [← hdeg]; exact natDegree_le_of_dvd hgf hmon.ne_zero
  let φ : AdjoinRoot (trinomial m t) →+* AdjoinRoot g := AdjoinRoot.lift (AdjoinRoot.of g) (AdjoinRoot.root g) (by
    obtain ⟨q, hq⟩ := hgf
    rw [hq, eval₂_mul, AdjoinRoot.eval₂_root, zero_mul])
  have hφ : φ (AdjoinRoot.root _) = AdjoinRoot.root g := AdjoinRoot.lift_root _
  have p1 : Function.IsPeriodicPt (fun y : AdjoinRoot g => y ^ 3) m (AdjoinRoot.root g) := by
    rw [Function.IsPeriodicPt, Function.IsFixedPt, pow_iterate]
    have := congrArg φ (check_root hm1 h)
    rwa [map_pow, hφ] at this
  have p2 : Function.IsPeriodicPt (fun y : AdjoinRoot g => y ^ 3) g.natDegree (AdjoinRoot.root g) := by
    rw [Function.IsPeriodicPt, Function.IsFixedPt, pow_iterate]
    have := Pbc.EtaT.adjoin_frob g hg (AdjoinRoot.root g)
    rwa [ZMod.card] at this
  have p3 := p1.gcd p2
  have hm : 0 < m := by omega
  have hgcd : Nat.gcd m g.natDegree = m := by
    by_contra hne
    have hlt : Nat.gcd m g.natDegree < m :=
      lt_of_le_of_ne (Nat.le_of_dvd hm (Nat.gcd_dvd_left _ _)) hne
    obtain ⟨c, hc, hdv⟩ := hL _ hlt (Nat.gcd_dvd_left _ _)
    have p4 := p3.trans_dvd hdv
    rw [Function.IsPeriodicPt, Function.IsFixedPt, pow_iterate] at p4
    have hu := (check_unit hm1 h c hc).map φ
    rw [map_sub, map_pow, hφ] at hu
    simp only at p4
    rw [p4, sub_self] at hu
    exact not_isUnit_zero hu
  have hmd : m ∣ g.natDegree := by rw [← hgcd]; exact Nat.gcd_dvd_right _ _
  have hge : m ≤ g.natDegree := Nat.le_of_dvd hgirr.natDegree_pos hmd
  have := eq_of_monic_of_dvd_of_natDegree_le hg hmon hgf (by omega)
  rw [this]
  exact hgirr

end Tri3
