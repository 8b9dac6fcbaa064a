import Verif.Lemmas.Certify
import Verif.Lemmas.Curve
import Verif.Props.Orders

/-! # Multiples of points that the kernel can evaluate -/

set_option autoImplicit false

namespace Pbc.Certify

open Pbc.Curve Spec
open WeierstrassCurve.Affine (Point)

/-- Arithmetic on codes for elements of a field; inverses need not be right, they are checked where they are used. -/
structure Arith (K : Type*) [Field K] where
  C : Type
  dec : DecidableEq C
  rep : C → K
  one : C
  add : C → C → C
  neg : C → C
  mul : C → C → C
  inv : C → C
  rep_one : rep one = 1
  rep_add : ∀ x y, rep (add x y) = rep x + rep y
  rep_neg : ∀ x, rep (neg x) = -rep x
  rep_mul : ∀ x y, rep (mul x y) = rep x * rep y

variable {K : Type*} [Field K] [DecidableEq K] (A : Arith K)

instance arithDec : DecidableEq A.C := A.dec

/-- The point through which a line of slope `l` through `(x1, y1)` and a point with first coordinate `x2` leads, reflected. -/
def Arith.third (l x1 y1 x2 : A.C) : A.C × A.C :=
  let x := A.add (A.mul l l) (A.neg (A.add x1 x2))
  (x, A.add (A.mul (A.add x1 (A.neg x)) l) (A.neg y1))

/-- Twice a point. -/
def Arith.dbl (a : A.C) (p : A.C × A.C) : Option (A.C × A.C) :=
  let y2 := A.add p.2 p.2
  let i := A.inv y2
  if A.mul y2 i = A.one then
    let x2 := A.mul p.1 p.1
    some (A.third (A.mul (A.add (A.add x2 (A.add x2 x2)) a) i) p.1 p.2 p.1)
  else none

/-- The sum of two points with different first coordinates. -/
def Arith.plus (p q : A.C × A.C) : Option (A.C × A.C) :=
  let d := A.add q.1 (A.neg p.1)
  let i := A.inv d
  if A.mul d i = A.one then some (A.third (A.mul (A.add q.2 (A.neg p.2)) i) p.1 p.2 q.1) else none

/-- Doubling and adding along binary digits. -/
def Arith.ladder (a : A.C) (p : A.C × A.C) : List Bool → A.C × A.C → Option (A.C × A.C)
  | [], s => some s
  | d :: ds, s =>
    match A.dbl a s with
    | none => none
    | some s' => if d then
        match A.plus s' p with
        | none => none
        | some s'' => ladder a p ds s''
      else ladder a p ds s'

/-- The codes stand for the coordinates of the point. -/
def Arith.At {a b : K} (p : A.C × A.C) (P : (EC a b).Point) : Prop := ∃ h, P = Point.some (A.rep p.1) (A.rep p.2) h

variable {A} {a b : K}

theorem at_of {x y : K} {P : (EC a b).Point} (h : PtRep (⟨false, x, y⟩ : Pt K) P) {p : A.C × A.C} (h1 : A.rep p.1 = x)
    (h2 : A.rep p.2 = y) : A.At p P := by
  cases P with
  | zero => exact absurd h (by simp [PtRep])
  | some x' y' hn =>
    obtain ⟨-, rfl, rfl⟩ := h
    refine ⟨?_, ?_⟩
    · rw [h1, h2]; exact hn
    · simp only [h1, h2]

theorem dbl_at {ca : A.C} (ha : A.rep ca = a) {p p' : A.C × A.C} {P : (EC a b).Point} (hp : A.At p P)
    (e : A.dbl ca p = some p') : A.At p' (P + P) := by
  obtain ⟨hn, rfl⟩ := hp
  simp only [Arith.dbl, Option.ite_none_right_eq_some, Option.some.injEq] at e
  obtain ⟨hi, rfl⟩ := e
  have hi' := congrArg A.rep hi
  rw [A.rep_mul, A.rep_add, A.rep_one, ← two_mul] at hi'
  have h20 : (2 : K) * A.rep p.2 ≠ 0 := left_ne_zero_of_mul_eq_one hi'
  have hinv : A.rep (A.inv (A.add p.2 p.2)) = (2 * A.rep p.2)⁻¹ := eq_inv_of_mul_eq_one_right hi'
  have key := dbl_some (left_ne_zero_of_mul h20) hn (right_ne_zero_of_mul h20)
  refine at_of key ?_ ?_
  · simp only [Arith.third, A.rep_add, A.rep_mul, A.rep_neg, hinv, ha, dblX]; ring
  · simp only [Arith.third, A.rep_add, A.rep_mul, A.rep_neg, hinv, ha, dblX, dblY]; ring

theorem plus_at {p q s : A.C × A.C} {P Q : (EC a b).Point} (hp : A.At p P) (hq : A.At q Q)
    (e : A.plus p q = some s) : A.At s (P + Q) := by
  obtain ⟨hn, rfl⟩ := hp
  obtain ⟨hn', rfl⟩ := hq
  simp only [Arith.plus, Option.ite_none_right_eq_some, Option.some.injEq] at e
  obtain ⟨hi, rfl⟩ := e
  have hi' := congrArg A.rep hi
  rw [A.rep_mul, A.rep_add, A.rep_neg, A.rep_one, ← sub_eq_add_neg] at hi'
  have hinv := eq_inv_of_mul_eq_one_right hi'
  have key := ch_some hn hn' (fun e => left_ne_zero_of_mul_eq_one hi' (by rw [e, sub_self]))
  refine at_of key ?_ ?_
  · simp only [Arith.third, A.rep_add, A.rep_mul, A.rep_neg, hinv, chX]; ring
  · simp only [Arith.third, A.rep_add, A.rep_mul, A.rep_neg, hinv, chX, chY]; ring

/-- The number with these binary digits behind those of `m`. -/
def ofBits (m : ℕ) (ds : List Bool) : ℕ := ds.foldl (fun m d => 2 * m + if d then 1 else 0) m

theorem ladder_at {ca : A.C} (ha : A.rep ca = a) {p : A.C × A.C} {P : (EC a b).Point} (hp : A.At p P) :
    ∀ (ds : List Bool) (m : ℕ) (s s' : A.C × A.C), A.At s (m • P) → A.ladder ca p ds s = some s' →
      A.At s' (ofBits m ds • P)
  | [], m, s, s', h, e => by cases e; exact h
  | d :: ds, m, s, s', h, e => by
    rw [Arith.ladder] at e
    rcases h1 : A.dbl ca s with _ | t
    · rw [h1] at e; cases e
    · rw [h1] at e
      dsimp only at e
      have ht := dbl_at ha h h1
      rw [← two_nsmul, ← mul_nsmul'] at ht
      cases d with
      | false =>
        simp only [Bool.false_eq_true, if_false] at e
        exact ladder_at ha hp ds (2 * m) t s' ht e
      | true =>
        simp only [if_true] at e
        rcases h2 : A.plus t p with _ | t'
        · rw [h2] at e; cases e
        · rw [h2] at e
          have ht' := plus_at ht hp h2
          refine ladder_at ha hp ds (2 * m + 1) t' s' ?_ e
          rwa [add_nsmul, one_nsmul]

/-- The binary digits of a number of `k + 1` digits, without the first. -/
def bitsOf (k n : ℕ) : List Bool := (List.range k).reverse.map fun i => n / 2 ^ i % 2 = 1

/-- `(r - 1) p = -p`. -/
def Arith.checkOrder (a : A.C) (p : A.C × A.C) (k r : ℕ) : Bool :=
  ofBits 1 (bitsOf k (r - 1)) = r - 1 && 0 < r &&
    match A.ladder a p (bitsOf k (r - 1)) p with
    | none => false
    | some s => s = (p.1, A.neg p.2)

theorem checkOrder_sound {ca : A.C} (ha : A.rep ca = a) {p : A.C × A.C} {P : (EC a b).Point} (hp : A.At p P) {k r : ℕ}
    (h : A.checkOrder ca p k r = true) : r • P = 0 ∧ P ≠ 0 := by
  simp only [Arith.checkOrder, Bool.and_eq_true, decide_eq_true_eq] at h
  obtain ⟨⟨h1, h2⟩, h3⟩ := h
  refine ⟨?_, fun h0 => ?_⟩
  · rcases e : A.ladder ca p (bitsOf k (r - 1)) p with _ | s
    · rw [e] at h3; cases h3
    · rw [e] at h3
      have hs := ladder_at ha hp _ 1 p s (by rwa [one_nsmul]) e
      rw [h1] at hs
      obtain rfl : s = (p.1, A.neg p.2) := by simpa using h3
      obtain ⟨hn, e2⟩ := hs
      obtain ⟨hn', rfl⟩ := hp
      have : (r - 1) • Point.some (A.rep p.1) (A.rep p.2) hn' = -Point.some (A.rep p.1) (A.rep p.2) hn' := by
        rw [e2, WeierstrassCurve.Affine.Point.neg_some]
        congr 1
        rw [negY_EC, A.rep_neg]
      obtain ⟨m, rfl⟩ : ∃ m, r = m + 1 := ⟨r - 1, by omega⟩
      rw [Nat.add_sub_cancel] at this
      rw [add_nsmul, one_nsmul, this, neg_add_cancel]
  · obtain ⟨hn, e⟩ := hp
    rw [h0] at e
    cases e

/-! ### The prime field -/

/-- Arithmetic modulo `q`, on natural numbers. -/
def zmodArith (q : ℕ) [Fact q.Prime] (k : ℕ) : Arith (ZMod q) where
  C := ℕ
  dec := inferInstance
  rep x := x
  one := 1
  add x y := (x + y) % q
  neg x := q - x % q
  mul x y := x * y % q
  inv x := powBy (fun x y => x * y % q) k x (q - 2) 1
  rep_one := Nat.cast_one
  rep_add x y := by rw [ZMod.natCast_mod, Nat.cast_add]
  rep_neg x := by
    rw [Nat.cast_sub (Nat.mod_lt _ (Fact.out : q.Prime).pos).le, ZMod.natCast_self, ZMod.natCast_mod, zero_sub]
  rep_mul x y := by rw [ZMod.natCast_mod, Nat.cast_mul]

end Pbc.Certify
