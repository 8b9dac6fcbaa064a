import Verif.Model.Ternary
import Mathlib.Data.ZMod.Basic
import Mathlib.RingTheory.AdjoinRoot

/-!
# Specification: residues modulo a ternary trinomial

What two bit planes stand for, independently of the code.
-/

set_option autoImplicit false

namespace Pbc.Ternary

open Polynomial

variable {w : ℕ}

/-- Bit `i` of a plane. -/
def bit (a : Plane w) (i : ℕ) : Bool := (a.getD (i / w) 0).getLsbD (i % w)

/-- The coefficient of `x^i`. -/
def coeff (e : El w) (i : ℕ) : ZMod 3 := (if bit e.p1 i then 1 else 0) + (if bit e.p2 i then 2 else 0)

/-- The polynomial the planes stand for. -/
noncomputable def poly (e : El w) : (ZMod 3)[X] :=
  ∑ i ∈ Finset.range (e.p1.length * w), monomial i (coeff e i)

/-- Planes of `n` words, no coefficient with both bits set. -/
structure Can (n : ℕ) (e : El w) : Prop where
  l1 : e.p1.length = n
  l2 : e.p2.length = n
  disj : ∀ i, ¬ (bit e.p1 i = true ∧ bit e.p2 i = true)

/-- `x^m + x^t + 2`. -/
noncomputable def trinomial (m t : ℕ) : (ZMod 3)[X] := X ^ m + X ^ t + C 2

/-- The field was set up for this trinomial with words long enough. -/
structure Good (m t : ℕ) (P : Params w) : Prop where
  word : 0 < w
  pos : 0 < t
  lt : t < m
  len : P.len = m / w + 1
  hm : P.m = m
  ht : P.t = t
  can : Can P.len P.p
  hp : poly P.p = trinomial m t

/-- The element stands for the residue class `z`: it is reduced and no coefficient has two values. -/
structure Reps (m t n : ℕ) (e : El w) (z : AdjoinRoot (trinomial m t)) : Prop where
  can : Can n e
  deg : (Ternary.poly e).degree < m
  val : AdjoinRoot.mk (trinomial m t) (Ternary.poly e) = z

end Pbc.Ternary
