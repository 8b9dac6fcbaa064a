import Verif.Spec.Poly
import Mathlib.Algebra.BigOperators.Ring.Finset
import Mathlib.RingTheory.AdjoinRoot

/-!
# Specification: residues modulo a polynomial

What an array of coefficients stands for in `R[x]/(f)`, independently of the code.
-/

set_option autoImplicit false

namespace Pbc.Polymod

open Finset Polynomial Spec

section ring

variable {R A : Type*} [CommRing R] [CommRing A]

/-- The value of an array of `n` coefficients. -/
def val (φ : R →+* A) (x : A) (n : ℕ) (a : ℕ → R) : A := ∑ i ∈ range n, φ (a i) * x ^ i

variable (φ : R →+* A) (x : A)

/-- An operation wrote the value `v` at `d` and changed nothing else below `s`. -/
def Writes (n s : ℕ) (m m' : ℕ → ℕ → R) (d : ℕ) (v : A) : Prop :=
  val φ x n (m' d) = v ∧ ∀ y, y < s → y ≠ d → m' y = m y

/-- The element of `R[x]/(f)` an array stands for. -/
noncomputable def el (f : R[X]) (n : ℕ) (a : ℕ → R) : AdjoinRoot f :=
  val (AdjoinRoot.of f) (AdjoinRoot.root f) n a

/-- What `field_init_polymod` is given: a monic polynomial of positive degree `n`. -/
structure Modulus (n : ℕ) (poly : List R) : Prop where
  pos : 0 < n
  len : poly.length = n + 1
  top : poly.getD n 0 = 1

end ring

section field

variable {K : Type*} [Field K]

/-- The store stands for the state `s` on the elements below `t`. -/
def Rep (n : ℕ) (P : List K) (t : ℕ) (m : ℕ → ℕ → K) (s : ℕ → AdjoinRoot (toPoly P)) : Prop :=
  ∀ e, e < t → el (toPoly P) n (m e) = s e

end field

end Pbc.Polymod
