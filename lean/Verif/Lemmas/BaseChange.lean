import Verif.Lemmas.TateLine
import Verif.Model.PairingD

/-! # Points of a curve over a field, seen over an extension -/

set_option autoImplicit false
set_option linter.unusedSectionVars false

namespace Pbc.PairingD

open Pbc.Curve (Pt dblX dblY chX chY)
open WeierstrassCurve WeierstrassCurve.Affine
open Spec (EC PtRep)
open Tate

variable {F : Type*} [Field F] [DecidableEq F] {K : Type*} [Field K] [DecidableEq K] [Algebra F K]

local notation "φ" => algebraMap F K

/-- A stored point with its coordinates in the extension. -/
def up (K : Type*) [Field K] [Algebra F K] (p : Pt F) : Pt K :=
  ⟨p.inf, algebraMap F K p.x, algebraMap F K p.y⟩

variable {a b : F}

theorem nonsingular_up {x y : F} (h : (EC a b).Nonsingular x y) :
    (EC (φ a) (φ b)).Nonsingular (φ x) (φ y) := by
  rw [nonsingular_iff, equation_iff] at h ⊢
  simp only [EC] at h ⊢
  have inj := (algebraMap F K).injective
  have h1 := congrArg (algebraMap F K) h.1
  refine ⟨by simpa using h1, ?_⟩
  rcases h.2 with h2 | h2
  · left
    intro e
    exact h2 (inj (by simpa [map_ofNat] using e))
  · right
    intro e
    exact h2 (inj (by simpa using e))

/-- The inclusion of points. -/
def incl : (EC a b).Point → (EC (φ a) (φ b)).Point
  | .zero => .zero
  | .some x y h => .some (φ x) (φ y) (nonsingular_up h)

theorem incl_rep {p : Pt F} {P : (EC a b).Point} (h : PtRep p P) : PtRep (up K p) (incl (K := K) P) := by
  rcases P with _ | ⟨x, y, hn⟩
  · exact h
  · obtain ⟨h1, rfl, rfl⟩ : p.inf = false ∧ p.x = x ∧ p.y = y := h
    exact ⟨h1, rfl, rfl⟩

/-- A stored element stands for one point only. -/
theorem rep_unique {p : Pt F} {P Q : (EC a b).Point} (h : PtRep p P) (h' : PtRep p Q) : P = Q := by
  rcases P with _ | ⟨x, y, hn⟩ <;> rcases Q with _ | ⟨x', y', hn'⟩
  · rfl
  · exact absurd (h.symm.trans h'.1) (by decide)
  · exact absurd (h'.symm.trans h.1) (by decide)
  · obtain ⟨_, rfl, rfl⟩ : p.inf = false ∧ p.x = x ∧ p.y = y := h
    obtain ⟨_, rfl, rfl⟩ : p.inf = false ∧ p.x = x' ∧ p.y = y' := h'
    rfl

/-- Every point is stored by some element. -/
theorem exists_rep (P : (EC a b).Point) : ∃ p : Pt F, PtRep p P := by
  rcases P with _ | ⟨x, y, hn⟩
  · exact ⟨⟨true, 0, 0⟩, rfl⟩
  · exact ⟨⟨false, x, y⟩, rfl, rfl, rfl⟩

theorem add_rep (h2 : (2 : F) ≠ 0) {p q : Pt F} {P Q : (EC a b).Point} (hp : PtRep p P) (hq : PtRep q Q) :
    ∃ s, add a p q = some s ∧ PtRep s (P + Q) := by
  obtain ⟨m', e, h⟩ := Curve.add_rep (ca := a) (cb := b) h2 (m := fun i => if i = 0 then p else q)
    (a := 0) (b := 1) (P := P) (Q := Q) (by simpa using hp) (by simpa using hq) 0
  exact ⟨m' 0, by rw [add, e]; rfl, h.1⟩

theorem two_up (h2 : (2 : F) ≠ 0) : (2 : K) ≠ 0 := fun e => h2 ((algebraMap F K).injective (by simpa [map_ofNat] using e))

omit [DecidableEq F] [DecidableEq K] in
theorem dblX_up (ca x y : F) : φ (dblX ca x y) = dblX (φ ca) (φ x) (φ y) := by
  simp [dblX, map_ofNat]

omit [DecidableEq F] [DecidableEq K] in
theorem dblY_up (ca x y : F) : φ (dblY ca x y) = dblY (φ ca) (φ x) (φ y) := by
  simp [dblY, dblX_up, map_ofNat]

omit [DecidableEq F] [DecidableEq K] in
theorem chX_up (x₁ y₁ x₂ y₂ : F) : φ (chX x₁ y₁ x₂ y₂) = chX (φ x₁) (φ y₁) (φ x₂) (φ y₂) := by
  simp [chX]

omit [DecidableEq F] [DecidableEq K] in
theorem chY_up (x₁ y₁ x₂ y₂ : F) : φ (chY x₁ y₁ x₂ y₂) = chY (φ x₁) (φ y₁) (φ x₂) (φ y₂) := by
  simp [chY, chX_up]

/-- Addition commutes with the inclusion. -/
theorem add_up (h2 : (2 : F) ≠ 0) (ca : F) (p q : Pt F) :
    add (φ ca) (up K p) (up K q) = (add ca p q).map (up K) := by
  have inj : ∀ x y : F, φ x = φ y ↔ x = y := fun x y => (algebraMap F K).injective.eq_iff
  have inj0 : ∀ x : F, φ x = 0 ↔ x = 0 := fun x => by rw [← inj, map_zero]
  unfold add
  rw [Curve.add_eq _ _ _ _ _ h2, Curve.add_eq _ _ _ _ _ (two_up h2)]
  simp only [Option.map_some, Curve.set_eq, if_pos, one_ne_zero, if_false]
  have e1 : (up K p).inf = p.inf := rfl
  have e2 : (up K q).inf = q.inf := rfl
  have e3 : (up K p).x = φ p.x := rfl
  have e4 : (up K q).x = φ q.x := rfl
  have e5 : (up K p).y = φ p.y := rfl
  have e6 : (up K q).y = φ q.y := rfl
  simp only [e1, e2, e3, e4, e5, e6, inj, inj0]
  congr 1
  split_ifs <;> simp_all [up, Curve.wInf, dblX_up, dblY_up, chX_up, chY_up]

/-- The inclusion is a homomorphism. -/
theorem incl_add (h2 : (2 : F) ≠ 0) (P Q : (EC a b).Point) :
    incl (K := K) (P + Q) = incl P + incl Q := by
  obtain ⟨p, hp⟩ := exists_rep P
  obtain ⟨q, hq⟩ := exists_rep Q
  obtain ⟨s, e, hs⟩ := add_rep h2 hp hq
  obtain ⟨s', e', hs'⟩ := add_rep (two_up (K := K) h2) (incl_rep (K := K) hp) (incl_rep (K := K) hq)
  rw [add_up h2, e, Option.map_some, Option.some.injEq] at e'
  subst e'
  exact rep_unique (incl_rep hs) hs'

theorem incl_zero : incl (K := K) (0 : (EC a b).Point) = 0 := rfl

theorem incl_nsmul (h2 : (2 : F) ≠ 0) (P : (EC a b).Point) :
    ∀ n : ℕ, incl (K := K) (n • P) = n • incl P
  | 0 => by rw [zero_smul, zero_smul, incl_zero]
  | n + 1 => by rw [add_smul, one_smul, incl_add h2, incl_nsmul h2 P n, add_smul, one_smul]

theorem incl_eq_zero {P : (EC a b).Point} (h : incl (K := K) P = 0) : P = 0 := by
  rcases P with _ | ⟨x, y, hn⟩
  · rfl
  · exact absurd h (Point.some_ne_zero _)

theorem dbl_rep (h2 : (2 : F) ≠ 0) {p : Pt F} {P : (EC a b).Point} (hp : PtRep p P) :
    ∃ s, dbl a p = some s ∧ PtRep s (2 • P) := by
  obtain ⟨m', e, h⟩ := Curve.double_rep (ca := a) (cb := b) h2 (m := fun _ => p) (a := 0) (P := P) hp 0
  exact ⟨m' 0, by rw [dbl, e]; rfl, h.1⟩

end Pbc.PairingD
