import Verif.Lemmas.Singular
import Mathlib.Tactic.ComputeDegree

/-! # C122: the pairing of the nodal curve

The group of the curve is the multiplicative group of the field (C42), `u = nodeMap Q`, `w = nodeMap R`.  The order
of the pairing is `q - 1`. -/

set_option autoImplicit false
set_option linter.unusedSectionVars false

namespace Pbc.Singular

open Spec
open Pbc.Curve (Pt Mem fresh)
open Props (nodeMap)
open Polynomial

variable {K : Type*} [Field K] [DecidableEq K] [Fintype K]

/-- **C122**, what is computed: with a generator `P` of the group, whatever is returned is
`((w + 1) (w u - 1) / ((w - 1) (w u + 1)))²`, which does not depend on `P` and does depend on the random point.
Missing: a pairing (`C122_random_fails`). -/
theorem C122_value_partial (h2 : (2 : K) ≠ 0) {P Q R : (SN K).Point} {p' q' r' : Pt K} (hp : PtRep p' P)
    (hq : PtRep q' Q) (hr : PtRep r' R) (ho : addOrderOf P = order (Fintype.card K)) (hR : R ≠ 0) (hRP : R ≠ P)
    (hQR : Q + R ≠ 0) (hQRP : Q + R ≠ P) {g : K} (hg : pairing (order (Fintype.card K)) p' q' r' = some g) :
    g * ((nodeMap R - 1) * (nodeMap R * nodeMap Q + 1)) ^ 2 = ((nodeMap R + 1) * (nodeMap R * nodeMap Q - 1)) ^ 2 := by
  obtain ⟨c, hc, hall⟩ := miller_value h2 hp ho
  have inj : ∀ {A B : (SN K).Point}, A ≠ B → nodeMap A ≠ nodeMap B := fun {A B} hne h => by
    have := (Props.C42_iso h2).1 (A - B) B
    rw [sub_add_cancel, h] at this
    have h1 : nodeMap (A - B) = 1 :=
      (mul_right_cancel₀ ((Props.C42_iso h2).2.1 B) (by rw [one_mul]; exact this)).symm
    exact hne (sub_eq_zero.1 ((nodeMap_one_iff h2 _).1 h1))
  have inj1 : ∀ {A : (SN K).Point}, A ≠ 0 → nodeMap A ≠ 1 := fun {A} h => inj h
  obtain ⟨m, em, hm, -⟩ := add_rep h2 (m := fun i => if i = 1 then q' else if i = 2 then r' else fresh) (a := 1) (b := 2)
    (P := Q) (Q := R) (by simpa using hq) (by simpa using hr) 0
  rw [pairing, em] at hg
  dsimp only at hg
  cases e1 : miller (order (Fintype.card K)) p' (m 0).x (m 0).y with
  | none => rw [e1] at hg; cases hg
  | some o =>
    rw [e1] at hg
    dsimp only at hg
    cases e2 : miller (order (Fintype.card K)) p' r'.x r'.y with
    | none => rw [e2] at hg; cases hg
    | some e0 =>
      rw [e2] at hg
      dsimp only at hg
      unfold Pbc.Quad.inv? at hg
      split_ifs at hg with h0
      simp only [Option.some.injEq] at hg
      have a1 := at_of h2 hm hQR
      have a2 := at_of h2 hr hR
      have k1 := hall _ _ _ a1 (inj1 hQR) (inj hQRP) e1
      have k2 := hall _ _ _ a2 (inj1 hR) (inj hRP) e2
      rw [a1.x, (Props.C42_iso h2).1, mul_comm (nodeMap Q)] at k1
      rw [a2.x] at k2
      have n1 : nodeMap R * nodeMap Q - 1 ≠ 0 := sub_ne_zero.2 (by
        have := inj1 hQR
        rwa [(Props.C42_iso h2).1, mul_comm] at this)
      have n2 : nodeMap R - 1 ≠ 0 := sub_ne_zero.2 (inj1 hR)
      rw [← hg]
      generalize nodeMap R = w at *
      generalize nodeMap Q = u at *
      field_simp at k1 k2
      have hk : o * (w * u + 1) ^ 2 * (w - 1) ^ 2 = e0 * (w + 1) ^ 2 * (w * u - 1) ^ 2 := by
        linear_combination (w - 1) ^ 2 * k1 - (w * u - 1) ^ 2 * k2
      field_simp
      linear_combination hk

/-- **C122, what fails.**  The value depends on the point that the routine draws: for `Q` other than `O`, at most four of the
points `R` (other than `O`, `P`, `-Q`, `P - Q`) lead to the same value. -/
theorem C122_random_fails (h2 : (2 : K) ≠ 0) {P Q : (SN K).Point} {p' q' : Pt K} (hp : PtRep p' P) (hq : PtRep q' Q)
    (ho : addOrderOf P = order (Fintype.card K)) (hQ : Q ≠ 0) (g : K) (S : Finset (SN K).Point)
    (hS : ∀ R ∈ S, (R ≠ 0 ∧ R ≠ P ∧ Q + R ≠ 0 ∧ Q + R ≠ P) ∧
      ∃ r', PtRep r' R ∧ pairing (order (Fintype.card K)) p' q' r' = some g) : S.card ≤ 4 := by
  classical
  have hu : nodeMap Q ≠ 1 := fun h => hQ ((nodeMap_one_iff h2 Q).1 h)
  set u := nodeMap Q
  set f : K[X] := ((X + 1) * (C u * X - 1)) ^ 2 - C g * ((X - 1) * (C u * X + 1)) ^ 2 with hf
  have hf0 : f ≠ 0 := fun h => by
    have h1 : f.eval 1 = 0 := by rw [h, eval_zero]
    rw [hf] at h1
    simp only [eval_sub, eval_mul, eval_pow, eval_add, eval_X, eval_C, eval_one] at h1
    have h3 : (2 * (u - 1)) ^ 2 = 0 := by linear_combination h1
    exact mul_ne_zero h2 (sub_ne_zero.2 hu) (pow_eq_zero_iff (two_ne_zero) |>.1 h3)
  have hdeg : f.natDegree ≤ 4 := by
    rw [hf]
    compute_degree
  have hinj : Set.InjOn (nodeMap : (SN K).Point → K) S := by
    intro A _ B _ h
    have := (Props.C42_iso h2).1 (A - B) B
    rw [sub_add_cancel, h] at this
    have h1 : nodeMap (A - B) = 1 :=
      (mul_right_cancel₀ ((Props.C42_iso h2).2.1 B) (by rw [one_mul]; exact this)).symm
    exact sub_eq_zero.1 ((nodeMap_one_iff h2 _).1 h1)
  have hsub : S.image nodeMap ⊆ f.roots.toFinset := by
    intro w hw
    obtain ⟨R, hR, rfl⟩ := Finset.mem_image.1 hw
    obtain ⟨⟨h0, h1, h3, h4⟩, r', hr, he⟩ := hS R hR
    have := C122_value_partial h2 hp hq hr ho h0 h1 h3 h4 he
    rw [Multiset.mem_toFinset, mem_roots', IsRoot, hf]
    refine ⟨hf0, ?_⟩
    simp only [eval_sub, eval_mul, eval_pow, eval_add, eval_X, eval_C, eval_one]
    rw [mul_comm u (nodeMap R)]
    linear_combination -this
  rw [← Finset.card_image_of_injOn hinj]
  exact (Finset.card_le_card hsub).trans ((Multiset.toFinset_card_le _).trans ((card_roots' f).trans hdeg))

/-! ### Instances -/

section instances

private instance prime13 : Fact (Nat.Prime 13) := ⟨by norm_num⟩

/-- The point with parameter 2, a generator. -/
def P13 : (SN (ZMod 13)).Point := .some 8 11 (by
  rw [WeierstrassCurve.Affine.nonsingular_iff, WeierstrassCurve.Affine.equation_iff]
  simp only [SN]
  decide +kernel)

theorem P13_rep : PtRep (⟨false, 8, 11⟩ : Pt (ZMod 13)) P13 := ⟨rfl, rfl, rfl⟩

theorem P13_map : nodeMap P13 = 2 := by
  change ((11 : ZMod 13) + 8) / (11 - 8) = 2
  decide +kernel

theorem P13_order : addOrderOf P13 = order (Fintype.card (ZMod 13)) := by
  rw [ZMod.card]
  have h2 : (2 : ZMod 13) ≠ 0 := by decide
  have key : ∀ k, k • P13 = 0 ↔ (2 : ZMod 13) ^ k = 1 := fun k => by
    rw [← nodeMap_one_iff h2, nodeMap_nsmul h2, P13_map]
  refine addOrderOf_eq_of_nsmul_and_div_prime_nsmul (by decide) ((key _).2 (by decide +kernel)) fun p hp hd => ?_
  rw [Ne, key]
  have hle : p ≤ 12 := Nat.le_of_dvd (by decide) hd
  simp only [order] at hd ⊢
  interval_cases p <;> revert hp hd <;> decide +kernel

/-- Two random points, two values for the pairing of the same points. -/
example : (pairing (order 13) (⟨false, 8, 11⟩ : Pt (ZMod 13)) ⟨false, 8, 11⟩ ⟨false, 2, 5⟩,
    pairing (order 13) (⟨false, 8, 11⟩ : Pt (ZMod 13)) ⟨false, 8, 11⟩ ⟨false, 3, 6⟩) = (some 4, some 10) := by
  decide +kernel

/-- The hypotheses hold for the first. -/
example : ∃ R : (SN (ZMod 13)).Point, PtRep (⟨false, 2, 5⟩ : Pt (ZMod 13)) R ∧ R ≠ 0 ∧ R ≠ P13 ∧ P13 + R ≠ 0 ∧
    P13 + R ≠ P13 ∧ (4 : ZMod 13) * ((nodeMap R - 1) * (nodeMap R * nodeMap P13 + 1)) ^ 2 =
      ((nodeMap R + 1) * (nodeMap R * nodeMap P13 - 1)) ^ 2 := by
  have h2 : (2 : ZMod 13) ≠ 0 := by decide
  have hn : (SN (ZMod 13)).Nonsingular 2 5 := by
    rw [WeierstrassCurve.Affine.nonsingular_iff, WeierstrassCurve.Affine.equation_iff]
    simp only [SN]
    decide +kernel
  have hm : nodeMap (.some 2 5 hn) = 11 := by
    change ((5 : ZMod 13) + 2) / (5 - 2) = 11
    decide +kernel
  have h0 : (WeierstrassCurve.Affine.Point.some 2 5 hn : (SN (ZMod 13)).Point) ≠ 0 :=
    WeierstrassCurve.Affine.Point.some_ne_zero _
  have h1 : (WeierstrassCurve.Affine.Point.some 2 5 hn : (SN (ZMod 13)).Point) ≠ P13 := fun h => by
    have := congrArg nodeMap h
    rw [hm, P13_map] at this
    exact absurd this (by decide)
  have h3 : P13 + .some 2 5 hn ≠ 0 := fun h => by
    have := (Props.C42_iso h2).1 P13 (.some 2 5 hn)
    rw [h, hm, P13_map, nodeMap_zero] at this
    exact absurd this (by decide)
  have h4 : P13 + .some 2 5 hn ≠ P13 := fun h => h0 (add_eq_left.1 h)
  have hrep : PtRep (⟨false, 2, 5⟩ : Pt (ZMod 13)) (.some 2 5 hn : (SN (ZMod 13)).Point) := ⟨rfl, rfl, rfl⟩
  exact ⟨.some 2 5 hn, hrep, h0, h1, h3, h4, C122_value_partial h2 P13_rep P13_rep
    hrep P13_order h0 h1 h3 h4 (by rw [ZMod.card]; decide +kernel)⟩

end instances

end Pbc.Singular
