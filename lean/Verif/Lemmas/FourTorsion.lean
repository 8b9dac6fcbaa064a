import Verif.Lemmas.Curve
import Verif.Lemmas.Stepanov

/-! # Points not killed by 4

Every curve over a field with more than 37 elements has one. -/

set_option autoImplicit false

namespace Tate

open WeierstrassCurve WeierstrassCurve.Affine
open Spec (EC)

variable {K : Type*} [Field K] [DecidableEq K] [Fintype K] {a b : K}

/-- At most four points are killed by 2. -/
theorem card_two_le (h2 : (2 : K) ≠ 0) (s : Finset (EC a b).Point) (hs : ∀ P ∈ s, 2 • P = 0) : s.card ≤ 4 := by
  classical
  let f : (EC a b).Point → Option K := fun P => match P with
    | .zero => none
    | .some x _ _ => some x
  have hy : ∀ x y (h : (EC a b).Nonsingular x y), Point.some x y h ∈ s → y = 0 := by
    intro x y h hm
    have := hs _ hm
    rw [two_nsmul] at this
    by_contra h0
    have hne : y ≠ (EC a b).negY x y := by
      rw [Pbc.Curve.negY_EC]
      intro e
      exact mul_ne_zero h2 h0 (by linear_combination e)
    rw [Point.add_self_of_Y_ne hne] at this
    exact Point.some_ne_zero _ this
  have hinj : Set.InjOn f s := by
    intro P hP Q hQ e
    rcases P with _ | ⟨x, y, h⟩ <;> rcases Q with _ | ⟨x', y', h'⟩
    · rfl
    · cases e
    · cases e
    · have e' : x = x' := Option.some.inj e
      have h1 := hy _ _ _ hP
      have h3 := hy _ _ _ hQ
      subst e' h1 h3
      rfl
  have hsub : s.image f ⊆ (insert none (((Stepanov.cub a b).roots.toFinset).image some)) := by
    intro o ho
    obtain ⟨P, hP, rfl⟩ := Finset.mem_image.1 ho
    rcases P with _ | ⟨x, y, h⟩
    · exact Finset.mem_insert_self _ _
    · refine Finset.mem_insert_of_mem (Finset.mem_image_of_mem _ ?_)
      have h1 := hy _ _ _ hP
      subst h1
      have he := h.1
      rw [equation_iff] at he
      simp only [EC] at he
      rw [Multiset.mem_toFinset, Polynomial.mem_roots', Polynomial.IsRoot, Stepanov.cub_eval]
      refine ⟨fun e0 => ?_, by linear_combination -he⟩
      have := Stepanov.cub_natDegree a b
      rw [e0, Polynomial.natDegree_zero] at this
      omega
  rw [← Finset.card_image_of_injOn hinj]
  refine (Finset.card_le_card hsub).trans ((Finset.card_insert_le _ _).trans ?_)
  have := (Finset.card_image_le (s := (Stepanov.cub a b).roots.toFinset) (f := some)).trans
    ((Multiset.toFinset_card_le _).trans ((Polynomial.card_roots' (Stepanov.cub a b)).trans (Stepanov.cub_natDegree a b).le))
  omega

/-- Over a field with more than 37 elements every curve has a point not killed by 4. -/
theorem exists_four (h2 : (2 : K) ≠ 0) (h3 : (3 : K) ≠ 0) (hQ : 37 < Fintype.card K) :
    ∃ S : (EC a b).Point, 4 • S ≠ 0 := by
  classical
  by_contra hno
  push Not at hno
  have hfin0 : Finite (EC a b).Point := Finite.of_injective (β := Option (K × K))
    (fun P => match P with
      | .zero => none
      | .some x y _ => some (x, y)) (by
    intro P Q e
    rcases P with _ | ⟨x, y, h⟩ <;> rcases Q with _ | ⟨x', y', h'⟩
    · rfl
    · cases e
    · cases e
    · obtain ⟨rfl, rfl⟩ := Prod.mk.inj (Option.some.inj e)
      rfl)
  have hfin : Fintype (EC a b).Point := Fintype.ofFinite _
  have h16 : (Finset.univ : Finset (EC a b).Point).card ≤ 4 * 4 := by
    refine (Finset.card_le_mul_card_image (f := fun P => 2 • P) Finset.univ 4 ?_).trans
      (Nat.mul_le_mul_left 4 (card_two_le h2 _ ?_))
    · intro T hT
      obtain ⟨P₀, -, rfl⟩ := Finset.mem_image.1 hT
      rw [← Finset.card_image_of_injective _ (sub_left_injective (b := P₀))]
      refine card_two_le h2 _ fun P hP => ?_
      obtain ⟨Q, hQ, rfl⟩ := Finset.mem_image.1 hP
      rw [nsmul_sub, sub_eq_zero]
      exact (Finset.mem_filter.1 hQ).2
    · intro P hP
      obtain ⟨Q, -, rfl⟩ := Finset.mem_image.1 hP
      show 2 • 2 • Q = 0
      rw [← mul_nsmul']
      exact hno Q
  have hns : ∀ x y : K, y ^ 2 = x ^ 3 + a * x + b → y ≠ 0 → (EC a b).Nonsingular x y := by
    intro x y h0 hy
    rw [nonsingular_iff, equation_iff]
    refine ⟨by simpa [EC] using h0, Or.inr ?_⟩
    simp only [EC]
    intro h0
    exact mul_ne_zero h2 hy (by linear_combination h0)
  set S : Finset K := Finset.univ.filter fun x => ∃ y, y ≠ 0 ∧ y ^ 2 = x ^ 3 + a * x + b with hSdef
  have hS : Fintype.card K ≤ 3 * S.card + 13 := by
    rw [hSdef]
    convert Stepanov.le_count (a := a) (b := b) h2 h3
  have hle : 2 * S.card ≤ (Finset.univ : Finset (EC a b).Point).card := by
    have hx : ∀ x ∈ S, ∃ y, y ≠ 0 ∧ y ^ 2 = x ^ 3 + a * x + b := fun x hx => (Finset.mem_filter.1 hx).2
    choose! y hy he using hx
    have hc : (S ×ˢ (Finset.univ : Finset Bool)).card = 2 * S.card := by
      rw [Finset.card_product, Finset.card_univ, Fintype.card_bool, mul_comm]
    rw [← hc]
    refine Finset.card_le_card_of_injOn (fun z => if hz : z.1 ∈ S then
        (if z.2 then Point.some z.1 (y z.1) (hns _ _ (he _ hz) (hy _ hz))
          else Point.some z.1 (-y z.1) (hns _ _ (by rw [neg_sq]; exact he _ hz) (neg_ne_zero.2 (hy _ hz)))) else 0)
      (fun _ _ => Finset.mem_univ _) ?_
    rintro ⟨x, s⟩ hx ⟨x', s'⟩ hx' e
    replace hx : x ∈ S := (Finset.mem_product.1 hx).1
    replace hx' : x' ∈ S := (Finset.mem_product.1 hx').1
    simp only [dif_pos hx, dif_pos hx'] at e
    have hself : ∀ z : K, z ≠ 0 → z ≠ -z := fun z h0 h1 => mul_ne_zero h2 h0 (by linear_combination h1)
    cases s <;> cases s' <;> simp only [Bool.false_eq_true, if_false, if_true, Point.some.injEq] at e
    · rw [e.1]
    · obtain ⟨rfl, e⟩ := e
      exact absurd e.symm (hself _ (hy _ hx))
    · obtain ⟨rfl, e⟩ := e
      exact absurd e (hself _ (hy _ hx))
    · rw [e.1]
  omega

end Tate
