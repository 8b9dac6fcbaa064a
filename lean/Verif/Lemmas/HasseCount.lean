import Verif.Lemmas.CmCurves
import Verif.Lemmas.Stepanov
import Mathlib.FieldTheory.Finite.Basic
import Mathlib.NumberTheory.LegendreSymbol.QuadraticChar.Basic

/-!
# The degree of `x(F - 1)` is the number of points
-/

set_option autoImplicit false
set_option linter.unusedSectionVars false

namespace Hasse

open Polynomial
open Spec (EC)
open Stepanov (cub cub_eval cub_monic cub_natDegree)

variable {F : Type*} [Field F] [Fintype F] [DecidableEq F]

/-- The product of `X - c` over a set. -/
noncomputable def lin (S : Finset F) : F[X] := ∏ c ∈ S, (X - C c)

theorem lin_monic (S : Finset F) : (lin S).Monic := monic_prod_of_monic _ _ fun c _ => monic_X_sub_C c

theorem lin_natDegree (S : Finset F) : (lin S).natDegree = S.card := by
  rw [lin, natDegree_prod_of_monic _ _ fun c _ => monic_X_sub_C c]
  simp

theorem lin_dvd {S : Finset F} {p : F[X]} (h : ∀ c ∈ S, p.eval c = 0) : lin S ∣ p := by
  refine Finset.prod_dvd_of_coprime ?_ fun c hc => dvd_iff_isRoot.2 (h c hc)
  intro c _ d _ hcd
  exact pairwise_coprime_X_sub_C (s := id) Function.injective_id hcd

theorem lin_coprime {S : Finset F} {p : F[X]} (h : ∀ c ∈ S, p.eval c ≠ 0) : IsCoprime p (lin S) := by
  refine IsCoprime.prod_right fun c hc => IsCoprime.symm ?_
  rw [(irreducible_X_sub_C c).coprime_iff_not_dvd, dvd_iff_isRoot]
  exact h c hc

theorem lin_eval {S : Finset F} {c : F} (h : c ∈ S) : (lin S).eval c = 0 := by
  rw [lin, eval_prod]
  exact Finset.prod_eq_zero h (by simp)

theorem lin_univ : lin (Finset.univ : Finset F) = X ^ Fintype.card F - X := by
  have hm : (X ^ Fintype.card F - X : F[X]).Monic :=
    monic_X_pow_sub (by rw [degree_X]; exact_mod_cast Fintype.one_lt_card)
  have hr := FiniteField.roots_X_pow_card_sub_X F
  have hc : Multiset.card (X ^ Fintype.card F - X : F[X]).roots = (X ^ Fintype.card F - X : F[X]).natDegree := by
    rw [hr, FiniteField.X_pow_card_sub_X_natDegree_eq F Fintype.one_lt_card]
    rfl
  have := prod_multiset_X_sub_C_of_monic_of_roots_card_eq hm hc
  rw [hr] at this
  exact this

variable {a b : F}

theorem cub_pow_card (a b : F) : cub a b ^ Fintype.card F = X ^ (3 * Fintype.card F) + C a * X ^ Fintype.card F + C b := by
  rw [← FiniteField.expand_card, cub]
  simp only [map_add, map_mul, map_pow, expand_X, expand_C]
  rw [← pow_mul, mul_comm 3]

/-- The abscissa of the difference of the Frobenius map and the identity. -/
theorem count_poly (h2 : (2 : F) ≠ 0) (hD : 4 * a ^ 3 + 27 * b ^ 2 ≠ 0) {m : ℕ} (hm : 2 * m + 1 = Fintype.card F) :
    ∃ A B c : F[X], IsCoprime A B ∧ c ≠ 0 ∧ max A.natDegree B.natDegree = Nat.card (EC a b).Point ∧
      c * B = (X ^ Fintype.card F - X) ^ 2 ∧
      c * A = cub a b * (cub a b ^ m + 1) ^ 2 - (X ^ Fintype.card F + X) * (X ^ Fintype.card F - X) ^ 2 := by
  set q := Fintype.card F with hq
  have hm0 : m ≠ 0 := by
    rintro rfl
    have := Fintype.one_lt_card (α := F)
    omega
  have hchar : ringChar F ≠ 2 := fun hc => h2 (by
    have := CharP.cast_eq_zero F (ringChar F)
    rwa [hc] at this)
  have hdiv : q / 2 = m := by omega
  set f := cub a b with hf
  let R : Finset F := Finset.univ.filter fun c => f.eval c = 0
  let N : Finset F := Finset.univ.filter fun c => f.eval c ≠ 0 ∧ f.eval c ^ m = -1
  let S : Finset F := Finset.univ.filter fun c => f.eval c ≠ 0 ∧ f.eval c ^ m = 1
  have h11 : (1 : F) ≠ -1 := fun h => h2 (by linear_combination h)
  have dich : ∀ c, f.eval c ≠ 0 → f.eval c ^ m = 1 ∨ f.eval c ^ m = -1 := fun c hc => by
    rw [← hdiv]; exact FiniteField.pow_dichotomy hchar hc
  have hNR : Disjoint N R := Finset.disjoint_left.2 fun c h h' =>
    (Finset.mem_filter.1 h).2.1 (Finset.mem_filter.1 h').2
  have hS_NR : Disjoint S (N ∪ R) := Finset.disjoint_left.2 fun c h h' => by
    have h1 := (Finset.mem_filter.1 h).2
    rcases Finset.mem_union.1 h' with h' | h'
    · exact h11 (h1.2.symm.trans (Finset.mem_filter.1 h').2.2)
    · exact h1.1 (Finset.mem_filter.1 h').2
  have huniv : S ∪ (N ∪ R) = Finset.univ := by
    ext c
    simp only [Finset.mem_union, Finset.mem_univ, iff_true, S, N, R, Finset.mem_filter, true_and]
    by_cases hc : f.eval c = 0
    · tauto
    · rcases dich c hc with h | h <;> tauto
  have hcard : S.card + (N.card + R.card) = q := by
    rw [← Finset.card_union_of_disjoint hNR, ← Finset.card_union_of_disjoint hS_NR, huniv]
    rfl
  have hZ : (X ^ q - X : F[X]) = lin S * (lin N * lin R) := by
    rw [← lin_univ, ← huniv, lin, Finset.prod_union hS_NR, Finset.prod_union hNR]
    rfl
  obtain ⟨f1, hf1⟩ := lin_dvd (S := R) (p := f) fun c hc => (Finset.mem_filter.1 hc).2
  obtain ⟨g, hg⟩ := lin_dvd (S := N) (p := f ^ m + 1) fun c hc => by
    rw [eval_add, eval_pow, (Finset.mem_filter.1 hc).2.2, eval_one]; ring
  have hgN : ∀ c, (f ^ m + 1).eval c ≠ 0 → g.eval c ≠ 0 := fun c h h0 => h (by rw [hg, eval_mul, h0, mul_zero])
  have hfR : ∀ c, f.eval c ≠ 0 → f1.eval c ≠ 0 := fun c h h0 => h (by rw [hf1, eval_mul, h0, mul_zero])
  have hgS : IsCoprime g (lin S) := lin_coprime fun c hc => hgN c (by
    rw [eval_add, eval_pow, (Finset.mem_filter.1 hc).2.2, eval_one]
    intro h; exact h2 (by linear_combination h))
  have hgR : IsCoprime g (lin R) := lin_coprime fun c hc => hgN c (by
    rw [eval_add, eval_pow, (Finset.mem_filter.1 hc).2, eval_one, zero_pow hm0, zero_add]
    exact one_ne_zero)
  have hfS : IsCoprime f1 (lin S) := lin_coprime fun c hc => hfR c (Finset.mem_filter.1 hc).2.1
  have hf1R : IsCoprime f1 (lin R) := lin_coprime fun c hc h0 => by
    have hd : (derivative f).eval c = 0 := by
      rw [hf1, derivative_mul, eval_add, eval_mul, eval_mul, h0, lin_eval hc]; ring
    have hz := (Finset.mem_filter.1 hc).2
    rw [hf, Stepanov.cub_deriv] at hd
    rw [hf, cub_eval] at hz
    simp only [eval_add, eval_mul, eval_pow, eval_X, eval_C, eval_ofNat] at hd
    apply hD
    linear_combination (-18 * a * c + 27 * b) * hz + (4 * a ^ 2 + 6 * a * c ^ 2 - 9 * b * c) * hd
  have hnum : f * (f ^ m + 1) ^ 2 - (X ^ q + X) * (X ^ q - X) ^ 2 =
      (lin N ^ 2 * lin R) * (f1 * g ^ 2 - (X ^ q + X) * (lin S ^ 2 * lin R)) := by
    rw [hZ, hg]
    conv_lhs => rw [hf1]
    ring
  refine ⟨f1 * g ^ 2 - (X ^ q + X) * (lin S ^ 2 * lin R), lin S ^ 2 * lin R, lin N ^ 2 * lin R, ?_, ?_, ?_, ?_, hnum.symm⟩
  · have h : IsCoprime (f1 * g ^ 2) (lin S ^ 2 * lin R) :=
      (IsCoprime.mul_left hfS (hgS.pow_left)).pow_right.mul_right (hf1R.mul_left hgR.pow_left)
    rw [sub_eq_add_neg, ← neg_mul]
    exact h.add_mul_right_left _
  · exact (((lin_monic N).pow 2).mul (lin_monic R)).ne_zero
  · -- degrees
    have hB : (lin S ^ 2 * lin R).natDegree = 2 * S.card + R.card := by
      rw [((lin_monic S).pow 2).natDegree_mul (lin_monic R), (lin_monic S).natDegree_pow, lin_natDegree, lin_natDegree]
    have hc : (lin N ^ 2 * lin R).natDegree = 2 * N.card + R.card := by
      rw [((lin_monic N).pow 2).natDegree_mul (lin_monic R), (lin_monic N).natDegree_pow, lin_natDegree, lin_natDegree]
    have hdeg : (f * (f ^ m + 1) ^ 2 - (X ^ q + X) * (X ^ q - X) ^ 2).natDegree = 2 * q + 1 := by
      have e : f * (f ^ m + 1) ^ 2 - (X ^ q + X) * (X ^ q - X) ^ 2 =
          X ^ (2 * q + 1) + (C a * X ^ q + C b + 2 * f ^ (m + 1) + f + X ^ (q + 2) - X ^ 3) := by
        have h1 : f * (f ^ m + 1) ^ 2 = f ^ q + 2 * f ^ (m + 1) + f := by
          rw [← hm]; ring
        rw [h1, cub_pow_card]
        ring
      rw [e]
      have hfd : f.natDegree = 3 := cub_natDegree a b
      have hlt : (C a * X ^ q + C b + 2 * f ^ (m + 1) + f + X ^ (q + 2) - X ^ 3).natDegree < 2 * q + 1 := by
        refine lt_of_le_of_lt (b := 2 * q) ?_ (Nat.lt_succ_self _)
        have hp : (2 * f ^ (m + 1)).natDegree ≤ 2 * q := by
          rw [show (2 : F[X]) = C 2 by rw [map_ofNat]]
          refine (natDegree_C_mul_le _ _).trans ((natDegree_pow_le).trans ?_)
          rw [hfd]; omega
        refine (natDegree_sub_le_of_le (m := 2 * q) (n := 2 * q) ?_ ((natDegree_X_pow_le _).trans (by omega))).trans (by simp)
        refine natDegree_add_le_of_degree_le ?_ ((natDegree_X_pow_le _).trans (by omega))
        refine natDegree_add_le_of_degree_le ?_ (hfd.le.trans (by omega))
        refine natDegree_add_le_of_degree_le ?_ hp
        refine natDegree_add_le_of_degree_le ?_ (by simp)
        exact (natDegree_C_mul_X_pow_le _ _).trans (by omega)
      rw [natDegree_add_eq_left_of_natDegree_lt (by rwa [natDegree_X_pow]), natDegree_X_pow]
    rw [hnum] at hdeg
    have hA0 : f1 * g ^ 2 - (X ^ q + X) * (lin S ^ 2 * lin R) ≠ 0 := by
      intro h
      rw [h, mul_zero, natDegree_zero] at hdeg
      omega
    rw [natDegree_mul (((lin_monic N).pow 2).mul (lin_monic R)).ne_zero hA0, hc] at hdeg
    have hmax : max (f1 * g ^ 2 - (X ^ q + X) * (lin S ^ 2 * lin R)).natDegree (lin S ^ 2 * lin R).natDegree =
        2 * S.card + R.card + 1 := by
      rw [hB]; omega
    rw [hmax, Tate.card_eq (Tate.nonsingular_of_disc h2 hD)]
    have hsum : ((∑ x : F, (Tate.roots2 (x ^ 3 + a * x + b)).card : ℕ) : ℤ) = 2 * S.card + R.card := by
      push_cast
      rw [← huniv, Finset.sum_union hS_NR, Finset.sum_union hNR]
      rw [Finset.sum_congr rfl (g := fun _ => (2 : ℤ)) (s₁ := S), Finset.sum_congr rfl (g := fun _ => (0 : ℤ)) (s₁ := N),
        Finset.sum_congr rfl (g := fun _ => (1 : ℤ)) (s₁ := R)]
      · simp [mul_comm]
      · intro x hx
        have hz := (Finset.mem_filter.1 hx).2
        rw [hf, cub_eval] at hz
        rw [Tate.roots2_card h2, hz]
        simp
      · intro x hx
        have hz := (Finset.mem_filter.1 hx).2
        rw [hf, cub_eval] at hz
        rw [Tate.roots2_card h2, (quadraticChar_eq_neg_one_iff_not_one hz.1).2 ?_]
        · norm_num
        · rw [quadraticChar_one_iff_isSquare hz.1, FiniteField.isSquare_iff hchar hz.1, ← hq, hdiv, hz.2]
          exact fun h => h11 h.symm
      · intro x hx
        have hz := (Finset.mem_filter.1 hx).2
        rw [hf, cub_eval] at hz
        rw [Tate.roots2_card h2, (quadraticChar_one_iff_isSquare hz.1).2 ?_]
        · norm_num
        · rw [FiniteField.isSquare_iff hchar hz.1, ← hq, hdiv, hz.2]
    have : (∑ x : F, (Tate.roots2 (x ^ 3 + a * x + b)).card) = 2 * S.card + R.card := by exact_mod_cast hsum
    rw [this]
    ring
  · rw [hZ]; ring

end Hasse
