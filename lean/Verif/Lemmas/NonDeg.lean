import Verif.Lemmas.TatePair
import Mathlib.FieldTheory.Finite.Basic

/-!
# Non-degeneracy of the reduced Tate pairing with places

`K` is a finite field, `P ≠ 0` a point over `K` with `r • P = 0`, `|K| + 1 = h r`.  If the reduced
pairing of `P` with every place is one, there are few places: the function `F` with divisor `r(P)` is
`A(x) + y B(x)` after taking the `h`-th power, and `B` vanishes at the first coordinate of every place.
-/

set_option autoImplicit false

namespace Tate

open WeierstrassCurve WeierstrassCurve.Affine WeierstrassCurve.Affine.CoordinateRing Polynomial
open Spec (EC)
open scoped nonZeroDivisors

variable {K : Type*} [Field K] [DecidableEq K] {L : Type*} [Field L] [Algebra K L] {a b : K}

/-- Evaluation at a point of `K`. -/
noncomputable def evP {x y : K} (h : y ^ 2 = x ^ 3 + a * x + b) : (EC a b).CoordinateRing →ₐ[K] K :=
  AdjoinRoot.liftAlgHom (S := K) _ (Polynomial.aeval x) y (by
    rw [WeierstrassCurve.Affine.polynomial]
    simp [EC, eval₂_add, eval₂_sub, eval₂_mul, eval₂_pow, h])

theorem evP_mk {x y : K} (h : y ^ 2 = x ^ 3 + a * x + b) (f : K[X][X]) :
    evP h (mk (EC a b) f) = f.eval₂ (Polynomial.aeval x : K[X] →ₐ[K] K) y := rfl

theorem evP_basis {x y : K} (h : y ^ 2 = x ^ 3 + a * x + b) (p q : K[X]) :
    evP h (p • (1 : (EC a b).CoordinateRing) + q • CoordinateRing.mk (EC a b) X) = p.eval x + q.eval x * y := by
  have e : p • (1 : (EC a b).CoordinateRing) + q • CoordinateRing.mk (EC a b) X = CoordinateRing.mk (EC a b) (C p + C q * X) := by
    rw [map_add, map_mul, CoordinateRing.smul, CoordinateRing.smul, mul_one]
  rw [e, evP_mk]
  simp

theorem ev_basis (Q : Place L a b) (p q : K[X]) :
    ev Q (p • (1 : (EC a b).CoordinateRing) + q • CoordinateRing.mk (EC a b) X) =
      algebraMap K L (p.eval Q.x) + algebraMap K L (q.eval Q.x) * Q.Y := by
  have e : p • (1 : (EC a b).CoordinateRing) + q • CoordinateRing.mk (EC a b) X = CoordinateRing.mk (EC a b) (C p + C q * X) := by
    rw [map_add, map_mul, CoordinateRing.smul, CoordinateRing.smul, mul_one]
  rw [e, ev_mk]
  simp [Polynomial.aeval_algebraMap_apply]

/-- A point of order dividing `r` gives a function with divisor `r(P)`. -/
theorem exists_gen {x y : K} {r : ℕ} (hn : (EC a b).Nonsingular x y)
    (hr : r • (Point.some x y hn) = 0) :
    ∃ F : (EC a b).CoordinateRing, F ≠ 0 ∧ XYIdeal (EC a b) x (C y) ^ r = Ideal.span {F} := by
  have h := congrArg Point.toClass hr
  rw [map_nsmul, Point.toClass_some, Point.toClass_zero] at h
  have h' : ClassGroup.mk (EC a b).FunctionField (XYIdeal' (W := EC a b) hn ^ r) = 1 := by
    rw [map_pow]; exact h
  refine (ClassGroup.mk_eq_one_of_coe_ideal ?_).1 h'
  rw [Units.val_pow_eq_pow_val, XYIdeal'_eq, FractionalIdeal.coeIdeal_pow]

/-- What is needed of such a function. -/
structure Gen (x y : K) (h : y ^ 2 = x ^ 3 + a * x + b) (r : ℕ) (F : (EC a b).CoordinateRing) : Prop where
  /-- It divides the vertical line. -/
  dvd : ∃ G, XClass (EC a b) x ^ r = F * G
  /-- It vanishes at `P`. -/
  zero : evP h F = 0
  /-- It does not vanish at `-P`. -/
  ne : evP (x := x) (y := -y) (by rw [neg_sq, h]) F ≠ 0
  /-- Its values are values of functions with divisor `r(P)`. -/
  div : ∀ (hn : (EC a b).Nonsingular x y) (Q : Place L a b),
    HasDiv (ev Q) (ev Q F) (r • FreeAbelianGroup.of (Point.some x y hn))

theorem evP_XClass {x y : K} (h : y ^ 2 = x ^ 3 + a * x + b) (x' : K) :
    evP h (XClass (EC a b) x') = x - x' := by
  rw [XClass, evP_mk]; simp

theorem evP_YClass {x y : K} (h : y ^ 2 = x ^ 3 + a * x + b) (y' : K) :
    evP h (YClass (EC a b) (C y')) = y - y' := by
  rw [YClass, evP_mk]; simp

theorem Gen.of_ideal (h2 : (2 : K) ≠ 0) {x y : K} {r : ℕ} (h0 : r ≠ 0) (hn : (EC a b).Nonsingular x y)
    (hy : y ≠ 0) {F : (EC a b).CoordinateRing} (hI : XYIdeal (EC a b) x (C y) ^ r = Ideal.span {F}) :
    Gen (L := L) x y (eqn_of hn) r F := by
  have hX : XClass (EC a b) x ∈ XYIdeal (EC a b) x (C y) := Ideal.subset_span (by simp)
  have hY : YClass (EC a b) (C y) ∈ XYIdeal (EC a b) x (C y) := Ideal.subset_span (by simp)
  have hd : F ∣ XClass (EC a b) x ^ r := by
    rw [← Ideal.mem_span_singleton, ← hI]; exact Ideal.pow_mem_pow hX r
  have hd' : F ∣ YClass (EC a b) (C y) ^ r := by
    rw [← Ideal.mem_span_singleton, ← hI]; exact Ideal.pow_mem_pow hY r
  refine ⟨hd, ?_, ?_, fun _ Q => ?_⟩
  · have hm : F ∈ XYIdeal (EC a b) x (C y) :=
      Ideal.pow_le_self h0 (hI ▸ Ideal.mem_span_singleton_self F)
    have hle : XYIdeal (EC a b) x (C y) ≤ RingHom.ker (evP (eqn_of hn)) := by
      rw [XYIdeal, Ideal.span_le]
      rintro z (rfl | rfl)
      · simp [RingHom.mem_ker, evP_XClass]
      · simp [RingHom.mem_ker, evP_YClass]
    exact hle hm
  · intro hz
    obtain ⟨G, hG⟩ := hd'
    have := congrArg (evP (a := a) (b := b) (x := x) (y := -y) (by rw [neg_sq, eqn_of hn])) hG
    rw [map_mul, hz, zero_mul, map_pow, evP_YClass] at this
    have h3 := pow_eq_zero_iff h0 |>.1 this
    have : (2 : K) * y = 0 := by linear_combination -h3
    exact (mul_ne_zero h2 hy) this
  · refine ⟨F, 1, ?_, by simp, ?_, ?_⟩
    · intro hz
      obtain ⟨G, hG⟩ := hd
      have := congrArg (ev Q) hG
      rw [map_mul, hz, zero_mul, map_pow, ev_XClass] at this
      have h3 := pow_eq_zero_iff h0 |>.1 this
      rw [map_eq_zero, sub_eq_zero] at h3
      exact Q.x_ne (eqn_of hn) h3
    · rw [map_one, mul_one]; exact Sim.refl _
    · rw [map_one, FractionalIdeal.spanSingleton_one, one_mul]
      have : fid (r • FreeAbelianGroup.of (Point.some x y hn)) =
          (XYIdeal' (W := EC a b) hn : FractionalIdeal _ _) ^ r := by
        rw [fid, map_nsmul, toMul_nsmul, Units.val_pow_eq_pow_val]
        simp [dv, idl]
      rw [this, XYIdeal'_eq, ← FractionalIdeal.coeIdeal_pow, hI, FractionalIdeal.coeIdeal_span_singleton]

theorem Gen.exists (h2 : (2 : K) ≠ 0) {x y : K} {r : ℕ} (h0 : r ≠ 0) (hn : (EC a b).Nonsingular x y)
    (hr : r • (Point.some x y hn) = 0) (hy : y ≠ 0) :
    ∃ F : (EC a b).CoordinateRing, Gen (L := L) x y (eqn_of hn) r F := by
  obtain ⟨F, -, hI⟩ := exists_gen hn hr
  exact ⟨F, .of_ideal h2 h0 hn hy hI⟩

/-- The degree of the norm. -/
theorem Gen.norm_le {x y : K} {h : y ^ 2 = x ^ 3 + a * x + b} {r : ℕ} {F : (EC a b).CoordinateRing}
    (hG : Gen (L := L) x y h r F) : (Algebra.norm K[X] F).natDegree ≤ r := by
  obtain ⟨G, hd⟩ := hG.dvd
  have hx : XClass (EC a b) x = (X - C x : K[X]) • (1 : (EC a b).CoordinateRing) + (0 : K[X]) • CoordinateRing.mk (EC a b) X := by
    rw [CoordinateRing.smul, zero_smul, mul_one, add_zero]; rfl
  have hN : (X - C x : K[X]) ^ (2 * r) = Algebra.norm K[X] F * Algebra.norm K[X] G := by
    rw [← map_mul, ← hd, map_pow, hx, norm_smul_basis, pow_mul]
    ring_nf
  have hdv : Algebra.norm K[X] F ∣ (X - C x : K[X]) ^ (2 * r) := ⟨_, hN⟩
  obtain ⟨m, hm, hu⟩ := (dvd_prime_pow (prime_X_sub_C x) _).1 hdv
  obtain ⟨c, hc⟩ := hu
  obtain ⟨u, hu0, hu⟩ := Polynomial.isUnit_iff.1 c.isUnit
  rw [← hu] at hc
  have hu1 : u ≠ 0 := hu0.ne_zero
  have hn0 : Algebra.norm K[X] F ≠ 0 := by
    intro hz
    rw [hz, zero_mul] at hc
    exact pow_ne_zero m (X_sub_C_ne_zero x) hc.symm
  have hF0 : F ≠ 0 := by
    rintro rfl
    rw [zero_mul] at hd
    exact pow_ne_zero r (XClass_ne_zero x) hd
  have hdeg : (Algebra.norm K[X] F).natDegree = m := by
    have := congrArg natDegree hc
    rwa [natDegree_mul_C hu1, natDegree_pow, natDegree_X_sub_C, mul_one] at this
  rw [hdeg]
  by_contra hlt
  push Not at hlt
  obtain ⟨j, rfl⟩ : ∃ j, m = r + (j + 1) := ⟨m - r - 1, by omega⟩
  obtain ⟨p, q, rfl⟩ := exists_smul_basis_eq F
  have hs : algebraMap K[X] (EC a b).CoordinateRing
      (Algebra.norm K[X] (p • (1 : (EC a b).CoordinateRing) + q • CoordinateRing.mk (EC a b) X)) =
      (p • (1 : (EC a b).CoordinateRing) + q • CoordinateRing.mk (EC a b) X) *
        (p • (1 : (EC a b).CoordinateRing) + (-q) • CoordinateRing.mk (EC a b) X) := by
    have := coe_norm_smul_basis (W' := EC a b) p q
    have e : C p + C q * (-(X : K[X][X]) - C (C (EC a b).a₁ * X + C (EC a b).a₃)) =
        C p + C (-q) * X := by
      simp [EC]
      ring
    refine this.trans ?_
    rw [map_mul, e]
    congr 1
    · rw [map_add, map_mul, CoordinateRing.smul, CoordinateRing.smul, mul_one]
    · rw [map_add, map_mul, CoordinateRing.smul, CoordinateRing.smul, mul_one]
  have hx' : XClass (EC a b) x = algebraMap K[X] (EC a b).CoordinateRing (X - C x) := rfl
  have h1 := congrArg (algebraMap K[X] (EC a b).CoordinateRing) hc
  rw [map_mul, hs, map_pow, ← hx', pow_add, hd, mul_assoc, mul_assoc] at h1
  have h2 := mul_left_cancel₀ hF0 h1
  have h3 := congrArg (evP h) h2
  rw [map_mul, map_mul, map_pow, evP_XClass, sub_self, zero_pow (by omega), mul_zero, evP_basis] at h3
  have h4 : evP h (algebraMap K[X] (EC a b).CoordinateRing (C u)) = u := by
    have := evP_mk h (C (C u))
    simpa using this
  rw [h4] at h3
  have h5 := hG.ne
  rw [evP_basis] at h5
  refine h5 ?_
  have := (mul_eq_zero.1 h3).resolve_right hu1
  rw [eval_neg] at this
  linear_combination this

/-- The elements fixed by the Frobenius map are those of `K`. -/
theorem mem_of_pow_card [Fintype K] {z : L} (h : z ^ Fintype.card K = z) :
    ∃ c : K, algebraMap K L c = z := by
  classical
  have h1 : (X ^ Fintype.card K - X : L[X]) ≠ 0 :=
    FiniteField.X_pow_card_sub_X_ne_zero L Fintype.one_lt_card
  have h2 : (Finset.univ.image (algebraMap K L)) = (X ^ Fintype.card K - X : L[X]).roots.toFinset := by
    refine Finset.eq_of_subset_of_card_le ?_ ?_
    · intro w hw
      obtain ⟨c, -, rfl⟩ := Finset.mem_image.1 hw
      rw [Multiset.mem_toFinset, mem_roots h1]
      simp [IsRoot, ← map_pow, FiniteField.pow_card]
    · rw [Finset.card_image_of_injective _ (algebraMap K L).injective, Finset.card_univ]
      refine (Multiset.toFinset_card_le _).trans ((card_roots' _).trans ?_)
      rw [FiniteField.X_pow_card_sub_X_natDegree_eq L Fintype.one_lt_card]
  have h3 : z ∈ (X ^ Fintype.card K - X : L[X]).roots.toFinset := by
    rw [Multiset.mem_toFinset, mem_roots h1]
    simp [IsRoot, h]
  rw [← h2] at h3
  obtain ⟨c, -, hc⟩ := Finset.mem_image.1 h3
  exact ⟨c, hc⟩

/-- If the pairing with every place is one, there are few places. -/
theorem few_places [Fintype K] (h2 : (2 : K) ≠ 0) {r h : ℕ} (hodd : Odd r)
    (hcard : Fintype.card K + 1 = h * r) {P : (EC a b).Point} (hP : P ≠ 0) (hr : r • P = 0)
    (hk : Kills K L r ((Fintype.card K - 1) * h))
    {S : Finset K} (hS : ∀ x ∈ S, ∃ Q : Place L a b, Q.x = x ∧
      tate r ((Fintype.card K - 1) * h) P Q = 1) : 2 * S.card + 3 ≤ Fintype.card K := by
  rcases P with _ | ⟨x, y, hn⟩
  · exact absurd rfl hP
  have hy := y_ne_of_odd hn hodd hr
  obtain ⟨F, hF⟩ := Gen.exists (L := L) h2 hodd.pos.ne' hn hr hy
  obtain ⟨A, B, hAB⟩ := exists_smul_basis_eq (F ^ h)
  have hB : B ≠ 0 := by
    rintro rfl
    have e1 := congrArg (evP (eqn_of hn)) hAB
    have e2 := congrArg (evP (x := x) (y := -y) (by rw [neg_sq, eqn_of hn])) hAB
    rw [evP_basis] at e1 e2
    have hh : h ≠ 0 := by rintro rfl; simp at hcard
    rw [map_pow, hF.zero, zero_pow hh] at e1
    rw [map_pow] at e2
    refine pow_ne_zero h hF.ne (e2.symm.trans ?_)
    rw [← e1]; simp
  have hdeg : 2 * B.natDegree + 3 ≤ Fintype.card K + 1 := by
    have e1 : (Algebra.norm K[X] (F ^ h)).natDegree ≤ Fintype.card K + 1 := by
      rw [map_pow, natDegree_pow, hcard]
      exact Nat.mul_le_mul_left h hF.norm_le
    have e2 := degree_norm_smul_basis (W' := EC a b) A B
    rw [hAB] at e2
    have e3 : 2 • B.degree + 3 ≤ (Algebra.norm K[X] (F ^ h)).degree := by
      rw [e2]; exact le_max_right _ _
    have e4 := e3.trans degree_le_natDegree
    rw [degree_eq_natDegree hB] at e4
    have : ((2 * B.natDegree + 3 : ℕ) : WithBot ℕ) ≤ ((Fintype.card K + 1 : ℕ) : WithBot ℕ) := by
      refine le_trans ?_ (e4.trans (by exact_mod_cast e1))
      push_cast
      rw [two_nsmul, two_mul]
    exact_mod_cast this
  have hroot : ∀ x ∈ S, B.eval x = 0 := by
    intro x' hx'
    obtain ⟨Q, rfl, ht⟩ := hS x' hx'
    obtain ⟨f, hf⟩ := exists_full (L := L) hP hodd.pos.ne' hr
    rw [tate_eq hk hP hf, hk.sim ((hf.div Q).unique (hF.div hn Q)), mul_comm, pow_mul, ← map_pow,
      ← hAB, ev_basis] at ht
    by_contra hne
    have hz : (algebraMap K L (A.eval Q.x) + algebraMap K L (B.eval Q.x) * Q.Y) ^ Fintype.card K =
        algebraMap K L (A.eval Q.x) + algebraMap K L (B.eval Q.x) * Q.Y := by
      rw [← Nat.sub_add_cancel Fintype.card_pos, pow_succ, ht, one_mul]
    obtain ⟨c, hc⟩ := mem_of_pow_card hz
    have hb : algebraMap K L (B.eval Q.x) ≠ 0 := by simpa using hne
    refine Q.irr ((c - A.eval Q.x) / B.eval Q.x) ?_
    rw [map_div₀, map_sub, eq_div_iff hb, hc]
    ring
  have hle : S.card ≤ B.natDegree := by
    refine (Finset.card_le_card ?_).trans ((Multiset.toFinset_card_le _).trans (card_roots' B))
    intro x' hx'
    rw [Multiset.mem_toFinset, mem_roots hB]
    exact hroot x' hx'
  have hoddK : Fintype.card K % 2 = 1 := FiniteField.odd_card_of_char_ne_two fun hc => h2 (by
    have := CharP.cast_eq_zero K (ringChar K)
    rwa [hc] at this)
  omega

end Tate
