import Verif.Lemmas.PointCount
import Verif.Lemmas.Stepanov

/-!
# Non-degeneracy on every elliptic curve

As in `NonDeg`, the function `F` with divisor `r(P)` gives `F ^ h = A(x) + y B(x)`, and a trivial pairing makes `B`
vanish at every place.  Here the values of `A` are determined as well, with the tangent at the point `P'` with
`P' + P' = -P`, and `Stepanov.pair_le` bounds the number of places by a quarter of the field.
-/

set_option autoImplicit false

namespace Tate

open WeierstrassCurve WeierstrassCurve.Affine WeierstrassCurve.Affine.CoordinateRing Polynomial
open Spec (EC)
open Stepanov (cub)

variable {K : Type*} [Field K] [DecidableEq K] {L : Type*} [Field L] [Algebra K L] {a b : K}

theorem norm_eq (p q : K[X]) : Algebra.norm K[X] (p • (1 : (EC a b).CoordinateRing) + q • CoordinateRing.mk (EC a b) X) =
    p ^ 2 - cub a b * q ^ 2 := by
  rw [norm_smul_basis, cub]
  simp [EC]
  ring

/-- The invertible functions are the constants. -/
theorem exists_const {u : (EC a b).CoordinateRing} (hu : IsUnit u) :
    ∃ c : K, c ≠ 0 ∧ u = (C c : K[X]) • (1 : (EC a b).CoordinateRing) := by
  obtain ⟨p, q, rfl⟩ := exists_smul_basis_eq u
  have h1 := hu.map (Algebra.norm K[X])
  have h2 := degree_eq_zero_of_isUnit h1
  rw [degree_norm_smul_basis] at h2
  have hq : q = 0 := by
    by_contra hq
    have := le_max_right (2 • p.degree) (2 • q.degree + 3)
    rw [h2, degree_eq_natDegree hq] at this
    have h3 : ((2 * q.natDegree + 3 : ℕ) : WithBot ℕ) ≤ ((0 : ℕ) : WithBot ℕ) := by
      refine le_trans ?_ this
      push_cast
      rw [two_nsmul, two_mul]
    have : 2 * q.natDegree + 3 ≤ 0 := by exact_mod_cast h3
    omega
  subst hq
  have hp0 : p ≠ 0 := by
    rintro rfl
    rw [zero_smul, zero_smul, add_zero] at hu
    exact not_isUnit_zero hu
  have hp : p.natDegree = 0 := by
    have := le_max_left (2 • p.degree) (2 • (0 : K[X]).degree + 3)
    rw [h2, degree_eq_natDegree hp0] at this
    have h3 : ((2 * p.natDegree : ℕ) : WithBot ℕ) ≤ ((0 : ℕ) : WithBot ℕ) := by
      refine le_trans ?_ this
      push_cast
      rw [two_nsmul, two_mul]
    have : 2 * p.natDegree ≤ 0 := by exact_mod_cast h3
    omega
  refine ⟨p.coeff 0, fun h0 => hp0 (by rw [eq_C_of_natDegree_eq_zero hp, h0, C_0]), ?_⟩
  rw [zero_smul, add_zero, ← eq_C_of_natDegree_eq_zero hp]

/-- The tangent at `P'` with `P' + P' = -P`. -/
theorem tangent {x₀ y₀ x₁ y₁ : K} (n₀ : (EC a b).Nonsingular x₀ y₀) (n₁ : (EC a b).Nonsingular x₁ y₁) (hy : y₁ ≠ 0)
    (h2 : (2 : K) ≠ 0) (h : Point.some x₁ y₁ n₁ + Point.some x₁ y₁ n₁ = -Point.some x₀ y₀ n₀) :
    ∃ s : K, XYIdeal (EC a b) x₁ (C y₁) ^ 2 * XYIdeal (EC a b) x₀ (C y₀) =
      Ideal.span {YClass (EC a b) (linePolynomial x₁ y₁ s)} ∧
      linePolynomial x₁ y₁ s ^ 2 - cub a b = -((X - C x₁) ^ 2 * (X - C x₀)) := by
  have hne : ¬ (x₁ = x₁ ∧ y₁ = (EC a b).negY x₁ y₁) := by
    rintro ⟨-, h'⟩
    rw [Pbc.Curve.negY_EC] at h'
    exact mul_ne_zero h2 hy (by linear_combination h')
  refine ⟨(EC a b).slope x₁ x₁ y₁ y₁, ?_, ?_⟩
  · rw [Point.add_some hne, Point.neg_some, Point.some.injEq] at h
    have e1 := XYIdeal_mul_XYIdeal n₁.left n₁.left hne
    rw [h.1, h.2] at e1
    have e2 := congrArg (· * XYIdeal (EC a b) x₀ (C y₀)) e1
    simp only [mul_assoc] at e2
    rw [XYIdeal_neg_mul n₀] at e2
    rw [XIdeal, YIdeal, mul_comm (Ideal.span {YClass _ _})] at e2
    have e3 := (Ideal.span_singleton_mul_right_inj (XClass_ne_zero x₀)).1 e2
    rw [← e3, pow_two, mul_assoc]
  · have e1 := addPolynomial_slope n₁.left n₁.left hne
    rw [Point.add_some hne, Point.neg_some, Point.some.injEq] at h
    rw [h.1] at e1
    rw [addPolynomial, WeierstrassCurve.Affine.polynomial] at e1
    rw [pow_two (X - C x₁), ← e1, cub]
    simp [EC]

/-- The norm of a function with divisor `r(P)`. -/
theorem exists_norm (h2 : (2 : K) ≠ 0) {x y : K} {r : ℕ} (h0 : r ≠ 0) (hn : (EC a b).Nonsingular x y)
    (hy : y ≠ 0) {F : (EC a b).CoordinateRing} (hI : XYIdeal (EC a b) x (C y) ^ r = Ideal.span {F}) :
    ∃ u : K, u ≠ 0 ∧ Algebra.norm K[X] F = C u * (X - C x) ^ r := by
  have hF : Gen (L := K) x y (eqn_of hn) r F := .of_ideal h2 h0 hn hy hI
  obtain ⟨G, hG⟩ := hF.dvd
  have hX := pow_ne_zero r (XClass_ne_zero (W' := EC a b) x)
  have hF0 : F ≠ 0 := by rintro rfl; exact hX (by rw [hG, zero_mul])
  have hn' : (EC a b).Nonsingular x (-y) := by
    have := (nonsingular_neg ..).2 hn
    rwa [Pbc.Curve.negY_EC] at this
  have hG' : Gen (L := K) x (-y) (eqn_of hn') r G := by
    refine .of_ideal h2 h0 hn' (neg_ne_zero.2 hy) ?_
    have e := XYIdeal_neg_mul hn
    rw [Pbc.Curve.negY_EC] at e
    have e' := congrArg (· ^ r) e
    simp only [mul_pow] at e'
    rw [hI, XIdeal, Ideal.span_singleton_pow, hG, ← Ideal.span_singleton_mul_span_singleton, mul_comm] at e'
    exact (Ideal.span_singleton_mul_right_inj hF0).1 e'
  have hx : XClass (EC a b) x = (X - C x : K[X]) • (1 : (EC a b).CoordinateRing) + (0 : K[X]) • CoordinateRing.mk (EC a b) X := by
    rw [CoordinateRing.smul, zero_smul, mul_one, add_zero]; rfl
  have hN : (X - C x : K[X]) ^ (2 * r) = Algebra.norm K[X] F * Algebra.norm K[X] G := by
    rw [← map_mul, ← hG, map_pow, hx, norm_eq, pow_mul]
    ring_nf
  have hN0 : Algebra.norm K[X] F * Algebra.norm K[X] G ≠ 0 := by
    rw [← hN]; exact pow_ne_zero _ (X_sub_C_ne_zero x)
  have hdeg := congrArg natDegree hN
  rw [natDegree_pow, natDegree_X_sub_C, natDegree_mul (left_ne_zero_of_mul hN0) (right_ne_zero_of_mul hN0)] at hdeg
  have l1 := hF.norm_le
  have l2 := hG'.norm_le
  obtain ⟨m, hm, hu⟩ := (dvd_prime_pow (prime_X_sub_C x) _).1 (⟨_, hN⟩ : Algebra.norm K[X] F ∣ _)
  obtain ⟨c, hc⟩ := hu.symm
  obtain ⟨u, hu0, hu⟩ := Polynomial.isUnit_iff.1 c.isUnit
  rw [← hu] at hc
  have hmr : m = r := by
    have := congrArg natDegree hc
    rw [natDegree_mul_C hu0.ne_zero, natDegree_pow, natDegree_X_sub_C, mul_one] at this
    omega
  exact ⟨u, hu0.ne_zero, by rw [← hc, hmr, mul_comm]⟩

section fin

variable [Fintype K]

/-- The conjugate of the square root. -/
theorem Place.pow_card (Q : Place L a b) : Q.Y ^ Fintype.card K = -Q.Y := by
  have h1 : (Q.Y ^ Fintype.card K) ^ 2 = Q.Y ^ 2 := by
    rw [← pow_mul, mul_comm, pow_mul, Q.eqn, ← map_pow, FiniteField.pow_card]
  rcases sq_eq_sq_iff_eq_or_eq_neg.1 h1 with h | h
  · obtain ⟨c, hc⟩ := mem_of_pow_card h
    exact absurd hc.symm (Q.irr c)
  · exact h

/-- The norm of a value is the value of the norm. -/
theorem ev_pow_card_succ (Q : Place L a b) (p q : K[X]) :
    ev Q (p • (1 : (EC a b).CoordinateRing) + q • CoordinateRing.mk (EC a b) X) ^ (Fintype.card K + 1) =
      algebraMap K L ((p ^ 2 - cub a b * q ^ 2).eval Q.x) := by
  rw [ev_basis, pow_succ]
  have hf := fun z : L => (FiniteField.coe_frobeniusAlgHom K L ▸ rfl : FiniteField.frobeniusAlgHom K L z = z ^ Fintype.card K)
  rw [← hf, map_add, map_mul, AlgHom.commutes, AlgHom.commutes, hf, Q.pow_card]
  have := Q.eqn
  rw [eval_sub, eval_mul, eval_pow, eval_pow, Stepanov.cub_eval, map_sub, map_mul, ← this, map_pow, map_pow]
  ring

/-- A trivial pairing: the coefficient of `y` vanishes. -/
theorem root_of_tate {r h : ℕ} (hodd : Odd r) {x y : K} (hn : (EC a b).Nonsingular x y)
    (hr : r • Point.some x y hn = 0) (hk : Kills K L r ((Fintype.card K - 1) * h)) {F : (EC a b).CoordinateRing}
    (hF : Gen (L := L) x y (eqn_of hn) r F) {A B : K[X]}
    (hAB : A • (1 : (EC a b).CoordinateRing) + B • CoordinateRing.mk (EC a b) X = F ^ h) {Q : Place L a b}
    (ht : tate r ((Fintype.card K - 1) * h) (Point.some x y hn) Q = 1) :
    B.eval Q.x = 0 ∧ ev Q F ^ h = algebraMap K L (A.eval Q.x) := by
  have hP := Point.some_ne_zero hn
  obtain ⟨f, hf⟩ := exists_full (L := L) hP hodd.pos.ne' hr
  rw [tate_eq hk hP hf, hk.sim ((hf.div Q).unique (hF.div hn Q)), mul_comm, pow_mul, ← map_pow,
    ← hAB, ev_basis] at ht
  have hB : B.eval Q.x = 0 := by
    by_contra hne
    have hz : (algebraMap K L (A.eval Q.x) + algebraMap K L (B.eval Q.x) * Q.Y) ^ Fintype.card K =
        algebraMap K L (A.eval Q.x) + algebraMap K L (B.eval Q.x) * Q.Y := by
      rw [← Nat.sub_add_cancel Fintype.card_pos, pow_succ, ht, one_mul]
    obtain ⟨c, hc⟩ := mem_of_pow_card hz
    have hb : algebraMap K L (B.eval Q.x) ≠ 0 := by simpa using hne
    refine Q.irr ((c - A.eval Q.x) / B.eval Q.x) ?_
    rw [map_div₀, map_sub, eq_div_iff hb, hc]
    ring
  refine ⟨hB, ?_⟩
  rw [← map_pow, ← hAB, ev_basis, hB, map_zero, zero_mul, add_zero]

theorem tate_nsmul {r e : ℕ} (hk : Kills K L r e) (h0 : r ≠ 0) {P : (EC a b).Point} (hr : r • P = 0) (Q : Place L a b) :
    ∀ n : ℕ, tate r e (n • P) Q = tate r e P Q ^ n
  | 0 => by rw [zero_smul, tate_zero, pow_zero]
  | n + 1 => by
    rw [succ_nsmul, tate_add_left hk h0 (by rw [smul_comm, hr, smul_zero]) hr, tate_nsmul hk h0 hr Q n, pow_succ]

/-- If the pairing with every place is one, the places are at most a quarter. -/
theorem few_places_all (h2 : (2 : K) ≠ 0) (hsep : IsCoprime (cub a b) (derivative (cub a b)))
    (hQ : 7 < Fintype.card K) {r h : ℕ} (hodd : Odd r) (hcard : Fintype.card K + 1 = h * r) {P : (EC a b).Point}
    (hP : P ≠ 0) (hr : r • P = 0) (hk : Kills K L r ((Fintype.card K - 1) * h))
    {S : Finset K} (hS : ∀ x ∈ S, ∃ Q : Place L a b, Q.x = x ∧
      tate r ((Fintype.card K - 1) * h) P Q = 1) : 4 * S.card ≤ Fintype.card K + 3 := by
  have h0 : r ≠ 0 := hodd.pos.ne'
  have hh : h ≠ 0 := by rintro rfl; simp at hcard
  obtain ⟨k, hk'⟩ := hodd
  have hP1 : k • P + k • P = -P := by
    rw [eq_neg_iff_add_eq_zero, ← two_nsmul, smul_smul, ← succ_nsmul, ← hk', hr]
  have hodd : Odd r := ⟨k, hk'⟩
  have hr1 : r • (k • P) = 0 := by rw [smul_comm, hr, smul_zero]
  have hS1 : ∀ Q : Place L a b, tate r ((Fintype.card K - 1) * h) P Q = 1 →
      tate r ((Fintype.card K - 1) * h) (k • P) Q = 1 := fun Q hQ1 => by
    rw [tate_nsmul hk h0 hr, hQ1, one_pow]
  generalize k • P = P₁ at hP1 hr1 hS1
  rcases P with _ | ⟨x₀, y₀, n₀⟩
  · exact absurd rfl hP
  rcases P₁ with _ | ⟨x₁, y₁, n₁⟩
  · change (0 : (EC a b).Point) + 0 = _ at hP1
    rw [zero_add] at hP1
    exact absurd (neg_eq_zero.1 hP1.symm) hP
  have hy₀ := y_ne_of_odd n₀ hodd hr
  have hy₁ := y_ne_of_odd n₁ hodd hr1
  obtain ⟨F, -, hI⟩ := exists_gen n₀ hr
  obtain ⟨F₁, -, hI₁⟩ := exists_gen n₁ hr1
  have hF : Gen (L := L) x₀ y₀ (eqn_of n₀) r F := .of_ideal h2 h0 n₀ hy₀ hI
  have hF₁ : Gen (L := L) x₁ y₁ (eqn_of n₁) r F₁ := .of_ideal h2 h0 n₁ hy₁ hI₁
  obtain ⟨u, hu, hN⟩ := exists_norm h2 h0 n₀ hy₀ hI
  obtain ⟨u₁, hu₁, hN₁⟩ := exists_norm h2 h0 n₁ hy₁ hI₁
  obtain ⟨A, B, hAB⟩ := exists_smul_basis_eq (F ^ h)
  obtain ⟨A₁, B₁, hAB₁⟩ := exists_smul_basis_eq (F₁ ^ h)
  obtain ⟨s, hs, hs'⟩ := tangent n₀ n₁ hy₁ h2 hP1
  obtain ⟨c, hc, hl⟩ : ∃ c : K, c ≠ 0 ∧ YClass (EC a b) (linePolynomial x₁ y₁ s) ^ r = F₁ ^ 2 * F *
      (C c : K[X]) • (1 : (EC a b).CoordinateRing) := by
    have e := congrArg (· ^ r) hs
    simp only [mul_pow] at e
    rw [← pow_mul, mul_comm 2, pow_mul, hI, hI₁, Ideal.span_singleton_pow, Ideal.span_singleton_pow,
      Ideal.span_singleton_mul_span_singleton, Ideal.span_singleton_eq_span_singleton] at e
    obtain ⟨v, hv⟩ := e
    obtain ⟨c, hc, hv'⟩ := exists_const v.isUnit
    exact ⟨c, hc, by rw [← hv, hv']⟩
  have nAB : A ^ 2 - cub a b * B ^ 2 = C (u ^ h) * (X - C x₀) ^ (Fintype.card K + 1) := by
    rw [← norm_eq, hAB, map_pow, hN, mul_pow, ← C_pow, ← pow_mul, mul_comm r, hcard]
  have nAB₁ : A₁ ^ 2 - cub a b * B₁ ^ 2 = C (u₁ ^ h) * (X - C x₁) ^ (Fintype.card K + 1) := by
    rw [← norm_eq, hAB₁, map_pow, hN₁, mul_pow, ← C_pow, ← pow_mul, mul_comm r, hcard]
  set e : K := -1 / (c ^ h * u₁ ^ h) with he
  have hd : c ^ h * u₁ ^ h ≠ 0 := mul_ne_zero (pow_ne_zero _ hc) (pow_ne_zero _ hu₁)
  have he0 : e ≠ 0 := div_ne_zero (neg_ne_zero.2 one_ne_zero) hd
  have hpc : ∀ z : K, z ^ (Fintype.card K + 1) = z ^ 2 := fun z => by rw [pow_succ, FiniteField.pow_card, pow_two]
  have hSv : ∀ x ∈ S, x ≠ x₀ ∧ B.eval x = 0 ∧ A.eval x = e * (x - x₀) := by
    intro x hx
    obtain ⟨Q, rfl, ht⟩ := hS x hx
    obtain ⟨hB, hA⟩ := root_of_tate hodd n₀ hr hk hF hAB ht
    obtain ⟨hB₁, hA₁⟩ := root_of_tate hodd n₁ hr1 hk hF₁ hAB₁ (hS1 Q ht)
    refine ⟨Q.x_ne (eqn_of n₀), hB, ?_⟩
    have e1 := congrArg (fun z => ev Q z ^ h) hl
    have e2 : YClass (EC a b) (linePolynomial x₁ y₁ s) = (-linePolynomial x₁ y₁ s) • (1 : (EC a b).CoordinateRing) +
        (1 : K[X]) • CoordinateRing.mk (EC a b) X := by
      rw [YClass, map_sub, one_smul, CoordinateRing.smul, mul_one, C_neg, map_neg]; ring
    have e3 := ev_pow_card_succ Q (-linePolynomial x₁ y₁ s) 1
    rw [← e2, one_pow, mul_one, neg_sq, hs'] at e3
    have e4 : ev Q ((C c : K[X]) • (1 : (EC a b).CoordinateRing)) = algebraMap K L c := by
      have := ev_basis Q (C c) 0
      rwa [zero_smul, add_zero, eval_C, eval_zero, map_zero, zero_mul, add_zero] at this
    simp only [map_pow, map_mul] at e1
    rw [← pow_mul, mul_comm r, ← hcard, e3, e4, mul_pow, mul_pow, ← pow_mul, mul_comm 2, pow_mul, hA, hA₁,
      ← map_pow, ← map_pow, ← map_mul, ← map_mul] at e1
    have e5 := (algebraMap K L).injective e1
    have e6 := congrArg (Polynomial.eval Q.x) nAB₁
    simp only [eval_sub, eval_mul, eval_pow, hB₁, eval_C, eval_X, hpc] at e6
    simp only [eval_neg, eval_mul, eval_pow, eval_sub, eval_X, eval_C] at e5
    have hx1 : (Q.x - x₁) ^ 2 ≠ 0 := pow_ne_zero _ (sub_ne_zero.2 (Q.x_ne (eqn_of n₁)))
    rw [he, div_mul_eq_mul_div, eq_div_iff hd]
    refine mul_left_cancel₀ hx1 ?_
    linear_combination -e5 - A.eval Q.x * c ^ h * e6
  rcases S.eq_empty_or_nonempty with rfl | ⟨x, hx⟩
  · simp
  have heu : e ^ 2 = u ^ h := by
    obtain ⟨hx0, hB, hA⟩ := hSv x hx
    have e6 := congrArg (Polynomial.eval x) nAB
    simp only [eval_sub, eval_mul, eval_pow, hB, hA, eval_C, eval_X, hpc] at e6
    have hx1 : (x - x₀) ^ 2 ≠ 0 := pow_ne_zero _ (sub_ne_zero.2 hx0)
    refine mul_right_cancel₀ hx1 ?_
    linear_combination e6
  have hec : (C e⁻¹ : K[X]) * C e = 1 := by rw [← C_mul, inv_mul_cancel₀ he0, C_1]
  have e1 := congrArg (evP (eqn_of n₀)) hAB
  have e2 := congrArg (evP (x := x₀) (y := -y₀) (by rw [neg_sq, eqn_of n₀])) hAB
  rw [evP_basis, map_pow] at e1 e2
  rw [hF.zero, zero_pow hh] at e1
  have hA0 : A.eval x₀ ≠ 0 := by
    intro hA0
    have e3 := pow_ne_zero h hF.ne
    rw [← e2] at e3
    apply e3
    rw [hA0] at e1 ⊢
    linear_combination -e1
  have := Stepanov.pair_le (a := a) (b := b) (j := 1) (x₀ := x₀) (y₀ := y₀) (A := C e⁻¹ * A) (B := C e⁻¹ * B) (S := S)
    h2 hsep hQ le_rfl hy₀ (eqn_of n₀) (by
      have hm : Fintype.card K - 1 + 2 * 1 = Fintype.card K + 1 := by omega
      rw [hm]
      have : (C e⁻¹ * C e : K[X]) ^ 2 = 1 := by rw [hec, one_pow]
      rw [mul_pow, ← C_pow (a := e), heu] at this
      linear_combination (C e⁻¹) ^ 2 * nAB + (X - C x₀) ^ (Fintype.card K + 1) * this)
    (by
      simp only [eval_mul, eval_C]
      linear_combination e⁻¹ * e1)
    (by
      rw [eval_mul, eval_C]
      exact mul_ne_zero (inv_ne_zero he0) hA0)
    (fun x hx => by
      obtain ⟨hx0, hB, hA⟩ := hSv x hx
      refine ⟨hx0, by rw [eval_mul, hB, mul_zero], ?_⟩
      rw [eval_mul, eval_C, hA, pow_one, ← mul_assoc, inv_mul_cancel₀ he0, one_mul])
  omega

/-- The polynomial of an elliptic curve has no multiple root. -/
theorem coprime_cub (h : 4 * a ^ 3 + 27 * b ^ 2 ≠ 0) : IsCoprime (cub a b) (derivative (cub a b)) := by
  refine ⟨C (4 * a ^ 3 + 27 * b ^ 2)⁻¹ * (27 * C b - 18 * C a * X),
    C (4 * a ^ 3 + 27 * b ^ 2)⁻¹ * (6 * C a * X ^ 2 - 9 * C b * X + 4 * C a ^ 2), ?_⟩
  have hC : (C (4 * a ^ 3 + 27 * b ^ 2)⁻¹ : K[X]) * (4 * C a ^ 3 + 27 * C b ^ 2) = 1 := by
    have : (4 * C a ^ 3 + 27 * C b ^ 2 : K[X]) = C (4 * a ^ 3 + 27 * b ^ 2) := by
      simp only [C_add, C_mul, C_pow, map_ofNat]
    rw [this, ← C_mul, inv_mul_cancel₀ h, C_1]
  rw [Stepanov.cub_deriv, cub]
  linear_combination hC

variable {a₂ b₂ u : K} {w : L}

/-- **Non-degeneracy.**  Every `P ≠ 0` of order dividing `r` has a partner on the twist. -/
theorem exists_ne (ht : Twist a b a₂ b₂ u w) (h2 : (2 : K) ≠ 0) (h3 : (3 : K) ≠ 0)
    (hD : 4 * a ^ 3 + 27 * b ^ 2 ≠ 0) (hQ : 61 < Fintype.card K) {r h : ℕ} (hodd : Odd r)
    (hcard : Fintype.card K + 1 = h * r) {P : (EC a b).Point} (hP : P ≠ 0) (hr : r • P = 0)
    (hk : Kills K L r ((Fintype.card K - 1) * h)) :
    ∃ T, tateT ht r ((Fintype.card K - 1) * h) P T ≠ 1 := by
  have hns : ∀ x y : K, y ^ 2 = x ^ 3 + a₂ * x + b₂ → y ≠ 0 → (EC a₂ b₂).Nonsingular x y := by
    intro x y h0 hy
    rw [nonsingular_iff, equation_iff]
    refine ⟨by simpa [EC] using h0, Or.inr ?_⟩
    simp only [EC]
    intro h0
    exact mul_ne_zero h2 hy (by linear_combination h0)
  by_contra hno
  push Not at hno
  set S : Finset K := Finset.univ.filter fun x => ∃ y, y ≠ 0 ∧ y ^ 2 = x ^ 3 + a₂ * x + b₂ with hSdef
  have hS := few_places_all (L := L) h2 (coprime_cub hD) (by omega) hodd hcard hP hr hk (S := S.image fun x => u * x) (by
    intro x' hx'
    obtain ⟨x, hx, rfl⟩ := Finset.mem_image.1 hx'
    obtain ⟨y, hy, he⟩ := (Finset.mem_filter.1 hx).2
    refine ⟨ht.place x y he hy, rfl, ?_⟩
    have := hno (.some x y (hns x y he hy))
    rwa [tateT_some ht P _ hy] at this)
  rw [Finset.card_image_of_injective _ (mul_right_injective₀ ht.hu)] at hS
  have : Fintype.card K ≤ 3 * S.card + 13 := by
    rw [hSdef]
    convert Stepanov.le_count (a := a₂) (b := b₂) h2 h3
  omega

end fin
end Tate
