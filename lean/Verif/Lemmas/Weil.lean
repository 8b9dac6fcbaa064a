import Verif.Lemmas.Hasse
import Verif.Lemmas.TraceDiv

/-!
# The number of points over extensions

The degree of a composite is the product of the degrees; so the Frobenius map satisfies its equation, and the numbers of
points over the extensions follow from the number over the ground field.
-/

set_option autoImplicit false
set_option linter.unusedSectionVars false

namespace Hasse

open WeierstrassCurve WeierstrassCurve.Affine Polynomial
open Spec (EC)
open Stepanov (cub cub_eval cub_monic cub_natDegree)

section comp

variable {K : Type*} [Field K]

/-- The homogeneous form of degree `d` that belongs to a polynomial. -/
def hev {R : Type*} [CommRing R] (f : K →+* R) (d : ℕ) (p : K[X]) (u v : R) : R :=
  ∑ i ∈ Finset.range (d + 1), f (p.coeff i) * u ^ i * v ^ (d - i)

theorem map_hev {R S : Type*} [CommRing R] [CommRing S] (f : K →+* R) (g : R →+* S) (d : ℕ) (p : K[X]) (u v : R) :
    g (hev f d p u v) = hev (g.comp f) d p (g u) (g v) := by
  simp [hev, map_sum]

theorem hev_eq {R : Type*} [Field R] (f : K →+* R) {d : ℕ} {p : K[X]} (hp : p.natDegree ≤ d) (u : R) {v : R} (hv : v ≠ 0) :
    hev f d p u v = v ^ d * p.eval₂ f (u / v) := by
  rw [eval₂_eq_sum_range' f (Nat.lt_succ_of_le hp), hev, Finset.mul_sum]
  refine Finset.sum_congr rfl fun i hi => ?_
  have hi' : i ≤ d := Nat.lt_succ_iff.1 (Finset.mem_range.1 hi)
  obtain ⟨e, rfl⟩ := Nat.exists_eq_add_of_le hi'
  rw [Nat.add_sub_cancel_left, div_pow, pow_add]
  field_simp

theorem hev_zero {R : Type*} [Field R] (f : K →+* R) (d : ℕ) (p : K[X]) (u : R) :
    hev f d p u 0 = f (p.coeff d) * u ^ d := by
  rw [hev, Finset.sum_range_succ, Finset.sum_eq_zero, zero_add, Nat.sub_self, pow_zero, mul_one]
  intro i hi
  rw [zero_pow (by have := Finset.mem_range.1 hi; omega), mul_zero]

theorem hev_null {R : Type*} [Field R] (f : K →+* R) {d : ℕ} {A B : K[X]} (hc : IsCoprime A B) (hd : HasDeg2 (A, B) d)
    {u v : R} (hA : hev f d A u v = 0) (hB : hev f d B u v = 0) : u = 0 ∧ v = 0 := by
  have hv : v = 0 := by
    by_contra hv
    rw [hev_eq f hd.1.1 u hv] at hA
    rw [hev_eq f hd.1.2 u hv] at hB
    have hA' := (mul_eq_zero.1 hA).resolve_left (pow_ne_zero _ hv)
    have hB' := (mul_eq_zero.1 hB).resolve_left (pow_ne_zero _ hv)
    obtain ⟨α, β, h⟩ := hc
    have := congrArg (eval₂ f (u / v)) h
    rw [eval₂_add, eval₂_mul, eval₂_mul, hA', hB', eval₂_one] at this
    simp at this
  subst hv
  refine ⟨?_, rfl⟩
  rw [hev_zero] at hA hB
  by_contra hu
  have hu' := pow_ne_zero d hu
  exact hd.2 ⟨(map_eq_zero f).1 ((mul_eq_zero.1 hA).resolve_right hu'),
    (map_eq_zero f).1 ((mul_eq_zero.1 hB).resolve_right hu')⟩

variable {A B U V : K[X]} {d e : ℕ}

theorem hev_coprime (hc : IsCoprime A B) (hd : HasDeg2 (A, B) d) (hUV : IsCoprime U V) :
    IsCoprime (hev C d A U V) (hev C d B U V) := by
  classical
  by_contra hn
  have hne : ¬ (hev C d A U V = 0 ∧ hev C d B U V = 0) := by
    rintro ⟨h1, h2⟩
    have k1 := congrArg (algebraMap K[X] (RatFunc K)) h1
    have k2 := congrArg (algebraMap K[X] (RatFunc K)) h2
    rw [map_hev, map_zero] at k1 k2
    obtain ⟨u0, v0⟩ := hev_null _ hc hd k1 k2
    rw [map_eq_zero_iff _ (RatFunc.algebraMap_injective K)] at u0 v0
    rw [u0, v0] at hUV
    exact not_isCoprime_zero_zero hUV
  rw [← EuclideanDomain.gcd_isUnit_iff] at hn
  have hg0 : EuclideanDomain.gcd (hev C d A U V) (hev C d B U V) ≠ 0 := fun h => hne (EuclideanDomain.gcd_eq_zero_iff.1 h)
  obtain ⟨r, hr, hrd⟩ := WfDvdMonoid.exists_irreducible_factor hn hg0
  have : Fact (Irreducible r) := ⟨hr⟩
  have k1 := AdjoinRoot.mk_eq_zero.2 (hrd.trans (EuclideanDomain.gcd_dvd_left _ _))
  have k2 := AdjoinRoot.mk_eq_zero.2 (hrd.trans (EuclideanDomain.gcd_dvd_right _ _))
  rw [map_hev] at k1 k2
  obtain ⟨u0, v0⟩ := hev_null _ hc hd k1 k2
  rw [AdjoinRoot.mk_eq_zero] at u0 v0
  exact hr.not_isUnit (hUV.isUnit_of_dvd' u0 v0)

theorem hev_deg (hc : IsCoprime A B) (hd : HasDeg2 (A, B) d) (he : HasDeg2 (U, V) e) :
    HasDeg2 (hev C d A U V, hev C d B U V) (d * e) := by
  have hterm : ∀ (p : K[X]) (i : ℕ), i ∈ Finset.range (d + 1) → (C (p.coeff i) * U ^ i * V ^ (d - i)).natDegree ≤ d * e ∧
      (C (p.coeff i) * U ^ i * V ^ (d - i)).coeff (d * e) = p.coeff i * U.coeff e ^ i * V.coeff e ^ (d - i) := by
    intro p i hi
    have hi' : i ≤ d := Nat.lt_succ_iff.1 (Finset.mem_range.1 hi)
    obtain ⟨j, rfl⟩ := Nat.exists_eq_add_of_le hi'
    rw [Nat.add_sub_cancel_left, mul_assoc]
    have h1 : (U ^ i).natDegree ≤ i * e := natDegree_pow_le_of_le i he.1.1
    have h2 : (V ^ j).natDegree ≤ j * e := natDegree_pow_le_of_le j he.1.2
    refine ⟨(natDegree_C_mul_le _ _).trans (by rw [add_mul]; exact natDegree_mul_le_of_le h1 h2), ?_⟩
    rw [coeff_C_mul, add_mul, coeff_mul_add_eq_of_natDegree_le h1 h2, coeff_pow_of_natDegree_le he.1.1,
      coeff_pow_of_natDegree_le he.1.2]
    ring
  have hcoef : ∀ p : K[X], (hev C d p U V).coeff (d * e) = hev (RingHom.id K) d p (U.coeff e) (V.coeff e) := by
    intro p
    rw [hev, finset_sum_coeff, hev]
    exact Finset.sum_congr rfl fun i hi => (hterm p i hi).2
  have hnat : ∀ p : K[X], (hev C d p U V).natDegree ≤ d * e := fun p => by
    rw [hev]
    exact natDegree_sum_le_of_forall_le _ _ fun i hi => (hterm p i hi).1
  refine ⟨⟨hnat A, hnat B⟩, ?_⟩
  rintro ⟨h1, h2⟩
  dsimp only at h1 h2
  rw [hcoef] at h1 h2
  exact he.2 (hev_null _ hc hd h1 h2)

local notation "ι" => algebraMap K[X] (RatFunc K)

theorem hev_ι {u : RatFunc K} (hV : ι V ≠ 0) (hu : ι U = u * ι V) {p : K[X]} (hp : p.natDegree ≤ d) :
    ι (hev C d p U V) = ι V ^ d * aeval u p := by
  rw [map_hev, hev_eq _ hp _ hV, hu, mul_div_assoc, div_self hV, mul_one, aeval_def]
  congr 1

/-- Rational functions that are not constant are transcendental. -/
theorem aeval_inj {u : RatFunc K} (hUV : IsCoprime U V) (hu : ι U = u * ι V) (hV : ι V ≠ 0) (he : HasDeg2 (U, V) e)
    (he0 : e ≠ 0) : Function.Injective (aeval u : K[X] →ₐ[K] RatFunc K) := by
  rw [injective_iff_map_eq_zero]
  intro p hp
  by_contra hp0
  have hd := hasDeg2_max (A := p) (B := 1) (.inl hp0)
  rw [natDegree_one, max_eq_left (Nat.zero_le _)] at hd
  have hz : hev C p.natDegree p U V = 0 := by
    apply RatFunc.algebraMap_injective K
    rw [hev_ι hV hu le_rfl, hp, mul_zero, map_zero]
  have hco := hev_coprime (isCoprime_one_right (x := p)) hd hUV
  have hde := (hev_deg (isCoprime_one_right (x := p)) hd he).eq_max
  rw [hz, isCoprime_zero_left] at hco
  rw [hz, natDegree_zero, Nat.zero_max, natDegree_eq_zero_of_isUnit hco] at hde
  have hdeg : p.natDegree = 0 := by
    rcases Nat.mul_eq_zero.1 hde.symm with h | h
    · exact h
    · exact absurd h he0
  rw [eq_C_of_natDegree_eq_zero hdeg] at hp hp0
  rw [aeval_C, map_eq_zero] at hp
  exact hp0 (by rw [hp, C_0])

variable {a b : K}

/-- Composition with a point `β`: a homomorphism that takes the identity to `β`, and multiplies degrees by the degree
of `β`. -/
theorem exists_comp (h2 : (2 : K) ≠ 0) (hD : 4 * a ^ 3 + 27 * b ^ 2 ≠ 0) {u v : RatFunc K}
    (h : lam a b * v ^ 2 = u ^ 3 + ι (C a) * u + ι (C b)) (h0 : hZ (mk h2 hD u v h) ≠ 0) :
    ∃ (σ : RatFunc K →+* RatFunc K) (g : (T a b).Point →+ (T a b).Point), σ (ι X) = u ∧ (∀ x : K, σ (ι (C x)) = ι (C x)) ∧
      (∀ u' v' h', ∃ h'', g (mk h2 hD u' v' h') = mk h2 hD (σ u') (v * σ v') h'') ∧
      ∀ P, hZ (g P) = hZ P * hZ (mk h2 hD u v h) := by
  have hV : ι u.denom ≠ 0 := ι_ne (RatFunc.denom_ne_zero u)
  have hu : ι u.num = u * ι u.denom := by
    have := RatFunc.num_div_denom u
    rwa [div_eq_iff hV] at this
  have hUV := RatFunc.isCoprime_num_denom u
  have hdeg : hZ (mk h2 hD u v h) = (max u.num.natDegree u.denom.natDegree : ℕ) := by rw [hZ, ht_mk h2 hD hUV hu]
  set e := max u.num.natDegree u.denom.natDegree with he
  have he0 : e ≠ 0 := fun h' => h0 (by rw [hdeg, h']; rfl)
  have hHe : HasDeg2 (u.num, u.denom) e := hasDeg2_max (.inr (RatFunc.denom_ne_zero u))
  have hinj := aeval_inj hUV hu hV hHe he0
  let σ : RatFunc K →+* RatFunc K := IsFractionRing.lift (g := (aeval u : K[X] →ₐ[K] RatFunc K).toRingHom) hinj
  have hσ : ∀ p : K[X], σ (ι p) = aeval u p := fun p => IsFractionRing.lift_algebraMap hinj p
  have hσC : ∀ x : K, σ (ι (C x)) = ι (C x) := fun x => by rw [hσ, aeval_C]; rfl
  have hσX : σ (ι X) = u := by rw [hσ, aeval_X]
  have hs : σ (lam a b) = lam a b * v ^ 2 := by
    rw [h, ← one_mul (lam a b), ← one_pow 2, mul_comm, lam_eq]
    simp only [map_add, map_mul, map_pow, hσX, hσC]
  have hv : v ≠ 0 := by
    rintro rfl
    rw [zero_pow two_ne_zero, mul_zero, map_eq_zero] at hs
    exact lam_ne hs
  refine ⟨σ, hom σ hv hs (hσC a) (hσC b), hσX, hσC, fun u' v' h' => hom_mk h2 hD σ hv hs (hσC a) (hσC b) h', fun P => ?_⟩
  by_cases hP : P = 0
  · subst hP
    rw [map_zero]
    change ((0 : ℕ) : ℤ) = ((0 : ℕ) : ℤ) * _
    simp
  · obtain ⟨u', v', h', rfl⟩ := exists_mk h2 hD P hP
    obtain ⟨h'', e'⟩ := hom_mk h2 hD σ hv hs (hσC a) (hσC b) h'
    have hV' : ι u'.denom ≠ 0 := ι_ne (RatFunc.denom_ne_zero u')
    have hu' : ι u'.num = u' * ι u'.denom := by
      have := RatFunc.num_div_denom u'
      rwa [div_eq_iff hV'] at this
    have hUV' := RatFunc.isCoprime_num_denom u'
    have hd : HasDeg2 (u'.num, u'.denom) _ := hasDeg2_max (.inr (RatFunc.denom_ne_zero u'))
    rw [e', hdeg, hZ, hZ, ht_mk h2 hD hUV' hu', ht_mk h2 hD (hev_coprime hUV' hd hUV) ?_,
      (hev_deg hUV' hd hHe).eq_max]
    · push_cast; ring
    · rw [hev_ι hV hu hd.1.1, hev_ι hV hu hd.1.2, ← hσ, ← hσ, hu', map_mul]
      ring

end comp

section frob

variable {F : Type*} [Field F] [Fintype F] [DecidableEq F] {a b : F} {m : ℕ}

local notation "q" => Fintype.card F

theorem card_le_two (h2 : (2 : F) ≠ 0) (a b : F) : Nat.card (EC a b).Point ≤ 2 * q + 1 := by
  refine (Tate.card_le a b).trans ?_
  have : ∑ x : F, (Tate.roots2 (x ^ 3 + a * x + b)).card ≤ ∑ _x : F, 2 := by
    refine Finset.sum_le_sum fun x _ => ?_
    have h := Tate.roots2_card h2 (x ^ 3 + a * x + b)
    have h' : quadraticChar F (x ^ 3 + a * x + b) ≤ 1 := by
      by_cases h0 : x ^ 3 + a * x + b = 0
      · rw [h0, quadraticChar_zero]; norm_num
      · rcases quadraticChar_dichotomy h0 with h | h <;> rw [h]
        norm_num
    omega
  rw [Finset.sum_const, Finset.card_univ, smul_eq_mul] at this
  omega

/-- The trace of the Frobenius map. -/
noncomputable def tr (a b : F) : ℤ := q + 1 - Nat.card (EC a b).Point

variable {K : Type*} [Field K] [Algebra F K]

local notation "φ" => algebraMap F K
local notation "ι" => algebraMap K[X] (RatFunc K)

theorem bil_frob_P0 (h2 : (2 : F) ≠ 0) (hD : 4 * a ^ 3 + 27 * b ^ 2 ≠ 0) (hm : 2 * m + 1 = q) :
    bil hZ (frob K a b hm (P0 (two_up h2) (disc_up hD))) (P0 (two_up h2) (disc_up hD)) = tr a b := by
  have h := ht_frob_sub (K := K) h2 hD hm
  have hp := hZ_par (K := K) (a := φ a) (b := φ b) (two_up h2) (disc_up hD)
  rw [quad_sub hp, ht_frob (two_up h2) (disc_up hD), ht_P0] at h
  rw [tr, ← h]
  ring

/-- **Hasse's theorem.** -/
theorem hasse (h2 : (2 : F) ≠ 0) (hD : 4 * a ^ 3 + 27 * b ^ 2 ≠ 0) : tr a b ^ 2 ≤ 4 * q := by
  have hodd : q % 2 = 1 := FiniteField.odd_card_of_char_ne_two fun h => h2 (by
    have := CharP.cast_eq_zero F (ringChar F)
    rwa [h] at this)
  have hm : 2 * (q / 2) + 1 = q := by omega
  have h := cauchy (hZ_par (two_up (K := F) h2) (disc_up hD)) hZ_nonneg (frob F a b hm (P0 (two_up h2) (disc_up hD)))
    (P0 (two_up h2) (disc_up hD))
  rw [bil_frob_P0 h2 hD hm, ht_frob (two_up h2) (disc_up hD), ht_P0] at h
  linarith

theorem ht_frob2 (h2 : (2 : F) ≠ 0) (hD : 4 * a ^ 3 + 27 * b ^ 2 ≠ 0) (hm : 2 * m + 1 = q) :
    bil hZ (frob K a b hm (frob K a b hm (P0 (two_up h2) (disc_up hD)))) (P0 (two_up h2) (disc_up hD)) =
      tr a b ^ 2 - 2 * q := by
  have h2' : (2 : K) ≠ 0 := two_up h2
  have hD' : 4 * (φ a) ^ 3 + 27 * (φ b) ^ 2 ≠ 0 := disc_up hD
  have hp := hZ_par h2' hD'
  have ht := bil_frob_P0 (K := K) h2 hD hm
  have hN := ht_frob_sub (K := K) h2 hD hm
  set Fr := frob K a b hm with hFr
  set O := P0 h2' hD' with hO
  have hb : hZ (Fr O + O) = q + 1 + tr a b := by
    have : hZ (Fr O + O) = bil hZ (Fr O) O + hZ (Fr O) + hZ O := by rw [bil]; ring
    rw [this, ht, ht_frob h2' hD', ht_P0]; ring
  have hle := card_le_two h2 a b
  have hb0 : hZ (Fr O + O) ≠ 0 := by rw [hb, tr]; omega
  have hne : Fr O + O ≠ 0 := fun h => hb0 (by rw [h, quad_zero hp])
  obtain ⟨u, v, h, e⟩ := exists_mk h2' hD' _ hne
  obtain ⟨σ, g, hX, hC, hg, hmul⟩ := exists_comp h2' hD' h (by rwa [← e])
  have hs : σ (lam (φ a) (φ b)) = lam (φ a) (φ b) * v ^ 2 := by
    have e1 := congrArg σ (lam_eq (a := φ a) (b := φ b))
    rw [one_pow, mul_one] at e1
    rw [e1, h]
    simp only [map_add, map_mul, map_pow, hX, hC]
  have g0 : g O = Fr O + O := by
    rw [e, hO, P0]
    obtain ⟨h'', e'⟩ := hg (ι X) 1 lam_eq
    rw [e']
    exact mk_congr hX (by rw [map_one, mul_one])
  have g1 : g (Fr O) = Fr (Fr O + O) := by
    rw [e]
    obtain ⟨k1, e1⟩ := frob_mk (a := a) (b := b) h2' hD' hm (lam_eq (a := φ a) (b := φ b))
    obtain ⟨k2, e2⟩ := frob_mk (a := a) (b := b) h2' hD' hm h
    obtain ⟨k3, e3⟩ := hg _ _ k1
    rw [hFr, e2, hO, P0, e1, e3]
    refine mk_congr (by rw [map_pow, hX]) ?_
    rw [one_pow, mul_one, map_pow, hs, ← hm]
    ring
  have key := hmul (Fr O - O)
  rw [map_sub, g0, g1, ← e, hb, hN, map_add, show Fr (Fr O) + Fr O - (Fr O + O) = Fr (Fr O) - O by abel, quad_sub hp,
    ht_frob h2' hD', ht_frob h2' hD', ht_P0] at key
  have hNt : (Nat.card (EC a b).Point : ℤ) = q + 1 - tr a b := by rw [tr]; ring
  rw [hNt] at key
  linear_combination -key

/-- The equation of the Frobenius map, in the form in which it is used. -/
theorem frob_rec (h2 : (2 : F) ≠ 0) (hD : 4 * a ^ 3 + 27 * b ^ 2 ≠ 0) (hm : 2 * m + 1 = q) (k : ℕ) :
    bil hZ ((frob K a b hm)^[k + 2] (P0 (two_up h2) (disc_up hD))) (P0 (two_up h2) (disc_up hD)) =
      tr a b * bil hZ ((frob K a b hm)^[k + 1] (P0 (two_up h2) (disc_up hD))) (P0 (two_up h2) (disc_up hD)) -
      q * bil hZ ((frob K a b hm)^[k] (P0 (two_up h2) (disc_up hD))) (P0 (two_up h2) (disc_up hD)) := by
  have h2' : (2 : K) ≠ 0 := two_up h2
  have hD' : 4 * (φ a) ^ 3 + 27 * (φ b) ^ 2 ≠ 0 := disc_up hD
  have hp := hZ_par h2' hD'
  have ht := bil_frob_P0 (K := K) h2 hD hm
  have ht2 := ht_frob2 (K := K) h2 hD hm
  have hbf := bil_frob (a := a) (b := b) h2' hD' hm (frob K a b hm (P0 h2' hD')) (P0 h2' hD')
  have hf1 := ht_frob (a := a) (b := b) h2' hD' hm (P0 h2' hD')
  have hf2 := ht_frob (a := a) (b := b) h2' hD' hm (frob K a b hm (P0 h2' hD'))
  have hf := ht_frob (a := a) (b := b) h2' hD' hm
  have hO1 := ht_P0 h2' hD'
  set Fr := frob K a b hm with hFr
  set O := P0 h2' hD' with hO
  let Q := Fr (Fr O) + (-tr a b • Fr O + (q : ℤ) • O)
  have hQ : hZ Q = 0 := by
    have e1 : hZ (-tr a b • Fr O + (q : ℤ) • O) = (-tr a b) ^ 2 * hZ (Fr O) + -tr a b * q * bil hZ (Fr O) O +
        (q : ℤ) ^ 2 * hZ O := quad_comb hp _ _ _ _
    have e2 : bil hZ (Fr (Fr O)) (-tr a b • Fr O + (q : ℤ) • O) =
        -tr a b * bil hZ (Fr (Fr O)) (Fr O) + q * bil hZ (Fr (Fr O)) O := by
      rw [bil_comm hp, bil_add hp, bil_zsmul hp, bil_zsmul hp, bil_comm hp (Fr O), bil_comm hp O]
    have e3 : hZ Q = bil hZ (Fr (Fr O)) (-tr a b • Fr O + (q : ℤ) • O) + hZ (Fr (Fr O)) +
        hZ (-tr a b • Fr O + (q : ℤ) • O) := by rw [bil]; ring
    rw [e3, e1, e2, hbf, ht2, ht, hf2, hf1, hO1]
    ring
  have hQk : ∀ k, hZ (Fr^[k] Q) = 0 := by
    intro k
    induction k with
    | zero => exact hQ
    | succ k ih => rw [Function.iterate_succ_apply', hf, ih, mul_zero]
  have hb0 : bil hZ (Fr^[k] Q) O = 0 := by
    have := cauchy hp hZ_nonneg (Fr^[k] Q) O
    rw [hQk, mul_zero, zero_mul] at this
    exact pow_eq_zero_iff two_ne_zero |>.1 (le_antisymm this (sq_nonneg _))
  have e4 : Fr^[k] Q = Fr^[k + 2] O + (-tr a b • Fr^[k + 1] O + (q : ℤ) • Fr^[k] O) := by
    change Fr^[k] (Fr (Fr O) + (-tr a b • Fr O + (q : ℤ) • O)) = _
    rw [iterate_map_add, iterate_map_add, iterate_map_zsmul, iterate_map_zsmul, ← Function.iterate_succ_apply,
      ← Function.iterate_succ_apply, ← Function.iterate_succ_apply]
  rw [e4, bil_add hp, bil_add hp, bil_zsmul hp, bil_zsmul hp] at hb0
  linear_combination hb0

open Pbc.TraceDiv in
theorem frob_trace (h2 : (2 : F) ≠ 0) (hD : 4 * a ^ 3 + 27 * b ^ 2 ≠ 0) (hm : 2 * m + 1 = q) (k : ℕ) :
    bil hZ ((Hasse.frob K a b hm)^[k] (P0 (two_up h2) (disc_up hD))) (P0 (two_up h2) (disc_up hD)) =
      (Pbc.TraceDiv.frob q (tr a b) ^ k).trace := by
  have hp := hZ_par (K := K) (a := φ a) (b := φ b) (two_up h2) (disc_up hD)
  have key : ∀ k, bil hZ ((Hasse.frob K a b hm)^[k] (P0 (two_up h2) (disc_up hD))) (P0 (two_up h2) (disc_up hD)) =
      (Pbc.TraceDiv.frob q (tr a b) ^ k).trace ∧
      bil hZ ((Hasse.frob K a b hm)^[k + 1] (P0 (two_up h2) (disc_up hD))) (P0 (two_up h2) (disc_up hD)) =
      (Pbc.TraceDiv.frob q (tr a b) ^ (k + 1)).trace := by
    intro k
    induction k with
    | zero =>
      constructor
      · rw [Function.iterate_zero, id, pow_zero, Matrix.trace_one, bil_self hp, ht_P0]
        simp
      · rw [zero_add, Function.iterate_one, pow_one, bil_frob_P0 h2 hD]
        simp [Pbc.TraceDiv.frob, Matrix.trace_fin_two]
    | succ k ih =>
      refine ⟨ih.2, ?_⟩
      rw [frob_rec h2 hD, trace_step, ih.1, ih.2]
  exact (key k).1

/-- The powers of the Frobenius map. -/
theorem frob_iter (h2 : (2 : K) ≠ 0) (hD : 4 * (φ a) ^ 3 + 27 * (φ b) ^ 2 ≠ 0) (hm : 2 * m + 1 = q) :
    ∀ (k m' : ℕ), 2 * m' + 1 = q ^ k →
    ∃ h', (frob K a b hm)^[k] (P0 h2 hD) = mk h2 hD (ι X ^ q ^ k) (lam (φ a) (φ b) ^ m') h'
  | 0, m', h => by
    rw [pow_zero] at h
    obtain rfl : m' = 0 := by omega
    have e : lam (φ a) (φ b) * (lam (φ a) (φ b) ^ 0) ^ 2 = (ι X ^ q ^ 0) ^ 3 + ι (C (φ a)) * (ι X ^ q ^ 0) + ι (C (φ b)) := by
      rw [pow_zero, pow_zero, pow_one]; exact lam_eq
    exact ⟨e, mk_congr (h := lam_eq) (by rw [pow_zero, pow_one]) (by rw [pow_zero])⟩
  | k + 1, m', h => by
    have hodd : (q ^ k) % 2 = 1 := by
      rw [← hm, Nat.pow_mod]
      simp [Nat.add_mod]
    obtain ⟨j, hj⟩ : ∃ j, 2 * j + 1 = q ^ k := ⟨q ^ k / 2, by omega⟩
    obtain ⟨h1, e1⟩ := frob_iter h2 hD hm k j hj
    obtain ⟨h3, e3⟩ := frob_mk (a := a) (b := b) h2 hD hm h1
    have hmj : m' = m + j * q := by
      have : 2 * m' + 1 = (2 * j + 1) * (2 * m + 1) := by rw [h, pow_succ, hj, hm]
      rw [← hm]
      nlinarith
    have e : (ι X ^ q ^ k) ^ q = ι X ^ q ^ (k + 1) := by rw [← pow_mul, pow_succ]
    have e' : lam (φ a) (φ b) ^ m * (lam (φ a) (φ b) ^ j) ^ q = lam (φ a) (φ b) ^ m' := by rw [hmj, pow_add, pow_mul]
    rw [Function.iterate_succ_apply', e1, e3]
    exact ⟨by rw [← e, ← e']; exact h3, mk_congr e e'⟩

/-- **The number of points over an extension of degree `k`.** -/
theorem card_extn [Fintype K] [DecidableEq K] (h2 : (2 : F) ≠ 0) (hD : 4 * a ^ 3 + 27 * b ^ 2 ≠ 0) {k : ℕ} (hk : 1 ≤ k)
    (hK : Fintype.card K = q ^ k) :
    (Nat.card (EC (φ a) (φ b)).Point : ℤ) = Pbc.Curve.orderExtn q (q + 1 - Nat.card (EC a b).Point) k := by
  have hodd : q % 2 = 1 := FiniteField.odd_card_of_char_ne_two fun h => h2 (by
    have := CharP.cast_eq_zero F (ringChar F)
    rwa [h] at this)
  have hm : 2 * (q / 2) + 1 = q := by omega
  have hodd' : (q ^ k) % 2 = 1 := by
    rw [Nat.pow_mod, hodd, one_pow, Nat.one_mod]
  have hmk : 2 * (q ^ k / 2) + 1 = q ^ k := by omega
  have hmK : 2 * (q ^ k / 2) + 1 = Fintype.card K := by omega
  have h2' : (2 : K) ≠ 0 := two_up h2
  have hD' : 4 * (φ a) ^ 3 + 27 * (φ b) ^ 2 ≠ 0 := disc_up hD
  have h1 := bil_frob_P0 (F := K) (K := K) (a := φ a) (b := φ b) h2' hD' hmK
  have h3 := frob_trace (K := K) h2 hD hm k
  obtain ⟨k1, e1⟩ := frob_iter (a := a) (b := b) h2' hD' hm k (q ^ k / 2) hmk
  obtain ⟨k2, e2⟩ := frob_mk (F := K) (K := K) (a := φ a) (b := φ b) h2' hD' hmK (lam_eq (a := φ a) (b := φ b))
  have e : Hasse.frob K (φ a) (φ b) hmK (P0 h2' hD') = (Hasse.frob K a b hm)^[k] (P0 h2' hD') := by
    rw [e1]
    refine Eq.trans e2 (mk_congr ?_ ?_)
    · rw [hK]
    · rw [one_pow, mul_one]; rfl
  have h4 : tr (φ a) (φ b) = (Pbc.TraceDiv.frob q (tr a b) ^ k).trace := by
    rw [← h1, ← h3]
    exact congrArg (fun z => bil hZ z (P0 h2' hD')) e
  rw [Pbc.Curve.orderExtn, Pbc.TraceDiv.traceN_eq _ _ _ hk]
  change _ = _ - (Pbc.TraceDiv.frob q (tr a b) ^ k).trace
  rw [← h4, tr, hK]
  push_cast
  ring

end frob

end Hasse
