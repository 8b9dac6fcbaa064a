import Verif.Lemmas.Height
import Verif.Lemmas.HasseCount

/-!
# The theorem of Hasse, and the number of points over extensions

The points of `λ Y² = X³ + a X + b`, `λ = t³ + a t + b`, over the field of rational functions in `t`: `(t, 1)` stands for the
identity of the curve, `(t^q, λ^((q-1)/2))` for the Frobenius map.  The degree of the abscissa is a quadratic form, and its
value at the difference of the two is the number of points over the field of `q` elements (`count_poly`).
-/

set_option autoImplicit false
set_option linter.unusedSectionVars false

namespace Hasse

open WeierstrassCurve WeierstrassCurve.Affine Polynomial
open Spec (EC)
open Stepanov (cub cub_eval cub_monic cub_natDegree)

section quad

variable {G : Type*} [AddCommGroup G] {h : G → ℤ}

/-- The bilinear form. -/
def bil (h : G → ℤ) (P Q : G) : ℤ := h (P + Q) - h P - h Q

variable (hp : ∀ P Q, h (P + Q) + h (P - Q) = 2 * h P + 2 * h Q)

include hp

theorem quad_zero : h 0 = 0 := by
  have := hp 0 0
  rw [add_zero, sub_zero] at this
  linarith

theorem quad_neg (P : G) : h (-P) = h P := by
  have := hp 0 P
  rw [zero_add, zero_sub, quad_zero hp] at this
  linarith

theorem bil_add (P Q R : G) : bil h (P + Q) R = bil h P R + bil h Q R := by
  have h1 := hp (P + R) Q
  have h2 := hp P (R - Q)
  have h3 := hp (P + Q) R
  have h4 := hp R Q
  rw [show P + R + Q = P + Q + R by abel] at h1
  rw [show P + (R - Q) = P + R - Q by abel, show P - (R - Q) = P + Q - R by abel] at h2
  rw [show R + Q = Q + R by abel] at h4
  simp only [bil]
  linarith

/-- The bilinear form as a homomorphism. -/
def bilHom (R : G) : G →+ ℤ where
  toFun P := bil h P R
  map_zero' := by simp [bil, quad_zero hp]
  map_add' P Q := bil_add hp P Q R

theorem bil_comm (P Q : G) : bil h P Q = bil h Q P := by
  simp only [bil, add_comm P Q]
  ring

theorem bil_zsmul (n : ℤ) (P R : G) : bil h (n • P) R = n * bil h P R := by
  have := map_zsmul (bilHom hp R) n P
  simpa [bilHom] using this

theorem bil_neg (P R : G) : bil h (-P) R = -bil h P R := map_neg (bilHom hp R) P

theorem bil_self (P : G) : bil h P P = 2 * h P := by
  have := hp P P
  rw [sub_self, quad_zero hp] at this
  simp only [bil]
  linarith

theorem quad_zsmul (n : ℤ) (P : G) : h (n • P) = n ^ 2 * h P := by
  have h1 := bil_self hp (n • P)
  rw [bil_zsmul hp, bil_comm hp, bil_zsmul hp, bil_self hp] at h1
  linarith

theorem quad_comb (n m : ℤ) (P Q : G) : h (n • P + m • Q) = n ^ 2 * h P + n * m * bil h P Q + m ^ 2 * h Q := by
  have h1 : bil h (n • P) (m • Q) = n * m * bil h P Q := by
    rw [bil_zsmul hp, bil_comm hp, bil_zsmul hp, bil_comm hp]; ring
  have h2 : h (n • P + m • Q) = bil h (n • P) (m • Q) + h (n • P) + h (m • Q) := by simp only [bil]; ring
  rw [h2, h1, quad_zsmul hp, quad_zsmul hp]
  ring

theorem quad_sub (P Q : G) : h (P - Q) = h P - bil h P Q + h Q := by
  have := hp P Q
  simp only [bil]
  linarith

/-- The inequality of Cauchy and Schwarz. -/
theorem cauchy (h0 : ∀ P, 0 ≤ h P) (P Q : G) : bil h P Q ^ 2 ≤ 4 * h P * h Q := by
  rcases (h0 P).eq_or_lt with hP | hP
  · have h1 := h0 (((-(h Q + 1)) * bil h P Q) • P + (1 : ℤ) • Q)
    rw [quad_comb hp, ← hP] at h1
    have hQ := h0 Q
    rw [← hP]
    nlinarith [sq_nonneg (bil h P Q)]
  · have h1 := h0 ((-bil h P Q) • P + (2 * h P) • Q)
    rw [quad_comb hp] at h1
    have h2 : 0 ≤ h P * (4 * h P * h Q - bil h P Q ^ 2) := by nlinarith
    have := nonneg_of_mul_nonneg_right h2 hP
    linarith

end quad

section points

variable {K : Type*} [Field K]

local notation "ι" => algebraMap K[X] (RatFunc K)

/-- `λ` -/
noncomputable def lam (a b : K) : RatFunc K := ι (cub a b)

/-- The curve `λ Y² = X³ + a X + b`. -/
noncomputable abbrev T (a b : K) : WeierstrassCurve.Affine (RatFunc K) := EC (lam a b ^ 2 * ι (C a)) (lam a b ^ 3 * ι (C b))

variable {a b : K}

theorem lam_ne : lam a b ≠ 0 := ι_ne (cub_monic a b).ne_zero

theorem two_ne (h2 : (2 : K) ≠ 0) : (2 : RatFunc K) ≠ 0 := by
  rw [show (2 : RatFunc K) = ι (C 2) by rw [map_ofNat, map_ofNat]]
  exact ι_ne (C_ne_zero.2 h2)

theorem disc_ne (hD : 4 * a ^ 3 + 27 * b ^ 2 ≠ 0) :
    4 * (lam a b ^ 2 * ι (C a)) ^ 3 + 27 * (lam a b ^ 3 * ι (C b)) ^ 2 ≠ 0 := by
  have h1 : ι (C (4 * a ^ 3 + 27 * b ^ 2)) ≠ 0 := ι_ne (C_ne_zero.2 hD)
  have h2 := mul_ne_zero (pow_ne_zero 6 (lam_ne (a := a) (b := b))) h1
  simp only [map_add, map_mul, map_pow, map_ofNat] at h2
  intro h
  apply h2
  linear_combination h

theorem nonsing_of_disc {k : Type*} [Field k] {a b : k} (h2 : (2 : k) ≠ 0) (hD : 4 * a ^ 3 + 27 * b ^ 2 ≠ 0) (x y : k)
    (h : y ^ 2 = x ^ 3 + a * x + b) : (EC a b).Nonsingular x y := by
  rw [nonsingular_iff, equation_iff]
  refine ⟨by simpa [EC] using h, ?_⟩
  by_cases hy : y = 0
  · left
    subst hy
    simp only [EC]
    intro h0
    refine hD ?_
    have e1 : 3 * x ^ 2 + a = 0 := by linear_combination -h0
    have e2 : x ^ 3 + a * x + b = 0 := by linear_combination -h
    linear_combination (-18 * a * x + 27 * b) * e2 + (6 * a * x ^ 2 - 9 * b * x + 4 * a ^ 2) * e1
  · right
    simp only [EC]
    intro h0
    exact mul_ne_zero h2 hy (by linear_combination h0)

theorem lam_eq : lam a b * 1 ^ 2 = ι X ^ 3 + ι (C a) * ι X + ι (C b) := by
  rw [lam, cub, map_add, map_add, map_mul, map_pow]; ring

/-- The point `(u, v)` -/
noncomputable def mk (h2 : (2 : K) ≠ 0) (hD : 4 * a ^ 3 + 27 * b ^ 2 ≠ 0) (u v : RatFunc K)
    (h : lam a b * v ^ 2 = u ^ 3 + ι (C a) * u + ι (C b)) : (T a b).Point :=
  .some (lam a b * u) (lam a b ^ 2 * v)
    (nonsing_of_disc (two_ne h2) (disc_ne hD) _ _ (by linear_combination lam a b ^ 3 * h))

theorem mk_congr {h2 : (2 : K) ≠ 0} {hD : 4 * a ^ 3 + 27 * b ^ 2 ≠ 0} {u v u' v' : RatFunc K}
    {h : lam a b * v ^ 2 = u ^ 3 + ι (C a) * u + ι (C b)} {h' : lam a b * v' ^ 2 = u' ^ 3 + ι (C a) * u' + ι (C b)}
    (hu : u = u') (hv : v = v') : mk h2 hD u v h = mk h2 hD u' v' h' := by subst hu hv; rfl

theorem exists_mk (h2 : (2 : K) ≠ 0) (hD : 4 * a ^ 3 + 27 * b ^ 2 ≠ 0) (P : (T a b).Point) (hP : P ≠ 0) :
    ∃ u v h, P = mk h2 hD u v h := by
  rcases P with _ | ⟨x, y, n⟩
  · exact absurd rfl hP
  · have e := Tate.eqn_of n
    have hl := lam_ne (a := a) (b := b)
    refine ⟨x / lam a b, y / lam a b ^ 2, ?_, point_ext ?_ ?_⟩
    · field_simp
      linear_combination e
    · field_simp
    · field_simp

/-- The degree as a quadratic form. -/
noncomputable def hZ (P : (T a b).Point) : ℤ := ht (lam a b) P

theorem hZ_par (h2 : (2 : K) ≠ 0) (hD : 4 * a ^ 3 + 27 * b ^ 2 ≠ 0) (P Q : (T a b).Point) :
    hZ (P + Q) + hZ (P - Q) = 2 * hZ P + 2 * hZ Q := by
  have := parallelogram h2 hD lam_ne rfl rfl P Q
  simp only [hZ]
  exact_mod_cast this

theorem hZ_nonneg (P : (T a b).Point) : 0 ≤ hZ P := Int.natCast_nonneg _

/-- The degree from coprime numerator and denominator. -/
theorem ht_mk (h2 : (2 : K) ≠ 0) (hD : 4 * a ^ 3 + 27 * b ^ 2 ≠ 0) {u v : RatFunc K}
    {h : lam a b * v ^ 2 = u ^ 3 + ι (C a) * u + ι (C b)} {A B : K[X]} (hc : IsCoprime A B) (hu : ι A = u * ι B) :
    ht (lam a b) (mk h2 hD u v h) = max A.natDegree B.natDegree := by
  refine (HRep.ht lam_ne ⟨hc, ι B / lam a b, ?_, ?_⟩).symm
  · rw [mk, px_some, hu]
    have hl := lam_ne (a := a) (b := b)
    field_simp
  · rw [mk, px_some, mul_one, div_mul_cancel₀ _ lam_ne]

/-- The identity. -/
noncomputable def P0 (h2 : (2 : K) ≠ 0) (hD : 4 * a ^ 3 + 27 * b ^ 2 ≠ 0) : (T a b).Point :=
  mk h2 hD (ι X) 1 lam_eq

theorem ht_P0 (h2 : (2 : K) ≠ 0) (hD : 4 * a ^ 3 + 27 * b ^ 2 ≠ 0) : hZ (P0 h2 hD) = 1 := by
  rw [hZ, P0, ht_mk h2 hD (A := X) (B := 1) isCoprime_one_right (by simp)]
  simp

/-- `(u, v) ↦ (σ(u), w σ(v))` -/
noncomputable def hom (σ : RatFunc K →+* RatFunc K) {w : RatFunc K} (hw : w ≠ 0) (hs : σ (lam a b) = lam a b * w ^ 2)
    (ha : σ (ι (C a)) = ι (C a)) (hb : σ (ι (C b)) = ι (C b)) : (T a b).Point →+ (T a b).Point :=
  scale σ (c := w⁻¹) (inv_ne_zero hw) (by rw [map_mul, map_pow, hs, ha]; field_simp)
    (by rw [map_mul, map_pow, hs, hb]; field_simp)

theorem hom_mk (h2 : (2 : K) ≠ 0) (hD : 4 * a ^ 3 + 27 * b ^ 2 ≠ 0) (σ : RatFunc K →+* RatFunc K) {w : RatFunc K}
    (hw : w ≠ 0) (hs : σ (lam a b) = lam a b * w ^ 2) (ha : σ (ι (C a)) = ι (C a)) (hb : σ (ι (C b)) = ι (C b))
    {u v : RatFunc K} (h : lam a b * v ^ 2 = u ^ 3 + ι (C a) * u + ι (C b)) :
    ∃ h', hom σ hw hs ha hb (mk h2 hD u v h) = mk h2 hD (σ u) (w * σ v) h' := by
  refine ⟨?_, ?_⟩
  · have := congrArg σ h
    simp only [map_mul, map_add, map_pow, hs, ha, hb] at this
    linear_combination this
  · rw [mk, hom, scale_some]
    refine point_ext ?_ ?_
    · rw [map_mul, hs]; field_simp
    · rw [map_mul, map_pow, hs]; field_simp

end points

section frob

variable {F K : Type*} [Field F] [Fintype F] [DecidableEq F] [Field K] [Algebra F K] {a b : F}

local notation "φ" => algebraMap F K
local notation "ι" => algebraMap K[X] (RatFunc K)
local notation "q" => Fintype.card F

theorem two_up (h2 : (2 : F) ≠ 0) : (2 : K) ≠ 0 := fun e => h2 ((algebraMap F K).injective (by simpa [map_ofNat] using e))

theorem disc_up (hD : 4 * a ^ 3 + 27 * b ^ 2 ≠ 0) : 4 * (φ a) ^ 3 + 27 * (φ b) ^ 2 ≠ 0 := fun e => hD
  ((algebraMap F K).injective (by simpa [map_ofNat] using e))

theorem cub_up : (cub a b).map φ = cub (φ a) (φ b) := by simp [cub]

/-- `x ↦ x^q` -/
noncomputable def frobL (F K : Type*) [Field F] [Fintype F] [Field K] [Algebra F K] : RatFunc K →+* RatFunc K :=
  (FiniteField.frobeniusAlgHom F (RatFunc K)).toRingHom

theorem frobL_apply (x : RatFunc K) : frobL F K x = x ^ q := rfl

theorem frobL_C (c : F) : frobL F K (ι (C (φ c))) = ι (C (φ c)) := by
  rw [frobL_apply, ← map_pow, ← C_pow, ← map_pow, FiniteField.pow_card]

variable {m : ℕ}

/-- The Frobenius map `(u, v) ↦ (u^q, λ^((q-1)/2) v^q)`. -/
noncomputable def frob (K : Type*) [Field K] [Algebra F K] (a b : F) (hm : 2 * m + 1 = q) :
    (T (algebraMap F K a) (algebraMap F K b)).Point →+ (T (algebraMap F K a) (algebraMap F K b)).Point :=
  hom (frobL F K) (w := lam (algebraMap F K a) (algebraMap F K b) ^ m) (pow_ne_zero _ lam_ne)
    (by rw [frobL_apply, ← hm]; ring) (frobL_C a) (frobL_C b)

theorem frob_mk (h2 : (2 : K) ≠ 0) (hD : 4 * (φ a) ^ 3 + 27 * (φ b) ^ 2 ≠ 0) (hm : 2 * m + 1 = q)
    {u v : RatFunc K} (h : lam (φ a) (φ b) * v ^ 2 = u ^ 3 + ι (C (φ a)) * u + ι (C (φ b))) :
    ∃ h', frob K a b hm (mk h2 hD u v h) = mk h2 hD (u ^ q) (lam (φ a) (φ b) ^ m * v ^ q) h' :=
  hom_mk h2 hD (frobL F K) _ _ _ _ h

theorem ht_frob (h2 : (2 : K) ≠ 0) (hD : 4 * (φ a) ^ 3 + 27 * (φ b) ^ 2 ≠ 0) (hm : 2 * m + 1 = q)
    (P : (T (φ a) (φ b)).Point) : hZ (frob K a b hm P) = q * hZ P := by
  by_cases hP : P = 0
  · subst hP
    rw [map_zero]
    change ((0 : ℕ) : ℤ) = _ * ((0 : ℕ) : ℤ)
    simp
  · obtain ⟨u, v, h, rfl⟩ := exists_mk h2 hD P hP
    obtain ⟨h', e⟩ := frob_mk h2 hD hm h
    have hd := ι_ne (RatFunc.denom_ne_zero u)
    have hu : ι u.num = u * ι u.denom := by
      have := RatFunc.num_div_denom u
      rwa [div_eq_iff hd] at this
    rw [e, hZ, hZ, ht_mk h2 hD (A := u.num ^ q) (B := u.denom ^ q) (RatFunc.isCoprime_num_denom u).pow
      (by rw [map_pow, map_pow, hu]; ring), ht_mk h2 hD (RatFunc.isCoprime_num_denom u) hu]
    rw [natDegree_pow, natDegree_pow, Nat.mul_max_mul_left]
    push_cast
    ring

theorem bil_frob (h2 : (2 : K) ≠ 0) (hD : 4 * (φ a) ^ 3 + 27 * (φ b) ^ 2 ≠ 0) (hm : 2 * m + 1 = q)
    (P Q : (T (φ a) (φ b)).Point) : bil hZ (frob K a b hm P) (frob K a b hm Q) = q * bil hZ P Q := by
  simp only [bil]
  rw [← map_add, ht_frob h2 hD, ht_frob h2 hD, ht_frob h2 hD]
  ring

/-- The degree of the difference of the Frobenius map and the identity is the number of points. -/
theorem ht_frob_sub (h2 : (2 : F) ≠ 0) (hD : 4 * a ^ 3 + 27 * b ^ 2 ≠ 0) (hm : 2 * m + 1 = q) :
    hZ (frob K a b hm (P0 (two_up h2) (disc_up hD)) - P0 (two_up h2) (disc_up hD)) = Nat.card (EC a b).Point := by
  have h2' : (2 : K) ≠ 0 := two_up h2
  have hD' : 4 * (φ a) ^ 3 + 27 * (φ b) ^ 2 ≠ 0 := disc_up hD
  obtain ⟨A, B, c, hc, hc0, hmax, hB, hA⟩ := count_poly (a := a) (b := b) h2 hD hm
  rw [← hmax]
  have hq : 1 < q := Fintype.one_lt_card
  set Z : K[X] := X ^ q - X with hZdef
  have hZ0 : Z ≠ 0 := FiniteField.X_pow_card_sub_X_ne_zero K hq
  have hl := lam_ne (a := φ a) (b := φ b)
  obtain ⟨h', e⟩ := frob_mk h2' hD' hm (u := ι X) (v := 1) lam_eq
  rw [P0, e, hZ, sub_eq_add_neg]
  have hx : lam (φ a) (φ b) * ι X ^ q ≠ lam (φ a) (φ b) * ι X := by
    intro h
    have h1 := mul_left_cancel₀ hl h
    rw [← map_pow] at h1
    exact hZ0 (sub_eq_zero.2 (RatFunc.algebraMap_injective K h1))
  rw [mk, mk, Point.neg_some, Point.add_some (fun h => hx h.1)]
  have hBK : c.map φ * B.map φ = Z ^ 2 := by
    rw [← Polynomial.map_mul, hB]; simp [hZdef]
  have hAK : c.map φ * A.map φ = cub (φ a) (φ b) * (cub (φ a) (φ b) ^ m + 1) ^ 2 - (X ^ q + X) * Z ^ 2 := by
    rw [← Polynomial.map_mul, hA, ← cub_up (K := K)]; simp [hZdef]
  have hcK : ι (c.map φ) ≠ 0 := ι_ne (by rwa [Ne, Polynomial.map_eq_zero])
  have hBK' := congrArg ι hBK
  have hAK' := congrArg ι hAK
  have hd : ι Z ≠ 0 := ι_ne hZ0
  refine (congrArg Nat.cast (HRep.ht (A := A.map φ) (B := B.map φ) hl ⟨hc.map (mapRingHom φ), ι (B.map φ) / lam (φ a) (φ b),
    ?_, ?_⟩)).symm.trans ?_
  · rw [px_some, slope_of_X_ne hx, Pbc.Curve.negY_EC]
    simp only [addX, EC, zero_mul, add_zero, sub_zero, mul_one, one_pow]
    rw [map_mul, map_pow] at hBK'
    simp only [map_mul, map_pow, map_sub, map_add, map_one] at hAK'
    rw [show ι (cub (φ a) (φ b)) = lam (φ a) (φ b) from rfl] at hAK'
    have hs : (lam (φ a) (φ b) ^ 2 * lam (φ a) (φ b) ^ m - -lam (φ a) (φ b) ^ 2) /
        (lam (φ a) (φ b) * ι X ^ q - lam (φ a) (φ b) * ι X) * ι Z = lam (φ a) (φ b) * (lam (φ a) (φ b) ^ m + 1) := by
      rw [hZdef, map_sub, map_pow, div_mul_eq_mul_div, div_eq_iff (sub_ne_zero.2 hx)]
      ring
    refine mul_left_cancel₀ hcK ?_
    generalize (lam (φ a) (φ b) ^ 2 * lam (φ a) (φ b) ^ m - -lam (φ a) (φ b) ^ 2) /
        (lam (φ a) (φ b) * ι X ^ q - lam (φ a) (φ b) * ι X) = s at hs ⊢
    rw [hAK', ← mul_assoc, ← mul_div_assoc, hBK']
    generalize lam (φ a) (φ b) ^ m = w at *
    rw [div_mul_eq_mul_div, eq_div_iff hl]
    linear_combination -(s * ι Z + lam (φ a) (φ b) * (w + 1)) * hs
  · rw [px_some, mul_one, div_mul_cancel₀ _ hl]
  · rw [natDegree_map, natDegree_map]

end frob

end Hasse
