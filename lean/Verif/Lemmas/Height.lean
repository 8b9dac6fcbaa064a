import Verif.Lemmas.ScaleHom
import Mathlib.FieldTheory.RatFunc.Basic
import Mathlib.FieldTheory.RatFunc.AsPolynomial
import Mathlib.RingTheory.AdjoinRoot
import Mathlib.RingTheory.Polynomial.Basic

/-!
# Degrees of abscissas

The curve `λ Y² = X³ + a X + b` over a field of rational functions, `a` and `b` constants, in the form
`Y² = X³ + λ² a X + λ³ b`.  The degree of the abscissa is a quadratic form.
-/

set_option autoImplicit false
set_option linter.unusedSectionVars false

namespace Hasse

open WeierstrassCurve WeierstrassCurve.Affine Polynomial
open Spec (EC)

section null

variable {k : Type*} [Field k]

theorem as_null (h2 : (2 : k) ≠ 0) {a b s t u : k} (hD : 4 * a ^ 3 + 27 * b ^ 2 ≠ 0) (h0 : as0 a b s t u = 0)
    (h1 : as1 a b s t u = 0) (h3 : as2 s t u = 0) : s = 0 ∧ t = 0 ∧ u = 0 := by
  simp only [as0, as1, as2] at h0 h1 h3
  have hu : u = 0 := by
    by_contra hu
    obtain ⟨x, hx⟩ : ∃ x, t = 2 * u * x := ⟨t / (2 * u), by field_simp⟩
    have hs : s = u * x ^ 2 := by
      have : (4 * u) * (s - u * x ^ 2) = 0 := by rw [hx] at h3; linear_combination -h3
      have h4 : (4 * u : k) ≠ 0 := mul_ne_zero (by rw [show (4 : k) = 2 * 2 by norm_num]; exact mul_ne_zero h2 h2) hu
      exact sub_eq_zero.1 ((mul_eq_zero.1 this).resolve_left h4)
    subst hx hs
    have hf : x ^ 3 + a * x + b = 0 := by
      have : (4 * u ^ 2) * (x ^ 3 + a * x + b) = 0 := by linear_combination h1
      refine (mul_eq_zero.1 this).resolve_left (mul_ne_zero ?_ (pow_ne_zero _ hu))
      rw [show (4 : k) = 2 * 2 by norm_num]; exact mul_ne_zero h2 h2
    have hd : 3 * x ^ 2 + a = 0 := by
      have : u ^ 2 * (3 * x ^ 2 + a) ^ 2 = 0 := by linear_combination h0 + 8 * u ^ 2 * x * hf
      exact pow_eq_zero_iff (two_ne_zero) |>.1 ((mul_eq_zero.1 this).resolve_left (pow_ne_zero _ hu))
    apply hD
    linear_combination (-18 * a * x + 27 * b) * hf + (4 * a ^ 2 + 6 * a * x ^ 2 - 9 * b * x) * hd
  subst hu
  have ht : t = 0 := pow_eq_zero_iff (two_ne_zero) |>.1 (show t ^ 2 = 0 by linear_combination h3)
  subst ht
  exact ⟨pow_eq_zero_iff (two_ne_zero) |>.1 (show s ^ 2 = 0 by linear_combination h0), rfl, rfl⟩

theorem sy_null {p q : k × k} (h : sy p q = 0) : p = 0 ∨ q = 0 := by
  obtain ⟨p1, p2⟩ := p
  obtain ⟨q1, q2⟩ := q
  simp only [sy, Prod.mk_eq_zero] at h ⊢
  obtain ⟨h1, h2, h3⟩ := h
  rcases mul_eq_zero.1 h1 with h | h <;> rcases mul_eq_zero.1 h3 with h' | h' <;> subst h <;> subst h' <;> simp_all

end null

section prim

variable {K : Type*} [Field K]

/-- No irreducible polynomial divides the three. -/
def Prim (v : K[X] × K[X] × K[X]) : Prop := ∀ p, Irreducible p → ¬ (p ∣ v.1 ∧ p ∣ v.2.1 ∧ p ∣ v.2.2)

/-- The maximal degree is `d`. -/
def HasDeg (v : K[X] × K[X] × K[X]) (d : ℕ) : Prop :=
  (v.1.natDegree ≤ d ∧ v.2.1.natDegree ≤ d ∧ v.2.2.natDegree ≤ d) ∧
    ¬ (v.1.coeff d = 0 ∧ v.2.1.coeff d = 0 ∧ v.2.2.coeff d = 0)

/-- The same for pairs. -/
def HasDeg2 (v : K[X] × K[X]) (d : ℕ) : Prop :=
  (v.1.natDegree ≤ d ∧ v.2.natDegree ≤ d) ∧ ¬ (v.1.coeff d = 0 ∧ v.2.coeff d = 0)

theorem HasDeg.unique {v : K[X] × K[X] × K[X]} {d e : ℕ} (h : HasDeg v d) (h' : HasDeg v e) : d = e := by
  by_contra hne
  rcases Nat.lt_or_gt_of_ne hne with hl | hl
  · exact h'.2 ⟨coeff_eq_zero_of_natDegree_lt (h.1.1.trans_lt hl), coeff_eq_zero_of_natDegree_lt (h.1.2.1.trans_lt hl),
      coeff_eq_zero_of_natDegree_lt (h.1.2.2.trans_lt hl)⟩
  · exact h.2 ⟨coeff_eq_zero_of_natDegree_lt (h'.1.1.trans_lt hl), coeff_eq_zero_of_natDegree_lt (h'.1.2.1.trans_lt hl),
      coeff_eq_zero_of_natDegree_lt (h'.1.2.2.trans_lt hl)⟩

theorem hasDeg2_max {A B : K[X]} (h : A ≠ 0 ∨ B ≠ 0) : HasDeg2 (A, B) (max A.natDegree B.natDegree) := by
  refine ⟨⟨le_max_left _ _, le_max_right _ _⟩, ?_⟩
  rintro ⟨h1, h2⟩
  dsimp only at h1 h2
  rcases le_total A.natDegree B.natDegree with hl | hl
  · rw [max_eq_right hl] at h1 h2
    have hB : B = 0 := leadingCoeff_eq_zero.1 h2
    subst hB
    rw [natDegree_zero] at hl h1
    have : A = 0 := leadingCoeff_eq_zero.1 (by rw [leadingCoeff, Nat.le_zero.1 hl]; exact h1)
    tauto
  · rw [max_eq_left hl] at h1 h2
    have hA : A = 0 := leadingCoeff_eq_zero.1 h1
    subst hA
    rw [natDegree_zero] at hl h2
    have : B = 0 := leadingCoeff_eq_zero.1 (by rw [leadingCoeff, Nat.le_zero.1 hl]; exact h2)
    tauto

theorem HasDeg2.eq_max {A B : K[X]} {d : ℕ} (h : HasDeg2 (A, B) d) : max A.natDegree B.natDegree = d := by
  refine le_antisymm (max_le h.1.1 h.1.2) ?_
  by_contra hl
  rw [not_le, max_lt_iff] at hl
  exact h.2 ⟨coeff_eq_zero_of_natDegree_lt hl.1, coeff_eq_zero_of_natDegree_lt hl.2⟩

theorem hasDeg_sy {p q : K[X] × K[X]} {d e : ℕ} (hp : HasDeg2 p d) (hq : HasDeg2 q e) : HasDeg (sy p q) (d + e) := by
  refine ⟨⟨?_, ?_, ?_⟩, ?_⟩
  · exact natDegree_mul_le_of_le hp.1.1 hq.1.1
  · exact natDegree_add_le_of_degree_le (natDegree_mul_le_of_le hp.1.1 hq.1.2) (natDegree_mul_le_of_le hp.1.2 hq.1.1)
  · exact natDegree_mul_le_of_le hp.1.2 hq.1.2
  · rintro ⟨h1, h2, h3⟩
    simp only [sy] at h1 h2 h3
    rw [coeff_add] at h2
    rw [coeff_mul_add_eq_of_natDegree_le hp.1.1 hq.1.1] at h1
    rw [coeff_mul_add_eq_of_natDegree_le hp.1.1 hq.1.2, coeff_mul_add_eq_of_natDegree_le hp.1.2 hq.1.1] at h2
    rw [coeff_mul_add_eq_of_natDegree_le hp.1.2 hq.1.2] at h3
    have : sy (p.1.coeff d, p.2.coeff d) (q.1.coeff e, q.2.coeff e) = 0 := by
      simp only [sy, Prod.mk_eq_zero]; exact ⟨h1, h2, h3⟩
    rcases sy_null this with h | h
    · exact hp.2 ⟨congrArg Prod.fst h, congrArg Prod.snd h⟩
    · exact hq.2 ⟨congrArg Prod.fst h, congrArg Prod.snd h⟩

theorem prim_sy {p q : K[X] × K[X]} (hp : IsCoprime p.1 p.2) (hq : IsCoprime q.1 q.2) : Prim (sy p q) := by
  rintro r hr ⟨h1, h2, h3⟩
  have : Fact (Irreducible r) := ⟨hr⟩
  have cop : ∀ v : K[X] × K[X], IsCoprime v.1 v.2 → ((AdjoinRoot.mk r) v.1, (AdjoinRoot.mk r) v.2) ≠ 0 := by
    rintro v ⟨α, β, h⟩ h0
    have := congrArg (AdjoinRoot.mk r) h
    rw [map_add, map_mul, map_mul, (Prod.mk_eq_zero.1 h0).1, (Prod.mk_eq_zero.1 h0).2, map_one] at this
    simp at this
  have e : sy ((AdjoinRoot.mk r) p.1, (AdjoinRoot.mk r) p.2) ((AdjoinRoot.mk r) q.1, (AdjoinRoot.mk r) q.2) = 0 := by
    simp only [sy, Prod.mk_eq_zero, ← map_mul, ← map_add, AdjoinRoot.mk_eq_zero]
    exact ⟨h1, h2, h3⟩
  rcases sy_null e with h | h
  · exact cop p hp h
  · exact cop q hq h

/-- The three polynomials. -/
noncomputable def asv (a b : K) (v : K[X] × K[X] × K[X]) : K[X] × K[X] × K[X] :=
  (as0 (C a) (C b) v.1 v.2.1 v.2.2, as1 (C a) (C b) v.1 v.2.1 v.2.2, as2 v.1 v.2.1 v.2.2)

theorem map_as0 {R S : Type*} [CommRing R] [CommRing S] (f : R →+* S) (a b s t u : R) :
    f (as0 a b s t u) = as0 (f a) (f b) (f s) (f t) (f u) := by simp [as0, map_ofNat]

theorem map_as1 {R S : Type*} [CommRing R] [CommRing S] (f : R →+* S) (a b s t u : R) :
    f (as1 a b s t u) = as1 (f a) (f b) (f s) (f t) (f u) := by simp [as1, map_ofNat]

theorem map_as2 {R S : Type*} [CommRing R] [CommRing S] (f : R →+* S) (s t u : R) :
    f (as2 s t u) = as2 (f s) (f t) (f u) := by simp [as2, map_ofNat]

theorem prim_as (h2 : (2 : K) ≠ 0) {a b : K} (hD : 4 * a ^ 3 + 27 * b ^ 2 ≠ 0) {v : K[X] × K[X] × K[X]} (hv : Prim v) :
    Prim (asv a b v) := by
  rintro r hr ⟨h1, h3, h4⟩
  have : Fact (Irreducible r) := ⟨hr⟩
  rw [← AdjoinRoot.mk_eq_zero] at h1 h3 h4
  simp only [asv, map_as0, map_as1, map_as2] at h1 h3 h4
  have h2' : (2 : AdjoinRoot r) ≠ 0 := by
    rw [show (2 : AdjoinRoot r) = AdjoinRoot.of r 2 by rw [map_ofNat]]
    exact (_root_.map_ne_zero _).2 h2
  have hD' : 4 * (AdjoinRoot.mk r (C a)) ^ 3 + 27 * (AdjoinRoot.mk r (C b)) ^ 2 ≠ 0 := by
    rw [AdjoinRoot.mk_C, AdjoinRoot.mk_C]
    have := (_root_.map_ne_zero (AdjoinRoot.of r)).2 hD
    simpa [map_ofNat] using this
  obtain ⟨e1, e2, e3⟩ := as_null h2' hD' h1 h3 h4
  rw [AdjoinRoot.mk_eq_zero] at e1 e2 e3
  exact hv r hr ⟨e1, e2, e3⟩

theorem hasDeg_as (h2 : (2 : K) ≠ 0) {a b : K} (hD : 4 * a ^ 3 + 27 * b ^ 2 ≠ 0) {v : K[X] × K[X] × K[X]} {d : ℕ}
    (hv : HasDeg v d) : HasDeg (asv a b v) (2 * d) := by
  obtain ⟨s, t, u⟩ := v
  obtain ⟨⟨d1, d2, d3⟩, hn⟩ := hv
  dsimp only at d1 d2 d3 hn
  have hm : ∀ {p q : K[X]}, p.natDegree ≤ d → q.natDegree ≤ d →
      (p * q).natDegree ≤ 2 * d ∧ (p * q).coeff (2 * d) = p.coeff d * q.coeff d := fun hp hq =>
    ⟨by rw [two_mul]; exact natDegree_mul_le_of_le hp hq, by rw [two_mul]; exact coeff_mul_add_eq_of_natDegree_le hp hq⟩
  have e0 : as0 (C a) (C b) s t u = s * s - C (2 * a) * (s * u) - C (4 * b) * (t * u) + C (a ^ 2) * (u * u) := by
    simp only [as0, C_mul, C_pow, map_ofNat]; ring
  have e1 : as1 (C a) (C b) s t u = C 2 * (s * t) + C (2 * a) * (t * u) + C (4 * b) * (u * u) := by
    simp only [as1, C_mul, map_ofNat]; ring
  have e2 : as2 s t u = t * t - C 4 * (s * u) := by simp only [as2, map_ofNat]; ring
  have hc : ∀ (c : K) {p : K[X]}, p.natDegree ≤ 2 * d → (C c * p).natDegree ≤ 2 * d := fun c p hp =>
    (natDegree_C_mul_le c p).trans hp
  refine ⟨⟨?_, ?_, ?_⟩, ?_⟩
  · rw [asv, e0]
    refine natDegree_add_le_of_degree_le ?_ (hc _ (hm d3 d3).1)
    exact (natDegree_sub_le_of_le (natDegree_sub_le_of_le (hm d1 d1).1 (hc _ (hm d1 d3).1)) (hc _ (hm d2 d3).1)).trans
      (by simp)
  · rw [asv, e1]
    exact natDegree_add_le_of_degree_le (natDegree_add_le_of_degree_le (hc _ (hm d1 d2).1) (hc _ (hm d2 d3).1))
      (hc _ (hm d3 d3).1)
  · rw [asv, e2]
    exact (natDegree_sub_le_of_le (hm d2 d2).1 (hc _ (hm d1 d3).1)).trans (by simp)
  · rintro ⟨h0, h1, h3⟩
    simp only [asv] at h0 h1 h3
    rw [e0] at h0
    rw [e1] at h1
    rw [e2] at h3
    simp only [coeff_add, coeff_sub, coeff_C_mul, (hm d1 d1).2, (hm d1 d3).2, (hm d2 d3).2, (hm d3 d3).2, (hm d1 d2).2,
      (hm d2 d2).2] at h0 h1 h3
    exact hn (as_null h2 hD (by simp only [as0]; linear_combination h0) (by simp only [as1]; linear_combination h1)
      (by simp only [as2]; linear_combination h3))

/-- Proportional triples without common factors have the same degree. -/
theorem deg_of_prop {v w : K[X] × K[X] × K[X]} (hv : Prim v) (hw : Prim w) {d e : ℕ} (hd : HasDeg v d) (he : HasDeg w e)
    {c : RatFunc K} (h1 : algebraMap K[X] (RatFunc K) v.1 = c * algebraMap K[X] (RatFunc K) w.1)
    (h2 : algebraMap K[X] (RatFunc K) v.2.1 = c * algebraMap K[X] (RatFunc K) w.2.1)
    (h3 : algebraMap K[X] (RatFunc K) v.2.2 = c * algebraMap K[X] (RatFunc K) w.2.2) : d = e := by
  have hden : algebraMap K[X] (RatFunc K) c.denom ≠ 0 := by
    rw [Ne, map_eq_zero_iff _ (RatFunc.algebraMap_injective K)]
    exact RatFunc.denom_ne_zero c
  have key : ∀ {p q : K[X]}, algebraMap K[X] (RatFunc K) p = c * algebraMap K[X] (RatFunc K) q → c.denom * p = c.num * q := by
    intro p q h
    apply RatFunc.algebraMap_injective K
    rw [map_mul, map_mul, h, ← mul_assoc]
    congr 1
    rw [mul_comm]
    nth_rewrite 1 [← RatFunc.num_div_denom c]
    exact div_mul_cancel₀ _ hden
  have k1 := key h1
  have k2 := key h2
  have k3 := key h3
  have hcop := RatFunc.isCoprime_num_denom c
  have unit : ∀ {x y : K[X]} {v w : K[X] × K[X] × K[X]}, x ≠ 0 → IsCoprime x y → Prim v → y * v.1 = x * w.1 →
      y * v.2.1 = x * w.2.1 → y * v.2.2 = x * w.2.2 → IsUnit x := by
    intro x y v w hx hxy hv a1 a2 a3
    by_contra hu
    obtain ⟨p, hp, hpx⟩ := WfDvdMonoid.exists_irreducible_factor hu hx
    have hpy : IsCoprime p y := hxy.of_isCoprime_of_dvd_left hpx
    exact hv p hp ⟨hpy.dvd_of_dvd_mul_left (a1 ▸ hpx.mul_right _), hpy.dvd_of_dvd_mul_left (a2 ▸ hpx.mul_right _),
      hpy.dvd_of_dvd_mul_left (a3 ▸ hpx.mul_right _)⟩
  have hnum : c.num ≠ 0 := by
    intro h0
    rw [h0, zero_mul, mul_eq_zero] at k1 k2 k3
    have hd0 := RatFunc.denom_ne_zero c
    exact hd.2 ⟨by rw [k1.resolve_left hd0, coeff_zero], by rw [k2.resolve_left hd0, coeff_zero],
      by rw [k3.resolve_left hd0, coeff_zero]⟩
  have u1 : IsUnit c.num := unit hnum hcop hv k1 k2 k3
  have u2 : IsUnit c.denom := unit (RatFunc.denom_ne_zero c) hcop.symm hw k1.symm k2.symm k3.symm
  obtain ⟨n, hn, en⟩ := Polynomial.isUnit_iff.1 u1
  obtain ⟨m, hm, em⟩ := Polynomial.isUnit_iff.1 u2
  rw [← en, ← em] at k1 k2 k3
  have back : ∀ {p q : K[X]}, C m * p = C n * q → p = C (m⁻¹ * n) * q := fun {p q} h => by
    rw [C_mul, mul_assoc, ← h, ← mul_assoc, ← C_mul, inv_mul_cancel₀ hm.ne_zero, C_1, one_mul]
  have hmn : m⁻¹ * n ≠ 0 := mul_ne_zero (inv_ne_zero hm.ne_zero) hn.ne_zero
  refine hd.unique ⟨⟨?_, ?_, ?_⟩, ?_⟩
  · rw [back k1]; exact (natDegree_C_mul_le _ _).trans he.1.1
  · rw [back k2]; exact (natDegree_C_mul_le _ _).trans he.1.2.1
  · rw [back k3]; exact (natDegree_C_mul_le _ _).trans he.1.2.2
  · rw [back k1, back k2, back k3]
    simp only [coeff_C_mul, mul_eq_zero, hmn, false_or]
    exact he.2

end prim

section height

variable {K : Type*} [Field K]

open Classical in
noncomputable instance : DecidableEq (RatFunc K) := Classical.decEq _

local notation "ι" => algebraMap K[X] (RatFunc K)

theorem ι_ne {p : K[X]} (h : p ≠ 0) : ι p ≠ 0 := by
  rwa [Ne, map_eq_zero_iff _ (RatFunc.algebraMap_injective K)]

variable {lam α β : RatFunc K}

/-- The degree of the abscissa `X / λ`, 0 for `O`. -/
noncomputable def ht (lam : RatFunc K) : (EC α β).Point → ℕ
  | .zero => 0
  | .some x _ _ => max (x / lam).num.natDegree (x / lam).denom.natDegree

/-- Coprime polynomials whose quotient is the abscissa. -/
structure HRep (lam : RatFunc K) (P : (EC α β).Point) (A B : K[X]) : Prop where
  cop : IsCoprime A B
  rep : ∃ m, ι A = m * (px P).1 ∧ ι B = m * (lam * (px P).2)

theorem cop_ne {A B : K[X]} (h : IsCoprime A B) : A ≠ 0 ∨ B ≠ 0 := by
  by_contra hc
  push Not at hc
  rw [hc.1, hc.2] at h
  exact not_isCoprime_zero_zero h

theorem HRep.ne (hl : lam ≠ 0) {P : (EC α β).Point} {A B : K[X]} (h : HRep lam P A B) {m : RatFunc K}
    (h1 : ι A = m * (px P).1) (h2 : ι B = m * (lam * (px P).2)) : m ≠ 0 := by
  rintro rfl
  rw [zero_mul, map_eq_zero_iff _ (RatFunc.algebraMap_injective K)] at h1 h2
  rcases cop_ne h.cop with h' | h'
  · exact h' h1
  · exact h' h2

theorem exists_hrep (hl : lam ≠ 0) (P : (EC α β).Point) : ∃ A B, HRep lam P A B ∧ HasDeg2 (A, B) (ht lam P) := by
  rcases P with _ | ⟨x, y, n⟩
  · refine ⟨1, 0, ⟨isCoprime_one_left, 1, by simp [px], by simp [px]⟩, ?_⟩
    have := hasDeg2_max (K := K) (A := 1) (B := 0) (.inl one_ne_zero)
    simpa [ht] using this
  · refine ⟨(x / lam).num, (x / lam).denom, ⟨RatFunc.isCoprime_num_denom _, ι (x / lam).denom / lam, ?_, ?_⟩,
      hasDeg2_max (.inr (RatFunc.denom_ne_zero _))⟩
    · have hd := ι_ne (RatFunc.denom_ne_zero (x / lam))
      have h := RatFunc.num_div_denom (x / lam)
      rw [div_eq_iff hd] at h
      rw [h, px_some]
      field_simp
    · rw [px_some, mul_one, div_mul_cancel₀ _ hl]

theorem prim_pair {A B : K[X]} (h : IsCoprime A B) : Prim (A, B, 0) := by
  rintro p hp ⟨h1, h2, -⟩
  exact hp.not_isUnit (h.isUnit_of_dvd' h1 h2)

theorem hasDeg_pair {A B : K[X]} {d : ℕ} (h : HasDeg2 (A, B) d) : HasDeg (A, B, 0) d :=
  ⟨⟨h.1.1, h.1.2, by simp⟩, fun h' => h.2 ⟨h'.1, h'.2.1⟩⟩

theorem HRep.ht (hl : lam ≠ 0) {P : (EC α β).Point} {A B : K[X]} (h : HRep lam P A B) :
    max A.natDegree B.natDegree = ht lam P := by
  obtain ⟨A₀, B₀, h₀, hd₀⟩ := exists_hrep hl P
  obtain ⟨m, h1, h2⟩ := h.rep
  obtain ⟨m₀, h1₀, h2₀⟩ := h₀.rep
  have hm := h₀.ne hl h1₀ h2₀
  refine deg_of_prop (prim_pair h.cop) (prim_pair h₀.cop) (hasDeg_pair (hasDeg2_max (cop_ne h.cop))) (hasDeg_pair hd₀)
    (c := m / m₀) ?_ ?_ ?_
  · dsimp only
    rw [h1, h1₀]; field_simp
  · dsimp only
    rw [h2, h2₀]; field_simp
  · simp

theorem HRep.deg (hl : lam ≠ 0) {P : (EC α β).Point} {A B : K[X]} (h : HRep lam P A B) :
    HasDeg2 (A, B) (Hasse.ht lam P) := h.ht hl ▸ hasDeg2_max (cop_ne h.cop)

/-- The degree of the abscissa satisfies the law of the parallelogram. -/
theorem parallelogram (h2 : (2 : K) ≠ 0) {a b : K} (hD : 4 * a ^ 3 + 27 * b ^ 2 ≠ 0) (hl : lam ≠ 0)
    (hα : α = lam ^ 2 * ι (C a)) (hβ : β = lam ^ 3 * ι (C b)) (P Q : (EC α β).Point) :
    ht lam (P + Q) + ht lam (P - Q) = 2 * ht lam P + 2 * ht lam Q := by
  subst hα hβ
  have h2' : (2 : RatFunc K) ≠ 0 := by
    rw [show (2 : RatFunc K) = ι (C 2) by rw [map_ofNat, map_ofNat]]
    exact ι_ne (C_ne_zero.2 h2)
  obtain ⟨e, e0, e1, e2⟩ := addsub h2' P Q
  obtain ⟨A, B, r1, d1⟩ := exists_hrep hl P
  obtain ⟨A', B', r2, d2⟩ := exists_hrep hl Q
  obtain ⟨A₃, B₃, r3, d3⟩ := exists_hrep hl (P + Q)
  obtain ⟨A₄, B₄, r4, d4⟩ := exists_hrep hl (P - Q)
  obtain ⟨m, m1, m2⟩ := r1.rep
  obtain ⟨m', m1', m2'⟩ := r2.rep
  obtain ⟨m₃, m13, m23⟩ := r3.rep
  obtain ⟨m₄, m14, m24⟩ := r4.rep
  have n3 := r3.ne hl m13 m23
  have n4 := r4.ne hl m14 m24
  have := deg_of_prop (v := asv a b (sy (A, B) (A', B'))) (w := sy (A₃, B₃) (A₄, B₄))
    (c := (m * m') ^ 2 * e / (m₃ * m₄))
    (prim_as h2 hD (prim_sy (p := (A, B)) (q := (A', B')) r1.cop r2.cop)) (prim_sy (p := (A₃, B₃)) (q := (A₄, B₄)) r3.cop r4.cop)
    (hasDeg_as h2 hD (hasDeg_sy d1 d2)) (hasDeg_sy d3 d4) ?_ ?_ ?_
  · omega
  · simp only [asv, sy, map_as0, map_mul, m1, m2, m1', m2', m13, m14, map_add]
    simp only [sy] at e0
    rw [show (m * m') ^ 2 * e / (m₃ * m₄) * (m₃ * (px (P + Q)).1 * (m₄ * (px (P - Q)).1)) =
      (m * m') ^ 2 * (e * ((px (P + Q)).1 * (px (P - Q)).1)) by field_simp, ← e0]
    simp only [as0]
    ring
  · simp only [asv, sy, map_as1, map_mul, m1, m2, m1', m2', m13, m14, m23, m24, map_add]
    simp only [sy] at e1
    rw [show (m * m') ^ 2 * e / (m₃ * m₄) * (m₃ * (px (P + Q)).1 * (m₄ * (lam * (px (P - Q)).2)) +
      m₃ * (lam * (px (P + Q)).2) * (m₄ * (px (P - Q)).1)) = (m * m') ^ 2 * lam *
      (e * ((px (P + Q)).1 * (px (P - Q)).2 + (px (P + Q)).2 * (px (P - Q)).1)) by field_simp, ← e1]
    simp only [as1]
    ring
  · simp only [asv, sy, map_as2, map_mul, m1, m2, m1', m2', m23, m24, map_add]
    simp only [sy] at e2
    rw [show (m * m') ^ 2 * e / (m₃ * m₄) * (m₃ * (lam * (px (P + Q)).2) * (m₄ * (lam * (px (P - Q)).2))) =
      (m * m') ^ 2 * lam ^ 2 * (e * ((px (P + Q)).2 * (px (P - Q)).2)) by field_simp, ← e2]
    simp only [as2]
    ring

end height

end Hasse
