import Verif.Lemmas.TateK
import Verif.Lemmas.NonDegAll
import Verif.Lemmas.SexticHom
import Verif.Spec.PairingE
import Mathlib.GroupTheory.Coset.Card

/-!
# Non-degeneracy over the field of the curve

The values `f(A) ^ e` of a function with divisor `r (P) - r (O)` give a homomorphism from all points of the curve
to the `r`-th roots of unity (`exists_char`).  By `Stepanov.pair_le` it is not trivial (`char_ne`).
-/

set_option autoImplicit false
set_option linter.unusedSectionVars false

namespace TateK

open WeierstrassCurve WeierstrassCurve.Affine WeierstrassCurve.Affine.CoordinateRing Polynomial
open scoped nonZeroDivisors
open Spec (EC)
open Tate (fid fid_zero fid_add fid_of fid_neg_mul idl unit_const eqn_of IsLine sym_slope exists_line
  x_ne_of)

/-! ### Values off a subgroup -/

/-- For any four elements there is a translation taking them out of the subgroup. -/
def Avoids {M : Type*} [AddCommGroup M] (H : AddSubgroup M) : Prop :=
  ∀ a b c d : M, ∃ R, a + R ∉ H ∧ b + R ∉ H ∧ c + R ∉ H ∧ d + R ∉ H

theorem avoids_of_card {M : Type*} [AddCommGroup M] [Finite M] {H : AddSubgroup M}
    (h : 4 * Nat.card H < Nat.card M) : Avoids H := by
  classical
  intro a b c d
  by_contra hne
  push Not at hne
  have := Fintype.ofFinite M
  let s : M → Finset M := fun z => Finset.univ.filter fun R => z + R ∈ H
  have hs : ∀ z, (s z).card ≤ Nat.card H := by
    intro z
    rw [Nat.card_eq_fintype_card, ← Fintype.card_coe]
    refine Fintype.card_le_of_injective (fun R : s z => (⟨z + R.1, (Finset.mem_filter.1 R.2).2⟩ : H)) ?_
    intro R R' e
    have := congrArg Subtype.val e
    exact Subtype.ext (add_left_cancel this)
  have hu : (Finset.univ : Finset M) ⊆ s a ∪ (s b ∪ (s c ∪ s d)) := by
    intro R _
    simp only [Finset.mem_union, s, Finset.mem_filter, Finset.mem_univ, true_and]
    by_contra hno
    push Not at hno
    exact hno.2.2.2 (hne R hno.1 hno.2.1 hno.2.2.1)
  have h1 := Finset.card_le_card hu
  have h2 := Finset.card_union_le (s a) (s b ∪ (s c ∪ s d))
  have h3 := Finset.card_union_le (s b) (s c ∪ s d)
  have h4 := Finset.card_union_le (s c) (s d)
  rw [Finset.card_univ, ← Nat.card_eq_fintype_card] at h1
  have := hs a
  have := hs b
  have := hs c
  have := hs d
  omega

/-- A function off `H` with constant product on triples of sum zero comes from a homomorphism. -/
theorem char_of {M K : Type*} [AddCommGroup M] [Field K] {H : AddSubgroup M} (hav : Avoids H) {G : M → K} {κ : K}
    (h0 : ∀ A, A ∉ H → G A ≠ 0)
    (h3 : ∀ A B C, A ∉ H → B ∉ H → C ∉ H → A + B + C = 0 → G A * G B * G C = κ) :
    ∃ χ : M → K, (∀ Q₁ Q₂, χ (Q₁ + Q₂) = χ Q₁ * χ Q₂) ∧
      ∀ Q R, R ∉ H → Q + R ∉ H → G (Q + R) = χ Q * G R := by
  have cross : ∀ Q R R', R ∉ H → Q + R ∉ H → R' ∉ H → Q + R' ∉ H → Q + R + R' ∉ H →
      G (Q + R) * G R' = G R * G (Q + R') := by
    intro Q R R' h1 h2 h1' h2' hn
    have hn' : -(Q + R + R') ∉ H := fun h => hn (by simpa using H.neg_mem h)
    have e1 := h3 _ _ _ h2 h1' hn' (by abel)
    have e2 := h3 _ _ _ h1 h2' hn' (by abel)
    exact mul_right_cancel₀ (h0 _ hn') (e1.trans e2.symm)
  have indep : ∀ Q R R', R ∉ H → Q + R ∉ H → R' ∉ H → Q + R' ∉ H →
      G (Q + R) / G R = G (Q + R') / G R' := by
    intro Q R R' h1 h2 h1' h2'
    obtain ⟨S, s1, s2, s3, s4⟩ := hav 0 Q (Q + R) (Q + R')
    rw [zero_add] at s1
    have e1 := cross Q R S h1 h2 s1 s2 s3
    have e2 := cross Q R' S h1' h2' s1 s2 s4
    have n := h0 _ h1
    have n' := h0 _ h1'
    have nS := h0 _ s1
    rw [div_eq_div_iff n n']
    refine mul_right_cancel₀ nS ?_
    linear_combination G R' * e1 - G R * e2
  choose T t1 t2 t3 t4 using fun Q => hav 0 Q Q Q
  simp only [zero_add] at t1
  have hχ : ∀ Q R, R ∉ H → Q + R ∉ H → G (Q + R) = G (Q + T Q) / G (T Q) * G R := by
    intro Q R h1 h2
    rw [indep Q (T Q) R (t1 Q) (t2 Q) h1 h2, div_mul_cancel₀ _ (h0 _ h1)]
  refine ⟨fun Q => G (Q + T Q) / G (T Q), fun Q₁ Q₂ => ?_, hχ⟩
  obtain ⟨R, r1, r2, r3, -⟩ := hav 0 Q₂ (Q₁ + Q₂) 0
  rw [zero_add] at r1
  have e1 := hχ Q₂ R r1 r2
  have e2 := hχ Q₁ (Q₂ + R) r2 (by rwa [← add_assoc])
  have e3 := hχ (Q₁ + Q₂) R r1 r3
  rw [← add_assoc, e3, e1, ← mul_assoc] at e2
  exact mul_right_cancel₀ (h0 _ r1) e2

variable {K : Type*} [Field K] [DecidableEq K] {a b : K} {H : AddSubgroup (EC a b).Point} {f : Off H → K}
  {P : (EC a b).Point} {r e : ℕ}

/-- `χ` is the homomorphism given by the values of `f`. -/
structure IsChar (r e : ℕ) (f : Off H → K) (χ : (EC a b).Point → K) : Prop where
  add : ∀ Q₁ Q₂, χ (Q₁ + Q₂) = χ Q₁ * χ Q₂
  ne : ∀ Q, χ Q ≠ 0
  root : ∀ Q, χ Q ^ r = 1
  val : ∀ A B : Off H, f A ^ e = χ (A.pt - B.pt) * f B ^ e

theorem IsChar.zero {χ : (EC a b).Point → K} (h : IsChar r e f χ) : χ 0 = 1 := by
  have := h.add 0 0
  rw [add_zero] at this
  exact mul_left_cancel₀ (h.ne 0) (by rw [← this, mul_one])

theorem IsChar.nsmul {χ : (EC a b).Point → K} (h : IsChar r e f χ) (Q : (EC a b).Point) : ∀ n : ℕ, χ (n • Q) = χ Q ^ n
  | 0 => by rw [zero_smul, h.zero, pow_zero]
  | n + 1 => by rw [succ_nsmul, h.add, h.nsmul Q n, pow_succ]

theorem exists_char (hk : KillsK K r e) (hav : Avoids H) (hP : P ∈ H) (hf : FullK H P r f) :
    ∃ χ, IsChar r e f χ := by
  classical
  let G : (EC a b).Point → K := fun Q => if h : Q ∉ H then f (exists_off h).choose ^ e else 1
  have hG : ∀ A : Off H, G A.pt = f A ^ e := fun A => by
    have h := A.pt_notMem
    have e1 : (exists_off h).choose = A := Off.ext (exists_off h).choose_spec
    simp only [G, dif_pos h, e1]
  obtain ⟨c, hc, hrec⟩ := hf.recip
  have hG0 : ∀ A, A ∉ H → G A ≠ 0 := fun A hA => by
    obtain ⟨A, rfl⟩ := exists_off hA
    rw [hG]
    exact pow_ne_zero _ (hf.ne_zero A)
  obtain ⟨χ, h1, h2⟩ := char_of hav (G := G) (κ := c ^ e) hG0 (fun A B C hA hB hC h => by
      obtain ⟨A, rfl⟩ := exists_off hA
      obtain ⟨B, rfl⟩ := exists_off hB
      obtain ⟨C, rfl⟩ := exists_off hC
      obtain ⟨s, t, hco⟩ := exists_col h
      rw [hG, hG, hG, ← mul_pow, ← mul_pow, hrec _ _ _ _ _ hco, mul_pow, hk _ (lvK_ne hco hP), mul_one])
  have hv : ∀ A B : Off H, f A ^ e = χ (A.pt - B.pt) * f B ^ e := fun A B => by
    rw [← hG, ← hG, ← h2 _ _ B.pt_notMem (by rw [sub_add_cancel]; exact A.pt_notMem), sub_add_cancel]
  have hq : ∀ Q, ∃ A B : Off H, Q = A.pt - B.pt := fun Q => by
    obtain ⟨R, r1, r2, -, -⟩ := hav 0 Q 0 0
    rw [zero_add] at r1
    obtain ⟨B, hB⟩ := exists_off r1
    obtain ⟨A, hA⟩ := exists_off r2
    exact ⟨A, B, by rw [hA, hB, add_sub_cancel_right]⟩
  refine ⟨χ, h1, fun Q h0 => ?_, fun Q => ?_, hv⟩
  · obtain ⟨A, B, rfl⟩ := hq Q
    have := hv A B
    rw [h0, zero_mul] at this
    exact pow_ne_zero _ (hf.ne_zero A) this
  · obtain ⟨A, B, rfl⟩ := hq Q
    have e1 := congrArg (· ^ r) (hv A B)
    simp only [mul_pow] at e1
    rw [← pow_mul, ← pow_mul, mul_comm e, pow_mul, pow_mul, hk _ (hf.ne_zero A), hk _ (hf.ne_zero B), mul_one] at e1
    exact e1.symm

/-- Every point is a difference of points off `H`. -/
theorem exists_sub (hav : Avoids H) (Q : (EC a b).Point) : ∃ A B : Off H, Q = A.pt - B.pt := by
  obtain ⟨R, r1, r2, -, -⟩ := hav 0 Q 0 0
  rw [zero_add] at r1
  obtain ⟨B, hB⟩ := exists_off r1
  obtain ⟨A, hA⟩ := exists_off r2
  exact ⟨A, B, by rw [hA, hB, add_sub_cancel_right]⟩

/-- The homomorphism of a multiple. -/
theorem char_nsmul (hk : KillsK K r e) (hav : Avoids H) (hP : P ∈ H) (hf : FullK H P r f) {χ χ' : (EC a b).Point → K}
    (h : IsChar r e f χ) {n : ℕ} (hn : ∀ m, 1 ≤ m → m ≤ n + 1 → m • P ≠ 0) {f' : Off H → K}
    (hf' : FullK H ((n + 1) • P) r f') (h' : IsChar r e f' χ') (Q : (EC a b).Point) : χ' Q = χ Q ^ (n + 1) := by
  obtain ⟨m, hm⟩ := exists_milK (H := H) P n hn
  have d1 := hf.div.pow (n + 1)
  have d2 := hf'.div.mul ((hm.hasDiv hP).pow r)
  have e1 : (n + 1) • r • FreeAbelianGroup.of P = r • FreeAbelianGroup.of ((n + 1) • P) +
      r • (((n + 1 : ℕ) : ℤ) • FreeAbelianGroup.of P - FreeAbelianGroup.of (((n + 1 : ℕ) : ℤ) • P)) := by
    rw [natCast_zsmul, natCast_zsmul, smul_sub, smul_comm]
    abel
  rw [e1] at d1
  obtain ⟨c, hc, hu⟩ := d1.unique d2
  have hm0 : ∀ A, m A ≠ 0 := (hm.hasDiv hP).ne_zero
  obtain ⟨A, B, rfl⟩ := exists_sub hav Q
  have hA := congrArg (· ^ e) (hu A)
  have hB := congrArg (· ^ e) (hu B)
  simp only [mul_pow] at hA hB
  rw [hk _ (hm0 _), mul_one, ← pow_mul, mul_comm (n + 1), pow_mul] at hA hB
  rw [h.val A B, h'.val A B, mul_pow, hB] at hA
  have n1 := pow_ne_zero e (hf'.ne_zero B)
  have n2 := pow_ne_zero e hc
  refine mul_right_cancel₀ (mul_ne_zero n2 n1) ?_
  linear_combination -hA

/-! ### Multiplication by a cube root of unity -/

section root

variable {β ζ : K} (hζ : ζ ^ 2 + ζ + 1 = 0)

open Tate (rootP rootP_some)

include hζ in
theorem zeta_ne : ζ ≠ 0 := by
  rintro rfl
  simp at hζ

variable {H : AddSubgroup (EC 0 β).Point} (hH : ∀ T, rootP β hζ T ∈ H → T ∈ H)

/-- The image of a point off `H`. -/
def Off.root (A : Off H) : Off H where
  x := ζ * A.x
  y := A.y
  ns := (rootP_some hζ A.ns).choose
  off := fun h => A.off (hH _ (by
    have e := (rootP_some hζ A.ns).choose_spec
    rw [e]; exact h))

theorem Off.root_pt (A : Off H) : (A.root hζ hH).pt = rootP β hζ A.pt :=
  (rootP_some hζ A.ns).choose_spec.symm

theorem vval_root {T : (EC 0 β).Point} (hT : T ≠ 0) (A : Off H) :
    vval (rootP β hζ T) (A.root hζ hH) = ζ * vval T A := by
  rcases T with _ | ⟨x, y, h⟩
  · exact absurd rfl hT
  · obtain ⟨h', e⟩ := rootP_some hζ h
    rw [e, vval_some, vval_some, Off.root]
    ring

theorem vval_root' (T : (EC 0 β).Point) : ∃ c : K, c ≠ 0 ∧ ∀ A : Off H,
    vval (rootP β hζ T) (A.root hζ hH) = c * vval T A := by
  by_cases hT : T = 0
  · refine ⟨1, one_ne_zero, fun A => ?_⟩
    rw [hT, map_zero, vval_zero, vval_zero, one_mul]
  · exact ⟨ζ, zeta_ne hζ, vval_root hζ hH hT⟩

theorem isLine_root {α δ γ : K} {S T : (EC 0 β).Point} (h : IsLine 0 β α δ γ (rootP β hζ S) (rootP β hζ T)) :
    IsLine 0 β (ζ * α) δ γ S T := by
  rcases S with _ | ⟨x₁, y₁, h₁⟩
  · exact absurd h (by rw [← Point.zero_def, map_zero]; simp [IsLine, Point.zero_def])
  rcases T with _ | ⟨x₂, y₂, h₂⟩
  · exfalso
    obtain ⟨h', e⟩ := rootP_some hζ h₁
    rw [← Point.zero_def, map_zero, e] at h
    simp [IsLine, Point.zero_def] at h
  obtain ⟨h₁', e₁⟩ := rootP_some hζ h₁
  obtain ⟨h₂', e₂⟩ := rootP_some hζ h₂
  rw [e₁, e₂] at h
  obtain ⟨hxy, hδ, hα, hγ⟩ := h
  have hz := zeta_ne hζ
  have h3 : ζ ^ 3 = 1 := by linear_combination (ζ - 1) * hζ
  rw [Pbc.Curve.negY_EC] at hxy
  have hs : (EC 0 β).slope x₁ x₂ y₁ y₂ = ζ * (EC 0 β).slope (ζ * x₁) (ζ * x₂) y₁ y₂ := by
    by_cases hx : x₁ = x₂
    · subst hx
      have hy : y₁ ≠ (EC 0 β).negY x₁ y₂ := by rw [Pbc.Curve.negY_EC]; exact fun h => hxy ⟨rfl, h⟩
      have hy' : y₁ ≠ (EC 0 β).negY (ζ * x₁) y₂ := by rw [Pbc.Curve.negY_EC]; exact fun h => hxy ⟨rfl, h⟩
      rw [slope_of_Y_ne rfl hy, slope_of_Y_ne rfl hy']
      simp only [EC, negY]
      rw [mul_div_assoc']
      congr 1
      · linear_combination -3 * x₁ ^ 2 * h3
      · ring
    · have hx' : ζ * x₁ ≠ ζ * x₂ := fun h => hx (mul_left_cancel₀ hz h)
      rw [slope_of_X_ne hx, slope_of_X_ne hx', ← mul_sub]
      have := sub_ne_zero.2 hx
      field_simp
  refine ⟨fun h => hxy ⟨by rw [h.1], by have := h.2; rwa [Pbc.Curve.negY_EC] at this⟩, hδ, ?_, ?_⟩
  · rw [hα, hs]; ring
  · rw [hγ, hs]; ring

theorem MilK.root {P : (EC 0 β).Point} {n : ℤ} {f : Off H → K} (h : MilK H (rootP β hζ P) n f) :
    MilK H P n (fun A => f (A.root hζ hH)) := by
  induction h with
  | one => exact MilK.one
  | @add n m f g α δ γ hf hg hl ihf ihg =>
    rw [← map_zsmul, ← map_zsmul] at hl
    obtain ⟨c, hc, hv⟩ := vval_root' hζ hH (n • P + m • P)
    refine MilK.scale (MilK.add ihf ihg (isLine_root hζ hl)) (inv_ne_zero hc) (fun A => ?_)
    dsimp only
    rw [← map_zsmul, ← map_zsmul, ← map_add, hv]
    have e : lvalK α δ γ (A.root hζ hH) = lvalK (ζ * α) δ γ A := by
      simp only [lvalK, Off.root]; ring
    rw [e, div_mul_eq_div_div, div_eq_mul_inv _ c, div_eq_mul_inv, div_eq_mul_inv]
    ring
  | @neg n f hf ih =>
    obtain ⟨c, hc, hv⟩ := vval_root' hζ hH (n • P)
    refine MilK.scale (MilK.neg ih) (inv_ne_zero hc) (fun A => ?_)
    dsimp only
    rw [← map_zsmul, hv, mul_inv, mul_inv, mul_inv]
    ring
  | @scale n f g c hf hc he ih => exact MilK.scale ih hc (fun A => he _)

/-- Functions for `P` and its image. -/
theorem exists_full_root {P : (EC 0 β).Point} (hP : P ∈ H) (hP' : rootP β hζ P ∈ H) (h0 : rootP β hζ P ≠ 0)
    {r : ℕ} (hp : r.Prime) (hr : r • P = 0) : ∃ f f' : Off H → K, FullK H P r f ∧ FullK H (rootP β hζ P) r f' ∧
      ∃ c : K, c ≠ 0 ∧ ∀ A, f' (A.root hζ hH) = c * f A := by
  have hr' : r • rootP β hζ P = 0 := by rw [← map_nsmul, hr, map_zero]
  have hord : addOrderOf (rootP β hζ P) = r :=
    ((Nat.dvd_prime hp).1 (addOrderOf_dvd_of_nsmul_eq_zero hr')).resolve_left
      fun h => h0 (AddMonoid.addOrderOf_eq_one_iff.1 h)
  have h2 := hp.two_le
  obtain ⟨m, hm⟩ := exists_milK (H := H) (rootP β hζ P) (r - 2) (fun m h2 h3 h4 => by
    have := Nat.le_of_dvd (by omega) (addOrderOf_dvd_of_nsmul_eq_zero h4)
    omega)
  have hP0 : P ≠ 0 := by rintro rfl; exact h0 (map_zero _)
  have hn : (((r - 2 + 1 : ℕ) : ℤ)) + 1 = r := by omega
  refine ⟨_, _, (hm.root hζ hH).full_pred hP hr hn, hm.full_pred hP' hr' hn, ζ, zeta_ne hζ, fun A => ?_⟩
  simp only [vval_root hζ hH hP0]
  ring

end root

/-! ### The homomorphism is not trivial -/

section fin

variable [Fintype K]

theorem ev_eq_evP (A : Off H) : ev A = Tate.evP A.eqn := rfl

/-- A function with divisor `r (P)`, from a generator of the ideal. -/
theorem hasDivK_gen {x y : K} (h0 : r ≠ 0) (hn : (EC a b).Nonsingular x y) (hH : Point.some x y hn ∈ H)
    {F : (EC a b).CoordinateRing} (hI : XYIdeal (EC a b) x (C y) ^ r = Ideal.span {F}) :
    HasDivK (fun A : Off H => ev A F) (r • FreeAbelianGroup.of (Point.some x y hn)) := by
  have hX : XClass (EC a b) x ∈ XYIdeal (EC a b) x (C y) := Ideal.subset_span (by simp)
  have hd : F ∣ XClass (EC a b) x ^ r := by
    rw [← Ideal.mem_span_singleton, ← hI]; exact Ideal.pow_mem_pow hX r
  refine ⟨F, 1, fun A => ⟨?_, by simp, by rw [map_one, mul_one]⟩, ?_⟩
  · intro hz
    obtain ⟨G, hG⟩ := hd
    have := congrArg (ev A) hG
    rw [map_mul, hz, zero_mul, map_pow, ev_XClass] at this
    exact A.x_ne hn hH (sub_eq_zero.1 ((pow_eq_zero_iff h0).1 this))
  · rw [map_one, FractionalIdeal.spanSingleton_one, one_mul]
    have : fid (r • FreeAbelianGroup.of (Point.some x y hn)) =
        (XYIdeal' (W := EC a b) hn : FractionalIdeal _ _) ^ r := by
      rw [fid, map_nsmul, toMul_nsmul, Units.val_pow_eq_pow_val]
      simp [Tate.dv, idl]
    rw [this, XYIdeal'_eq, ← FractionalIdeal.coeIdeal_pow, hI, FractionalIdeal.coeIdeal_span_singleton]

/-- If the homomorphism is trivial, the points off `H` have few `x`-coordinates. -/
theorem few_points (h2 : (2 : K) ≠ 0) (hD : 4 * a ^ 3 + 27 * b ^ 2 ≠ 0) (hQ : 7 < Fintype.card K) (hodd : Odd r)
    (he : r * e = Fintype.card K - 1) (hH : P ∈ H) (hP : P ≠ 0) (hr : r • P = 0)
    (hf : FullK H P r f) (hc : ∀ A B : Off H, f A ^ e = f B ^ e) {S : Finset K}
    (hS : ∀ x ∈ S, ∃ A : Off H, A.x = x ∧ A.y ≠ 0) : 4 * S.card ≤ Fintype.card K + 1 := by
  have h0 : r ≠ 0 := hodd.pos.ne'
  have he0 : e ≠ 0 := by rintro rfl; omega
  rcases P with _ | ⟨x₀, y₀, n₀⟩
  · exact absurd rfl hP
  have hy₀ := Tate.y_ne_of_odd n₀ hodd hr
  obtain ⟨F, -, hI⟩ := Tate.exists_gen n₀ hr
  have hF : Tate.Gen (L := K) x₀ y₀ (eqn_of n₀) r F := .of_ideal h2 h0 n₀ hy₀ hI
  obtain ⟨u, hu, hN⟩ := Tate.exists_norm h2 h0 n₀ hy₀ hI
  obtain ⟨A, B, hAB⟩ := exists_smul_basis_eq (F ^ e)
  have nAB : A ^ 2 - Stepanov.cub a b * B ^ 2 = C (u ^ e) * (X - C x₀) ^ (Fintype.card K - 1) := by
    rw [← Tate.norm_eq, hAB, map_pow, hN, mul_pow, ← C_pow, ← pow_mul, he]
  obtain ⟨d, hd, hFf⟩ := (hasDivK_gen h0 n₀ hH hI).unique hf.div
  rcases S.eq_empty_or_nonempty with rfl | ⟨x₁, hx₁⟩
  · simp
  obtain ⟨A₁, -, -⟩ := hS x₁ hx₁
  obtain ⟨κ, hκ⟩ : ∃ κ, κ = ev A₁ F ^ e := ⟨_, rfl⟩
  have hval : ∀ T : Off H, A.eval T.x + B.eval T.x * T.y = κ := by
    intro T
    rw [← Tate.evP_basis T.eqn, hAB, map_pow, ← ev_eq_evP, hκ, hFf T, hFf A₁, mul_pow, mul_pow, hc T A₁]
  have hκ0 : κ ≠ 0 := by
    rw [hκ, hFf A₁]
    exact pow_ne_zero _ (mul_ne_zero hd (hf.ne_zero _))
  have hSv : ∀ x ∈ S, x ≠ x₀ ∧ B.eval x = 0 ∧ A.eval x = κ := by
    intro x hx
    obtain ⟨T, rfl, hy⟩ := hS x hx
    obtain ⟨T', hT'⟩ := exists_off (H := H) (P := -T.pt) (fun h => T.pt_notMem (by simpa using H.neg_mem h))
    have e1 := hval T
    have e2 := hval T'
    rw [Off.pt, Off.pt, Point.neg_some] at hT'
    obtain ⟨ex, ey⟩ := Point.some.inj hT'
    rw [Pbc.Curve.negY_EC] at ey
    rw [ex, ey] at e2
    have hB : B.eval T.x = 0 := by
      have : (2 * T.y) * B.eval T.x = 0 := by linear_combination e1 - e2
      exact (mul_eq_zero.1 this).resolve_left (mul_ne_zero h2 hy)
    refine ⟨T.x_ne n₀ hH, hB, ?_⟩
    rw [hB, zero_mul, add_zero] at e1
    exact e1
  have hpc : ∀ z : K, z ≠ 0 → z ^ (Fintype.card K - 1) = 1 := fun z hz => FiniteField.pow_card_sub_one_eq_one z hz
  have heu : κ ^ 2 = u ^ e := by
    obtain ⟨hx0, hB, hA⟩ := hSv x₁ hx₁
    have e6 := congrArg (Polynomial.eval x₁) nAB
    simp only [eval_sub, eval_mul, eval_pow, hB, hA, eval_C, eval_X, hpc _ (sub_ne_zero.2 hx0)] at e6
    linear_combination e6
  have hec : (C κ⁻¹ : K[X]) * C κ = 1 := by rw [← C_mul, inv_mul_cancel₀ hκ0, C_1]
  have e1 := congrArg (Tate.evP (eqn_of n₀)) hAB
  have e2 := congrArg (Tate.evP (x := x₀) (y := -y₀) (by rw [neg_sq, eqn_of n₀])) hAB
  rw [Tate.evP_basis, map_pow] at e1 e2
  rw [hF.zero, zero_pow he0] at e1
  have hA0 : A.eval x₀ ≠ 0 := by
    intro hA0
    have e3 := pow_ne_zero e hF.ne
    rw [← e2] at e3
    apply e3
    rw [hA0] at e1 ⊢
    linear_combination -e1
  have := Stepanov.pair_le (a := a) (b := b) (j := 0) (x₀ := x₀) (y₀ := y₀) (A := C κ⁻¹ * A) (B := C κ⁻¹ * B) (S := S)
    h2 (Tate.coprime_cub hD) hQ (by omega) hy₀ (eqn_of n₀) (by
      rw [mul_zero, add_zero]
      have : (C κ⁻¹ * C κ : K[X]) ^ 2 = 1 := by rw [hec, one_pow]
      rw [mul_pow, ← C_pow (a := κ), heu] at this
      linear_combination (C κ⁻¹) ^ 2 * nAB + (X - C x₀) ^ (Fintype.card K - 1) * this)
    (by
      simp only [eval_mul, eval_C]
      linear_combination κ⁻¹ * e1)
    (by
      rw [eval_mul, eval_C]
      exact mul_ne_zero (inv_ne_zero hκ0) hA0)
    (fun x hx => by
      obtain ⟨hx0, hB, hA⟩ := hSv x hx
      refine ⟨hx0, by rw [eval_mul, hB, mul_zero], ?_⟩
      rw [eval_mul, eval_C, hA, pow_zero, inv_mul_cancel₀ hκ0])
  omega

/-- Points and their first coordinates. -/
theorem card_le_x [Finite (EC a b).Point] : ∃ S : Finset K, (∀ x ∈ S, ∃ A : Off H, A.x = x ∧ A.y ≠ 0) ∧
    Nat.card (EC a b).Point ≤ Nat.card H + 2 * S.card + 6 := by
  classical
  have := Fintype.ofFinite (EC a b).Point
  let xc : (EC a b).Point → K := fun Q => match Q with
    | .zero => 0
    | .some x _ _ => x
  let T : Finset (EC a b).Point := Finset.univ.filter fun Q => Q ∉ H
  have hT : T.card + Nat.card H = Nat.card (EC a b).Point := by
    rw [Nat.card_eq_fintype_card, Nat.card_eq_fintype_card, Fintype.card_subtype, ← Finset.card_univ, add_comm]
    exact Finset.card_filter_add_card_filter_not (s := Finset.univ) (fun Q => Q ∈ H)
  have hfib : ∀ x ∈ T.image xc, (T.filter fun Q => xc Q = x).card ≤ 2 := by
    intro x hx
    obtain ⟨Q, hQ, rfl⟩ := Finset.mem_image.1 hx
    refine (Finset.card_le_card (t := {Q, -Q}) ?_).trans Finset.card_le_two
    intro Q' hQ'
    obtain ⟨h1, h2⟩ := Finset.mem_filter.1 hQ'
    rw [Finset.mem_insert, Finset.mem_singleton]
    have m1 := (Finset.mem_filter.1 hQ).2
    have m2 := (Finset.mem_filter.1 h1).2
    rcases Q with _ | ⟨x, y, hn⟩
    · exact absurd H.zero_mem m1
    rcases Q' with _ | ⟨x', y', hn'⟩
    · exact absurd H.zero_mem m2
    by_contra hno
    rw [not_or] at hno
    exact x_ne_of hn' hn hno.1 hno.2 h2
  have h1 := Finset.card_le_mul_card_image T 2 hfib
  refine ⟨(T.image xc).filter fun x => ¬ (Stepanov.cub a b).IsRoot x, fun x hx => ?_, ?_⟩
  · obtain ⟨h1, h2⟩ := Finset.mem_filter.1 hx
    obtain ⟨Q, hQ, rfl⟩ := Finset.mem_image.1 h1
    obtain ⟨A, rfl⟩ := exists_off (Finset.mem_filter.1 hQ).2
    refine ⟨A, rfl, fun hy => h2 ?_⟩
    have := A.eqn
    rw [hy] at this
    change (Stepanov.cub a b).eval A.x = 0
    rw [Stepanov.cub_eval, ← this]
    ring
  · have h2 := Finset.card_filter_add_card_filter_not (s := T.image xc) (fun x => (Stepanov.cub a b).IsRoot x)
    have h3 : ((T.image xc).filter fun x => (Stepanov.cub a b).IsRoot x).card ≤ 3 := by
      have hn := (Stepanov.cub_monic a b).ne_zero
      refine (Finset.card_le_card (t := (Stepanov.cub a b).roots.toFinset) ?_).trans
        ((Multiset.toFinset_card_le _).trans ((card_roots' _).trans ?_))
      · intro x hx
        rw [Multiset.mem_toFinset, mem_roots hn]
        exact (Finset.mem_filter.1 hx).2
      · exact (Stepanov.cub_natDegree a b).le
    omega

/-- The homomorphism is not trivial. -/
theorem char_ne [Finite (EC a b).Point] (h2 : (2 : K) ≠ 0) (hD : 4 * a ^ 3 + 27 * b ^ 2 ≠ 0) (hQ : 7 < Fintype.card K)
    (hodd : Odd r) (he : r * e = Fintype.card K - 1) (hH : P ∈ H) (hP : P ≠ 0) (hr : r • P = 0)
    (hf : FullK H P r f) {χ : (EC a b).Point → K} (hχ : IsChar r e f χ)
    (hN : 2 * Nat.card H + Fintype.card K + 13 < 2 * Nat.card (EC a b).Point) : ∃ Q, χ Q ≠ 1 := by
  by_contra hno
  push Not at hno
  obtain ⟨S, hS, hc⟩ := card_le_x (H := H)
  have := few_points h2 hD hQ hodd he hH hP hr hf (fun A B => by rw [hχ.val A B, hno, one_mul]) hS
  omega

end fin

/-! ### Points of order `r` -/

theorem IsChar.congr {g : Off H → K} {χ : (EC a b).Point → K} (hf : FullK H P r f) (hg : FullK H P r g)
    (h : IsChar r e f χ) : IsChar r e g χ where
  add := h.add
  ne := h.ne
  root := h.root
  val A B := by
    obtain ⟨c, hc, hu⟩ := hf.div.unique hg.div
    have := h.val A B
    rw [hu A, hu B, mul_pow, mul_pow] at this
    exact mul_left_cancel₀ (pow_ne_zero e hc) (by rw [this]; ring)

open Spec (tors mem_tors)

/-- The elements killed by a power of `r` are at most the part of the order. -/
theorem card_tors_dvd {M : Type*} [AddCommGroup M] [Finite M] {r h n m : ℕ} (hp : r.Prime) (hN : Nat.card M = h * m)
    (hh : ¬ r ∣ h) : Nat.card (tors (A := M) (r ^ n)) ∣ m := by
  have hd : Nat.card (tors (A := M) (r ^ n)) ∣ h * m := by
    rw [← hN]; exact AddSubgroup.card_addSubgroup_dvd_card _
  refine Nat.Coprime.dvd_of_dvd_mul_left ?_ hd
  by_contra hno
  obtain ⟨p, pp, h1, h2⟩ := Nat.Prime.not_coprime_iff_dvd.1 hno
  have := Fact.mk pp
  obtain ⟨x, hx⟩ := exists_prime_addOrderOf_dvd_card' (G := tors (A := M) (r ^ n)) p h1
  have h3 : r ^ n • x = 0 := Subtype.ext (mem_tors.1 x.2)
  have h4 := addOrderOf_dvd_of_nsmul_eq_zero h3
  rw [hx] at h4
  have h5 := (Nat.prime_dvd_prime_iff_eq pp hp).1 (pp.dvd_of_dvd_pow h4)
  exact hh (h5 ▸ h2)

section typeE

open Tate (rootP rootP_some)

variable [Fintype K] {β ζ : K}

theorem sum_root (hζ : ζ ^ 2 + ζ + 1 = 0) (h2 : (2 : K) ≠ 0) (h3 : (3 : K) ≠ 0) (hβ : β ≠ 0) (P : (EC 0 β).Point) :
    P + rootP β hζ P + rootP β hζ (rootP β hζ P) = 0 := by
  rcases P with _ | ⟨x, y, h⟩
  · rw [← Point.zero_def, map_zero, map_zero, add_zero, add_zero]
  obtain ⟨h₁, e₁⟩ := rootP_some hζ h
  obtain ⟨h₂, e₂⟩ := rootP_some hζ h₁
  rw [e₁, e₂]
  have hx : ζ * (ζ * x) = ζ ^ 2 * x := by ring
  have e := Tate.point_ext (h := h₂) (h' := hx ▸ h₂) hx rfl
  rw [e]
  exact Tate.point_sum_cube hζ h2 hβ h h₁ _ h3

/-- The value at a point of order `r²` would have to be a cube root of unity. -/
theorem arith {r n μ : ℕ} (hp : r.Prime) (h5 : 5 < r) (h1 : r ∣ 1 + n + n * n) (hμ : μ % r = n) (h2 : μ * n ≡ 1 [MOD r]) :
    False := by
  have := Fact.mk hp
  have e1 : (1 + n + n * n : ZMod r) = 0 := by
    have := (ZMod.natCast_eq_zero_iff (1 + n + n * n) r).2 h1
    exact_mod_cast this
  have e2 : (μ * n : ZMod r) = 1 := by
    have := (ZMod.natCast_eq_natCast_iff (μ * n) 1 r).2 h2
    exact_mod_cast this
  have e3 : (μ : ZMod r) = n := by
    rw [← hμ, ZMod.natCast_mod]
  rw [e3] at e2
  have e4 : (n : ZMod r) = -2 := by linear_combination e1 - e2
  have e5 : ((3 : ℕ) : ZMod r) = 0 := by
    rw [e4] at e2
    push_cast
    linear_combination e2
  have := Nat.le_of_dvd (by norm_num) ((ZMod.natCast_eq_zero_iff 3 r).1 e5)
  omega

theorem root_ne (hζ : ζ ^ 2 + ζ + 1 = 0) (h2 : (2 : K) ≠ 0) (h3 : (3 : K) ≠ 0) (hβ : β ≠ 0) {T : (EC 0 β).Point}
    (h0 : rootP β hζ T = 0) : T = 0 := by
  have := sum_root hζ h2 h3 hβ T
  rwa [h0, map_zero, add_zero, add_zero] at this

/-- The cube root of unity does not act on `P` and on `T` by the same number when the value at `T` is not one. -/
theorem no_eigen (hζ : ζ ^ 2 + ζ + 1 = 0) (h2 : (2 : K) ≠ 0) (h3 : (3 : K) ≠ 0) (hβ : β ≠ 0) {r e : ℕ} (hp : r.Prime)
    (h5 : 5 < r) (hk : KillsK K r e) (hav : Avoids (tors (A := (EC 0 β).Point) r))
    {P : (EC 0 β).Point} (hP : P ≠ 0) (hr : r • P = 0) {f : Off (tors (A := (EC 0 β).Point) r) → K}
    (hf : FullK (tors r) P r f) {χ : (EC 0 β).Point → K} (hχ : IsChar r e f χ) {T : (EC 0 β).Point} {μ : ℕ}
    (hμT : rootP β hζ T = μ • T) (hμP : rootP β hζ P = μ • P) : χ T = 1 := by
  by_contra hTχ
  have hr0 := hp.pos
  have hω0 : ∀ T, rootP β hζ T = 0 → T = 0 := fun T => root_ne hζ h2 h3 hβ
  have hH : ∀ T, rootP β hζ T ∈ tors r → T ∈ tors (A := (EC 0 β).Point) r := fun T hT => by
    rw [mem_tors] at hT ⊢
    rw [← map_nsmul] at hT
    exact hω0 _ hT
  obtain ⟨f₁, f', hf₁, hf', c, hc, hff⟩ := exists_full_root hζ hH (mem_tors.2 hr)
    (mem_tors.2 (by rw [← map_nsmul, hr, map_zero])) (fun h0 => hP (hω0 _ h0)) hp hr
  replace hχ := hχ.congr hf hf₁
  obtain ⟨χ', hχ'⟩ := exists_char hk hav (mem_tors.2 (by rw [← map_nsmul, hr, map_zero])) hf'
  have hωP : rootP β hζ P = (μ % r) • P := by
    rw [hμP]
    conv_lhs => rw [← Nat.div_add_mod μ r, add_smul, mul_comm, mul_smul, hr, smul_zero, zero_add]
  obtain ⟨n, hn⟩ : ∃ n, μ % r = n + 1 := by
    refine Nat.exists_eq_succ_of_ne_zero fun h0 => hP (hω0 P ?_)
    rw [hωP, h0, zero_smul]
  have hlt : n + 1 < r := hn ▸ Nat.mod_lt _ hr0
  have hordP : addOrderOf P = r :=
    ((Nat.dvd_prime hp).1 (addOrderOf_dvd_of_nsmul_eq_zero hr)).resolve_left
      fun h => hP (AddMonoid.addOrderOf_eq_one_iff.1 h)
  rw [hωP, hn] at hf'
  have e1 := char_nsmul hk hav (mem_tors.2 hr) hf₁ hχ (n := n) (fun m h1 h4 h6 => by
    have := Nat.le_of_dvd (by omega) (addOrderOf_dvd_of_nsmul_eq_zero h6)
    omega) hf' hχ' (rootP β hζ T)
  have e2 : χ' (rootP β hζ T) = χ T := by
    obtain ⟨A, B, rfl⟩ := exists_sub hav T
    have k1 := hχ'.val (A.root hζ hH) (B.root hζ hH)
    rw [hff, hff, Off.root_pt, Off.root_pt, ← map_sub, mul_pow, mul_pow, hχ.val A B] at k1
    have n1 := pow_ne_zero e hc
    have n2 := pow_ne_zero e (hf₁.ne_zero B)
    refine mul_right_cancel₀ (mul_ne_zero n1 n2) ?_
    linear_combination -k1
  rw [e2, hμT, hχ.nsmul, ← pow_mul] at e1
  have hordχ : orderOf (χ T) = r := by
    have := Fact.mk hp
    exact orderOf_eq_prime_iff.2 ⟨hχ.root T, hTχ⟩
  have e3 : μ * (n + 1) ≡ 1 [MOD r] := by
    obtain ⟨j, hj⟩ : ∃ j, μ * (n + 1) = j + 1 := Nat.exists_eq_succ_of_ne_zero fun h0 => hTχ (by
      rw [e1, h0, pow_zero])
    rw [hj, pow_succ] at e1
    have hj1 : χ T ^ j = 1 := mul_right_cancel₀ (hχ.ne T) (by rw [← e1, one_mul])
    have hd := orderOf_dvd_of_pow_eq_one hj1
    rw [hordχ] at hd
    rw [hj]
    simpa using ((Nat.modEq_zero_iff_dvd.2 hd).add_right 1)
  have e4 : r ∣ 1 + (n + 1) + (n + 1) * (n + 1) := by
    have := sum_root hζ h2 h3 hβ P
    rw [hωP, hn, map_nsmul, hωP, hn, smul_smul] at this
    nth_rewrite 1 [← one_smul ℕ P] at this
    rw [← add_smul, ← add_smul] at this
    rw [← hordP]
    exact addOrderOf_dvd_of_nsmul_eq_zero this
  exact arith hp h5 e4 hn e3

/-- The curve `Y² = X³ + β` with `q - 1 = h r²` points. -/
structure Full (K : Type*) [Field K] [DecidableEq K] [Fintype K] (β ζ : K) (r h : ℕ) : Prop where
  root : ζ ^ 2 + ζ + 1 = 0
  two : (2 : K) ≠ 0
  three : (3 : K) ≠ 0
  b : β ≠ 0
  prime : r.Prime
  big : 5 < r
  q : Fintype.card K = h * r ^ 2 + 1
  N : Nat.card (EC 0 β).Point = h * r ^ 2
  hh : 4 < h
  cop : ¬ r ∣ h

variable {r h : ℕ} (F : Full K β ζ r h)

include F

theorem Full.kills : KillsK K r (h * r) := fun z hz => by
  have := FiniteField.pow_card_sub_one_eq_one z hz
  rw [F.q, Nat.add_sub_cancel] at this
  rw [← pow_mul, ← this]
  congr 1
  ring

theorem Full.finite : Finite (EC 0 β).Point := Nat.finite_of_card_ne_zero (by
  rw [F.N]
  have := F.prime.pos
  have := F.hh
  positivity)

theorem Full.avoids : Avoids (tors (A := (EC 0 β).Point) r) := by
  have := F.finite
  have hr0 := F.prime.pos
  have hT : Nat.card (tors (A := (EC 0 β).Point) r) ≤ r ^ 2 := by
    have := card_tors_dvd (n := 1) F.prime F.N F.cop
    rw [pow_one] at this
    exact Nat.le_of_dvd (by positivity) this
  have hlt : 5 * r ^ 2 ≤ h * r ^ 2 := Nat.mul_le_mul_right _ F.hh
  have : 0 < r ^ 2 := by positivity
  exact avoids_of_card (by rw [F.N]; omega)

/-- **Non-degeneracy** on the points killed by `r`. -/
theorem Full.nondeg {P : (EC 0 β).Point} (hP : P ≠ 0) (hr : r • P = 0) {f : Off (tors (A := (EC 0 β).Point) r) → K}
    (hf : FullK (tors r) P r f) {χ : (EC 0 β).Point → K} (hχ : IsChar r (h * r) f χ) : ∃ Q, r • Q = 0 ∧ χ Q ≠ 1 := by
  obtain ⟨hζ, h2, h3, hβ, hp, h5, hq, hN, hh, hrh⟩ := id F
  have hr0 := hp.pos
  have hfin := F.finite
  have hodd : Odd r := hp.odd_of_ne_two (by omega)
  have hT : Nat.card (tors (A := (EC 0 β).Point) r) ≤ r ^ 2 := by
    have := card_tors_dvd (n := 1) hp hN hrh
    rw [pow_one] at this
    exact Nat.le_of_dvd (by positivity) this
  have hT2 : Nat.card (tors (A := (EC 0 β).Point) (r ^ 2)) ≤ r ^ 2 :=
    Nat.le_of_dvd (by positivity) (card_tors_dvd hp hN hrh)
  have hlt : 5 * r ^ 2 ≤ h * r ^ 2 := Nat.mul_le_mul_right _ hh
  have h36 : 36 ≤ r ^ 2 := by nlinarith
  by_contra hno
  push Not at hno
  obtain ⟨A, hA⟩ := char_ne h2 (by rw [zero_pow (by norm_num), mul_zero, zero_add, show (27 : K) = 3 ^ 3 by norm_num]
                                   exact mul_ne_zero (pow_ne_zero 3 h3) (pow_ne_zero 2 hβ)) (by omega) hodd
    (by rw [hq, Nat.add_sub_cancel]; ring) (mem_tors.2 hr) hP hr hf hχ (by rw [hq, hN]; omega)
  have hcop : Nat.Coprime h r := ((Nat.Prime.coprime_iff_not_dvd hp).2 hrh).symm
  obtain ⟨T, hTd⟩ : ∃ T, T = h • A := ⟨_, rfl⟩
  have hTχ : χ T ≠ 1 := by
    rw [hTd, hχ.nsmul]
    intro h1
    have := pow_gcd_eq_one.2 ⟨h1, hχ.root A⟩
    rw [hcop, pow_one] at this
    exact hA this
  have hT0 : r ^ 2 • T = 0 := by
    rw [hTd, smul_smul, mul_comm, ← hN]; exact card_nsmul_eq_zero'
  have hT1 : r • T ≠ 0 := fun h0 => hTχ (hno T h0)
  have hord : addOrderOf T = r ^ 2 := addOrderOf_eq_prime_pow (p := r) (n := 1) (hp := ⟨hp⟩) (by rwa [pow_one]) hT0
  have hmem : ∀ Y : (EC 0 β).Point, r ^ 2 • Y = 0 → ∃ μ : ℕ, μ • T = Y := by
    have hle : AddSubgroup.zmultiples T ≤ tors (A := (EC 0 β).Point) (r ^ 2) := by
      rw [AddSubgroup.zmultiples_le]
      exact hT0
    have heq : AddSubgroup.zmultiples T = tors (A := (EC 0 β).Point) (r ^ 2) :=
      AddSubgroup.eq_of_le_of_card_ge hle (by rw [Nat.card_zmultiples, hord]; exact hT2)
    intro Y hY
    have hY' : Y ∈ AddSubgroup.zmultiples T := by rw [heq]; exact hY
    exact (mem_multiples_iff_mem_zmultiples.2 hY')
  obtain ⟨μ, hμ⟩ := hmem (rootP β hζ T) (by rw [← map_nsmul, hT0, map_zero])
  obtain ⟨k, hkT⟩ := hmem P (by rw [pow_two, mul_smul, hr, smul_zero])
  exact hTχ (no_eigen hζ h2 h3 hβ hp h5 F.kills F.avoids hP hr hf hχ hμ.symm (by
    rw [← hkT, map_nsmul, ← hμ, smul_comm]))

/-- All points killed by `r` are rational: there are `r²`. -/
theorem Full.card_tors : Nat.card (tors (A := (EC 0 β).Point) r) = r ^ 2 := by
  have hp := F.prime
  have hfin := F.finite
  have hfact := Fact.mk hp
  have hd := card_tors_dvd (n := 1) hp F.N F.cop
  rw [pow_one] at hd
  obtain ⟨P, hPo⟩ := exists_prime_addOrderOf_dvd_card' (G := (EC 0 β).Point) r (by
    rw [F.N]; exact Dvd.dvd.mul_left (dvd_pow_self r two_ne_zero) h)
  have hr : r • P = 0 := by rw [← hPo]; exact addOrderOf_nsmul_eq_zero P
  have hP : P ≠ 0 := by
    rintro rfl
    rw [addOrderOf_zero] at hPo
    exact hp.one_lt.ne hPo
  obtain ⟨i, hi, e⟩ := (Nat.dvd_prime_pow hp).1 hd
  have hle : AddSubgroup.zmultiples P ≤ tors (A := (EC 0 β).Point) r := by
    rw [AddSubgroup.zmultiples_le]
    exact hr
  have hc : r ≤ Nat.card (tors (A := (EC 0 β).Point) r) := by
    have := AddSubgroup.card_le_of_le hle
    rwa [Nat.card_zmultiples, hPo] at this
  rcases Nat.lt_or_ge i 2 with hi2 | hi2
  · exfalso
    have heq : AddSubgroup.zmultiples P = tors (A := (EC 0 β).Point) r :=
      AddSubgroup.eq_of_le_of_card_ge hle (by
        rw [Nat.card_zmultiples, hPo, e]
        calc r ^ i ≤ r ^ 1 := Nat.pow_le_pow_right hp.pos (by omega)
          _ = r := pow_one r)
    have hmem : ∀ Y : (EC 0 β).Point, r • Y = 0 → ∃ μ : ℕ, μ • P = Y := fun Y hY => by
      have hY' : Y ∈ AddSubgroup.zmultiples P := by rw [heq]; exact hY
      exact (mem_multiples_iff_mem_zmultiples.2 hY')
    obtain ⟨f, hf⟩ := exists_fullK (H := tors r) (mem_tors.2 hr) hP hp.ne_zero hr
    obtain ⟨χ, hχ⟩ := exists_char F.kills F.avoids (mem_tors.2 hr) hf
    obtain ⟨Q, hQ, hQ1⟩ := F.nondeg hP hr hf hχ
    obtain ⟨μ, hμ⟩ := hmem (rootP β F.root P) (by rw [← map_nsmul, hr, map_zero])
    obtain ⟨k, hk⟩ := hmem Q hQ
    exact hQ1 (no_eigen F.root F.two F.three F.b hp F.big F.kills F.avoids hP hr hf hχ (by
      rw [← hk, map_nsmul, ← hμ, smul_comm]) hμ.symm)
  · rw [e, show i = 2 by omega]

end typeE

end TateK
