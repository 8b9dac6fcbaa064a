import Verif.Lemmas.TateLine
import Verif.Lemmas.Lucas
import Verif.Lemmas.CurveBatch

/-! # The routines of types A and A1 compute the Tate pairing -/

set_option autoImplicit false
set_option linter.unusedSectionVars false

namespace Pbc.PairingA

open Pbc.Quad
open Pbc.Curve (Pt)
open WeierstrassCurve WeierstrassCurve.Affine
open Spec (EC PtRep)
open Tate

variable {K : Type*} [Field K] [DecidableEq K] [Fact (∀ r : K, r ^ 2 ≠ -1 + 0 * r)]

/-- The field `F_q²`. -/
abbrev L2 (K : Type*) [Field K] := QuadraticAlgebra K (-1) 0

/-- `(x, y) ↦ (-x, i y)`. -/
theorem tw : Twist (1 : K) 0 (1 : K) 0 (-1) (alg (-1) ⟨0, 1⟩ : L2 K) where
  ha := by simp
  hb := by simp
  hw := by
    rw [algebraMap_eq, pow_two, ← alg_mul]
    ext <;> simp [alg]
    ring
  hu := by simp
  irr y h := by
    rw [algebraMap_eq] at h
    exact one_ne_zero (congrArg QuadraticAlgebra.im h)

/-- The plane point is on the curve and is not its own negative. -/
def Good (Q : Pt K) : Prop := Q.y ^ 2 = Q.x ^ 3 + 1 * Q.x + 0 ∧ Q.y ≠ 0

/-- The place of a second argument. -/
def pl (Q : Pt K) (h : Good Q) : Place (L2 K) (1 : K) 0 := tw.place Q.x Q.y h.1 h.2

theorem evalfn_eq (l : Abc K) (Q : Pt K) (h : Good Q) :
    alg (-1) (evalfn l Q.x Q.y) = lval l.a l.b l.c (pl Q h) := by
  simp only [lval, pl, Twist.place, evalfn, Algebra.algebraMap_self, RingHom.id_apply,
    algebraMap_eq, ← alg_mul]
  ext <;> simp [alg]
  ring

theorem doTangent_eq (V Q : Pt K) (h : Good Q) (f : El K) :
    alg (-1) (doTangent V Q f) = alg (-1) f *
      lval (tangent V.x V.y).a (tangent V.x V.y).b (tangent V.x V.y).c (pl Q h) := by
  unfold doTangent; dsimp only
  rw [alg_mul2, evalfn_eq]

theorem doLine_eq (V V1 Q : Pt K) (h : Good Q) (f : El K) :
    alg (-1) (doLine V V1 Q f) = alg (-1) f * lval (line V.x V.y V1.x V1.y).a
      (line V.x V.y V1.x V1.y).b (line V.x V.y V1.x V1.y).c (pl Q h) := by
  unfold doLine; dsimp only
  rw [alg_mul2, evalfn_eq]

/-! ### Lines -/

theorem tangent_isLine (h2 : (2 : K) ≠ 0) {x y : K} (h : (EC (1 : K) 0).Nonsingular x y) (hy : y ≠ 0) :
    IsLine 1 0 (tangent x y).a (tangent x y).b (tangent x y).c (.some x y h) (.some x y h) := by
  refine isLine_dbl h2 h hy (c := 1) one_ne_zero ?_ ?_ ?_ <;> simp only [tangent] <;> ring

theorem line_isLine {x₁ y₁ x₂ y₂ : K} (h₁ : (EC (1 : K) 0).Nonsingular x₁ y₁)
    (h₂ : (EC (1 : K) 0).Nonsingular x₂ y₂) (hx : x₁ ≠ x₂) :
    IsLine 1 0 (line x₁ y₁ x₂ y₂).a (line x₁ y₁ x₂ y₂).b (line x₁ y₁ x₂ y₂).c
      (.some x₁ y₁ h₁) (.some x₂ y₂ h₂) := by
  refine isLine_ch h₁ h₂ hx (c := 1) one_ne_zero ?_ ?_ ?_ <;> simp only [line] <;> ring

/-! ### Points -/

theorem dbl_rep (h2 : (2 : K) ≠ 0) {V : Pt K} {R : (EC (1 : K) 0).Point} (h : PtRep V R) :
    ∃ V', dbl V = some V' ∧ PtRep V' (2 • R) := by
  obtain ⟨m', e, h', _⟩ := Curve.double_rep h2 (m := fun _ => V) (a := 0) h 0
  exact ⟨m' 0, by rw [dbl, e]; rfl, h'⟩

theorem add_rep (h2 : (2 : K) ≠ 0) {V P : Pt K} {R S : (EC (1 : K) 0).Point} (h : PtRep V R)
    (hS : PtRep P S) : ∃ V', add V P = some V' ∧ PtRep V' (R + S) := by
  obtain ⟨m', e, h', _⟩ := Curve.add_rep h2 (m := fun i => if i = 0 then V else P) (a := 0) (b := 1)
    (by simpa using h) (by simpa using hS) 0
  exact ⟨m' 0, by rw [add, e]; rfl, h'⟩

theorem copy_rep {V : Pt K} {R : (EC (1 : K) 0).Point} (h : PtRep V R) : PtRep (copy V) R :=
  (Curve.set_rep (m := fun i => if i = 0 then Curve.fresh else V) (a := 1) (by simpa using h) 0).1

theorem neg_rep {V : Pt K} {R : (EC (1 : K) 0).Point} (h : PtRep V R) : PtRep (neg V) (-R) :=
  (Curve.invert_rep (m := fun i => if i = 0 then Curve.fresh else V) (a := 1) (by simpa using h) 0).1

/-! ### Affine loops -/

section

variable {P : (EC (1 : K) 0).Point}

/-- One doubling with its tangent. -/
theorem step_dbl (h2 : (2 : K) ≠ 0) {n : ℤ} {V : Pt K} {F : Place (L2 K) (1 : K) 0 → L2 K}
    (hn : (2 * n) • P ≠ 0) (hV : PtRep V (n • P)) (hF : Mil (L2 K) P n F) :
    Mil (L2 K) P (2 * n) (fun Q => F Q ^ 2 *
      lval (tangent V.x V.y).a (tangent V.x V.y).b (tangent V.x V.y).c Q) := by
  rw [mul_smul] at hn
  have h0 : n • P ≠ 0 := fun h => hn (by rw [h, smul_zero])
  obtain ⟨hns, hR, _⟩ := rep_some hV h0
  have hy := y_ne_of hns (by rw [← hR]; exact_mod_cast hn)
  refine hF.dbl ?_
  rw [hR]
  exact tangent_isLine h2 hns hy

/-- One addition of `P` with its line. -/
theorem step_add {n : ℤ} {V p : Pt K} {F : Place (L2 K) (1 : K) 0 → L2 K} (hP : P ≠ 0)
    (hn : n • P ≠ 0) (h1 : n • P ≠ P) (h1' : n • P ≠ -P) (hV : PtRep V (n • P)) (hp : PtRep p P)
    (hF : Mil (L2 K) P n F) :
    Mil (L2 K) P (n + 1) (fun Q => F Q *
      lval (line V.x V.y p.x p.y).a (line V.x V.y p.x p.y).b (line V.x V.y p.x p.y).c Q) := by
  obtain ⟨hns, hR, _⟩ := rep_some hV hn
  obtain ⟨hns', hR', _⟩ := rep_some hp hP
  have hx := x_ne_of hns hns' (by rw [← hR, ← hR']; exact h1) (by rw [← hR, ← hR']; exact h1')
  refine hF.succ ?_
  have := line_isLine hns hns' hx
  rwa [← hR, ← hR'] at this

theorem affineLoop_spec (h2 : (2 : K) ≠ 0) (hP : ∀ n : ℕ, ((2 ^ n : ℕ) : ℤ) • P ≠ 0) :
    ∀ (k n : ℕ) (V : Pt K) (F : Place (L2 K) (1 : K) 0 → L2 K),
      PtRep V (((2 ^ n : ℕ) : ℤ) • P) → Mil (L2 K) P ((2 ^ n : ℕ) : ℤ) F →
      ∃ V' F', PtRep V' (((2 ^ (n + k) : ℕ) : ℤ) • P) ∧ Mil (L2 K) P ((2 ^ (n + k) : ℕ) : ℤ) F' ∧
        ∀ Q (hQ : Good Q) f, alg (-1) f = F (pl Q hQ) →
          ∃ f', affineLoop Q k V f = some (V', f') ∧ alg (-1) f' = F' (pl Q hQ)
  | 0, n, V, F, hV, hF => ⟨V, F, hV, hF, fun _ _ f hf => ⟨f, rfl, hf⟩⟩
  | k + 1, n, V, F, hV, hF => by
    have e2 : ((2 ^ (n + 1) : ℕ) : ℤ) = 2 * ((2 ^ n : ℕ) : ℤ) := by push_cast; ring
    obtain ⟨V1, hd, hV1⟩ := dbl_rep h2 hV
    have hF1 := step_dbl h2 (by rw [← e2]; exact hP (n + 1)) hV hF
    rw [← e2] at hF1
    have hV1' : PtRep V1 (((2 ^ (n + 1) : ℕ) : ℤ) • P) := by
      rw [e2, mul_smul]; exact_mod_cast hV1
    obtain ⟨V', F', hV', hF', hrun⟩ := affineLoop_spec h2 hP k (n + 1) V1 _ hV1' hF1
    rw [show n + 1 + k = n + (k + 1) by omega] at hV' hF'
    refine ⟨V', F', hV', hF', fun Q hQ f hf => ?_⟩
    obtain ⟨f', e, hf'⟩ := hrun Q hQ (doTangent V Q (square2 f))
      (by rw [doTangent_eq _ _ hQ, alg_square2, hf])
    exact ⟨f', by rw [affineLoop, hd]; exact e, hf'⟩

/-- The parameters of a type A pairing. -/
structure ValidA (p : Params) (r : ℕ) : Prop where
  pos : 1 ≤ p.exp1
  lt : p.exp1 < p.exp2
  s1 : p.sign1 = 1 ∨ p.sign1 = -1
  hr : (r : ℤ) - (2 ^ p.exp2 + p.sign1 * 2 ^ p.exp1) = 1 ∨
    (r : ℤ) - (2 ^ p.exp2 + p.sign1 * 2 ^ p.exp1) = -1
  big : 5 < r

variable {p : Params} {r : ℕ}

theorem ValidA.odd (h : ValidA p r) : Odd r := by
  obtain ⟨a, ha⟩ := Nat.exists_eq_add_of_le' h.pos
  obtain ⟨b, hb⟩ := Nat.exists_eq_add_of_le' (h.pos.trans h.lt.le)
  have := h.hr
  rw [ha, hb, pow_succ, pow_succ] at this
  rw [← Nat.not_even_iff_odd]
  rintro ⟨m, hm⟩
  have hm' : (m + m : ℤ) = r := by exact_mod_cast hm.symm
  rcases h.s1 with h1 | h1 <;> rw [h1] at this <;> omega

theorem two_pow_ne {A : Type*} [AddCommGroup A] {P : A} (hodd : Odd r) (hP : P ≠ 0) (hr : r • P = 0) (n : ℕ) :
    ((2 ^ n : ℕ) : ℤ) • P ≠ 0 := by
  rw [natCast_zsmul]
  intro h
  have hd := Nat.dvd_gcd (addOrderOf_dvd_of_nsmul_eq_zero h) (addOrderOf_dvd_of_nsmul_eq_zero hr)
  rw [Nat.Coprime.gcd_eq_one (Nat.Coprime.pow_left n (Nat.coprime_two_left.2 hodd)),
    Nat.dvd_one] at hd
  exact hP (AddMonoid.addOrderOf_eq_one_iff.1 hd)

/-- The two points of the last line are neither equal nor opposite. -/
theorem ValidA.last {A : Type*} [AddCommGroup A] {P : A} (h : ValidA p r) (hP : addOrderOf P = r) :
    ((2 ^ p.exp2 : ℕ) : ℤ) • P ≠ (p.sign1 * (2 ^ p.exp1 : ℕ)) • P ∧
      ((2 ^ p.exp2 : ℕ) : ℤ) • P ≠ -((p.sign1 * (2 ^ p.exp1 : ℕ)) • P) := by
  have hdvd : ∀ z : ℤ, z • P = 0 ↔ (r : ℤ) ∣ z := fun z => by
    rw [← hP]; exact (addOrderOf_dvd_iff_zsmul_eq_zero).symm
  constructor
  · intro e
    rw [← sub_eq_zero, ← sub_smul, hdvd] at e
    obtain ⟨d, hd⟩ := Nat.exists_eq_add_of_lt h.lt
    have hfac : ((2 ^ p.exp2 : ℕ) : ℤ) - p.sign1 * (2 ^ p.exp1 : ℕ) =
        ((2 ^ p.exp1 : ℕ) : ℤ) * ((2 ^ (d + 1) : ℕ) - p.sign1) := by
      rw [hd, show p.exp1 + d + 1 = p.exp1 + (d + 1) by ring, pow_add]; push_cast; ring
    rw [hfac] at e
    have hcop : IsCoprime (r : ℤ) ((2 ^ p.exp1 : ℕ) : ℤ) := by
      rw [Nat.isCoprime_iff_coprime]
      exact Nat.Coprime.pow_right _ (Nat.coprime_two_right.2 h.odd)
    have e' := hcop.dvd_of_dvd_mul_left e
    have hle := Int.le_of_dvd (by
      have : (2 : ℤ) ≤ 2 ^ (d + 1) := by
        rw [pow_succ]; have : (1 : ℤ) ≤ 2 ^ d := one_le_pow₀ (by norm_num)
        omega
      push_cast
      rcases h.s1 with h1 | h1 <;> rw [h1] <;> omega) e'
    have hb := h.big
    have hr := h.hr
    rw [hd, show p.exp1 + d + 1 = p.exp1 + (d + 1) by ring, pow_add] at hr
    obtain ⟨c, hc⟩ := Nat.exists_eq_add_of_le' h.pos
    have hp1 : (2 : ℤ) ≤ 2 ^ p.exp1 := by
      rw [hc, pow_succ]; have : (1 : ℤ) ≤ 2 ^ c := one_le_pow₀ (by norm_num)
      omega
    have hp2 : (2 : ℤ) ≤ 2 ^ (d + 1) := by
      rw [pow_succ]; have : (1 : ℤ) ≤ 2 ^ d := one_le_pow₀ (by norm_num)
      omega
    push_cast at hle
    generalize (2 : ℤ) ^ p.exp1 = A at *
    have hdd : d = 0 ∨ d = 1 ∨ (8 : ℤ) ≤ 2 ^ (d + 1) := by
      rcases d with _ | _ | d
      · simp
      · simp
      · right; right
        rw [pow_succ, pow_succ, pow_succ]; have : (1 : ℤ) ≤ 2 ^ d := one_le_pow₀ (by norm_num)
        omega
    generalize hB : (2 : ℤ) ^ (d + 1) = B at *
    rcases h.s1 with h1 | h1 <;> rw [h1] at hle hr e'
    · have : A * B ≥ 2 * B := by nlinarith
      rcases hr with hr | hr <;> omega
    · rcases hdd with rfl | rfl | hdd
      · norm_num at hB; subst hB; omega
      · norm_num at hB; subst hB; omega
      · have : A * (B - 1) ≥ 2 * (B - 1) := by nlinarith
        rcases hr with hr | hr <;> nlinarith
  · intro e
    rw [← add_eq_zero_iff_eq_neg, ← add_smul, hdvd] at e
    have hr := h.hr
    push_cast at e
    have hone : (r : ℤ) ∣ 1 := by
      rcases hr with hr | hr
      · have := dvd_sub (dvd_refl (r : ℤ)) e
        rwa [hr] at this
      · have := dvd_sub e (dvd_refl (r : ℤ))
        rwa [← neg_sub, hr, neg_neg] at this
    have := Int.le_of_dvd one_pos hone
    have := h.big
    omega

theorem order_prime {A : Type*} [AddCommGroup A] {P : A} (hpr : r.Prime) (hP : P ≠ 0) (hr : r • P = 0) : addOrderOf P = r :=
  (hpr.eq_one_or_self_of_dvd _ (addOrderOf_dvd_of_nsmul_eq_zero hr)).resolve_left
    (fun h => hP (AddMonoid.addOrderOf_eq_one_iff.1 h))

/-- The end of the type A computation: the last line. -/
theorem ValidA.full (h : ValidA p r) (hP : addOrderOf P = r)
    {V V1 : Pt K} {F F1 : Place (L2 K) (1 : K) 0 → L2 K}
    (hV : PtRep V (((2 ^ p.exp2 : ℕ) : ℤ) • P)) (hV1 : PtRep V1 ((p.sign1 * (2 ^ p.exp1 : ℕ)) • P))
    (hF : Mil (L2 K) P ((2 ^ p.exp2 : ℕ) : ℤ) F) (hF1 : Mil (L2 K) P (p.sign1 * (2 ^ p.exp1 : ℕ)) F1) :
    Full P r (fun Q => F Q * F1 Q * lval (line V.x V.y V1.x V1.y).a
      (line V.x V.y V1.x V1.y).b (line V.x V.y V1.x V1.y).c Q) := by
  have hr0 : r • P = 0 := hP ▸ addOrderOf_nsmul_eq_zero P
  have hP0 : P ≠ 0 := by
    rintro rfl
    rw [addOrderOf_zero] at hP
    have := h.big; omega
  have hn := two_pow_ne h.odd hP0 hr0 p.exp2
  have hn1 : (p.sign1 * (2 ^ p.exp1 : ℕ)) • P ≠ 0 := by
    have := two_pow_ne h.odd hP0 hr0 p.exp1
    rcases h.s1 with h1 | h1 <;> rw [h1]
    · rwa [one_mul]
    · rw [neg_one_mul, neg_smul]; exact neg_ne_zero.2 this
  obtain ⟨hl1, hl2⟩ := h.last hP
  obtain ⟨hns, hR, _⟩ := rep_some hV hn
  obtain ⟨hns', hR', _⟩ := rep_some hV1 hn1
  have hx := x_ne_of hns hns' (by rw [← hR, ← hR']; exact hl1) (by rw [← hR, ← hR']; exact hl2)
  have hli := line_isLine hns hns' hx
  rw [← hR, ← hR'] at hli
  have hM := Mil.add hF hF1 hli
  rcases h.hr with e | e
  · refine hM.full_pred hr0 ?_
    push_cast; omega
  · refine hM.full_succ hr0 ?_
    push_cast; omega

theorem affineMiller_spec (h2 : (2 : K) ≠ 0) (h : ValidA p r) (hP : addOrderOf P = r) {p' : Pt K}
    (hp : PtRep p' P) : ∃ F : Place (L2 K) (1 : K) 0 → L2 K, Full P r F ∧
      ∀ Q (hQ : Good Q), ∃ f, affineMiller p p' Q = some f ∧ alg (-1) f = F (pl Q hQ) := by
  have hr0 : r • P = 0 := hP ▸ addOrderOf_nsmul_eq_zero P
  have hP0 : P ≠ 0 := by
    rintro rfl
    rw [addOrderOf_zero] at hP
    have := h.big; omega
  have hne := two_pow_ne h.odd hP0 hr0
  obtain ⟨V, F, hV, hF, run1⟩ := affineLoop_spec h2 hne p.exp1 0 (copy p') (fun _ => 1)
    (by simpa using copy_rep hp) (by simpa using Mil.one)
  rw [zero_add] at hV hF
  obtain ⟨V2, F2, hV2, hF2, run2⟩ := affineLoop_spec h2 hne (p.exp2 - p.exp1) p.exp1 V F hV hF
  rw [Nat.add_sub_cancel' h.lt.le] at hV2 hF2
  rcases h.s1 with hs | hs
  · refine ⟨_, h.full hP hV2 (V1 := copy V) (F1 := F) (by rw [hs, one_mul]; exact copy_rep hV) hF2
      (by rw [hs, one_mul]; exact hF), fun Q hQ => ?_⟩
    obtain ⟨f, e, hf⟩ := run1 Q hQ one2 alg_one2
    obtain ⟨f', e', hf'⟩ := run2 Q hQ f hf
    refine ⟨doLine V2 (copy V) Q (mul2 f' f), ?_, ?_⟩
    · unfold affineMiller
      rw [e]; dsimp only
      rw [hs, if_neg (by decide)]; dsimp only
      rw [e', if_neg (by decide)]
    · rw [doLine_eq _ _ _ hQ, alg_mul2, hf', hf]
  · refine ⟨_, h.full hP hV2 (V1 := neg V) (F1 := fun Q => (F Q)⁻¹)
      (by rw [hs, neg_one_mul, neg_smul]; exact neg_rep hV) hF2
      (by rw [hs, neg_one_mul]; exact hF.inv), fun Q hQ => ?_⟩
    obtain ⟨f, e, hf⟩ := run1 Q hQ one2 alg_one2
    obtain ⟨f', e', hf'⟩ := run2 Q hQ f hf
    obtain ⟨g, eg, hg⟩ := alg_invert2 (f := f) (by rw [hf]; exact hF.ne_zero _)
    refine ⟨doLine V2 (neg V) Q (mul2 f' g), ?_, ?_⟩
    · unfold affineMiller
      rw [e]; dsimp only
      rw [hs, if_pos (by decide), eg]; dsimp only
      rw [e', if_pos (by decide)]
    · rw [doLine_eq _ _ _ hQ, alg_mul2, hf', hg, hf]

end

end Pbc.PairingA
