import Verif.Lemmas.PairingAPp

/-! # Jacobian coordinates, type A1, final powering and products -/

set_option autoImplicit false
set_option linter.unusedSectionVars false

namespace Pbc.PairingA

open Pbc.Quad
open Pbc.Curve (Pt dblX dblY chX chY)
open WeierstrassCurve WeierstrassCurve.Affine
open Spec (EC PtRep)
open Tate

variable {K : Type*} [Field K] [DecidableEq K]

/-- `(X, Y, Z)` stands for the plane point `(X/Z², Y/Z³)`. -/
structure JRep (V : Jac K) (x y : K) : Prop where
  inf : V.inf = false
  z : V.z ≠ 0
  z2 : V.z2 = V.z ^ 2
  x : V.x = x * V.z ^ 2
  y : V.y = y * V.z ^ 3

theorem projDouble_rep (h2 : (2 : K) ≠ 0) {V : Jac K} {x y : K} (h : JRep V x y) (hy : y ≠ 0) :
    JRep (projDouble V) (dblX 1 x y) (dblY 1 x y) := by
  have hz := h.z
  have hd : 2 * y ≠ 0 := mul_ne_zero h2 hy
  have e : (2 * y)⁻¹ * (2 * y) = 1 := inv_mul_cancel₀ hd
  refine ⟨h.inf, ?_, rfl, ?_, ?_⟩
  · simp only [projDouble, h.y]
    exact mul_ne_zero h2 (mul_ne_zero (mul_ne_zero hy (pow_ne_zero 3 hz)) hz)
  · simp only [projDouble, h.y, h.x, h.z2, dblX]
    field_simp
    ring
  · simp only [projDouble, h.y, h.x, h.z2, dblX, dblY]
    field_simp
    ring

theorem projAdd_rep {V : Jac K} {x y : K} (h : JRep V x y) (P : Pt K) (hx : x ≠ P.x) :
    JRep (projAdd V P) (chX x y P.x P.y) (chY x y P.x P.y) := by
  have hz := h.z
  have hd : P.x - x ≠ 0 := sub_ne_zero.2 hx.symm
  refine ⟨h.inf, ?_, rfl, ?_, ?_⟩
  · simp only [projAdd, h.x, h.z2]
    rw [show P.x * V.z ^ 2 - x * V.z ^ 2 = (P.x - x) * V.z ^ 2 by ring]
    exact mul_ne_zero hz (mul_ne_zero hd (pow_ne_zero 2 hz))
  · simp only [projAdd, h.y, h.x, h.z2, chX]
    field_simp
    ring
  · simp only [projAdd, h.y, h.x, h.z2, chX, chY]
    field_simp
    ring

theorem toAffine_rep {V : Jac K} {x y : K} (h : JRep V x y) : toAffine V = some ⟨false, x, y, 1, 1⟩ := by
  have hz := h.z
  unfold toAffine
  rw [Curve.inv_ne hz]
  simp only [h.inf, h.x, h.y]
  congr 2 <;> field_simp

theorem JRep.one {x y : K} : JRep (⟨false, x, y, 1, 1⟩ : Jac K) x y :=
  ⟨rfl, one_ne_zero, by simp, by simp, by simp⟩

variable [Fact (∀ r : K, r ^ 2 ≠ -1 + 0 * r)]

theorem doTangentProj_eq (V : Jac K) (Q : Pt K) (h : Good Q) (f : El K) :
    alg (-1) (doTangentProj V Q f) = alg (-1) f *
      lval (tangentProj V.x V.y V.z V.z2).a (tangentProj V.x V.y V.z V.z2).b
        (tangentProj V.x V.y V.z V.z2).c (pl Q h) := by
  unfold doTangentProj; dsimp only
  rw [alg_mul2, evalfn_eq]

theorem doLineProj_eq (V : Jac K) (P Q : Pt K) (h : Good Q) (f : El K) :
    alg (-1) (doLineProj V P Q f) = alg (-1) f *
      lval (lineProj V.x V.y V.z V.z2 P.x P.y).a (lineProj V.x V.y V.z V.z2 P.x P.y).b
        (lineProj V.x V.y V.z V.z2 P.x P.y).c (pl Q h) := by
  unfold doLineProj; dsimp only
  rw [alg_mul2, evalfn_eq]

theorem tangentProj_isLine (h2 : (2 : K) ≠ 0) {V : Jac K} {x y : K} (hV : JRep V x y)
    (h : (EC (1 : K) 0).Nonsingular x y) (hy : y ≠ 0) :
    IsLine 1 0 (tangentProj V.x V.y V.z V.z2).a (tangentProj V.x V.y V.z V.z2).b
      (tangentProj V.x V.y V.z V.z2).c (.some x y h) (.some x y h) := by
  refine isLine_dbl h2 h hy (c := V.z ^ 6) (pow_ne_zero 6 hV.z) ?_ ?_ ?_ <;>
    simp only [tangentProj, hV.x, hV.y, hV.z2] <;> ring

theorem lineProj_isLine {V : Jac K} {x₁ y₁ x₂ y₂ : K} (hV : JRep V x₁ y₁)
    (h₁ : (EC (1 : K) 0).Nonsingular x₁ y₁) (h₂ : (EC (1 : K) 0).Nonsingular x₂ y₂) (hx : x₁ ≠ x₂) :
    IsLine 1 0 (lineProj V.x V.y V.z V.z2 x₂ y₂).a (lineProj V.x V.y V.z V.z2 x₂ y₂).b
      (lineProj V.x V.y V.z V.z2 x₂ y₂).c (.some x₁ y₁ h₁) (.some x₂ y₂ h₂) := by
  refine isLine_ch h₁ h₂ hx (c := V.z ^ 3) (pow_ne_zero 3 hV.z) ?_ ?_ ?_ <;>
    simp only [lineProj, hV.x, hV.y, hV.z2] <;> ring

/-- A Jacobian triple for a nonzero point of the curve. -/
def JPt (V : Jac K) (R : (EC (1 : K) 0).Point) : Prop :=
  ∃ x y h, JRep V x y ∧ R = .some x y h

theorem jpt_of {p : Pt K} {R : (EC (1 : K) 0).Point} (h : PtRep p R) (hR : R ≠ 0) :
    JPt (⟨p.inf, p.x, p.y, 1, 1⟩ : Jac K) R := by
  obtain ⟨hn, e, hi⟩ := rep_some h hR
  exact ⟨p.x, p.y, hn, by rw [hi]; exact JRep.one, e⟩

theorem jpt_dbl (h2 : (2 : K) ≠ 0) {V : Jac K} {R : (EC (1 : K) 0).Point} (h : JPt V R)
    (hR : (2 : ℤ) • R ≠ 0) : JPt (projDouble V) ((2 : ℤ) • R) := by
  obtain ⟨x, y, hn, hj, rfl⟩ := h
  have hy := y_ne_of hn (by exact_mod_cast hR)
  have e := Curve.dbl_some (ca := (1 : K)) (cb := 0) h2 hn hy
  have e2 : (2 : ℤ) • Point.some x y hn = Point.some x y hn + Point.some x y hn := two_zsmul _
  rw [← e2] at e
  obtain ⟨hn', e', _⟩ := rep_some e hR
  exact ⟨_, _, hn', projDouble_rep h2 hj hy, e'⟩

theorem jpt_add {V : Jac K} {p : Pt K} {R S : (EC (1 : K) 0).Point} (h : JPt V R) (hp : PtRep p S)
    (hS : S ≠ 0) (h1 : R ≠ S) (h1' : R ≠ -S) : JPt (projAdd V p) (R + S) := by
  obtain ⟨x, y, hn, hj, rfl⟩ := h
  obtain ⟨hn', e', _⟩ := rep_some hp hS
  have hx := x_ne_of hn hn' (by rw [← e']; exact h1) (by rw [← e']; exact h1')
  have e := Curve.ch_some (ca := (1 : K)) (cb := 0) hn hn' hx
  rw [← e'] at e
  obtain ⟨hn2, e2, _⟩ := rep_some e (fun h => h1' (eq_neg_of_add_eq_zero_left h))
  exact ⟨_, _, hn2, projAdd_rep hj p hx, e2⟩

variable {P : (EC (1 : K) 0).Point}

theorem jstep_dbl (h2 : (2 : K) ≠ 0) {n : ℤ} {V : Jac K} {F : Place (L2 K) (1 : K) 0 → L2 K}
    (hn : (2 * n) • P ≠ 0) (hV : JPt V (n • P)) (hF : Mil (L2 K) P n F) :
    Mil (L2 K) P (2 * n) (fun Q => F Q ^ 2 *
      lval (tangentProj V.x V.y V.z V.z2).a (tangentProj V.x V.y V.z V.z2).b
        (tangentProj V.x V.y V.z V.z2).c Q) := by
  obtain ⟨x, y, hns, hj, hR⟩ := hV
  have hy := y_ne_of hns (by rw [mul_smul, hR] at hn; exact_mod_cast hn)
  refine hF.dbl ?_
  rw [hR]
  exact tangentProj_isLine h2 hj hns hy

theorem jstep_add {n : ℤ} {V : Jac K} {p : Pt K} {F : Place (L2 K) (1 : K) 0 → L2 K} (hP : P ≠ 0)
    (h1 : n • P ≠ P) (h1' : n • P ≠ -P) (hV : JPt V (n • P)) (hp : PtRep p P)
    (hF : Mil (L2 K) P n F) :
    Mil (L2 K) P (n + 1) (fun Q => F Q *
      lval (lineProj V.x V.y V.z V.z2 p.x p.y).a (lineProj V.x V.y V.z V.z2 p.x p.y).b
        (lineProj V.x V.y V.z V.z2 p.x p.y).c Q) := by
  obtain ⟨x, y, hns, hj, hR⟩ := hV
  obtain ⟨hns', hR', _⟩ := rep_some hp hP
  have hx := x_ne_of hns hns' (by rw [← hR, ← hR']; exact h1) (by rw [← hR, ← hR']; exact h1')
  refine hF.succ ?_
  have := lineProj_isLine hj hns hns' hx
  rwa [← hR, ← hR'] at this

theorem projLoop_spec (h2 : (2 : K) ≠ 0) (hP : ∀ n : ℕ, ((2 ^ n : ℕ) : ℤ) • P ≠ 0) :
    ∀ (k n : ℕ) (V : Jac K) (F : Place (L2 K) (1 : K) 0 → L2 K),
      JPt V (((2 ^ n : ℕ) : ℤ) • P) → Mil (L2 K) P ((2 ^ n : ℕ) : ℤ) F →
      ∃ V' F', JPt V' (((2 ^ (n + k) : ℕ) : ℤ) • P) ∧ Mil (L2 K) P ((2 ^ (n + k) : ℕ) : ℤ) F' ∧
        ∀ Q (hQ : Good Q) f, alg (-1) f = F (pl Q hQ) →
          (projLoop Q k V f).1 = V' ∧ alg (-1) (projLoop Q k V f).2 = F' (pl Q hQ)
  | 0, n, V, F, hV, hF => ⟨V, F, hV, hF, fun _ _ f hf => ⟨rfl, hf⟩⟩
  | k + 1, n, V, F, hV, hF => by
    have e2 : ((2 ^ (n + 1) : ℕ) : ℤ) = 2 * ((2 ^ n : ℕ) : ℤ) := by push_cast; ring
    have hV1 := jpt_dbl h2 hV (by rw [← mul_smul, ← e2]; exact hP (n + 1))
    have hF1 := jstep_dbl h2 (by rw [← e2]; exact hP (n + 1)) hV hF
    rw [← mul_smul, ← e2] at hV1
    rw [← e2] at hF1
    obtain ⟨V', F', hV', hF', hrun⟩ := projLoop_spec h2 hP k (n + 1) _ _ hV1 hF1
    rw [show n + 1 + k = n + (k + 1) by omega] at hV' hF'
    refine ⟨V', F', hV', hF', fun Q hQ f hf => ?_⟩
    exact hrun Q hQ (doTangentProj V Q (square2 f))
      (by rw [doTangentProj_eq _ _ hQ, alg_square2, hf])

variable {p : Params} {r : ℕ}

theorem projMiller_spec (h2 : (2 : K) ≠ 0) (h : ValidA p r) (hP : addOrderOf P = r) {p' : Pt K}
    (hp : PtRep p' P) : ∃ F : Place (L2 K) (1 : K) 0 → L2 K, Full P r F ∧
      ∀ Q (hQ : Good Q), ∃ f, projMiller p p' Q = some f ∧ alg (-1) f = F (pl Q hQ) := by
  have hr0 : r • P = 0 := hP ▸ addOrderOf_nsmul_eq_zero P
  have hP0 : P ≠ 0 := by
    rintro rfl
    rw [addOrderOf_zero] at hP
    have := h.big; omega
  have hne := two_pow_ne h.odd hP0 hr0
  obtain ⟨V, F, ⟨x, y, hn, hj, hR⟩, hF, run1⟩ := projLoop_spec h2 hne p.exp1 0
    ⟨(copy p').inf, (copy p').x, (copy p').y, 1, 1⟩ (fun _ => 1)
    (by simpa using jpt_of (copy_rep hp) hP0) (by simpa using Mil.one)
  rw [zero_add] at hR hF
  have hVa : PtRep (⟨false, x, y⟩ : Pt K) (((2 ^ p.exp1 : ℕ) : ℤ) • P) := by
    rw [hR]; exact ⟨rfl, rfl, rfl⟩
  obtain ⟨V2, F2, ⟨x2, y2, hn2, hj2, hR2⟩, hF2, run2⟩ := projLoop_spec h2 hne (p.exp2 - p.exp1) p.exp1
    ⟨false, x, y, 1, 1⟩ F ⟨x, y, hn, JRep.one, hR⟩ hF
  rw [Nat.add_sub_cancel' h.lt.le] at hR2 hF2
  have hV2 : PtRep (⟨false, x2, y2⟩ : Pt K) (((2 ^ p.exp2 : ℕ) : ℤ) • P) := by
    rw [hR2]; exact ⟨rfl, rfl, rfl⟩
  rcases h.s1 with hs | hs
  · refine ⟨_, h.full hP hV2 (V1 := copy ⟨false, x, y⟩) (F1 := F)
      (by rw [hs, one_mul]; exact copy_rep hVa) hF2 (by rw [hs, one_mul]; exact hF), fun Q hQ => ?_⟩
    obtain ⟨e, hf⟩ := run1 Q hQ one2 alg_one2
    obtain ⟨e', hf'⟩ := run2 Q hQ _ hf
    refine ⟨doLine ⟨false, x2, y2⟩ (copy ⟨false, x, y⟩) Q (mul2
      (projLoop Q (p.exp2 - p.exp1) ⟨false, x, y, 1, 1⟩ (projLoop Q p.exp1 ⟨(copy p').inf, (copy p').x, (copy p').y, 1, 1⟩ one2).2).2
      (projLoop Q p.exp1 ⟨(copy p').inf, (copy p').x, (copy p').y, 1, 1⟩ one2).2), ?_, ?_⟩
    rotate_left 1
    · rw [doLine_eq _ _ _ hQ, alg_mul2, hf', hf]
    · unfold projMiller
      dsimp only
      rw [e, toAffine_rep hj]
      dsimp only
      rw [hs, if_neg (by decide)]
      dsimp only
      rw [e', toAffine_rep hj2, if_neg (by decide)]
      rfl
  · refine ⟨_, h.full hP hV2 (V1 := neg ⟨false, x, y⟩) (F1 := fun Q => (F Q)⁻¹)
      (by rw [hs, neg_one_mul, neg_smul]; exact neg_rep hVa) hF2
      (by rw [hs, neg_one_mul]; exact hF.inv), fun Q hQ => ?_⟩
    obtain ⟨e, hf⟩ := run1 Q hQ one2 alg_one2
    obtain ⟨e', hf'⟩ := run2 Q hQ _ hf
    obtain ⟨g, eg, hg⟩ := alg_invert2 (f := _) (by rw [hf]; exact hF.ne_zero (pl Q hQ))
    refine ⟨doLine ⟨false, x2, y2⟩ (neg ⟨false, x, y⟩) Q (mul2
      (projLoop Q (p.exp2 - p.exp1) ⟨false, x, y, 1, 1⟩ (projLoop Q p.exp1 ⟨(copy p').inf, (copy p').x, (copy p').y, 1, 1⟩ one2).2).2 g), ?_, ?_⟩
    rotate_left 1
    · rw [doLine_eq _ _ _ hQ, alg_mul2, hf', hg, hf]
    · unfold projMiller
      dsimp only
      rw [e, toAffine_rep hj]
      dsimp only
      rw [hs, if_pos (by decide), eg]
      dsimp only
      rw [e', toAffine_rep hj2, if_pos (by decide)]
      rfl

/-! ### Type A1 -/

/-- No step of the double-and-add chain of `r` meets an exceptional case. -/
def Chain (r : ℕ) (P : (EC (1 : K) 0).Point) : Prop :=
  ∀ j, 1 ≤ j → 1 ≤ r >>> j → (2 * (r >>> j)) • P ≠ 0 ∧
    (2 ≤ j → r.testBit (j - 1) = true →
      (2 * (r >>> j)) • P ≠ P ∧ (2 * (r >>> j)) • P ≠ -P)

theorem chain_of_order {r : ℕ} (h3 : 3 ≤ r) (hodd : Odd r) (hP : addOrderOf P = r) : Chain r P := by
  have hdvd : ∀ n : ℕ, 1 ≤ n → n < r → n • P ≠ 0 := fun n h1 h2 h => by
    have := Nat.le_of_dvd (by omega) (addOrderOf_dvd_of_nsmul_eq_zero h)
    omega
  intro j hj h1
  have hle : 2 * (r >>> j) < r := by
    have : r >>> j ≤ r >>> 1 := by
      rw [Nat.shiftRight_eq_div_pow, Nat.shiftRight_eq_div_pow]
      exact Nat.div_le_div_left (Nat.pow_le_pow_right (by norm_num) hj) (by norm_num)
    rw [Nat.shiftRight_one] at this
    obtain ⟨m, rfl⟩ := hodd
    omega
  refine ⟨hdvd _ (by omega) hle, fun hj2 _ => ⟨fun h => ?_, fun h => ?_⟩⟩
  · refine hdvd (2 * (r >>> j) - 1) (by omega) (by omega) ?_
    obtain ⟨m, hm⟩ : ∃ m, 2 * (r >>> j) = m + 1 := ⟨2 * (r >>> j) - 1, by omega⟩
    rw [hm, add_smul, one_smul, add_eq_right] at h
    rw [hm, Nat.add_sub_cancel]; exact h
  · have hlt : 2 * (r >>> j) + 1 < r := by
      have : r >>> j ≤ r >>> 2 := by
        rw [Nat.shiftRight_eq_div_pow, Nat.shiftRight_eq_div_pow]
        exact Nat.div_le_div_left (Nat.pow_le_pow_right (by norm_num) hj2) (by norm_num)
      rw [Nat.shiftRight_eq_div_pow r 2] at this
      obtain ⟨m, rfl⟩ := hodd
      omega
    refine hdvd (2 * (r >>> j) + 1) (by omega) hlt ?_
    rw [add_smul, one_smul, h, neg_add_cancel]

theorem shift_step (r m : ℕ) : r >>> (m + 1) = 2 * (r >>> (m + 1 + 1)) + (r.testBit (m + 1)).toNat := by
  rw [Nat.toNat_testBit, Nat.shiftRight_succ r (m + 1), Nat.shiftRight_eq_div_pow r (m + 1)]
  omega

theorem a1Loop_spec (h2 : (2 : K) ≠ 0) (hP0 : P ≠ 0) (hc : Chain r P) {p' : Pt K} (hp : PtRep p' P) :
    ∀ (m : ℕ) (V : Pt K) (F : Place (L2 K) (1 : K) 0 → L2 K), 1 ≤ r >>> (m + 1) →
      PtRep V (((r >>> (m + 1) : ℕ) : ℤ) • P) → Mil (L2 K) P ((r >>> (m + 1) : ℕ) : ℤ) F →
      ∃ F', Mil (L2 K) P ((2 * (r >>> 1) : ℕ) : ℤ) F' ∧
        ∀ Q (hQ : Good Q) f, alg (-1) f = F (pl Q hQ) ^ 2 →
          ∃ f', a1Loop r p' Q m V f = some f' ∧ alg (-1) f' = F' (pl Q hQ)
  | 0, V, F, h1, hV, hF => by
    have hn := (hc 1 (le_refl 1) h1).1
    have hF1 := step_dbl h2 (n := ((r >>> (0 + 1) : ℕ) : ℤ)) (by
      rw [← natCast_zsmul] at hn; exact_mod_cast hn) hV hF
    refine ⟨_, by exact_mod_cast hF1, fun Q hQ f hf => ⟨_, rfl, ?_⟩⟩
    rw [doTangent_eq _ _ hQ, hf]
  | m + 1, V, F, h1, hV, hF => by
    have e2 : ((2 * (r >>> (m + 1 + 1)) : ℕ) : ℤ) = 2 * ((r >>> (m + 1 + 1) : ℕ) : ℤ) := by push_cast; ring
    obtain ⟨hn, hadd⟩ := hc (m + 1 + 1) (by omega) h1
    rw [← natCast_zsmul] at hn hadd
    have hF1 := step_dbl h2 (by rw [← e2]; exact hn) hV hF
    rw [← e2] at hF1
    obtain ⟨V1, hd, hV1⟩ := dbl_rep h2 hV
    have hV1' : PtRep V1 (((2 * (r >>> (m + 1 + 1)) : ℕ) : ℤ) • P) := by
      rw [e2, mul_smul]; exact_mod_cast hV1
    have hsh := shift_step r m
    rcases hb : r.testBit (m + 1) with _ | _
    · rw [hb, Bool.toNat_false, add_zero] at hsh
      rw [← hsh] at hV1' hF1
      obtain ⟨F', hF', hrun⟩ := a1Loop_spec h2 hP0 hc hp m V1 _ (by omega) hV1' hF1
      refine ⟨F', hF', fun Q hQ f hf => ?_⟩
      obtain ⟨f', e, hf'⟩ := hrun Q hQ (square2 (doTangent V Q f)) (by
        rw [alg_square2, doTangent_eq _ _ hQ, hf])
      refine ⟨f', ?_, hf'⟩
      rw [a1Loop, hd]
      dsimp only
      rw [hb, if_neg (by decide)]
      exact e
    · obtain ⟨ha1, ha2⟩ := hadd (by omega) (by simpa using hb)
      have hF2 := step_add hP0 hn ha1 ha2 hV1' hp hF1
      obtain ⟨V2, ha, hV2⟩ := add_rep h2 hV1' hp
      rw [hb, Bool.toNat_true] at hsh
      have e3 : ((2 * (r >>> (m + 1 + 1)) : ℕ) : ℤ) + 1 = ((r >>> (m + 1) : ℕ) : ℤ) := by
        rw [hsh]; push_cast; ring
      rw [e3] at hF2
      have hV2' : PtRep V2 (((r >>> (m + 1) : ℕ) : ℤ) • P) := by
        rw [← e3, add_smul, one_smul]; exact hV2
      obtain ⟨F', hF', hrun⟩ := a1Loop_spec h2 hP0 hc hp m V2 _ (by omega) hV2' hF2
      refine ⟨F', hF', fun Q hQ f hf => ?_⟩
      obtain ⟨f', e, hf'⟩ := hrun Q hQ (square2 (doLine V1 p' Q (doTangent V Q f))) (by
        rw [alg_square2, doLine_eq _ _ _ hQ, doTangent_eq _ _ hQ, hf])
      refine ⟨f', ?_, hf'⟩
      rw [a1Loop, hd]
      dsimp only
      rw [hb, if_pos rfl, ha]
      exact e

theorem a1Start_shift (h3 : 3 ≤ r) : r >>> (a1Start r + 1) = 1 := by
  have hb := bits_ge r (by omega)
  have h0 : r ≠ 0 := by omega
  have hs : Gen.bits r = Nat.size r := by rw [Gen.bits, if_neg h0]
  have e : a1Start r + 1 = Nat.size r - 1 := by
    unfold a1Start; dsimp only
    rw [hs] at hb ⊢
    split_ifs <;> omega
  rw [e, Nat.shiftRight_eq_div_pow]
  have h1 : r < 2 ^ (Nat.size r - 1) * 2 := by
    rw [← pow_succ, Nat.sub_add_cancel (by omega)]; exact Nat.lt_size_self r
  have h2 : 2 ^ (Nat.size r - 1) ≤ r := by
    exact Nat.lt_size.1 (by omega)
  exact Nat.div_eq_of_lt_le (by simpa using h2) (by rw [mul_comm] at h1; simpa using h1)

theorem a1Miller_spec (h2 : (2 : K) ≠ 0) (h3 : 3 ≤ r) (hodd : Odd r) (hP0 : P ≠ 0) (hr0 : r • P = 0)
    (hc : Chain r P) {p' : Pt K} (hp : PtRep p' P) :
    ∃ F : Place (L2 K) (1 : K) 0 → L2 K, Full P r F ∧
      ∀ Q (hQ : Good Q), ∃ f, a1Miller r p' Q = some f ∧ alg (-1) f = F (pl Q hQ) := by
  have hs := a1Start_shift h3
  obtain ⟨F, hF, hrun⟩ := a1Loop_spec h2 hP0 hc hp (a1Start r) (copy p') (fun _ => 1)
    (by rw [hs]) (by rw [hs]; simpa using copy_rep hp) (by rw [hs]; simpa using Mil.one)
  refine ⟨F, hF.full_pred hr0 ?_, fun Q hQ => hrun Q hQ one2 (by rw [alg_one2]; simp)⟩
  obtain ⟨m, rfl⟩ := hodd
  rw [Nat.shiftRight_one]; omega

theorem a1ProjLoop_spec (h2 : (2 : K) ≠ 0) (hP0 : P ≠ 0) (hc : Chain r P) {p' : Pt K}
    (hp : PtRep p' P) :
    ∀ (m : ℕ) (V : Jac K) (F : Place (L2 K) (1 : K) 0 → L2 K), 1 ≤ r >>> (m + 1) →
      JPt V (((r >>> (m + 1) : ℕ) : ℤ) • P) → Mil (L2 K) P ((r >>> (m + 1) : ℕ) : ℤ) F →
      ∃ F', Mil (L2 K) P ((2 * (r >>> 1) : ℕ) : ℤ) F' ∧
        ∀ Q (hQ : Good Q) f, alg (-1) f = F (pl Q hQ) ^ 2 →
          alg (-1) (a1ProjLoop r p' Q m V f) = F' (pl Q hQ)
  | 0, V, F, h1, hV, hF => by
    have hn := (hc 1 (le_refl 1) h1).1
    have hF1 := jstep_dbl h2 (n := ((r >>> (0 + 1) : ℕ) : ℤ)) (by
      rw [← natCast_zsmul] at hn; exact_mod_cast hn) hV hF
    refine ⟨_, by exact_mod_cast hF1, fun Q hQ f hf => ?_⟩
    rw [a1ProjLoop, doTangentProj_eq _ _ hQ, hf]
  | m + 1, V, F, h1, hV, hF => by
    have e2 : ((2 * (r >>> (m + 1 + 1)) : ℕ) : ℤ) = 2 * ((r >>> (m + 1 + 1) : ℕ) : ℤ) := by push_cast; ring
    obtain ⟨hn, hadd⟩ := hc (m + 1 + 1) (by omega) h1
    rw [← natCast_zsmul] at hn hadd
    have hF1 := jstep_dbl h2 (by rw [← e2]; exact hn) hV hF
    rw [← e2] at hF1
    have hV1 := jpt_dbl h2 hV (by rw [← mul_smul, ← e2]; exact hn)
    rw [← mul_smul, ← e2] at hV1
    have hsh := shift_step r m
    rcases hb : r.testBit (m + 1) with _ | _
    · rw [hb, Bool.toNat_false, add_zero] at hsh
      rw [← hsh] at hV1 hF1
      obtain ⟨F', hF', hrun⟩ := a1ProjLoop_spec h2 hP0 hc hp m _ _ (by omega) hV1 hF1
      refine ⟨F', hF', fun Q hQ f hf => ?_⟩
      rw [a1ProjLoop]
      dsimp only
      rw [hb, if_neg (by decide)]
      exact hrun Q hQ (square2 (doTangentProj V Q f)) (by
        rw [alg_square2, doTangentProj_eq _ _ hQ, hf])
    · obtain ⟨ha1, ha2⟩ := hadd (by omega) (by simpa using hb)
      have hF2 := jstep_add hP0 ha1 ha2 hV1 hp hF1
      have hV2 := jpt_add hV1 hp hP0 ha1 ha2
      rw [hb, Bool.toNat_true] at hsh
      have e3 : ((2 * (r >>> (m + 1 + 1)) : ℕ) : ℤ) + 1 = ((r >>> (m + 1) : ℕ) : ℤ) := by
        rw [hsh]; push_cast; ring
      have e4 : ((2 * (r >>> (m + 1 + 1)) : ℕ) : ℤ) • P + P = ((r >>> (m + 1) : ℕ) : ℤ) • P := by
        rw [← e3, add_smul, one_smul]
      rw [e3] at hF2
      rw [e4] at hV2
      obtain ⟨F', hF', hrun⟩ := a1ProjLoop_spec h2 hP0 hc hp m _ _ (by omega) hV2 hF2
      refine ⟨F', hF', fun Q hQ f hf => ?_⟩
      rw [a1ProjLoop]
      dsimp only
      rw [hb, if_pos rfl]
      exact hrun Q hQ (square2 (doLineProj _ p' Q (doTangentProj V Q f))) (by
        rw [alg_square2, doLineProj_eq _ _ _ hQ, doTangentProj_eq _ _ hQ, hf])

theorem a1ProjMiller_spec (h2 : (2 : K) ≠ 0) (h3 : 3 ≤ r) (hodd : Odd r) (hP0 : P ≠ 0)
    (hr0 : r • P = 0) (hc : Chain r P) {p' : Pt K} (hp : PtRep p' P) :
    ∃ F : Place (L2 K) (1 : K) 0 → L2 K, Full P r F ∧
      ∀ Q (hQ : Good Q), alg (-1) (a1ProjMiller r p' Q) = F (pl Q hQ) := by
  have hs := a1Start_shift h3
  obtain ⟨F, hF, hrun⟩ := a1ProjLoop_spec h2 hP0 hc hp (a1Start r)
    ⟨(copy p').inf, (copy p').x, (copy p').y, 1, 1⟩ (fun _ => 1)
    (by rw [hs]) (by rw [hs]; simpa using jpt_of (copy_rep hp) hP0) (by rw [hs]; simpa using Mil.one)
  refine ⟨F, hF.full_pred hr0 ?_, fun Q hQ => hrun Q hQ one2 (by rw [alg_one2]; simp)⟩
  obtain ⟨m, rfl⟩ := hodd
  rw [Nat.shiftRight_one]; omega

/-! ### Final powering -/

section exp

variable [Fintype K]

theorem pow_q_sub {f : El K} (hf : alg (-1) f ≠ 0) {t : El K} (ht : alg (-1) t = (alg (-1) f)⁻¹) :
    alg (-1) (mul2 ⟨f.x, -f.y⟩ t) = alg (-1) f ^ (Fintype.card K - 1) := by
  rw [alg_mul2, ht, ← frob (v := (-1 : K)) f.x f.y]
  have : Fintype.card K = Fintype.card K - 1 + 1 := (Nat.sub_add_cancel Fintype.card_pos).symm
  conv_lhs => rw [this, pow_succ]
  rw [mul_assoc]
  change alg (-1) f ^ _ * (alg (-1) f * (alg (-1) f)⁻¹) = _
  rw [mul_inv_cancel₀ hf, mul_one]

theorem nrm_pow {f g : El K} (hf : alg (-1) f ≠ 0)
    (hg : alg (-1) g = alg (-1) f ^ (Fintype.card K - 1)) : nrm (-1) g = 1 := by
  have h := pow_card_add (alg (-1) g)
  have h' := pow_card_sq _ hf
  rw [hg, ← pow_mul, mul_comm (Fintype.card K - 1), h', ← hg] at h
  have h1 : algebraMap K (L2 K) 1 = algebraMap K (L2 K) (nrm (-1) g) := by rw [map_one]; exact h
  exact ((algebraMap K (L2 K)).injective h1).symm

theorem tateexp_eq {inv : K → K} (hinv : ∀ x, x ≠ 0 → inv x = x⁻¹) {f : El K} (hf : alg (-1) f ≠ 0)
    {c : ℕ} (hc : Even c) : ∃ g, tateexp inv f c = some g ∧
      alg (-1) g = alg (-1) f ^ ((Fintype.card K - 1) * c) := by
  obtain ⟨t, e, ht⟩ := alg_invert2 hf
  have h1 := pow_q_sub hf ht
  refine ⟨_, by unfold tateexp; rw [e], ?_⟩
  rw [lucasOdd_eq (two_ne' (-1 : K)) hinv _ (nrm_pow hf h1), h1, ← pow_mul,
    Nat.two_mul_div_two_of_even hc]

theorem a1exp_eq {f : El K} (hf : alg (-1) f ≠ 0) (c : ℕ) : ∃ g, a1exp f c = some g ∧
      alg (-1) g = alg (-1) f ^ ((Fintype.card K - 1) * c) := by
  obtain ⟨t, e, ht⟩ := alg_invert2 hf
  have h1 := pow_q_sub hf ht
  obtain ⟨g, eg, hg⟩ := alg_pow2 (mul2 ⟨f.x, -f.y⟩ t) c
  refine ⟨g, by unfold a1exp; rw [e]; exact eg, ?_⟩
  rw [hg, h1, ← pow_mul]

theorem h_even {h r : ℕ} (hq : Fintype.card K + 1 = h * r) (hr : Odd r) : Even h := by
  have := card_odd (-1 : K)
  by_contra hh
  rw [Nat.not_even_iff_odd] at hh
  have := hh.mul hr
  rw [← hq] at this
  obtain ⟨m, hm⟩ := this
  omega

end exp

end Pbc.PairingA
