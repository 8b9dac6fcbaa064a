import Verif.Model.PairingE
import Verif.Lemmas.TateK
import Verif.Lemmas.PairingA

/-! # The Miller loops of type E -/

set_option autoImplicit false
set_option linter.unusedSectionVars false

namespace Pbc.PairingE

open Pbc.Curve (Pt dblX dblY)
open Pbc.PairingA (Abc copy neg ValidA two_pow_ne order_prime)
open WeierstrassCurve WeierstrassCurve.Affine
open Spec (EC PtRep)
open Tate (IsLine isLine_dbl isLine_ch x_ne_of y_ne_of rep_some)
open TateK

variable {K : Type*} [Field K] [DecidableEq K] {a b : K} {H : AddSubgroup (EC a b).Point}
  {P : (EC a b).Point} {N D : Off H} {num denom : Pt K}

/-- The accumulators hold the ratio of a Miller function at two points. -/
def Inv (N D : Off H) (P : (EC a b).Point) (n : ℤ) (e : Acc K) : Prop :=
  ∃ f, MilK H P n f ∧ e.v ≠ 0 ∧ e.vd ≠ 0 ∧ e.v * f D = e.vd * f N

/-- The stored point has the coordinates of `N`. -/
def At (num : Pt K) (N : Off H) : Prop := num.x = N.x ∧ num.y = N.y

theorem Inv.one : Inv N D P 1 (Acc.one : Acc K) :=
  ⟨_, MilK.one, one_ne_zero, one_ne_zero, rfl⟩

/-- One addition. -/
theorem Inv.step (hN : At num N) (hD : At denom D) (hP : P ∈ H) {n m : ℤ} {e e1 : Acc K}
    (he : Inv N D P n e) (he1 : Inv N D P m e1) {l : Abc K}
    (hl : IsLine a b l.a l.b l.c (n • P) (m • P)) {x y : K} {hn : (EC a b).Nonsingular x y}
    (hs : n • P + m • P = .some x y hn) {z2 Ax : K} (hz : z2 ≠ 0) (hA : Ax = x * z2) :
    Inv N D P (n + m)
      (((⟨e.v * e1.v, e.vd * e1.vd⟩ : Acc K).line l num denom).vertInv num denom z2 Ax) := by
  obtain ⟨f, hf, v0, d0, h⟩ := he
  obtain ⟨g, hg, v1, d1, h1⟩ := he1
  have hnm : n • P + m • P ∈ H := H.add_mem (H.zsmul_mem hP n) (H.zsmul_mem hP m)
  have vN := vval_ne hnm N
  have vD := vval_ne hnm D
  have lN := line_ne hl (H.zsmul_mem hP n) (H.zsmul_mem hP m) N
  have lD := line_ne hl (H.zsmul_mem hP n) (H.zsmul_mem hP m) D
  have eN : num.x * z2 - Ax = vval (n • P + m • P) N * z2 := by
    rw [hs, vval_some, hA, hN.1]; ring
  have eD : denom.x * z2 - Ax = vval (n • P + m • P) D * z2 := by
    rw [hs, vval_some, hA, hD.1]; ring
  have kN : l.a * num.x + l.b * num.y + l.c = lvalK l.a l.b l.c N := by rw [lvalK, hN.1, hN.2]
  have kD : l.a * denom.x + l.b * denom.y + l.c = lvalK l.a l.b l.c D := by rw [lvalK, hD.1, hD.2]
  refine ⟨_, MilK.add hf hg hl, ?_, ?_, ?_⟩ <;>
    simp only [Acc.line, Acc.vertInv, Acc.vert, Acc.swap, eN, eD, kN, kD]
  · exact mul_ne_zero (mul_ne_zero (mul_ne_zero v0 v1) lN) (mul_ne_zero vD hz)
  · exact mul_ne_zero (mul_ne_zero (mul_ne_zero d0 d1) lD) (mul_ne_zero vN hz)
  · field_simp
    linear_combination (g D * e1.v) * h + (e.vd * f N) * h1

/-- The negative multiple. -/
theorem Inv.neg (hN : At num N) (hD : At denom D) (hP : P ∈ H) {n : ℤ} {e : Acc K}
    (he : Inv N D P n e) {x y : K} {hn : (EC a b).Nonsingular x y} (hs : n • P = .some x y hn) :
    Inv N D P (-n) (e.swap.vertInv num denom 1 x) := by
  obtain ⟨f, hf, v0, d0, h⟩ := he
  have hm := H.zsmul_mem hP n
  have vN := vval_ne hm N
  have vD := vval_ne hm D
  have eN : num.x * 1 - x = vval (n • P) N := by rw [hs, vval_some, hN.1]; ring
  have eD : denom.x * 1 - x = vval (n • P) D := by rw [hs, vval_some, hD.1]; ring
  have fN := (hf.hasDiv hP).ne_zero N
  have fD := (hf.hasDiv hP).ne_zero D
  refine ⟨_, MilK.neg hf, ?_, ?_, ?_⟩ <;> simp only [Acc.vertInv, Acc.vert, Acc.swap, eN, eD]
  · exact mul_ne_zero d0 vD
  · exact mul_ne_zero v0 vN
  · field_simp
    linear_combination -h

/-! ### Points -/

theorem dbl_rep (h2 : (2 : K) ≠ 0) {V : Pt K} {R : (EC a b).Point} (h : PtRep V R) :
    ∃ V', PairingD.dbl a V = some V' ∧ PtRep V' (2 • R) := by
  obtain ⟨m', e, h', _⟩ := Curve.double_rep h2 (m := fun _ => V) (a := 0) h 0
  exact ⟨m' 0, by rw [PairingD.dbl, e]; rfl, h'⟩

theorem add_rep (h2 : (2 : K) ≠ 0) {V P : Pt K} {R S : (EC a b).Point} (h : PtRep V R)
    (hS : PtRep P S) : ∃ V', PairingD.add a V P = some V' ∧ PtRep V' (R + S) := by
  obtain ⟨m', e, h', _⟩ := Curve.add_rep h2 (m := fun i => if i = 0 then V else P) (a := 0) (b := 1)
    (by simpa using h) (by simpa using hS) 0
  exact ⟨m' 0, by rw [PairingD.add, e]; rfl, h'⟩

theorem copy_rep {V : Pt K} {R : (EC a b).Point} (h : PtRep V R) : PtRep (copy V) R :=
  (Curve.set_rep (m := fun i => if i = 0 then Curve.fresh else V) (a := 1) (by simpa using h) 0).1

theorem neg_rep {V : Pt K} {R : (EC a b).Point} (h : PtRep V R) : PtRep (neg V) (-R) :=
  (Curve.invert_rep (m := fun i => if i = 0 then Curve.fresh else V) (a := 1) (by simpa using h) 0).1

/-! ### Affine loop -/

theorem sq_eq (e : Acc K) : e.sq = ⟨e.v * e.v, e.vd * e.vd⟩ := by
  simp only [Acc.sq, pow_two]

theorem tangent_isLine (h2 : (2 : K) ≠ 0) {x y : K} (h : (EC a b).Nonsingular x y) (hy : y ≠ 0) :
    IsLine a b (PairingD.tangent a x y).a (PairingD.tangent a x y).b (PairingD.tangent a x y).c
      (.some x y h) (.some x y h) := by
  refine isLine_dbl h2 h hy (c := 1) one_ne_zero ?_ ?_ ?_ <;>
    simp only [PairingD.tangent, Int.cast_ofNat] <;> ring

theorem affineLoop_spec (h2 : (2 : K) ≠ 0) (hN : At num N) (hD : At denom D) (hP : P ∈ H)
    (hne : ∀ n : ℕ, ((2 ^ n : ℕ) : ℤ) • P ≠ 0) :
    ∀ (n i : ℕ) (Z : Pt K) (e : Acc K), PtRep Z (((2 ^ i : ℕ) : ℤ) • P) →
      Inv N D P ((2 ^ i : ℕ) : ℤ) e → ∃ Z' e', affineLoop a num denom n Z e = some (Z', e') ∧
        PtRep Z' (((2 ^ (i + n) : ℕ) : ℤ) • P) ∧ Inv N D P ((2 ^ (i + n) : ℕ) : ℤ) e'
  | 0, i, Z, e, hZ, he => ⟨Z, e, rfl, hZ, he⟩
  | n + 1, i, Z, e, hZ, he => by
    obtain ⟨hns, hR, _⟩ := rep_some hZ (hne i)
    have e2 : ((2 ^ (i + 1) : ℕ) : ℤ) • P = ((2 ^ i : ℕ) : ℤ) • P + ((2 ^ i : ℕ) : ℤ) • P := by
      rw [← add_smul]; congr 1; push_cast; ring
    have hy := y_ne_of hns (by rw [← hR, two_nsmul, ← e2]; exact hne (i + 1))
    have hl := tangent_isLine h2 hns hy
    rw [← hR] at hl
    obtain ⟨Z', ez, hZ'⟩ := dbl_rep h2 hZ
    rw [two_nsmul, ← e2] at hZ'
    obtain ⟨hns', hR', _⟩ := rep_some hZ' (hne (i + 1))
    have hinv := Inv.step hN hD hP he he hl (e2.symm.trans hR') one_ne_zero (mul_one _).symm
    rw [← sq_eq, show ((2 ^ i : ℕ) : ℤ) + ((2 ^ i : ℕ) : ℤ) = ((2 ^ (i + 1) : ℕ) : ℤ) by
      push_cast; ring] at hinv
    obtain ⟨Z'', e'', h1, h3, h4⟩ := affineLoop_spec h2 hN hD hP hne n (i + 1) Z' _ hZ' hinv
    refine ⟨Z'', e'', ?_, ?_, ?_⟩
    · rw [affineLoop, ez]; exact h1
    · rwa [show i + (n + 1) = i + 1 + n by ring]
    · rwa [show i + (n + 1) = i + 1 + n by ring]

/-! ### Projective loop -/

/-- `(X, Y, Z)` stands for the plane point `(X/Z², Y/Z³)`. -/
structure JRep (V : Proj K) (x y : K) : Prop where
  z : V.z ≠ 0
  z2 : V.z2 = V.z ^ 2
  x : V.x = x * V.z ^ 2
  y : V.y = y * V.z ^ 3

theorem projDouble_rep (h2 : (2 : K) ≠ 0) {V : Proj K} {x y : K} (h : JRep V x y) (hy : y ≠ 0) :
    JRep (projDouble a V) (dblX a x y) (dblY a x y) := by
  have hz := h.z
  have hd : 2 * y ≠ 0 := mul_ne_zero h2 hy
  refine ⟨?_, rfl, ?_, ?_⟩
  · simp only [projDouble, h.y]
    exact mul_ne_zero h2 (mul_ne_zero (mul_ne_zero hy (pow_ne_zero 3 hz)) hz)
  · simp only [projDouble, h.y, h.x, h.z2, dblX]
    field_simp
    ring
  · simp only [projDouble, h.y, h.x, h.z2, dblX, dblY]
    field_simp
    ring

theorem toAffine_rep {V : Proj K} {x y : K} (h : JRep V x y) : toAffine V = some ⟨false, x, y⟩ := by
  have hz := h.z
  unfold toAffine
  rw [Curve.inv_ne hz]
  simp only [h.x, h.y]
  congr 2 <;> field_simp

theorem JRep.one {x y : K} : JRep (⟨x, y, 1, 1⟩ : Proj K) x y :=
  ⟨one_ne_zero, by simp, by simp, by simp⟩

theorem tangentProj_isLine (h2 : (2 : K) ≠ 0) {V : Proj K} {x y : K} (hV : JRep V x y)
    (h : (EC a b).Nonsingular x y) (hy : y ≠ 0) :
    IsLine a b (tangentProj a V).a (tangentProj a V).b (tangentProj a V).c
      (.some x y h) (.some x y h) := by
  refine isLine_dbl h2 h hy (c := V.z ^ 6) (pow_ne_zero 6 hV.z) ?_ ?_ ?_ <;>
    simp only [tangentProj, hV.x, hV.y, hV.z2] <;> ring

theorem projLoop_spec (h2 : (2 : K) ≠ 0) (hN : At num N) (hD : At denom D) (hP : P ∈ H)
    (hne : ∀ n : ℕ, ((2 ^ n : ℕ) : ℤ) • P ≠ 0) :
    ∀ (n i : ℕ) (Z : Proj K) (e : Acc K) {x y : K} (hn : (EC a b).Nonsingular x y),
      ((2 ^ i : ℕ) : ℤ) • P = .some x y hn → JRep Z x y → Inv N D P ((2 ^ i : ℕ) : ℤ) e →
      ∃ x' y', ∃ hn' : (EC a b).Nonsingular x' y', ((2 ^ (i + n) : ℕ) : ℤ) • P = .some x' y' hn' ∧
        JRep (projLoop a num denom n Z e).1 x' y' ∧
        Inv N D P ((2 ^ (i + n) : ℕ) : ℤ) (projLoop a num denom n Z e).2
  | 0, i, Z, e, x, y, hn, hR, hZ, he => ⟨x, y, hn, hR, hZ, he⟩
  | n + 1, i, Z, e, x, y, hns, hR, hZ, he => by
    have e2 : ((2 ^ (i + 1) : ℕ) : ℤ) • P = ((2 ^ i : ℕ) : ℤ) • P + ((2 ^ i : ℕ) : ℤ) • P := by
      rw [← add_smul]; congr 1; push_cast; ring
    have hy := y_ne_of hns (by rw [← hR, two_nsmul, ← e2]; exact hne (i + 1))
    have hl := tangentProj_isLine h2 hZ hns hy
    rw [← hR] at hl
    have hZ' := projDouble_rep (a := a) h2 hZ hy
    have hd := Curve.dbl_some (ca := a) (cb := b) h2 hns hy
    rw [← hR, ← e2] at hd
    obtain ⟨hns', hR', _⟩ := rep_some hd (hne (i + 1))
    rw [e2] at hR'
    have hinv := Inv.step hN hD hP he he hl hR' (z2 := (projDouble a Z).z2)
      (by rw [hZ'.z2]; exact pow_ne_zero 2 hZ'.z) (Ax := (projDouble a Z).x)
      (by rw [hZ'.x, hZ'.z2])
    rw [← sq_eq, show ((2 ^ i : ℕ) : ℤ) + ((2 ^ i : ℕ) : ℤ) = ((2 ^ (i + 1) : ℕ) : ℤ) by
      push_cast; ring] at hinv
    obtain ⟨x', y', hn', h1, h3, h4⟩ := projLoop_spec h2 hN hD hP hne n (i + 1) _ _ hns' (e2.trans hR')
      hZ' hinv
    rw [show i + (n + 1) = i + 1 + n by ring]
    exact ⟨x', y', hn', h1, h3, h4⟩

/-! ### The end -/

/-- The parameters of a type E pairing. -/
structure ValidE (p : Data K) (r : ℕ) : Prop where
  pos : 1 ≤ p.exp1
  lt : p.exp1 < p.exp2
  s1 : p.sign1 = 1 ∨ p.sign1 = -1
  s0 : p.sign0 = 1 ∨ p.sign0 = -1
  hr : (r : ℤ) = 2 ^ p.exp2 + p.sign1 * 2 ^ p.exp1 + p.sign0
  big : 5 < r

variable {p : Data K} {r : ℕ}

theorem ValidE.validA (h : ValidE p r) : ValidA ⟨p.exp2, p.exp1, p.sign1, 0⟩ r where
  pos := h.pos
  lt := h.lt
  s1 := h.s1
  hr := by
    rcases h.s0 with e | e
    · left; have := h.hr; dsimp only; omega
    · right; have := h.hr; dsimp only; omega
  big := h.big

theorem line_isLine {A B : Pt K} (h₁ : (EC a b).Nonsingular A.x A.y) (h₂ : (EC a b).Nonsingular B.x B.y)
    (hx : A.x ≠ B.x) :
    IsLine a b (line A B).a (line A B).b (line A B).c (.some A.x A.y h₁) (.some B.x B.y h₂) := by
  refine isLine_ch h₁ h₂ hx (c := 1) one_ne_zero ?_ ?_ ?_ <;> simp only [line] <;> ring

theorem branch_spec (hN : At num N) (hD : At denom D) (hP : P ∈ H) (h : ValidE p r)
    {Z : Pt K} {e : Acc K} (h0 : ((2 ^ p.exp1 : ℕ) : ℤ) • P ≠ 0)
    (hZ : PtRep Z (((2 ^ p.exp1 : ℕ) : ℤ) • P)) (he : Inv N D P ((2 ^ p.exp1 : ℕ) : ℤ) e) :
    PtRep (branch p num denom Z e).1 ((p.sign1 * (2 ^ p.exp1 : ℕ)) • P) ∧
      Inv N D P (p.sign1 * (2 ^ p.exp1 : ℕ)) (branch p num denom Z e).2 := by
  unfold branch
  rcases h.s1 with hs | hs
  · rw [hs, if_neg (by decide), one_mul]
    exact ⟨copy_rep hZ, he⟩
  · rw [hs, if_pos (by decide), neg_one_mul, neg_smul]
    obtain ⟨hns, hR, _⟩ := rep_some hZ h0
    exact ⟨neg_rep hZ, he.neg hN hD hP hR⟩

theorem finish_spec (h2 : (2 : K) ≠ 0) (ha : p.a = a) (hN : At num N) (hD : At denom D) (hP : P ∈ H)
    (h : ValidE p r) (hord : addOrderOf P = r) {p' : Pt K} (hp : PtRep p' P) {Z Z1 : Pt K} {e e1 : Acc K}
    (hZ : PtRep Z (((2 ^ p.exp2 : ℕ) : ℤ) • P)) (hZ1 : PtRep Z1 ((p.sign1 * (2 ^ p.exp1 : ℕ)) • P))
    (he : Inv N D P ((2 ^ p.exp2 : ℕ) : ℤ) e) (he1 : Inv N D P (p.sign1 * (2 ^ p.exp1 : ℕ)) e1) :
    ∃ f, FullK H P r f ∧ finish p p' num denom Z1 e1 Z e = some (f N / f D) := by
  have hr0 : r • P = 0 := hord ▸ addOrderOf_nsmul_eq_zero P
  have hP0 : P ≠ 0 := by
    rintro rfl
    rw [addOrderOf_zero] at hord
    have := h.big; omega
  have hodd := h.validA.odd
  have hn := two_pow_ne hodd hP0 hr0 p.exp2
  have hn1 : (p.sign1 * (2 ^ p.exp1 : ℕ)) • P ≠ 0 := by
    have := two_pow_ne hodd hP0 hr0 p.exp1
    rcases h.s1 with h1 | h1 <;> rw [h1]
    · rwa [one_mul]
    · rw [neg_one_mul, neg_smul]; exact neg_ne_zero.2 this
  obtain ⟨hl1, hl2⟩ := h.validA.last hord
  dsimp only at hl1 hl2
  obtain ⟨hns, hR, _⟩ := rep_some hZ hn
  obtain ⟨hns', hR', _⟩ := rep_some hZ1 hn1
  have hx := x_ne_of hns hns' (by rw [← hR, ← hR']; exact hl1) (by rw [← hR, ← hR']; exact hl2)
  have hli := line_isLine hns hns' hx
  rw [← hR, ← hR'] at hli
  obtain ⟨Z2, ez, hZ2⟩ := add_rep h2 hZ hZ1
  have hs0 : ((2 ^ p.exp2 : ℕ) : ℤ) • P + (p.sign1 * (2 ^ p.exp1 : ℕ)) • P ≠ 0 := fun e =>
    hl2 (eq_neg_of_add_eq_zero_left e)
  obtain ⟨hns2, hR2, _⟩ := rep_some hZ2 hs0
  have hinv := Inv.step hN hD hP he he1 hli hR2 one_ne_zero (mul_one _).symm
  obtain ⟨hnp, hRp, _⟩ := rep_some hp hP0
  unfold finish
  rw [ha, ez]
  dsimp only
  generalize Acc.vertInv num denom 1 Z2.x _ = e' at hinv ⊢
  obtain ⟨f, hf, v0, d0, heq⟩ := hinv
  have hrr := h.hr
  rcases h.s0 with hs | hs
  · rw [hs] at hrr ⊢
    rw [if_pos (by decide)]
    have hF := hf.full_pred hP hr0 (by rw [hrr]; push_cast; ring)
    have eN : num.x * 1 - p'.x = vval P N := by rw [hRp, vval_some, hN.1]; ring
    have eD : denom.x * 1 - p'.x = vval P D := by rw [hRp, vval_some, hD.1]; ring
    have vN := vval_ne hP N
    have vD := vval_ne hP D
    have fD := (hf.hasDiv hP).ne_zero D
    refine ⟨_, hF, ?_⟩
    simp only [Acc.vert, eN, eD]
    rw [Curve.inv_ne (mul_ne_zero d0 vD)]
    dsimp only
    refine congrArg some ?_
    field_simp
    linear_combination heq
  · rw [hs] at hrr ⊢
    rw [if_neg (by decide)]
    have hF := hf.full_succ hP hr0 (by push_cast; linear_combination -hrr)
    have fD := (hf.hasDiv hP).ne_zero D
    refine ⟨_, hF, ?_⟩
    rw [Curve.inv_ne d0]
    dsimp only
    refine congrArg some ?_
    field_simp
    linear_combination heq

theorem millerAffine_spec (h2 : (2 : K) ≠ 0) (ha : p.a = a) (hN : At num N) (hD : At denom D)
    (hP : P ∈ H) (h : ValidE p r) (hord : addOrderOf P = r) {p' : Pt K} (hp : PtRep p' P) :
    ∃ f, FullK H P r f ∧ millerAffine p p' num denom = some (f N / f D) := by
  have hr0 : r • P = 0 := hord ▸ addOrderOf_nsmul_eq_zero P
  have hP0 : P ≠ 0 := by
    rintro rfl
    rw [addOrderOf_zero] at hord
    have := h.big; omega
  have hne := two_pow_ne h.validA.odd hP0 hr0
  obtain ⟨Z, e, h1, hZ, he⟩ := affineLoop_spec h2 hN hD hP hne p.exp1 0 (copy p') Acc.one
    (by simpa using copy_rep hp) (by simpa using Inv.one)
  rw [zero_add] at hZ he
  obtain ⟨Z', e', h1', hZ', he'⟩ := affineLoop_spec h2 hN hD hP hne (p.exp2 - p.exp1) p.exp1 Z e hZ he
  rw [Nat.add_sub_cancel' h.lt.le] at hZ' he'
  obtain ⟨b1, b2⟩ := branch_spec hN hD hP h (hne _) hZ he
  obtain ⟨f, hf, hfin⟩ := finish_spec h2 ha hN hD hP h hord hp hZ' b1 he' b2
  refine ⟨f, hf, ?_⟩
  unfold millerAffine
  rw [ha, h1]
  dsimp only
  rw [h1']
  exact hfin

theorem millerProj_spec (h2 : (2 : K) ≠ 0) (ha : p.a = a) (hN : At num N) (hD : At denom D)
    (hP : P ∈ H) (h : ValidE p r) (hord : addOrderOf P = r) {p' : Pt K} (hp : PtRep p' P) :
    ∃ f, FullK H P r f ∧ millerProj p p' num denom = some (f N / f D) := by
  have hr0 : r • P = 0 := hord ▸ addOrderOf_nsmul_eq_zero P
  have hP0 : P ≠ 0 := by
    rintro rfl
    rw [addOrderOf_zero] at hord
    have := h.big; omega
  have hne := two_pow_ne h.validA.odd hP0 hr0
  obtain ⟨hn0, hR0, _⟩ := rep_some (copy_rep hp) hP0
  obtain ⟨x, y, hn, hR, hZ, he⟩ := projLoop_spec h2 hN hD hP hne p.exp1 0
    ⟨(copy p').x, (copy p').y, 1, 1⟩ Acc.one hn0 (by simpa using hR0) JRep.one (by simpa using Inv.one)
  rw [zero_add] at hR he
  have hrep : PtRep (⟨false, x, y⟩ : Pt K) (((2 ^ p.exp1 : ℕ) : ℤ) • P) := by
    rw [hR]; exact ⟨rfl, rfl, rfl⟩
  obtain ⟨b1, b2⟩ := branch_spec hN hD hP h (hne _) hrep he
  obtain ⟨x', y', hn', hR', hZ', he'⟩ := projLoop_spec h2 hN hD hP hne (p.exp2 - p.exp1) p.exp1
    ⟨x, y, 1, 1⟩ _ hn hR JRep.one he
  rw [Nat.add_sub_cancel' h.lt.le] at hR' he'
  have hrep' : PtRep (⟨false, x', y'⟩ : Pt K) (((2 ^ p.exp2 : ℕ) : ℤ) • P) := by
    rw [hR']; exact ⟨rfl, rfl, rfl⟩
  obtain ⟨f, hf, hfin⟩ := finish_spec h2 ha hN hD hP h hord hp hrep' b1 he' b2
  refine ⟨f, hf, ?_⟩
  unfold millerProj
  rw [ha]
  dsimp only
  rw [toAffine_rep hZ]
  dsimp only
  rw [toAffine_rep hZ']
  exact hfin

end Pbc.PairingE
