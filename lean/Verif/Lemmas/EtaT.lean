import Verif.Spec.EtaT
import Verif.Lemmas.Curve
import Mathlib.Algebra.CharP.Lemmas

/-! # The group of the type I pairing -/

set_option autoImplicit false
set_option linter.unusedSectionVars false

namespace Pbc.EtaT

open Spec
open Pbc.Curve (Pt Mem wInf wX wY fresh wInf_self wInf_ne inv_ne wInf_x wInf_y wX_y wYX wInfYX negY_EC rep_congr neg_rep
  dblX dblY chX chY dbl_some ch_some)
open Pbc.Quad (inv?)

variable {F : Type*} [Field F] [DecidableEq F]

theorem set_eq (m : Mem F) (e a : ℕ) : set m e a = Curve.set m e a := by
  unfold set Curve.set
  cases h : (m a).inf <;> simp

theorem setFrom_eq (m : Mem F) (e : ℕ) (p : Pt F) : setFrom m e p = Curve.setFrom m e p := by
  unfold setFrom Curve.setFrom
  cases h : p.inf <;> simp

theorem invert_eq (m : Mem F) (e a : ℕ) : invert m e a = Curve.invert m e a := by
  unfold invert Curve.invert
  cases h : (m a).inf <;> simp

variable [CharP F 3]

omit [DecidableEq F] in
theorem three : (3 : F) = 0 := by exact_mod_cast CharP.cast_eq_zero F 3

theorem two_ne : (2 : F) ≠ 0 := by
  intro h
  have h3 := three (F := F)
  exact one_ne_zero (α := F) (by linear_combination h3 - h)

theorem addSame_eq (m : Mem F) (c a : ℕ) (hy : (m a).y ≠ 0) :
    addSame m c a = some (Function.update m c ⟨false, dblX (-1) (m a).x (m a).y, dblY (-1) (m a).x (m a).y⟩) := by
  have h3 := three (F := F)
  have h2 : (2 : F) = -1 := by linear_combination h3
  unfold addSame
  rw [inv_ne hy]
  simp only [wX_y, wInfYX]
  congr 3
  · simp only [dblX, h3, h2]
    rw [mul_zero, zero_add, neg_one_mul (m a).y, inv_neg]
    ring
  · simp only [dblY, dblX, h3, h2]
    rw [mul_zero, zero_add, neg_one_mul (m a).y, inv_neg]
    ring

theorem addDiff_eq (m : Mem F) (c a b : ℕ) (hx : (m a).x ≠ (m b).x) :
    addDiff m c a b = some (Function.update m c ⟨false, chX (m a).x (m a).y (m b).x (m b).y,
      chY (m a).x (m a).y (m b).x (m b).y⟩) := by
  have h3 := three (F := F)
  have hd := sub_ne_zero.2 (Ne.symm hx)
  unfold addDiff
  simp only [inv_ne hd, wYX]
  congr 3
  · simp only [chX]; ring
  · simp only [chY, chX]
    have e : ((m b).x - (m a).x) * ((m b).x - (m a).x)⁻¹ = 1 := mul_inv_cancel₀ hd
    linear_combination (-((m b).y - (m a).y)) * e +
      ((m a).y - (m a).x * (((m b).y - (m a).y) * ((m b).x - (m a).x)⁻¹)) * h3

local notation "E" => EC (-1 : F) 1

theorem add_rep {m : Mem F} {a b : ℕ} {P Q : (E).Point}
    (hP : PtRep (m a) P) (hQ : PtRep (m b) Q) (c : ℕ) :
    ∃ m', add m c a b = some m' ∧ PtRep (m' c) (P + Q) ∧ ∀ i, i ≠ c → m' i = m i := by
  unfold add
  rcases P with _ | ⟨x1, y1, hn1⟩
  · have h : (m a).inf = true := hP
    rw [if_pos h, set_eq]
    refine ⟨_, rfl, ?_⟩
    have : WeierstrassCurve.Affine.Point.zero + Q = Q := zero_add Q
    rw [this]
    exact Curve.set_rep hQ c
  rcases Q with _ | ⟨x2, y2, hn2⟩
  · have h : (m b).inf = true := hQ
    rw [if_neg (by rw [hP.1]; decide), if_pos h, set_eq]
    refine ⟨_, rfl, ?_⟩
    have : WeierstrassCurve.Affine.Point.some x1 y1 hn1 + WeierstrassCurve.Affine.Point.zero
          = WeierstrassCurve.Affine.Point.some x1 y1 hn1 := add_zero _
    rw [this]
    exact Curve.set_rep hP c
  rw [if_neg (by rw [hP.1]; decide), if_neg (by rw [hQ.1]; decide)]
  obtain ⟨h1, hx1, hy1⟩ : (m a).inf = false ∧ (m a).x = x1 ∧ (m a).y = y1 := hP
  obtain ⟨h1', hx2, hy2⟩ : (m b).inf = false ∧ (m b).x = x2 ∧ (m b).y = y2 := hQ
  by_cases hx : x1 = x2
  · rw [if_pos (by rw [hx1, hx2, hx])]
    subst hx
    dsimp only
    by_cases hy : y1 = -y2
    · rw [if_pos (by rw [hy1, hy2, hy])]
      refine ⟨_, rfl, ?_, fun i hi => wInf_ne _ _ _ hi⟩
      rw [WeierstrassCurve.Affine.Point.add_of_Y_eq rfl (by rw [negY_EC, hy])]
      exact wInf_self m c true
    · rw [if_neg (by rw [hy1, hy2]; exact hy)]
      have h := (WeierstrassCurve.Affine.Y_eq_of_X_eq hn1.1 hn2.1 rfl).resolve_right (by rwa [negY_EC])
      subst h
      have h0 : y1 ≠ 0 := fun h => hy (by rw [h, neg_zero])
      rw [if_pos (by rw [hy1, hy2]), addSame_eq _ _ _ (by rwa [hy1])]
      refine ⟨_, rfl, ?_, fun i hi => by simp [hi]⟩
      rw [Function.update_self, hx1, hy1]
      exact dbl_some two_ne hn1 h0
  · rw [if_neg (by rw [hx1, hx2]; exact hx), addDiff_eq _ _ _ _ (by rw [hx1, hx2]; exact hx)]
    refine ⟨_, rfl, ?_, fun i hi => by simp [hi]⟩
    rw [Function.update_self, hx1, hy1, hx2, hy2]
    exact ch_some hn1 hn2 hx

theorem addV_rep {p q : Pt F} {P Q : (E).Point} (hP : PtRep p P) (hQ : PtRep q Q) :
    ∃ r, addV p q = some r ∧ PtRep r (P + Q) := by
  obtain ⟨m', e, h, _⟩ := add_rep
    (m := fun i => if i = 1 then p else if i = 2 then q else fresh) (a := 1) (b := 2)
    (P := P) (Q := Q) (by simpa using hP) (by simpa using hQ) 0
  exact ⟨m' 0, by simp only [addV, e, Option.map_some], h⟩

/-- Representation for the power routine. -/
def GRep (g : GPt F) (P : Multiplicative (E).Point) : Prop :=
  ∃ p, g.val = some p ∧ PtRep p P.toAdd

theorem powRel : Gen.PowRel (GRep (F := F)) where
  one := ⟨fresh, rfl, rfl⟩
  mul := by
    rintro a b c d ⟨p, hp, hP⟩ ⟨q, hq, hQ⟩
    obtain ⟨r, e, h⟩ := addV_rep hP hQ
    refine ⟨r, ?_, h⟩
    change a.val.bind (fun p => c.val.bind fun q => addV p q) = some r
    rw [hp, hq]
    exact e
  sqr := by
    rintro a b ⟨p, hp, hP⟩
    obtain ⟨r, e, h⟩ := addV_rep hP hP
    refine ⟨r, ?_, h⟩
    change a.val.bind (fun p => addV p p) = some r
    rw [hp]
    exact e

theorem pow_rep {p : Pt F} {P : (E).Point} (hP : PtRep p P) (n : ℕ) :
    ∃ r, (Gen.powMpz (⟨some p⟩ : GPt F) n).bind (·.val) = some r ∧ PtRep r (n • P) := by
  obtain ⟨g, e, r, hr, h⟩ := Gen.powMpz_rel (powRel (F := F))
    (a := (⟨some p⟩ : GPt F)) (b := Multiplicative.ofAdd P) ⟨p, rfl, hP⟩ n
  exact ⟨r, by rw [e]; exact hr, h⟩

theorem mulMpz_rep {m : Mem F} {a : ℕ} {P : (E).Point} (h : PtRep (m a) P) (c n : ℕ) :
    ∃ m', mulMpz m c a n = some m' ∧ PtRep (m' c) (n • P) ∧ ∀ i, i ≠ c → m' i = m i := by
  obtain ⟨r, e, hr⟩ := pow_rep h n
  refine ⟨setFrom m c r, ?_, by rw [setFrom_eq]; exact Curve.setFrom_rep m hr c⟩
  unfold mulMpz
  rw [e]; rfl

theorem sub_rep {m : Mem F} {t a b : ℕ} {P Q : (E).Point}
    (hP : PtRep (m a) P) (hQ : PtRep (m b) Q) (c : ℕ) (hta : t ≠ a) :
    ∃ m', sub t m c a b = some m' ∧ PtRep (m' c) (P - Q) ∧ ∀ i, i ≠ c → i ≠ t → m' i = m i := by
  unfold sub
  by_cases hca : c = a
  · rw [if_neg (by simpa using hca)]
    obtain ⟨h1, h3⟩ := Curve.invert_rep hQ t
    rw [← invert_eq] at h1
    simp only [← invert_eq] at h3
    obtain ⟨m', e, h4, h5⟩ := add_rep (m := invert m t b) h1
      (by rw [h3 a hta.symm]; exact hP) c
    refine ⟨m', e, by rw [sub_eq_add_neg, add_comm]; exact h4, ?_⟩
    intro i hi hit
    rw [h5 i hi, h3 i hit]
  · rw [if_pos hca]
    obtain ⟨h1, h3⟩ := Curve.invert_rep hQ c
    rw [← invert_eq] at h1
    simp only [← invert_eq] at h3
    obtain ⟨m', e, h4, h5⟩ := add_rep (m := invert m c b) h1
      (by rw [h3 a (Ne.symm hca)]; exact hP) c
    refine ⟨m', e, by rw [sub_eq_add_neg, add_comm]; exact h4, ?_⟩
    intro i hi _
    rw [h5 i hi, h3 i hi]

theorem exec_rep (t : ℕ) (m : Mem F) (s : ℕ → (E).Point)
    (h : ∀ i, i ≠ t → PtRep (m i) (s i)) (o : GroupOp) (ht : t ∉ o.vars) :
    ∃ m', exec t m o = some m' ∧ ∀ i, i ≠ t → PtRep (m' i) (o.step s i) := by
  have fin : ∀ (c : ℕ) (m' : Mem F) (P : (E).Point), PtRep (m' c) P →
      (∀ i, i ≠ c → i ≠ t → m' i = m i) → ∀ i, i ≠ t → PtRep (m' i) (Function.update s c P i) := by
    intro c m' P h1 h3 i hi
    by_cases hc : i = c
    · subst hc; simpa using h1
    · rw [Function.update_of_ne hc, h3 i hc hi]; exact h i hi
  cases o <;> simp only [GroupOp.vars, List.mem_cons, List.not_mem_nil, or_false, not_or] at ht <;>
    simp only [exec, GroupOp.step]
  case set0 c =>
    exact ⟨_, rfl, fin c _ _ (wInf_self m c true) fun i hi _ => wInf_ne _ _ _ hi⟩
  case set c a =>
    obtain ⟨h1, h3⟩ := Curve.set_rep (h a (Ne.symm ht.2)) c
    rw [set_eq]
    exact ⟨_, rfl, fin c _ _ h1 fun i hi _ => h3 i hi⟩
  case add c a b =>
    obtain ⟨m', e, h1, h3⟩ := add_rep (h a (Ne.symm ht.2.1)) (h b (Ne.symm ht.2.2)) c
    exact ⟨_, e, fin c _ _ h1 fun i hi _ => h3 i hi⟩
  case sub c a b =>
    obtain ⟨m', e, h1, h3⟩ := sub_rep (t := t) (h a (Ne.symm ht.2.1)) (h b (Ne.symm ht.2.2)) c ht.2.1
    exact ⟨_, e, fin c _ _ h1 h3⟩
  case neg c a =>
    obtain ⟨h1, h3⟩ := Curve.invert_rep (h a (Ne.symm ht.2)) c
    rw [invert_eq]
    exact ⟨_, rfl, fin c _ _ h1 fun i hi _ => h3 i hi⟩
  case double c a =>
    obtain ⟨m', e, h1, h3⟩ := add_rep (h a (Ne.symm ht.2)) (h a (Ne.symm ht.2)) c
    rw [← two_nsmul] at h1
    exact ⟨_, e, fin c _ _ h1 fun i hi _ => h3 i hi⟩
  case mulMpz c a n =>
    obtain ⟨m', e, h1, h3⟩ := mulMpz_rep (h a (Ne.symm ht.2)) c n
    exact ⟨_, e, fin c _ _ h1 fun i hi _ => h3 i hi⟩

theorem run_rep (t : ℕ) (prog : List GroupOp) (ht : ∀ o ∈ prog, t ∉ o.vars) :
    ∀ (m : Mem F) (s : ℕ → (E).Point), (∀ i, i ≠ t → PtRep (m i) (s i)) →
    ∃ m', run t m prog = some m' ∧ ∀ i, i ≠ t → PtRep (m' i) (groupRun s prog i) := by
  induction prog with
  | nil => intro m s h; exact ⟨m, rfl, h⟩
  | cons o rest ih =>
    intro m s h
    obtain ⟨m1, e1, h1⟩ := exec_rep t m s h o (ht o (by simp))
    obtain ⟨m2, e2, h3⟩ := ih (fun o' ho' => ht o' (by simp [ho'])) m1 (o.step s) h1
    exact ⟨m2, by simp only [run, e1, e2], h3⟩

end Pbc.EtaT
