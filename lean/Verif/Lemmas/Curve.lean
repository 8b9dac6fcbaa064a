import Verif.Spec.Curve
import Verif.Lemmas.PowRel
import Mathlib.Tactic.FieldSimp
import Mathlib.Tactic.LinearCombination

/-! # Lemmas on the curve model -/

set_option linter.unusedSectionVars false

namespace Pbc.Curve

open Spec
open Pbc.Quad (inv?)

variable {K : Type*} [Field K] [DecidableEq K]

theorem wInf_x (m : Mem K) (n : ℕ) (b : Bool) (i : ℕ) : (wInf m n b i).x = (m i).x := by
  unfold wInf; by_cases h : i = n <;> simp [Function.update, h]
theorem wInf_y (m : Mem K) (n : ℕ) (b : Bool) (i : ℕ) : (wInf m n b i).y = (m i).y := by
  unfold wInf; by_cases h : i = n <;> simp [Function.update, h]
theorem wX_y (m : Mem K) (n : ℕ) (v : K) (i : ℕ) : (wX m n v i).y = (m i).y := by
  unfold wX; by_cases h : i = n <;> simp [Function.update, h]
theorem wX_inf (m : Mem K) (n : ℕ) (v : K) (i : ℕ) : (wX m n v i).inf = (m i).inf := by
  unfold wX; by_cases h : i = n <;> simp [Function.update, h]

theorem wYX (m : Mem K) (n : ℕ) (b : Bool) (x y : K) :
    wY (wX (wInf m n b) n x) n y = Function.update m n ⟨b, x, y⟩ := by
  unfold wX wY wInf; simp
theorem wInfYX (m : Mem K) (n : ℕ) (b : Bool) (x y : K) :
    wInf (wY (wX m n x) n y) n b = Function.update m n ⟨b, x, y⟩ := by
  unfold wX wY wInf; simp

theorem wInf_self (m : Mem K) (n : ℕ) (b : Bool) : (wInf m n b n).inf = b := by simp [wInf]
theorem wInf_ne (m : Mem K) (n : ℕ) (b : Bool) {i : ℕ} (h : i ≠ n) : wInf m n b i = m i := by
  simp [wInf, h]

theorem invert_eq (m : Mem K) (c a : ℕ) : invert m c a =
    if (m a).inf then wInf m c true else Function.update m c ⟨false, (m a).x, -(m a).y⟩ := by
  unfold invert
  simp only [wInf_x, wX_y, wInf_y, wYX]

theorem set_eq (m : Mem K) (c a : ℕ) : set m c a =
    if (m a).inf then wInf m c true else Function.update m c ⟨false, (m a).x, (m a).y⟩ := by
  unfold set
  simp only [wInf_x, wX_y, wInf_y, wYX]

theorem setFrom_eq (m : Mem K) (c : ℕ) (p : Pt K) : setFrom m c p =
    if p.inf then wInf m c true else Function.update m c p := by
  unfold setFrom
  cases h : p.inf <;> simp [wYX]
  congr 1
  cases p; simp_all

theorem inv_ne {a : K} (h : a ≠ 0) : inv? a = some a⁻¹ := by simp [inv?, h]

/-- Doubling formula. -/
def dblX (ca x y : K) : K := ((x ^ 2 * 3 + ca) * (2 * y)⁻¹) ^ 2 - 2 * x
/-- Doubling formula. -/
def dblY (ca x y : K) : K := (x - dblX ca x y) * ((x ^ 2 * 3 + ca) * (2 * y)⁻¹) - y
/-- Chord formula. -/
def chX (x1 y1 x2 y2 : K) : K := ((y2 - y1) * (x2 - x1)⁻¹) ^ 2 - x1 - x2
/-- Chord formula. -/
def chY (x1 y1 x2 y2 : K) : K := (x1 - chX x1 y1 x2 y2) * ((y2 - y1) * (x2 - x1)⁻¹) - y1

theorem doubleNoCheck_eq (ca : K) (m : Mem K) (r p : ℕ) (h : 2 * (m p).y ≠ 0) :
    doubleNoCheck ca m r p =
      some (Function.update m r ⟨false, dblX ca (m p).x (m p).y, dblY ca (m p).x (m p).y⟩) := by
  unfold doubleNoCheck
  simp only [inv_ne h, wInfYX, dblX, dblY, Int.cast_ofNat]

theorem double_eq (ca : K) (m : Mem K) (c a : ℕ) (h2 : (2 : K) ≠ 0) :
    double ca m c a = some (if (m a).inf then wInf m c true
      else if (m a).y = 0 then wInf m c true
      else Function.update m c ⟨false, dblX ca (m a).x (m a).y, dblY ca (m a).x (m a).y⟩) := by
  unfold double
  split_ifs with h h'
  · rfl
  · rfl
  · exact doubleNoCheck_eq ca m c a (mul_ne_zero h2 h')

theorem add_eq (ca : K) (m : Mem K) (c a b : ℕ) (h2 : (2 : K) ≠ 0) :
    add ca m c a b = some (
      if (m a).inf then set m c b
      else if (m b).inf then set m c a
      else if (m a).x = (m b).x then
        if (m a).y = (m b).y then
          if (m a).y = 0 then wInf m c true
          else Function.update m c ⟨false, dblX ca (m a).x (m a).y, dblY ca (m a).x (m a).y⟩
        else wInf m c true
      else Function.update m c ⟨false, chX (m a).x (m a).y (m b).x (m b).y,
        chY (m a).x (m a).y (m b).x (m b).y⟩) := by
  unfold add
  split_ifs with h1 h2' h3 h4 h5
  · rfl
  · rfl
  · rfl
  · exact doubleNoCheck_eq ca m c a (mul_ne_zero h2 h5)
  · rfl
  · simp only [inv_ne (sub_ne_zero.2 (Ne.symm h3)), wInfYX, chX, chY]

variable {ca cb : K}

theorem negY_EC (x y : K) : (EC ca cb).negY x y = -y := by
  simp [WeierstrassCurve.Affine.negY, EC]

theorem neg_rep {p q : Pt K} {P : (EC ca cb).Point} (h : PtRep p P)
    (hq : if p.inf then q.inf = true else q = ⟨false, p.x, -p.y⟩) : PtRep q (-P) := by
  cases P with
  | zero =>
    have h : p.inf = true := h
    rw [h] at hq
    exact hq
  | some x y hn =>
    obtain ⟨h1, h2, h3⟩ : p.inf = false ∧ p.x = x ∧ p.y = y := h
    rw [h1] at hq
    simp only [Bool.false_eq_true, if_false] at hq
    subst hq
    exact ⟨rfl, h2, by rw [h3, negY_EC]⟩

theorem rep_congr {p q : Pt K} {P : (EC ca cb).Point} (h : PtRep p P)
    (hq : if p.inf then q.inf = true else q = ⟨false, p.x, p.y⟩) : PtRep q P := by
  cases P with
  | zero =>
    have h : p.inf = true := h
    rw [h] at hq
    exact hq
  | some x y hn =>
    obtain ⟨h1, h2, h3⟩ : p.inf = false ∧ p.x = x ∧ p.y = y := h
    rw [h1] at hq
    simp only [Bool.false_eq_true, if_false] at hq
    subst hq
    exact ⟨rfl, h2, h3⟩

theorem dbl_some (h2 : (2 : K) ≠ 0) {x y : K} (hn : (EC ca cb).Nonsingular x y) (hy : y ≠ 0) :
    PtRep (⟨false, dblX ca x y, dblY ca x y⟩ : Pt K)
      (WeierstrassCurve.Affine.Point.some x y hn + WeierstrassCurve.Affine.Point.some x y hn) := by
  have hne : y ≠ (EC ca cb).negY x y := by
    rw [negY_EC]
    intro h
    have : 2 * y = 0 := by linear_combination h
    exact (mul_ne_zero h2 hy) this
  rw [WeierstrassCurve.Affine.Point.add_self_of_Y_ne hne]
  have hsl : (EC ca cb).slope x x y y = (x ^ 2 * 3 + ca) * (2 * y)⁻¹ := by
    rw [WeierstrassCurve.Affine.slope_of_Y_ne rfl hne, negY_EC]
    simp only [EC]
    rw [div_eq_mul_inv]
    congr 1
    · ring
    · congr 1; ring
  refine ⟨rfl, ?_, ?_⟩
  · simp only [WeierstrassCurve.Affine.addX, hsl, dblX]
    simp only [EC]; ring
  · simp only [WeierstrassCurve.Affine.addY, WeierstrassCurve.Affine.negAddY,
      WeierstrassCurve.Affine.addX, hsl, dblY, dblX, negY_EC]
    simp only [EC]; ring

theorem ch_some {x1 y1 x2 y2 : K} (hn1 : (EC ca cb).Nonsingular x1 y1)
    (hn2 : (EC ca cb).Nonsingular x2 y2) (hx : x1 ≠ x2) :
    PtRep (⟨false, chX x1 y1 x2 y2, chY x1 y1 x2 y2⟩ : Pt K)
      (WeierstrassCurve.Affine.Point.some x1 y1 hn1 + WeierstrassCurve.Affine.Point.some x2 y2 hn2) := by
  rw [WeierstrassCurve.Affine.Point.add_of_X_ne hx]
  have hsl : (EC ca cb).slope x1 x2 y1 y2 = (y2 - y1) * (x2 - x1)⁻¹ := by
    rw [WeierstrassCurve.Affine.slope_of_X_ne hx, ← neg_sub y2 y1, ← neg_sub x2 x1, neg_div_neg_eq,
      div_eq_mul_inv]
  refine ⟨rfl, ?_, ?_⟩
  · simp only [WeierstrassCurve.Affine.addX, hsl, chX]
    simp only [EC]; ring
  · simp only [WeierstrassCurve.Affine.addY, WeierstrassCurve.Affine.negAddY,
      WeierstrassCurve.Affine.addX, hsl, chY, chX, negY_EC]
    simp only [EC]; ring

theorem double_rep (h2 : (2 : K) ≠ 0) {m : Mem K} {a : ℕ} {P : (EC ca cb).Point}
    (h : PtRep (m a) P) (c : ℕ) :
    ∃ m', double ca m c a = some m' ∧ PtRep (m' c) (2 • P) ∧ ∀ i, i ≠ c → m' i = m i := by
  rw [double_eq ca m c a h2, two_nsmul]
  refine ⟨_, rfl, ?_, ?_⟩
  · cases P with
    | zero =>
      have h : (m a).inf = true := h
      rw [h, if_pos rfl]
      exact wInf_self m c true
    | some x y hn =>
      obtain ⟨h1, hx, hy⟩ : (m a).inf = false ∧ (m a).x = x ∧ (m a).y = y := h
      rw [h1, hx, hy]
      simp only [Bool.false_eq_true, if_false]
      by_cases h0 : y = 0
      · rw [if_pos h0, WeierstrassCurve.Affine.Point.add_self_of_Y_eq (by rw [negY_EC, h0, neg_zero])]
        exact wInf_self m c true
      · rw [if_neg h0, Function.update_self]
        exact dbl_some h2 hn h0
  · intro i hi
    split_ifs
    · exact wInf_ne _ _ _ hi
    · exact wInf_ne _ _ _ hi
    · simp [hi]

theorem set_rep {m : Mem K} {a : ℕ} {P : (EC ca cb).Point} (h : PtRep (m a) P) (c : ℕ) :
    PtRep (set m c a c) P ∧ ∀ i, i ≠ c → set m c a i = m i := by
  rw [set_eq]
  constructor
  · refine rep_congr h ?_
    split_ifs
    · exact wInf_self m c true
    · simp
  · intro i hi
    split_ifs
    · exact wInf_ne _ _ _ hi
    · simp [hi]

theorem setFrom_rep (m : Mem K) {p : Pt K} {P : (EC ca cb).Point} (h : PtRep p P) (c : ℕ) :
    PtRep (setFrom m c p c) P ∧ ∀ i, i ≠ c → setFrom m c p i = m i := by
  rw [setFrom_eq]
  constructor
  · refine rep_congr h ?_
    cases hp : p.inf
    · simp
      cases p; simp_all
    · simp [wInf_self]
  · intro i hi
    split_ifs
    · exact wInf_ne _ _ _ hi
    · simp [hi]

theorem invert_rep {m : Mem K} {a : ℕ} {P : (EC ca cb).Point} (h : PtRep (m a) P) (c : ℕ) :
    PtRep (invert m c a c) (-P) ∧ ∀ i, i ≠ c → invert m c a i = m i := by
  rw [invert_eq]
  constructor
  · refine neg_rep h ?_
    split_ifs
    · exact wInf_self m c true
    · simp
  · intro i hi
    split_ifs
    · exact wInf_ne _ _ _ hi
    · simp [hi]

theorem add_rep (h2 : (2 : K) ≠ 0) {m : Mem K} {a b : ℕ} {P Q : (EC ca cb).Point}
    (hP : PtRep (m a) P) (hQ : PtRep (m b) Q) (c : ℕ) :
    ∃ m', add ca m c a b = some m' ∧ PtRep (m' c) (P + Q) ∧ ∀ i, i ≠ c → m' i = m i := by
  rw [add_eq ca m c a b h2]
  refine ⟨_, rfl, ?_, ?_⟩
  · cases P with
    | zero =>
      have h : (m a).inf = true := hP
      rw [h, if_pos rfl]
      have : WeierstrassCurve.Affine.Point.zero + Q = Q := zero_add Q
      rw [this]
      exact (set_rep hQ c).1
    | some x1 y1 hn1 =>
      have hP' := hP
      obtain ⟨h1, hx1, hy1⟩ : (m a).inf = false ∧ (m a).x = x1 ∧ (m a).y = y1 := hP
      rw [h1]
      simp only [Bool.false_eq_true, if_false]
      cases Q with
      | zero =>
        have h : (m b).inf = true := hQ
        rw [h, if_pos rfl]
        have : WeierstrassCurve.Affine.Point.some x1 y1 hn1 + WeierstrassCurve.Affine.Point.zero
          = WeierstrassCurve.Affine.Point.some x1 y1 hn1 := add_zero _
        rw [this]
        exact (set_rep hP' c).1
      | some x2 y2 hn2 =>
        obtain ⟨h1', hx2, hy2⟩ : (m b).inf = false ∧ (m b).x = x2 ∧ (m b).y = y2 := hQ
        rw [h1', hx1, hy1, hx2, hy2]
        simp only [Bool.false_eq_true, if_false]
        by_cases hx : x1 = x2
        · rw [if_pos hx]
          subst hx
          by_cases hy : y1 = y2
          · subst hy
            rw [if_pos rfl]
            by_cases h0 : y1 = 0
            · rw [if_pos h0, WeierstrassCurve.Affine.Point.add_self_of_Y_eq
                (by rw [negY_EC, h0, neg_zero])]
              exact wInf_self m c true
            · rw [if_neg h0, Function.update_self]
              exact dbl_some h2 hn1 h0
          · rw [if_neg hy]
            have := (WeierstrassCurve.Affine.Y_eq_of_X_eq hn1.1 hn2.1 rfl).resolve_left hy
            rw [WeierstrassCurve.Affine.Point.add_of_Y_eq rfl this]
            exact wInf_self m c true
        · rw [if_neg hx, Function.update_self]
          exact ch_some hn1 hn2 hx
  · intro i hi
    have hs := fun a => (show set m c a i = m i by
      rw [set_eq]; split_ifs
      · exact wInf_ne _ _ _ hi
      · simp [hi])
    split_ifs <;> first | exact hs _ | exact wInf_ne _ _ _ hi | simp [hi]

theorem addV_rep (h2 : (2 : K) ≠ 0) {p q : Pt K} {P Q : (EC ca cb).Point}
    (hP : PtRep p P) (hQ : PtRep q Q) : ∃ r, addV ca p q = some r ∧ PtRep r (P + Q) := by
  obtain ⟨m', e, h, _⟩ := add_rep h2
    (m := fun i => if i = 1 then p else if i = 2 then q else fresh) (a := 1) (b := 2)
    (P := P) (Q := Q) (by simpa using hP) (by simpa using hQ) 0
  exact ⟨m' 0, by simp only [addV, e, Option.map_some], h⟩

theorem doubleV_rep (h2 : (2 : K) ≠ 0) {p : Pt K} {P : (EC ca cb).Point} (hP : PtRep p P) :
    ∃ r, doubleV ca p = some r ∧ PtRep r (2 • P) := by
  obtain ⟨m', e, h, _⟩ := double_rep h2
    (m := fun i => if i = 1 then p else fresh) (a := 1) (P := P) (by simpa using hP) 0
  exact ⟨m' 0, by simp only [doubleV, e, Option.map_some], h⟩

/-- Representation for the power routine. -/
def GRep (g : GPt K ca) (P : Multiplicative (EC ca cb).Point) : Prop :=
  ∃ p, g.val = some p ∧ PtRep p P.toAdd

theorem powRel (h2 : (2 : K) ≠ 0) : Gen.PowRel (GRep (ca := ca) (cb := cb)) where
  one := ⟨fresh, rfl, rfl⟩
  mul := by
    rintro a b c d ⟨p, hp, hP⟩ ⟨q, hq, hQ⟩
    obtain ⟨r, e, h⟩ := addV_rep h2 hP hQ
    refine ⟨r, ?_, h⟩
    change a.val.bind (fun p => c.val.bind fun q => addV ca p q) = some r
    rw [hp, hq]
    exact e
  sqr := by
    rintro a b ⟨p, hp, hP⟩
    obtain ⟨r, e, h⟩ := doubleV_rep h2 hP
    refine ⟨r, ?_, ?_⟩
    · change a.val.bind (fun p => doubleV ca p) = some r
      rw [hp]
      exact e
    · rw [two_nsmul] at h; exact h

theorem pow_rep (h2 : (2 : K) ≠ 0) {p : Pt K} {P : (EC ca cb).Point} (hP : PtRep p P) (n : ℕ) :
    ∃ r, (Gen.powMpz (⟨some p⟩ : GPt K ca) n).bind (·.val) = some r ∧ PtRep r (n • P) := by
  obtain ⟨g, e, r, hr, h⟩ := Gen.powMpz_rel (powRel h2 (cb := cb))
    (a := (⟨some p⟩ : GPt K ca)) (b := Multiplicative.ofAdd P) ⟨p, rfl, hP⟩ n
  exact ⟨r, by rw [e]; exact hr, h⟩

theorem mulMpz_rep (h2 : (2 : K) ≠ 0) {m : Mem K} {a : ℕ} {P : (EC ca cb).Point}
    (h : PtRep (m a) P) (c n : ℕ) :
    ∃ m', mulMpz ca m c a n = some m' ∧ PtRep (m' c) (n • P) ∧ ∀ i, i ≠ c → m' i = m i := by
  obtain ⟨r, e, hr⟩ := pow_rep h2 h n
  refine ⟨setFrom m c r, ?_, setFrom_rep m hr c⟩
  unfold mulMpz
  rw [e]; rfl

theorem sub_rep (h2 : (2 : K) ≠ 0) {m : Mem K} {t a b : ℕ} {P Q : (EC ca cb).Point}
    (hP : PtRep (m a) P) (hQ : PtRep (m b) Q) (c : ℕ) (hta : t ≠ a) :
    ∃ m', sub ca t m c a b = some m' ∧ PtRep (m' c) (P - Q) ∧ ∀ i, i ≠ c → i ≠ t → m' i = m i := by
  unfold sub
  by_cases hca : c = a
  · rw [if_neg (by simpa using hca)]
    obtain ⟨h1, h3⟩ := invert_rep hQ t
    obtain ⟨m', e, h4, h5⟩ := add_rep h2 (m := invert m t b) h1
      (by rw [h3 a hta.symm]; exact hP) c
    refine ⟨m', e, by rw [sub_eq_add_neg, add_comm]; exact h4, ?_⟩
    intro i hi hit
    rw [h5 i hi, h3 i hit]
  · rw [if_pos hca]
    obtain ⟨h1, h3⟩ := invert_rep hQ c
    obtain ⟨m', e, h4, h5⟩ := add_rep h2 (m := invert m c b) h1
      (by rw [h3 a (Ne.symm hca)]; exact hP) c
    refine ⟨m', e, by rw [sub_eq_add_neg, add_comm]; exact h4, ?_⟩
    intro i hi _
    rw [h5 i hi, h3 i hi]

theorem exec_rep (h2 : (2 : K) ≠ 0) (t : ℕ) (m : Mem K) (s : ℕ → (EC ca cb).Point)
    (h : ∀ i, i ≠ t → PtRep (m i) (s i)) (o : GroupOp) (ht : t ∉ o.vars) :
    ∃ m', exec ca t m o = some m' ∧ ∀ i, i ≠ t → PtRep (m' i) (o.step s i) := by
  have fin : ∀ (c : ℕ) (m' : Mem K) (P : (EC ca cb).Point), PtRep (m' c) P →
      (∀ i, i ≠ c → i ≠ t → m' i = m i) → ∀ i, i ≠ t → PtRep (m' i) (Function.update s c P i) := by
    intro c m' P h1 h3 i hi
    by_cases hc : i = c
    · subst hc; simpa using h1
    · rw [Function.update_of_ne hc, h3 i hc hi]; exact h i hi
  cases o <;> simp only [GroupOp.vars, List.mem_cons, List.not_mem_nil, or_false, not_or] at ht <;>
    simp only [exec, GroupOp.step]
  case set0 c =>
    exact ⟨_, rfl, fin c _ _ (wInf_self m c true) fun i hi _ => wInf_ne _ _ _ hi⟩
  case set c a =>
    obtain ⟨h1, h3⟩ := set_rep (h a (Ne.symm ht.2)) c
    exact ⟨_, rfl, fin c _ _ h1 fun i hi _ => h3 i hi⟩
  case add c a b =>
    obtain ⟨m', e, h1, h3⟩ := add_rep h2 (h a (Ne.symm ht.2.1)) (h b (Ne.symm ht.2.2)) c
    exact ⟨_, e, fin c _ _ h1 fun i hi _ => h3 i hi⟩
  case sub c a b =>
    obtain ⟨m', e, h1, h3⟩ := sub_rep h2 (t := t) (h a (Ne.symm ht.2.1)) (h b (Ne.symm ht.2.2)) c ht.2.1
    exact ⟨_, e, fin c _ _ h1 h3⟩
  case neg c a =>
    obtain ⟨h1, h3⟩ := invert_rep (h a (Ne.symm ht.2)) c
    exact ⟨_, rfl, fin c _ _ h1 fun i hi _ => h3 i hi⟩
  case double c a =>
    obtain ⟨m', e, h1, h3⟩ := double_rep h2 (h a (Ne.symm ht.2)) c
    exact ⟨_, e, fin c _ _ h1 fun i hi _ => h3 i hi⟩
  case mulMpz c a n =>
    obtain ⟨m', e, h1, h3⟩ := mulMpz_rep h2 (h a (Ne.symm ht.2)) c n
    exact ⟨_, e, fin c _ _ h1 fun i hi _ => h3 i hi⟩

theorem run_rep (h2 : (2 : K) ≠ 0) (t : ℕ) (prog : List GroupOp) (ht : ∀ o ∈ prog, t ∉ o.vars) :
    ∀ (m : Mem K) (s : ℕ → (EC ca cb).Point), (∀ i, i ≠ t → PtRep (m i) (s i)) →
    ∃ m', run ca t m prog = some m' ∧ ∀ i, i ≠ t → PtRep (m' i) (groupRun s prog i) := by
  induction prog with
  | nil => intro m s h; exact ⟨m, rfl, h⟩
  | cons o rest ih =>
    intro m s h
    obtain ⟨m1, e1, h1⟩ := exec_rep h2 t m s h o (ht o (by simp))
    obtain ⟨m2, e2, h3⟩ := ih (fun o' ho' => ht o' (by simp [ho'])) m1 (o.step s) h1
    exact ⟨m2, by simp only [run, e1, e2], h3⟩

end Pbc.Curve
