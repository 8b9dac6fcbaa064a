import Verif.Model.Singular
import Verif.Lemmas.Curve
import Verif.Props.Quadratic
import Mathlib.FieldTheory.Finite.Basic

/-! # C42: the nodal curve -/

set_option autoImplicit false

set_option linter.unusedSectionVars false

namespace Pbc.Singular

open Spec
open Pbc.Quad (inv?)
open Pbc.Curve (Pt Mem wInf wX wY fresh inv_ne wInfYX wInf_self wInf_ne)

variable {K : Type*} [Field K] [DecidableEq K]

/-- The curve `Y² = X³ + X²`. -/
def SN (K : Type*) [Field K] : WeierstrassCurve.Affine K := ⟨0, 1, 0, 0, 0⟩

/-- Doubling formula. -/
def dblX (x y : K) : K := ((x * 3 + 2) * x * (y + y)⁻¹) ^ 2 - (x + x) - 1
/-- Doubling formula. -/
def dblY (x y : K) : K := (x - dblX x y) * ((x * 3 + 2) * x * (y + y)⁻¹) - y
/-- Chord formula. -/
def chX (x1 y1 x2 y2 : K) : K := ((y2 - y1) * (x2 - x1)⁻¹) ^ 2 - x1 - x2 - 1
/-- Chord formula. -/
def chY (x1 y1 x2 y2 : K) : K := (x1 - chX x1 y1 x2 y2) * ((y2 - y1) * (x2 - x1)⁻¹) - y1

theorem negY_SN (x y : K) : (SN K).negY x y = -y := by
  simp [WeierstrassCurve.Affine.negY, SN]

theorem add_self_ne (h2 : (2 : K) ≠ 0) {y : K} (h : y ≠ 0) : y + y ≠ 0 := by
  rw [← two_mul]; exact mul_ne_zero h2 h

theorem doubleNoCheck_eq (m : Mem K) (r p : ℕ) (h : (m p).y + (m p).y ≠ 0) :
    doubleNoCheck m r p =
      some (Function.update m r ⟨false, dblX (m p).x (m p).y, dblY (m p).x (m p).y⟩) := by
  unfold doubleNoCheck
  simp only [inv_ne h, wInfYX, dblX, dblY, Int.cast_ofNat, Int.cast_one]

theorem double_eq (m : Mem K) (c a : ℕ) (h2 : (2 : K) ≠ 0) :
    double m c a = some (if (m a).inf then wInf m c true
      else if (m a).y = 0 then wInf m c true
      else Function.update m c ⟨false, dblX (m a).x (m a).y, dblY (m a).x (m a).y⟩) := by
  unfold double
  split_ifs with h h'
  · rfl
  · rfl
  · exact doubleNoCheck_eq m c a (add_self_ne h2 h')

theorem add_eq (m : Mem K) (c a b : ℕ) (h2 : (2 : K) ≠ 0) :
    add m c a b = some (
      if (m a).inf then Curve.set m c b
      else if (m b).inf then Curve.set m c a
      else if (m a).x = (m b).x then
        if (m a).y = (m b).y then
          if (m a).y = 0 then wInf m c true
          else Function.update m c ⟨false, dblX (m a).x (m a).y, dblY (m a).x (m a).y⟩
        else wInf m c true
      else Function.update m c ⟨false, chX (m a).x (m a).y (m b).x (m b).y,
        chY (m a).x (m a).y (m b).x (m b).y⟩) := by
  unfold add
  split_ifs with h1 h2' h3 h4 h5
  · rfl
  · rfl
  · rfl
  · exact doubleNoCheck_eq m c a (add_self_ne h2 h5)
  · rfl
  · simp only [inv_ne (sub_ne_zero.2 (Ne.symm h3)), wInfYX, chX, chY]

theorem dbl_some (h2 : (2 : K) ≠ 0) {x y : K} (hn : (SN K).Nonsingular x y) (hy : y ≠ 0) :
    PtRep (⟨false, dblX x y, dblY x y⟩ : Pt K)
      (WeierstrassCurve.Affine.Point.some x y hn + WeierstrassCurve.Affine.Point.some x y hn) := by
  have hne : y ≠ (SN K).negY x y := by
    rw [negY_SN]
    intro h
    have : 2 * y = 0 := by linear_combination h
    exact (mul_ne_zero h2 hy) this
  rw [WeierstrassCurve.Affine.Point.add_self_of_Y_ne hne]
  have hsl : (SN K).slope x x y y = (x * 3 + 2) * x * (y + y)⁻¹ := by
    rw [WeierstrassCurve.Affine.slope_of_Y_ne rfl hne, negY_SN]
    simp only [SN]
    rw [div_eq_mul_inv]
    congr 1
    · ring
    · congr 1; ring
  refine ⟨rfl, ?_, ?_⟩
  · simp only [WeierstrassCurve.Affine.addX, hsl, dblX]
    simp only [SN]; ring
  · simp only [WeierstrassCurve.Affine.addY, WeierstrassCurve.Affine.negAddY,
      WeierstrassCurve.Affine.addX, hsl, dblY, dblX, negY_SN]
    simp only [SN]; ring

theorem ch_some {x1 y1 x2 y2 : K} (hn1 : (SN K).Nonsingular x1 y1)
    (hn2 : (SN K).Nonsingular x2 y2) (hx : x1 ≠ x2) :
    PtRep (⟨false, chX x1 y1 x2 y2, chY x1 y1 x2 y2⟩ : Pt K)
      (WeierstrassCurve.Affine.Point.some x1 y1 hn1 + WeierstrassCurve.Affine.Point.some x2 y2 hn2) := by
  rw [WeierstrassCurve.Affine.Point.add_of_X_ne hx]
  have hsl : (SN K).slope x1 x2 y1 y2 = (y2 - y1) * (x2 - x1)⁻¹ := by
    rw [WeierstrassCurve.Affine.slope_of_X_ne hx, ← neg_sub y2 y1, ← neg_sub x2 x1, neg_div_neg_eq,
      div_eq_mul_inv]
  refine ⟨rfl, ?_, ?_⟩
  · simp only [WeierstrassCurve.Affine.addX, hsl, chX]
    simp only [SN]; ring
  · simp only [WeierstrassCurve.Affine.addY, WeierstrassCurve.Affine.negAddY,
      WeierstrassCurve.Affine.addX, hsl, chY, chX, negY_SN]
    simp only [SN]; ring

theorem set_rep {m : Mem K} {a : ℕ} {P : (SN K).Point} (h : PtRep (m a) P) (c : ℕ) :
    PtRep (Curve.set m c a c) P ∧ ∀ i, i ≠ c → Curve.set m c a i = m i := by
  rw [Curve.set_eq]
  constructor
  · cases P with
    | zero =>
      have h : (m a).inf = true := h
      rw [h, if_pos rfl]
      exact wInf_self m c true
    | some x y hn =>
      obtain ⟨h1, h2, h3⟩ := h
      rw [h1]
      simp only [Bool.false_eq_true, if_false, Function.update_self]
      exact ⟨rfl, h2, h3⟩
  · intro i hi
    split_ifs
    · exact wInf_ne _ _ _ hi
    · simp [hi]

theorem setFrom_rep (m : Mem K) {p : Pt K} {P : (SN K).Point} (h : PtRep p P) (c : ℕ) :
    PtRep (Curve.setFrom m c p c) P ∧ ∀ i, i ≠ c → Curve.setFrom m c p i = m i := by
  rw [Curve.setFrom_eq]
  constructor
  · cases P with
    | zero =>
      have h : p.inf = true := h
      rw [h, if_pos rfl]
      exact wInf_self m c true
    | some x y hn =>
      rw [h.1]
      simp only [Bool.false_eq_true, if_false, Function.update_self]
      exact h
  · intro i hi
    split_ifs
    · exact wInf_ne _ _ _ hi
    · simp [hi]

theorem invert_rep {m : Mem K} {a : ℕ} {P : (SN K).Point} (h : PtRep (m a) P) (c : ℕ) :
    PtRep (invert m c a c) (-P) ∧ ∀ i, i ≠ c → invert m c a i = m i := by
  have e : invert m c a = Curve.invert m c a := rfl
  rw [e, Curve.invert_eq]
  constructor
  · cases P with
    | zero =>
      have h : (m a).inf = true := h
      rw [h, if_pos rfl]
      exact wInf_self m c true
    | some x y hn =>
      obtain ⟨h1, h2, h3⟩ := h
      rw [h1]
      simp only [Bool.false_eq_true, if_false, Function.update_self]
      exact ⟨rfl, h2, by rw [h3, negY_SN]⟩
  · intro i hi
    split_ifs
    · exact wInf_ne _ _ _ hi
    · simp [hi]

theorem double_rep (h2 : (2 : K) ≠ 0) {m : Mem K} {a : ℕ} {P : (SN K).Point}
    (h : PtRep (m a) P) (c : ℕ) :
    ∃ m', double m c a = some m' ∧ PtRep (m' c) (2 • P) ∧ ∀ i, i ≠ c → m' i = m i := by
  rw [double_eq m c a h2, two_nsmul]
  refine ⟨_, rfl, ?_, ?_⟩
  · cases P with
    | zero =>
      have h : (m a).inf = true := h
      rw [h, if_pos rfl]
      exact wInf_self m c true
    | some x y hn =>
      obtain ⟨h1, hx, hy⟩ : (m a).inf = false ∧ (m a).x = x ∧ (m a).y = y := h
      rw [h1, hx, hy]
      simp only [Bool.false_eq_true, if_false]
      by_cases h0 : y = 0
      · rw [if_pos h0, WeierstrassCurve.Affine.Point.add_self_of_Y_eq (by rw [negY_SN, h0, neg_zero])]
        exact wInf_self m c true
      · rw [if_neg h0, Function.update_self]
        exact dbl_some h2 hn h0
  · intro i hi
    split_ifs
    · exact wInf_ne _ _ _ hi
    · exact wInf_ne _ _ _ hi
    · simp [hi]

theorem add_rep (h2 : (2 : K) ≠ 0) {m : Mem K} {a b : ℕ} {P Q : (SN K).Point}
    (hP : PtRep (m a) P) (hQ : PtRep (m b) Q) (c : ℕ) :
    ∃ m', add m c a b = some m' ∧ PtRep (m' c) (P + Q) ∧ ∀ i, i ≠ c → m' i = m i := by
  rw [add_eq m c a b h2]
  refine ⟨_, rfl, ?_, ?_⟩
  · cases P with
    | zero =>
      have h : (m a).inf = true := hP
      rw [h, if_pos rfl]
      have : WeierstrassCurve.Affine.Point.zero + Q = Q := zero_add Q
      rw [this]
      exact (set_rep hQ c).1
    | some x1 y1 hn1 =>
      have hP' := hP
      obtain ⟨h1, hx1, hy1⟩ : (m a).inf = false ∧ (m a).x = x1 ∧ (m a).y = y1 := hP
      rw [h1]
      simp only [Bool.false_eq_true, if_false]
      cases Q with
      | zero =>
        have h : (m b).inf = true := hQ
        rw [h, if_pos rfl]
        have : WeierstrassCurve.Affine.Point.some x1 y1 hn1 + WeierstrassCurve.Affine.Point.zero
          = WeierstrassCurve.Affine.Point.some x1 y1 hn1 := add_zero _
        rw [this]
        exact (set_rep hP' c).1
      | some x2 y2 hn2 =>
        obtain ⟨h1', hx2, hy2⟩ : (m b).inf = false ∧ (m b).x = x2 ∧ (m b).y = y2 := hQ
        rw [h1', hx1, hy1, hx2, hy2]
        simp only [Bool.false_eq_true, if_false]
        by_cases hx : x1 = x2
        · rw [if_pos hx]
          subst hx
          by_cases hy : y1 = y2
          · subst hy
            rw [if_pos rfl]
            by_cases h0 : y1 = 0
            · rw [if_pos h0, WeierstrassCurve.Affine.Point.add_self_of_Y_eq
                (by rw [negY_SN, h0, neg_zero])]
              exact wInf_self m c true
            · rw [if_neg h0, Function.update_self]
              exact dbl_some h2 hn1 h0
          · rw [if_neg hy]
            have := (WeierstrassCurve.Affine.Y_eq_of_X_eq hn1.1 hn2.1 rfl).resolve_left hy
            rw [WeierstrassCurve.Affine.Point.add_of_Y_eq rfl this]
            exact wInf_self m c true
        · rw [if_neg hx, Function.update_self]
          exact ch_some hn1 hn2 hx
  · intro i hi
    have hs := fun a => (show Curve.set m c a i = m i by
      rw [Curve.set_eq]; split_ifs
      · exact wInf_ne _ _ _ hi
      · simp [hi])
    split_ifs <;> first | exact hs _ | exact wInf_ne _ _ _ hi | simp [hi]

/-- Representation for the power routine. -/
def GRep (g : GPt K) (P : Multiplicative (SN K).Point) : Prop :=
  ∃ p, g.val = some p ∧ PtRep p P.toAdd

theorem powRel (h2 : (2 : K) ≠ 0) : Gen.PowRel (GRep (K := K)) where
  one := ⟨fresh, rfl, rfl⟩
  mul := by
    rintro a b c d ⟨p, hp, hP⟩ ⟨q, hq, hQ⟩
    obtain ⟨m', e, h, _⟩ := add_rep h2
      (m := fun i => if i = 1 then p else if i = 2 then q else fresh) (a := 1) (b := 2)
      (by simpa using hP) (by simpa using hQ) 0
    refine ⟨m' 0, ?_, h⟩
    change a.val.bind (fun p => c.val.bind fun q => addV p q) = _
    rw [hp, hq]
    simp only [Option.bind_some, addV, e, Option.map_some]
  sqr := by
    rintro a b ⟨p, hp, hP⟩
    obtain ⟨m', e, h, _⟩ := double_rep h2
      (m := fun i => if i = 1 then p else fresh) (a := 1) (by simpa using hP) 0
    refine ⟨m' 0, ?_, ?_⟩
    · change a.val.bind (fun p => doubleV p) = _
      rw [hp]
      simp only [Option.bind_some, doubleV, e, Option.map_some]
    · rw [two_nsmul] at h; exact h

theorem mulMpz_rep (h2 : (2 : K) ≠ 0) {m : Mem K} {a : ℕ} {P : (SN K).Point}
    (h : PtRep (m a) P) (c n : ℕ) :
    ∃ m', mulMpz m c a n = some m' ∧ PtRep (m' c) (n • P) ∧ ∀ i, i ≠ c → m' i = m i := by
  obtain ⟨g, e, r, hr, h⟩ := Gen.powMpz_rel (powRel h2)
    (a := (⟨some (m a)⟩ : GPt K)) (b := Multiplicative.ofAdd P) ⟨m a, rfl, h⟩ n
  refine ⟨Curve.setFrom m c r, ?_, setFrom_rep m h c⟩
  unfold mulMpz
  rw [e, Option.bind_some, hr]; rfl

/-- One call on the store; `sub` is not provided by this group. -/
def exec (m : Mem K) : GroupOp → Option (Mem K)
  | .set0 c => some (wInf m c true)
  | .set c a => some (set m c a)
  | .add c a b => add m c a b
  | .sub _ _ _ => none
  | .neg c a => some (invert m c a)
  | .double c a => double m c a
  | .mulMpz c a n => mulMpz m c a n

/-- Run a program. -/
def run : Mem K → List GroupOp → Option (Mem K)
  | m, [] => some m
  | m, op :: rest =>
    match exec m op with
    | none => none
    | some m => run m rest

end Pbc.Singular

namespace Props

open Spec Pbc Pbc.Singular
open Pbc.Curve (Pt Mem fresh)

variable {K : Type*} [Field K] [DecidableEq K]

/-- The calls this group provides. -/
def NoSub : GroupOp → Prop
  | .sub _ _ _ => False
  | _ => True

/-- **C42**, histories: every program of calls computes Mathlib's group law on the nonsingular points
of `Y² = X³ + X²`. -/
theorem C42_programs (h2 : (2 : K) ≠ 0) (prog : List GroupOp) (hp : ∀ o ∈ prog, NoSub o) :
    ∀ (m : Mem K) (s : ℕ → (SN K).Point), (∀ i, PtRep (m i) (s i)) →
    ∃ m', Singular.run m prog = some m' ∧ ∀ i, PtRep (m' i) (groupRun s prog i) := by
  induction prog with
  | nil => intro m s h; exact ⟨m, rfl, h⟩
  | cons o rest ih =>
    intro m s h
    have step : ∃ m', Singular.exec m o = some m' ∧ ∀ i, PtRep (m' i) (o.step s i) := by
      have fin : ∀ (c : ℕ) (m' : Mem K) (P : (SN K).Point), PtRep (m' c) P →
          (∀ i, i ≠ c → m' i = m i) → ∀ i, PtRep (m' i) (Function.update s c P i) := by
        intro c m' P h1 h3 i
        by_cases hc : i = c
        · subst hc; simpa using h1
        · rw [Function.update_of_ne hc, h3 i hc]; exact h i
      have hns := hp o (by simp)
      cases o with
      | set0 c =>
        exact ⟨_, rfl, fin c _ _ (Curve.wInf_self m c true) fun i hi => Curve.wInf_ne _ _ _ hi⟩
      | set c a => exact ⟨_, rfl, fin c _ _ (set_rep (h a) c).1 (set_rep (h a) c).2⟩
      | add c a b =>
        obtain ⟨m', e, h1, h3⟩ := add_rep h2 (h a) (h b) c
        exact ⟨_, e, fin c _ _ h1 h3⟩
      | sub c a b => exact absurd hns id
      | neg c a => exact ⟨_, rfl, fin c _ _ (invert_rep (h a) c).1 (invert_rep (h a) c).2⟩
      | double c a =>
        obtain ⟨m', e, h1, h3⟩ := double_rep h2 (h a) c
        exact ⟨_, e, fin c _ _ h1 h3⟩
      | mulMpz c a n =>
        obtain ⟨m', e, h1, h3⟩ := mulMpz_rep h2 (h a) c n
        exact ⟨_, e, fin c _ _ h1 h3⟩
    obtain ⟨m1, e1, h1⟩ := step
    obtain ⟨m2, e2, h3⟩ := ih (fun o' ho' => hp o' (by simp [ho'])) m1 (o.step s) h1
    exact ⟨m2, by simp only [Singular.run, e1, e2], h3⟩

/-- The map of the comment in the code: `(x, y) ↦ (y + x) / (y - x)`, `O ↦ 1`. -/
def nodeMap : (SN K).Point → K
  | .zero => 1
  | .some x y _ => (y + x) / (y - x)

/-- The parameter `t = y / x` of a nonsingular point. -/
theorem node_param {x y : K} (hn : (SN K).Nonsingular x y) :
    ∃ t : K, t ≠ 1 ∧ t ≠ -1 ∧ x = t ^ 2 - 1 ∧ y = t ^ 3 - t := by
  have he := (WeierstrassCurve.Affine.equation_iff _ _).1 hn.1
  simp only [SN] at he
  have hx : x ≠ 0 := by
    rintro rfl
    have hy : y = 0 := by
      have : y ^ 2 = 0 := by linear_combination he
      exact pow_eq_zero_iff (two_ne_zero) |>.1 this
    subst hy
    have := (WeierstrassCurve.Affine.nonsingular_iff _ _).1 hn
    simp [SN] at this
  have hx' : x = (y / x) ^ 2 - 1 := by
    field_simp
    linear_combination -he
  refine ⟨y / x, ?_, ?_, hx', ?_⟩
  · intro h; rw [h] at hx'; exact hx (by rw [hx']; ring)
  · intro h; rw [h] at hx'; exact hx (by rw [hx']; ring)
  · rw [show (y / x) ^ 3 - y / x = (y / x) * ((y / x) ^ 2 - 1) by ring, ← hx']
    field_simp

theorem nodeMap_param {t : K} (h1 : t ≠ 1) (h1' : t ≠ -1) :
    ((t ^ 3 - t) + (t ^ 2 - 1)) / ((t ^ 3 - t) - (t ^ 2 - 1)) = (t + 1) / (t - 1) := by
  have e1 : t - 1 ≠ 0 := sub_ne_zero.2 h1
  have e2 : t + 1 ≠ 0 := by intro h; exact h1' (by linear_combination h)
  rw [show t ^ 3 - t + (t ^ 2 - 1) = (t + 1) * ((t - 1) * (t + 1)) by ring,
    show t ^ 3 - t - (t ^ 2 - 1) = (t - 1) * ((t - 1) * (t + 1)) by ring,
    mul_div_mul_right _ _ (mul_ne_zero e1 e2)]

/-- **C42**: the map turns the group of the curve into the multiplicative group of the field: it is
multiplicative, never 0, injective, and reaches every nonzero element. -/
theorem C42_iso (h2 : (2 : K) ≠ 0) :
    (∀ P Q : (SN K).Point, nodeMap (P + Q) = nodeMap P * nodeMap Q) ∧
    (∀ P : (SN K).Point, nodeMap P ≠ 0) ∧
    (∀ P : (SN K).Point, nodeMap P = 1 → P = 0) ∧
    (∀ u : K, u ≠ 0 → ∃ P : (SN K).Point, nodeMap P = u) := by
  have rep_map : ∀ {x y : K} {P : (SN K).Point}, PtRep (⟨false, x, y⟩ : Pt K) P →
      nodeMap P = (y + x) / (y - x) := by
    intro x y P h
    cases P with
    | zero => cases h
    | some x' y' hn => obtain ⟨_, rfl, rfl⟩ := h; rfl
  have hneg : ∀ {x y : K}, (-y + x) / (-y - x) * ((y + x) / (y - x)) = 1 ∨ y = x ∨ y = -x := by
    intro x y
    by_cases h1 : y = x
    · exact Or.inr (Or.inl h1)
    · by_cases h3 : y = -x
      · exact Or.inr (Or.inr h3)
      · left
        have e1 : y - x ≠ 0 := sub_ne_zero.2 h1
        have e2 : y + x ≠ 0 := by intro h; exact h3 (by linear_combination h)
        have e3 : -y - x ≠ 0 := by intro h; exact e2 (by linear_combination -h)
        field_simp
        ring
  have hyx : ∀ {x y : K}, (SN K).Nonsingular x y → y ≠ x ∧ y ≠ -x := by
    intro x y hn
    obtain ⟨t, ht1, ht2, rfl, rfl⟩ := node_param hn
    have e1 : t - 1 ≠ 0 := sub_ne_zero.2 ht1
    have e2 : t + 1 ≠ 0 := by intro h; exact ht2 (by linear_combination h)
    constructor
    · intro h
      have : (t - 1) * ((t - 1) * (t + 1)) = 0 := by linear_combination h
      exact mul_ne_zero e1 (mul_ne_zero e1 e2) this
    · intro h
      have : (t + 1) * ((t - 1) * (t + 1)) = 0 := by linear_combination h
      exact mul_ne_zero e2 (mul_ne_zero e1 e2) this
  refine ⟨?_, ?_, ?_, ?_⟩
  · intro P Q
    cases P with
    | zero =>
      have : WeierstrassCurve.Affine.Point.zero + Q = Q := zero_add Q
      rw [this]; simp [nodeMap]
    | some x1 y1 hn1 =>
      cases Q with
      | zero =>
        have : WeierstrassCurve.Affine.Point.some x1 y1 hn1 + WeierstrassCurve.Affine.Point.zero
          = WeierstrassCurve.Affine.Point.some x1 y1 hn1 := add_zero _
        rw [this]; simp [nodeMap]
      | some x2 y2 hn2 =>
        obtain ⟨t, ht1, ht2, htx, hty⟩ := node_param hn1
        obtain ⟨s, hs1, hs2, hsx, hsy⟩ := node_param hn2
        have a1 : t - 1 ≠ 0 := sub_ne_zero.2 ht1
        have a2 : t + 1 ≠ 0 := by intro h; exact ht2 (by linear_combination h)
        have b1 : s - 1 ≠ 0 := sub_ne_zero.2 hs1
        have b2 : s + 1 ≠ 0 := by intro h; exact hs2 (by linear_combination h)
        -- the sum has parameter r = (ts + 1)/(t + s)
        have key : ∀ r : K, r * (t + s) = t * s + 1 → t + s ≠ 0 →
            ((r ^ 3 - r) + (r ^ 2 - 1)) / ((r ^ 3 - r) - (r ^ 2 - 1)) =
              ((t ^ 3 - t) + (t ^ 2 - 1)) / ((t ^ 3 - t) - (t ^ 2 - 1)) *
              (((s ^ 3 - s) + (s ^ 2 - 1)) / ((s ^ 3 - s) - (s ^ 2 - 1))) := by
          intro r hr hts
          have r1 : r ≠ 1 := by
            rintro rfl
            exact mul_ne_zero a1 b1 (by linear_combination -hr)
          have r2 : r ≠ -1 := by
            rintro rfl
            exact mul_ne_zero a2 b2 (by linear_combination -hr)
          rw [nodeMap_param r1 r2, nodeMap_param ht1 ht2, nodeMap_param hs1 hs2]
          have c1 : r - 1 ≠ 0 := sub_ne_zero.2 r1
          rw [div_mul_div_comm, div_eq_div_iff c1 (mul_ne_zero a1 b1)]
          linear_combination -2 * hr
        by_cases hx : x1 = x2
        · by_cases hy : y1 = y2
          · subst hx; subst hy
            have hst : s = t := by
              have hx0 : x1 ≠ 0 := by
                rw [htx]
                intro h
                exact mul_ne_zero a1 a2 (by linear_combination h)
              have : x1 * (s - t) = 0 := by
                have h1 : y1 = t * x1 := by rw [hty, htx]; ring
                have h3 : y1 = s * x1 := by rw [hsy, hsx]; ring
                linear_combination h1 - h3
              rcases mul_eq_zero.1 this with h | h
              · exact absurd h hx0
              · exact sub_eq_zero.1 h
            subst hst
            by_cases h0 : y1 = 0
            · rw [WeierstrassCurve.Affine.Point.add_self_of_Y_eq (by rw [negY_SN, h0, neg_zero])]
              have hx0 : x1 ≠ 0 := by
                have := (hyx hn1).1
                rw [h0] at this; exact this.symm
              change (1 : K) = (y1 + x1) / (y1 - x1) * ((y1 + x1) / (y1 - x1))
              rw [h0]
              field_simp
              ring
            · rw [rep_map (dbl_some h2 hn1 h0)]
              have hs0 : s ≠ 0 := by
                rintro rfl; exact h0 (by rw [hty]; ring)
              have hss : s + s ≠ 0 := add_self_ne h2 hs0
              have hl : (x1 * 3 + 2) * x1 * (y1 + y1)⁻¹ = (3 * s ^ 2 - 1) / (s + s) := by
                rw [← div_eq_mul_inv, div_eq_div_iff (add_self_ne h2 h0) hss, htx, hty]
                ring
              have hr : (s * s + 1) / (s + s) * (s + s) = s * s + 1 := div_mul_cancel₀ _ hss
              have := key _ hr hss
              change _ = (y1 + x1) / (y1 - x1) * ((y1 + x1) / (y1 - x1))
              rw [htx, hty, ← this, ← htx, ← hty]
              have hX : dblX x1 y1 = ((s * s + 1) / (s + s)) ^ 2 - 1 := by
                unfold dblX
                rw [hl, htx, ← two_mul s]
                field_simp
                ring
              have hY : dblY x1 y1 = ((s * s + 1) / (s + s)) ^ 3 - (s * s + 1) / (s + s) := by
                unfold dblY
                rw [hX, hl, htx, hty, ← two_mul]
                field_simp
                ring
              rw [hX, hY]
          · have hy' := (WeierstrassCurve.Affine.Y_eq_of_X_eq hn1.1 hn2.1 hx).resolve_left hy
            rw [WeierstrassCurve.Affine.Point.add_of_Y_eq hx hy']
            rw [negY_SN] at hy'
            change (1 : K) = (y1 + x1) / (y1 - x1) * ((y2 + x2) / (y2 - x2))
            rw [hy', hx]
            rcases hneg (x := x2) (y := y2) with h | h | h
            · exact h.symm
            · exact absurd h (hyx hn2).1
            · exact absurd h (hyx hn2).2
        · rw [rep_map (ch_some hn1 hn2 hx)]
          have hd : x2 - x1 ≠ 0 := sub_ne_zero.2 (Ne.symm hx)
          have hfac : x2 - x1 = (s - t) * (t + s) := by rw [htx, hsx]; ring
          have hst : s - t ≠ 0 := by intro h; exact hd (by rw [hfac, h, zero_mul])
          have hts : t + s ≠ 0 := by intro h; exact hd (by rw [hfac, h, mul_zero])
          have hl : (y2 - y1) * (x2 - x1)⁻¹ = (t ^ 2 + t * s + s ^ 2 - 1) / (t + s) := by
            rw [← div_eq_mul_inv, div_eq_div_iff hd hts, hfac, hty, hsy]
            ring
          have hr : (t * s + 1) / (t + s) * (t + s) = t * s + 1 := by field_simp
          have := key _ hr hts
          change _ = (y1 + x1) / (y1 - x1) * ((y2 + x2) / (y2 - x2))
          have hX : chX x1 y1 x2 y2 = ((t * s + 1) / (t + s)) ^ 2 - 1 := by
            unfold chX
            rw [hl, htx, hsx]
            field_simp
            ring
          have hY : chY x1 y1 x2 y2 = ((t * s + 1) / (t + s)) ^ 3 - (t * s + 1) / (t + s) := by
            unfold chY
            rw [hX, hl, htx, hty]
            field_simp
            ring
          rw [hX, hY, htx, hty, hsx, hsy]
          exact this
  · intro P
    cases P with
    | zero => exact one_ne_zero
    | some x y hn =>
      obtain ⟨h1, h3⟩ := hyx hn
      have e2 : y + x ≠ 0 := by intro h; exact h3 (by linear_combination h)
      exact div_ne_zero e2 (sub_ne_zero.2 h1)
  · intro P h
    cases P with
    | zero => rfl
    | some x y hn =>
      obtain ⟨h1, h3⟩ := hyx hn
      have h : (y + x) / (y - x) = 1 := h
      rw [div_eq_one_iff_eq (sub_ne_zero.2 h1)] at h
      have : 2 * x = 0 := by linear_combination h
      have hx : x = 0 := by
        rcases mul_eq_zero.1 this with h | h
        · exact absurd h h2
        · exact h
      obtain ⟨t, ht1, ht2, htx, -⟩ := node_param hn
      exfalso
      have a1 : t - 1 ≠ 0 := sub_ne_zero.2 ht1
      have a2 : t + 1 ≠ 0 := by intro h; exact ht2 (by linear_combination h)
      exact mul_ne_zero a1 a2 (by rw [hx] at htx; linear_combination -htx)
  · intro u hu
    by_cases h1 : u = 1
    · exact ⟨.zero, h1.symm⟩
    · have hu1 : u - 1 ≠ 0 := sub_ne_zero.2 h1
      set t := (u + 1) / (u - 1) with ht
      have e : t * (u - 1) = u + 1 := by rw [ht]; field_simp
      have t1 : t ≠ 1 := by
        intro h; rw [h] at e; exact h2 (by linear_combination -e)
      have t2 : t ≠ -1 := by
        intro h; rw [h] at e
        have : 2 * u = 0 := by linear_combination -e
        rcases mul_eq_zero.1 this with h | h
        · exact h2 h
        · exact hu h
      have a1 : t - 1 ≠ 0 := sub_ne_zero.2 t1
      have a2 : t + 1 ≠ 0 := by intro h; exact t2 (by linear_combination h)
      have hx0 : t ^ 2 - 1 ≠ 0 := by
        intro h; exact mul_ne_zero a1 a2 (by linear_combination h)
      have hn : (SN K).Nonsingular (t ^ 2 - 1) (t ^ 3 - t) := by
        rw [WeierstrassCurve.Affine.nonsingular_iff, WeierstrassCurve.Affine.equation_iff]
        simp only [SN]
        refine ⟨by ring, ?_⟩
        by_cases h0 : t = 0
        · left
          rw [h0]
          norm_num
        · right
          intro h
          have : 2 * (t * (t ^ 2 - 1)) = 0 := by linear_combination h
          exact mul_ne_zero h2 (mul_ne_zero h0 hx0) this
      refine ⟨.some _ _ hn, ?_⟩
      change ((t ^ 3 - t) + (t ^ 2 - 1)) / ((t ^ 3 - t) - (t ^ 2 - 1)) = u
      rw [nodeMap_param t1 t2, div_eq_iff a1]
      linear_combination -e

/-- **C42**, random points: every random point satisfies the equation, and is not the node unless
the first value drawn is 0; in that case it is the node, which is not in the group. -/
theorem C42_random (q : K → Bool) (hq : ∀ a, q a = true ↔ IsSquare a) (sq : K → K)
    (hsq : ∀ a, IsSquare a → sq a ^ 2 = a) (draws : List K) (p : Pt K)
    (h : Singular.random q sq draws 0 = some p) :
    p.inf = false ∧ p.y ^ 2 = p.x ^ 3 + p.x ^ 2 ∧
    ((p.x = 0 ∧ p.y = 0) ↔ draws.head? = some 0) := by
  have gen : ∀ (draws : List K) (t : K), q t = false → Singular.random q sq draws t = some p →
      p.inf = false ∧ p.y ^ 2 = p.x ^ 3 + p.x ^ 2 ∧ p.x ≠ 0 := by
    intro draws
    induction draws with
    | nil => intro t _ h; cases h
    | cons x rest ih =>
      intro t ht h
      unfold Singular.random at h
      by_cases hx : x = 0
      · simp only [hx, if_true, ht, Bool.false_eq_true, if_false] at h
        exact ih t ht h
      · simp only [hx, if_false] at h
        split_ifs at h with h1
        · rw [Option.some.injEq] at h
          subst h
          refine ⟨rfl, ?_, hx⟩
          change sq _ ^ 2 = _
          rw [hsq _ ((hq _).1 h1)]
          ring
        · exact ih _ (by simpa using h1) h
  cases draws with
  | nil => cases h
  | cons x rest =>
    unfold Singular.random at h
    by_cases hx : x = 0
    · have h0 : q 0 = true := (hq 0).2 ⟨0, by simp⟩
      simp only [hx, if_true, h0, Option.some.injEq] at h
      subst h
      have : sq 0 ^ 2 = 0 := hsq 0 ⟨0, by simp⟩
      have h0 : sq 0 = 0 := pow_eq_zero_iff (two_ne_zero) |>.1 this
      simp [hx, h0]
    · simp only [hx, if_false] at h
      have hd : ¬ ((x :: rest).head? = some 0) := by simpa using hx
      split_ifs at h with h1
      · rw [Option.some.injEq] at h
        subst h
        refine ⟨rfl, ?_, by simp [hx]⟩
        change sq _ ^ 2 = _
        rw [hsq _ ((hq _).1 h1)]
        ring
      · obtain ⟨g1, g2, g3⟩ := gen rest _ (by simpa using h1) h
        exact ⟨g1, g2, by simp [g3, hx]⟩

/-- (3, 1) is a point of the nodal curve mod 7 with double (1, 4). -/
example : ((Singular.run (fun _ => ⟨false, 3, 1⟩ : Mem (ZMod 7)) [.double 1 0, .add 2 1 0]).map
    fun m => (m 1, decide ((m 2).y ^ 2 = (m 2).x ^ 3 + (m 2).x ^ 2))) = some (⟨false, 1, 4⟩, true) := by
  decide +kernel

end Props
