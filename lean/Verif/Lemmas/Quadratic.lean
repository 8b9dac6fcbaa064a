import Verif.Spec.Quadratic
import Mathlib.Algebra.QuadraticAlgebra.Basic
import Mathlib.Tactic.FieldSimp
import Mathlib.Tactic.LinearCombination
import Mathlib.NumberTheory.LegendreSymbol.QuadraticChar.Basic

/-! # Lemmas on the quadratic extension model -/

set_option linter.unusedSectionVars false

namespace Pbc.Quad

open Spec QuadraticAlgebra

variable {K : Type*} [Field K]

theorem wx_y (m : Mem K) (n : ℕ) (u : K) (a : ℕ) : (wx m n u a).y = (m a).y := by
  unfold wx; by_cases h : a = n <;> simp [Function.update, h]

theorem wx_x_self (m : Mem K) (n : ℕ) (u : K) : (wx m n u n).x = u := by simp [wx]

theorem wx_wx (m : Mem K) (n : ℕ) (u v : K) : wx (wx m n u) n v = wx m n v := by
  unfold wx; simp

theorem wy_wx (m : Mem K) (n : ℕ) (u v : K) : wy (wx m n u) n v = Function.update m n ⟨u, v⟩ := by
  unfold wx wy; simp

theorem wx_wy (m : Mem K) (n : ℕ) (u v : K) : wx (wy m n v) n u = Function.update m n ⟨u, v⟩ := by
  unfold wx wy; simp

variable [DecidableEq K]

theorem setZ_eq (m : Mem K) (n : ℕ) (z : ℤ) : setZ m n z = Function.update m n ⟨z, 0⟩ := by
  simp [setZ, wy_wx]
theorem set0_eq (m : Mem K) (n : ℕ) : set0 m n = Function.update m n ⟨0, 0⟩ := by
  simp [set0, wy_wx]
theorem set1_eq (m : Mem K) (n : ℕ) : set1 m n = Function.update m n ⟨1, 0⟩ := by
  simp [set1, wy_wx]
theorem set_eq (m : Mem K) (n a : ℕ) : set m n a = Function.update m n (m a) := by
  simp [set, wy_wx, wx_y]
theorem add_eq (m : Mem K) (n a b : ℕ) :
    add m n a b = Function.update m n ⟨(m a).x + (m b).x, (m a).y + (m b).y⟩ := by
  simp [add, wy_wx, wx_y]
theorem double_eq (m : Mem K) (n a : ℕ) :
    double m n a = Function.update m n ⟨2 * (m a).x, 2 * (m a).y⟩ := by
  simp [double, wy_wx, wx_y]
theorem sub_eq (m : Mem K) (n a b : ℕ) :
    sub m n a b = Function.update m n ⟨(m a).x - (m b).x, (m a).y - (m b).y⟩ := by
  simp [sub, wy_wx, wx_y]
theorem neg_eq (m : Mem K) (n a : ℕ) :
    neg m n a = Function.update m n ⟨-(m a).x, -(m a).y⟩ := by
  simp [neg, wy_wx, wx_y]
theorem mulZ_eq (m : Mem K) (n a : ℕ) (z : ℤ) :
    mulZ m n a z = Function.update m n ⟨(m a).x * z, (m a).y * z⟩ := by
  simp [mulZ, wy_wx, wx_y]

theorem mul_eq (v : K) (m : Mem K) (n a b : ℕ) :
    mul v m n a b = Function.update m n
      ⟨(m a).x * (m b).x + v * ((m a).y * (m b).y), (m a).x * (m b).y + (m a).y * (m b).x⟩ := by
  simp only [mul, wx_x_self, wx_wx, wy_wx]
  congr 2 <;> ring

theorem fiMul_eq (m : Mem K) (n a b : ℕ) : fiMul m n a b = mul (-1) m n a b := by
  rw [mul_eq]
  simp only [fiMul, wy_wx]
  congr 2 <;> ring

theorem square_eq (v : K) (m : Mem K) (n a : ℕ) : square v m n a = mul v m n a a := by
  rw [mul_eq]
  simp only [square, wy_wx]
  congr 2 <;> ring

theorem fiSquare_eq (m : Mem K) (n a : ℕ) : fiSquare m n a = square (-1) m n a := by
  rw [square_eq, mul_eq]
  simp only [fiSquare, wy_wx]
  congr 2 <;> ring

/-- The norm. -/
def nrm (v : K) (e : El K) : K := e.x ^ 2 - e.y ^ 2 * v

theorem invert_eq (v : K) (m : Mem K) (n a : ℕ) :
    invert v m n a = if nrm v (m a) = 0 then none else
      some (Function.update m n
        ⟨(m a).x * (nrm v (m a))⁻¹, -((m a).y * (nrm v (m a))⁻¹)⟩) := by
  unfold invert inv?
  by_cases h : nrm v (m a) = 0
  · simp [h, show (m a).x ^ 2 - (m a).y ^ 2 * v = 0 from h]
  · have h' : ¬ (m a).x ^ 2 - (m a).y ^ 2 * v = 0 := h
    simp only [h, h', if_false, wx_y, wy_wx, mul_neg]
    rfl

theorem fiInvert_eq (m : Mem K) (n a : ℕ) : fiInvert m n a = invert (-1) m n a := by
  unfold fiInvert invert
  have : (m a).x ^ 2 - (m a).y ^ 2 * (-1 : K) = (m a).x ^ 2 + (m a).y ^ 2 := by ring
  simp only [this]

theorem fiOps_eq : (fiOps : Ops K) = fqOps (-1) := by
  unfold fiOps fqOps
  congr 1
  · funext m n a b; exact fiMul_eq m n a b
  · funext m n a; exact fiSquare_eq m n a
  · funext m n a; exact fiInvert_eq m n a

theorem fiIsSqr_eq (q : K → Bool) (e : El K) : fiIsSqr q e = isSqr q (-1) e := by
  unfold fiIsSqr isSqr
  have : e.x ^ 2 - e.y ^ 2 * (-1 : K) = e.x ^ 2 + e.y ^ 2 := by ring
  simp only [this]

theorem fiSqrt_eq (q : K → Bool) (r : K → K) (m : Mem K) (n e : ℕ) :
    fiSqrt q r m n e = sqrt q r (-1) m n e := by
  unfold fiSqrt sqrt
  have : (m e).x ^ 2 - (m e).y ^ 2 * (-1 : K) = (m e).x ^ 2 + (m e).y ^ 2 := by ring
  simp only [this]

theorem alg_mul (v : K) (a b : El K) :
    alg v ⟨a.x * b.x + v * (a.y * b.y), a.x * b.y + a.y * b.x⟩ = alg v a * alg v b := by
  ext <;> simp [alg] ; ring

theorem alg_norm (v : K) (a : El K) : (alg v a).norm = nrm v a := by
  simp [norm_def, alg, nrm]; ring

section field

variable {v : K} [Fact (∀ r : K, r ^ 2 ≠ v + 0 * r)]

theorem nrm_ne (a : El K) (h : alg v a ≠ 0) : nrm v a ≠ 0 := by
  rw [← alg_norm]
  exact fun h' => h (norm_eq_zero_iff_eq_zero.1 h')

theorem alg_inv (a : El K) :
    alg v ⟨a.x * (nrm v a)⁻¹, -(a.y * (nrm v a)⁻¹)⟩ = (alg v a)⁻¹ := by
  rw [← alg_norm]
  ext
  · simp [alg, mul_comm]
  · simp [alg, mul_comm]

/-- The two stores agree away from `t`. -/
def Agree (t : ℕ) (s s' : ℕ → QuadraticAlgebra K v 0) : Prop := ∀ i, i ≠ t → s i = s' i

omit [Fact (∀ r : K, r ^ 2 ≠ v + 0 * r)] in
theorem view_update (m : Mem K) (n : ℕ) (e : El K) :
    view v (Function.update m n e) = Function.update (view v m) n (alg v e) := by
  funext i
  unfold view
  by_cases h : i = n
  · subst h; simp
  · simp [h]

omit [Fact (∀ r : K, r ^ 2 ≠ v + 0 * r)] in
theorem view_mul (m : Mem K) (n a b : ℕ) :
    view v (mul v m n a b) = Function.update (view v m) n (view v m a * view v m b) := by
  rw [mul_eq, view_update, alg_mul]; rfl

theorem view_invert (m : Mem K) (n a : ℕ) (h : view v m a ≠ 0) :
    ∃ m', invert v m n a = some m' ∧ view v m' = Function.update (view v m) n (view v m a)⁻¹ := by
  refine ⟨_, by rw [invert_eq, if_neg (nrm_ne (m a) h)], ?_⟩
  rw [view_update, alg_inv]; rfl

theorem alg_int (z : ℤ) : alg v ⟨(z : K), 0⟩ = (z : QuadraticAlgebra K v 0) := by
  ext <;> simp [alg]

theorem exec_view (t : ℕ) (m : Mem K) (o : RingOp) (ht : t ∉ o.vars) (hok : o.ok (view v m)) :
    ∃ m', exec (fqOps v) t m o = some m' ∧ Agree t (view v m') (o.step (view v m)) := by
  cases o with
  | halve c a =>
    simp only [RingOp.vars, List.mem_cons, List.not_mem_nil, or_false, not_or] at ht
    have h2 : view v (setZ m t 2) t ≠ 0 := by
      rw [setZ_eq, view_update, alg_int]; simpa [RingOp.ok] using hok
    obtain ⟨m1, e1, v1⟩ := view_invert (setZ m t 2) t t h2
    refine ⟨mul v m1 c a t, ?_, ?_⟩
    · simp only [exec, halve, fqOps, e1]
    · intro i hi
      rw [view_mul, v1, setZ_eq, view_update, alg_int]
      by_cases h : i = c
      · subst h
        simp [RingOp.step, RingOp.dest, RingOp.value, Function.update, Ne.symm ht.2, div_eq_mul_inv]
      · simp [RingOp.step, RingOp.dest, h, hi]
  | div c a b =>
    simp only [RingOp.vars, List.mem_cons, List.not_mem_nil, or_false, not_or] at ht
    simp only [RingOp.ok] at hok
    by_cases hca : c = a
    · obtain ⟨m1, e1, v1⟩ := view_invert m t b hok
      refine ⟨mul v m1 c t a, ?_, ?_⟩
      · simp [exec, div, fqOps, e1, hca]
      · intro i hi
        rw [view_mul, v1]
        by_cases h : i = c
        · subst h
          simp [RingOp.step, RingOp.dest, RingOp.value, Function.update, Ne.symm ht.2.1,
            div_eq_mul_inv, mul_comm]
        · simp [RingOp.step, RingOp.dest, h, hi]
    · obtain ⟨m1, e1, v1⟩ := view_invert m c b hok
      refine ⟨mul v m1 c c a, ?_, ?_⟩
      · simp [exec, div, fqOps, e1, hca]
      · intro i hi
        rw [view_mul, v1]
        by_cases h : i = c
        · subst h
          simp [RingOp.step, RingOp.dest, RingOp.value, Function.update, Ne.symm hca,
            div_eq_mul_inv, mul_comm]
        · simp [RingOp.step, RingOp.dest, h]
  | invert c a =>
    obtain ⟨m1, e1, v1⟩ := view_invert m c a hok
    exact ⟨m1, e1, fun i _ => by rw [v1]; rfl⟩
  | mul c a b => exact ⟨_, rfl, fun i _ => by simp only [fqOps, view_mul]; rfl⟩
  | square c a =>
    exact ⟨_, rfl, fun i _ => by
      simp only [fqOps, square_eq, view_mul, RingOp.step, RingOp.dest, RingOp.value, sq]⟩
  | setSi c z => exact ⟨_, rfl, fun i _ => by rw [setZ_eq, view_update, alg_int]; rfl⟩
  | setMpz c z => exact ⟨_, rfl, fun i _ => by rw [setZ_eq, view_update, alg_int]; rfl⟩
  | set0 c => exact ⟨_, rfl, fun i _ => by rw [set0_eq, view_update]; rfl⟩
  | set1 c => exact ⟨_, rfl, fun i _ => by rw [set1_eq, view_update]; rfl⟩
  | set c a => exact ⟨_, rfl, fun i _ => by rw [set_eq, view_update]; rfl⟩
  | add c a b => exact ⟨_, rfl, fun i _ => by rw [add_eq, view_update]; rfl⟩
  | sub c a b => exact ⟨_, rfl, fun i _ => by rw [sub_eq, view_update]; rfl⟩
  | neg c a => exact ⟨_, rfl, fun i _ => by rw [neg_eq, view_update]; rfl⟩
  | double c a =>
    refine ⟨_, rfl, fun i _ => ?_⟩
    rw [double_eq, view_update]
    simp only [RingOp.step, RingOp.dest, RingOp.value]
    congr 1
    ext <;> simp [alg, view]
  | mulMpz c a z =>
    refine ⟨_, rfl, fun i _ => ?_⟩
    rw [mulZ_eq, view_update]
    simp only [RingOp.step, RingOp.dest, RingOp.value]
    congr 1
    ext <;> simp [alg, view]
  | mulSi c a z =>
    refine ⟨_, rfl, fun i _ => ?_⟩
    rw [mulZ_eq, view_update]
    simp only [RingOp.step, RingOp.dest, RingOp.value]
    congr 1
    ext <;> simp [alg, view]

theorem exec_congr_agree (t : ℕ) (s s' : ℕ → QuadraticAlgebra K v 0) (o : RingOp)
    (ht : t ∉ o.vars) (h : Agree t s s') : Agree t (o.step s) (o.step s') ∧ (o.ok s ↔ o.ok s') := by
  have hv : ∀ i ∈ o.vars, s i = s' i := fun i hi => h i (fun h' => ht (h' ▸ hi))
  constructor
  · intro i hi
    by_cases hd : i = o.dest
    · have : o.value s = o.value s' := by
        cases o <;> simp only [RingOp.vars, List.mem_cons, List.not_mem_nil, or_false,
          forall_eq_or_imp, forall_eq] at hv <;> simp [RingOp.value, hv]
      simp [RingOp.step, hd, this]
    · simp [RingOp.step, hd, h i hi]
  · cases o <;> simp only [RingOp.vars, List.mem_cons, List.not_mem_nil, or_false,
          forall_eq_or_imp, forall_eq] at hv <;> simp [RingOp.ok, hv]

theorem run_view (t : ℕ) (prog : List RingOp) (ht : ∀ o ∈ prog, t ∉ o.vars) :
    ∀ (m : Mem K) (s : ℕ → QuadraticAlgebra K v 0), Agree t (view v m) s → RingAllowed s prog →
    ∃ m', run (fqOps v) t m prog = some m' ∧ Agree t (view v m') (ringRun s prog) := by
  induction prog with
  | nil => intro m s h _; exact ⟨m, rfl, h⟩
  | cons o rest ih =>
    intro m s h hal
    have hto := ht o (by simp)
    obtain ⟨h1, h2⟩ := exec_congr_agree t _ _ o hto h
    obtain ⟨m1, e1, v1⟩ := exec_view t m o hto (h2.2 hal.1)
    obtain ⟨m2, e2, v2⟩ := ih (fun o' ho' => ht o' (by simp [ho'])) m1 (o.step s)
      (fun i hi => (v1 i hi).trans (h1 i hi)) hal.2
    exact ⟨m2, by simp only [run, e1, e2], v2⟩

end field

/-! ## Squares -/

section squares

variable (v : K)

theorem alg_sq_iff (e : El K) : IsSquare (alg v e) ↔
    ∃ a b : K, e.x = a ^ 2 + v * b ^ 2 ∧ e.y = 2 * a * b := by
  constructor
  · rintro ⟨r, hr⟩
    refine ⟨r.re, r.im, ?_, ?_⟩
    · have := congrArg QuadraticAlgebra.re hr
      simp [alg] at this
      rw [this]; ring
    · have := congrArg QuadraticAlgebra.im hr
      simp [alg] at this
      rw [this]; ring
  · rintro ⟨a, b, h1, h2⟩
    refine ⟨⟨a, b⟩, ?_⟩
    ext
    · simp [alg, h1]; ring
    · simp [alg, h2]; ring

theorem sqrt_none_of {q : K → Bool} {r : K → K} (m : Mem K) (n e : ℕ)
    (hq : ∀ a, q a = true ↔ IsSquare a) (hr : ∀ a, IsSquare a → r a ^ 2 = a)
    (hy : (m e).y = 0) (h : ¬ IsSquare (m e).x ∨ r ((m e).x ^ 2) = -(m e).x) :
    sqrt q r v m n e = none := by
  have r0 : r 0 = 0 := by
    have := hr 0 (by simp)
    simpa using this
  unfold sqrt inv?
  by_cases h2 : (2 : K) = 0
  · simp [h2]
  have hs := hr ((m e).x ^ 2) ⟨(m e).x, sq _⟩
  have hs' : r ((m e).x ^ 2) = (m e).x ∨ r ((m e).x ^ 2) = -(m e).x := sq_eq_sq_iff_eq_or_eq_neg.1 hs
  simp only [hy, h2, if_false]
  have e1 : (m e).x ^ 2 - 0 ^ 2 * v = (m e).x ^ 2 := by ring
  rw [e1]
  by_cases hneg : r ((m e).x ^ 2) = -(m e).x
  · rw [hneg]
    have : q 0 = true := (hq 0).2 (by simp)
    simp [this, r0]
  · have hx : ¬ IsSquare (m e).x := h.resolve_right hneg
    have hpos := hs'.resolve_right hneg
    rw [hpos]
    have e2 : ((m e).x + (m e).x) * (2 : K)⁻¹ = (m e).x := by
      field_simp; ring
    have : q (m e).x = false := by
      rw [Bool.eq_false_iff]; exact fun h' => hx ((hq _).1 h')
    simp [e2, this, r0]

theorem sqrt_some_of {q : K → Bool} {r : K → K} (m : Mem K) (n e : ℕ)
    (hq : ∀ a, q a = true ↔ IsSquare a) (hr : ∀ a, IsSquare a → r a ^ 2 = a)
    (h2 : (2 : K) ≠ 0) (hv : ¬ IsSquare v)
    (hsq : IsSquare (alg v (m e)))
    (hok : (m e).y ≠ 0 ∨ (m e).x ≠ 0 ∧ IsSquare (m e).x ∧ r ((m e).x ^ 2) = (m e).x) :
    ∃ m', sqrt q r v m n e = some m' ∧ alg v (m' n) ^ 2 = alg v (m e) ∧
      ∀ i, i ≠ n → m' i = m i := by
  obtain ⟨a, b, hx, hy⟩ := (alg_sq_iff v (m e)).1 hsq
  set x := (m e).x with hxd
  set y := (m e).y with hyd
  set s := r (x ^ 2 - y ^ 2 * v) with hs
  -- the value finally passed to the base square root
  set e1 := if !q ((x + s) * (2 : K)⁻¹) then (x + s) * (2 : K)⁻¹ - s else (x + s) * (2 : K)⁻¹ with he1
  have key : e1 ≠ 0 ∧ IsSquare e1 ∧ e1 ^ 2 - x * e1 + v * y ^ 2 * (2 : K)⁻¹ ^ 2 = 0 := by
    have hs2 : s ^ 2 = (a ^ 2 - v * b ^ 2) ^ 2 := by
      rw [hs, hr _ ⟨a ^ 2 - v * b ^ 2, by rw [hx, hy]; ring⟩, hx, hy]; ring
    have i2 : (2 : K) * 2⁻¹ = 1 := mul_inv_cancel₀ h2
    by_cases hy0 : y = 0
    · obtain ⟨hx0, hxs, hrx⟩ := hok.resolve_left (fun h => h hy0)
      have hs' : s = x := by
        rw [hs, hy0]
        have : x ^ 2 - 0 ^ 2 * v = x ^ 2 := by ring
        rw [this, hrx]
      have hh : (x + s) * (2 : K)⁻¹ = x := by rw [hs']; linear_combination x * i2
      have hqt : q x = true := (hq _).2 hxs
      have hes : e1 = x := by rw [he1, hh, hqt]; simp
      refine ⟨by rw [hes]; exact hx0, by rw [hes]; exact hxs, by rw [hes, hy0]; ring⟩
    · have ha : a ≠ 0 := by rintro rfl; apply hy0; rw [hy]; ring
      have hb : b ≠ 0 := by rintro rfl; apply hy0; rw [hy]; ring
      have hvb : ¬ IsSquare (v * b ^ 2) := by
        rintro ⟨c, hc⟩
        exact hv ⟨c / b, by field_simp; rw [hc, sq]⟩
      have hes : e1 = a ^ 2 := by
        rcases sq_eq_sq_iff_eq_or_eq_neg.1 hs2 with h | h
        · have hh : (x + s) * (2 : K)⁻¹ = a ^ 2 := by
            rw [hx, h]; linear_combination a ^ 2 * i2
          have hqt : q (a ^ 2) = true := (hq _).2 ⟨a, sq a⟩
          rw [he1, hh, hqt]; simp
        · have hh : (x + s) * (2 : K)⁻¹ = v * b ^ 2 := by
            rw [hx, h]; linear_combination v * b ^ 2 * i2
          have hqf : q (v * b ^ 2) = false := by
            rw [Bool.eq_false_iff]; exact fun h' => hvb ((hq _).1 h')
          rw [he1, hh, hqf, h]; simp
      refine ⟨by rw [hes]; exact pow_ne_zero 2 ha, ⟨a, by rw [hes, sq]⟩, ?_⟩
      rw [hes, hx, hy]
      linear_combination (v * a ^ 2 * b ^ 2) * (i2 * ((2 : K) * 2⁻¹ + 1))
  obtain ⟨hne, hsqr, heq⟩ := key
  have hre : r e1 ^ 2 = e1 := hr _ hsqr
  have hre0 : r e1 ≠ 0 := by
    intro h; rw [h] at hre; exact hne (by rw [← hre]; ring)
  have hd : r e1 + r e1 ≠ 0 := by
    rw [← two_mul]; exact mul_ne_zero h2 hre0
  refine ⟨Function.update m n ⟨r e1, y * (r e1 + r e1)⁻¹⟩, ?_, ?_, ?_⟩
  · unfold sqrt inv?
    simp only [h2, if_false]
    simp only [← hxd, ← hyd, ← hs, ← he1, hd, if_false, wx_wy]
  · have : alg v ⟨r e1, y * (r e1 + r e1)⁻¹⟩ ^ 2 = alg v (m e) := by
      have hx' : x = e1 + v * y ^ 2 * (2 : K)⁻¹ ^ 2 * e1⁻¹ := by
        have : e1 * e1⁻¹ = 1 := mul_inv_cancel₀ hne
        linear_combination (-e1⁻¹) * heq + (e1 - x) * this
      ext
      · rw [sq]
        simp only [re_mul, alg]
        rw [← hxd, hx', ← two_mul]
        simp only [mul_inv]
        rw [← sq, hre]
        have : (r e1)⁻¹ * (r e1)⁻¹ = e1⁻¹ := by rw [← mul_inv, ← sq, hre]
        linear_combination (v * y ^ 2 * (2 : K)⁻¹ ^ 2) * this
      · rw [sq]
        simp only [im_mul, alg]
        rw [← hyd]
        have h3 : (r e1 + r e1) * (r e1 + r e1)⁻¹ = 1 := mul_inv_cancel₀ hd
        linear_combination y * h3
    simpa using this
  · intro i hi; simp [hi]

theorem isSquare_mul_of_not [Fintype K] {a b : K} (ha : ¬ IsSquare a) (hb : ¬ IsSquare b) :
    IsSquare (a * b) := by
  have h2 : ringChar K ≠ 2 := fun h => ha (FiniteField.isSquare_of_char_two h a)
  have ha' := (quadraticChar_neg_one_iff_not_isSquare).2 ha
  have hb' := (quadraticChar_neg_one_iff_not_isSquare).2 hb
  have h0 : a * b ≠ 0 := mul_ne_zero (fun h => ha (h ▸ IsSquare.zero)) (fun h => hb (h ▸ IsSquare.zero))
  rw [← quadraticChar_one_iff_isSquare h0, map_mul, ha', hb']
  norm_num

theorem isSqr_iff [Fintype K] {q : K → Bool} (hq : ∀ a, q a = true ↔ IsSquare a)
    (hv : ¬ IsSquare v) (e : El K) : isSqr q v e = true ↔ IsSquare (alg v e) := by
  have h2 : (2 : K) ≠ 0 := by
    intro h
    refine hv (FiniteField.isSquare_of_char_two ?_ v)
    have := CharP.ringChar_of_prime_eq_zero Nat.prime_two (by exact_mod_cast h)
    exact this
  have i2 : (2 : K) * 2⁻¹ = 1 := mul_inv_cancel₀ h2
  unfold isSqr
  rw [hq]
  constructor
  · rintro ⟨s, hs⟩
    rw [alg_sq_iff]
    by_cases hy : e.y = 0
    · by_cases hx : IsSquare e.x
      · obtain ⟨a, ha⟩ := hx
        exact ⟨a, 0, by rw [ha]; ring, by rw [hy]; ring⟩
      · obtain ⟨c, hc⟩ := isSquare_mul_of_not hv hx
        have hv0 : v ≠ 0 := fun h => hv (h ▸ IsSquare.zero)
        refine ⟨0, c / v, ?_, by rw [hy]; ring⟩
        field_simp
        linear_combination hc
    · -- one of the two candidates is a square
      have hprod : ((e.x + s) * 2⁻¹) * ((e.x - s) * 2⁻¹) = v * (e.y * 2⁻¹) ^ 2 := by
        linear_combination (2 : K)⁻¹ ^ 2 * hs
      have fin : ∀ u : K, IsSquare u → u ^ 2 - e.x * u + v * (e.y * 2⁻¹) ^ 2 = 0 →
          ∃ a b : K, e.x = a ^ 2 + v * b ^ 2 ∧ e.y = 2 * a * b := by
        rintro u ⟨a, ha⟩ hu
        have ha0 : a ≠ 0 := by
          rintro rfl
          have hv0 : v ≠ 0 := fun h => hv (h ▸ IsSquare.zero)
          rw [ha] at hu
          have : v * (e.y * 2⁻¹) ^ 2 = 0 := by linear_combination hu
          exact mul_ne_zero hv0 (pow_ne_zero 2 (mul_ne_zero hy (inv_ne_zero h2))) this
        refine ⟨a, e.y * 2⁻¹ / a, ?_, ?_⟩
        · rw [ha] at hu
          field_simp
          field_simp at hu
          linear_combination -hu
        · field_simp
      by_cases h1 : IsSquare ((e.x + s) * 2⁻¹)
      · exact fin _ h1 (by linear_combination -hprod + ((e.x+s) * 2⁻¹ * e.x) * i2)
      · by_cases h3 : IsSquare ((e.x - s) * 2⁻¹)
        · exact fin _ h3 (by linear_combination -hprod + ((e.x-s) * 2⁻¹ * e.x) * i2)
        · exfalso
          obtain ⟨c, hc⟩ := isSquare_mul_of_not h1 h3
          rw [hprod] at hc
          have hy2 : e.y * 2⁻¹ ≠ 0 := mul_ne_zero hy (inv_ne_zero h2)
          exact hv ⟨c / (e.y * 2⁻¹), by
            rw [div_mul_div_comm, ← hc, ← sq, mul_div_assoc, div_self (pow_ne_zero 2 hy2), mul_one]⟩
  · rw [alg_sq_iff]
    rintro ⟨a, b, hx, hy⟩
    exact ⟨a ^ 2 - v * b ^ 2, by rw [hx, hy]; ring⟩

end squares

end Pbc.Quad
