import Verif.Lemmas.EllNetLoop
import Verif.Lemmas.BaseChange

/-!
# Elliptic nets and Miller functions

The value `W(r+1, 1)` of the net of `P` and a place `Q` is, up to a factor in the ground field, the
inverse of a Miller function of `-P` with divisor `r (-P) - r O`, at `Q`.
-/

set_option autoImplicit false
set_option linter.unusedSectionVars false

namespace EllNet

open WeierstrassCurve WeierstrassCurve.Affine
open Spec (EC PtRep)
open Tate
open Pbc.PairingD (incl incl_add two_up nonsingular_up)

variable {K : Type*} [Field K] [DecidableEq K] {L : Type*} [Field L] [DecidableEq L] [Algebra K L]
variable {a b : K}

theorem xc_incl (T : (EC a b).Point) : xc (incl (K := L) T) = algebraMap K L (xc T) := by
  rcases T with _ | ⟨x, y, h⟩
  · exact (map_zero _).symm
  · rfl

theorem yc_incl (T : (EC a b).Point) : yc (incl (K := L) T) = algebraMap K L (yc T) := by
  rcases T with _ | ⟨x, y, h⟩
  · exact (map_zero _).symm
  · rfl

theorem incl_eq_zero {T : (EC a b).Point} : incl (K := L) T = 0 ↔ T = 0 := by
  rcases T with _ | ⟨x, y, h⟩
  · exact ⟨fun _ => rfl, fun _ => rfl⟩
  · exact ⟨fun e => absurd e (Point.some_ne_zero _), fun e => absurd e (Point.some_ne_zero _)⟩

theorem incl_neg (T : (EC a b).Point) : incl (K := L) (-T) = -incl T := by
  rcases T with _ | ⟨x, y, h⟩
  · rfl
  · simp only [incl, Point.neg_some, Pbc.Curve.negY_EC, map_neg]

theorem incl_nsmul (h2 : (2 : K) ≠ 0) (n : ℕ) (T : (EC a b).Point) :
    incl (K := L) (n • T) = n • incl T := by
  induction n with
  | zero => rw [zero_nsmul, zero_nsmul]; rfl
  | succ n ih => rw [succ_nsmul, succ_nsmul, incl_add h2, ih]

theorem incl_zsmul (h2 : (2 : K) ≠ 0) (n : ℤ) (T : (EC a b).Point) :
    incl (K := L) (n • T) = n • incl T := by
  rcases n with n | n
  · exact incl_nsmul h2 n T
  · rw [negSucc_zsmul, negSucc_zsmul, incl_neg, incl_nsmul h2]

theorem psi_incl (h2 : (2 : K) ≠ 0) (P : (EC a b).Point) (n : ℕ) :
    psi (incl (K := L) P) n = algebraMap K L (psi P n) := by
  induction n using Nat.strong_induction_on with
  | _ n ih =>
    match n with
    | 0 => simp [psi]
    | 1 => simp [psi]
    | 2 => rw [psi, psi, yc_incl, map_mul, map_ofNat]
    | n + 3 =>
      rw [psi, psi, ih _ (by omega), ih _ (by omega), ← incl_nsmul h2, xc_incl, xc_incl, map_div₀,
        map_mul, map_pow, map_sub]

theorem Ord.incl {P : (EC a b).Point} {r : ℕ} (h : Ord P r) : Ord (incl (K := L) P) r where
  two := two_up h.two
  five := h.five
  ne n h0 h1 := by
    rw [← incl_nsmul h.two, Ne, incl_eq_zero]
    exact h.ne n h0 h1
  zero := by rw [← incl_nsmul h.two, incl_eq_zero, h.zero]

/-- A place is a point over `L`. -/
def pt (h2 : (2 : K) ≠ 0) (Q : Place L a b) :
    (EC (algebraMap K L a) (algebraMap K L b)).Point :=
  .some (algebraMap K L Q.x) Q.Y (by
    rw [nonsingular_iff, equation_iff]
    have e := Q.eqn
    simp only [map_add, map_mul, map_pow] at e
    refine ⟨by simpa [EC] using e, .inr ?_⟩
    simp only [EC, zero_mul, sub_zero]
    intro e
    have h0 : Q.Y ≠ 0 := fun e => Q.irr 0 (by rw [e, map_zero])
    exact mul_ne_zero (two_up h2) h0 (by linear_combination e))

theorem xc_pt (h2 : (2 : K) ≠ 0) (Q : Place L a b) : xc (pt h2 Q) = algebraMap K L Q.x := rfl

theorem yc_pt (h2 : (2 : K) ≠ 0) (Q : Place L a b) : yc (pt h2 Q) = Q.Y := rfl

theorem off_pt (h2 : (2 : K) ≠ 0) (P : (EC a b).Point) (Q : Place L a b) :
    Off (incl (K := L) P) (pt h2 Q) := by
  intro n e
  have : pt h2 Q = incl (K := L) (-(n • P)) := by
    rw [incl_neg, incl_zsmul h2]
    exact eq_neg_of_add_eq_zero_right e
  have := congrArg yc this
  rw [yc_pt, yc_incl] at this
  exact Q.irr _ this

/-- The line through `-A` and `-P`. -/
theorem isLine_neg {A P : (EC a b).Point} (hA : A ≠ 0) (hP : P ≠ 0) (hx : xc A ≠ xc P) :
    IsLine a b ((yc A - yc P) / (xc A - xc P)) 1
      (yc A - (yc A - yc P) / (xc A - xc P) * xc A) (-A) (-P) := by
  rcases A with _ | ⟨x, y, h⟩
  · exact absurd rfl hA
  rcases P with _ | ⟨x', y', h'⟩
  · exact absurd rfl hP
  simp only [Point.neg_some, Pbc.Curve.negY_EC]
  change x ≠ x' at hx
  change IsLine a b ((y - y') / (x - x')) 1 (y - (y - y') / (x - x') * x) _ _
  have h1 := sub_ne_zero.2 hx
  have h2 := sub_ne_zero.2 hx.symm
  refine isLine_ch _ _ hx (c := (x' - x)⁻¹) (inv_ne_zero h2) ?_ ?_ ?_ <;> field_simp <;> ring

/-- The tangent at `-A`. -/
theorem isLine_neg_dbl (h2 : (2 : K) ≠ 0) {A : (EC a b).Point} (hA : A ≠ 0) (hy : yc A ≠ 0) :
    IsLine a b ((3 * xc A ^ 2 + a) / (2 * yc A)) 1
      (yc A - (3 * xc A ^ 2 + a) / (2 * yc A) * xc A) (-A) (-A) := by
  rcases A with _ | ⟨x, y, h⟩
  · exact absurd rfl hA
  simp only [Point.neg_some, Pbc.Curve.negY_EC]
  change y ≠ 0 at hy
  change IsLine a b ((3 * x ^ 2 + a) / (2 * y)) 1 (y - (3 * x ^ 2 + a) / (2 * y) * x) _ _
  have h1 := mul_ne_zero h2 hy
  refine isLine_dbl h2 _ (neg_ne_zero.2 hy) (c := -(2 * y)⁻¹) (neg_ne_zero.2 (inv_ne_zero h1)) ?_ ?_ ?_ <;>
    field_simp

variable {P : (EC a b).Point} {r : ℕ}

/-- The terms `W(n, 1)` are inverses of Miller functions of `-P`. -/
theorem net_mil (h : Ord P r) : ∀ n : ℕ, n + 3 ≤ r → ∃ f : Place L a b → L,
    Mil L (-P) ((n + 1 : ℕ) : ℤ) f ∧ ∀ Q, Sim K (f Q) (wn (incl P) (pt h.two Q) (n + 3))⁻¹ := by
  intro n
  induction n with
  | zero =>
    intro _
    refine ⟨fun _ => 1, ?_, fun Q => ?_⟩
    · rw [zero_add, Nat.cast_one]; exact Mil.one
    · rw [zero_add, (off_pt h.two P Q).w1 h.incl.one, inv_one]
      exact Sim.refl _
  | succ n ih =>
    intro hr
    obtain ⟨f, hf, hs⟩ := ih (by omega)
    have hz : ((n + 1 : ℕ) : ℤ) • -P = -((n + 1) • P) := by rw [natCast_zsmul, smul_neg]
    have hA : (n + 1) • P ≠ 0 := h.ne _ (by omega) (by omega)
    -- the line and its value
    obtain ⟨α, γ, hl, hv⟩ : ∃ α γ : K, IsLine a b α 1 γ (-((n + 1) • P)) (-P) ∧
        ∀ Q : Place L a b, lval α 1 γ Q = inc (incl P) (pt h.two Q) ((n + 2) • incl P) *
          algebraMap K L (Q.x - xc ((n + 2) • P)) := by
      have hB : xc ((n + 2) • incl (K := L) P) ≠ xc (incl (K := L) P) := h.incl.x_ne (by omega) (by omega)
      have hBQ := fun Q => (off_pt (L := L) h.two P Q).xQ_ne h.incl (n := n + 2) (by omega) (by omega)
      have hm : ∀ Q : Place L a b, algebraMap K L (Q.x - xc ((n + 2) • P)) =
          xc (pt h.two Q) - xc ((n + 2) • incl (K := L) P) := by
        intro Q
        rw [← incl_nsmul h.two, xc_incl, xc_pt, map_sub]
      rcases Nat.eq_zero_or_pos n with rfl | hn
      · have hy : yc P ≠ 0 := by
          have := h.y_ne (n := 1) le_rfl (by omega) (by have := h.five; omega)
          rwa [one_nsmul] at this
        refine ⟨_, _, by rw [zero_add, one_nsmul]; exact isLine_neg_dbl h.two h.one hy, fun Q => ?_⟩
        rw [hm]
        rw [zero_add, two_nsmul] at hB hBQ ⊢
        rw [inc_two h.incl.two h.incl.one (by rw [yc_incl]; exact (_root_.map_ne_zero _).2 hy) hB (hBQ Q),
          yc_pt, xc_pt, xc_incl, yc_incl]
        simp only [lval, map_sub, map_mul, map_div₀, map_add, map_pow, map_ofNat, map_one]
        ring
      · have hx := h.x_ne (n := n + 1) (by omega) (by omega)
        have hx' : xc ((n + 1) • incl (K := L) P) ≠ xc (incl (K := L) P) := h.incl.x_ne (by omega) (by omega)
        refine ⟨_, _, isLine_neg hA h.one hx, fun Q => ?_⟩
        rw [hm]
        have e : (n + 2) • incl (K := L) P = (n + 1) • incl P + incl P := succ_nsmul _ _
        rw [e] at hB hBQ ⊢
        rw [inc_line (h.incl.ne _ (by omega) (by omega)) h.incl.one hx' hB (hBQ Q),
          yc_pt, xc_pt, ← incl_nsmul h.two, xc_incl, yc_incl, xc_incl, yc_incl]
        simp only [lval, map_sub, map_mul, map_div₀, map_one]
        ring
    refine ⟨fun Q => f Q * lval α 1 γ Q, ?_, fun Q => ?_⟩
    · have := Mil.succ hf (hz ▸ hl)
      push_cast at this ⊢
      exact this
    · have ho := off_pt (L := L) h.two P Q
      have hq : Q.x - xc ((n + 2) • P) ≠ 0 := by
        have := ho.xQ_ne h.incl (n := n + 2) (by omega) (by omega)
        rw [← incl_nsmul h.two, xc_incl, xc_pt] at this
        exact sub_ne_zero.2 fun e => this (by rw [e])
      have hr' := ho.ratio h.incl n (by omega)
      rw [psi_incl h.two, psi_incl h.two] at hr'
      have p1 := h.psi_ne (n + 1) (by omega) (by omega)
      have p2 := h.psi_ne (n + 2) (by omega) (by omega)
      have p1' : algebraMap K L (psi P (n + 1)) ≠ 0 := (_root_.map_ne_zero _).2 p1
      have w3 := ho.wn_ne h.incl.one (n + 3)
      have w4 := ho.wn_ne h.incl.one (n + 4)
      refine ((hs Q).mul (Sim.refl _)).trans ?_
      rw [hv]
      refine ⟨psi P (n + 2) / psi P (n + 1) * (Q.x - xc ((n + 2) • P)),
        mul_ne_zero (div_ne_zero p2 p1) hq, ?_⟩
      rw [map_mul, map_div₀]
      change _ = _ * (wn (incl P) (pt h.two Q) (n + 4))⁻¹
      field_simp
      linear_combination -algebraMap K L (Q.x - xc ((n + 2) • P)) * hr'

/-- The term `W(r + 1, 1)`. -/
theorem net_full (h : Ord P r) (hodd : Odd r) : ∃ f : Place L a b → L,
    Full (-P) r f ∧ ∀ Q, Sim K (f Q) (wn (incl P) (pt h.two Q) (r + 3))⁻¹ := by
  obtain ⟨m, hm⟩ := hodd
  have h5 := h.five
  obtain ⟨f, hf, hs⟩ := net_mil (L := L) h m (by omega)
  have hz : ((m + 1 : ℕ) : ℤ) • -P = -((m + 1) • P) := by rw [natCast_zsmul, smul_neg]
  have hA : (m + 1) • P ≠ 0 := h.ne _ (by omega) (by omega)
  have hy : yc ((m + 1) • P) ≠ 0 := h.y_ne (by omega) (by omega) (by omega)
  have hl := isLine_neg_dbl h.two hA hy
  have hd := Mil.dbl hf (hz ▸ hl)
  have hAA : (m + 1) • P + (m + 1) • P = P := by
    rw [← add_nsmul, show m + 1 + (m + 1) = r + 1 by omega, succ_nsmul, h.zero, zero_add]
  refine ⟨_, Mil.full_succ hd ?_ ?_, fun Q => ?_⟩
  · rw [smul_neg, h.zero, neg_zero]
  · rw [hm]; push_cast; ring
  · have ho := off_pt (L := L) h.two P Q
    have hq : Q.x - xc P ≠ 0 := by
      have := ho.xQ_ne h.incl (n := 1) (by omega) (by omega)
      rw [one_nsmul, xc_incl, xc_pt] at this
      exact sub_ne_zero.2 fun e => this (by rw [e])
    have hxA := ho.xQ_ne h.incl (n := m + 1) (by omega) (by omega)
    have hA' : (m + 1) • incl (K := L) P ≠ 0 := h.incl.ne _ (by omega) (by omega)
    have hy' : yc ((m + 1) • incl (K := L) P) ≠ 0 := h.incl.y_ne (by omega) (by omega) (by omega)
    have t := tangent_step h.incl.two hA' hy' ho.Q_ne hxA
    rw [← incl_nsmul h.two, ← incl_add h.two, hAA] at t
    have mn := ho.main h.incl (n := m + 1) (k := m + 1) (by omega) (by omega) (by omega)
    rw [show m + 1 + (m + 1) + 2 = r + 3 by omega, show m + 1 + 2 - (m + 1) = 2 by omega,
      ho.w0 h.incl.one, mul_one, psi_incl h.two, ← incl_nsmul h.two] at mn
    have p1 := h.psi_ne (m + 1) (by omega) (by omega)
    have w1 := ho.wn_ne h.incl.one (m + 3)
    have w2 := ho.wn_ne h.incl.one (r + 3)
    have p1' : algebraMap K L (psi P (m + 1)) ≠ 0 := (_root_.map_ne_zero _).2 p1
    refine (((hs Q).pow 2).mul (Sim.refl _)).trans ?_
    refine ⟨psi P (m + 1) ^ 2 * (2 * yc ((m + 1) • P) * (Q.x - xc P)), mul_ne_zero (pow_ne_zero _ p1)
      (mul_ne_zero (mul_ne_zero h.two hy) hq), ?_⟩
    have hv : lval ((3 * xc ((m + 1) • P) ^ 2 + a) / (2 * yc ((m + 1) • P))) 1
        (yc ((m + 1) • P) - (3 * xc ((m + 1) • P) ^ 2 + a) / (2 * yc ((m + 1) • P)) * xc ((m + 1) • P)) Q =
        yc (pt h.two Q) + yc (incl (K := L) ((m + 1) • P)) + (3 * xc (incl (K := L) ((m + 1) • P)) ^ 2 +
          algebraMap K L a) / (2 * yc (incl (K := L) ((m + 1) • P))) *
            (xc (pt h.two Q) - xc (incl (K := L) ((m + 1) • P))) := by
      rw [yc_pt, xc_pt, xc_incl, yc_incl]
      simp only [lval, map_sub, map_mul, map_div₀, map_add, map_pow, map_ofNat, map_one]
      ring
    rw [hv]
    have t' := t
    rw [yc_incl, xc_incl] at t'
    simp only [map_mul, map_pow, map_sub, map_ofNat]
    rw [← xc_pt h.two Q, ← xc_incl P, ← yc_incl]
    generalize yc (pt h.two Q) + yc (incl (K := L) ((m + 1) • P)) + (3 * xc (incl (K := L) ((m + 1) • P)) ^ 2 +
          algebraMap K L a) / (2 * yc (incl (K := L) ((m + 1) • P))) *
            (xc (pt h.two Q) - xc (incl (K := L) ((m + 1) • P))) = l at t ⊢
    rw [inv_pow, inv_mul_eq_div, ← div_eq_mul_inv, div_eq_div_iff (pow_ne_zero 2 w1) w2]
    rw [mn]
    linear_combination (wn (incl P) (pt h.two Q) (m + 3) ^ 2 * algebraMap K L (psi P (m + 1)) ^ 2) * t

/-- The reduced pairing is a power of the term `W(r + 1, 1)`. -/
theorem tate_net {e : ℕ} (hk : Kills K L r e) (h : Ord P r) (hodd : Odd r) (Q : Place L a b) :
    tate r e P Q = wn (incl P) (pt h.two Q) (r + 3) ^ e := by
  obtain ⟨f, hf, hs⟩ := net_full (L := L) h hodd
  obtain ⟨g, hg⟩ := exists_full (L := L) h.one hodd.pos.ne' h.zero
  have e1 := Full.add_neg hk hg hf Q
  rw [hk.sim (hs Q), inv_pow] at e1
  rw [tate_eq hk h.one hg]
  have := (off_pt (L := L) h.two P Q).wn_ne h.incl.one (r + 3)
  exact eq_of_mul_inv_eq_one e1

section

variable {P Q : (EC a b).Point}

theorem Off.x_ne0 (hP : P ≠ 0) (ho : Off P Q) : xc P ≠ xc Q := by
  have := ho.x_ne hP 0
  rw [zero_zsmul, zero_add] at this
  exact this.symm

/-- `W(-2, 1)`. -/
theorem Off.w_neg (hP : P ≠ 0) (ho : Off P Q) : wn P Q 0 =
    (2 * xc P + xc Q) * (xc P - xc Q) ^ 2 - (yc P + yc Q) ^ 2 := by
  have hx := ho.x_ne0 hP
  have h0 := sub_ne_zero.2 hx
  obtain ⟨-, e, -⟩ := sub_x hP ho.Q_ne hx
  rw [wn, ← neg_sub P Q, xc_neg, e]
  field_simp
  ring

/-- `W(2, 1)`. -/
theorem Off.w_two (hP : P ≠ 0) (ho : Off P Q) : wn P Q 4 =
    2 * xc P + xc Q - ((yc P - yc Q) / (xc P - xc Q)) ^ 2 := by
  have hx := ho.x_ne0 hP
  obtain ⟨-, e, -⟩ := add_x hP ho.Q_ne hx
  rw [ho.w2 hP, add_comm Q, e]
  ring

end

open Pbc.EllNet in
/-- The value left by the loop of the routines. -/
theorem net_loop_steps {F V : Type*} [Field F] [DecidableEq F] {ι : F →+* L} {φ : V → L} {o : Ops F V}
    {a b x y : F} {P : (EC (ι a) (ι b)).Point} {r hi : ℕ} {w : ℕ → L} (h : Ord P r) (ho : Steps P r hi w)
    (hx : xc P = ι x) (hy : yc P = ι y) (hop : OpsRep ι φ o (w 1)⁻¹ (w 0)⁻¹) (h7 : 7 ≤ r)
    (hhi : 2 * (r / 2) + 4 ≤ hi)
    {C : F} (hC : C * (2 * y) = 1) {d : DBlock V} (e1 : φ d.dm1 = 1) (e2 : φ d.d0 = 1)
    (e3 : φ d.d1 = w 4) :
    φ (loop o C r (Pbc.PairingD.start r) (first a b x y) d).2.d1 = w (r + 3) := by
  have hs := Pbc.PairingD.start_shift (r := r) (by omega)
  refine (loop_d h ho hx hy hop h7 hhi hC _ _ _ (by rw [hs]) ?_ ?_).d1
  · rw [hs]; exact first_at a b x y
  · rw [hs]
    exact ⟨by rw [e1, ho.w0], by rw [e2, ho.w1], e3⟩

open Pbc.EllNet in
/-- The value left by the loop of the routines, for points that are not multiples. -/
theorem net_loop {F V : Type*} [Field F] [DecidableEq F] {ι : F →+* L} {φ : V → L} {o : Ops F V}
    {a b x y : F} {P Q : (EC (ι a) (ι b)).Point} {r : ℕ} (h : Ord P r) (ho : Off P Q)
    (hx : xc P = ι x) (hy : yc P = ι y) (hop : OpsRep ι φ o (wn P Q 1)⁻¹ (wn P Q 0)⁻¹) (h7 : 7 ≤ r)
    {C : F} (hC : C * (2 * y) = 1) {d : DBlock V} (e1 : φ d.dm1 = 1) (e2 : φ d.d0 = 1)
    (e3 : φ d.d1 = wn P Q 4) :
    φ (loop o C r (Pbc.PairingD.start r) (first a b x y) d).2.d1 = wn P Q (r + 3) :=
  net_loop_steps h (ho.steps h _) hx hy hop h7 le_rfl hC e1 e2 e3

/-- A point of prime order. -/
theorem ord_prime (h2 : (2 : K) ≠ 0) {P : (EC a b).Point} {r : ℕ} (hr : r.Prime) (h5 : 5 ≤ r) (hP : P ≠ 0)
    (h0 : r • P = 0) : Ord P r where
  two := h2
  five := h5
  ne n h1 h2 e := by
    have ho : addOrderOf P = r := (hr.eq_one_or_self_of_dvd _ (addOrderOf_dvd_of_nsmul_eq_zero h0)).resolve_left
      fun h => hP (AddMonoid.addOrderOf_eq_one_iff.1 h)
    have := Nat.le_of_dvd h1 (addOrderOf_dvd_of_nsmul_eq_zero e)
    omega
  zero := h0

end EllNet
