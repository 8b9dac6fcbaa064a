import Verif.Lemmas.EllNetTate
import Verif.Lemmas.TateK

/-! # Elliptic nets and the pairing between points of one field -/

set_option autoImplicit false
set_option linter.unusedSectionVars false

namespace TateK

open WeierstrassCurve WeierstrassCurve.Affine
open Spec (EC)
open Tate (IsLine)

variable {K : Type*} [Field K] [DecidableEq K] {a b : K} {H H' : AddSubgroup (EC a b).Point}

/-- A Miller function with leading coefficient 1 at `O`. -/
structure MonicK (H : AddSubgroup (EC a b).Point) (P : (EC a b).Point) (n : ℤ) (f : Off H → K) : Prop where
  mil : MilK H P n f
  recip : ∃ c : K, c ≠ 0 ∧
    (∀ A B C s t, Col (H := H) A B C s t → f A * f B * f C * lvK s t (n • P) = c * lvK s t P ^ n) ∧
    (∀ A B : Off H, B.pt = -A.pt → f A * f B * vval (n • P) A = c * vval P A ^ n)

variable {f g : Off H → K} {P Q R : (EC a b).Point}

theorem MonicK.one : MonicK H P 1 (fun _ => 1) :=
  ⟨MilK.one, 1, one_ne_zero, fun A B C s t h => by simp, fun A B h => by simp⟩

theorem MonicK.add (hP : P ∈ H) {n m : ℤ} {α γ : K} (hf : MonicK H P n f) (hg : MonicK H P m g)
    (hl : IsLine a b α 1 γ (n • P) (m • P)) :
    MonicK H P (n + m) (fun A => f A * g A * (lvalK α 1 γ A / vval (n • P + m • P) A)) := by
  obtain ⟨c, hc, h1, h2⟩ := hf.recip
  obtain ⟨d, hd, k1, k2⟩ := hg.recip
  refine ⟨hf.mil.add hg.mil hl, c * d * -1, mul_ne_zero (mul_ne_zero hc hd) (by simp),
    fun A B C s t h => ?_, fun A B h => ?_⟩
  · have := recip_add hP hl h (h1 A B C s t h) (k1 A B C s t h)
    rwa [one_pow] at this
  · have := recipV_add hP hl h (h2 A B h) (k2 A B h)
    rwa [one_pow] at this

theorem MonicK.congr {n : ℤ} (h : MonicK H P n f) (he : ∀ A, g A = f A) : MonicK H P n g := by
  have : g = f := funext he
  rwa [this]

/-- For a function with divisor `r (P) - r (O)` and leading coefficient 1, a value is, up to `r`-th powers,
the quotient of the values at shifted points. -/
theorem MonicK.shift (hP : P ∈ H) {r e : ℕ} (hk : KillsK K r e) (hr : r • P = 0)
    (h : MonicK H P ((r + 1 : ℕ) : ℤ) f) {A B C : Off H} (hB : B.pt = R) (hA : A.pt = Q) (hC : C.pt = Q + R) :
    f A ^ e = (f C / f B) ^ e := by
  obtain ⟨c, hc, h1, h2⟩ := h.recip
  have hz : ((r + 1 : ℕ) : ℤ) • P = P := by rw [natCast_zsmul, succ_nsmul, hr, zero_add]
  rw [hz] at h1 h2
  obtain ⟨S, hS⟩ := exists_off (H := H) (P := -(Q + R)) fun h => C.pt_notMem (by
    rw [hC]; have := H.neg_mem h; rwa [neg_neg] at this)
  obtain ⟨s, t, hcol⟩ := exists_col (A := A) (B := B) (C := S) (by rw [hA, hB, hS, add_neg_cancel])
  have e1 := h1 A B S s t hcol
  have e2 := h2 C S (by rw [hS, hC])
  have l0 := lvK_ne hcol hP
  have v0 := vval_ne hP C
  have hne := (h.mil.hasDiv hP).ne_zero
  have nA := hne A
  have nB := hne B
  have nC := hne C
  have nS := hne S
  rw [zpow_natCast, pow_succ, ← mul_assoc] at e1 e2
  have e1 := mul_right_cancel₀ l0 e1
  have e2 := mul_right_cancel₀ v0 e2
  have key : f A = f C / f B * (lvK s t P / vval P C) ^ r := by
    rw [div_pow]
    have : vval P C ^ r ≠ 0 := pow_ne_zero _ v0
    field_simp
    refine mul_right_cancel₀ (mul_ne_zero hc nS) ?_
    linear_combination (c * vval P C ^ r) * e1 - c * lvK s t P ^ r * e2
  rw [key, mul_pow, hk _ (div_ne_zero l0 v0), mul_one]

/-- Points off a subgroup are off a smaller one. -/
def Off.down (hH : H ≤ H') (A : Off H') : Off H := ⟨A.x, A.y, A.ns, fun h => A.off (hH h)⟩

theorem HasDivK.down (hH : H ≤ H') {D : FreeAbelianGroup (EC a b).Point} (h : HasDivK f D) :
    HasDivK (fun A : Off H' => f (A.down hH)) D := by
  obtain ⟨F, G, hs, hd⟩ := h
  exact ⟨F, G, fun A => hs (A.down hH), hd⟩

theorem FullK.down (hH : H ≤ H') {r : ℕ} (h : FullK H P r f) :
    FullK H' P r (fun A : Off H' => f (A.down hH)) := by
  refine ⟨h.div.down hH, ?_, ?_⟩
  · obtain ⟨c, hc, h⟩ := h.recip
    exact ⟨c, hc, fun A B C s t hcol => h _ _ _ s t ⟨hcol.e1, hcol.e2, hcol.e3, hcol.y1, hcol.y2, hcol.y3⟩⟩
  · obtain ⟨c, hc, h⟩ := h.recipV
    refine ⟨c, hc, fun A B hB => ?_⟩
    have := h (A.down hH) (B.down hH) hB
    rw [this]
    congr 2
    rcases P with _ | _ <;> rfl

end TateK

namespace EllNet

open WeierstrassCurve WeierstrassCurve.Affine
open Spec (EC divPoly)
open Tate (IsLine)
open TateK (MonicK MilK FullK KillsK tateK vval lvalK)

variable {K : Type*} [Field K] [DecidableEq K] {a b : K} {P Q R : (EC a b).Point} {r : ℕ}

theorem off_of {A : TateK.Off (AddSubgroup.zmultiples P)} : Off P A.pt := by
  intro n e
  refine A.pt_notMem ?_
  rw [eq_neg_of_add_eq_zero_right e]
  exact neg_mem (AddSubgroup.zsmul_mem_zmultiples P n)

theorem vval_eq {H : AddSubgroup (EC a b).Point} {T : (EC a b).Point} (hT : T ≠ 0) (A : TateK.Off H) :
    vval T A = xc A.pt - xc T := by
  rcases T with _ | _
  · exact absurd rfl hT
  · rfl

/-- The terms `W(n, 1)` and `W(n, 0)` give a Miller function of `-P`. -/
theorem net_monic (h : Ord P r) : ∀ n : ℕ, n + 3 ≤ r →
    MonicK (AddSubgroup.zmultiples P) (-P) ((n + 1 : ℕ) : ℤ) (fun A => psi P (n + 1) / wn P A.pt (n + 3)) := by
  intro n
  induction n with
  | zero =>
    intro _
    refine MonicK.congr (by rw [zero_add, Nat.cast_one]; exact MonicK.one) fun A => ?_
    rw [zero_add, zero_add, off_of.w1 h.one, div_one]
    rfl
  | succ n ih =>
    intro hr
    have hz : ((n + 1 : ℕ) : ℤ) • -P = -((n + 1) • P) := by rw [natCast_zsmul, smul_neg]
    have hA : (n + 1) • P ≠ 0 := h.ne _ (by omega) (by omega)
    have hPm : -P ∈ AddSubgroup.zmultiples P := neg_mem (AddSubgroup.mem_zmultiples P)
    obtain ⟨α, γ, hl, hv⟩ : ∃ α γ : K, IsLine a b α 1 γ (-((n + 1) • P)) (-P) ∧
        ∀ A : TateK.Off (AddSubgroup.zmultiples P), lvalK α 1 γ A = inc P A.pt ((n + 2) • P) *
          (xc A.pt - xc ((n + 2) • P)) := by
      have hB : xc ((n + 2) • P) ≠ xc P := h.x_ne (by omega) (by omega)
      have hBQ := fun A : TateK.Off (AddSubgroup.zmultiples P) =>
        (off_of (A := A)).xQ_ne h (n := n + 2) (by omega) (by omega)
      rcases Nat.eq_zero_or_pos n with rfl | hn
      · have hy : yc P ≠ 0 := by
          have := h.y_ne (n := 1) le_rfl (by omega) (by have := h.five; omega)
          rwa [one_nsmul] at this
        refine ⟨_, _, by rw [zero_add, one_nsmul]; exact isLine_neg_dbl h.two h.one hy, fun A => ?_⟩
        rw [zero_add, two_nsmul] at hB hBQ ⊢
        rw [inc_two h.two h.one hy hB (hBQ A), lvalK]
        change _ * xc A.pt + 1 * yc A.pt + _ = _
        ring
      · have hx := h.x_ne (n := n + 1) (by omega) (by omega)
        refine ⟨_, _, isLine_neg hA h.one hx, fun A => ?_⟩
        have e : (n + 2) • P = (n + 1) • P + P := succ_nsmul _ _
        rw [e] at hB hBQ ⊢
        rw [inc_line hA h.one hx hB (hBQ A), lvalK]
        change _ * xc A.pt + 1 * yc A.pt + _ = _
        ring
    have := MonicK.add hPm (ih (by omega)) MonicK.one (by rw [hz, one_smul]; exact hl)
    push_cast at this ⊢
    refine MonicK.congr this fun A => ?_
    have ho := off_of (A := A)
    have hq : xc A.pt - xc ((n + 2) • P) ≠ 0 :=
      sub_ne_zero.2 (ho.xQ_ne h (n := n + 2) (by omega) (by omega)).symm
    have hs : ((n : ℤ) + 1) • -P + (1 : ℤ) • -P = -((n + 2) • P) := by
      rw [← add_smul, show (n : ℤ) + 1 + 1 = ((n + 2 : ℕ) : ℤ) by push_cast; ring, natCast_zsmul, smul_neg]
    rw [hs, TateK.vval_neg, vval_eq (h.ne _ (by omega) (by omega)), hv, mul_div_cancel_right₀ _ hq]
    have hr' := ho.ratio h n (by omega)
    have p1 := h.psi_ne (n + 1) (by omega) (by omega)
    have w3 := ho.wn_ne h.one (n + 3)
    have w4 := ho.wn_ne h.one (n + 4)
    change psi P (n + 2) / wn P A.pt (n + 4) = _
    field_simp
    linear_combination hr'

/-- `W(r + 1, 0)`. -/
theorem dp_succ (h : Ord P r) {m : ℕ} (hm : r = 2 * m + 1) : divPoly a b (xc P) (yc P) (r + 1) =
    2 * yc ((m + 1) • P) * psi P (m + 1) ^ 4 := by
  have h5 := h.five
  have hy := h.y_ne (n := 1) le_rfl (by omega) (by omega)
  rw [one_nsmul] at hy
  obtain ⟨j, rfl⟩ : ∃ j, m = j + 1 := ⟨m - 1, by omega⟩
  have e := h.psi_num (j := j) (by omega)
  have d := dp_even (a := a) (b := b) (xc P) (yc P) (j + 2)
  rw [show (2 : ℤ) * (j + 2) = r + 1 by rw [hm]; push_cast; ring,
    show (j : ℤ) + 2 + 2 = ((j + 4 : ℕ) : ℤ) by push_cast; ring,
    show (j : ℤ) + 2 - 1 = ((j + 1 : ℕ) : ℤ) by push_cast; ring,
    show (j : ℤ) + 2 - 2 = ((j : ℕ) : ℤ) by push_cast; ring,
    show (j : ℤ) + 2 + 1 = ((j + 3 : ℕ) : ℤ) by push_cast; ring,
    show (j : ℤ) + 2 = ((j + 2 : ℕ) : ℤ) by push_cast; ring,
    ← h.psi_eq _ (by omega), ← h.psi_eq _ (by omega), ← h.psi_eq _ (by omega), ← h.psi_eq _ (by omega),
    ← h.psi_eq _ (by omega), e] at d
  refine mul_right_cancel₀ (mul_ne_zero h.two hy) ?_
  rw [d]
  ring

theorem dp_succ_ne (h : Ord P r) (hodd : Odd r) : divPoly a b (xc P) (yc P) (r + 1) ≠ 0 := by
  obtain ⟨m, hm⟩ := hodd
  have h5 := h.five
  rw [dp_succ h hm]
  exact mul_ne_zero (mul_ne_zero h.two (h.y_ne (by omega) (by omega) (by omega)))
    (pow_ne_zero _ (h.psi_ne _ (by omega) (by omega)))

/-- The terms `W(r + 1, 1)` and `W(r + 1, 0)`. -/
theorem net_monic_full (h : Ord P r) (hodd : Odd r) :
    MonicK (AddSubgroup.zmultiples P) (-P) ((r + 1 : ℕ) : ℤ)
      (fun A => divPoly a b (xc P) (yc P) (r + 1) / wn P A.pt (r + 3)) := by
  obtain ⟨m, hm⟩ := hodd
  have h5 := h.five
  have hf := net_monic h m (by omega)
  have hz : ((m + 1 : ℕ) : ℤ) • -P = -((m + 1) • P) := by rw [natCast_zsmul, smul_neg]
  have hA : (m + 1) • P ≠ 0 := h.ne _ (by omega) (by omega)
  have hy : yc ((m + 1) • P) ≠ 0 := h.y_ne (by omega) (by omega) (by omega)
  have hPm : -P ∈ AddSubgroup.zmultiples P := neg_mem (AddSubgroup.mem_zmultiples P)
  have hd := MonicK.add hPm hf hf (by rw [hz]; exact isLine_neg_dbl h.two hA hy)
  have hAA : (m + 1) • P + (m + 1) • P = P := by
    rw [← add_nsmul, show m + 1 + (m + 1) = r + 1 by omega, succ_nsmul, h.zero, zero_add]
  rw [show ((m + 1 : ℕ) : ℤ) + ((m + 1 : ℕ) : ℤ) = ((r + 1 : ℕ) : ℤ) by rw [hm]; push_cast; ring] at hd
  refine hd.congr fun A => ?_
  have ho := off_of (A := A)
  have hs : ((m + 1 : ℕ) : ℤ) • -P + ((m + 1 : ℕ) : ℤ) • -P = -P := by
    rw [hz, ← neg_add, hAA]
  have hq : xc A.pt - xc P ≠ 0 := by
    have := ho.xQ_ne h (n := 1) (by omega) (by omega)
    rw [one_nsmul] at this
    exact sub_ne_zero.2 this.symm
  have hxA := ho.xQ_ne h (n := m + 1) (by omega) (by omega)
  have t := tangent_step h.two hA hy ho.Q_ne hxA
  rw [hAA] at t
  have mn := ho.main h (n := m + 1) (k := m + 1) (by omega) (by omega) (by omega)
  rw [show m + 1 + (m + 1) + 2 = r + 3 by omega, show m + 1 + 2 - (m + 1) = 2 by omega,
    ho.w0 h.one, mul_one] at mn
  have w1 := ho.wn_ne h.one (m + 3)
  have w2 := ho.wn_ne h.one (r + 3)
  rw [hs, TateK.vval_neg, vval_eq h.one, dp_succ h hm, lvalK]
  change _ = _ * ((_ * xc A.pt + 1 * yc A.pt + _) / _)
  rw [show m + 1 + 2 = m + 3 by omega] at mn
  have hl : (3 * xc ((m + 1) • P) ^ 2 + a) / (2 * yc ((m + 1) • P)) * xc A.pt + 1 * yc A.pt +
      (yc ((m + 1) • P) - (3 * xc ((m + 1) • P) ^ 2 + a) / (2 * yc ((m + 1) • P)) * xc ((m + 1) • P)) =
      yc A.pt + yc ((m + 1) • P) + (3 * xc ((m + 1) • P) ^ 2 + a) / (2 * yc ((m + 1) • P)) *
        (xc A.pt - xc ((m + 1) • P)) := by ring
  rw [hl]
  generalize yc A.pt + yc ((m + 1) • P) + (3 * xc ((m + 1) • P) ^ 2 + a) / (2 * yc ((m + 1) • P)) *
        (xc A.pt - xc ((m + 1) • P)) = l at t ⊢
  rw [div_mul_div_comm, div_mul_div_comm, div_eq_div_iff w2 (mul_ne_zero (mul_ne_zero w1 w1) hq), mn]
  linear_combination -(wn P A.pt (m + 3) ^ 2 * psi P (m + 1) ^ 4) * t

/-- The reduced pairing as a quotient of terms of the net. -/
theorem tateK_net {e : ℕ} {H : AddSubgroup (EC a b).Point} (hk : KillsK K r e) (h : Ord P r) (hodd : Odd r)
    (hP : P ∈ H) (hQ : Q ∈ H) (hR : R ∉ H) (hPQ : Q ∉ AddSubgroup.zmultiples P) :
    tateK (H := H) r e R P Q = (wn P Q (r + 3) / divPoly a b (xc P) (yc P) (r + 1)) ^ e := by
  have hH : AddSubgroup.zmultiples P ≤ H := by
    rw [AddSubgroup.zmultiples_le]; exact hP
  have hm := net_monic_full h hodd
  have hPm : -P ∈ AddSubgroup.zmultiples P := neg_mem (AddSubgroup.mem_zmultiples P)
  have hr' : r • -P = 0 := by rw [smul_neg, h.zero, neg_zero]
  have hf := (hm.mil.full_succ hPm hr' (by push_cast; ring)).down hH
  obtain ⟨B, hB⟩ := TateK.exists_off hR
  obtain ⟨C, hC⟩ := TateK.exists_off (TateK.notMem_add hR hQ)
  obtain ⟨A, hA⟩ := TateK.exists_off hPQ
  have e1 := TateK.tateK_eq (e := e) (neg_ne_zero.2 h.one) hf hC hB
  have e2 := hm.shift hPm hk hr' (A := A) (B := B.down hH) (C := C.down hH) hB hA hC
  rw [← e2] at e1
  have e3 := TateK.tateK_add_left hk hodd.pos.ne' hR hP (H.neg_mem hP) h.zero hr' hQ
  rw [add_neg_cancel, TateK.tateK_zero_left, e1, hA] at e3
  have w := (off_of (A := A)).wn_ne h.one (r + 3)
  rw [hA] at w
  have d := dp_succ_ne h hodd
  rw [← inv_div, inv_pow] at e3
  exact (eq_of_mul_inv_eq_one e3.symm)

end EllNet
