import Verif.Lemmas.EtaTDiv

/-! # The function of the truncated loop and its relation to the Tate pairing -/

set_option autoImplicit false
set_option linter.unusedSectionVars false

namespace Pbc.EtaT

open Spec Tate
open WeierstrassCurve.Affine

variable {K : Type*} [Field K] [DecidableEq K] [CharP K 3] {L : Type*} [Field L] [Algebra K L] {m : ℕ}

/-- The sign of the curve. -/
def mu (m : ℕ) : ℤ := if m % 12 = 1 ∨ m % 12 = 11 then 1 else -1

theorem mu_cases (m : ℕ) : mu m = 1 ∨ mu m = -1 := by
  unfold mu
  by_cases h : m % 12 = 1 ∨ m % 12 = 11
  · left; rw [if_pos h]
  · right; rw [if_neg h]

theorem trace_eq (m : ℕ) : Spec.EtaT.trace m = mu m * 3 ^ ((m + 1) / 2) := rfl

theorem mu_cast (hg : Good m) : ((mu m : ℤ) : K) = (-1) ^ ((m + 1) / 2) * (((m - 1) / 2 : ℕ) - 1) := by
  have key : ∀ b : ℕ, (m - 1) / 2 % 3 = b % 3 → (((m - 1) / 2 : ℕ) : K) = b := fun b h => cast_mod h
  have h3 := three (F := K)
  unfold mu
  rcases hg with h | h | h | h
  · rw [key 0 (by omega), Odd.neg_one_pow (Nat.odd_iff.2 (by omega)), if_pos (Or.inl h)]; norm_num
  · rw [key 2 (by omega), Odd.neg_one_pow (Nat.odd_iff.2 (by omega)), if_neg (by omega)]
    push_cast; ring
  · rw [key 0 (by omega), Even.neg_one_pow (Nat.even_iff.2 (by omega)), if_neg (by omega)]; norm_num
  · rw [key 2 (by omega), Even.neg_one_pow (Nat.even_iff.2 (by omega)), if_pos (Or.inr h)]
    push_cast; ring

/-- The line of the truncated loop, for the point `(x, y)`. -/
def lin (m : ℕ) (x y : K) (Q : Place L (-1 : K) 1) : L :=
  Q.Y + algebraMap K L ((-1) ^ ((m - 1) / 2) * y * (Q.x - x + ((m - 1) / 2 : ℕ) - 1))

/-- The function of the truncated loop. -/
def eta (m : ℕ) (x y : K) (Q : Place L (-1 : K) 1) : L := lin m x y Q * triPow x y ((m + 1) / 2) Q

theorem eta_div (hg : Good m) (Q : Place L (-1 : K) 1) {x y : K} (qx : x ^ 3 ^ m = x) (qy : y ^ 3 ^ m = y)
    (h : y ^ 2 = x ^ 3 - x + 1) (hy : y ≠ 0) :
    HasDiv (ev Q) (eta m x y Q) (((3 : ℤ) ^ ((m + 1) / 2) + mu m) • FreeAbelianGroup.of (pt x y h) -
      FreeAbelianGroup.of (((3 : ℤ) ^ ((m + 1) / 2) + mu m) • pt x y h)) := by
  have h3 := three (F := K)
  obtain ⟨hA, eA⟩ := smul_h hg.odd qx qy h
  have hmu := mu_cast (K := K) hg
  have hk : (m + 1) / 2 = (m - 1) / 2 + 1 := by have := hg.odd; omega
  have hmu2 : ((mu m : ℤ) : K) ^ 2 = 1 := by
    rcases mu_cases m with e | e <;> rw [e] <;> norm_num
  have hs2 : ((-1 : K) ^ ((m + 1) / 2)) ^ 2 = 1 := by rw [← pow_mul, mul_comm, pow_mul]; norm_num
  have hk2 : ((((m - 1) / 2 : ℕ) : K) - 1) ^ 2 = 1 := by
    rw [hmu, mul_pow, hs2, one_mul] at hmu2
    exact hmu2
  have hB : ((mu m : ℤ) * y) ^ 2 = x ^ 3 - x + 1 := by rw [mul_pow, hmu2, one_mul, h]
  have hyA : (-1) ^ ((m + 1) / 2) * y ^ 3 ≠ 0 := mul_ne_zero (pow_ne_zero _ (by simp)) (pow_ne_zero _ hy)
  have hh : (((m + 1) / 2 : ℕ) : K) = ((m - 1) / 2 : ℕ) + 1 := by rw [hk]; push_cast; ring
  have hsk : (-1 : K) ^ ((m - 1) / 2) = -(-1) ^ ((m + 1) / 2) := by rw [hk, pow_succ]; ring
  have hl := isLine_slope (s := (-1) ^ ((m + 1) / 2) * y) (c := 1) hA hB one_ne_zero
    (by rw [hmu, hh]
        linear_combination ((-1) ^ ((m + 1) / 2) * y) * h + ((-1) ^ ((m + 1) / 2) * y) * h3) hyA
    (by intro e
        rw [hh] at e
        have e2 : y ^ 2 = ((m - 1) / 2 : ℕ) - 1 := by linear_combination h + e + h3
        have : ((-1) ^ ((m + 1) / 2) * y) * ((-1) ^ ((m + 1) / 2) * y ^ 3) =
          ((-1) ^ ((m + 1) / 2)) ^ 2 * (y ^ 2) ^ 2 := by ring
        rw [this, hs2, e2, one_mul, hk2])
  have dl := of_line Q hl
  have dt := triPow_div Q h hy ((m + 1) / 2)
  rw [eA] at dt
  have eB : mu m • pt x y h = pt x ((mu m : ℤ) * y) hB := by
    rcases mu_cases m with e | e
    · have e' : mu m • pt x y h = pt x y h := by rw [e, one_smul]
      exact e'.trans (pt_congr rfl (by rw [e]; simp))
    · have e' : mu m • pt x y h = pt x (-y) (by rw [neg_sq]; exact h) := by
        rw [e, neg_smul, one_smul, pt_neg]
      exact e'.trans (pt_congr rfl (by rw [e]; simp))
  have eh : ((3 : ℤ) ^ ((m + 1) / 2)) • pt x y h = (3 ^ ((m + 1) / 2) : ℕ) • pt x y h := by
    rw [← natCast_zsmul]; push_cast; rfl
  have eD : ((3 : ℤ) ^ ((m + 1) / 2)) • FreeAbelianGroup.of (pt x y h) =
      (3 ^ ((m + 1) / 2) : ℕ) • FreeAbelianGroup.of (pt x y h) := by
    rw [← natCast_zsmul]; push_cast; rfl
  have el : lin m x y Q = algebraMap K L (-1 * ((-1) ^ ((m + 1) / 2) * y)) * algebraMap K L Q.x +
      algebraMap K L 1 * Q.Y + algebraMap K L (-1 * ((-1) ^ ((m + 1) / 2) * y ^ 3 -
        (-1) ^ ((m + 1) / 2) * y * (x ^ 3 - ((m + 1) / 2 : ℕ)))) := by
    rw [map_one, one_mul, lin, ← map_mul, add_comm (algebraMap K L _) Q.Y, add_assoc, ← map_add]
    refine congrArg (Q.Y + algebraMap K L ·) ?_
    rw [hsk, hh]
    linear_combination ((-1) ^ ((m + 1) / 2) * y) * h + ((-1) ^ ((m + 1) / 2) * y) * h3
  rw [← el, ← eB, ← eA] at dl
  rw [← eA] at dt
  have d := dl.mul dt
  rw [eta, add_smul _ _ (pt x y h), add_smul, eh, eD]
  rcases mu_cases m with e | e
  · rw [e] at d ⊢
    rw [one_smul] at d ⊢
    rw [one_smul]
    convert d using 1
    abel
  · rw [e] at d ⊢
    rw [neg_smul, one_smul] at d ⊢
    rw [neg_smul, one_smul]
    have d' := d.mul (of_neg Q (pt x y h)).inv
    rw [inv_one, mul_one] at d'
    convert d' using 1
    abel

/-! ### The field automorphism `z ↦ z^q` -/

/-- A place moved by the `q`-th power the way the images of rational points are. -/
structure Dist (m : ℕ) (Q : Place L (-1 : K) 1) : Prop where
  fx : Q.x ^ 3 ^ m = Q.x + m
  fY : Q.Y ^ 3 ^ m = -Q.Y

variable [CharP L 3]

theorem xj_q {x : K} (qx : x ^ 3 ^ m = x) (j : ℕ) : xj x j ^ 3 ^ m = xj x j := by
  rw [xj, sub_pow, cast_pow, ← pow_mul, mul_comm, pow_mul, qx]

theorem yj_q {y : K} (qy : y ^ 3 ^ m = y) (j : ℕ) : yj y j ^ 3 ^ m = yj y j := by
  have : ((-1 : K) ^ j) ^ 3 ^ m = (-1) ^ j := by
    rw [← pow_mul, mul_comm, pow_mul, Odd.neg_one_pow (Odd.pow (by decide))]
  rw [yj, mul_pow, this, ← pow_mul y, mul_comm (9 ^ j), pow_mul y, qy]

theorem xj_shift (x : K) (j : ℕ) : xj (x - m) j = xj x j - m := by
  rw [xj, xj, show 9 ^ j = 3 ^ (2 * j) by rw [pow_mul]; norm_num, sub_pow, cast_pow]
  ring

theorem yj_neg (y : K) (j : ℕ) : yj (-y) j = -yj y j := by
  rw [yj, yj, Odd.neg_pow (Odd.pow (by decide))]
  ring

theorem tri_frob {Q : Place L (-1 : K) 1} (hQ : Dist m Q) {x y : K} (qx : x ^ 3 ^ m = x)
    (qy : y ^ 3 ^ m = y) : tri (x - m) (-y) Q = tri x y Q ^ 3 ^ m := by
  rw [tri, tri, sub_pow, mul_pow, hQ.fY, ← map_pow, ← map_pow]
  have e1 : (y ^ 3) ^ 3 ^ m = y ^ 3 := by rw [← pow_mul, mul_comm, pow_mul, qy]
  have e2 : ((Q.x - x ^ 3 - 1) ^ 2) ^ 3 ^ m = (Q.x - (x - m) ^ 3 - 1) ^ 2 := by
    rw [← pow_mul, mul_comm, pow_mul, sub_pow, sub_pow, one_pow, ← pow_mul x, mul_comm 3, pow_mul x, qx, hQ.fx]
    have := sub_pow x (m : K) 1
    rw [cast_pow, pow_one] at this
    rw [this]
    ring
  rw [e1, e2, show (-y) ^ 3 = -y ^ 3 by ring, map_neg]
  ring

theorem triPow_frob {Q : Place L (-1 : K) 1} (hQ : Dist m Q) {x y : K} (qx : x ^ 3 ^ m = x)
    (qy : y ^ 3 ^ m = y) (n : ℕ) : triPow (x - m) (-y) n Q = triPow x y n Q ^ 3 ^ m := by
  induction n with
  | zero => rw [triPow, triPow, one_pow]
  | succ n ih =>
    rw [triPow, triPow, mul_pow, ih, xj_shift, yj_neg, tri_frob hQ (xj_q qx n) (yj_q qy n)]
    ring

theorem eta_frob {Q : Place L (-1 : K) 1} (hQ : Dist m Q) {x y : K} (qx : x ^ 3 ^ m = x)
    (qy : y ^ 3 ^ m = y) : Sim K (eta m (x - m) (-y) Q) (eta m x y Q ^ 3 ^ m) := by
  refine ⟨-1, by simp, ?_⟩
  rw [eta, eta, mul_pow, triPow_frob hQ qx qy, map_neg, map_one]
  have : lin m (x - m) (-y) Q = -lin m x y Q ^ 3 ^ m := by
    rw [lin, lin, add_pow, hQ.fY, ← map_pow]
    have e : ((-1) ^ ((m - 1) / 2) * y * (Q.x - x + ((m - 1) / 2 : ℕ) - 1)) ^ 3 ^ m =
        (-1) ^ ((m - 1) / 2) * y * (Q.x - (x - m) + ((m - 1) / 2 : ℕ) - 1) := by
      rw [mul_pow, mul_pow, qy, sub_pow, add_pow, sub_pow, one_pow, cast_pow, qx, hQ.fx, ← pow_mul, mul_comm _ (3 ^ m),
        pow_mul, Odd.neg_one_pow (Odd.pow (by decide))]
      ring
    rw [e, neg_add, neg_neg, ← map_neg]
    refine congrArg (Q.Y + algebraMap K L ·) ?_
    ring
  rw [this]
  ring

theorem eta_ne (hg : Good m) (Q : Place L (-1 : K) 1) {x y : K} (qx : x ^ 3 ^ m = x) (qy : y ^ 3 ^ m = y)
    (h : y ^ 2 = x ^ 3 - x + 1) (hy : y ≠ 0) : eta m x y Q ≠ 0 := (eta_div hg Q qx qy h hy).ne_zero

/-- The function of the opposite point. -/
theorem eta_neg (hg : Good m) (Q : Place L (-1 : K) 1) {x y : K} (qx : x ^ 3 ^ m = x) (qy : y ^ 3 ^ m = y)
    (h : y ^ 2 = x ^ 3 - x + 1) (hy : y ≠ 0) : Sim K (eta m x (-y) Q) (eta m x y Q)⁻¹ := by
  have h' : (-y) ^ 2 = x ^ 3 - x + 1 := by rw [neg_sq, h]
  have qy' : (-y) ^ 3 ^ m = -y := by rw [Odd.neg_pow (Odd.pow (by decide)), qy]
  have d1 := eta_div hg Q qx qy h hy
  have d2 := eta_div hg Q qx qy' h' (neg_ne_zero.2 hy)
  generalize (3 : ℤ) ^ ((m + 1) / 2) + mu m = T at d1 d2
  rw [← pt_neg (h := h) h', smul_neg] at d2
  have hT : HasDiv (ev Q) 1 (T • (FreeAbelianGroup.of (pt x y h) + FreeAbelianGroup.of (-pt x y h))) := by
    obtain ⟨n, rfl | rfl⟩ := T.eq_nat_or_neg
    · have := (of_neg Q (pt x y h)).pow n
      rwa [one_pow, ← natCast_zsmul] at this
    · have := ((of_neg Q (pt x y h)).pow n).inv
      rwa [one_pow, inv_one, ← natCast_zsmul, ← neg_smul] at this
  have d3 := hT.mul (of_neg Q (T • pt x y h)).inv
  rw [inv_one, mul_one, smul_add] at d3
  have d4 := d2.mul d1
  have := d4.unique (w := 1) (by convert d3 using 1; abel)
  have hne := d1.ne_zero
  have t := this.mul (Sim.refl (K := K) (eta m x y Q)⁻¹)
  rwa [mul_assoc, mul_inv_cancel₀ hne, mul_one, one_mul] at t

/-! ### The truncated loop and the Tate pairing -/

theorem order_mu (hg : Good m) :
    ((Spec.EtaT.order m : ℕ) : ℤ) = 3 ^ m + 1 + mu m * 3 ^ ((m + 1) / 2) := order_cast hg

theorem sq_h (hg : Good m) : ((3 : ℤ) ^ ((m + 1) / 2)) ^ 2 = 3 * 3 ^ m := by
  rw [← pow_mul, show (m + 1) / 2 * 2 = m + 1 by have := hg.odd; omega, pow_succ, mul_comm]

/-- Multiplication by the length of the loop. -/
theorem smul_T (hg : Good m) {x y : K} (qx : x ^ 3 ^ m = x) (qy : y ^ 3 ^ m = y)
    (h : y ^ 2 = x ^ 3 - x + 1) :
    ∃ h', ((3 : ℤ) ^ ((m + 1) / 2) + mu m) • pt x y h = pt (x - m) ((mu m : ℤ) * y) h' := by
  obtain ⟨h₁, e₁⟩ := smul_q hg.odd qx qy h
  have hN := order_smul_pt hg qx qy h
  have e₂ : ((3 : ℤ) ^ m) • pt x y h = pt (x - m) (-y) h₁ := by
    rw [← e₁, ← natCast_zsmul]; push_cast; rfl
  have hmu2 : mu m * mu m = 1 := by rcases mu_cases m with e | e <;> rw [e] <;> rfl
  have e₃ : ((3 : ℤ) ^ ((m + 1) / 2) + mu m) • pt x y h = -(mu m • pt (x - m) (-y) h₁) := by
    have : (3 : ℤ) ^ ((m + 1) / 2) + mu m = mu m * (Spec.EtaT.order m : ℕ) - mu m * 3 ^ m := by
      rw [order_mu hg]
      linear_combination (-(3 : ℤ) ^ ((m + 1) / 2)) * hmu2
    rw [this, sub_smul, mul_smul, natCast_zsmul, hN, smul_zero, zero_sub, mul_smul, e₂]
  rw [e₃]
  rcases mu_cases m with e | e
  · have h₂ : (-(-y)) ^ 2 = (x - m) ^ 3 - (x - m) + 1 := by rw [neg_sq]; exact h₁
    refine ⟨by rw [e]; simpa using h₁, ?_⟩
    have e' : -(mu m • pt (x - m) (-y) h₁) = pt (x - m) (-(-y)) h₂ := by rw [e, one_smul, pt_neg]
    exact e'.trans (pt_congr rfl (by rw [e]; simp))
  · refine ⟨by rw [e]; simpa using h₁, ?_⟩
    have e' : -(mu m • pt (x - m) (-y) h₁) = pt (x - m) (-y) h₁ := by rw [e, neg_smul, one_smul, neg_neg]
    exact e'.trans (pt_congr rfl (by rw [e]; simp))

theorem eta_step (hg : Good m) {Q : Place L (-1 : K) 1} (hQ : Dist m Q) {x y : K} (qx : x ^ 3 ^ m = x)
    (qy : y ^ 3 ^ m = y) (h : y ^ 2 = x ^ 3 - x + 1) (hy : y ≠ 0) :
    Sim K (eta m (x - m) ((mu m : ℤ) * y) Q) (eta m x y Q ^ (-mu m * 3 ^ m)) := by
  have hf := eta_frob hQ qx qy
  have hz : eta m x y Q ^ ((3 : ℤ) ^ m) = eta m x y Q ^ 3 ^ m := by
    rw [← zpow_natCast]; push_cast; rfl
  rcases mu_cases m with e | e
  · rw [e, Int.cast_one, one_mul, neg_one_mul, zpow_neg, hz]
    have qx' : (x - m) ^ 3 ^ m = x - m := by rw [sub_pow, qx, cast_pow]
    have qy' : (-y) ^ 3 ^ m = -y := by rw [Odd.neg_pow (Odd.pow (by decide)), qy]
    have h' : (-y) ^ 2 = (x - m) ^ 3 - (x - m) + 1 := by rw [neg_sq]; exact eqn_shift h m
    have := eta_neg hg Q qx' qy' h' (neg_ne_zero.2 hy)
    rw [neg_neg] at this
    exact this.trans hf.inv
  · rw [e, Int.cast_neg, Int.cast_one, neg_one_mul, neg_neg, one_mul, hz]
    exact hf

theorem order_pos (hg : Good m) : Spec.EtaT.order m ≠ 0 := by
  have h1 := order_mu hg
  have h2 := h_le hg
  have h3 : (0 : ℤ) < 3 ^ ((m + 1) / 2) := by positivity
  intro h
  rw [h] at h1
  rcases mu_cases m with e | e <;> rw [e] at h1 <;> push_cast at h1 <;> linarith

theorem eta_tate (hg : Good m) {e : ℕ} (hk : Kills K L (Spec.EtaT.order m) e) {Q : Place L (-1 : K) 1}
    (hQ : Dist m Q) {x y : K} (qx : x ^ 3 ^ m = x) (qy : y ^ 3 ^ m = y) (h : y ^ 2 = x ^ 3 - x + 1)
    (hy : y ≠ 0) :
    (eta m x y Q ^ e) ^ (3 * (3 ^ m) ^ 2) =
      tate (Spec.EtaT.order m) e (pt x y h) Q ^ (3 * 3 ^ ((m + 1) / 2)) := by
  have hN := order_smul_pt hg qx qy h
  have hN0 := order_pos hg
  have hmu2 : mu m * mu m = 1 := by rcases mu_cases m with e | e <;> rw [e] <;> rfl
  have hmu2K : ((mu m : ℤ) : K) * (mu m : ℤ) = 1 := by rw [← Int.cast_mul, hmu2, Int.cast_one]
  have hmu0 : ((mu m : ℤ) : K) ≠ 0 := left_ne_zero_of_mul (hmu2K ▸ one_ne_zero)
  have hmuq : ((mu m : ℤ) : K) ^ 3 ^ m = (mu m : ℤ) := by
    rcases mu_cases m with e | e
    · rw [e]; simp
    · rw [e]; push_cast; rw [Odd.neg_one_pow (Odd.pow (by decide))]
  obtain ⟨F, hF⟩ := exists_full (L := L) (pt_ne_zero h) hN0 hN
  -- the points `T W`, `T² W`, `T³ W`
  obtain ⟨h₁, e₁⟩ := smul_T hg qx qy h
  have qx₁ : (x - m) ^ 3 ^ m = x - m := by rw [sub_pow, qx, cast_pow]
  have qy₁ : ((mu m : ℤ) * y) ^ 3 ^ m = (mu m : ℤ) * y := by rw [mul_pow, qy, hmuq]
  have hy₁ : ((mu m : ℤ) : K) * y ≠ 0 := mul_ne_zero hmu0 hy
  obtain ⟨h₂, e₂⟩ := smul_T hg qx₁ qy₁ h₁
  have qx₂ : (x - m - m) ^ 3 ^ m = x - m - m := by rw [sub_pow, qx₁, cast_pow]
  have qy₂ : ((mu m : ℤ) * ((mu m : ℤ) * y)) ^ 3 ^ m = (mu m : ℤ) * ((mu m : ℤ) * y) := by
    rw [mul_pow, qy₁, hmuq]
  have hy₂ : ((mu m : ℤ) : K) * ((mu m : ℤ) * y) ≠ 0 := mul_ne_zero hmu0 hy₁
  obtain ⟨h₃, e₃⟩ := smul_T hg qx₂ qy₂ h₂
  -- their functions
  have d₀ := eta_div hg Q qx qy h hy
  have d₁ := eta_div hg Q qx₁ qy₁ h₁ hy₁
  have d₂ := eta_div hg Q qx₂ qy₂ h₂ hy₂
  have s₁ := eta_step hg hQ qx qy h hy
  have s₂ := eta_step hg hQ qx₁ qy₁ h₁ hy₁
  obtain ⟨t, ht⟩ : ∃ t : ℕ, (t : ℤ) = (3 : ℤ) ^ ((m + 1) / 2) + mu m := by
    refine ⟨((3 : ℤ) ^ ((m + 1) / 2) + mu m).toNat, Int.toNat_of_nonneg ?_⟩
    have : (0 : ℤ) < 3 ^ ((m + 1) / 2) := by positivity
    rcases mu_cases m with e | e <;> rw [e] <;> linarith
  rw [e₁, ← ht, natCast_zsmul] at d₀
  rw [e₂, ← ht, natCast_zsmul] at d₁
  rw [e₃, ← ht, natCast_zsmul] at d₂
  have d := ((d₀.pow (t ^ 2)).mul (d₁.pow t)).mul d₂
  have e₄ : pt (x - m - m - m) ((mu m : ℤ) * ((mu m : ℤ) * ((mu m : ℤ) * y))) h₃ = mu m • pt x y h := by
    have h3 := three (F := K)
    rcases mu_cases m with e | e
    · have e' : mu m • pt x y h = pt x y h := by rw [e, one_smul]
      rw [e']
      exact pt_congr (by linear_combination (-m : K) * h3) (by rw [e]; simp)
    · have e' : mu m • pt x y h = pt x (-y) (by rw [neg_sq]; exact h) := by
        rw [e, neg_smul, one_smul, pt_neg]
      rw [e']
      exact pt_congr (by linear_combination (-m : K) * h3) (by rw [e]; simp)
  rw [e₄] at d
  have hval : (3 * 3 ^ ((m + 1) / 2) * Spec.EtaT.order m : ℕ) = (t : ℤ) ^ 3 - mu m := by
    push_cast
    rw [order_mu hg, ht]
    linear_combination (-(3 * 3 ^ ((m + 1) / 2) + mu m)) * hmu2 - (3 : ℤ) ^ ((m + 1) / 2) * sq_h hg
  have aux : ∀ (ε : ℤ), ε = 1 ∨ ε = -1 → ∀ (z : L) (B C : FreeAbelianGroup (EC (-1 : K) 1).Point),
      HasDiv (ev Q) z (t ^ 2 • (t • FreeAbelianGroup.of (pt x y h) - B) + t • (t • B - C) +
        (t • C - FreeAbelianGroup.of (ε • pt x y h))) →
      HasDiv (ev Q) z (((t : ℤ) ^ 3 - ε) • FreeAbelianGroup.of (pt x y h)) := by
    intro ε hε z B C d
    have e3 : ((t : ℤ) ^ 3) • FreeAbelianGroup.of (pt x y h) = (t ^ 2 * t) • FreeAbelianGroup.of (pt x y h) := by
      rw [← natCast_zsmul]; push_cast; rw [← pow_succ]
    rw [sub_smul, e3]
    rcases hε with rfl | rfl
    · rw [one_smul] at d ⊢
      convert d using 1
      rw [smul_sub, smul_sub, smul_smul, smul_smul, ← sq]
      abel
    · rw [neg_smul, one_smul] at d ⊢
      have dn := d.mul (of_neg Q (pt x y h))
      rw [mul_one] at dn
      convert dn using 1
      rw [smul_sub, smul_sub, smul_smul, smul_smul, ← sq]
      abel
  have d' : HasDiv (ev Q)
      (eta m x y Q ^ t ^ 2 * eta m (x - m) ((mu m : ℤ) * y) Q ^ t *
        eta m (x - m - m) ((mu m : ℤ) * ((mu m : ℤ) * y)) Q)
      ((3 * 3 ^ ((m + 1) / 2) * Spec.EtaT.order m) • FreeAbelianGroup.of (pt x y h)) := by
    rw [← natCast_zsmul, hval]
    exact aux _ (mu_cases m) _ _ _ d
  have dF := (hF.div Q).pow (3 * 3 ^ ((m + 1) / 2))
  rw [smul_smul] at dF
  have key := hk.sim (d'.unique dF)
  rw [tate_eq hk (pt_ne_zero h) hF Q, ← pow_mul (F Q), mul_comm e, pow_mul (F Q), ← key]
  have hne := d₀.ne_zero
  have k₁ := hk.sim s₁
  have k₂ := hk.sim (s₂.trans (s₁.zpow _))
  have hr := hk.rpow _ hne
  rw [mul_pow, mul_pow, ← pow_mul _ t, mul_comm t e, pow_mul _ e t, k₁, k₂]
  generalize eta m x y Q = z at *
  have zz : ∀ (i : ℤ) (n : ℕ), (z ^ i) ^ n = (z ^ n) ^ i := fun i n => by
    rw [← zpow_natCast, ← zpow_natCast, ← zpow_mul, ← zpow_mul, mul_comm]
  have zt : (z ^ t ^ 2) ^ e = (z ^ e) ^ t ^ 2 := by rw [← pow_mul, mul_comm, pow_mul]
  rw [← zpow_mul, zz, zz, zt]
  have hr' : (z ^ e) ^ Spec.EtaT.order m = 1 := by rw [← pow_mul, mul_comm, pow_mul]; exact hr
  have hn' : z ^ e ≠ 0 := pow_ne_zero _ hne
  generalize z ^ e = w at *
  rw [← zpow_natCast, ← zpow_natCast, ← zpow_natCast, ← zpow_mul, ← zpow_add₀ hn', ← zpow_add₀ hn']
  have hE : ((t ^ 2 : ℕ) : ℤ) + -mu m * 3 ^ m * (t : ℤ) + -mu m * 3 ^ m * (-mu m * 3 ^ m) =
      ((3 * (3 ^ m) ^ 2 : ℕ) : ℤ) + (Spec.EtaT.order m : ℕ) * ((Spec.EtaT.order m : ℕ) - 3 * 3 ^ m) := by
    push_cast
    rw [order_mu hg, ht]
    linear_combination (1 - (3 : ℤ) ^ m + (3 ^ m) ^ 2 - (3 ^ ((m + 1) / 2)) ^ 2) * hmu2
  rw [hE, zpow_add₀ hn', zpow_mul, zpow_natCast w (Spec.EtaT.order m), hr', one_zpow, mul_one]

end Pbc.EtaT
