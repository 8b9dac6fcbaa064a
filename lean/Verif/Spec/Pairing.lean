import Mathlib.Algebra.Field.Basic
import Mathlib.Algebra.Module.Basic
import Mathlib.GroupTheory.OrderOfElement
import Mathlib.GroupTheory.Index
import Mathlib.RingTheory.RootsOfUnity.Basic

/-! # What a bilinear pairing is

Stated for plain groups, without reference to any algorithm. -/

set_option autoImplicit false

namespace Spec

variable {A B : Type*} [AddCommGroup A] [AddCommGroup B] {L : Type*} [Field L]

/-- `e` is a bilinear map from the `r`-torsion of `A` and `B` to the `r`-th roots of unity. -/
structure Bilinear (r : ℕ) (e : A → B → L) : Prop where
  add_left : ∀ P₁ P₂ Q, r • P₁ = 0 → r • P₂ = 0 → r • Q = 0 → e (P₁ + P₂) Q = e P₁ Q * e P₂ Q
  add_right : ∀ P Q₁ Q₂, r • P = 0 → r • Q₁ = 0 → r • Q₂ = 0 → e P (Q₁ + Q₂) = e P Q₁ * e P Q₂
  root : ∀ P Q, r • P = 0 → r • Q = 0 → e P Q ^ r = 1

namespace Bilinear

variable {r : ℕ} {e : A → B → L}

theorem ne_zero (h : Bilinear r e) (h0 : r ≠ 0) {P : A} {Q : B} (hP : r • P = 0) (hQ : r • Q = 0) :
    e P Q ≠ 0 := fun hz => by
  have := h.root P Q hP hQ
  rw [hz, zero_pow h0] at this
  exact zero_ne_one this

theorem zero_left (h : Bilinear r e) (h0 : r ≠ 0) {Q : B} (hQ : r • Q = 0) : e 0 Q = 1 := by
  have h1 := h.add_left 0 0 Q (smul_zero _) (smul_zero _) hQ
  rw [add_zero] at h1
  exact (mul_eq_left₀ (h.ne_zero h0 (smul_zero _) hQ)).1 h1.symm

theorem zero_right (h : Bilinear r e) (h0 : r ≠ 0) {P : A} (hP : r • P = 0) : e P 0 = 1 := by
  have h1 := h.add_right P 0 0 hP (smul_zero _) (smul_zero _)
  rw [add_zero] at h1
  exact (mul_eq_left₀ (h.ne_zero h0 hP (smul_zero _))).1 h1.symm

theorem neg_left (h : Bilinear r e) (h0 : r ≠ 0) {P : A} {Q : B} (hP : r • P = 0) (hQ : r • Q = 0) :
    e (-P) Q = (e P Q)⁻¹ := by
  have h1 := h.add_left (-P) P Q (by rw [smul_neg, hP, neg_zero]) hP hQ
  rw [neg_add_cancel, h.zero_left h0 hQ] at h1
  exact eq_inv_of_mul_eq_one_left h1.symm

theorem neg_right (h : Bilinear r e) (h0 : r ≠ 0) {P : A} {Q : B} (hP : r • P = 0) (hQ : r • Q = 0) :
    e P (-Q) = (e P Q)⁻¹ := by
  have h1 := h.add_right P (-Q) Q hP (by rw [smul_neg, hQ, neg_zero]) hQ
  rw [neg_add_cancel, h.zero_right h0 hP] at h1
  exact eq_inv_of_mul_eq_one_left h1.symm

theorem nsmul_left (h : Bilinear r e) (h0 : r ≠ 0) {P : A} {Q : B} (hP : r • P = 0) (hQ : r • Q = 0) :
    ∀ n : ℕ, e (n • P) Q = e P Q ^ n
  | 0 => by rw [zero_smul, h.zero_left h0 hQ, pow_zero]
  | n + 1 => by
    rw [add_smul, one_smul, h.add_left _ _ _ (by rw [smul_comm, hP, smul_zero]) hP hQ,
      h.nsmul_left h0 hP hQ n, pow_succ]

theorem nsmul_right (h : Bilinear r e) (h0 : r ≠ 0) {P : A} {Q : B} (hP : r • P = 0) (hQ : r • Q = 0) :
    ∀ n : ℕ, e P (n • Q) = e P Q ^ n
  | 0 => by rw [zero_smul, h.zero_right h0 hP, pow_zero]
  | n + 1 => by
    rw [add_smul, one_smul, h.add_right _ _ _ hP (by rw [smul_comm, hQ, smul_zero]) hQ,
      h.nsmul_right h0 hP hQ n, pow_succ]

theorem zsmul_left (h : Bilinear r e) (h0 : r ≠ 0) {P : A} {Q : B} (hP : r • P = 0) (hQ : r • Q = 0)
    (n : ℤ) : e (n • P) Q = e P Q ^ n := by
  rcases n with n | n
  · simpa using h.nsmul_left h0 hP hQ n
  · rw [negSucc_zsmul, h.neg_left h0 (by rw [smul_comm, hP, smul_zero]) hQ, h.nsmul_left h0 hP hQ,
      zpow_negSucc]

theorem zsmul_right (h : Bilinear r e) (h0 : r ≠ 0) {P : A} {Q : B} (hP : r • P = 0) (hQ : r • Q = 0)
    (n : ℤ) : e P (n • Q) = e P Q ^ n := by
  rcases n with n | n
  · simpa using h.nsmul_right h0 hP hQ n
  · rw [negSucc_zsmul, h.neg_right h0 hP (by rw [smul_comm, hQ, smul_zero]), h.nsmul_right h0 hP hQ,
      zpow_negSucc]

/-- `e(aP, bQ) = e(P, Q)^(ab)`. -/
theorem smul_smul (h : Bilinear r e) (h0 : r ≠ 0) {P : A} {Q : B} (hP : r • P = 0) (hQ : r • Q = 0)
    (a b : ℤ) : e (a • P) (b • Q) = e P Q ^ (a * b) := by
  have hP' : r • a • P = 0 := by rw [smul_comm, hP, smul_zero]
  rw [h.zsmul_right h0 hP' hQ, h.zsmul_left h0 hP hQ, zpow_mul]

end Bilinear

/-- `e` is a bilinear map from the `r`-torsion of `A` and all of `B` to the `r`-th roots of unity. -/
structure Pairing (r : ℕ) (e : A → B → L) : Prop where
  add_left : ∀ P₁ P₂ Q, r • P₁ = 0 → r • P₂ = 0 → e (P₁ + P₂) Q = e P₁ Q * e P₂ Q
  add_right : ∀ P Q₁ Q₂, r • P = 0 → e P (Q₁ + Q₂) = e P Q₁ * e P Q₂
  root : ∀ P Q, r • P = 0 → e P Q ^ r = 1

namespace Pairing

variable {r : ℕ} {e : A → B → L}

theorem ne_zero (h : Pairing r e) (h0 : r ≠ 0) {P : A} (Q : B) (hP : r • P = 0) : e P Q ≠ 0 := fun hz => by
  have := h.root P Q hP
  rw [hz, zero_pow h0] at this
  exact zero_ne_one this

theorem zero_left (h : Pairing r e) (h0 : r ≠ 0) (Q : B) : e 0 Q = 1 := by
  have h1 := h.add_left 0 0 Q (smul_zero _) (smul_zero _)
  rw [add_zero] at h1
  exact (mul_eq_left₀ (h.ne_zero h0 Q (smul_zero _))).1 h1.symm

theorem zero_right (h : Pairing r e) (h0 : r ≠ 0) {P : A} (hP : r • P = 0) : e P 0 = 1 := by
  have h1 := h.add_right P 0 0 hP
  rw [add_zero] at h1
  exact (mul_eq_left₀ (h.ne_zero h0 0 hP)).1 h1.symm

theorem neg_left (h : Pairing r e) (h0 : r ≠ 0) {P : A} (Q : B) (hP : r • P = 0) :
    e (-P) Q = (e P Q)⁻¹ := by
  have h1 := h.add_left (-P) P Q (by rw [smul_neg, hP, neg_zero]) hP
  rw [neg_add_cancel, h.zero_left h0 Q] at h1
  exact eq_inv_of_mul_eq_one_left h1.symm

theorem neg_right (h : Pairing r e) (h0 : r ≠ 0) {P : A} (Q : B) (hP : r • P = 0) :
    e P (-Q) = (e P Q)⁻¹ := by
  have h1 := h.add_right P (-Q) Q hP
  rw [neg_add_cancel, h.zero_right h0 hP] at h1
  exact eq_inv_of_mul_eq_one_left h1.symm

theorem nsmul_left (h : Pairing r e) (h0 : r ≠ 0) {P : A} (Q : B) (hP : r • P = 0) :
    ∀ n : ℕ, e (n • P) Q = e P Q ^ n
  | 0 => by rw [zero_smul, h.zero_left h0 Q, pow_zero]
  | n + 1 => by
    rw [add_smul, one_smul, h.add_left _ _ _ (by rw [smul_comm, hP, smul_zero]) hP,
      h.nsmul_left h0 Q hP n, pow_succ]

theorem nsmul_right (h : Pairing r e) (h0 : r ≠ 0) {P : A} (Q : B) (hP : r • P = 0) :
    ∀ n : ℕ, e P (n • Q) = e P Q ^ n
  | 0 => by rw [zero_smul, h.zero_right h0 hP, pow_zero]
  | n + 1 => by
    rw [add_smul, one_smul, h.add_right _ _ _ hP, h.nsmul_right h0 Q hP n, pow_succ]

theorem zsmul_left (h : Pairing r e) (h0 : r ≠ 0) {P : A} (Q : B) (hP : r • P = 0) (n : ℤ) :
    e (n • P) Q = e P Q ^ n := by
  rcases n with n | n
  · simpa using h.nsmul_left h0 Q hP n
  · rw [negSucc_zsmul, h.neg_left h0 Q (by rw [smul_comm, hP, smul_zero]), h.nsmul_left h0 Q hP,
      zpow_negSucc]

theorem zsmul_right (h : Pairing r e) (h0 : r ≠ 0) {P : A} (Q : B) (hP : r • P = 0) (n : ℤ) :
    e P (n • Q) = e P Q ^ n := by
  rcases n with n | n
  · simpa using h.nsmul_right h0 Q hP n
  · rw [negSucc_zsmul, h.neg_right h0 _ hP, h.nsmul_right h0 Q hP, zpow_negSucc]

/-- `e(aP, bQ) = e(P, Q)^(ab)`. -/
theorem smul_smul (h : Pairing r e) (h0 : r ≠ 0) {P : A} (Q : B) (hP : r • P = 0) (a b : ℤ) :
    e (a • P) (b • Q) = e P Q ^ (a * b) := by
  have hP' : r • a • P = 0 := by rw [smul_comm, hP, smul_zero]
  rw [h.zsmul_right h0 _ hP', h.zsmul_left h0 Q hP, zpow_mul]

/-- Points whose difference is killed by a number prime to `r` give the same value. -/
theorem congr_right (h : Pairing r e) (h0 : r ≠ 0) {P : A} {Q₁ Q₂ : B} (hP : r • P = 0) {n : ℕ}
    (hn : n.Coprime r) (hd : n • (Q₁ - Q₂) = 0) : e P Q₁ = e P Q₂ := by
  have h1 : e P (Q₁ - Q₂) ^ n = 1 := by rw [← h.nsmul_right h0 _ hP, hd, h.zero_right h0 hP]
  have h2 : e P (Q₁ - Q₂) = 1 := by
    have := pow_gcd_eq_one.2 ⟨h1, h.root P (Q₁ - Q₂) hP⟩
    rwa [hn, pow_one] at this
  have h3 := h.add_right P (Q₁ - Q₂) Q₂ hP
  rwa [sub_add_cancel, h2, one_mul] at h3

/-- If `B` has `n r` elements, `r` prime, and `e(P, S) ≠ 1` for some `S`, then points give the same
value only if `n` kills their difference. -/
theorem smul_of_eq (h : Pairing r e) (hr : r.Prime) {P : A} (hP : r • P = 0) {n : ℕ} (hn : 0 < n)
    (hcard : Nat.card B = n * r) (hS : ∃ S, e P S ≠ 1) {Q₁ Q₂ : B} (he : e P Q₁ = e P Q₂) :
    n • (Q₁ - Q₂) = 0 := by
  have hfin : Finite B := Nat.finite_of_card_ne_zero (by rw [hcard]; exact Nat.mul_ne_zero hn.ne' hr.ne_zero)
  have h0 := hr.ne_zero
  let f : Multiplicative B →* Lˣ :=
    { toFun := fun Q => Units.mk0 (e P Q.toAdd) (h.ne_zero h0 _ hP)
      map_one' := Units.ext (h.zero_right h0 hP)
      map_mul' := fun Q Q' => Units.ext (h.add_right P _ _ hP) }
  obtain ⟨S, hS⟩ := hS
  have hroot : ∀ u ∈ f.range, u ∈ rootsOfUnity r L := by
    rintro u ⟨Q, rfl⟩
    rw [mem_rootsOfUnity]
    exact Units.ext (by simpa [f] using h.root P Q.toAdd hP)
  have : NeZero r := ⟨h0⟩
  have hle : Nat.card f.range ≤ r := by
    refine (Nat.card_le_card_of_injective (fun u : f.range => (⟨u.1, hroot u.1 u.2⟩ : rootsOfUnity r L))
      fun u u' huu => Subtype.ext (congrArg (fun x : rootsOfUnity r L => (x : Lˣ)) huu)).trans ?_
    exact card_rootsOfUnity L r
  have hdvd : r ∣ Nat.card f.range := by
    have hord : orderOf (f (Multiplicative.ofAdd S)) = r := by
      have : Fact r.Prime := ⟨hr⟩
      refine orderOf_eq_prime (Units.ext (by simpa [f] using h.root P S hP)) fun h1 => hS ?_
      simpa [f] using congrArg Units.val h1
    rw [← hord]
    have := orderOf_dvd_natCard (⟨f (Multiplicative.ofAdd S), ⟨_, rfl⟩⟩ : f.range)
    rwa [← Subgroup.orderOf_coe] at this
  have : Finite f.range := Finite.of_surjective _ f.rangeRestrict_surjective
  have hcr : Nat.card f.range = r :=
    le_antisymm hle (Nat.le_of_dvd Nat.card_pos hdvd)
  have hk : Nat.card f.ker = n := by
    have h1 := Subgroup.card_mul_index f.ker
    rw [Subgroup.index_ker, hcr, Nat.card_congr Multiplicative.toAdd, hcard] at h1
    exact Nat.eq_of_mul_eq_mul_right hr.pos h1
  have hmem : Multiplicative.ofAdd (Q₁ - Q₂) ∈ f.ker := by
    rw [MonoidHom.mem_ker, ofAdd_sub, map_div, div_eq_one]
    exact Units.ext he
  have := pow_card_eq_one' (x := (⟨_, hmem⟩ : f.ker))
  rw [hk] at this
  exact congrArg (fun x : f.ker => Multiplicative.toAdd x.1) this

end Pairing

end Spec
