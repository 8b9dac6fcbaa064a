import Verif.Model.Singular
import Verif.Props.Singular
import Mathlib.Tactic.LinearCombination
import Mathlib.Tactic.FieldSimp

/-! # The Miller loop on the nodal curve in terms of the parameter `u = (y + x) / (y - x)` -/

set_option autoImplicit false
set_option linter.unusedSectionVars false

namespace Pbc.Singular

open Spec
open Pbc.Curve (Pt Mem fresh)
open Props (nodeMap)

variable {K : Type*} [Field K] [DecidableEq K]

/-- The point with parameter `u`, by coordinates. -/
structure At (u : K) (p : Pt K) : Prop where
  inf : p.inf = false
  x : p.x = 4 * u / (u - 1) ^ 2
  y : p.y = 4 * u * (u + 1) / (u - 1) ^ 3

/-- A point other than `O` in terms of its parameter. -/
theorem at_of (h2 : (2 : K) ≠ 0) {p : Pt K} {P : (SN K).Point} (hp : PtRep p P) (h0 : P ≠ 0) : At (nodeMap P) p := by
  cases P with
  | zero => exact absurd rfl h0
  | some x y hn =>
    obtain ⟨h1, hx, hy⟩ := hp
    obtain ⟨t, t1, t2, ex, ey⟩ := Props.node_param hn
    have e1 : t - 1 ≠ 0 := sub_ne_zero.2 t1
    have e2 : t + 1 ≠ 0 := by intro h; exact t2 (by linear_combination h)
    have hu : nodeMap (.some x y hn) = (t + 1) / (t - 1) := by
      rw [nodeMap, ex, ey, Props.nodeMap_param t1 t2]
    have hs : (t + 1) / (t - 1) - 1 = 2 / (t - 1) := by field_simp; ring
    refine ⟨h1, ?_, ?_⟩
    · rw [hx, hu, hs, ex]
      field_simp
      ring
    · rw [hy, hu, hs, ey]
      field_simp
      ring

variable {u z w : K} {Q Z P : Pt K}

theorem vertical_at (hu : u ≠ 1) (hz : z ≠ 1) (hQ : At u Q) (hZ : At z Z) :
    vertical Q.x Z * ((u - 1) ^ 2 * (z - 1) ^ 2) = 4 * (u - z) * (1 - u * z) := by
  have e1 : u - 1 ≠ 0 := sub_ne_zero.2 hu
  have e2 : z - 1 ≠ 0 := sub_ne_zero.2 hz
  rw [vertical, hQ.x, hZ.x]
  field_simp
  ring

theorem tangent_at (hu : u ≠ 1) (hz : z ≠ 1) (hQ : At u Q) (hZ : At z Z) :
    tangent Q.x Q.y Z * ((z - 1) ^ 6 * (u - 1) ^ 3) = 64 * z * (u - z) ^ 2 * (z ^ 2 * u - 1) := by
  have e1 : u - 1 ≠ 0 := sub_ne_zero.2 hu
  have e2 : z - 1 ≠ 0 := sub_ne_zero.2 hz
  rw [tangent]
  push_cast
  rw [hQ.x, hQ.y, hZ.x, hZ.y]
  field_simp
  ring

theorem line_at (hu : u ≠ 1) (hz : z ≠ 1) (hw : w ≠ 1) (hQ : At u Q) (hZ : At z Z) (hP : At w P) :
    line Q.x Q.y P Z * ((w - 1) ^ 3 * (z - 1) ^ 3 * (u - 1) ^ 3) =
      -32 * (w - z) * (u - w) * (u - z) * (w * z * u - 1) := by
  have e1 : u - 1 ≠ 0 := sub_ne_zero.2 hu
  have e2 : z - 1 ≠ 0 := sub_ne_zero.2 hz
  have e3 : w - 1 ≠ 0 := sub_ne_zero.2 hw
  rw [line]
  rw [hQ.x, hQ.y, hZ.x, hZ.y, hP.x, hP.y]
  field_simp
  ring

theorem nodeMap_zero : nodeMap (0 : (SN K).Point) = 1 := rfl

theorem nodeMap_nsmul (h2 : (2 : K) ≠ 0) (P : (SN K).Point) (k : ℕ) : nodeMap (k • P) = nodeMap P ^ k := by
  induction k with
  | zero => rw [zero_nsmul, pow_zero]; rfl
  | succ k ih => rw [succ_nsmul, (Props.C42_iso h2).1, ih, pow_succ]

theorem nodeMap_one_iff (h2 : (2 : K) ≠ 0) (P : (SN K).Point) : nodeMap P = 1 ↔ P = 0 :=
  ⟨(Props.C42_iso h2).2.2.1 P, fun h => h ▸ rfl⟩

/-- What the products are after the bits that make up `k`: `v / vd = c (u - p)^k / ((u - p^k) (u - 1)^(k - 1))`. -/
def Rel (p : K) (k : ℕ) (c u v vd : K) : Prop := v * ((u - p ^ k) * (u - 1) ^ (k - 1)) = c * vd * (u - p) ^ k

/-- One round of the loop that does not meet `O`; the constant does not depend on the point at which the functions are
evaluated. -/
theorem step_rel (h2 : (2 : K) ≠ 0) {P : (SN K).Point} {k : ℕ} (hk : 0 < k) {m : Mem K} (hZ : PtRep (m 0) (k • P))
    (hP : PtRep (m 1) P) (bit : Bool) (h0 : (2 * k) • P ≠ 0) (h1 : bit = true → (2 * k + 1) • P ≠ 0)
    (h1' : bit = true → (2 * k) • P ≠ P) {c : K} (hc : c ≠ 0) :
    ∃ c' m', c' ≠ 0 ∧ PtRep (m' 0) ((2 * k + bit.toNat) • P) ∧ PtRep (m' 1) P ∧
      ∀ u Q v vd, At u Q → u ≠ 1 → Rel (nodeMap P) k c u v vd →
        ∃ v' vd', step Q.x Q.y bit ⟨v, vd, m⟩ = some ⟨v', vd', m'⟩ ∧
          Rel (nodeMap P) (2 * k + bit.toNat) c' u v' vd' := by
  have hkP : k • P ≠ 0 := fun h => h0 (by rw [mul_nsmul', h, nsmul_zero])
  have hP0 : P ≠ 0 := fun h => hkP (by rw [h, nsmul_zero])
  set p := nodeMap P with hp
  have hpk := nodeMap_nsmul h2 P
  have ne1 : ∀ j, j • P ≠ 0 → p ^ j - 1 ≠ 0 := fun j hj h => hj (by
    rw [← nodeMap_one_iff h2, hpk, ← sub_eq_zero]
    exact h)
  have hpz : p ≠ 0 := (Props.C42_iso h2).2.1 P
  obtain ⟨m₁, e₁, hZ₁, hm₁⟩ := double_rep h2 hZ 0
  rw [← mul_nsmul'] at hZ₁
  have aZ : At (p ^ k) (m 0) := hpk k ▸ at_of h2 hZ hkP
  have aZ₁ : At (p ^ (2 * k)) (m₁ 0) := hpk (2 * k) ▸ at_of h2 hZ₁ h0
  have aP : At p (m 1) := at_of h2 hP hP0
  have h4 : (4 : K) ≠ 0 := by
    have : (4 : K) = 2 * 2 := by norm_num
    rw [this]; exact mul_ne_zero h2 h2
  have h16 : (16 : K) ≠ 0 := by
    have : (16 : K) = 4 * 4 := by norm_num
    rw [this]; exact mul_ne_zero h4 h4
  have n1 := ne1 k hkP
  have n2 := ne1 (2 * k) h0
  have nP : p - 1 ≠ 0 := by simpa using ne1 1 (by rwa [one_nsmul])
  -- the constant after doubling
  set c₁ := c ^ 2 * (-16 * p ^ k * (p ^ (2 * k) - 1) ^ 2) / (p ^ k - 1) ^ 6 with hc₁
  have hc₁0 : c₁ ≠ 0 := by
    rw [hc₁]
    exact div_ne_zero (mul_ne_zero (pow_ne_zero _ hc) (mul_ne_zero (mul_ne_zero (neg_ne_zero.2 h16) (pow_ne_zero _ hpz))
      (pow_ne_zero _ n2))) (pow_ne_zero _ n1)
  have dbl : ∀ u Q v vd, At u Q → u ≠ 1 → Rel p k c u v vd →
      Rel p (2 * k) c₁ u (v * v * tangent Q.x Q.y (m 0)) (vd * vd * vertical Q.x (m₁ 0)) := by
    intro u Q v vd hQ hu hr
    have eu : u - 1 ≠ 0 := sub_ne_zero.2 hu
    have eT := tangent_at hu (sub_ne_zero.1 n1) hQ aZ
    have eV := vertical_at hu (sub_ne_zero.1 n2) hQ aZ₁
    unfold Rel at hr ⊢
    obtain ⟨j, rfl⟩ : ∃ j, k = j + 1 := ⟨k - 1, by omega⟩
    have e2 : 2 * (j + 1) - 1 = 2 * j + 1 := by omega
    rw [Nat.add_sub_cancel] at hr
    rw [e2, hc₁]
    set z := p ^ (j + 1) with hz
    have ez : p ^ (2 * (j + 1)) = z ^ 2 := by rw [hz, ← pow_mul, mul_comm]
    rw [ez] at eV ⊢
    rw [ez] at n2
    set T := tangent Q.x Q.y (m 0)
    set V := vertical Q.x (m₁ 0)
    have hT : T = 64 * z * (u - z) ^ 2 * (z ^ 2 * u - 1) / ((z - 1) ^ 6 * (u - 1) ^ 3) := by
      rw [eq_div_iff (mul_ne_zero (pow_ne_zero _ n1) (pow_ne_zero _ eu))]; exact eT
    have hV : V = 4 * (u - z ^ 2) * (1 - u * z ^ 2) / ((u - 1) ^ 2 * (z ^ 2 - 1) ^ 2) := by
      rw [eq_div_iff (mul_ne_zero (pow_ne_zero _ eu) (pow_ne_zero _ n2))]; exact eV
    have hsq : v ^ 2 * ((u - z) ^ 2 * ((u - 1) ^ j) ^ 2) = c ^ 2 * vd ^ 2 * ((u - p) ^ (j + 1)) ^ 2 := by
      linear_combination (v * ((u - z) * (u - 1) ^ j) + c * vd * (u - p) ^ (j + 1)) * hr
    have e3 : (u - p) ^ (2 * (j + 1)) = ((u - p) ^ (j + 1)) ^ 2 := by rw [← pow_mul, mul_comm]
    have e4 : (u - 1) ^ (2 * j + 1) = ((u - 1) ^ j) ^ 2 * (u - 1) := by rw [pow_succ, ← pow_mul, mul_comm 2 j]
    rw [hT, hV, e3, e4]
    generalize (u - 1) ^ j = A at hsq ⊢
    generalize (u - p) ^ (j + 1) = B at hsq ⊢
    field_simp
    linear_combination 64 * (z ^ 2 * u - 1) * (u - z ^ 2) * z * hsq
  cases bit with
  | false =>
    refine ⟨c₁, m₁, hc₁0, by simpa using hZ₁, ?_, fun u Q v vd hQ hu hr => ?_⟩
    · rw [hm₁ 1 (by norm_num)]; exact hP
    · refine ⟨_, _, ?_, by simpa using dbl u Q v vd hQ hu hr⟩
      rw [step]
      simp only [e₁]
      rfl
  | true =>
    have h1 := h1 rfl
    have h1' := h1' rfl
    have hP₁ : PtRep (m₁ 1) P := by rw [hm₁ 1 (by norm_num)]; exact hP
    have aP₁ : At p (m₁ 1) := by rw [hm₁ 1 (by norm_num)]; exact aP
    obtain ⟨m₂, e₂, hZ₂, hm₂⟩ := add_rep h2 hZ₁ hP₁ 0
    rw [← succ_nsmul] at hZ₂
    have aZ₂ : At (p ^ (2 * k + 1)) (m₂ 0) := hpk (2 * k + 1) ▸ at_of h2 hZ₂ h1
    have n3 := ne1 (2 * k + 1) h1
    have nd : p - p ^ (2 * k) ≠ 0 := by
      intro h
      have e : nodeMap ((2 * k) • P - P) = 1 := by
        have := (Props.C42_iso h2).1 ((2 * k) • P - P) P
        rw [sub_add_cancel, hpk, ← hp, ← sub_eq_zero.1 h] at this
        exact (mul_right_cancel₀ hpz (by rw [one_mul]; exact this)).symm
      exact h1' (sub_eq_zero.1 ((nodeMap_one_iff h2 _).1 e))
    have h8 : (8 : K) ≠ 0 := by
      have : (8 : K) = 4 * 2 := by norm_num
      rw [this]; exact mul_ne_zero h4 h2
    set c₂ := c₁ * (8 * (p - p ^ (2 * k)) * (p ^ (2 * k + 1) - 1) ^ 2) / ((p - 1) ^ 3 * (p ^ (2 * k) - 1) ^ 3) with hc₂
    have hc₂0 : c₂ ≠ 0 := by
      rw [hc₂]
      exact div_ne_zero (mul_ne_zero hc₁0 (mul_ne_zero (mul_ne_zero h8 nd) (pow_ne_zero _ n3)))
        (mul_ne_zero (pow_ne_zero _ nP) (pow_ne_zero _ n2))
    refine ⟨c₂, m₂, hc₂0, by simpa using hZ₂, ?_, fun u Q v vd hQ hu hr => ?_⟩
    · rw [hm₂ 1 (by norm_num)]; exact hP₁
    · refine ⟨v * v * tangent Q.x Q.y (m 0) * line Q.x Q.y (m₁ 1) (m₁ 0),
        vd * vd * vertical Q.x (m₁ 0) * vertical Q.x (m₂ 0), ?_, ?_⟩
      · rw [step]
        simp only [e₁, e₂, if_true]
      · have hr₁ := dbl u Q v vd hQ hu hr
        generalize v * v * tangent Q.x Q.y (m 0) = v₁ at hr₁ ⊢
        generalize vd * vd * vertical Q.x (m₁ 0) = vd₁ at hr₁ ⊢
        have eu : u - 1 ≠ 0 := sub_ne_zero.2 hu
        have eL := line_at hu (sub_ne_zero.1 n2) (sub_ne_zero.1 nP) hQ aZ₁ aP₁
        have eV := vertical_at hu (sub_ne_zero.1 n3) hQ aZ₂
        unfold Rel at hr₁ ⊢
        simp only [Bool.toNat_true]
        rw [Nat.add_sub_cancel, hc₂]
        obtain ⟨j, hj⟩ : ∃ j, 2 * k = j + 1 := ⟨2 * k - 1, by omega⟩
        rw [hj] at hr₁ eL eV n2 n3 ⊢
        rw [Nat.add_sub_cancel] at hr₁
        have ez : p ^ (j + 1 + 1) = p * p ^ (j + 1) := by rw [pow_succ]; ring
        rw [ez] at eV n3 ⊢
        set z := p ^ (j + 1)
        set L := line Q.x Q.y (m₁ 1) (m₁ 0)
        set V := vertical Q.x (m₂ 0)
        have hL : L = -32 * (p - z) * (u - p) * (u - z) * (p * z * u - 1) / ((p - 1) ^ 3 * (z - 1) ^ 3 * (u - 1) ^ 3) := by
          rw [eq_div_iff (mul_ne_zero (mul_ne_zero (pow_ne_zero _ nP) (pow_ne_zero _ n2)) (pow_ne_zero _ eu))]; exact eL
        have hV : V = 4 * (u - p * z) * (1 - u * (p * z)) / ((u - 1) ^ 2 * (p * z - 1) ^ 2) := by
          rw [eq_div_iff (mul_ne_zero (pow_ne_zero _ eu) (pow_ne_zero _ n3))]; exact eV
        rw [hL, hV, pow_succ (u - 1) j, pow_succ (u - p) (j + 1)]
        clear hL hV eL eV
        clear_value c₁
        generalize (u - 1) ^ j = A at hr₁ ⊢
        generalize (u - p) ^ (j + 1) = B at hr₁ ⊢
        field_simp
        linear_combination 32 * (p - z) * (u - p) * (1 - p * z * u) * (u - p * z) * hr₁

/-- The loop down to bit 1, when `P` has order `r`. -/
theorem loop_rel (h2 : (2 : K) ≠ 0) {P : (SN K).Point} {r : ℕ} (hr : addOrderOf P = r) (i : ℕ) :
    ∀ (m : Mem K) (c : K), 0 < r >>> (i + 1) → PtRep (m 0) ((r >>> (i + 1)) • P) → PtRep (m 1) P → c ≠ 0 →
    ∃ c' m', c' ≠ 0 ∧ PtRep (m' 0) ((r / 2) • P) ∧
      ∀ u Q v vd, At u Q → u ≠ 1 → Rel (nodeMap P) (r >>> (i + 1)) c u v vd →
        ∃ v' vd', loop Q.x Q.y r i ⟨v, vd, m⟩ = step Q.x Q.y (r.testBit 0) ⟨v', vd', m'⟩ ∧
          Rel (nodeMap P) (r / 2) c' u v' vd' := by
  have small : ∀ j, 0 < j → j < r → j • P ≠ 0 := fun j h0 h1 h => by
    have := Nat.le_of_dvd h0 (addOrderOf_dvd_of_nsmul_eq_zero h)
    omega
  induction i with
  | zero =>
    intro m c hk hZ hP hc
    rw [zero_add, Nat.shiftRight_one] at *
    exact ⟨c, m, hc, hZ, fun u Q v vd _ _ h => ⟨v, vd, rfl, h⟩⟩
  | succ i ih =>
    intro m c hk hZ hP hc
    have hb : r >>> (i + 1) = 2 * (r >>> (i + 1 + 1)) + (r.testBit (i + 1)).toNat := by
      rw [Nat.shiftRight_succ r (i + 1), Nat.testBit, Nat.one_and_eq_mod_two]
      have : ((r >>> (i + 1) % 2 != 0).toNat) = r >>> (i + 1) % 2 := by
        rcases Nat.mod_two_eq_zero_or_one (r >>> (i + 1)) with h | h <;> rw [h] <;> rfl
      rw [this]
      omega
    have hlt : r >>> (i + 1) < r := by
      rw [Nat.shiftRight_eq_div_pow]
      refine Nat.div_lt_self ?_ (Nat.one_lt_two_pow (by omega))
      by_contra h0
      have : r = 0 := by omega
      subst this
      simp at hk
    set k := r >>> (i + 1 + 1)
    obtain ⟨c₁, m₁, hc₁, hZ₁, hP₁, hall⟩ := step_rel h2 hk hZ hP (r.testBit (i + 1)) (small _ (by omega) (by omega))
      (fun hbit => small _ (by omega) (by rw [hbit, Bool.toNat_true] at hb; omega)) (fun _ h => by
        refine small (2 * k - 1) (by omega) (by omega) ?_
        have e : (2 * k - 1) • P + P = (2 * k) • P := by
          rw [← succ_nsmul]; congr 1; omega
        rw [h] at e
        exact add_eq_right.1 e) hc
    rw [← hb] at hZ₁ hall
    obtain ⟨c₂, m₂, hc₂, hZ₂, hall₂⟩ := ih m₁ c₁ (by omega) hZ₁ hP₁ hc₁
    refine ⟨c₂, m₂, hc₂, hZ₂, fun u Q v vd hQ hu h => ?_⟩
    obtain ⟨v₁, vd₁, e₁, h₁⟩ := hall u Q v vd hQ hu h
    obtain ⟨v₂, vd₂, e₂, h₂⟩ := hall₂ u Q v₁ vd₁ hQ hu h₁
    refine ⟨v₂, vd₂, ?_, h₂⟩
    rw [loop, e₁]
    exact e₂

variable [Fintype K]

/-- The value of `sn_miller` for a point `P` that generates the group: up to a factor that depends on `P` only, it is
`1 / (x + 1)`. -/
theorem miller_value (h2 : (2 : K) ≠ 0) {P : (SN K).Point} {p' : Pt K} (hp : PtRep p' P)
    (hr : addOrderOf P = order (Fintype.card K)) :
    ∃ c : K, c ≠ 0 ∧ ∀ u Q g, At u Q → u ≠ 1 → u ≠ nodeMap P →
      miller (order (Fintype.card K)) p' Q.x Q.y = some g → g * (Q.x + 1) = c := by
  set r := order (Fintype.card K) with hrd
  have hodd : Odd (Fintype.card K) := Nat.odd_iff.2 (FiniteField.odd_card_of_char_ne_two fun hc => h2 (by
    have := CharP.cast_eq_zero K (ringChar K)
    rw [hc] at this
    exact_mod_cast this))
  have h3 : 1 < Fintype.card K := Fintype.one_lt_card
  obtain ⟨k, hk⟩ : ∃ k, r = 2 * k := by
    obtain ⟨j, hj⟩ := hodd
    exact ⟨j, by rw [hrd, order, hj]; omega⟩
  have hk0 : 0 < k := by
    have : r = Fintype.card K - 1 := rfl
    omega
  have hP0 : P ≠ 0 := by
    rintro rfl
    rw [addOrderOf_zero] at hr
    omega
  set i := (if Nat.log2 r + 1 > 2 then Nat.log2 r + 1 - 2 else 0) with hi
  have hbit : r >>> (i + 1) = 1 := by
    have hl := Nat.log2_self_le (n := r) (by omega)
    have hl' := Nat.lt_log2_self (n := r)
    have h1 : 1 ≤ Nat.log2 r := by
      by_contra h0
      have : Nat.log2 r = 0 := by omega
      rw [this] at hl'
      omega
    have : i + 1 = Nat.log2 r := by rw [hi]; split_ifs <;> omega
    rw [this, Nat.shiftRight_eq_div_pow]
    refine Nat.div_eq_of_lt_le (by omega) ?_
    rw [pow_succ] at hl'
    omega
  set m : Mem K := set (fun i => if i = 1 then p' else fresh) 0 1 with hm
  have hm0 : PtRep (m 0) P ∧ PtRep (m 1) P := by
    obtain ⟨h0, h1⟩ := set_rep (m := fun i => if i = 1 then p' else fresh) (a := 1) (P := P) (by simpa using hp) 0
    refine ⟨h0, ?_⟩
    have : m 1 = p' := by rw [hm]; exact (h1 1 (by norm_num)).trans (by simp)
    rw [this]; exact hp
  obtain ⟨c, m', hc, hZ, hall⟩ := loop_rel h2 hr i m 1 (by omega) (by rw [hbit, one_nsmul]; exact hm0.1) hm0.2 one_ne_zero
  have hr2 : r / 2 = k := by omega
  rw [hr2] at hZ hall
  -- the last round starts from the point of order two
  have hkP : k • P ≠ 0 := fun h => by
    have := Nat.le_of_dvd hk0 (addOrderOf_dvd_of_nsmul_eq_zero h)
    omega
  have hpk : nodeMap P ^ k = -1 := by
    have h1 : nodeMap P ^ k ≠ 1 := fun h => hkP (by rw [← nodeMap_one_iff h2, nodeMap_nsmul h2, h])
    have h3 : (nodeMap P ^ k) ^ 2 = 1 := by
      rw [← pow_mul, mul_comm, ← hk, ← nodeMap_nsmul h2, ← hr, addOrderOf_nsmul_eq_zero]; rfl
    have h5 : (nodeMap P ^ k - 1) * (nodeMap P ^ k + 1) = 0 := by linear_combination h3
    exact eq_neg_of_add_eq_zero_left ((mul_eq_zero.1 h5).resolve_left (sub_ne_zero.2 h1))
  have aZ : At (-1 : K) (m' 0) := hpk ▸ nodeMap_nsmul h2 P k ▸ at_of h2 hZ hkP
  have h4 : (-1 - 1 : K) ≠ 0 := by
    intro h; exact h2 (by linear_combination -h)
  have hx : (m' 0).x = -1 := by rw [aZ.x, div_eq_iff (pow_ne_zero _ h4)]; ring
  have hy : (m' 0).y = 0 := by rw [aZ.y]; simp
  refine ⟨-c ^ 2, neg_ne_zero.2 (pow_ne_zero _ hc), fun u Q g hQ hu hup hg => ?_⟩
  obtain ⟨v, vd, e, hrel⟩ := hall u Q 1 1 hQ hu (by rw [hbit]; unfold Rel; simp)
  have eu : u - 1 ≠ 0 := sub_ne_zero.2 hu
  have eup : u - nodeMap P ≠ 0 := sub_ne_zero.2 hup
  have hdbl : double m' 0 0 = some (Curve.wInf m' 0 true) := by
    rw [double, aZ.inf, if_neg (by simp), if_pos hy]
  have hbit0 : r.testBit 0 = false := by
    rw [Nat.testBit_zero, hk]; simp
  have hst : step Q.x Q.y (r.testBit 0) ⟨v, vd, m'⟩ =
      some ⟨v * v * -(Q.x + 1), vd * vd * (Q.x + 1), Curve.wInf m' 0 true⟩ := by
    rw [hbit0, step]
    simp only [hdbl, Bool.false_eq_true, if_false, tangent, vertical, hx, hy, Curve.wInf, Function.update_self]
    congr 2
    · push_cast; ring
    · ring
  have hr0 : r ≠ 0 := by omega
  rw [miller] at hg
  simp only [hr0, if_false, ← hi, ← hm, e, hst] at hg
  unfold Pbc.Quad.inv? at hg
  split_ifs at hg with hz
  simp only [Option.some.injEq] at hg
  rw [← hg]
  unfold Rel at hrel
  rw [hpk] at hrel
  have hx1 : Q.x + 1 = (u + 1) ^ 2 / (u - 1) ^ 2 := by
    rw [hQ.x, eq_div_iff (pow_ne_zero _ eu), add_mul, div_mul_cancel₀ _ (pow_ne_zero _ eu)]; ring
  have hxne : Q.x + 1 ≠ 0 := fun h => hz (by rw [h, mul_zero])
  have hvd : vd ≠ 0 := fun h => hz (by rw [h]; ring)
  have hu1 : u + 1 ≠ 0 := fun h => hxne (by rw [hx1, h]; simp)
  have hpow : ∀ t : K, t ≠ 0 → (t ^ k) ^ 2 = 1 := fun t ht => by
    rw [← pow_mul, mul_comm, ← hk]
    exact FiniteField.pow_card_sub_one_eq_one t ht
  have e1 := hpow _ eu
  have e2 := hpow _ eup
  obtain ⟨j, rfl⟩ : ∃ j, k = j + 1 := ⟨k - 1, by omega⟩
  rw [Nat.add_sub_cancel] at hrel
  rw [pow_succ (u - 1) j] at e1
  have hsq : v ^ 2 * ((u + 1) ^ 2 * ((u - 1) ^ j) ^ 2) = c ^ 2 * vd ^ 2 := by
    have : v ^ 2 * ((u + 1) ^ 2 * ((u - 1) ^ j) ^ 2) = c ^ 2 * vd ^ 2 * ((u - nodeMap P) ^ (j + 1)) ^ 2 := by
      linear_combination (v * ((u - -1) * (u - 1) ^ j) + c * vd * (u - nodeMap P) ^ (j + 1)) * hrel
    rw [this, e2, mul_one]
  have hv : v ^ 2 * (Q.x + 1) = c ^ 2 * vd ^ 2 := by
    have : (u + 1) ^ 2 / (u - 1) ^ 2 = (u + 1) ^ 2 * ((u - 1) ^ j) ^ 2 := by
      rw [div_eq_iff (pow_ne_zero _ eu)]
      linear_combination -(u + 1) ^ 2 * e1
    rw [hx1, this, hsq]
  field_simp
  linear_combination -hv

end Pbc.Singular
