import Verif.Model.MontFp
import Verif.Lemmas.Mpn
import Mathlib.Data.ZMod.Basic
import Mathlib.FieldTheory.Finite.Basic
import Mathlib.Data.Nat.ModEq

/-! Lemmas about the Montgomery backend. -/

namespace Pbc.Mont

/-- What `field_init_mont_fp` establishes. -/
structure FieldOk (F : Field) : Prop where
  w1 : 1 ≤ F.w
  t1 : 1 ≤ F.t
  p1 : 1 < F.p
  podd : F.p % 2 = 1
  plt : F.p < F.β ^ F.t
  Pl : Limbs F.β F.t F.P
  Pv : val F.β F.P = F.p
  npi : (F.p * F.negpinv + 1) % F.β = 0
  Rl : Limbs F.β F.t F.R
  Rv : val F.β F.R = F.β ^ F.t % F.p
  R3l : Limbs F.β F.t F.R3
  R3v : val F.β F.R3 = (F.β ^ F.t % F.p) ^ 3 % F.p

theorem mpzInvert_spec {a m : ℕ} (hm : 0 < m) (h : Nat.Coprime a m) :
    mpzInvert a m < m ∧ a * mpzInvert a m ≡ 1 [MOD m] := by
  have h0 : (0 : ℤ) ≤ Nat.gcdA a m % (m : ℤ) := Int.emod_nonneg _ (by omega)
  have h1 : Nat.gcdA a m % (m : ℤ) < m := Int.emod_lt_of_pos _ (by omega)
  refine ⟨by unfold mpzInvert; omega, ?_⟩
  have h2 : ((mpzInvert a m : ℕ) : ℤ) = Nat.gcdA a m % (m : ℤ) := by
    unfold mpzInvert; exact Int.toNat_of_nonneg h0
  rw [← Int.natCast_modEq_iff]
  push_cast
  rw [h2]
  have hb := Nat.gcd_eq_gcd_ab a m
  rw [h] at hb
  have : (a : ℤ) * (Nat.gcdA a m % m) ≡ a * Nat.gcdA a m [ZMOD m] :=
    Int.ModEq.mul_left _ (Int.mod_modEq _ _)
  refine this.trans ?_
  have h3 : (a : ℤ) * Nat.gcdA a m = 1 - m * Nat.gcdB a m := by push_cast at hb; linarith
  rw [h3]
  exact (Int.modEq_iff_dvd.2 ⟨Nat.gcdB a m, by ring⟩)

theorem init_ok {w p : ℕ} (hw : 1 ≤ w) (hp : 1 < p) (hodd : p % 2 = 1) : FieldOk (init w p) := by
  have hβ : 2 ≤ 2 ^ w := by
    calc 2 = 2 ^ 1 := rfl
      _ ≤ 2 ^ w := Nat.pow_le_pow_right (by norm_num) hw
  set t := (Nat.size p + w - 1) / w with ht
  have hsz : 0 < Nat.size p := Nat.size_pos.2 (by omega)
  have ht1 : 1 ≤ t := by
    rw [ht, Nat.one_le_div_iff (by omega)]; omega
  have hplt : p < (2 ^ w) ^ t := by
    rw [← pow_mul]
    refine lt_of_lt_of_le (Nat.lt_size_self p) (Nat.pow_le_pow_right (by norm_num) ?_)
    have := Nat.lt_div_mul_add (a := Nat.size p + w - 1) (b := w) (by omega)
    rw [← ht, mul_comm] at this
    omega
  have hcop : Nat.Coprime p ((2 ^ w) ^ t) := by
    refine Nat.Coprime.pow_right _ (Nat.Coprime.pow_right _ ?_)
    rw [Nat.coprime_comm, Nat.coprime_two_left, Nat.odd_iff]; exact hodd
  have hr : (2 ^ w) ^ t % p < p := Nat.mod_lt _ (by omega)
  refine ⟨hw, ht1, hp, hodd, hplt, toLimbs_limbs (by positivity) _ _, val_toLimbs_of_lt hplt, ?_,
    toLimbs_limbs (by positivity) _ _, val_toLimbs_of_lt (hr.trans hplt),
    toLimbs_limbs (by positivity) _ _,
    val_toLimbs_of_lt ((Nat.mod_lt _ (by omega)).trans hplt)⟩
  -- negpinv
  obtain ⟨hlt, hinv⟩ := mpzInvert_spec (by positivity) hcop
  change (p * ((2 * 2 ^ w - 1 - (mpzInvert p ((2 ^ w) ^ t) % 2 ^ w + 2 ^ w - 1) % 2 ^ w) % 2 ^ w)
    + 1) % 2 ^ w = 0
  set z := mpzInvert p ((2 ^ w) ^ t)
  set β := 2 ^ w
  have hinv' : p * (z % β) ≡ 1 [MOD β] := by
    have h1 : p * z ≡ 1 [MOD β] := hinv.of_dvd (dvd_pow_self _ (by omega))
    exact ((Nat.mod_modEq z β).mul_left p).trans h1
  set z0 := z % β
  have hz0 : z0 < β := Nat.mod_lt _ (by omega)
  have hz0' : 0 < z0 := by
    rcases Nat.eq_zero_or_pos z0 with h | h
    · rw [h, mul_zero] at hinv'
      have := hinv'
      rw [Nat.ModEq, Nat.zero_mod, Nat.mod_eq_of_lt (by omega)] at this
      omega
    · exact h
  have e1 : (z0 + β - 1) % β = z0 - 1 := by
    have : z0 + β - 1 = (z0 - 1) + β := by omega
    rw [this, Nat.add_mod_right, Nat.mod_eq_of_lt (by omega)]
  have e2 : (2 * β - 1 - (z0 - 1)) % β = β - z0 := by
    have : 2 * β - 1 - (z0 - 1) = (β - z0) + β := by omega
    rw [this, Nat.add_mod_right, Nat.mod_eq_of_lt (by omega)]
  rw [e1, e2]
  have h3 : p * (β - z0) + p * z0 ≡ p * (β - z0) + 1 [MOD β] := hinv'.add_left _
  have h4 : p * (β - z0) + p * z0 = p * β := by rw [← mul_add]; congr 1; omega
  rw [h4] at h3
  have h5 : p * β ≡ 0 [MOD β] := (Nat.modEq_zero_iff_dvd.2 (dvd_mul_left _ _))
  exact (h3.symm.trans h5)

namespace FieldOk

variable {F : Field} (ok : FieldOk F)
include ok

theorem β2 : 2 ≤ F.β := by
  unfold Field.β
  calc 2 = 2 ^ 1 := rfl
    _ ≤ 2 ^ F.w := Nat.pow_le_pow_right (by norm_num) ok.w1

theorem βeven : 2 ∣ F.β := dvd_pow_self _ (by have := ok.w1; omega)

theorem coprime : Nat.Coprime F.p (F.β ^ F.t) := by
  refine Nat.Coprime.pow_right _ (Nat.Coprime.pow_right _ ?_)
  rw [Nat.coprime_comm, Nat.coprime_two_left, Nat.odd_iff]; exact ok.podd

end FieldOk

theorem snoc_of_limbs {β t : ℕ} {l : List ℕ} (h : Limbs β (t + 1) l) :
    ∃ lo x, l = lo ++ [x] ∧ Limbs β t lo ∧ x < β ∧ l.take t = lo ∧ (l.drop t).headD 0 = x := by
  have hlen : l.length = t + 1 := h.1
  have hd : l.drop t = [l[t]] := by
    rw [List.drop_eq_getElem_cons (by omega), List.drop_of_length_le (by omega)]
  refine ⟨l.take t, l[t], ?_, ⟨by simp [hlen], fun x hx => h.2 x (List.mem_of_mem_take hx)⟩,
    h.2 _ (List.getElem_mem _), rfl, by rw [hd]; rfl⟩
  rw [← hd, List.take_append_drop]

theorem limbs_append {β s t : ℕ} {a b : List ℕ} (ha : Limbs β s a) (hb : Limbs β t b) :
    Limbs β (s + t) (a ++ b) :=
  ⟨by simp [ha.1, hb.1], fun x hx => (List.mem_append.1 hx).elim (ha.2 x) (hb.2 x)⟩

theorem headD_val_mod {β t : ℕ} {l : List ℕ} (h : Limbs β (t + 1) l) :
    l.headD 0 ≡ val β l [MOD β] := by
  obtain ⟨x, xs, rfl, hx, hxs⟩ := h.exists_cons
  simp [val, Nat.ModEq]

/-- Dropping a zero low limb divides by the base. -/
theorem tail_val {β t : ℕ} {l : List ℕ} (h : Limbs β (t + 1) l) (hz : val β l % β = 0) :
    Limbs β t l.tail ∧ β * val β l.tail = val β l := by
  obtain ⟨x, xs, rfl, hx, hxs⟩ := h.exists_cons
  simp only [val, Nat.add_mul_mod_self_left, Nat.mod_eq_of_lt hx] at hz
  subst hz
  exact ⟨hxs, by simp [val]⟩

section
variable {F : Field} (ok : FieldOk F)
include ok

/-- The multiplier chosen in a Montgomery round makes the low limb vanish. -/
theorem round_dvd (x : ℕ) {y : ℕ} (hxy : y ≡ x [MOD F.β]) :
    (x + F.p * ((y * F.negpinv) % F.β)) % F.β = 0 := by
  have h1 : F.p * ((y * F.negpinv) % F.β) ≡ F.p * (x * F.negpinv) [MOD F.β] :=
    Nat.ModEq.mul_left _ ((Nat.mod_modEq _ _).trans (hxy.mul_right _))
  have h2 : x + F.p * ((y * F.negpinv) % F.β) ≡ x + F.p * (x * F.negpinv) [MOD F.β] :=
    h1.add_left _
  have h3 : x + F.p * (x * F.negpinv) = x * (F.p * F.negpinv + 1) := by ring
  rw [h3] at h2
  have h4 : x * (F.p * F.negpinv + 1) ≡ x * 0 [MOD F.β] :=
    Nat.ModEq.mul_left _ ok.npi
  exact h2.trans h4

theorem montMulStep_spec {b win : List ℕ} {ai : ℕ} (hb : Limbs F.β F.t b)
    (hw : Limbs F.β (F.t + 1) win) (ha : ai < F.β)
    (hno : val F.β win + val F.β b * ai < F.β ^ (F.t + 1)) :
    Limbs F.β (F.t + 1) (montMulStep F b win ai) ∧
    ∃ u, u < F.β ∧
      F.β * val F.β (montMulStep F b win ai) = val F.β win + val F.β b * ai + F.p * u := by
  have hβ : 0 < F.β := by have := ok.β2; omega
  obtain ⟨lo, x, hwin, hlo, hx, htake, hdrop⟩ := snoc_of_limbs hw
  obtain ⟨t', ht'⟩ : ∃ t', F.t = t' + 1 := ⟨F.t - 1, by have := ok.t1; omega⟩
  set u := ((win.headD 0 + ai * b.headD 0) * F.negpinv) % F.β with hu
  have hult : u < F.β := Nat.mod_lt _ hβ
  unfold montMulStep
  simp only [htake, hdrop, ← hu]
  have h1 := mpnAddmul1_val hlo hb ai 0
  have h1l := mpnAddmul1_limbs hβ hlo hb ai 0
  have h1c := mpnAddmul1_carry hlo hb ha hβ
  set am := mpnAddmul1 F.β lo b ai 0
  have h2 := mpnAddmul1_val h1l ok.Pl u 0
  have h2l := mpnAddmul1_limbs hβ h1l ok.Pl u 0
  have h2c := mpnAddmul1_carry h1l ok.Pl hult hβ
  set am2 := mpnAddmul1 F.β am.1 F.P u 0
  have hvwin : val F.β win = val F.β lo + F.β ^ F.t * x := by
    rw [hwin, val_append, hlo.1]; simp [val]
  have hv : x + am.2 < F.β := by
    rw [hvwin] at hno
    by_contra hge
    push Not at hge
    have : F.β ^ F.t * F.β ≤ F.β ^ F.t * (x + am.2) := Nat.mul_le_mul_left _ hge
    rw [pow_succ] at hno
    rw [mul_add] at this
    omega
  rw [Nat.mod_eq_of_lt hv]
  set v := x + am.2 with hvdef
  -- top word with its overflow bit
  have htop : (v + am2.2) % F.β + F.β * (if (v + am2.2) % F.β < v then 1 else 0) = v + am2.2 := by
    by_cases h : v + am2.2 < F.β
    · rw [Nat.mod_eq_of_lt h, if_neg (by omega)]; omega
    · have : (v + am2.2) % F.β = v + am2.2 - F.β := by
        rw [Nat.mod_eq_sub_mod (by omega), Nat.mod_eq_of_lt (by omega)]
      rw [this, if_pos (by omega)]; omega
  have htlt : (v + am2.2) % F.β < F.β := Nat.mod_lt _ hβ
  set top := (v + am2.2) % F.β
  set ov := (if top < v then 1 else 0 : ℕ) with hov
  have hovlt : ov < F.β := by
    have := ok.β2
    rw [hov]; split <;> omega
  have hl : Limbs F.β (F.t + 2) (am2.1 ++ [top, ov]) := by
    refine limbs_append h2l ⟨rfl, ?_⟩
    intro y hy
    simp at hy
    rcases hy with rfl | rfl <;> assumption
  have hval : val F.β (am2.1 ++ [top, ov]) = val F.β win + val F.β b * ai + F.p * u := by
    rw [val_append, h2l.1]
    simp only [val]
    rw [hvwin]
    have hp := ok.Pv
    rw [hp] at h2
    have : F.β ^ F.t * (top + F.β * (ov + F.β * 0)) = F.β ^ F.t * (x + am.2 + am2.2) := by
      rw [← hvdef, ← htop]; ring
    rw [this]
    linarith [h1, h2, mul_add (F.β ^ F.t) (x + am.2) am2.2, mul_add (F.β ^ F.t) x am.2]
  have hz : val F.β (am2.1 ++ [top, ov]) % F.β = 0 := by
    rw [hval, hu]
    refine round_dvd ok _ ?_
    refine Nat.ModEq.add ?_ ?_
    · exact headD_val_mod hw
    · rw [mul_comm ai]
      exact (headD_val_mod (by rw [ht'] at hb; exact hb)).mul_right _
  obtain ⟨hl', hv'⟩ := tail_val hl hz
  exact ⟨hl', u, hult, by rw [hv', hval]⟩

omit ok in
theorem addmul1_zero (b : List ℕ) (a c : ℕ) :
    mpnAddmul1 F.β (List.replicate b.length 0) b a c = mpnMul1 F.β b a c := by
  induction b generalizing c with
  | nil => rfl
  | cons x xs ih => simp [List.replicate_succ, mpnAddmul1, mpnMul1, ih]

theorem montMulFirst_eq {b : List ℕ} (hb : Limbs F.β F.t b) {a0 : ℕ} (ha : a0 < F.β) :
    montMulFirst F b a0 = montMulStep F b (List.replicate (F.t + 1) 0) a0 := by
  have hβ : 0 < F.β := by have := ok.β2; omega
  have h1 : (List.replicate (F.t + 1) 0).take F.t = List.replicate b.length 0 := by
    rw [List.take_replicate, hb.1]; congr 1; omega
  have h2 : ((List.replicate (F.t + 1) 0).drop F.t).headD 0 = 0 := by
    rw [List.drop_replicate]; simp
  unfold montMulFirst montMulStep
  have h3 : (List.replicate (F.t + 1) 0).headD 0 = 0 := by simp [List.replicate_succ]
  rw [h1, h2, h3, addmul1_zero]
  simp only [zero_add]
  rw [Nat.mod_eq_of_lt (mpnMul1_carry hb ha hβ)]

omit ok in
theorem val_replicate_zero (β n : ℕ) : val β (List.replicate n 0) = 0 := by
  induction n with
  | zero => rfl
  | succ n ih => simp [List.replicate_succ, val, ih]

theorem limbs_replicate_zero (n : ℕ) : Limbs F.β n (List.replicate n 0) :=
  ⟨by simp, fun x hx => by
    rw [List.eq_of_mem_replicate hx]; have := ok.β2; omega⟩

/-- The loop invariant of Montgomery multiplication. -/
theorem montMul_fold {b : List ℕ} (hb : Limbs F.β F.t b)
    (hcap : F.β * val F.β b + F.p ≤ F.β ^ (F.t + 1)) (as : List ℕ) (has : ∀ x ∈ as, x < F.β)
    {win : List ℕ} (hw : Limbs F.β (F.t + 1) win) (hwb : val F.β win < val F.β b + F.p) :
    Limbs F.β (F.t + 1) (as.foldl (montMulStep F b) win) ∧
    val F.β (as.foldl (montMulStep F b) win) < val F.β b + F.p ∧
    ∃ k, F.β ^ as.length * val F.β (as.foldl (montMulStep F b) win)
      = val F.β win + val F.β as * val F.β b + k * F.p := by
  induction as generalizing win with
  | nil => exact ⟨hw, hwb, 0, by simp [val]⟩
  | cons x xs ih =>
    have hx : x < F.β := has x (by simp)
    have hxb : val F.β b * x + val F.β b ≤ F.β * val F.β b := by
      calc val F.β b * x + val F.β b = (x + 1) * val F.β b := by ring
        _ ≤ F.β * val F.β b := Nat.mul_le_mul_right _ hx
    obtain ⟨hl, u, hu, hv⟩ := montMulStep_spec ok hb hw hx (by omega)
    have hup : F.p * u + F.p ≤ F.β * F.p := by
      calc F.p * u + F.p = (u + 1) * F.p := by ring
        _ ≤ F.β * F.p := Nat.mul_le_mul_right _ hu
    have hlt : val F.β (montMulStep F b win x) < val F.β b + F.p := by
      have : F.β * val F.β (montMulStep F b win x) < F.β * (val F.β b + F.p) := by
        rw [hv, mul_add]; omega
      exact Nat.lt_of_mul_lt_mul_left this
    obtain ⟨h1, h2, k, hk⟩ := ih (fun y hy => has y (by simp [hy])) hl hlt
    refine ⟨h1, h2, u + F.β * k, ?_⟩
    simp only [List.foldl_cons, List.length_cons, val]
    rw [pow_succ]
    linear_combination F.β * hk + hv

/-- Final conditional subtraction, shared by `mont_mul` and `mont_reduce`. -/
theorem final_sub {lo : List ℕ} {top : ℕ} (hlo : Limbs F.β F.t lo)
    (hlt : val F.β lo + F.β ^ F.t * top < 2 * F.p) :
    let r := if top ≠ 0 ∨ mpnCmp lo F.P ≠ Ordering.lt then (mpnSubN F.β lo F.P 0).1 else lo
    Limbs F.β F.t r ∧ val F.β r < F.p ∧ val F.β r ≡ val F.β lo + F.β ^ F.t * top [MOD F.p] := by
  have hβ : 0 < F.β := by have := ok.β2; omega
  have hcmp := mpnCmp_val hlo ok.Pl
  have hplt := ok.plt
  rw [ok.Pv] at hcmp
  intro r
  by_cases h : top ≠ 0 ∨ mpnCmp lo F.P ≠ Ordering.lt
  · have hr : r = (mpnSubN F.β lo F.P 0).1 := if_pos h
    have hv := mpnSubN_val hlo ok.Pl (c := 0) (by omega)
    have hl := mpnSubN_limbs hβ hlo ok.Pl 0
    have hb := mpnSubN_borrow hlo ok.Pl (c := 0) (by omega)
    have hvlt := val_lt hl
    have hlolt := val_lt hlo
    rw [hr]
    rw [ok.Pv] at hv
    set bo := (mpnSubN F.β lo F.P 0).2
    have key : top = bo := by
      have hbo : bo = 0 ∨ bo = 1 := by omega
      have htop : top ≤ 1 := by
        by_contra hc
        have : F.β ^ F.t * 2 ≤ F.β ^ F.t * top := Nat.mul_le_mul_left _ (by omega)
        omega
      have htop' : top = 0 ∨ top = 1 := by omega
      rcases htop' with h0 | h0 <;> rcases hbo with h1 | h1
      · omega
      · exfalso
        rw [h1, mul_one] at hv
        rcases h with h | h
        · exact h h0
        · rw [hcmp] at h
          have : ¬ val F.β lo < F.p := fun hc => h (Nat.compare_eq_lt.2 hc)
          omega
      · exfalso
        rw [h1, mul_zero] at hv
        rw [h0, mul_one] at hlt
        omega
      · omega
    have : val F.β (mpnSubN F.β lo F.P 0).1 + F.p = val F.β lo + F.β ^ F.t * top := by
      rw [key]; omega
    refine ⟨hl, by omega, ?_⟩
    rw [← this]
    simp [Nat.ModEq]
  · have hr : r = lo := if_neg h
    push Not at h
    obtain ⟨h0, h1⟩ := h
    rw [hcmp] at h1
    have := Nat.compare_eq_lt.1 h1
    rw [hr, h0]
    exact ⟨hlo, this, by simp [Nat.ModEq]⟩

/-- The modulus' top limb is not all ones, in the form used by the proof. -/
theorem cap_of_top (htop : F.p ≤ F.β ^ F.t - F.β ^ (F.t - 1)) {B : ℕ} (hB : B < F.p) :
    F.β * B + F.p ≤ F.β ^ (F.t + 1) := by
  obtain ⟨t', ht'⟩ : ∃ t', F.t = t' + 1 := ⟨F.t - 1, by have := ok.t1; omega⟩
  rw [ht'] at htop ⊢
  simp only [Nat.add_sub_cancel] at htop
  have h1 : F.β * B + F.β ≤ F.β * F.p := by
    calc F.β * B + F.β = F.β * (B + 1) := by ring
      _ ≤ F.β * F.p := Nat.mul_le_mul_left _ hB
  have hβ := ok.β2
  have hpos : 0 < F.β ^ t' := by positivity
  have h0 : F.β ^ t' ≤ F.β ^ (t' + 1) := Nat.pow_le_pow_right (by omega) (by omega)
  have h2 : F.p + F.β ^ t' ≤ F.β ^ (t' + 1) := by omega
  have h3 : F.β * F.p + F.β ^ (t' + 1) ≤ F.β ^ (t' + 2) := by
    have := Nat.mul_le_mul_left F.β h2
    rw [mul_add] at this
    calc F.β * F.p + F.β ^ (t' + 1) = F.β * F.p + F.β * F.β ^ t' := by ring
      _ ≤ _ := this
      _ = _ := by ring
  have h4 : F.β * F.β ^ t' = F.β ^ (t' + 1) := by ring
  rw [show t' + 1 + 1 = t' + 2 from rfl]
  omega

theorem montMul_spec (htop : F.p ≤ F.β ^ F.t - F.β ^ (F.t - 1)) {a b : List ℕ}
    (ha : Limbs F.β F.t a) (hb : Limbs F.β F.t b) (hbp : val F.β b < F.p) :
    Limbs F.β F.t (montMul F a b) ∧ val F.β (montMul F a b) < F.p ∧
    val F.β (montMul F a b) * F.β ^ F.t ≡ val F.β a * val F.β b [MOD F.p] := by
  have hβ : 0 < F.β := by have := ok.β2; omega
  obtain ⟨t', ht'⟩ : ∃ t', F.t = t' + 1 := ⟨F.t - 1, by have := ok.t1; omega⟩
  have ha' := ha
  rw [ht'] at ha'
  obtain ⟨x, xs, rfl, hx, hxs⟩ := ha'.exists_cons
  have hall : ∀ y ∈ x :: xs, y < F.β := ha.2
  have hcap := cap_of_top ok htop hbp
  obtain ⟨h1, h2, k, hk⟩ := montMul_fold ok hb hcap (x :: xs) hall
    (limbs_replicate_zero ok (F.t + 1)) (by rw [val_replicate_zero]; have := ok.p1; omega)
  rw [val_replicate_zero, zero_add] at hk
  have hfold : xs.foldl (montMulStep F b) (montMulFirst F b x)
      = (x :: xs).foldl (montMulStep F b) (List.replicate (F.t + 1) 0) := by
    rw [montMulFirst_eq ok hb hx]; rfl
  have hm : montMul F (x :: xs) b =
      (let z := (x :: xs).foldl (montMulStep F b) (List.replicate (F.t + 1) 0)
       if (z.drop F.t).headD 0 ≠ 0 ∨ mpnCmp (z.take F.t) F.P ≠ Ordering.lt
        then (mpnSubN F.β (z.take F.t) F.P 0).1 else z.take F.t) := by
    simp only [montMul, List.tail_cons, List.headD_cons, hfold]
  rw [hm]
  set z := (x :: xs).foldl (montMulStep F b) (List.replicate (F.t + 1) 0)
  obtain ⟨lo, y, hz, hlo, hy, htake, hdrop⟩ := snoc_of_limbs h1
  simp only [htake, hdrop]
  have hvz : val F.β z = val F.β lo + F.β ^ F.t * y := by
    rw [hz, val_append, hlo.1]; simp [val]
  obtain ⟨r1, r2, r3⟩ := final_sub ok hlo (top := y) (by rw [← hvz]; omega)
  refine ⟨r1, r2, ?_⟩
  rw [← hvz] at r3
  refine (r3.mul_right _).trans ?_
  have : val F.β z * F.β ^ F.t = val F.β (x :: xs) * val F.β b + k * F.p := by
    rw [← hk, ha.1]; ring
  rw [this]
  simp [Nat.ModEq]

/-- Loop invariant of Montgomery reduction. -/
theorem montReduceLoop_spec (n : ℕ) {y : List ℕ} {flag : ℕ} (hy : Limbs F.β (F.t + n) y) :
    Limbs F.β F.t (montReduceLoop F n y flag).1 ∧
    ∃ k, k < F.β ^ n ∧
      F.β ^ n * (val F.β (montReduceLoop F n y flag).1
        + F.β ^ F.t * (montReduceLoop F n y flag).2)
      = val F.β y + F.β ^ (F.t + n) * flag + k * F.p := by
  have hβ : 0 < F.β := by have := ok.β2; omega
  induction n generalizing y flag with
  | zero => exact ⟨hy, 0, by simp, by simp [montReduceLoop]⟩
  | succ n ih =>
    simp only [montReduceLoop]
    have hlen : y.length = F.t + (n + 1) := hy.1
    have htl : Limbs F.β F.t (y.take F.t) :=
      ⟨by simp [hlen], fun x hx => hy.2 x (List.mem_of_mem_take hx)⟩
    have hdl : Limbs F.β (n + 1) (y.drop F.t) :=
      ⟨by simp [hlen], fun x hx => hy.2 x (List.mem_of_mem_drop hx)⟩
    have hyv : val F.β y = val F.β (y.take F.t) + F.β ^ F.t * val F.β (y.drop F.t) := by
      conv_lhs => rw [← List.take_append_drop F.t y]
      rw [val_append, htl.1]
    set u := (y.headD 0 * F.negpinv) % F.β with hu
    have hult : u < F.β := Nat.mod_lt _ hβ
    have h1 := mpnAddmul1_val htl ok.Pl u 0
    have h1l := mpnAddmul1_limbs hβ htl ok.Pl u 0
    set am := mpnAddmul1 F.β (y.take F.t) F.P u 0
    have h2 := mpnAdd1_val hdl am.2
    have h2l := mpnAdd1_limbs hβ hdl am.2
    set ad := mpnAdd1 F.β (y.drop F.t) am.2
    have hl : Limbs F.β (F.t + n + 1) (am.1 ++ ad.1) := by
      have := limbs_append h1l h2l
      exact this
    have hval : val F.β (am.1 ++ ad.1) + F.β ^ (F.t + (n + 1)) * ad.2
        = val F.β y + F.p * u := by
      rw [val_append, h1l.1, hyv]
      rw [ok.Pv] at h1
      rw [pow_add]
      linear_combination h1 + F.β ^ F.t * h2
    have hz : val F.β (am.1 ++ ad.1) % F.β = 0 := by
      have hz1 : (val F.β y + F.p * u) % F.β = 0 := by
        rw [hu]
        exact round_dvd ok _ (headD_val_mod (t := F.t + n) hy)
      rw [← hval] at hz1
      have : F.β ^ (F.t + (n + 1)) * ad.2 = F.β * (F.β ^ (F.t + n) * ad.2) := by ring
      rw [this, Nat.add_mul_mod_self_left] at hz1
      exact hz1
    obtain ⟨hl', hv'⟩ := tail_val hl hz
    obtain ⟨g1, k, hk, g2⟩ := ih (flag := flag + ad.2) hl'
    refine ⟨g1, u + F.β * k, ?_, ?_⟩
    · calc u + F.β * k < F.β + F.β * k := by omega
        _ = F.β * (k + 1) := by ring
        _ ≤ F.β * F.β ^ n := Nat.mul_le_mul_left _ hk
        _ = F.β ^ (n + 1) := by ring
    · have e1 : F.β ^ (F.t + (n + 1)) = F.β * F.β ^ (F.t + n) := by ring
      rw [e1] at hval
      rw [pow_succ, e1]
      linear_combination F.β * g2 + hv' + hval

theorem montReduce_spec {y : List ℕ} (hy : Limbs F.β (F.t + F.t) y)
    (hlt : val F.β y < F.p * F.β ^ F.t) :
    Limbs F.β F.t (montReduce F y) ∧ val F.β (montReduce F y) < F.p ∧
    val F.β (montReduce F y) * F.β ^ F.t ≡ val F.β y [MOD F.p] := by
  obtain ⟨h1, k, hk, h2⟩ := montReduceLoop_spec ok F.t (flag := 0) hy
  rw [mul_zero, add_zero] at h2
  have hpos : 0 < F.β ^ F.t := by have := ok.β2; positivity
  have hlt2 : val F.β (montReduceLoop F F.t y 0).1
      + F.β ^ F.t * (montReduceLoop F F.t y 0).2 < 2 * F.p := by
    have : F.β ^ F.t * (val F.β (montReduceLoop F F.t y 0).1
      + F.β ^ F.t * (montReduceLoop F F.t y 0).2) < F.β ^ F.t * (2 * F.p) := by
      rw [h2]
      have : k * F.p ≤ F.β ^ F.t * F.p := Nat.mul_le_mul_right _ hk.le
      linarith [mul_comm F.p (F.β ^ F.t)]
    exact Nat.lt_of_mul_lt_mul_left this
  obtain ⟨r1, r2, r3⟩ := final_sub ok h1 hlt2
  refine ⟨r1, r2, ?_⟩
  refine (r3.mul_right _).trans ?_
  rw [mul_comm, h2]
  simp [Nat.ModEq]

end

end Pbc.Mont
