import Verif.Lemmas.MontFp
import Verif.Model.MontProgram

/-! The Montgomery backend refines `ZMod p`. -/

namespace Pbc.Mont

set_option linter.unusedSectionVars false

/-- Element `e` represents the residue `x`, stored multiplied by `κ`. -/
structure RepK (F : Field) (κ : ZMod F.p) (e : El) (x : ZMod F.p) : Prop where
  limbs : Limbs F.β F.t e.d
  zero : e.flag = false → x = 0
  pos : e.flag = true → 0 < val F.β e.d ∧ val F.β e.d < F.p ∧
    (val F.β e.d : ZMod F.p) = x * κ

/-- Montgomery representation. -/
abbrev Rep (F : Field) (e : El) (x : ZMod F.p) : Prop := RepK F ((F.β ^ F.t : ℕ) : ZMod F.p) e x

section
variable {F : Field} (ok : FieldOk F)
include ok

theorem neZero : NeZero F.p := ⟨by have := ok.p1; omega⟩

theorem R_unit : IsUnit ((F.β ^ F.t : ℕ) : ZMod F.p) :=
  (ZMod.isUnit_iff_coprime _ _).2 ok.coprime.symm

theorem two_unit : IsUnit ((2 : ℕ) : ZMod F.p) :=
  (ZMod.isUnit_iff_coprime _ _).2 (by
    rw [Nat.coprime_two_left, Nat.odd_iff]; exact ok.podd)

theorem β_pos : 0 < F.β := by have := ok.β2; omega

omit ok in
theorem orAt_val {β t : ℕ} {l : List ℕ} (h : Limbs β (t + 1) l) (b : ℕ)
    (hb : ∀ x, x < β → val β l / β ^ t = x → x ||| b = x + b) (hlt : val β l + β ^ t * b < β ^ (t + 1)) :
    Limbs β (t + 1) (orAt l t b) ∧ val β (orAt l t b) = val β l + β ^ t * b := by
  obtain ⟨lo, x, hl, hlo, hx, -, -⟩ := snoc_of_limbs h
  have hv : val β l = val β lo + β ^ t * x := by
    rw [hl, val_append, hlo.1]; simp [val]
  have hlolt := val_lt hlo
  have hpos : 0 < β ^ t := by omega
  have hdiv : val β l / β ^ t = x := by
    rw [hv, Nat.add_mul_div_left _ _ hpos, Nat.div_eq_of_lt hlolt, zero_add]
  have hxb := hb x hx hdiv
  have hmod : orAt l t b = lo ++ [x ||| b] := by
    have : ∀ lo : List ℕ, orAt (lo ++ [x]) lo.length b = lo ++ [x ||| b] := by
      intro lo
      induction lo with
      | nil => rfl
      | cons y ys ih => simp [orAt, ih]
    rw [hl, ← hlo.1, this]
  have hxlt : x + b < β := by
    have h1 : β ^ t * (x + b) < β ^ t * β := by
      rw [hv] at hlt
      rw [mul_add]
      have : β ^ t * β = β ^ (t + 1) := by ring
      omega
    exact Nat.lt_of_mul_lt_mul_left h1
  rw [hmod, hxb]
  refine ⟨limbs_append hlo ⟨rfl, by simpa using hxlt⟩, ?_⟩
  rw [val_append, hlo.1, hv]
  simp [val]; ring

end

section
variable {F : Field} (ok : FieldOk F) {κ : ZMod F.p} (hκ : IsUnit κ)
include ok hκ

theorem RepK.ne_zero {e : El} {x : ZMod F.p} (h : RepK F κ e x) (hf : e.flag = true) : x ≠ 0 := by
  obtain ⟨h1, h2, h3⟩ := h.pos hf
  rintro rfl
  rw [zero_mul] at h3
  have := (ZMod.natCast_eq_zero_iff _ _).1 h3
  exact absurd (Nat.le_of_dvd h1 this) (by omega)

theorem RepK.flag_false_iff {e : El} {x : ZMod F.p} (h : RepK F κ e x) : e.flag = false ↔ x = 0 := by
  constructor
  · exact h.zero
  · intro hx
    cases hf : e.flag
    · rfl
    · exact absurd hx (h.ne_zero ok hκ hf)

theorem rep_zero {c : El} {y : ZMod F.p} (h : RepK F κ c y) : RepK F κ { c with flag := false } 0 :=
  ⟨h.limbs, fun _ => rfl, fun hf => by simp at hf⟩

omit ok hκ in
/-- Build a `RepK` for a nonzero element. -/
theorem rep_mk {d : List ℕ} {x : ZMod F.p} (hl : Limbs F.β F.t d) (h0 : val F.β d ≠ 0)
    (hlt : val F.β d < F.p) (hx : (val F.β d : ZMod F.p) = x * κ) :
    RepK F κ { flag := true, d := d } x :=
  ⟨hl, fun hf => by simp at hf, fun _ => ⟨Nat.pos_of_ne_zero h0, hlt, hx⟩⟩

theorem set_rep {c a : El} {x y : ZMod F.p} (hc : RepK F κ c y) (ha : RepK F κ a x) :
    RepK F κ (set c a) x := by
  unfold set
  split
  · rename_i h; rw [ha.zero h]; exact rep_zero ok hκ hc
  · rename_i h
    have h' : a.flag = true := by simpa using h
    obtain ⟨h1, h2, h3⟩ := ha.pos h'
    exact rep_mk ha.limbs (by omega) h2 h3

theorem reduce_rep {s : List ℕ} {cy : ℕ} {x : ZMod F.p} (hs : Limbs F.β F.t s)
    (h0 : 0 < val F.β s + F.β ^ F.t * cy) (h2 : val F.β s + F.β ^ F.t * cy < 2 * F.p)
    (hx : ((val F.β s + F.β ^ F.t * cy : ℕ) : ZMod F.p) = x * κ) :
    RepK F κ (if cy ≠ 0 then { flag := true, d := (mpnSubN F.β s F.P 0).1 }
      else
      match mpnCmp s F.P with
      | Ordering.eq => { flag := false, d := s }
      | Ordering.gt => { flag := true, d := (mpnSubN F.β s F.P 0).1 }
      | Ordering.lt => { flag := true, d := s }) x := by
  have hβ := β_pos ok
  have hslt := val_lt hs
  have hplt := ok.plt
  have hcmp := mpnCmp_val hs ok.Pl
  have hv := mpnSubN_val hs ok.Pl (c := 0) (by omega)
  have hl := mpnSubN_limbs hβ hs ok.Pl 0
  have hbo := mpnSubN_borrow hs ok.Pl (c := 0) (by omega)
  have hvlt := val_lt hl
  rw [ok.Pv] at hv hcmp
  set d := (mpnSubN F.β s F.P 0).1
  set bo := (mpnSubN F.β s F.P 0).2
  have hcy : cy = 0 ∨ cy = 1 := by
    by_contra hc
    have : F.β ^ F.t * 2 ≤ F.β ^ F.t * cy := Nat.mul_le_mul_left _ (by omega)
    omega
  have hbo' : bo = 0 ∨ bo = 1 := by omega
  rcases hcy with hcy | hcy
  · rw [hcy, mul_zero, add_zero] at h0 h2 hx
    rw [if_neg (by simp [hcy])]
    rcases Nat.lt_trichotomy (val F.β s) F.p with h | h | h
    · rw [hcmp, Nat.compare_eq_lt.2 h]
      exact rep_mk hs (by omega) h hx
    · rw [hcmp, Nat.compare_eq_eq.2 h]
      refine ⟨hs, fun _ => ?_, fun hf => by simp at hf⟩
      rw [h, ZMod.natCast_self] at hx
      have h3 : (0 : ZMod F.p) * κ = x * κ := by rw [zero_mul, hx]
      exact (hκ.mul_right_cancel h3).symm
    · rw [hcmp, Nat.compare_eq_gt.2 h]
      have hbo0 : bo = 0 := by
        rcases hbo' with h' | h'
        · exact h'
        · rw [h', mul_one] at hv; omega
      rw [hbo0, mul_zero] at hv
      refine rep_mk hl (by omega) (by omega) ?_
      rw [← hx]
      have : val F.β s = val F.β d + F.p := by omega
      rw [this]; push_cast; rw [ZMod.natCast_self, add_zero]
  · rw [hcy, mul_one] at h0 h2 hx
    rw [if_pos (by simp [hcy])]
    have hbo1 : bo = 1 := by
      rcases hbo' with h' | h'
      · rw [h', mul_zero] at hv; omega
      · exact h'
    rw [hbo1, mul_one] at hv
    refine rep_mk hl (by omega) (by omega) ?_
    rw [← hx]
    have : val F.β s + F.β ^ F.t = val F.β d + F.p := by omega
    rw [this]; push_cast; rw [ZMod.natCast_self, add_zero]

theorem add_rep {c a b : El} {x y z : ZMod F.p} (hc : RepK F κ c z) (ha : RepK F κ a x)
    (hb : RepK F κ b y) : RepK F κ (add F c a b) (x + y) := by
  unfold add
  split
  · rename_i h; rw [ha.zero h, zero_add]; exact set_rep ok hκ hc hb
  · split
    · rename_i h; rw [hb.zero h, add_zero]; exact set_rep ok hκ hc ha
    · rename_i h1 h2
      obtain ⟨a1, a2, a3⟩ := ha.pos (by simpa using h1)
      obtain ⟨b1, b2, b3⟩ := hb.pos (by simpa using h2)
      have hv := mpnAddN_val ha.limbs hb.limbs 0
      rw [add_zero] at hv
      refine reduce_rep ok hκ (mpnAddN_limbs (β_pos ok) ha.limbs hb.limbs 0) (by omega) (by omega) ?_
      rw [hv]; push_cast
      rw [a3, b3]; ring

theorem double_rep {c a : El} {x z : ZMod F.p} (hc : RepK F κ c z) (ha : RepK F κ a x) :
    RepK F κ (double F c a) (2 * x) := by
  unfold double
  split
  · rename_i h; rw [ha.zero h, mul_zero]; exact rep_zero ok hκ hc
  · rename_i h1
    obtain ⟨a1, a2, a3⟩ := ha.pos (by simpa using h1)
    have hv := mpnLshift1_val ha.limbs 0
    rw [add_zero] at hv
    refine reduce_rep ok hκ (mpnLshift1_limbs ok.βeven ha.limbs (by omega)) (by omega) (by omega) ?_
    rw [hv]; push_cast
    rw [a3]; ring

theorem neg_rep {c a : El} {x z : ZMod F.p} (hc : RepK F κ c z) (ha : RepK F κ a x) :
    RepK F κ (neg F c a) (-x) := by
  unfold neg
  split
  · rename_i h; rw [ha.zero h, neg_zero]; exact rep_zero ok hκ hc
  · rename_i h1
    obtain ⟨a1, a2, a3⟩ := ha.pos (by simpa using h1)
    have hv := mpnSubN_val ok.Pl ha.limbs (c := 0) (by omega)
    have hl := mpnSubN_limbs (β_pos ok) ok.Pl ha.limbs 0
    have hbo := mpnSubN_borrow ok.Pl ha.limbs (c := 0) (by omega)
    have hvlt := val_lt hl
    have hplt := ok.plt
    rw [ok.Pv] at hv
    have hbo0 : (mpnSubN F.β F.P a.d 0).2 = 0 := by
      by_contra hc
      have : (mpnSubN F.β F.P a.d 0).2 = 1 := by omega
      rw [this, mul_one] at hv; omega
    rw [hbo0, mul_zero] at hv
    refine rep_mk hl (by omega) (by omega) ?_
    have : val F.β (mpnSubN F.β F.P a.d 0).1 + val F.β a.d = F.p := by omega
    have h4 := congrArg (Nat.cast (R := ZMod F.p)) this
    push_cast at h4
    rw [ZMod.natCast_self] at h4
    rw [neg_mul, ← a3]
    exact eq_neg_of_add_eq_zero_left h4

theorem sub_rep {c a b : El} {x y z : ZMod F.p} (hc : RepK F κ c z) (ha : RepK F κ a x)
    (hb : RepK F κ b y) : RepK F κ (sub F c a b) (x - y) := by
  unfold sub
  split
  · rename_i h; rw [ha.zero h, zero_sub]; exact neg_rep ok hκ hc hb
  · split
    · rename_i h; rw [hb.zero h, sub_zero]; exact set_rep ok hκ hc ha
    · rename_i h1 h2
      obtain ⟨a1, a2, a3⟩ := ha.pos (by simpa using h1)
      obtain ⟨b1, b2, b3⟩ := hb.pos (by simpa using h2)
      have hβ := β_pos ok
      have hv := mpnSubN_val ha.limbs hb.limbs (c := 0) (by omega)
      have hl := mpnSubN_limbs hβ ha.limbs hb.limbs 0
      have hbo := mpnSubN_borrow ha.limbs hb.limbs (c := 0) (by omega)
      have hvlt := val_lt hl
      have halt := val_lt ha.limbs
      have hplt := ok.plt
      rw [mpnCmp_val ha.limbs hb.limbs]
      have hbo' : (mpnSubN F.β a.d b.d 0).2 = 0 ∨ (mpnSubN F.β a.d b.d 0).2 = 1 := by omega
      rcases Nat.lt_trichotomy (val F.β a.d) (val F.β b.d) with h | h | h
      · rw [Nat.compare_eq_lt.2 h]
        have hbo1 : (mpnSubN F.β a.d b.d 0).2 = 1 := by
          rcases hbo' with h' | h'
          · rw [h', mul_zero] at hv; omega
          · exact h'
        rw [hbo1, mul_one] at hv
        set e := (mpnSubN F.β a.d b.d 0).1
        have hv2 := mpnAddN_val hl ok.Pl 0
        have hl2 := mpnAddN_limbs hβ hl ok.Pl 0
        have hcy2 := mpnAddN_carry hl ok.Pl (c := 0) (by omega)
        have hvlt2 := val_lt hl2
        rw [ok.Pv] at hv2
        have hcy : (mpnAddN F.β e F.P 0).2 = 1 := by
          by_contra hc
          have : (mpnAddN F.β e F.P 0).2 = 0 := by omega
          rw [this, mul_zero] at hv2; omega
        rw [hcy, mul_one] at hv2
        have hfin : val F.β (mpnAddN F.β e F.P 0).1 + val F.β b.d = val F.β a.d + F.p := by omega
        refine rep_mk hl2 (by omega) (by omega) ?_
        have h4 := congrArg (Nat.cast (R := ZMod F.p)) hfin
        push_cast at h4
        rw [ZMod.natCast_self, add_zero] at h4
        rw [sub_mul, ← a3, ← b3, ← h4]; ring
      · rw [Nat.compare_eq_eq.2 h]
        have : x = y := by
          rw [h, b3] at a3
          exact (hκ.mul_right_cancel a3).symm
        rw [this, sub_self]; exact rep_zero ok hκ hc
      · rw [Nat.compare_eq_gt.2 h]
        have hbo0 : (mpnSubN F.β a.d b.d 0).2 = 0 := by
          rcases hbo' with h' | h'
          · exact h'
          · rw [h', mul_one] at hv; omega
        rw [hbo0, mul_zero] at hv
        refine rep_mk hl (by omega) (by omega) ?_
        have hfin : val F.β (mpnSubN F.β a.d b.d 0).1 + val F.β b.d = val F.β a.d := by omega
        have h4 := congrArg (Nat.cast (R := ZMod F.p)) hfin
        push_cast at h4
        rw [sub_mul, ← a3, ← b3, ← h4]; ring

theorem halve_limbs {a : El} {x : ZMod F.p} (ha : RepK F κ a x) (hf : a.flag = true) (c : El) :
    Limbs F.β F.t (halve F c a).d ∧ 0 < val F.β (halve F c a).d ∧
    val F.β (halve F c a).d < F.p ∧
    (val F.β (halve F c a).d : ZMod F.p) = x * 2⁻¹ * κ := by
  obtain ⟨a1, a2, a3⟩ := ha.pos hf
  have hβ := β_pos ok
  obtain ⟨t', ht'⟩ : ∃ t', F.t = t' + 1 := ⟨F.t - 1, by have := ok.t1; omega⟩
  have hpar : a.d.headD 0 % 2 = val F.β a.d % 2 := by
    have := headD_val_mod (by have := ha.limbs; rw [ht'] at this; exact this)
    exact Nat.ModEq.of_dvd ok.βeven this
  have h2u := two_unit ok
  have fin : ∀ n : ℕ, (2 * n = val F.β a.d ∨ 2 * n = val F.β a.d + F.p) →
      0 < n ∧ n < F.p ∧ (n : ZMod F.p) = x * 2⁻¹ * κ := by
    intro n hn
    refine ⟨by omega, by omega, ?_⟩
    have h5 : (2 : ZMod F.p) * n = x * κ := by
      rw [← a3]
      rcases hn with hn | hn
      · rw [← hn]; push_cast; ring
      · have := congrArg (Nat.cast (R := ZMod F.p)) hn
        push_cast at this
        rw [ZMod.natCast_self, add_zero] at this
        exact this
    have h6 : (2 : ZMod F.p) * 2⁻¹ = 1 := by
      have := ZMod.coe_mul_inv_eq_one (n := F.p) 2 (by
        rw [Nat.coprime_two_left, Nat.odd_iff]; exact ok.podd)
      simpa using this
    calc (n : ZMod F.p) = (2 * 2⁻¹) * n := by rw [h6, one_mul]
      _ = 2⁻¹ * (2 * n) := by ring
      _ = _ := by rw [h5]; ring
  unfold halve
  rw [hf]
  simp only [Bool.true_eq_false, if_false]
  by_cases hodd : a.d.headD 0 % 2 = 1
  · rw [if_pos hodd]
    have hv := mpnAddN_val ha.limbs ok.Pl 0
    have hl := mpnAddN_limbs hβ ha.limbs ok.Pl 0
    have hcy := mpnAddN_carry ha.limbs ok.Pl (c := 0) (by omega)
    rw [ok.Pv, add_zero] at hv
    set s := mpnAddN F.β a.d F.P 0
    have hrl := mpnRshift1_limbs ok.βeven hl
    have hrv := mpnRshift1_val ok.βeven hl
    have hplt := ok.plt
    have hpodd := ok.podd
    obtain ⟨b2, hb2⟩ := ok.βeven
    have hpow : F.β ^ F.t = 2 * (F.β ^ t' * b2) := by
      rw [ht', pow_succ, hb2]; ring
    by_cases hc : s.2 = 0
    · rw [hc, mul_zero, add_zero] at hv
      simp only [hc, ne_eq, not_true_eq_false, if_false]
      refine ⟨hrl, ?_⟩
      refine fin _ ?_
      rw [hrv]
      right
      omega
    · have hc1 : s.2 = 1 := by omega
      rw [hc1, mul_one] at hv
      simp only [hc, ne_eq, not_false_eq_true, if_true]
      have hb2' : 2 ^ (F.w - 1) = b2 := by
        have h1 : F.β = 2 * 2 ^ (F.w - 1) := by
          unfold Field.β
          have := ok.w1
          conv_lhs => rw [show F.w = (F.w - 1) + 1 by omega]
          rw [pow_succ]; ring
        omega
      have hslt := val_lt hl
      rw [ht'] at hrl
      have hor := orAt_val hrl (2 ^ (F.w - 1)) (by
        intro y hy hdiv
        rw [hrv] at hdiv
        have hylt : y < 2 ^ (F.w - 1) := by
          rw [← hdiv, Nat.div_lt_iff_lt_mul (by positivity), hb2', mul_comm]
          omega
        rw [Nat.or_comm]
        have := Nat.two_pow_add_eq_or_of_lt hylt 1
        rw [mul_one] at this
        rw [← this]; omega) (by
        rw [hrv, hb2', ← ht']
        omega)
      rw [hrv, hb2'] at hor
      rw [show F.t - 1 = t' by omega, hb2']
      refine ⟨by rw [ht']; exact hor.1, ?_⟩
      refine fin _ ?_
      rw [hor.2]
      right
      omega
  · rw [if_neg hodd]
    unfold set
    rw [hf]
    simp only [Bool.true_eq_false, if_false]
    refine ⟨mpnRshift1_limbs ok.βeven ha.limbs, ?_⟩
    refine fin _ ?_
    rw [mpnRshift1_val ok.βeven ha.limbs]
    left
    omega

theorem halve_rep {c a : El} {x z : ZMod F.p} (hc : RepK F κ c z) (ha : RepK F κ a x)
    (hsafe : x = 0 ∨ z ≠ 0) : RepK F κ (halve F c a) (x * 2⁻¹) := by
  cases hf : a.flag
  · unfold halve
    rw [hf, ha.zero hf, zero_mul]
    exact rep_zero ok hκ hc
  · have hx := ha.ne_zero ok hκ hf
    have hz : c.flag = true := by
      have hz : z ≠ 0 := by tauto
      cases hcf : c.flag
      · exact absurd (hc.zero hcf) hz
      · rfl
    obtain ⟨h1, h2, h3, h4⟩ := halve_limbs ok hκ ha hf c
    have hfl : (halve F c a).flag = true := by
      unfold halve
      rw [hf]
      simp only [Bool.true_eq_false, if_false]
      split
      · exact hz
      · unfold set; rw [hf]; simp
    exact ⟨h1, fun h => by rw [hfl] at h; simp at h, fun _ => ⟨h2, h3, h4⟩⟩

theorem fresh_rep {e : El} (h : Fresh F e) : RepK F κ e 0 :=
  ⟨h.2, fun _ => rfl, fun hf => by rw [h.1] at hf; simp at hf⟩

end

section
variable {F : Field} (ok : FieldOk F)
include ok

theorem toMpz_rep {e : El} {x : ZMod F.p} (h : Rep F e x) : toMpz F e = some x.val := by
  have := neZero ok
  unfold toMpz
  cases hf : e.flag
  · simp [h.zero hf]
  · obtain ⟨h1, h2, h3⟩ := h.pos hf
    have hl := limbs_append h.limbs (limbs_replicate_zero ok F.t)
    have hv : val F.β (e.d ++ List.replicate F.t 0) = val F.β e.d := by
      rw [val_append, val_replicate_zero]; simp
    have hpos : 0 < F.β ^ F.t := by have := ok.β2; positivity
    obtain ⟨r1, r2, r3⟩ := montReduce_spec ok hl (by
      rw [hv]
      calc val F.β e.d < F.p := h2
        _ = F.p * 1 := by ring
        _ ≤ _ := Nat.mul_le_mul_left _ hpos)
    rw [hv] at r3
    have r4 : ((val F.β (montReduce F (e.d ++ List.replicate F.t 0)) : ℕ) : ZMod F.p) = x := by
      have := (ZMod.natCast_eq_natCast_iff _ _ _).2 r3
      rw [h3, Nat.cast_mul] at this
      exact (R_unit ok).mul_right_cancel this
    have r5 : val F.β (montReduce F (e.d ++ List.replicate F.t 0)) = x.val := by
      rw [← r4, ZMod.val_natCast, Nat.mod_eq_of_lt r2]
    have hx := h.ne_zero ok (R_unit ok) hf
    have hne : val F.β (montReduce F (e.d ++ List.replicate F.t 0)) ≠ 0 := by
      rw [r5]; exact (ZMod.val_ne_zero _).2 hx
    simp only [Bool.true_eq_false, if_false]
    rw [if_neg, r5]
    intro hall
    apply hne
    rw [List.all_eq_true] at hall
    have : ∀ (l : List ℕ), (∀ y ∈ l, (y == 0) = true) → val F.β l = 0 := by
      intro l
      induction l with
      | nil => intro _; rfl
      | cons y ys ih =>
        intro hy
        have h1 := hy y (by simp)
        have h2 := ih (fun z hz => hy z (by simp [hz]))
        simp only [beq_iff_eq] at h1
        simp [val, h1, h2]
    exact this _ hall

theorem rep_of_mod {c : El} {y : ZMod F.p} (hc : Rep F c y) (n : ℕ) (x : ZMod F.p)
    (hx : ((n : ℕ) : ZMod F.p) = x * (F.β ^ F.t : ℕ)) :
    Rep F (if n % F.p = 0 then { c with flag := false }
      else { flag := true, d := toLimbs F.β F.t (n % F.p) }) x := by
  have hp := ok.p1
  have hlt : n % F.p < F.p := Nat.mod_lt _ (by omega)
  have hv := val_toLimbs_of_lt (hlt.trans ok.plt)
  split
  · rename_i h
    have h0 : ((n : ℕ) : ZMod F.p) = 0 := (ZMod.natCast_eq_zero_iff _ _).2 (Nat.dvd_of_mod_eq_zero h)
    rw [h0] at hx
    have : x = 0 := by
      have h2 : (0 : ZMod F.p) * (F.β ^ F.t : ℕ) = x * (F.β ^ F.t : ℕ) := by rw [zero_mul, hx]
      exact ((R_unit ok).mul_right_cancel h2).symm
    rw [this]
    exact rep_zero ok (R_unit ok) hc
  · rename_i h
    refine rep_mk (toLimbs_limbs (β_pos ok) _ _) (by rw [hv]; exact h) (by rw [hv]; exact hlt) ?_
    rw [hv, ← hx]
    exact (ZMod.natCast_eq_natCast_iff _ _ _).2 (Nat.mod_modEq _ _)

omit ok in
theorem pow_β : (2 : ℤ) ^ (F.w * F.t) = ((F.β ^ F.t : ℕ) : ℤ) := by
  unfold Field.β; push_cast; rw [pow_mul]

omit ok in
theorem pow_β' : (2 : ℕ) ^ (F.w * F.t) = F.β ^ F.t := by
  unfold Field.β; rw [pow_mul]

theorem setMpz_rep {c : El} {y : ZMod F.p} (hc : Rep F c y) (z : ℤ) :
    Rep F (setMpz F c z) (z : ZMod F.p) := by
  have hp := ok.p1
  unfold setMpz
  split
  · rename_i h; subst h; rw [Int.cast_zero]; exact rep_zero ok (R_unit ok) hc
  · rw [pow_β]
    set n := ((z * ((F.β ^ F.t : ℕ) : ℤ)) % (F.p : ℤ)).toNat with hn
    have h0 : 0 ≤ (z * ((F.β ^ F.t : ℕ) : ℤ)) % (F.p : ℤ) := Int.emod_nonneg _ (by omega)
    have h1 : (z * ((F.β ^ F.t : ℕ) : ℤ)) % (F.p : ℤ) < F.p := Int.emod_lt_of_pos _ (by omega)
    have hlt : n < F.p := by omega
    have hnn : ((n : ℕ) : ℤ) = (z * ((F.β ^ F.t : ℕ) : ℤ)) % (F.p : ℤ) := Int.toNat_of_nonneg h0
    have := rep_of_mod ok hc n (z : ZMod F.p) (by
      have h3 : ((n : ℤ) : ZMod F.p) = ((z * ((F.β ^ F.t : ℕ) : ℤ) : ℤ) : ZMod F.p) := by
        rw [hnn]
        exact (ZMod.intCast_eq_intCast_iff _ _ _).2 (Int.mod_modEq _ _)
      push_cast at h3 ⊢
      exact h3)
    rw [Nat.mod_eq_of_lt hlt] at this
    exact this

theorem setSi_rep {c : El} {y : ZMod F.p} (hc : Rep F c y) (z : ℤ) :
    Rep F (setSi F c z) (z : ZMod F.p) := setMpz_rep ok hc z

theorem set1_rep (c : El) : Rep F (set1 F c) 1 := by
  have hp := ok.p1
  refine rep_mk ok.Rl ?_ ?_ ?_
  · rw [ok.Rv]
    intro h
    have h1 : F.p ∣ F.β ^ F.t := Nat.dvd_of_mod_eq_zero h
    have h2 := Nat.Coprime.eq_one_of_dvd ok.coprime h1
    omega
  · rw [ok.Rv]; exact Nat.mod_lt _ (by omega)
  · rw [ok.Rv, one_mul]
    exact (ZMod.natCast_eq_natCast_iff _ _ _).2 (Nat.mod_modEq _ _)

def TopOk (F : Field) : Prop := F.p ≤ F.β ^ F.t - F.β ^ (F.t - 1)

theorem mul_rep (htop : TopOk F) {c a b : El} {x y z : ZMod F.p}
    (hc : Rep F c z) (ha : Rep F a x) (hb : Rep F b y) (hxy : x * y = 0 → x = 0 ∨ y = 0) :
    Rep F (mul F c a b) (x * y) := by
  unfold mul
  split
  · rename_i h
    have : x * y = 0 := by
      rcases h with h | h
      · rw [ha.zero h, zero_mul]
      · rw [hb.zero h, mul_zero]
    rw [this]; exact rep_zero ok (R_unit ok) hc
  · rename_i h
    push Not at h
    obtain ⟨a1, a2, a3⟩ := ha.pos (by simpa using h.1)
    obtain ⟨b1, b2, b3⟩ := hb.pos (by simpa using h.2)
    obtain ⟨m1, m2, m3⟩ := montMul_spec ok htop ha.limbs hb.limbs b2
    have hx := ha.ne_zero ok (R_unit ok) (by simpa using h.1)
    have hy := hb.ne_zero ok (R_unit ok) (by simpa using h.2)
    have m4 := (ZMod.natCast_eq_natCast_iff _ _ _).2 m3
    push_cast at m4
    rw [a3, b3] at m4
    have m5 : (val F.β (montMul F a.d b.d) : ZMod F.p) = x * y * (F.β ^ F.t : ℕ) := by
      refine (R_unit ok).mul_right_cancel ?_
      push_cast at m4 ⊢
      rw [m4]; ring
    refine rep_mk m1 ?_ m2 m5
    intro h0
    rw [h0, Nat.cast_zero] at m5
    have h6 : x * y = 0 := (R_unit ok).mul_left_eq_zero.1 m5.symm
    rcases hxy h6 with h | h
    · exact hx h
    · exact hy h

theorem powMpz_rep {c a : El} {x z : ZMod F.p} (hc : Rep F c z)
    (ha : Rep F a x) (n : ℕ) (hsafe : x ≠ 0 ∨ n ≠ 0) (hpow : x ^ n = 0 → x = 0) :
    ∃ e, powMpz F c a n = some e ∧ Rep F e (x ^ n) := by
  have := neZero ok
  unfold powMpz
  cases hf : a.flag
  · have hx := ha.zero hf
    have hn : n ≠ 0 := by tauto
    refine ⟨_, rfl, ?_⟩
    rw [hx, zero_pow hn]; exact rep_zero ok (R_unit ok) hc
  · have hx := ha.ne_zero ok (R_unit ok) hf
    rw [toMpz_rep ok ha]
    refine ⟨_, rfl, ?_⟩
    have hp := ok.p1
    rw [pow_β']
    set m := (x.val ^ n % F.p) * F.β ^ F.t with hm
    have hmx : ((m : ℕ) : ZMod F.p) = x ^ n * (F.β ^ F.t : ℕ) := by
      rw [hm]; push_cast
      rw [(ZMod.natCast_eq_natCast_iff _ _ _).2 (Nat.mod_modEq (x.val ^ n) F.p)]
      push_cast
      rw [ZMod.natCast_zmod_val]
    have := rep_of_mod ok hc m (x ^ n) hmx
    rw [if_neg] at this
    · exact this
    · intro h0
      have h1 : ((m : ℕ) : ZMod F.p) = 0 :=
        (ZMod.natCast_eq_zero_iff _ _).2 (Nat.dvd_of_mod_eq_zero h0)
      rw [hmx] at h1
      exact hx (hpow ((R_unit ok).mul_left_eq_zero.1 h1))

theorem invert_rep (htop : TopOk F) {a : El} {x : ZMod F.p} (c : El)
    (ha : Rep F a x) (hx : IsUnit x) : Rep F (invert F c a) x⁻¹ := by
  have hp := ok.p1
  have : Fact (1 < F.p) := ⟨hp⟩
  have hf : a.flag = true := by
    cases hf : a.flag
    · exact absurd (ha.zero hf) hx.ne_zero
    · rfl
  obtain ⟨a1, a2, a3⟩ := ha.pos hf
  have hcop : Nat.Coprime (val F.β a.d) F.p := by
    rw [← ZMod.isUnit_iff_coprime, a3]
    exact hx.mul (R_unit ok)
  obtain ⟨i1, i2⟩ := mpzInvert_spec (by omega) hcop
  have hR3lt : val F.β F.R3 < F.p := by rw [ok.R3v]; exact Nat.mod_lt _ (by omega)
  obtain ⟨m1, m2, m3⟩ := montMul_spec ok htop
    (toLimbs_limbs (β_pos ok) F.t (mpzInvert (val F.β a.d) F.p)) ok.R3l hR3lt
  have hiv := val_toLimbs_of_lt (i1.trans ok.plt)
  rw [hiv] at m3
  have m4 := (ZMod.natCast_eq_natCast_iff _ _ _).2 m3
  have i3 := (ZMod.natCast_eq_natCast_iff _ _ _).2 i2
  set inv := mpzInvert (val F.β a.d) F.p
  have hRu := R_unit ok
  set Rz : ZMod F.p := ((F.β ^ F.t : ℕ) : ZMod F.p) with hRz
  have hR3 : ((val F.β F.R3 : ℕ) : ZMod F.p) = Rz ^ 3 := by
    rw [ok.R3v, (ZMod.natCast_eq_natCast_iff _ _ _).2 (Nat.mod_modEq _ _)]
    push_cast
    rw [(ZMod.natCast_eq_natCast_iff _ _ _).2 (Nat.mod_modEq _ _)]
  rw [Nat.cast_mul, Nat.cast_mul, hR3, ← hRz] at m4
  rw [Nat.cast_mul, a3, Nat.cast_one] at i3
  have hxi : x * x⁻¹ = 1 := ZMod.mul_inv_of_unit x hx
  have m5 : ((val F.β (montMul F (toLimbs F.β F.t inv) F.R3) : ℕ) : ZMod F.p) = x⁻¹ * Rz := by
    refine hRu.mul_right_cancel ?_
    rw [m4]
    calc (inv : ZMod F.p) * Rz ^ 3 = (x * x⁻¹) * inv * Rz ^ 3 := by rw [hxi, one_mul]
      _ = (x * Rz * inv) * (x⁻¹ * Rz * Rz) := by ring
      _ = x⁻¹ * Rz * Rz := by rw [i3, one_mul]
  refine rep_mk m1 ?_ m2 m5
  intro h0
  rw [h0, Nat.cast_zero] at m5
  have h7 : x⁻¹ = 0 := hRu.mul_left_eq_zero.1 m5.symm
  rw [h7, mul_zero] at hxi
  exact zero_ne_one hxi

theorem shift_rep {c : El} {y : ZMod F.p} (hc : Rep F c y) (z : ℕ)
    (hz : z = 0 ∨ ¬ F.p ∣ z) :
    Rep F (if z ≠ 0 then { flag := true, d := toLimbs F.β F.t (z * 2 ^ (F.w * F.t) % F.p) }
      else { c with flag := false }) (z : ZMod F.p) := by
  rcases hz with rfl | hz
  · simp only [ne_eq, not_true_eq_false, if_false, Nat.cast_zero]; exact rep_zero ok (R_unit ok) hc
  · have h0 : z ≠ 0 := by rintro rfl; exact hz (dvd_zero _)
    rw [if_pos h0, pow_β']
    have := rep_of_mod ok hc (z * F.β ^ F.t) (z : ZMod F.p) (by push_cast; ring)
    rw [if_neg] at this
    · exact this
    · intro h
      have h1 : F.p ∣ z * F.β ^ F.t := Nat.dvd_of_mod_eq_zero h
      exact hz (Nat.Coprime.dvd_of_dvd_mul_right ok.coprime h1)

end

end Pbc.Mont
