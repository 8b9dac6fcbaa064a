import Verif.Lemmas.MontRun

/-! Programs on the backends `fasterfp.c`, `fastfp.c`, `naivefp.c` refine programs on `Z/p`. -/

set_option linter.unusedSectionVars false

namespace Pbc

open Spec Mont

section common
variable {F : Field} (ok : FieldOk F)
include ok

/-- Storing a reduced number. -/
theorem toLimbs_mod (n : ℕ) : Limbs F.β F.t (toLimbs F.β F.t (n % F.p)) ∧
    val F.β (toLimbs F.β F.t (n % F.p)) < F.p ∧
    ((val F.β (toLimbs F.β F.t (n % F.p)) : ℕ) : ZMod F.p) = n := by
  have hp := ok.p1
  have hlt : n % F.p < F.p := Nat.mod_lt _ (by omega)
  have hv := val_toLimbs_of_lt (hlt.trans ok.plt)
  refine ⟨toLimbs_limbs (β_pos ok) _ _, by rw [hv]; exact hlt, ?_⟩
  rw [hv, (ZMod.natCast_eq_natCast_iff _ _ _).2 (Nat.mod_modEq _ _)]

theorem int_mod_cast (z : ℤ) : (((z % (F.p : ℤ)).toNat : ℕ) : ZMod F.p) = (z : ZMod F.p) ∧
    (z % (F.p : ℤ)).toNat < F.p := by
  have hp := ok.p1
  have h0 : 0 ≤ z % (F.p : ℤ) := Int.emod_nonneg _ (by omega)
  have h1 : z % (F.p : ℤ) < F.p := Int.emod_lt_of_pos _ (by omega)
  refine ⟨?_, by omega⟩
  have : (((z % (F.p : ℤ)).toNat : ℤ) : ZMod F.p) = (z : ZMod F.p) := by
    rw [Int.toNat_of_nonneg h0]; exact ZMod.intCast_mod z F.p
  rw [← this]; push_cast; rfl

theorem tdivR_mulN {a b : List ℕ} (ha : Limbs F.β F.t a) (hb : Limbs F.β F.t b) :
    mpnTdivR F.β F.t (mpnMulN F.β F.t a b) F.P
      = toLimbs F.β F.t (val F.β a * val F.β b % F.p) := by
  unfold mpnTdivR mpnMulN
  rw [ok.Pv, val_toLimbs_of_lt]
  rw [two_mul, pow_add]
  exact Nat.mul_lt_mul'' (val_lt ha) (val_lt hb)

theorem tdivR_mul1 {a : List ℕ} (ha : Limbs F.β F.t a) (n : ℕ) :
    mpnTdivR F.β F.t ((mpnMul1 F.β a n 0).1 ++ [(mpnMul1 F.β a n 0).2]) F.P
      = toLimbs F.β F.t (val F.β a * n % F.p) := by
  unfold mpnTdivR
  rw [ok.Pv, val_append, (mpnMul1_limbs (β_pos ok) ha n 0).1]
  have := mpnMul1_val ha n 0
  simp only [val, mul_zero, add_zero] at this ⊢
  rw [this]

theorem small_limbs {n : ℕ} (hn : n < F.β) :
    Limbs F.β F.t (n :: List.replicate (F.t - 1) 0) ∧
    val F.β (n :: List.replicate (F.t - 1) 0) = n := by
  obtain ⟨t', ht'⟩ : ∃ t', F.t = t' + 1 := ⟨F.t - 1, by have := ok.t1; omega⟩
  rw [ht']
  refine ⟨limbs_cons.2 ⟨hn, limbs_replicate_zero ok _⟩, ?_⟩
  simp [val, val_replicate_zero]

theorem sub_small_limbs (hβp : F.β ≤ F.p) {n : ℕ} (hn : n < F.β) :
    Limbs F.β F.t (mpnSub1 F.β F.P n).1 ∧ val F.β (mpnSub1 F.β F.P n).1 = F.p - n := by
  have hβ2 := ok.β2
  have hl := mpnSub1_limbs (β_pos ok) ok.Pl n
  refine ⟨hl, ?_⟩
  have hv := mpnSub1_val (by omega) ok.Pl hn
  rw [ok.Pv] at hv
  have hlt := val_lt hl
  have : (mpnSub1 F.β F.P n).2 = 0 := by
    by_contra hc
    have : F.β ^ F.t * 1 ≤ F.β ^ F.t * (mpnSub1 F.β F.P n).2 :=
      Nat.mul_le_mul_left _ (by omega)
    have := ok.plt
    omega
  rw [this, mul_zero] at hv
  omega

end common

/-! ## fasterfp -/

namespace Faster

/-- Representation in `fasterfp.c`: no Montgomery factor. -/
abbrev Rep (F : Field) (e : El) (x : ZMod F.p) : Prop := RepK F 1 e x

section
variable {F : Field} (ok : FieldOk F)
include ok

theorem rep_toLimbs {n : ℕ} {x : ZMod F.p} (hx : (n : ZMod F.p) = x) (h0 : x ≠ 0) :
    Rep F { flag := true, d := toLimbs F.β F.t (n % F.p) } x := by
  obtain ⟨h1, h2, h3⟩ := toLimbs_mod ok n
  refine rep_mk h1 ?_ h2 (by rw [h3, hx, mul_one])
  intro h
  rw [h, Nat.cast_zero, hx] at h3
  exact h0 h3.symm

theorem toMpz_rep {e : El} {x : ZMod F.p} (h : Rep F e x) : toMpz F e = x.val := by
  have := neZero ok
  unfold toMpz
  cases hf : e.flag
  · simp [h.zero hf]
  · obtain ⟨h1, h2, h3⟩ := h.pos hf
    rw [mul_one] at h3
    rw [if_neg (by simp), ← h3, ZMod.val_natCast_of_lt h2]

theorem setMpz_rep {c : El} {y : ZMod F.p} (hc : Rep F c y) (z : ℤ)
    (hz : z = 0 ∨ (z : ZMod F.p) ≠ 0) : Rep F (setMpz F c z) (z : ZMod F.p) := by
  unfold setMpz
  split
  · rename_i h; subst h; rw [Int.cast_zero]; exact rep_zero ok isUnit_one hc
  · rename_i h
    obtain ⟨h1, h2⟩ := int_mod_cast ok z
    have := rep_toLimbs ok h1 (hz.resolve_left h)
    rwa [Nat.mod_eq_of_lt h2] at this

theorem setSi_rep (hβp : F.β ≤ F.p) {c : El} {y : ZMod F.p} (hc : Rep F c y) (z : ℤ)
    (hz : z.natAbs < F.β) : Rep F (setSi F c z) (z : ZMod F.p) := by
  unfold setSi
  split
  · rename_i h; subst h; rw [Int.cast_zero]; exact rep_zero ok isUnit_one hc
  · split
    · rename_i h0 h
      obtain ⟨h1, h2⟩ := sub_small_limbs ok hβp (n := (-z).toNat) (by omega)
      refine rep_mk h1 (by omega) (by omega) ?_
      rw [h2, mul_one, Nat.cast_sub (by omega), ZMod.natCast_self, zero_sub]
      have h3 : (((-z).toNat : ℤ) : ZMod F.p) = ((-z : ℤ) : ZMod F.p) := by
        rw [Int.toNat_of_nonneg (by omega)]
      rw [Int.cast_natCast] at h3
      rw [h3]; simp
    · rename_i h0 h
      obtain ⟨h1, h2⟩ := small_limbs ok (n := z.toNat) (by omega)
      refine rep_mk h1 (by omega) (by omega) ?_
      rw [h2, mul_one]
      have h3 : ((z.toNat : ℤ) : ZMod F.p) = ((z : ℤ) : ZMod F.p) := by
        rw [Int.toNat_of_nonneg (by omega)]
      rw [Int.cast_natCast] at h3
      rw [h3]

theorem set1_rep (hβp : F.β ≤ F.p) (c : El) : Rep F (set1 F c) 1 := by
  have := ok.β2
  have := ok.p1
  obtain ⟨h1, h2⟩ := small_limbs ok (n := 1) (by omega)
  exact rep_mk h1 (by omega) (by omega) (by rw [h2]; simp)

theorem mul_rep (hprime : F.p.Prime) {c a b : El} {x y z : ZMod F.p}
    (hc : Rep F c z) (ha : Rep F a x) (hb : Rep F b y) : Rep F (mul F c a b) (x * y) := by
  have : Fact F.p.Prime := ⟨hprime⟩
  unfold mul
  split
  · rename_i h
    have : x * y = 0 := by
      rcases h with h | h
      · rw [ha.zero h, zero_mul]
      · rw [hb.zero h, mul_zero]
    rw [this]; exact rep_zero ok isUnit_one hc
  · rename_i h
    push Not at h
    have haf : a.flag = true := by simpa using h.1
    have hbf : b.flag = true := by simpa using h.2
    rw [tdivR_mulN ok ha.limbs hb.limbs]
    refine rep_toLimbs ok ?_ (mul_ne_zero (ha.ne_zero ok isUnit_one haf) (hb.ne_zero ok isUnit_one hbf))
    rw [Nat.cast_mul, (ha.pos haf).2.2, (hb.pos hbf).2.2]; ring

theorem square_rep (hprime : F.p.Prime) {c a : El} {x z : ZMod F.p}
    (hc : Rep F c z) (ha : Rep F a x) : Rep F (square F c a) (x ^ 2) := by
  have : Fact F.p.Prime := ⟨hprime⟩
  unfold square
  split
  · rename_i h; rw [ha.zero h, zero_pow two_ne_zero]; exact rep_zero ok isUnit_one hc
  · rename_i h
    have haf : a.flag = true := by simpa using h
    refine rep_toLimbs ok ?_ (pow_ne_zero _ (ha.ne_zero ok isUnit_one haf))
    rw [Nat.cast_pow, (ha.pos haf).2.2]; ring

theorem small_ne_zero (hβp : F.β ≤ F.p) {z : ℤ} (h0 : z ≠ 0)
    (hz : z.natAbs < F.β) : (z.natAbs : ZMod F.p) ≠ 0 := by
  rw [Ne, ZMod.natCast_eq_zero_iff]
  intro h
  exact absurd (Nat.le_of_dvd (by omega) h) (by omega)

theorem mulSi_rep (hprime : F.p.Prime) (hβp : F.β ≤ F.p) {c a : El} {x y : ZMod F.p}
    (hc : Rep F c y) (ha : Rep F a x) (z : ℤ) (hz : z.natAbs < F.β) :
    Rep F (mulSi F c a z) (x * z) := by
  have : Fact F.p.Prime := ⟨hprime⟩
  unfold mulSi
  split
  · rename_i h
    have : x * (z : ZMod F.p) = 0 := by
      rcases h with h | h
      · rw [ha.zero h, zero_mul]
      · rw [h]; simp
    rw [this]; exact rep_zero ok isUnit_one hc
  · rename_i h
    push Not at h
    have haf : a.flag = true := by simpa using h.1
    simp only
    rw [tdivR_mul1 ok ha.limbs]
    have hr : Rep F { flag := true, d := toLimbs F.β F.t (val F.β a.d * z.natAbs % F.p) }
        (x * z.natAbs) := by
      refine rep_toLimbs ok ?_ (mul_ne_zero (ha.ne_zero ok isUnit_one haf)
        (small_ne_zero ok hβp h.2 hz))
      rw [Nat.cast_mul, (ha.pos haf).2.2, mul_one]
    split
    · rename_i hneg
      have := neg_rep ok isUnit_one hr hr
      have e : -(x * (z.natAbs : ZMod F.p)) = x * z := by
        have h3 : ((z.natAbs : ℤ) : ZMod F.p) = ((-z : ℤ) : ZMod F.p) := by
          congr 1; omega
        rw [Int.cast_natCast] at h3
        rw [h3]; simp
      rw [e] at this
      exact this
    · have e : ((z.natAbs : ℕ) : ZMod F.p) = z := by
        have h3 : ((z.natAbs : ℤ) : ZMod F.p) = ((z : ℤ) : ZMod F.p) := by
          congr 1; omega
        rwa [Int.cast_natCast] at h3
      rw [e] at hr; exact hr

theorem powMpz_rep (hprime : F.p.Prime) {c a : El} {x z : ZMod F.p} (hc : Rep F c z)
    (ha : Rep F a x) (n : ℕ) (hsafe : x ≠ 0 ∨ n ≠ 0) : Rep F (powMpz F c a n) (x ^ n) := by
  have : Fact F.p.Prime := ⟨hprime⟩
  have := neZero ok
  unfold powMpz
  split
  · rename_i h
    have hx := ha.zero h
    rw [hx, zero_pow (hsafe.resolve_left (by simp [hx]))]; exact rep_zero ok isUnit_one hc
  · rename_i h
    have haf : a.flag = true := by simpa using h
    rw [toMpz_rep ok ha]
    refine rep_toLimbs ok ?_ (pow_ne_zero _ (ha.ne_zero ok isUnit_one haf))
    rw [Nat.cast_pow, ZMod.natCast_zmod_val]

theorem mpzInvert_cast (hprime : F.p.Prime) {x : ZMod F.p} (hx : x ≠ 0) :
    mpzInvert x.val F.p < F.p ∧ ((mpzInvert x.val F.p : ℕ) : ZMod F.p) = x⁻¹ := by
  have : Fact F.p.Prime := ⟨hprime⟩
  have hcop : Nat.Coprime x.val F.p := ZMod.val_coe_unit_coprime (Units.mk0 x hx)
  obtain ⟨h1, h2⟩ := mpzInvert_spec hprime.pos hcop
  refine ⟨h1, ?_⟩
  have h3 := (ZMod.natCast_eq_natCast_iff _ _ _).2 h2
  rw [Nat.cast_mul, ZMod.natCast_zmod_val, Nat.cast_one] at h3
  exact eq_inv_of_mul_eq_one_right h3

theorem invert_rep (hprime : F.p.Prime) {a : El} {x : ZMod F.p} (c : El)
    (ha : Rep F a x) (hx : x ≠ 0) : Rep F (invert F c a) x⁻¹ := by
  have : Fact F.p.Prime := ⟨hprime⟩
  unfold invert
  rw [toMpz_rep ok ha]
  obtain ⟨h1, h2⟩ := mpzInvert_cast ok hprime hx
  have := rep_toLimbs ok h2 (inv_ne_zero hx)
  rwa [Nat.mod_eq_of_lt h1] at this

theorem random_rep {c : El} {y : ZMod F.p} (hc : Rep F c y) {z : ℕ} (hz : z < F.p) :
    Rep F (if z ≠ 0 then { flag := true, d := toLimbs F.β F.t z } else { c with flag := false })
      (z : ZMod F.p) := by
  split
  · rename_i h
    have h1 : (z : ZMod F.p) ≠ 0 := by
      rw [Ne, ZMod.natCast_eq_zero_iff]
      exact fun h' => absurd (Nat.le_of_dvd (by omega) h') (by omega)
    have := rep_toLimbs ok rfl h1
    rwa [Nat.mod_eq_of_lt hz] at this
  · rename_i h
    have : z = 0 := by simpa using h
    subst this
    rw [Nat.cast_zero]; exact rep_zero ok isUnit_one hc

theorem exec_rep (hprime : F.p.Prime) (hβp : F.β ≤ F.p) {fresh : El} (hf : Fresh F fresh)
    {m : Mem} {s : FpState F.p} (h : ∀ i, Rep F (m i) (s i)) (o : FpOp) (hs : fasterSafe F.w s o) :
    Rep F (exec F fresh m o) (o.value s) := by
  have h1 : IsUnit (1 : ZMod F.p) := isUnit_one
  have hfr : Rep F fresh 0 := fresh_rep ok h1 hf
  cases o with
  | setMpz c z => exact setMpz_rep ok (h c) z hs
  | setSi c z => exact setSi_rep ok hβp (h c) z hs
  | set0 c => exact rep_zero ok h1 (h c)
  | set1 c => exact set1_rep ok hβp (m c)
  | set c a => exact set_rep ok h1 (h c) (h a)
  | add c a b => exact add_rep ok h1 (h c) (h a) (h b)
  | sub c a b => exact sub_rep ok h1 (h c) (h a) (h b)
  | neg c a => exact neg_rep ok h1 (h c) (h a)
  | double c a => exact double_rep ok h1 (h c) (h a)
  | halve c a => exact halve_rep ok h1 (h c) (h a) hs.symm
  | mul c a b => exact mul_rep ok hprime (h c) (h a) (h b)
  | square c a => exact square_rep ok hprime (h c) (h a)
  | mulMpz c a z => exact mul_rep ok hprime (h c) (h a) (setMpz_rep ok hfr z hs)
  | mulSi c a z => exact mulSi_rep ok hprime hβp (h c) (h a) z hs
  | pow c a n => exact powMpz_rep ok hprime (h c) (h a) n hs
  | invert c a => exact invert_rep ok hprime (m c) (h a) hs
  | random c z => exact random_rep ok (h c) hs
  | fromBytes c data =>
    have := random_rep ok (h c) (z := importBE data) hs
    show Rep F (fromBytes F (m c) data) _
    unfold fromBytes
    simp only
    by_cases h0 : importBE data = 0
    · rw [if_pos h0]; rw [if_neg (by simpa using h0)] at this; exact this
    · rw [if_neg h0]; rw [if_pos h0] at this; exact this

theorem run_rep (hprime : F.p.Prime) (hβp : F.β ≤ F.p) {fresh : El} (hf : Fresh F fresh)
    (prog : List FpOp) {m : Mem} {s : FpState F.p} (h : ∀ i, Rep F (m i) (s i))
    (hs : FpAllowed (fasterSafe F.w) s prog) :
    ∀ i, Rep F (run F fresh m prog i) (fpRun s prog i) := by
  induction prog generalizing m s with
  | nil => exact h
  | cons o rest ih =>
    have hr := exec_rep ok hprime hβp hf h o hs.1
    refine ih (fun i => ?_) hs.2
    by_cases hi : i = o.dest
    · subst hi; simpa [FpOp.step] using hr
    · simpa [FpOp.step, hi] using h i

end
end Faster

/-! ## fastfp -/

namespace Fast

/-- Representation in `fastfp.c`. -/
structure Rep (F : Field) (a : List ℕ) (x : ZMod F.p) : Prop where
  limbs : Limbs F.β F.t a
  lt : val F.β a < F.p
  cast : (val F.β a : ZMod F.p) = x

section
variable {F : Field} (ok : FieldOk F)
include ok

theorem toMpz_rep {a : List ℕ} {x : ZMod F.p} (h : Rep F a x) : toMpz F a = x.val := by
  have := neZero ok
  unfold toMpz
  rw [← h.cast, ZMod.val_natCast_of_lt h.lt]

theorem zero_rep : Rep F (List.replicate F.t 0) 0 :=
  ⟨limbs_replicate_zero ok _, by rw [val_replicate_zero]; have := ok.p1; omega,
    by rw [val_replicate_zero]; simp⟩

theorem toLimbs_rep {n : ℕ} {x : ZMod F.p} (hx : (n : ZMod F.p) = x) :
    Rep F (toLimbs F.β F.t (n % F.p)) x := by
  obtain ⟨h1, h2, h3⟩ := toLimbs_mod ok n
  exact ⟨h1, h2, by rw [h3, hx]⟩

theorem setMpz_rep (z : ℤ) : Rep F (setMpz F z) (z : ZMod F.p) := by
  obtain ⟨h1, h2⟩ := int_mod_cast ok z
  have := toLimbs_rep ok h1
  rwa [Nat.mod_eq_of_lt h2] at this

theorem setSi_rep (hβp : F.β ≤ F.p) (z : ℤ) (hz : z.natAbs < F.β) :
    Rep F (setSi F z) (z : ZMod F.p) := by
  unfold setSi
  split
  · rename_i h
    obtain ⟨h1, h2⟩ := sub_small_limbs ok hβp (n := (-z).toNat) (by omega)
    refine ⟨h1, by omega, ?_⟩
    rw [h2, Nat.cast_sub (by omega), ZMod.natCast_self, zero_sub]
    have h3 : (((-z).toNat : ℤ) : ZMod F.p) = ((-z : ℤ) : ZMod F.p) := by
      rw [Int.toNat_of_nonneg (by omega)]
    rw [Int.cast_natCast] at h3
    rw [h3]; simp
  · rename_i h
    obtain ⟨h1, h2⟩ := small_limbs ok (n := z.toNat) (by omega)
    refine ⟨h1, by omega, ?_⟩
    rw [h2]
    have h3 : ((z.toNat : ℤ) : ZMod F.p) = ((z : ℤ) : ZMod F.p) := by
      rw [Int.toNat_of_nonneg (by omega)]
    rwa [Int.cast_natCast] at h3

theorem set1_rep (hβp : F.β ≤ F.p) : Rep F (set1 F) 1 := by
  have := ok.β2
  obtain ⟨h1, h2⟩ := small_limbs ok (n := 1) (by omega)
  have hp := ok.p1
  unfold set1
  exact ⟨h1, by omega, by rw [h2]; simp⟩

theorem reduce_rep {s : List ℕ} {cy : ℕ} {x : ZMod F.p} (hs : Limbs F.β F.t s)
    (h2 : val F.β s + F.β ^ F.t * cy < 2 * F.p)
    (hx : ((val F.β s + F.β ^ F.t * cy : ℕ) : ZMod F.p) = x) :
    Rep F (if cy ≠ 0 ∨ mpnCmp s F.P ≠ Ordering.lt then (mpnSubN F.β s F.P 0).1 else s) x := by
  have hβ := β_pos ok
  have hslt := val_lt hs
  have hplt := ok.plt
  have hcmp := mpnCmp_val hs ok.Pl
  have hv := mpnSubN_val hs ok.Pl (c := 0) (by omega)
  have hl := mpnSubN_limbs hβ hs ok.Pl 0
  have hbo := mpnSubN_borrow hs ok.Pl (c := 0) (by omega)
  have hvlt := val_lt hl
  rw [ok.Pv] at hv hcmp
  set d := (mpnSubN F.β s F.P 0).1
  set bo := (mpnSubN F.β s F.P 0).2
  have hcy : cy = 0 ∨ cy = 1 := by
    by_contra hc
    have : F.β ^ F.t * 2 ≤ F.β ^ F.t * cy := Nat.mul_le_mul_left _ (by omega)
    omega
  have hbo' : bo = 0 ∨ bo = 1 := by omega
  have key : ∀ n : ℕ, n = val F.β d + F.p → (n : ZMod F.p) = x → val F.β d < F.p →
      Rep F d x := by
    rintro n rfl hn hlt
    refine ⟨hl, hlt, ?_⟩
    rw [← hn]; push_cast; rw [ZMod.natCast_self, add_zero]
  rw [hcmp]
  rcases hcy with rfl | rfl
  · rw [mul_zero, add_zero] at h2 hx
    by_cases h : val F.β s < F.p
    · rw [if_neg]
      · exact ⟨hs, h, hx⟩
      · simp [Nat.compare_eq_lt.2 h]
    · rw [if_pos]
      · have hbo0 : bo = 0 := by
          rcases hbo' with h' | h'
          · exact h'
          · rw [h', mul_one] at hv; omega
        rw [hbo0, mul_zero] at hv
        exact key _ (by omega) hx (by omega)
      · right; rw [Ne, Nat.compare_eq_lt]; exact h
  · rw [mul_one] at h2 hx
    rw [if_pos (by simp)]
    have hbo1 : bo = 1 := by
      rcases hbo' with h' | h'
      · rw [h', mul_zero] at hv; omega
      · exact h'
    rw [hbo1, mul_one] at hv
    exact key _ (by omega) hx (by omega)

theorem add_rep {a b : List ℕ} {x y : ZMod F.p} (ha : Rep F a x) (hb : Rep F b y) :
    Rep F (add F a b) (x + y) := by
  have hv := mpnAddN_val ha.limbs hb.limbs 0
  rw [add_zero] at hv
  have a2 := ha.lt
  have b2 := hb.lt
  refine reduce_rep ok (mpnAddN_limbs (β_pos ok) ha.limbs hb.limbs 0) (by omega) ?_
  rw [hv]; push_cast; rw [ha.cast, hb.cast]

theorem double_rep {a : List ℕ} {x : ZMod F.p} (ha : Rep F a x) :
    Rep F (double F a) (2 * x) := by
  have hv := mpnLshift1_val ha.limbs 0
  rw [add_zero] at hv
  have a2 := ha.lt
  refine reduce_rep ok (mpnLshift1_limbs ok.βeven ha.limbs (by omega)) (by omega) ?_
  rw [hv]; push_cast; rw [ha.cast]

theorem halve_rep {a : List ℕ} {x : ZMod F.p} (ha : Rep F a x) :
    Rep F (halve F a) (x * 2⁻¹) := by
  rcases Nat.eq_zero_or_pos (val F.β a) with h0 | h0
  · have hx : x = 0 := by rw [← ha.cast, h0]; simp
    obtain ⟨t', ht'⟩ : ∃ t', F.t = t' + 1 := ⟨F.t - 1, by have := ok.t1; omega⟩
    have hpar : a.headD 0 % 2 = val F.β a % 2 := by
      have := headD_val_mod (by have := ha.limbs; rw [ht'] at this; exact this)
      exact Nat.ModEq.of_dvd ok.βeven this
    unfold halve
    rw [if_neg (by omega)]
    have hv := mpnRshift1_val ok.βeven ha.limbs
    rw [h0] at hv
    refine ⟨mpnRshift1_limbs ok.βeven ha.limbs, ?_, ?_⟩
    · rw [hv]; have := ok.p1; omega
    · rw [hv, hx]; simp
  · have hr : RepK F 1 { flag := true, d := a } x :=
      rep_mk ha.limbs (by omega) ha.lt (by rw [ha.cast, mul_one])
    obtain ⟨h1, h2, h3, h4⟩ := halve_limbs ok isUnit_one hr rfl ⟨true, a⟩
    have e : (Mont.halve F ⟨true, a⟩ ⟨true, a⟩).d = halve F a := by
      unfold Mont.halve halve
      simp only [Bool.true_eq_false, if_false]
      split <;> rfl
    rw [e] at h1 h3 h4
    exact ⟨h1, h3, by rw [h4, mul_one]⟩

theorem sub_rep {a b : List ℕ} {x y : ZMod F.p} (ha : Rep F a x) (hb : Rep F b y) :
    Rep F (sub F a b) (x - y) := by
  have hβ := β_pos ok
  have hv := mpnSubN_val ha.limbs hb.limbs (c := 0) (by omega)
  have hl := mpnSubN_limbs hβ ha.limbs hb.limbs 0
  have hbo := mpnSubN_borrow ha.limbs hb.limbs (c := 0) (by omega)
  have a2 := ha.lt
  have b2 := hb.lt
  have hpl := ok.plt
  unfold sub
  simp only
  set d := (mpnSubN F.β a b 0).1
  set bo := (mpnSubN F.β a b 0).2
  have hbo' : bo = 0 ∨ bo = 1 := by omega
  rcases hbo' with h | h
  · rw [if_neg (by simp [h])]
    rw [h, mul_zero] at hv
    refine ⟨hl, by omega, ?_⟩
    rw [← ha.cast, ← hb.cast]
    have : val F.β a = val F.β d + val F.β b := by omega
    rw [this]; push_cast; ring
  · rw [if_pos (by simp [h])]
    rw [h, mul_one] at hv
    have hv2 := mpnAddN_val hl ok.Pl 0
    rw [ok.Pv] at hv2
    have hl2 := mpnAddN_limbs hβ hl ok.Pl 0
    have hlt2 := val_lt hl2
    have hlt1 := val_lt hl
    have hc := mpnAddN_carry hl ok.Pl (c := 0) (by omega)
    set d2 := (mpnAddN F.β d F.P 0).1
    set c2 := (mpnAddN F.β d F.P 0).2
    have : c2 = 1 := by
      rcases (show c2 = 0 ∨ c2 = 1 by omega) with h' | h'
      · rw [h', mul_zero] at hv2; omega
      · exact h'
    rw [this, mul_one] at hv2
    refine ⟨hl2, by omega, ?_⟩
    have e : val F.β d2 + val F.β b = val F.β a + F.p := by omega
    have := congrArg (Nat.cast (R := ZMod F.p)) e
    push_cast at this
    rw [ZMod.natCast_self, add_zero, ha.cast, hb.cast] at this
    rw [← this]; ring

theorem is0_iff {a : List ℕ} (ha : Limbs F.β F.t a) : is0 a = true ↔ val F.β a = 0 := by
  unfold is0
  have hβ := β_pos ok
  obtain ⟨-, h⟩ := ha
  clear h
  induction a with
  | nil => simp [val]
  | cons x xs ih =>
    rw [List.all_cons, Bool.and_eq_true, beq_iff_eq, val]
    constructor
    · rintro ⟨rfl, h⟩; rw [ih.1 h]; simp
    · intro h
      have h1 : F.β * val F.β xs = 0 := by omega
      exact ⟨by omega, ih.2 ((Nat.mul_eq_zero.1 h1).resolve_left (by omega))⟩

theorem neg_rep {a : List ℕ} {x : ZMod F.p} (ha : Rep F a x) : Rep F (neg F a) (-x) := by
  have hi := is0_iff ok ha.limbs
  unfold neg
  split
  · rename_i h
    have : x = 0 := by rw [← ha.cast, hi.1 h]; simp
    rw [this, neg_zero]; exact zero_rep ok
  · rename_i h
    have h0 : val F.β a ≠ 0 := fun h' => h (hi.2 h')
    have hr : RepK F 1 { flag := true, d := a } x :=
      rep_mk ha.limbs h0 ha.lt (by rw [ha.cast, mul_one])
    have h2 := Mont.neg_rep ok isUnit_one hr hr
    unfold Mont.neg at h2
    rw [if_neg (by simp)] at h2
    obtain ⟨h3, h4, h5⟩ := h2.pos rfl
    exact ⟨h2.limbs, h4, by rw [h5, mul_one]⟩

theorem mul_rep {a b : List ℕ} {x y : ZMod F.p} (ha : Rep F a x) (hb : Rep F b y) :
    Rep F (mul F a b) (x * y) := by
  unfold mul
  rw [tdivR_mulN ok ha.limbs hb.limbs]
  exact toLimbs_rep ok (by rw [Nat.cast_mul, ha.cast, hb.cast])

theorem mulSi_rep {a : List ℕ} {x : ZMod F.p} (ha : Rep F a x) (z : ℤ) :
    Rep F (mulSi F a z) (x * z) := by
  unfold mulSi
  simp only
  rw [tdivR_mul1 ok ha.limbs]
  have hr : Rep F (toLimbs F.β F.t (val F.β a * z.natAbs % F.p)) (x * z.natAbs) :=
    toLimbs_rep ok (by rw [Nat.cast_mul, ha.cast])
  split
  · have e : -(x * (z.natAbs : ZMod F.p)) = x * z := by
      have h3 : ((z.natAbs : ℤ) : ZMod F.p) = ((-z : ℤ) : ZMod F.p) := by
        congr 1; omega
      rw [Int.cast_natCast] at h3
      rw [h3]; simp
    rw [← e]; exact neg_rep ok hr
  · have e : ((z.natAbs : ℕ) : ZMod F.p) = z := by
      have h3 : ((z.natAbs : ℤ) : ZMod F.p) = ((z : ℤ) : ZMod F.p) := by
        congr 1; omega
      rwa [Int.cast_natCast] at h3
    rw [e] at hr; exact hr

theorem exec_rep (hprime : F.p.Prime) (hβp : F.β ≤ F.p)
    {m : ℕ → List ℕ} {s : FpState F.p} (h : ∀ i, Rep F (m i) (s i)) (o : FpOp)
    (hs : fastSafe F.w s o) : Rep F (exec F m o) (o.value s) := by
  have := neZero ok
  cases o with
  | setMpz c z => exact setMpz_rep ok z
  | setSi c z => exact setSi_rep ok hβp z hs
  | set0 c => exact zero_rep ok
  | set1 c => exact set1_rep ok hβp
  | set c a => exact h a
  | add c a b => exact add_rep ok (h a) (h b)
  | sub c a b => exact sub_rep ok (h a) (h b)
  | neg c a => exact neg_rep ok (h a)
  | double c a => exact double_rep ok (h a)
  | halve c a => exact halve_rep ok (h a)
  | mul c a b => exact mul_rep ok (h a) (h b)
  | square c a =>
    exact toLimbs_rep ok (by rw [Nat.cast_pow, (h a).cast]; rfl)
  | mulMpz c a z => exact mul_rep ok (h a) (setMpz_rep ok z)
  | mulSi c a z => exact mulSi_rep ok (h a) z
  | pow c a n =>
    refine toLimbs_rep ok ?_
    rw [Nat.cast_pow, toMpz_rep ok (h a), ZMod.natCast_zmod_val]; rfl
  | invert c a =>
    obtain ⟨h1, h2⟩ := Faster.mpzInvert_cast ok hprime (x := s a) hs
    have := toLimbs_rep ok h2
    rw [Nat.mod_eq_of_lt h1] at this
    show Rep F (invert F (m a)) _
    unfold invert
    rw [toMpz_rep ok (h a)]; exact this
  | random c z =>
    have := toLimbs_rep ok (n := z) rfl
    rw [Nat.mod_eq_of_lt hs] at this
    exact this
  | fromBytes c data =>
    have := setMpz_rep ok (importBE data : ℤ)
    rw [Int.cast_natCast] at this
    exact this

theorem run_rep (hprime : F.p.Prime) (hβp : F.β ≤ F.p)
    (prog : List FpOp) {m : ℕ → List ℕ} {s : FpState F.p} (h : ∀ i, Rep F (m i) (s i))
    (hs : FpAllowed (fastSafe F.w) s prog) :
    ∀ i, Rep F (run F m prog i) (fpRun s prog i) := by
  induction prog generalizing m s with
  | nil => exact h
  | cons o rest ih =>
    have hr := exec_rep ok hprime hβp h o hs.1
    refine ih (fun i => ?_) hs.2
    by_cases hi : i = o.dest
    · subst hi; simpa [FpOp.step] using hr
    · simpa [FpOp.step, hi] using h i

end
end Fast

/-! ## naivefp -/

namespace Naive

/-- Representation in `naivefp.c`: the least residue. -/
def Rep {p : ℕ} (a : ℕ) (x : ZMod p) : Prop := a < p ∧ (a : ZMod p) = x

variable {p : ℕ}

theorem Rep.val_eq {a : ℕ} {x : ZMod p} (h : Rep a x) : a = x.val := by
  rw [← h.2, ZMod.val_natCast_of_lt h.1]

theorem rep_mod (hp : 0 < p) (n : ℕ) : Rep (n % p) (n : ZMod p) :=
  ⟨Nat.mod_lt _ hp, (ZMod.natCast_eq_natCast_iff _ _ _).2 (Nat.mod_modEq _ _)⟩

theorem setMpz_rep (hp : 0 < p) (z : ℤ) : Rep (setMpz p z) (z : ZMod p) := by
  have h0 : 0 ≤ z % (p : ℤ) := Int.emod_nonneg _ (by omega)
  have h1 : z % (p : ℤ) < p := Int.emod_lt_of_pos _ (by omega)
  unfold setMpz
  refine ⟨by omega, ?_⟩
  have : (((z % (p : ℤ)).toNat : ℤ) : ZMod p) = (z : ZMod p) := by
    rw [Int.toNat_of_nonneg h0]; exact ZMod.intCast_mod z p
  rw [← this]; push_cast; rfl

theorem exec_rep (hprime : p.Prime) (hodd : p % 2 = 1)
    {m : ℕ → ℕ} {s : FpState p} (h : ∀ i, Rep (m i) (s i)) (o : FpOp)
    (hs : naiveSafe s o) : Rep (exec p m o) (o.value s) := by
  have : Fact p.Prime := ⟨hprime⟩
  have hp := hprime.pos
  have hp1 := hprime.one_lt
  have key : ∀ {n k : ℕ} {x : ZMod p}, n < p → n + p = k → (k : ZMod p) = x → Rep n x := by
    rintro n k x hn rfl hx
    refine ⟨hn, ?_⟩
    rw [← hx]; push_cast; rw [ZMod.natCast_self, add_zero]
  cases o with
  | setMpz c z => exact setMpz_rep hp z
  | setSi c z => exact setMpz_rep hp z
  | set0 c => exact ⟨hp, Nat.cast_zero⟩
  | set1 c => exact ⟨hp1, Nat.cast_one⟩
  | set c a => exact h a
  | add c a b =>
    obtain ⟨a1, a2⟩ := h a
    obtain ⟨b1, b2⟩ := h b
    have e : ((m a + m b : ℕ) : ZMod p) = s a + s b := by rw [Nat.cast_add, a2, b2]
    show Rep (add p (m a) (m b)) _
    unfold add
    split
    · exact key (by omega) (k := m a + m b) (by omega) e
    · exact ⟨by omega, e⟩
  | sub c a b =>
    obtain ⟨a1, a2⟩ := h a
    obtain ⟨b1, b2⟩ := h b
    show Rep (sub p (m a) (m b)) _
    unfold sub
    split
    · refine ⟨by omega, ?_⟩
      rw [Nat.cast_sub (by omega), Nat.cast_add, ZMod.natCast_self, a2, b2, add_zero]; rfl
    · refine ⟨by omega, ?_⟩
      rw [Nat.cast_sub (by omega), a2, b2]; rfl
  | neg c a =>
    obtain ⟨a1, a2⟩ := h a
    show Rep (neg p (m a)) (- s a)
    unfold neg
    split
    · rename_i h0
      rw [h0, Nat.cast_zero] at a2
      rw [← a2]; exact ⟨hp, by simp⟩
    · refine ⟨by omega, ?_⟩
      rw [Nat.cast_sub (by omega), ZMod.natCast_self, a2, zero_sub]
  | double c a =>
    obtain ⟨a1, a2⟩ := h a
    have e : ((2 * m a : ℕ) : ZMod p) = 2 * s a := by push_cast; rw [a2]
    show Rep (double p (m a)) _
    unfold double
    split
    · exact key (by omega) (k := 2 * m a) (by omega) e
    · exact ⟨by omega, e⟩
  | halve c a =>
    obtain ⟨a1, a2⟩ := h a
    have h2 : (2 : ZMod p) ≠ 0 := by
      intro h2
      have : ((2 : ℕ) : ZMod p) = 0 := by exact_mod_cast h2
      have := Nat.le_of_dvd (by norm_num) ((ZMod.natCast_eq_zero_iff _ _).1 this)
      have : p = 2 := by omega
      omega
    have fin : ∀ n : ℕ, (2 * n = m a ∨ 2 * n = m a + p) → Rep n (s a * 2⁻¹) := by
      intro n hn
      refine ⟨by omega, ?_⟩
      have : (2 : ZMod p) * n = s a := by
        rw [← a2]
        rcases hn with hn | hn
        · rw [← hn]; push_cast; ring
        · have := congrArg (Nat.cast (R := ZMod p)) hn
          push_cast at this
          rw [this, ZMod.natCast_self, add_zero]
      rw [← this]; field_simp
    show Rep (halve p (m a)) _
    unfold halve
    split
    · exact fin _ (by omega)
    · exact fin _ (by omega)
  | mul c a b =>
    have := rep_mod hp (m a * m b)
    rw [Nat.cast_mul, (h a).2, (h b).2] at this; exact this
  | square c a =>
    have := rep_mod hp (m a ^ 2)
    rw [Nat.cast_pow, (h a).2] at this; exact this
  | mulMpz c a z =>
    have := setMpz_rep hp ((m a : ℤ) * z)
    rw [Int.cast_mul, Int.cast_natCast, (h a).2] at this; exact this
  | mulSi c a z =>
    have := setMpz_rep hp ((m a : ℤ) * z)
    rw [Int.cast_mul, Int.cast_natCast, (h a).2] at this; exact this
  | pow c a n =>
    have := rep_mod hp (m a ^ n)
    rw [Nat.cast_pow, (h a).2] at this; exact this
  | invert c a =>
    have hx : s a ≠ 0 := hs
    have hcop : Nat.Coprime (s a).val p := ZMod.val_coe_unit_coprime (Units.mk0 _ hx)
    rw [← (h a).val_eq] at hcop
    obtain ⟨h1, h2⟩ := mpzInvert_spec hp hcop
    refine ⟨h1, ?_⟩
    have h3 := (ZMod.natCast_eq_natCast_iff _ _ _).2 h2
    rw [Nat.cast_mul, (h a).2, Nat.cast_one] at h3
    exact eq_inv_of_mul_eq_one_right h3
  | random c z => exact ⟨hs, rfl⟩
  | fromBytes c data => exact ⟨hs, rfl⟩

theorem run_rep (hprime : p.Prime) (hodd : p % 2 = 1)
    (prog : List FpOp) {m : ℕ → ℕ} {s : FpState p} (h : ∀ i, Rep (m i) (s i))
    (hs : FpAllowed naiveSafe s prog) :
    ∀ i, Rep (run p m prog i) (fpRun s prog i) := by
  induction prog generalizing m s with
  | nil => exact h
  | cons o rest ih =>
    have hr := exec_rep hprime hodd h o hs.1
    refine ih (fun i => ?_) hs.2
    by_cases hi : i = o.dest
    · subst hi; simpa [FpOp.step] using hr
    · simpa [FpOp.step, hi] using h i

end Naive

end Pbc
