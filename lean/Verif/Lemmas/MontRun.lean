import Verif.Lemmas.MontRep
import Verif.Lemmas.Bytes
import Verif.Model.OtherFp

/-! Programs on the Montgomery backend refine programs on `Z/p`. -/

namespace Pbc.Mont

open Spec

theorem safe_of_prime {p : ℕ} (hp : p.Prime) {s : FpState p} {o : FpOp} (h : montSafePrime s o) :
    montSafe s o := by
  have : Fact p.Prime := ⟨hp⟩
  cases o with
  | mul c a b => exact fun h => mul_eq_zero.1 h
  | square c a => exact fun h => mul_self_eq_zero.1 h
  | mulMpz c a z => exact fun h => mul_eq_zero.1 h
  | mulSi c a z => exact fun h => mul_eq_zero.1 h
  | pow c a n => exact ⟨h, fun h => eq_zero_of_pow_eq_zero h⟩
  | invert c a => exact isUnit_iff_ne_zero.2 h
  | _ => exact h

theorem allowed_of_prime {w p : ℕ} (hp : p.Prime) (prog : List FpOp) {s : FpState p}
    (h : FpAllowed (FpGuard w montSafePrime) s prog) : FpAllowed (FpGuard w montSafe) s prog := by
  induction prog generalizing s with
  | nil => trivial
  | cons o rest ih => exact ⟨⟨safe_of_prime hp h.1.1, h.1.2⟩, ih h.2⟩

section
variable {F : Field} (ok : FieldOk F)
include ok

theorem exec_rep {fresh : El} (hf : Fresh F fresh)
    {m : Mem} {s : FpState F.p} (h : ∀ i, Rep F (m i) (s i)) (o : FpOp) (hs : montSafe s o)
    (htop : o.multiplies → TopOk F) :
    ∃ e, exec F fresh m o = some e ∧ Rep F e (o.value s) := by
  have hR := R_unit ok
  have hfr : Rep F fresh 0 := fresh_rep ok hR hf
  cases o with
  | setMpz c z => exact ⟨_, rfl, setMpz_rep ok (h c) z⟩
  | setSi c z => exact ⟨_, rfl, setSi_rep ok (h c) z⟩
  | set0 c => exact ⟨_, rfl, rep_zero ok hR (h c)⟩
  | set1 c => exact ⟨_, rfl, set1_rep ok _⟩
  | set c a => exact ⟨_, rfl, set_rep ok hR (h c) (h a)⟩
  | add c a b => exact ⟨_, rfl, add_rep ok hR (h c) (h a) (h b)⟩
  | sub c a b => exact ⟨_, rfl, sub_rep ok hR (h c) (h a) (h b)⟩
  | neg c a => exact ⟨_, rfl, neg_rep ok hR (h c) (h a)⟩
  | double c a => exact ⟨_, rfl, double_rep ok hR (h c) (h a)⟩
  | halve c a => exact ⟨_, rfl, halve_rep ok hR (h c) (h a) hs.symm⟩
  | mul c a b => exact ⟨_, rfl, mul_rep ok (htop trivial) (h c) (h a) (h b) hs⟩
  | square c a =>
    refine ⟨_, rfl, ?_⟩
    have := mul_rep ok (htop trivial) (h c) (h a) (h a) (fun h' => Or.inl (hs h'))
    rw [← pow_two] at this
    exact this
  | mulMpz c a z => exact ⟨_, rfl, mul_rep ok (htop trivial) (h c) (h a) (setMpz_rep ok hfr z) hs⟩
  | mulSi c a z => exact ⟨_, rfl, mul_rep ok (htop trivial) (h c) (h a) (setSi_rep ok hfr z) hs⟩
  | pow c a n => exact powMpz_rep ok (h c) (h a) n hs.1 hs.2
  | invert c a => exact ⟨_, rfl, invert_rep ok (htop trivial) _ (h a) hs⟩
  | random c z =>
    refine ⟨_, rfl, shift_rep ok (h c) z ?_⟩
    rcases Nat.eq_zero_or_pos z with h0 | h0
    · exact Or.inl h0
    · exact Or.inr fun hd => absurd (Nat.le_of_dvd h0 hd) (by have : z < F.p := hs; omega)
  | fromBytes c data =>
    refine ⟨_, rfl, ?_⟩
    have := shift_rep ok (h c) (importBE data) hs
    show Rep F (fromBytes F (m c) data) _
    unfold fromBytes
    simp only
    by_cases h0 : importBE data = 0
    · rw [if_pos h0]; rw [if_neg (by simpa using h0)] at this; exact this
    · rw [if_neg h0]; rw [if_pos h0] at this; exact this

theorem run_rep {w : ℕ} (htop : TopWordFree w F.p → TopOk F) {fresh : El} (hf : Fresh F fresh)
    (prog : List FpOp) {m : Mem} {s : FpState F.p} (h : ∀ i, Rep F (m i) (s i))
    (hs : FpAllowed (FpGuard w montSafe) s prog) :
    ∃ m', run F fresh m prog = some m' ∧ ∀ i, Rep F (m' i) (fpRun s prog i) := by
  induction prog generalizing m s with
  | nil => exact ⟨m, rfl, h⟩
  | cons o rest ih =>
    obtain ⟨e, he, hr⟩ := exec_rep ok hf h o hs.1.1 (fun h => htop (hs.1.2 h))
    have h' : ∀ i, Rep F (Function.update m o.dest e i) (o.step s i) := by
      intro i
      by_cases hi : i = o.dest
      · subst hi; simpa [FpOp.step] using hr
      · simpa [FpOp.step, hi] using h i
    obtain ⟨m', hm, hm'⟩ := ih h' hs.2
    exact ⟨m', by simp only [run, he]; exact hm, hm'⟩

/-! Observers -/

theorem is0_rep {e : El} {x : ZMod F.p} (h : Rep F e x) : is0 e = true ↔ x = 0 := by
  rw [← h.flag_false_iff ok (R_unit ok)]
  unfold is0
  cases e.flag <;> simp

omit ok in
theorem val_eq_iff {κ : ZMod F.p} (hκ : IsUnit κ) {a b : El} {x y : ZMod F.p} (ha : RepK F κ a x)
    (hb : RepK F κ b y) (haf : a.flag = true) (hbf : b.flag = true) :
    val F.β a.d = val F.β b.d ↔ x = y := by
  obtain ⟨a1, a2, a3⟩ := ha.pos haf
  obtain ⟨b1, b2, b3⟩ := hb.pos hbf
  constructor
  · intro h
    rw [h, b3] at a3
    exact (hκ.mul_right_cancel a3).symm
  · rintro rfl
    have : ((val F.β a.d : ℕ) : ZMod F.p) = (val F.β b.d : ℕ) := by rw [a3, b3]
    have := (ZMod.natCast_eq_natCast_iff _ _ _).1 this
    exact Nat.ModEq.eq_of_lt_of_lt this a2 b2

theorem is1_rep {e : El} {x : ZMod F.p} (h : Rep F e x) : is1 F e = true ↔ x = 1 := by
  unfold is1
  have h1 := set1_rep ok e
  have hne : (1 : ZMod F.p) ≠ 0 := by
    intro h0
    exact RepK.ne_zero ok (R_unit ok) h1 rfl h0
  cases hf : e.flag
  · simp [h.zero hf, hne.symm]
  · simp only [Bool.true_and, beq_iff_eq]
    have hc := mpnCmp_val h.limbs h1.limbs
    change mpnCmp e.d F.R = _ at hc
    rw [hc, Nat.compare_eq_eq]
    exact val_eq_iff (R_unit ok) h h1 hf rfl

/-- `fp_cmp` tells equality, unless its first argument is nonzero and the second is zero. -/
theorem cmp_rep {a b : El} {x y : ZMod F.p} (ha : Rep F a x) (hb : Rep F b y)
    (hs : x = 0 ∨ y ≠ 0) : cmp a b = Ordering.eq ↔ x = y := by
  have hR := R_unit ok
  unfold cmp
  cases hf : a.flag
  · rw [if_pos rfl, ha.zero hf]
    have := hb.flag_false_iff ok hR
    cases hg : b.flag
    · simp [hb.zero hg]
    · rw [hg] at this
      simp only [Bool.true_eq_false, false_iff] at this
      simp [Ne.symm this]
  · have hx := ha.ne_zero ok hR hf
    have hy := hs.resolve_left hx
    have hbf : b.flag = true := by
      cases hg : b.flag
      · exact absurd (hb.zero hg) hy
      · rfl
    rw [if_neg (by simp), mpnCmp_val ha.limbs hb.limbs, Nat.compare_eq_eq]
    exact val_eq_iff hR ha hb hf hbf

theorem sgn_rep {e : El} {x : ZMod F.p} (h : Rep F e x) :
    sgn F e = some (if x = 0 then 0 else if x.val % 2 = 1 then 1 else -1) := by
  have := h.flag_false_iff ok (R_unit ok)
  unfold sgn
  cases hf : e.flag
  · rw [if_pos rfl, if_pos (h.zero hf)]
  · rw [hf] at this
    rw [if_neg (by simp), if_neg (by simpa using this), toMpz_rep ok h]; rfl

theorem isSqr_rep (hprime : F.p.Prime) {e : El} {x : ZMod F.p} (h : Rep F e x) :
    ∃ b, isSqr F e = some b ∧ (b = true ↔ IsSquare x) := by
  have : Fact F.p.Prime := ⟨hprime⟩
  have hz := h.flag_false_iff ok (R_unit ok)
  unfold isSqr
  cases hf : e.flag
  · rw [if_pos rfl]
    exact ⟨true, rfl, by simp [h.zero hf]⟩
  · rw [hf] at hz
    have hx : x ≠ 0 := by simpa using hz
    rw [if_neg (by simp), toMpz_rep ok h]
    refine ⟨_, rfl, ?_⟩
    rw [decide_eq_true_iff, ← jacobiSym.legendreSym.to_jacobiSym,
      legendreSym.eq_one_iff F.p (by simpa using hx)]
    simp

theorem toBytes_rep {e : El} {x : ZMod F.p} (h : Rep F e x) :
    ∃ l, toBytes F e = some l ∧ l.length = fpLength F.p ∧ (∀ b ∈ l, b < 256) ∧
      bytesVal l = x.val := by
  have := neZero ok
  unfold toBytes
  rw [toMpz_rep ok h]
  exact outRawN_spec (lt_fpLength (ZMod.val_lt x))

end

end Pbc.Mont
