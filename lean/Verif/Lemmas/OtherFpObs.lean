import Verif.Lemmas.OtherFp

/-! The observers of the backends `fasterfp.c`, `fastfp.c`, `naivefp.c`. -/

set_option linter.unusedSectionVars false

namespace Pbc

open Spec Mont

/-- Comparison with 1 limb by limb. -/
theorem limbs_one_iff {β : ℕ} (hβ : 1 < β) {l : List ℕ} (hl : ∀ x ∈ l, x < β) :
    ((l.headD 0 == 1) && l.tail.all (· == 0)) = true ↔ val β l = 1 := by
  have hz : ∀ l : List ℕ, l.all (· == 0) = true ↔ val β l = 0 := by
    intro l
    induction l with
    | nil => simp [val]
    | cons x xs ih =>
      rw [List.all_cons, Bool.and_eq_true, beq_iff_eq, val, ih]
      constructor
      · rintro ⟨rfl, h⟩; rw [h]; simp
      · intro h
        have h1 : β * val β xs = 0 := by omega
        exact ⟨by omega, (Nat.mul_eq_zero.1 h1).resolve_left (by omega)⟩
  cases l with
  | nil => simp [val]
  | cons x xs =>
    have hx := hl x (by simp)
    rw [Bool.and_eq_true, List.headD_cons, List.tail_cons, beq_iff_eq, hz, val]
    constructor
    · rintro ⟨rfl, h⟩; rw [h]; simp
    · intro h
      rcases Nat.eq_zero_or_pos (val β xs) with h0 | h0
      · rw [h0] at h; exact ⟨by omega, h0⟩
      · exfalso
        have : β * 1 ≤ β * val β xs := Nat.mul_le_mul_left _ h0
        omega

theorem head_parity {β : ℕ} (hβ : β % 2 = 0) (l : List ℕ) : l.headD 0 % 2 = val β l % 2 := by
  cases l with
  | nil => rfl
  | cons x xs =>
    rw [val, List.headD_cons, Nat.add_mod, Nat.mul_mod, hβ]; simp

theorem legendre_iff {p : ℕ} (hp : p.Prime) {x : ZMod p} (hx : x ≠ 0) :
    decide (jacobiSym (x.val : ℤ) p = 1) = true ↔ IsSquare x := by
  have : Fact p.Prime := ⟨hp⟩
  rw [decide_eq_true_iff, ← jacobiSym.legendreSym.to_jacobiSym,
    legendreSym.eq_one_iff p (by simpa using hx)]
  simp

theorem val_eq_one {p : ℕ} (hp : 1 < p) {x : ZMod p} : x.val = 1 ↔ x = 1 := by
  have : Fact (1 < p) := ⟨hp⟩
  have : NeZero p := ⟨by omega⟩
  constructor
  · intro h
    apply ZMod.val_injective
    rw [h, ZMod.val_one]
  · rintro rfl; exact ZMod.val_one p

/-- The sign that all backends compute for odd moduli. -/
def oddSign {p : ℕ} (x : ZMod p) : ℤ := if x = 0 then 0 else if x.val % 2 = 1 then 1 else -1

section
variable {F : Field} (ok : FieldOk F)
include ok

theorem β_even : F.β % 2 = 0 := by
  have h := ok.w1
  obtain ⟨k, hk⟩ : ∃ k, F.w = k + 1 := ⟨F.w - 1, by omega⟩
  unfold Field.β
  rw [hk, pow_succ]; omega

namespace Faster

theorem val_rep {e : El} {x : ZMod F.p} (h : Rep F e x) (hf : e.flag = true) :
    val F.β e.d = x.val := by
  have := toMpz_rep ok h
  unfold toMpz at this
  rwa [if_neg (by simp [hf])] at this

theorem is0_rep {e : El} {x : ZMod F.p} (h : Rep F e x) : is0 e = true ↔ x = 0 := by
  rw [← h.flag_false_iff ok isUnit_one]
  unfold is0
  cases e.flag <;> simp

theorem is1_rep {e : El} {x : ZMod F.p} (h : Rep F e x) : is1 e = true ↔ x = 1 := by
  have hne : (1 : ZMod F.p) ≠ 0 := by
    have : Fact (1 < F.p) := ⟨ok.p1⟩
    exact one_ne_zero
  unfold is1
  cases hf : e.flag
  · simp [h.zero hf, hne.symm]
  · rw [Bool.true_and, limbs_one_iff (β := F.β) (by have := ok.β2; omega) h.limbs.2,
      val_rep ok h hf, val_eq_one ok.p1]

theorem cmp_rep {a b : El} {x y : ZMod F.p} (ha : Rep F a x) (hb : Rep F b y)
    (hs : x = 0 ∨ y ≠ 0) : cmp a b = Ordering.eq ↔ x = y := by
  unfold cmp Mont.cmp
  cases hf : a.flag
  · rw [if_pos rfl, ha.zero hf]
    have := hb.flag_false_iff ok isUnit_one
    cases hg : b.flag
    · simp [hb.zero hg]
    · rw [hg] at this
      simp only [Bool.true_eq_false, false_iff] at this
      simp [Ne.symm this]
  · have hx := ha.ne_zero ok isUnit_one hf
    have hbf : b.flag = true := by
      cases hg : b.flag
      · exact absurd (hb.zero hg) (hs.resolve_left hx)
      · rfl
    rw [if_neg (by simp), mpnCmp_val ha.limbs hb.limbs, Nat.compare_eq_eq]
    exact val_eq_iff isUnit_one ha hb hf hbf

theorem sgn_rep {e : El} {x : ZMod F.p} (h : Rep F e x) : sgn e = oddSign x := by
  have hz := h.flag_false_iff ok isUnit_one
  unfold sgn oddSign
  cases hf : e.flag
  · rw [if_pos rfl, if_pos (h.zero hf)]
  · rw [hf] at hz
    have hx : x ≠ 0 := by simpa using hz
    rw [if_neg (by simp), if_neg hx, head_parity (β_even ok), val_rep ok h hf]

theorem isSqr_rep (hprime : F.p.Prime) {e : El} {x : ZMod F.p} (h : Rep F e x) :
    isSqr F e = true ↔ IsSquare x := by
  have hz := h.flag_false_iff ok isUnit_one
  unfold isSqr
  cases hf : e.flag
  · simp [h.zero hf]
  · rw [hf] at hz
    rw [if_neg (by simp), toMpz_rep ok h, legendre_iff hprime (by simpa using hz)]

theorem toBytes_rep {e : El} {x : ZMod F.p} (h : Rep F e x) :
    ∃ l, toBytes F e = some l ∧ l.length = fpLength F.p ∧ (∀ b ∈ l, b < 256) ∧
      bytesVal l = x.val := by
  have := neZero ok
  unfold toBytes
  cases hf : e.flag
  · refine ⟨_, if_pos rfl, by simp, fun b hb => ?_, ?_⟩
    · rw [(List.mem_replicate.1 hb).2]; norm_num
    · have e0 := importBE_replicate_zero (fpLength F.p) []
      rw [List.append_nil] at e0
      rw [h.zero hf, ZMod.val_zero]
      exact e0
  · rw [if_neg (by simp), toMpz_rep ok h]
    exact outRawN_spec (lt_fpLength (ZMod.val_lt x))

theorem fromBytes_rep {c : El} {y : ZMod F.p} (hc : Rep F c y) {data : List ℕ}
    (hd : bytesVal data < F.p) : Rep F (fromBytes F c data) (bytesVal data : ZMod F.p) := by
  have h := random_rep ok hc hd
  have e : fromBytes F c data = random F c (bytesVal data) := by
    unfold fromBytes random
    show (if bytesVal data = 0 then _ else _) = _
    by_cases h0 : bytesVal data = 0
    · rw [if_pos h0, if_neg (by simpa using h0)]
    · rw [if_neg h0, if_pos h0]; rfl
  rw [e]; exact h

end Faster

namespace Fast

theorem is0_rep {a : List ℕ} {x : ZMod F.p} (h : Rep F a x) : is0 a = true ↔ x = 0 := by
  have hv := toMpz_rep ok h
  unfold toMpz at hv
  rw [is0_iff ok h.limbs, hv, ZMod.val_eq_zero]

theorem is1_rep {a : List ℕ} {x : ZMod F.p} (h : Rep F a x) : is1 a = true ↔ x = 1 := by
  have hv := toMpz_rep ok h
  unfold toMpz at hv
  unfold is1
  rw [limbs_one_iff (β := F.β) (by have := ok.β2; omega) h.limbs.2, hv, val_eq_one ok.p1]

theorem cmp_rep {a b : List ℕ} {x y : ZMod F.p} (ha : Rep F a x) (hb : Rep F b y) :
    cmp a b = compare x.val y.val := by
  have h1 := toMpz_rep ok ha
  have h2 := toMpz_rep ok hb
  unfold toMpz at h1 h2
  unfold cmp
  rw [mpnCmp_val ha.limbs hb.limbs, h1, h2]

theorem sgn_rep {a : List ℕ} {x : ZMod F.p} (h : Rep F a x) : sgn a = oddSign x := by
  have hv := toMpz_rep ok h
  unfold toMpz at hv
  have h0 := is0_rep ok h
  unfold sgn oddSign
  by_cases hx : x = 0
  · rw [if_pos (h0.2 hx), if_pos hx]
  · rw [if_neg (fun h => hx (h0.1 h)), if_neg hx, head_parity (β_even ok), hv]

theorem isSqr_rep (hprime : F.p.Prime) {a : List ℕ} {x : ZMod F.p} (h : Rep F a x) :
    isSqr F a = true ↔ IsSquare x := by
  have h0 := is0_rep ok h
  unfold isSqr
  by_cases hx : x = 0
  · rw [if_pos (h0.2 hx)]; simp [hx]
  · rw [if_neg (fun h => hx (h0.1 h)), toMpz_rep ok h, legendre_iff hprime hx]

theorem toBytes_rep {a : List ℕ} {x : ZMod F.p} (h : Rep F a x) :
    ∃ l, toBytes F a = some l ∧ l.length = fpLength F.p ∧ (∀ b ∈ l, b < 256) ∧
      bytesVal l = x.val := by
  have := neZero ok
  unfold toBytes
  rw [toMpz_rep ok h]
  exact outRawN_spec (lt_fpLength (ZMod.val_lt x))

end Fast
end

namespace Naive

variable {p : ℕ}

theorem sgn_rep (hp : 1 < p) {a : ℕ} {x : ZMod p} (h : Rep a x) : sgnOdd a = oddSign x := by
  have : NeZero p := ⟨by omega⟩
  unfold sgnOdd oddSign
  rw [h.val_eq]
  simp only [ZMod.val_eq_zero]

theorem isSqr_rep (hp : p.Prime) {a : ℕ} {x : ZMod p} (h : Rep a x) :
    isSqr p a = true ↔ IsSquare x := by
  have : NeZero p := ⟨hp.ne_zero⟩
  unfold isSqr
  rw [h.val_eq]
  simp only [ZMod.val_eq_zero]
  by_cases hx : x = 0
  · simp [hx]
  · rw [if_neg hx, legendre_iff hp hx]

theorem neg_rep (hp : 1 < p) {a : ℕ} {x : ZMod p} (h : Rep a x) : Rep (neg p a) (-x) := by
  obtain ⟨h1, h2⟩ := h
  unfold neg
  split
  · rename_i h0
    rw [← h2, h0]
    exact ⟨by omega, by simp⟩
  · refine ⟨by omega, ?_⟩
    rw [Nat.cast_sub h1.le, ZMod.natCast_self, h2, zero_sub]

theorem toBytes_rep (hp : 1 < p) {a : ℕ} {x : ZMod p} (h : Rep a x) :
    ∃ l, toBytes p a = some l ∧ l.length = fpLength p ∧ (∀ b ∈ l, b < 256) ∧
      bytesVal l = x.val := by
  have : NeZero p := ⟨by omega⟩
  unfold toBytes
  rw [h.val_eq]
  exact outRawN_spec (lt_fpLength (ZMod.val_lt x))

end Naive

end Pbc
