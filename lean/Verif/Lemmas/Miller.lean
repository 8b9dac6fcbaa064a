import Verif.Lemmas.BaseChange

/-! # Miller's loop for types D, F and G

The lines of the loop are listed by `lines`; the direct routine and the preprocessed one both evaluate
this list. -/

set_option autoImplicit false
set_option linter.unusedSectionVars false

namespace Pbc.PairingD

open Pbc.Curve (Pt)
open Pbc.PairingA (Abc copy)
open WeierstrassCurve WeierstrassCurve.Affine
open Spec (EC PtRep)
open Tate

section lines

variable {F : Type*} [Field F] [DecidableEq F]

/-- The lines of the loop, in order. -/
def lines (tan : F → F → Abc F) (ca : F) (r : ℕ) (P : Pt F) : ℕ → Pt F → Option (List (Abc F))
  | 0, Z => some [tan Z.x Z.y]
  | m + 1, Z =>
    match dbl ca Z with
    | none => none
    | some Z1 =>
      if r.testBit (m + 1) then
        match add ca Z1 P with
        | none => none
        | some Z2 => (lines tan ca r P m Z2).map (fun ls => tan Z.x Z.y :: line Z1.x Z1.y P.x P.y :: ls)
      else (lines tan ca r P m Z1).map (fun ls => tan Z.x Z.y :: ls)

/-- The number of lines: one for each step and one more for each set bit. -/
def count (r : ℕ) : ℕ → ℕ
  | 0 => 1
  | m + 1 => (if r.testBit (m + 1) then 2 else 1) + count r m

variable {tan : F → F → Abc F} {ca : F} {r : ℕ} {P : Pt F}

theorem lines_length : ∀ (m : ℕ) (Z : Pt F) (ls : List (Abc F)), lines tan ca r P m Z = some ls →
    ls.length = count r m
  | 0, Z, ls, h => by rw [lines, Option.some.injEq] at h; subst h; rfl
  | m + 1, Z, ls, h => by
    rw [lines] at h
    rcases hd : dbl ca Z with _ | Z1
    · rw [hd] at h; simp at h
    · rw [hd] at h
      dsimp only at h
      rcases hb : r.testBit (m + 1) with _ | _
      · rw [hb, if_neg (by decide), Option.map_eq_some_iff] at h
        obtain ⟨ls', h', rfl⟩ := h
        rw [List.length_cons, lines_length m Z1 ls' h', count, hb]
        simp [add_comm]
      · rw [hb, if_pos rfl] at h
        rcases ha : add ca Z1 P with _ | Z2
        · rw [ha] at h; simp at h
        · rw [ha] at h
          dsimp only at h
          rw [Option.map_eq_some_iff] at h
          obtain ⟨ls', h', rfl⟩ := h
          rw [List.length_cons, List.length_cons, lines_length m Z2 ls' h', count, hb]
          simp; omega

/-- The direct routine evaluates the lines one after another. -/
theorem loop_eq {V : Type*} (step : Abc F → V → V) (sq : V → V) : ∀ (m : ℕ) (Z : Pt F)
    (pre : List (Abc F)) (v : V), loop tan ca r P step sq m Z v =
      (lines tan ca r P m Z).bind (fun ls => ppApplyLoop r step sq (pre ++ ls) m pre.length v)
  | 0, Z, pre, v => by simp [loop, lines, ppApplyLoop]
  | m + 1, Z, pre, v => by
    rw [loop, lines]
    dsimp only
    rcases hd : dbl ca Z with _ | Z1
    · rfl
    · dsimp only
      rcases hb : r.testBit (m + 1) with _ | _
      · rw [if_neg (by decide), if_neg (by decide), loop_eq step sq m Z1 (pre ++ [tan Z.x Z.y])]
        rcases lines tan ca r P m Z1 with _ | ls
        · rfl
        · simp [ppApplyLoop, hb]
      · rw [if_pos rfl, if_pos rfl]
        rcases ha : add ca Z1 P with _ | Z2
        · rfl
        · dsimp only
          rw [loop_eq step sq m Z2 (pre ++ [tan Z.x Z.y, line Z1.x Z1.y P.x P.y])]
          rcases lines tan ca r P m Z2 with _ | ls
          · rfl
          · have e1 : (pre ++ tan Z.x Z.y :: line Z1.x Z1.y P.x P.y :: ls)[pre.length + 1]? =
                some (line Z1.x Z1.y P.x P.y) := by
              rw [List.getElem?_append_right (by omega)]; simp
            simp [ppApplyLoop, hb, e1]

theorem tangentPp_eq (ca x y : F) : tangentPp ca x y = tangent ca x y := by
  unfold tangentPp tangent
  dsimp only
  simp only [Int.cast_ofNat, Abc.mk.injEq, and_true, true_and]
  exact ⟨by ring, by ring⟩

/-- Preprocessing stores the lines as long as there is room. -/
theorem ppLoop_eq (cap : ℕ) : ∀ (m : ℕ) (Z : Pt F) (pre : List (Abc F)),
    ppLoop cap ca r P m Z pre = (lines (tangent ca) ca r P m Z).bind (fun ls =>
      if pre.length + ls.length ≤ cap then some (pre ++ ls) else none)
  | 0, Z, pre => by
    simp only [ppLoop, lines, store, Option.bind_some, List.length_singleton, tangentPp_eq]
    rfl
  | m + 1, Z, pre => by
    rw [ppLoop, lines, store, tangentPp_eq]
    by_cases hc : pre.length < cap
    · rw [if_pos hc]
      dsimp only
      rcases hd : dbl ca Z with _ | Z1
      · rfl
      · dsimp only
        rcases hb : r.testBit (m + 1) with _ | _
        · rw [if_neg (by decide), if_neg (by decide), ppLoop_eq cap m Z1]
          rcases lines (tangent ca) ca r P m Z1 with _ | ls
          · rfl
          · simp [add_comm, add_left_comm, add_assoc]
        · rw [if_pos rfl, if_pos rfl, store]
          by_cases hc' : (pre ++ [tangent ca Z.x Z.y]).length < cap
          · rw [if_pos hc']
            dsimp only
            rcases ha : add ca Z1 P with _ | Z2
            · rfl
            · dsimp only
              rw [ppLoop_eq cap m Z2]
              rcases lines (tangent ca) ca r P m Z2 with _ | ls
              · rfl
              · have e : pre.length + (1 + 1 + ls.length) = pre.length + (ls.length + 1 + 1) := by omega
                simp [add_assoc, add_comm 2 ls.length]
          · rw [if_neg hc']
            dsimp only
            rcases ha : add ca Z1 P with _ | Z2
            · rfl
            · dsimp only
              rcases lines (tangent ca) ca r P m Z2 with _ | ls
              · rfl
              · rw [Option.map_some, Option.bind_some, if_neg]
                simp only [List.length_append, List.length_cons, List.length_nil] at hc' ⊢
                omega
    · rw [if_neg hc]
      dsimp only
      symm
      rw [Option.bind_eq_none_iff]
      intro ls hls
      rw [if_neg]
      have : ls.length = count r (m + 1) := by
        refine lines_length (tan := tangent ca) (ca := ca) (r := r) (P := P) (m + 1) Z ls ?_
        rw [lines]; exact hls
      rw [this, count]
      split_ifs <;> omega

/-- The evaluation succeeds if there are enough lines. -/
theorem ppApplyLoop_total {V : Type*} (step : Abc F → V → V) (sq : V → V) (t : List (Abc F)) :
    ∀ (m i : ℕ) (v : V), i + count r m ≤ t.length → ∃ f, ppApplyLoop r step sq t m i v = some f
  | 0, i, v, h => by
    have hi : i < t.length := by simpa [count] using h
    exact ⟨_, by rw [ppApplyLoop, List.getElem?_eq_getElem hi]; rfl⟩
  | m + 1, i, v, h => by
    rw [count] at h
    rcases hb : r.testBit (m + 1) with _ | _
    · rw [hb, if_neg (by decide)] at h
      have hi : i < t.length := by omega
      obtain ⟨f, hf⟩ := ppApplyLoop_total step sq t m (i + 1) (sq (step t[i] v)) (by omega)
      exact ⟨f, by rw [ppApplyLoop, List.getElem?_eq_getElem hi]; dsimp only; rw [hb, if_neg (by decide), hf]⟩
    · rw [hb, if_pos rfl] at h
      have hm : 1 ≤ count r m := by cases m <;> simp [count]; split_ifs <;> omega
      have hi : i < t.length := by omega
      have hi' : i + 1 < t.length := by omega
      obtain ⟨f, hf⟩ := ppApplyLoop_total step sq t m (i + 2) (sq (step t[i + 1] (step t[i] v))) (by omega)
      exact ⟨f, by
        rw [ppApplyLoop, List.getElem?_eq_getElem hi]; dsimp only
        rw [hb, if_pos rfl, List.getElem?_eq_getElem hi']; exact hf⟩

/-- An invariant of the evaluation. -/
theorem ppApplyLoop_inv {V : Type*} {step : Abc F → V → V} {sq : V → V} {t : List (Abc F)}
    (I : V → Prop) (hstep : ∀ l ∈ t, ∀ v, I v → I (step l v)) (hsq : ∀ v, I v → I (sq v)) :
    ∀ (m i : ℕ) (v f : V), I v → ppApplyLoop r step sq t m i v = some f → I f
  | 0, i, v, f, hv, h => by
    rw [ppApplyLoop, Option.map_eq_some_iff] at h
    obtain ⟨l, hl, rfl⟩ := h
    exact hstep l (List.mem_of_getElem? hl) v hv
  | m + 1, i, v, f, hv, h => by
    rw [ppApplyLoop] at h
    rcases hl : t[i]? with _ | l
    · rw [hl] at h; simp at h
    · rw [hl] at h
      dsimp only at h
      have h1 := hstep l (List.mem_of_getElem? hl) v hv
      rcases hb : r.testBit (m + 1) with _ | _
      · rw [hb, if_neg (by decide)] at h
        exact ppApplyLoop_inv I hstep hsq m _ _ f (hsq _ h1) h
      · rw [hb, if_pos rfl] at h
        rcases hl' : t[i + 1]? with _ | l'
        · rw [hl'] at h; simp at h
        · rw [hl'] at h
          dsimp only at h
          exact ppApplyLoop_inv I hstep hsq m _ _ f
            (hsq _ (hstep l' (List.mem_of_getElem? hl') _ h1)) h

end lines

/-! ### The chain of multiples -/

section chain

variable {A : Type*} [AddCommGroup A]

/-- No step of the double-and-add chain of `r` meets an exceptional case. -/
def Chain (r : ℕ) (P : A) : Prop :=
  ∀ j, 1 ≤ j → 1 ≤ r >>> j → (2 * (r >>> j)) • P ≠ 0 ∧
    (2 ≤ j → r.testBit (j - 1) = true →
      (2 * (r >>> j)) • P ≠ P ∧ (2 * (r >>> j)) • P ≠ -P)

theorem chain_of_order {r : ℕ} {P : A} (h3 : 3 ≤ r) (hodd : Odd r) (hP : addOrderOf P = r) :
    Chain r P := by
  have hdvd : ∀ n : ℕ, 1 ≤ n → n < r → n • P ≠ 0 := fun n h1 h2 h => by
    have := Nat.le_of_dvd (by omega) (addOrderOf_dvd_of_nsmul_eq_zero h)
    omega
  intro j hj h1
  have hle : 2 * (r >>> j) < r := by
    have : r >>> j ≤ r >>> 1 := by
      rw [Nat.shiftRight_eq_div_pow, Nat.shiftRight_eq_div_pow]
      exact Nat.div_le_div_left (Nat.pow_le_pow_right (by norm_num) hj) (by norm_num)
    rw [Nat.shiftRight_one] at this
    obtain ⟨m, rfl⟩ := hodd
    omega
  refine ⟨hdvd _ (by omega) hle, fun hj2 _ => ⟨fun h => ?_, fun h => ?_⟩⟩
  · refine hdvd (2 * (r >>> j) - 1) (by omega) (by omega) ?_
    obtain ⟨m, hm⟩ : ∃ m, 2 * (r >>> j) = m + 1 := ⟨2 * (r >>> j) - 1, by omega⟩
    rw [hm, add_smul, one_smul, add_eq_right] at h
    rw [hm, Nat.add_sub_cancel]; exact h
  · have hlt : 2 * (r >>> j) + 1 < r := by
      have : r >>> j ≤ r >>> 2 := by
        rw [Nat.shiftRight_eq_div_pow, Nat.shiftRight_eq_div_pow]
        exact Nat.div_le_div_left (Nat.pow_le_pow_right (by norm_num) hj2) (by norm_num)
      rw [Nat.shiftRight_eq_div_pow r 2] at this
      obtain ⟨m, rfl⟩ := hodd
      omega
    refine hdvd (2 * (r >>> j) + 1) (by omega) hlt ?_
    rw [add_smul, one_smul, h, neg_add_cancel]

theorem shift_step (r m : ℕ) : r >>> (m + 1) = 2 * (r >>> (m + 1 + 1)) + (r.testBit (m + 1)).toNat := by
  rw [Nat.toNat_testBit, Nat.shiftRight_succ r (m + 1), Nat.shiftRight_eq_div_pow r (m + 1)]
  omega

theorem start_shift {r : ℕ} (h3 : 3 ≤ r) : r >>> (start r + 1) = 1 := by
  have h0 : r ≠ 0 := by omega
  have hs : Gen.bits r = Nat.size r := by rw [Gen.bits, if_neg h0]
  have hb : 2 ≤ Nat.size r := Nat.lt_size.2 (by omega)
  have e : start r + 1 = Nat.size r - 1 := by
    unfold start; dsimp only
    rw [hs]
    split_ifs <;> omega
  rw [e, Nat.shiftRight_eq_div_pow]
  have h1 : r < 2 ^ (Nat.size r - 1) * 2 := by
    rw [← pow_succ, Nat.sub_add_cancel (by omega)]; exact Nat.lt_size_self r
  have h2 : 2 ^ (Nat.size r - 1) ≤ r := by
    exact Nat.lt_size.1 (by omega)
  exact Nat.div_eq_of_lt_le (by simpa using h2) (by rw [mul_comm] at h1; simpa using h1)

theorem two_smul_ne {r : ℕ} {P : A} (hodd : Odd r) (hr : r • P = 0) {n : ℤ} (h : n • P ≠ 0) :
    2 • n • P ≠ 0 := by
  intro h2
  apply h
  obtain ⟨m, rfl⟩ := hodd
  have : (2 * m + 1) • n • P = 0 := by rw [smul_comm, hr, smul_zero]
  rwa [add_smul, one_smul, mul_comm, mul_smul, h2, smul_zero, zero_add] at this

end chain

/-! ### What the lines are -/

section spec

variable {F : Type*} [Field F] [DecidableEq F] {K : Type*} [Field K] [DecidableEq K] [Algebra F K]
  {L : Type*} [Field L] [Algebra K L] {a b : F}

local notation "φ" => algebraMap F K

theorem tangent_isLine (h2 : (2 : F) ≠ 0) {x y : F} (h : (EC a b).Nonsingular x y) (hy : y ≠ 0) :
    IsLine (φ a) (φ b) (φ (tangent a x y).a) (φ (tangent a x y).b) (φ (tangent a x y).c)
      (incl (.some x y h)) (incl (.some x y h)) := by
  refine isLine_dbl (two_up h2) _ (by simpa using hy) (c := 1) one_ne_zero ?_ ?_ ?_ <;>
    simp only [tangent, Int.cast_ofNat, map_neg, map_add, map_mul, map_pow, map_ofNat] <;> ring

theorem line_isLine {x₁ y₁ x₂ y₂ : F} (h₁ : (EC a b).Nonsingular x₁ y₁)
    (h₂ : (EC a b).Nonsingular x₂ y₂) (hx : x₁ ≠ x₂) :
    IsLine (φ a) (φ b) (φ (line x₁ y₁ x₂ y₂).a) (φ (line x₁ y₁ x₂ y₂).b) (φ (line x₁ y₁ x₂ y₂).c)
      (incl (.some x₁ y₁ h₁)) (incl (.some x₂ y₂ h₂)) := by
  refine isLine_ch _ _ (fun h => hx ((algebraMap F K).injective h)) (c := 1) one_ne_zero ?_ ?_ ?_ <;>
    simp only [line, map_neg, map_add, map_mul, map_sub] <;> ring

theorem copy_rep {V : Pt F} {R : (EC a b).Point} (h : PtRep V R) : PtRep (copy V) R :=
  (Curve.set_rep (m := fun i => if i = 0 then Curve.fresh else V) (a := 1) (by simpa using h) 0).1

variable {P : (EC a b).Point}

theorem incl_zsmul (h2 : (2 : F) ≠ 0) (n : ℕ) : incl (K := K) ((n : ℤ) • P) = (n : ℤ) • incl P := by
  rw [natCast_zsmul, natCast_zsmul, incl_nsmul h2]

/-- One doubling with its tangent. -/
theorem dbl_line (h2 : (2 : F) ≠ 0) {n : ℕ} {V : Pt F} (hn : (2 * n) • P ≠ 0)
    (hV : PtRep V ((n : ℤ) • P)) :
    IsLine (φ a) (φ b) (φ (tangent a V.x V.y).a) (φ (tangent a V.x V.y).b) (φ (tangent a V.x V.y).c)
      ((n : ℤ) • incl P) ((n : ℤ) • incl P) := by
  rw [mul_smul] at hn
  have h0 : (n : ℤ) • P ≠ 0 := fun h => hn (by rw [natCast_zsmul] at h; rw [h, smul_zero])
  obtain ⟨hns, hR, _⟩ := rep_some hV h0
  have hy := y_ne_of hns (by rw [← hR, natCast_zsmul]; exact hn)
  rw [← incl_zsmul h2, hR]
  exact tangent_isLine h2 hns hy

/-- One addition of `P` with its line. -/
theorem add_line (h2 : (2 : F) ≠ 0) {n : ℕ} {V p : Pt F} (hP : P ≠ 0) (hn : n • P ≠ 0) (h1 : n • P ≠ P)
    (h1' : n • P ≠ -P) (hV : PtRep V ((n : ℤ) • P)) (hp : PtRep p P) :
    IsLine (φ a) (φ b) (φ (line V.x V.y p.x p.y).a) (φ (line V.x V.y p.x p.y).b)
      (φ (line V.x V.y p.x p.y).c) ((n : ℤ) • incl P) (incl P) := by
  rw [← natCast_zsmul] at hn h1 h1'
  obtain ⟨hns, hR, _⟩ := rep_some hV hn
  obtain ⟨hns', hR', _⟩ := rep_some hp hP
  have hx := x_ne_of hns hns' (by rw [← hR, ← hR']; exact h1) (by rw [← hR, ← hR']; exact h1')
  have := line_isLine (K := K) hns hns' hx
  rwa [← hR, ← hR', incl_zsmul h2] at this

/-- A line through points none of which is of order two. -/
def GoodLine (K : Type*) [Field K] [DecidableEq K] [Algebra F K] (a b : F) (l : Abc F) : Prop :=
  ∃ A B : (EC (algebraMap F K a) (algebraMap F K b)).Point,
    IsLine (algebraMap F K a) (algebraMap F K b) (algebraMap F K l.a) (algebraMap F K l.b)
      (algebraMap F K l.c) A B ∧ 2 • A ≠ 0 ∧ 2 • B ≠ 0 ∧ 2 • (A + B) ≠ 0

theorem incl_ne (h : P ≠ 0) : incl (K := K) P ≠ 0 := fun h' => h (incl_eq_zero h')

theorem incl_torsion (h2 : (2 : F) ≠ 0) {r : ℕ} (hr : r • P = 0) : r • incl (K := K) P = 0 := by
  rw [← incl_nsmul h2, hr, incl_zero]

theorem good_dbl (h2 : (2 : F) ≠ 0) {r n : ℕ} (hodd : Odd r) (hr : r • P = 0) {V : Pt F}
    (hn : (2 * n) • P ≠ 0) (hV : PtRep V ((n : ℤ) • P)) : GoodLine K a b (tangent a V.x V.y) := by
  refine ⟨_, _, dbl_line h2 hn hV, ?_, ?_, ?_⟩
  · rw [natCast_zsmul, ← mul_smul, ← incl_nsmul h2]; exact incl_ne hn
  · rw [natCast_zsmul, ← mul_smul, ← incl_nsmul h2]; exact incl_ne hn
  · rw [← add_smul]
    refine two_smul_ne hodd (incl_torsion h2 hr) ?_
    rw [← Nat.cast_add, ← two_mul, ← incl_zsmul h2, natCast_zsmul]
    exact incl_ne hn

theorem good_add (h2 : (2 : F) ≠ 0) {r n : ℕ} (hodd : Odd r) (hr : r • P = 0) {V p : Pt F} (hP : P ≠ 0)
    (hn : n • P ≠ 0) (h1 : n • P ≠ P) (h1' : n • P ≠ -P) (hV : PtRep V ((n : ℤ) • P))
    (hp : PtRep p P) : GoodLine K a b (line V.x V.y p.x p.y) := by
  refine ⟨_, _, add_line h2 hP hn h1 h1' hV hp, ?_, ?_, ?_⟩
  · refine two_smul_ne hodd (incl_torsion h2 hr) ?_
    rw [← incl_zsmul h2, natCast_zsmul]; exact incl_ne hn
  · have := two_smul_ne hodd (incl_torsion (K := K) h2 hr) (n := 1) (by rw [one_smul]; exact incl_ne hP)
    rwa [one_smul] at this
  · have := two_smul_ne hodd (incl_torsion (K := K) h2 hr) (n := ((n + 1 : ℕ) : ℤ)) (by
      rw [← incl_zsmul h2, natCast_zsmul]
      refine incl_ne fun h => h1' ?_
      rw [add_smul, one_smul] at h
      exact eq_neg_of_add_eq_zero_left h)
    rwa [Nat.cast_add, Nat.cast_one, add_smul, one_smul] at this

theorem lines_spec {V : Type*} (h2 : (2 : F) ≠ 0) {r : ℕ} (hodd : Odd r) (hr : r • P = 0) (hP0 : P ≠ 0)
    (hc : Chain r P) {p : Pt F} (hp : PtRep p P) :
    ∀ (m : ℕ) (Z : Pt F) (Fm : Place L (φ a) (φ b) → L), 1 ≤ r >>> (m + 1) →
      PtRep Z (((r >>> (m + 1) : ℕ) : ℤ) • P) → Mil L (incl P) ((r >>> (m + 1) : ℕ) : ℤ) Fm →
      ∃ ls F', lines (tangent a) a r p m Z = some ls ∧ (∀ l ∈ ls, GoodLine K a b l) ∧
        Mil L (incl P) ((2 * (r >>> 1) : ℕ) : ℤ) F' ∧
        ∀ (Q : Place L (φ a) (φ b)) (val : V → L) (step : Abc F → V → V) (sq : V → V),
          (∀ l v, val (step l v) = val v * lval (φ l.a) (φ l.b) (φ l.c) Q) →
          (∀ v, val (sq v) = val v ^ 2) → ∀ (pre : List (Abc F)) (f : V), val f = Fm Q ^ 2 →
          ∃ f', ppApplyLoop r step sq (pre ++ ls) m pre.length f = some f' ∧ val f' = F' Q
  | 0, Z, Fm, h1, hZ, hF => by
    have hn := (hc 1 (le_refl 1) h1).1
    refine ⟨_, _, rfl, ?_, by exact_mod_cast hF.dbl (dbl_line h2 hn hZ), ?_⟩
    · intro l hl
      rw [List.mem_singleton] at hl
      subst hl
      exact good_dbl h2 hodd hr hn hZ
    · intro Q val step sq hstep hsq pre f hf
      refine ⟨_, by rw [ppApplyLoop, List.getElem?_concat_length]; rfl, ?_⟩
      rw [hstep, hf]
  | m + 1, Z, Fm, h1, hZ, hF => by
    have e2 : ((2 * (r >>> (m + 1 + 1)) : ℕ) : ℤ) = 2 * ((r >>> (m + 1 + 1) : ℕ) : ℤ) := by push_cast; ring
    obtain ⟨hn, hadd⟩ := hc (m + 1 + 1) (by omega) h1
    have hF1 := hF.dbl (dbl_line h2 hn hZ)
    have hg1 := good_dbl (K := K) h2 hodd hr hn hZ
    rw [← e2] at hF1
    obtain ⟨Z1, hd, hZ1⟩ := dbl_rep h2 hZ
    have hZ1' : PtRep Z1 (((2 * (r >>> (m + 1 + 1)) : ℕ) : ℤ) • P) := by
      rw [e2, mul_smul]; exact_mod_cast hZ1
    have hsh := shift_step r m
    rcases hb : r.testBit (m + 1) with _ | _
    · rw [hb, Bool.toNat_false, add_zero] at hsh
      rw [← hsh] at hZ1' hF1
      obtain ⟨ls, F', hls, hgl, hF', hrun⟩ := lines_spec (V := V) h2 hodd hr hP0 hc hp m Z1 _ (by omega) hZ1' hF1
      refine ⟨tangent a Z.x Z.y :: ls, F', ?_, ?_, hF', ?_⟩
      · rw [lines, hd]
        dsimp only
        rw [hb, if_neg (by decide), hls]; rfl
      · intro l hl
        rcases List.mem_cons.1 hl with rfl | hl
        · exact hg1
        · exact hgl l hl
      · intro Q val step sq hstep hsq pre f hf
        obtain ⟨f', e, hf'⟩ := hrun Q val step sq hstep hsq (pre ++ [tangent a Z.x Z.y])
          (sq (step (tangent a Z.x Z.y) f)) (by rw [hsq, hstep, hf])
        refine ⟨f', ?_, hf'⟩
        rw [ppApplyLoop, show (pre ++ tangent a Z.x Z.y :: ls)[pre.length]? = some (tangent a Z.x Z.y) by simp]
        dsimp only
        rw [hb, if_neg (by decide), ← e]
        simp
    · obtain ⟨ha1, ha2⟩ := hadd (by omega) (by simpa using hb)
      have hF2 := hF1.succ (add_line h2 hP0 hn ha1 ha2 hZ1' hp)
      have hg2 := good_add (K := K) h2 hodd hr hP0 hn ha1 ha2 hZ1' hp
      obtain ⟨Z2, ha, hZ2⟩ := add_rep h2 hZ1' hp
      rw [hb, Bool.toNat_true] at hsh
      have e3 : ((2 * (r >>> (m + 1 + 1)) : ℕ) : ℤ) + 1 = ((r >>> (m + 1) : ℕ) : ℤ) := by
        rw [hsh]; push_cast; ring
      rw [e3] at hF2
      have hZ2' : PtRep Z2 (((r >>> (m + 1) : ℕ) : ℤ) • P) := by
        rw [← e3, add_smul, one_smul]; exact hZ2
      obtain ⟨ls, F', hls, hgl, hF', hrun⟩ := lines_spec (V := V) h2 hodd hr hP0 hc hp m Z2 _ (by omega) hZ2' hF2
      refine ⟨tangent a Z.x Z.y :: line Z1.x Z1.y p.x p.y :: ls, F', ?_, ?_, hF', ?_⟩
      · rw [lines, hd]
        dsimp only
        rw [hb, if_pos rfl, ha]
        dsimp only
        rw [hls]; rfl
      · intro l hl
        rcases List.mem_cons.1 hl with rfl | hl
        · exact hg1
        rcases List.mem_cons.1 hl with rfl | hl
        · exact hg2
        · exact hgl l hl
      · intro Q val step sq hstep hsq pre f hf
        obtain ⟨f', e, hf'⟩ := hrun Q val step sq hstep hsq
          (pre ++ [tangent a Z.x Z.y, line Z1.x Z1.y p.x p.y])
          (sq (step (line Z1.x Z1.y p.x p.y) (step (tangent a Z.x Z.y) f))) (by
            rw [hsq, hstep, hstep, hf])
        refine ⟨f', ?_, hf'⟩
        rw [ppApplyLoop, show (pre ++ tangent a Z.x Z.y :: line Z1.x Z1.y p.x p.y :: ls)[pre.length]? =
          some (tangent a Z.x Z.y) by simp]
        dsimp only
        rw [hb, if_pos rfl, show (pre ++ tangent a Z.x Z.y :: line Z1.x Z1.y p.x p.y :: ls)[pre.length + 1]?
          = some (line Z1.x Z1.y p.x p.y) by
            rw [List.getElem?_append_right (by omega)]; simp]
        dsimp only
        rw [← e]
        simp

/-- The lines of a point of order dividing `r` make up a function with divisor `r (P) - r (O)`. -/
theorem miller_spec {V : Type*} (h2 : (2 : F) ≠ 0) {r : ℕ} (h3 : 3 ≤ r) (hodd : Odd r) (hr : r • P = 0)
    (hP0 : P ≠ 0) (hc : Chain r P) {p : Pt F} (hp : PtRep p P) :
    ∃ (ls : List (Abc F)) (Fm : Place L (φ a) (φ b) → L),
      lines (tangent a) a r p (start r) (copy p) = some ls ∧ (∀ l ∈ ls, GoodLine K a b l) ∧
      Full (incl P) r Fm ∧
      ∀ (Q : Place L (φ a) (φ b)) (val : V → L) (step : Abc F → V → V) (sq : V → V),
        (∀ l v, val (step l v) = val v * lval (φ l.a) (φ l.b) (φ l.c) Q) →
        (∀ v, val (sq v) = val v ^ 2) → ∀ f : V, val f = 1 →
        ∃ f', ppApplyLoop r step sq ls (start r) 0 f = some f' ∧ val f' = Fm Q := by
  have hs := start_shift h3
  obtain ⟨ls, Fm, hls, hgl, hF, hrun⟩ := lines_spec (V := V) (K := K) (L := L) h2 hodd hr hP0 hc hp (start r) (copy p)
    (fun _ => 1) (by rw [hs]) (by rw [hs]; simpa using copy_rep hp) (by rw [hs]; simpa using Mil.one)
  refine ⟨ls, Fm, hls, hgl, hF.full_pred (incl_torsion h2 hr) ?_, fun Q val step sq hstep hsq f hf => ?_⟩
  · obtain ⟨m, rfl⟩ := hodd
    rw [Nat.shiftRight_one]; omega
  · simpa using hrun Q val step sq hstep hsq [] f (by rw [hf, one_pow])

/-! ### Points of order two -/

/-- A line through points none of which has order two does not meet a point of order two. -/
theorem GoodLine.ne {l : Abc F} (h : GoodLine K a b l) {t : K} (ht : t ^ 3 + φ a * t + φ b = 0) :
    φ l.a * t + φ l.c ≠ 0 := by
  obtain ⟨A, B, hl, hA, hB, hAB⟩ := h
  rcases A with _ | ⟨x₁, y₁, h₁⟩
  · exact absurd hl (by simp [IsLine])
  rcases B with _ | ⟨x₂, y₂, h₂⟩
  · exact absurd hl (by simp [IsLine])
  obtain ⟨hxy, hβ, hα, hγ⟩ := hl
  have hy1 := y_ne_of h₁ hA
  have hy2 := y_ne_of h₂ hB
  rw [Point.add_some hxy] at hAB
  have hy3 := y_ne_of _ hAB
  have hpol := congrArg (Polynomial.eval t) (addPolynomial_slope h₁.left h₂.left hxy)
  set s := (EC (φ a) (φ b)).slope x₁ x₂ y₁ y₂ with hs
  intro h0
  rw [hα, hγ] at h0
  have hline : s * (t - x₁) + y₁ = 0 := by
    have : -φ l.b * (s * (t - x₁) + y₁) = 0 := by linear_combination h0
    rcases mul_eq_zero.1 this with h | h
    · exact absurd (neg_eq_zero.1 h) hβ
    · exact h
  rw [addPolynomial_eq] at hpol
  simp only [Polynomial.eval_neg, Polynomial.eval_mul, Polynomial.eval_sub, Polynomial.eval_X,
    Polynomial.eval_C, Cubic.toPoly, Polynomial.eval_add, Polynomial.eval_pow, EC, neg_inj] at hpol
  have hprod : (t - x₁) * (t - x₂) * (t - (EC (φ a) (φ b)).addX x₁ x₂ s) = 0 := by
    have e : (EC (φ a) (φ b)).addX x₁ x₂ s = s ^ 2 - x₁ - x₂ := by simp [EC, addX]
    simp only [addX] at hpol
    rw [e]
    linear_combination -hpol + ht - (s * (t - x₁) + y₁) * hline
  have key : ∀ {x y : K}, (EC (φ a) (φ b)).Nonsingular x y → y ≠ 0 → t - x ≠ 0 := by
    intro x y hn hy hx
    rw [sub_eq_zero] at hx
    have := eqn_of hn
    rw [← hx, ht] at this
    exact hy (by simpa using this)
  exact mul_ne_zero (mul_ne_zero (key h₁ hy1) (key h₂ hy2)) (key (nonsingular_add h₁ h₂ hxy) hy3) hprod

end spec

end Pbc.PairingD
