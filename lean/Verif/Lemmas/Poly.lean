import Verif.Model.Poly
import Mathlib.Tactic.Ring
import Mathlib.RingTheory.Coprime.Basic
import Mathlib.Tactic.LinearCombination

set_option linter.unusedSectionVars false

namespace Pbc.Poly

open Polynomial Spec

variable {R : Type*}

section ring

variable [CommRing R]

theorem toPoly_nil : toPoly ([] : List R) = 0 := rfl
theorem toPoly_cons (a : R) (l : List R) : toPoly (a :: l) = C a + X * toPoly l := rfl

theorem toPoly_coeff (l : List R) (i : ℕ) : (toPoly l).coeff i = l.getD i 0 := by
  induction l generalizing i with
  | nil => simp [toPoly_nil]
  | cons a l ih =>
    rw [toPoly_cons]
    cases i with
    | zero => simp
    | succ i =>
      rw [coeff_add, coeff_X_mul, ih, coeff_C]
      simp

theorem toPoly_eq_iff (l : List R) (p : R[X]) : toPoly l = p ↔ ∀ i, l.getD i 0 = p.coeff i := by
  rw [Polynomial.ext_iff]
  simp only [toPoly_coeff]

theorem getD_of_le (l : List R) {i : ℕ} (h : l.length ≤ i) : l.getD i 0 = 0 := by
  simp [List.getD, List.getElem?_eq_none h]

theorem list_ext {l l' : List R} (hl : l.length = l'.length)
    (h : ∀ i, i < l.length → l.getD i 0 = l'.getD i 0) : l = l' := by
  apply List.ext_getElem hl
  intro i h1 h2
  have := h i h1
  simpa [List.getD, List.getElem?_eq_getElem h1, List.getElem?_eq_getElem h2] using this

theorem normal_iff (l : List R) : Normal l ↔ l.length = 0 ∨ l.getD (l.length - 1) 0 ≠ 0 := by
  unfold Normal
  rcases l.eq_nil_or_concat with rfl | ⟨l', a, rfl⟩
  · simp
  · simp [List.getD]

theorem normal_nil : Normal ([] : List R) := by simp [Normal]

theorem length_le_of_toPoly_eq {l l' : List R} (hn : Normal l) (h : toPoly l = toPoly l') :
    l.length ≤ l'.length := by
  rcases (normal_iff l).mp hn with h0 | h0
  · omega
  · by_contra hlt
    apply h0
    rw [← toPoly_coeff, h, toPoly_coeff]
    exact getD_of_le _ (by omega)

theorem eq_of_toPoly_eq {l l' : List R} (hn : Normal l) (hn' : Normal l')
    (h : toPoly l = toPoly l') : l = l' := by
  apply list_ext (le_antisymm (length_le_of_toPoly_eq hn h) (length_le_of_toPoly_eq hn' h.symm))
  intro i _
  rw [← toPoly_coeff, h, toPoly_coeff]

theorem natDegree_lt (l : List R) (h : toPoly l ≠ 0) : (toPoly l).natDegree < l.length := by
  by_contra hlt
  have : (toPoly l).leadingCoeff = 0 := by
    rw [leadingCoeff, toPoly_coeff]
    exact getD_of_le _ (by omega)
  exact h (leadingCoeff_eq_zero.mp this)

theorem toPoly_eq_zero {l : List R} (hn : Normal l) : toPoly l = 0 ↔ l = [] := by
  constructor
  · intro h
    exact eq_of_toPoly_eq hn normal_nil h
  · rintro rfl
    rfl

theorem natDegree_eq {l : List R} (hn : Normal l) (h : l ≠ []) :
    (toPoly l).natDegree + 1 = l.length := by
  have hp : toPoly l ≠ 0 := fun h' => h ((toPoly_eq_zero hn).mp h')
  have h1 := natDegree_lt l hp
  rcases (normal_iff l).mp hn with h0 | h0
  · exact absurd (List.length_eq_zero_iff.mp h0) h
  · have : l.length - 1 ≤ (toPoly l).natDegree := by
      apply le_natDegree_of_ne_zero
      rwa [toPoly_coeff]
    omega

theorem natDegree_le (l : List R) : (toPoly l).natDegree ≤ l.length - 1 := by
  by_cases h : toPoly l = 0
  · simp [h]
  · have := natDegree_lt l h
    omega

theorem degree_lt (l : List R) : (toPoly l).degree < l.length := by
  rw [degree_lt_iff_coeff_zero]
  intro i hi
  rw [toPoly_coeff]
  exact getD_of_le _ hi

theorem degree_eq {l : List R} (hn : Normal l) :
    (toPoly l).degree = if l.length = 0 then ⊥ else ((l.length - 1 : ℕ) : WithBot ℕ) := by
  split
  next h => rw [(toPoly_eq_zero hn).mpr (List.length_eq_zero_iff.mp h), degree_zero]
  next h =>
    have h' : l ≠ [] := fun e => h (by simp [e])
    have := natDegree_eq hn h'
    rw [degree_eq_natDegree (fun e => h' ((toPoly_eq_zero hn).mp e))]
    congr 1
    omega

/-! ### Cells -/

theorem getD_set (l : List R) (i j : ℕ) (v : R) :
    (l.set i v).getD j 0 = if i = j ∧ j < l.length then v else l.getD j 0 := by
  simp only [List.getD, List.getElem?_set]
  by_cases h : i = j
  · subst h
    by_cases h2 : i < l.length
    · simp [h2]
    · simp [h2]
  · simp [h]

theorem resize_length (l : List R) (n : ℕ) : (resize l n).length = n := by
  simp only [resize, List.length_append, List.length_take, List.length_replicate]
  omega

theorem resize_getD (l : List R) (n i : ℕ) :
    (resize l n).getD i 0 = if i < n then l.getD i 0 else 0 := by
  by_cases hi : i < n
  · rw [if_pos hi]
    simp only [resize, List.getD]
    rw [List.getElem?_append]
    simp only [List.length_take]
    split
    next h => rw [List.getElem?_take_of_lt hi]
    next h =>
      rw [List.getElem?_eq_none (show l.length ≤ i by omega)]
      rw [List.getElem?_replicate]
      split <;> simp
  · rw [if_neg hi]
    exact getD_of_le _ (by rw [resize_length]; omega)

theorem rd_wr (m : Mem R) (d i e j : ℕ) (v : R) :
    rd (wr m d i v) e j = if e = d ∧ i = j ∧ j < (m d).length then v else rd m e j := by
  by_cases h : e = d
  · subst h
    simp only [rd, wr, Function.update_self, getD_set, true_and]
  · simp [rd, wr, Function.update_of_ne h, h]

theorem wr_length (m : Mem R) (d i e : ℕ) (v : R) : (wr m d i v e).length = (m e).length := by
  by_cases h : e = d
  · subst h
    simp [wr]
  · simp [wr, Function.update_of_ne h]

theorem wr_other (m : Mem R) {d i e : ℕ} (v : R) (h : e ≠ d) : wr m d i v e = m e := by
  simp [wr, Function.update_of_ne h]

theorem rd_alloc (m : Mem R) (d n e i : ℕ) :
    rd (alloc m d n) e i = if e = d ∧ n ≤ i then 0 else rd m e i := by
  by_cases h : e = d
  · subst h
    simp only [rd, alloc, Function.update_self, resize_getD, true_and]
    by_cases h2 : i < n
    · simp [h2, Nat.not_le.mpr h2]
    · simp [h2, Nat.not_lt.mp h2]
  · simp [rd, alloc, Function.update_of_ne h, h]

theorem alloc_length (m : Mem R) (d n e : ℕ) :
    (alloc m d n e).length = if e = d then n else (m e).length := by
  by_cases h : e = d
  · subst h
    simp [alloc, resize_length]
  · simp [alloc, Function.update_of_ne h, h]

theorem alloc_other (m : Mem R) {d n e : ℕ} (h : e ≠ d) : alloc m d n e = m e := by
  simp [alloc, Function.update_of_ne h]

/-- A loop whose step `i` writes cell `i` of `d` from cells with index `i`, and reads no other. -/
theorem forUp_spec (d : ℕ) (g : ℕ → Mem R → R)
    (hg : ∀ i (m m' : Mem R), (∀ e, rd m e i = rd m' e i) → g i m = g i m') (k s : ℕ) (m : Mem R) :
    (∀ e, e ≠ d → forUp (fun i m => wr m d i (g i m)) s k m e = m e)
    ∧ (forUp (fun i m => wr m d i (g i m)) s k m d).length = (m d).length
    ∧ ∀ j, rd (forUp (fun i m => wr m d i (g i m)) s k m) d j =
        if s ≤ j ∧ j < s + k ∧ j < (m d).length then g j m else rd m d j := by
  induction k generalizing s m with
  | zero =>
    refine ⟨fun _ _ => rfl, rfl, fun j => ?_⟩
    rw [if_neg (by omega)]
    rfl
  | succ k ih =>
    obtain ⟨h1, h2, h3⟩ := ih (s + 1) (wr m d s (g s m))
    simp only [forUp]
    refine ⟨fun e he => ?_, ?_, fun j => ?_⟩
    · rw [h1 e he, wr_other _ _ he]
    · rw [h2, wr_length]
    · rw [h3, wr_length]
      by_cases hj : j = s
      · subst hj
        rw [if_neg (by omega), rd_wr]
        by_cases hl : j < (m d).length
        · rw [if_pos ⟨rfl, rfl, hl⟩, if_pos (by omega)]
        · rw [if_neg (by omega), if_neg (by omega)]
      · have hgj : g j (wr m d s (g s m)) = g j m := by
          apply hg
          intro e
          rw [rd_wr, if_neg (by omega)]
        rw [hgj, rd_wr, if_neg (show ¬ (d = d ∧ s = j ∧ j < (m d).length) by omega)]
        by_cases hc : s + 1 ≤ j ∧ j < s + 1 + k ∧ j < (m d).length
        · rw [if_pos hc, if_pos (by omega)]
        · rw [if_neg hc, if_neg (by omega)]

variable [DecidableEq R]

/-! ### Normalisation -/

theorem stripLoop_spec (k : ℕ) (l : List R) (h : l.length = k) :
    toPoly (stripLoop k l) = toPoly l ∧ Normal (stripLoop k l) := by
  induction k generalizing l with
  | zero =>
    have : l = [] := List.length_eq_zero_iff.mp h
    subst this
    exact ⟨rfl, normal_nil⟩
  | succ k ih =>
    simp only [stripLoop]
    split
    next h0 =>
      refine ⟨rfl, ?_⟩
      rw [normal_iff]
      right
      rw [h]
      simpa using h0
    next h0 =>
      obtain ⟨h1, h2⟩ := ih l.dropLast (by simp [h])
      refine ⟨?_, h2⟩
      rw [h1]
      rw [toPoly_eq_iff]
      intro i
      rw [toPoly_coeff]
      rcases lt_trichotomy i k with hi | hi | hi
      · simp only [List.getD, List.getElem?_dropLast, h]
        rw [if_pos (by omega)]
      · subst hi
        rw [getD_of_le _ (by simp [h])]
        push Not at h0
        exact h0.symm
      · rw [getD_of_le _ (by simp [h]; omega), getD_of_le _ (by omega)]

theorem strip_toPoly (l : List R) : toPoly (strip l) = toPoly l := (stripLoop_spec _ l rfl).1
theorem strip_normal (l : List R) : Normal (strip l) := (stripLoop_spec _ l rfl).2

theorem strip_of_normal {l : List R} (h : Normal l) : strip l = l :=
  eq_of_toPoly_eq (strip_normal l) h (strip_toPoly l)

theorem stripE_self (m : Mem R) (e : ℕ) : stripE m e e = strip (m e) := by simp [stripE]
theorem stripE_other (m : Mem R) {e x : ℕ} (h : x ≠ e) : stripE m e x = m x := by
  simp [stripE, Function.update_of_ne h]

/-! ### Operations -/

/-- What an operation does to the store: it writes `v` at `d`. -/
def Writes (m m' : Mem R) (d : ℕ) (v : R[X]) : Prop :=
  toPoly (m' d) = v ∧ ∀ e, e ≠ d → m' e = m e

theorem set0_spec (m : Mem R) (d : ℕ) : Writes m (set0 m d) d 0 ∧ Normal (set0 m d d) := by
  have : set0 m d d = [] := List.length_eq_zero_iff.mp (by simp [set0, alloc_length])
  refine ⟨⟨by rw [this]; rfl, fun e he => alloc_other _ he⟩, ?_⟩
  rw [this]
  exact normal_nil

theorem const_get (m : Mem R) (d : ℕ) (v : R) : wr (alloc m d 1) d 0 v d = [v] := by
  apply list_ext
  · simp [wr_length, alloc_length]
  · intro i hi
    have := rd_wr (alloc m d 1) d 0 d i v
    rw [rd] at this
    rw [this, alloc_length]
    rw [wr_length, alloc_length] at hi
    simp only [if_true] at hi ⊢
    have : i = 0 := by omega
    subst this
    simp

theorem set1_spec [Nontrivial R] (m : Mem R) (d : ℕ) :
    Writes m (set1 m d) d 1 ∧ Normal (set1 m d d) := by
  have : set1 m d d = [1] := const_get m d 1
  refine ⟨⟨by rw [this]; simp [toPoly_cons, toPoly_nil], fun e he => ?_⟩, ?_⟩
  · simp only [set1]
    rw [wr_other _ _ he, alloc_other _ he]
  · rw [this]
    simp [Normal]

theorem setZ_spec (m : Mem R) (d : ℕ) (z : ℤ) :
    Writes m (setZ m d z) d (z : R[X]) ∧ Normal (setZ m d z d) := by
  have : setZ m d z d = strip [(z : R)] := by
    simp only [setZ]
    rw [stripE_self, const_get]
  refine ⟨⟨?_, fun e he => ?_⟩, ?_⟩
  · rw [this, strip_toPoly]
    simp [toPoly_cons, toPoly_nil]
  · simp only [setZ]
    rw [stripE_other _ he, wr_other _ _ he, alloc_other _ he]
  · rw [this]
    exact strip_normal _

theorem mapLoop_get (op : R → R) (m : Mem R) (f g : ℕ) :
    mapLoop op m f g f = (m g).map op ∧ ∀ e, e ≠ f → mapLoop op m f g e = m e := by
  obtain ⟨h1, h2, h3⟩ := forUp_spec f (fun i m => op (rd m g i))
    (fun i m m' h => by simp only [h]) (m g).length 0 (alloc m f (m g).length)
  refine ⟨?_, fun e he => ?_⟩
  · apply list_ext
    · simp only [mapLoop]
      rw [h2, alloc_length]
      simp
    · intro i hi
      have hi' : i < (m g).length := by
        simp only [mapLoop] at hi
        rw [h2, alloc_length] at hi
        simpa using hi
      have := h3 i
      rw [rd] at this
      simp only [mapLoop]
      rw [this, alloc_length, if_pos (by simp; omega)]
      rw [rd_alloc, if_neg (by omega), rd]
      simp [List.getD, List.getElem?_map, List.getElem?_eq_getElem hi']
  · simp only [mapLoop]
    rw [h1 e he, alloc_other _ he]

theorem map_getD (op : R → R) (h0 : op 0 = 0) (l : List R) (i : ℕ) :
    (l.map op).getD i 0 = op (l.getD i 0) := by
  simp only [List.getD, List.getElem?_map]
  cases l[i]? <;> simp [h0]

theorem map_normal (op : R → R) (h0 : op 0 = 0) (hop : ∀ x, op x = 0 → x = 0) {l : List R}
    (h : Normal l) : Normal (l.map op) := by
  rw [normal_iff] at h ⊢
  rcases h with h | h
  · left; simpa using h
  · right
    rw [List.length_map, map_getD op h0]
    exact fun e => h (hop _ e)

theorem neg_spec (m : Mem R) (f g : ℕ) :
    Writes m (neg m f g) f (- toPoly (m g)) ∧ (Normal (m g) → Normal (neg m f g f)) := by
  obtain ⟨h1, h2⟩ := mapLoop_get (fun x : R => -x) m f g
  refine ⟨⟨?_, h2⟩, fun hn => ?_⟩
  · rw [neg, h1, toPoly_eq_iff]
    intro i
    rw [map_getD _ (by simp), coeff_neg, toPoly_coeff]
  · rw [neg, h1]
    exact map_normal _ (by simp) (fun x hx => by simpa using hx) hn

theorem double_spec (m : Mem R) (f g : ℕ) :
    Writes m (double m f g) f (2 * toPoly (m g))
    ∧ ((∀ x : R, 2 * x = 0 → x = 0) → Normal (m g) → Normal (double m f g f)) := by
  obtain ⟨h1, h2⟩ := mapLoop_get (fun x : R => 2 * x) m f g
  refine ⟨⟨?_, h2⟩, fun h hn => ?_⟩
  · rw [double, h1, toPoly_eq_iff]
    intro i
    rw [map_getD _ (by simp), two_mul, two_mul, coeff_add, toPoly_coeff]
  · rw [double, h1]
    exact map_normal _ (by simp) h hn

theorem mulZ_spec (m : Mem R) (f g : ℕ) (z : ℤ) :
    Writes m (mulZ m f g z) f (toPoly (m g) * (z : R[X]))
    ∧ ((∀ x : R, x * (z : R) = 0 → x = 0) → Normal (m g) → Normal (mulZ m f g z f)) := by
  obtain ⟨h1, h2⟩ := mapLoop_get (fun x : R => x * (z : R)) m f g
  refine ⟨⟨?_, h2⟩, fun h hn => ?_⟩
  · rw [mulZ, h1, toPoly_eq_iff]
    intro i
    rw [map_getD _ (by simp), ← map_intCast (C : R →+* R[X]), coeff_mul_C, toPoly_coeff]
  · rw [mulZ, h1]
    exact map_normal _ (by simp) h hn

theorem constMul_get (m : Mem R) (d : ℕ) (r : R) (g : ℕ) :
    constMul m d r g d = strip ((m g).map (fun x => r * x)) := by
  rw [constMul, stripE_self, (mapLoop_get (fun x : R => r * x) m d g).1]

theorem constMul_toPoly (r : R) (l : List R) :
    toPoly (l.map (fun x => r * x)) = C r * toPoly l := by
  rw [toPoly_eq_iff]
  intro i
  rw [map_getD _ (by simp), coeff_C_mul, toPoly_coeff]

theorem constMul_spec (m : Mem R) (d : ℕ) (r : R) (g : ℕ) :
    Writes m (constMul m d r g) d (C r * toPoly (m g)) ∧ Normal (constMul m d r g d) := by
  refine ⟨⟨?_, fun e he => ?_⟩, ?_⟩
  · rw [constMul_get, strip_toPoly, constMul_toPoly]
  · rw [constMul, stripE_other _ he, (mapLoop_get (fun x : R => r * x) m d g).2 e he]
  · rw [constMul_get]
    exact strip_normal _

theorem set_get (m : Mem R) (d a : ℕ) : set m d a d = m a ∧ ∀ e, e ≠ d → set m d a e = m e := by
  obtain ⟨h1, h2⟩ := mapLoop_get (fun x : R => x) m d a
  refine ⟨?_, h2⟩
  rw [show set m d a d = mapLoop (fun x : R => x) m d a d from rfl, h1]
  simp

theorem add_get (m : Mem R) (d f g : ℕ) :
    (∀ i, (add m d f g d).getD i 0 = (m f).getD i 0 + (m g).getD i 0)
    ∧ Normal (add m d f g d) ∧ ∀ e, e ≠ d → add m d f g e = m e := by
  simp only [add]
  generalize hbig : (if (m f).length > (m g).length then f else g) = big
  generalize hlo : (if (m f).length > (m g).length then (m g).length else (m f).length) = lo
  generalize hhi : (if (m f).length > (m g).length then (m f).length else (m g).length) = hi
  have hlh : lo ≤ hi := by subst hlo hhi; split <;> omega
  obtain ⟨a1, a2, a3⟩ := forUp_spec d (fun i m => rd m f i + rd m g i)
    (fun i m m' h => by simp only [h]) lo 0 (alloc m d hi)
  set m1 := forUp (fun i m => wr m d i (rd m f i + rd m g i)) 0 lo (alloc m d hi) with hm1
  obtain ⟨b1, b2, b3⟩ := forUp_spec d (fun i m => rd m big i)
    (fun i m m' h => by simp only [h]) (hi - lo) lo m1
  set m2 := forUp (fun i m => wr m d i (rd m big i)) lo (hi - lo) m1 with hm2
  have l1 : (m1 d).length = hi := by rw [a2, alloc_length]; simp
  refine ⟨fun i => ?_, ?_, fun e he => ?_⟩
  · rw [stripE_self, ← toPoly_coeff, strip_toPoly, toPoly_coeff]
    have hb := b3 i
    rw [l1] at hb
    rw [show (m2 d).getD i 0 = rd m2 d i from rfl, hb]
    have ha : ∀ e, rd m1 e i = if e = d ∧ i < lo then (m f).getD i 0 + (m g).getD i 0
        else if e = d ∧ hi ≤ i then 0 else (m e).getD i 0 := by
      intro e
      by_cases he : e = d
      · subst he
        rw [a3, alloc_length]
        simp only [zero_le, true_and, zero_add, if_true]
        by_cases hi1 : i < lo
        · rw [if_pos ⟨hi1, by omega⟩, if_pos hi1, rd_alloc, rd_alloc, if_neg (by omega),
            if_neg (by omega)]
          rfl
        · rw [if_neg (by omega), if_neg hi1, rd_alloc]
          simp only [true_and]
          rfl
      · rw [rd, a1 e he, alloc_other _ he]
        simp [he]
    by_cases hi1 : i < lo
    · rw [if_neg (by omega), ha, if_pos ⟨rfl, hi1⟩]
    · by_cases hi2 : i < hi
      · rw [if_pos (by omega), ha, if_neg (by omega), if_neg (by omega)]
        by_cases hc : (m f).length > (m g).length
        · rw [if_pos hc] at hbig hlo hhi
          subst hbig hlo
          rw [getD_of_le (m g) (by omega), add_zero]
        · rw [if_neg hc] at hbig hlo hhi
          subst hbig hlo
          rw [getD_of_le (m f) (by omega), zero_add]
      · rw [if_neg (by omega), ha, if_neg (by omega), if_pos ⟨rfl, by omega⟩]
        have : (m f).length ≤ i ∧ (m g).length ≤ i := by
          subst hhi
          split at hi2 <;> omega
        rw [getD_of_le _ this.1, getD_of_le _ this.2, add_zero]
  · rw [stripE_self]
    exact strip_normal _
  · rw [stripE_other _ he, b1 e he, a1 e he, alloc_other _ he]

theorem add_spec (m : Mem R) (d f g : ℕ) :
    Writes m (add m d f g) d (toPoly (m f) + toPoly (m g)) ∧ Normal (add m d f g d) := by
  obtain ⟨h1, h2, h3⟩ := add_get m d f g
  refine ⟨⟨?_, h3⟩, h2⟩
  rw [toPoly_eq_iff]
  intro i
  rw [h1, coeff_add, toPoly_coeff, toPoly_coeff]

theorem sub_get (m : Mem R) (d f g : ℕ) :
    (∀ i, (sub m d f g d).getD i 0 = (m f).getD i 0 - (m g).getD i 0)
    ∧ Normal (sub m d f g d) ∧ ∀ e, e ≠ d → sub m d f g e = m e := by
  simp only [sub]
  generalize hbig : (if (m f).length > (m g).length then f else g) = big
  generalize hlo : (if (m f).length > (m g).length then (m g).length else (m f).length) = lo
  generalize hhi : (if (m f).length > (m g).length then (m f).length else (m g).length) = hi
  have hlh : lo ≤ hi := by subst hlo hhi; split <;> omega
  obtain ⟨a1, a2, a3⟩ := forUp_spec d (fun i m => rd m f i - rd m g i)
    (fun i m m' h => by simp only [h]) lo 0 (alloc m d hi)
  set m1 := forUp (fun i m => wr m d i (rd m f i - rd m g i)) 0 lo (alloc m d hi) with hm1
  obtain ⟨b1, b2, b3⟩ := forUp_spec d (fun i m => if big = f then rd m big i else - rd m big i)
    (fun i m m' h => by simp only [h]) (hi - lo) lo m1
  have hfun : (fun (i : ℕ) (m : Mem R) =>
      if big = f then wr m d i (rd m big i) else wr m d i (- rd m big i))
      = fun i m => wr m d i (if big = f then rd m big i else - rd m big i) := by
    funext i m
    split <;> rfl
  rw [hfun]
  set m2 := forUp (fun i m => wr m d i (if big = f then rd m big i else - rd m big i)) lo
    (hi - lo) m1 with hm2
  have l1 : (m1 d).length = hi := by rw [a2, alloc_length]; simp
  refine ⟨fun i => ?_, ?_, fun e he => ?_⟩
  · rw [stripE_self, ← toPoly_coeff, strip_toPoly, toPoly_coeff]
    have hb := b3 i
    rw [l1] at hb
    rw [show (m2 d).getD i 0 = rd m2 d i from rfl, hb]
    have ha : ∀ e, rd m1 e i = if e = d ∧ i < lo then (m f).getD i 0 - (m g).getD i 0
        else if e = d ∧ hi ≤ i then 0 else (m e).getD i 0 := by
      intro e
      by_cases he : e = d
      · subst he
        rw [a3, alloc_length]
        simp only [zero_le, true_and, zero_add, if_true]
        by_cases hi1 : i < lo
        · rw [if_pos ⟨hi1, by omega⟩, if_pos hi1, rd_alloc, rd_alloc, if_neg (by omega),
            if_neg (by omega)]
          rfl
        · rw [if_neg (by omega), if_neg hi1, rd_alloc]
          simp only [true_and]
          rfl
      · rw [rd, a1 e he, alloc_other _ he]
        simp [he]
    by_cases hi1 : i < lo
    · rw [if_neg (by omega), ha, if_pos ⟨rfl, hi1⟩]
    · by_cases hi2 : i < hi
      · rw [if_pos (by omega), ha, if_neg (show ¬ (big = d ∧ i < lo) by omega),
          if_neg (show ¬ (big = d ∧ hi ≤ i) by omega)]
        by_cases hc : (m f).length > (m g).length
        · rw [if_pos hc] at hbig hlo hhi
          subst hbig hlo
          rw [getD_of_le (m g) (by omega), sub_zero, if_pos rfl]
        · rw [if_neg hc] at hbig hlo hhi
          subst hbig hlo
          have hne : g ≠ f := by
            rintro rfl
            omega
          rw [getD_of_le (m f) (by omega), zero_sub, if_neg hne]
      · rw [if_neg (by omega), ha, if_neg (by omega), if_pos ⟨rfl, by omega⟩]
        have : (m f).length ≤ i ∧ (m g).length ≤ i := by
          subst hhi
          split at hi2 <;> omega
        rw [getD_of_le _ this.1, getD_of_le _ this.2, sub_zero]
  · rw [stripE_self]
    exact strip_normal _
  · rw [stripE_other _ he, b1 e he, a1 e he, alloc_other _ he]

theorem sub_spec (m : Mem R) (d f g : ℕ) :
    Writes m (sub m d f g) d (toPoly (m f) - toPoly (m g)) ∧ Normal (sub m d f g d) := by
  obtain ⟨h1, h2, h3⟩ := sub_get m d f g
  refine ⟨⟨?_, h3⟩, h2⟩
  rw [toPoly_eq_iff]
  intro i
  rw [h1, coeff_sub, toPoly_coeff, toPoly_coeff]

theorem forUp_sum (t : ℕ → R) (k s : ℕ) (x : R) :
    forUp (fun j x => x + t j) s k x = x + ∑ j ∈ Finset.range k, t (s + j) := by
  induction k generalizing s x with
  | zero => simp [forUp]
  | succ k ih =>
    simp only [forUp]
    rw [ih, Finset.sum_range_succ']
    simp only [add_zero, ← add_assoc, add_right_comm s 1, add_right_comm _ (t s)]

theorem mulCoeff_eq (f g : List R) (i : ℕ) : mulCoeff f g i = (toPoly f * toPoly g).coeff i := by
  have hfun : (fun (j : ℕ) (x : R) =>
      if j < f.length ∧ i - j < g.length then x + f.getD j 0 * g.getD (i - j) 0 else x)
      = fun j x => x + f.getD j 0 * g.getD (i - j) 0 := by
    funext j x
    split
    next h => rfl
    next h =>
      rcases Nat.lt_or_ge j f.length with h1 | h1
      · rw [getD_of_le g (by omega), mul_zero, add_zero]
      · rw [getD_of_le f h1, zero_mul, add_zero]
  rw [mulCoeff, hfun, forUp_sum (fun j => f.getD j 0 * g.getD (i - j) 0), zero_add, coeff_mul,
    Finset.Nat.sum_antidiagonal_eq_sum_range_succ_mk]
  simp only [toPoly_coeff, zero_add]

theorem mulV_spec (f g : List R) :
    toPoly (mulV f g) = toPoly f * toPoly g ∧ Normal (mulV f g) := by
  unfold mulV
  split
  next h =>
    refine ⟨?_, normal_nil⟩
    rcases h with h | h
    · rw [List.length_eq_zero_iff.mp h]; simp [toPoly_nil]
    · rw [List.length_eq_zero_iff.mp h]; simp [toPoly_nil]
  next h =>
    refine ⟨?_, strip_normal _⟩
    rw [strip_toPoly, toPoly_eq_iff]
    intro i
    rcases Nat.lt_or_ge i (f.length + g.length - 1) with hi | hi
    · simp only [List.getD, List.getElem?_map, List.getElem?_range hi]
      exact mulCoeff_eq f g i
    · rw [getD_of_le _ (by simpa using hi), ← mulCoeff_eq]
      rw [mulCoeff_eq, coeff_mul]
      symm
      apply Finset.sum_eq_zero
      intro x hx
      rw [Finset.mem_antidiagonal] at hx
      rw [toPoly_coeff, toPoly_coeff]
      rcases Nat.lt_or_ge x.1 f.length with h1 | h1
      · rw [getD_of_le g (by omega), mul_zero]
      · rw [getD_of_le f h1, zero_mul]

theorem mul_spec (m : Mem R) (d f g : ℕ) :
    Writes m (mul m d f g) d (toPoly (m f) * toPoly (m g)) ∧ Normal (mul m d f g d) := by
  obtain ⟨h1, h2⟩ := mulV_spec (m f) (m g)
  refine ⟨⟨by simpa [mul] using h1, fun e he => by simp [mul, Function.update_of_ne he]⟩, ?_⟩
  simpa [mul] using h2

theorem setx_eq (l : List R) : setx l = [0, 1] := by
  apply list_ext
  · simp [setx, resize_length]
  · intro i hi
    have hi' : i < 2 := by simpa [setx, resize_length] using hi
    simp only [setx]
    rw [getD_set, getD_set, List.length_set, resize_length]
    have : i = 0 ∨ i = 1 := by omega
    rcases this with rfl | rfl <;> simp

theorem setCoeff_core (l : List R) (a : R) (n : ℕ) (hn : l.length ≤ n ∨ n < l.length) :
    toPoly ((if l.length < n + 1 then resize l (n + 1) else l).set n a)
      = toPoly l + C (a - (toPoly l).coeff n) * X ^ n := by
  rw [toPoly_eq_iff]
  intro i
  rw [getD_set, coeff_add, coeff_C_mul_X_pow, toPoly_coeff, toPoly_coeff]
  by_cases h : l.length < n + 1
  · rw [if_pos h, resize_length, resize_getD]
    by_cases hi : n = i
    · subst hi
      rw [if_pos ⟨rfl, by omega⟩, if_pos rfl]
      ring
    · rw [if_neg (show ¬ (n = i ∧ i < n + 1) by omega), if_neg (show ¬ i = n by omega), add_zero]
      split
      next => rfl
      next h2 => exact (getD_of_le l (by omega)).symm
  · rw [if_neg h]
    by_cases hi : n = i
    · subst hi
      rw [if_pos ⟨rfl, by omega⟩, if_pos rfl]
      ring
    · rw [if_neg (by omega), if_neg (by omega), add_zero]

theorem setCoeff_length (l : List R) (a : R) (n : ℕ) :
    ((if l.length < n + 1 then resize l (n + 1) else l).set n a).length = max l.length (n + 1) := by
  rw [List.length_set]
  split
  · rw [resize_length]; omega
  · omega

theorem setCoeff_normal_core (l : List R) (a : R) (n : ℕ) (hl : Normal l)
    (h : ¬ (max l.length (n + 1) = n + 1 ∧ a = 0)) :
    Normal ((if l.length < n + 1 then resize l (n + 1) else l).set n a) := by
  rw [normal_iff, setCoeff_length]
  right
  rw [← toPoly_coeff, setCoeff_core l a n (by omega), coeff_add, coeff_C_mul_X_pow]
  by_cases hm : max l.length (n + 1) = n + 1
  · rw [hm, Nat.add_sub_cancel, if_pos rfl]
    have : a ≠ 0 := fun e => h ⟨hm, e⟩
    simpa using this
  · rw [if_neg (by omega), add_zero, toPoly_coeff]
    rcases (normal_iff l).mp hl with h0 | h0
    · omega
    · rwa [show max l.length (n + 1) = l.length by omega]

theorem setCoeff_spec (l : List R) (a : R) (n : ℕ) :
    toPoly (setCoeff l a n) = toPoly l + C (a - (toPoly l).coeff n) * X ^ n
    ∧ (Normal l → Normal (setCoeff l a n)) := by
  simp only [setCoeff]
  rw [setCoeff_length]
  split
  next h =>
    exact ⟨by rw [strip_toPoly, setCoeff_core l a n (by omega)], fun _ => strip_normal _⟩
  next h =>
    exact ⟨setCoeff_core l a n (by omega), fun hl => setCoeff_normal_core l a n hl h⟩

theorem setCoeff1_spec [Nontrivial R] (l : List R) (n : ℕ) :
    toPoly (setCoeff1 l n) = toPoly l + C (1 - (toPoly l).coeff n) * X ^ n
    ∧ (Normal l → Normal (setCoeff1 l n)) := by
  simp only [setCoeff1]
  exact ⟨setCoeff_core l 1 n (by omega),
    fun hl => setCoeff_normal_core l 1 n hl (fun e => one_ne_zero e.2)⟩

theorem setCoeff0_spec (l : List R) (n : ℕ) :
    toPoly (setCoeff0 l n) = toPoly l - C ((toPoly l).coeff n) * X ^ n
    ∧ (Normal l → Normal (setCoeff0 l n)) := by
  unfold setCoeff0
  split
  next h =>
    have core := setCoeff_core l 0 n (by omega)
    rw [if_neg (by omega), zero_sub, C_neg, neg_mul, ← sub_eq_add_neg] at core
    dsimp only
    split
    next h2 => exact ⟨by rw [strip_toPoly, core], fun _ => strip_normal _⟩
    next h2 =>
      refine ⟨core, fun hl => ?_⟩
      have := setCoeff_normal_core l 0 n hl (by simp at h2; omega)
      rwa [if_neg (by omega)] at this
  next h =>
    refine ⟨?_, fun hl => hl⟩
    rw [toPoly_coeff, getD_of_le l (by omega)]
    simp

/-- Every call does to the store what it should. -/
theorem exec_rep [Nontrivial R] (o : PolyOp R) (ho : o.ok) (m : Mem R) (s : ℕ → R[X])
    (h : PolyRep m s) : PolyRep (exec m o) (o.step s) := by
  have key : ∀ (d : ℕ) (m' : Mem R) (v : R[X]), Writes m m' d v → Normal (m' d) →
      PolyRep m' (Function.update s d v) := by
    intro d m' v hw hn e
    by_cases he : e = d
    · subst he
      rw [Function.update_self]
      exact ⟨hw.1, hn⟩
    · rw [Function.update_of_ne he, hw.2 e he]
      exact h e
  have key2 : ∀ (d : ℕ) (l : List R) (v : R[X]), toPoly l = v → Normal l →
      PolyRep (Function.update m d l) (Function.update s d v) := by
    intro d l v h1 h2
    apply key d _ v ⟨by simpa using h1, fun e he => Function.update_of_ne he _ _⟩
    simpa using h2
  cases o with
  | setZ c z => exact key _ _ _ (setZ_spec m c z).1 (setZ_spec m c z).2
  | set0 c => exact key _ _ _ (set0_spec m c).1 (set0_spec m c).2
  | set1 c => exact key _ _ _ (set1_spec m c).1 (set1_spec m c).2
  | setX c =>
    refine key2 _ _ _ ?_ ?_
    · rw [setx_eq]
      simp [toPoly_cons, toPoly_nil, PolyOp.value]
    · rw [setx_eq]
      simp [Normal]
  | set c a =>
    obtain ⟨h1, h2⟩ := set_get m c a
    have h3 : Writes m (set m c a) c (s a) := ⟨by rw [h1]; exact (h a).1, h2⟩
    have h4 : Normal (set m c a c) := by rw [h1]; exact (h a).2
    exact key _ _ _ h3 h4
  | add c a b =>
    have := add_spec m c a b
    rw [(h a).1, (h b).1] at this
    exact key _ _ _ this.1 this.2
  | sub c a b =>
    have := sub_spec m c a b
    rw [(h a).1, (h b).1] at this
    exact key _ _ _ this.1 this.2
  | neg c a =>
    have := neg_spec m c a
    rw [(h a).1] at this
    exact key _ _ _ this.1 (this.2 (h a).2)
  | double c a =>
    have := double_spec m c a
    rw [(h a).1] at this
    exact key _ _ _ this.1 (this.2 ho (h a).2)
  | mul c a b =>
    have := mul_spec m c a b
    rw [(h a).1, (h b).1] at this
    exact key _ _ _ this.1 this.2
  | square c a =>
    have := mul_spec m c a a
    rw [(h a).1, ← sq] at this
    exact key _ _ _ this.1 this.2
  | mulZ c a z =>
    have := mulZ_spec m c a z
    rw [(h a).1] at this
    exact key _ _ _ this.1 (this.2 ho (h a).2)
  | constMul c r a =>
    have := constMul_spec m c r a
    rw [(h a).1] at this
    exact key _ _ _ this.1 this.2
  | setCoeff c r n =>
    have := setCoeff_spec (m c) r n
    rw [(h c).1] at this
    exact key2 _ _ _ this.1 (this.2 (h c).2)
  | setCoeff0 c n =>
    have := setCoeff0_spec (m c) n
    rw [(h c).1] at this
    exact key2 _ _ _ this.1 (this.2 (h c).2)
  | setCoeff1 c n =>
    have := setCoeff1_spec (m c) n
    rw [(h c).1] at this
    exact key2 _ _ _ this.1 (this.2 (h c).2)

end ring

section division

variable {K : Type*} [Field K] [DecidableEq K]

open Pbc.Quad (inv?)

theorem divInner_get (b : List K) (qe : K) (k c s : ℕ) (r : List K) :
    (forUp (fun i r => r.set (i + k) (r.getD (i + k) 0 - qe * b.getD i 0)) s c r).length = r.length
    ∧ ∀ j, (forUp (fun i r => r.set (i + k) (r.getD (i + k) 0 - qe * b.getD i 0)) s c r).getD j 0
      = if s + k ≤ j ∧ j < s + c + k ∧ j < r.length then r.getD j 0 - qe * b.getD (j - k) 0
        else r.getD j 0 := by
  induction c generalizing s r with
  | zero =>
    refine ⟨rfl, fun j => ?_⟩
    rw [if_neg (by omega)]
    rfl
  | succ c ih =>
    obtain ⟨h1, h2⟩ := ih (s + 1) (r.set (s + k) (r.getD (s + k) 0 - qe * b.getD s 0))
    simp only [forUp]
    refine ⟨by rw [h1, List.length_set], fun j => ?_⟩
    rw [h2, List.length_set, getD_set]
    by_cases hj : j = s + k
    · subst hj
      rw [if_neg (by omega)]
      by_cases hl : s + k < r.length
      · rw [if_pos ⟨rfl, hl⟩, if_pos (by omega), Nat.add_sub_cancel]
      · rw [if_neg (by omega), if_neg (by omega)]
    · rw [if_neg (show ¬ (s + k = j ∧ j < r.length) by omega)]
      by_cases hc : s + 1 + k ≤ j ∧ j < s + 1 + c + k ∧ j < r.length
      · rw [if_pos hc, if_pos (by omega)]
      · rw [if_neg hc, if_neg (by omega)]

theorem divInner_toPoly (b : List K) (qe : K) (k n : ℕ) (r : List K) (hb : b.length = n + 1)
    (hr : n + k < r.length) :
    toPoly (divInner b qe k n r) = toPoly r - C qe * X ^ k * toPoly b := by
  rw [toPoly_eq_iff]
  intro j
  rw [divInner, (divInner_get b qe k (n + 1) 0 r).2 j, coeff_sub, mul_assoc, coeff_C_mul,
    coeff_X_pow_mul', toPoly_coeff, toPoly_coeff]
  by_cases h1 : k ≤ j
  · rw [if_pos h1]
    by_cases h2 : j < n + 1 + k
    · rw [if_pos (by omega)]
    · rw [if_neg (by omega), getD_of_le b (by omega), mul_zero, sub_zero]
  · rw [if_neg h1, if_neg (by omega), mul_zero, sub_zero]

theorem divLoop_spec (b : List K) (binv : K) (n : ℕ) (hb : b.length = n + 1)
    (hbi : binv * b.getD n 0 = 1) (k : ℕ) (q r : List K) (hq : k ≤ q.length)
    (hq0 : ∀ i, i < k → q.getD i 0 = 0) (hr : n + k ≤ r.length)
    (hr0 : ∀ i, n + k ≤ i → r.getD i 0 = 0) :
    toPoly (divLoop b binv n k q r).1 * toPoly b + toPoly (divLoop b binv n k q r).2
      = toPoly q * toPoly b + toPoly r
    ∧ (∀ i, n ≤ i → (divLoop b binv n k q r).2.getD i 0 = 0)
    ∧ (divLoop b binv n k q r).1.length = q.length
    ∧ (∀ i, k ≤ i → (divLoop b binv n k q r).1.getD i 0 = q.getD i 0)
    ∧ (0 < k → (divLoop b binv n k q r).1.getD (k - 1) 0 = binv * r.getD (n + k - 1) 0) := by
  induction k generalizing q r with
  | zero => exact ⟨rfl, hr0, rfl, fun _ _ => rfl, fun h => absurd h (by omega)⟩
  | succ k ih =>
    simp only [divLoop]
    set qe := binv * r.getD (n + k) 0 with hqe
    have hgl := divInner_get b qe k (n + 1) 0 r
    have hlen : (divInner b qe k n r).length = r.length := hgl.1
    obtain ⟨h1, h2, h3, h4, h5⟩ := ih (q.set k qe) (divInner b qe k n r)
      (by rw [List.length_set]; omega)
      (by intro i hi
          rw [getD_set, if_neg (by omega)]
          exact hq0 i (by omega))
      (by rw [hlen]; omega)
      (by intro i hi
          rw [divInner, hgl.2 i]
          by_cases hik : i = n + k
          · subst hik
            rw [if_pos (by omega), Nat.add_sub_cancel]
            linear_combination (- r.getD (n + k) 0) * hbi
          · rw [if_neg (by omega)]
            exact hr0 i (by omega))
    refine ⟨?_, h2, ?_, ?_, ?_⟩
    · rw [h1, divInner_toPoly b qe k n r hb (by omega)]
      have : toPoly (q.set k qe) = toPoly q + C qe * X ^ k := by
        have := setCoeff_core q qe k (by omega)
        rw [if_neg (by omega)] at this
        rw [this, toPoly_coeff, hq0 k (by omega), sub_zero]
      rw [this]
      ring
    · rw [h3, List.length_set]
    · intro i hi
      rw [h4 i (by omega), getD_set, if_neg (by omega)]
    · intro _
      rw [Nat.add_sub_cancel, h4 k le_rfl, getD_set, if_pos ⟨rfl, by omega⟩, hqe]
      rfl

theorem length_lt_of_degree {l : List K} (hn : Normal l) (n : ℕ)
    (h : ∀ i, n ≤ i → l.getD i 0 = 0) : l.length ≤ n := by
  rcases (normal_iff l).mp hn with h0 | h0
  · omega
  · by_contra hc
    exact h0 (h _ (by omega))

theorem div_spec (a b : List K) (ha : Normal a) (hb : Normal b) (hb0 : b ≠ []) :
    ∃ q r, div a b = some (q, r) ∧ Normal q ∧ Normal r
      ∧ toPoly a = toPoly q * toPoly b + toPoly r ∧ r.length < b.length := by
  have hlb : 0 < b.length := List.length_pos_iff.mpr hb0
  have hlead : b.getD (b.length - 1) 0 ≠ 0 := by
    rcases (normal_iff b).mp hb with h | h
    · omega
    · exact h
  unfold div
  rw [if_neg (by simp [is0, hb0])]
  dsimp only
  split
  next h =>
    exact ⟨[], a, rfl, normal_nil, ha, by simp [toPoly_nil], h⟩
  next h =>
    have hinv : inv? (b.getD (b.length - 1) 0) = some (b.getD (b.length - 1) 0)⁻¹ := by
      rw [inv?, if_neg hlead]
    rw [hinv]
    dsimp only
    set n := b.length - 1 with hn
    set k := a.length - b.length with hk
    obtain ⟨h1, h2, h3, h4, h5⟩ := divLoop_spec b (b.getD n 0)⁻¹ n (by omega)
      (inv_mul_cancel₀ hlead) (k + 1) (List.replicate (k + 1) 0) a (by simp)
      (by intro i hi; simp [List.getD, List.getElem?_replicate, hi]) (by omega)
      (by intro i hi; exact getD_of_le a (by omega))
    have hz : toPoly (List.replicate (k + 1) (0 : K)) = 0 := by
      rw [toPoly_eq_iff]
      intro i
      simp [List.getD, List.getElem?_replicate]
      split <;> simp
    rw [hz, zero_mul, zero_add] at h1
    refine ⟨_, _, rfl, ?_, strip_normal _, ?_, ?_⟩
    · rw [normal_iff, h3, List.length_replicate, h5 (by omega)]
      right
      rcases (normal_iff a).mp ha with h0 | h0
      · omega
      · rw [show n + (k + 1) - 1 = a.length - 1 by omega]
        exact mul_ne_zero (inv_ne_zero hlead) h0
    · rw [strip_toPoly, h1]
    · have := length_lt_of_degree (strip_normal _) n (l := strip
        (divLoop b (b.getD n 0)⁻¹ n (k + 1) (List.replicate (k + 1) 0) a).2)
        (by intro i hi
            rw [← toPoly_coeff, strip_toPoly, toPoly_coeff]
            exact h2 i hi)
      omega

theorem gcdLoop_spec (fuel : ℕ) (a b : List K) (ha : Normal a) (hb : Normal b) (hb0 : b ≠ [])
    (hf : b.length < fuel) :
    ∃ d, gcdLoop fuel a b = some d ∧ Normal d ∧ d ≠ [] ∧ toPoly d ∣ toPoly a ∧ toPoly d ∣ toPoly b
      ∧ ∀ c, c ∣ toPoly a → c ∣ toPoly b → c ∣ toPoly d := by
  induction fuel generalizing a b with
  | zero => omega
  | succ fuel ih =>
    obtain ⟨q, r, h1, h2, h3, h4, h5⟩ := div_spec a b ha hb hb0
    simp only [gcdLoop, h1]
    by_cases hr : r = []
    · subst hr
      rw [if_pos (by simp [is0])]
      rw [toPoly_nil, add_zero] at h4
      exact ⟨b, rfl, hb, hb0, h4 ▸ dvd_mul_left _ _, dvd_rfl, fun c _ h => h⟩
    · rw [if_neg (by simp [is0, hr])]
      obtain ⟨d, e1, e2, e3, e4, e5, e6⟩ := ih b r hb h3 hr (by omega)
      refine ⟨d, e1, e2, e3, ?_, e4, fun c c1 c2 => e6 c c2 ?_⟩
      · rw [h4]
        exact dvd_add (Dvd.dvd.mul_left e4 _) e5
      · have : toPoly r = toPoly a - toPoly q * toPoly b := by rw [h4]; ring
        rw [this]
        exact dvd_sub c1 (Dvd.dvd.mul_left c2 _)

theorem makeMonic_spec (m : Mem K) (f g : ℕ) (hg : Normal (m g)) :
    ∃ m', makeMonic m f g = some m' ∧ Normal (m' f)
      ∧ toPoly (m' f) = C (toPoly (m g)).leadingCoeff⁻¹ * toPoly (m g)
      ∧ ∀ e, e ≠ f → m' e = m e := by
  unfold makeMonic
  dsimp only
  split
  next h0 =>
    have hnil : m g = [] := List.length_eq_zero_iff.mp h0
    have : alloc m f (m g).length f = [] :=
      List.length_eq_zero_iff.mp (by rw [alloc_length]; simpa using hnil)
    refine ⟨_, rfl, ?_, ?_, fun e he => alloc_other _ he⟩
    · rw [this]; exact normal_nil
    · rw [this, hnil]; simp [toPoly_nil]
  next h0 =>
    set n := (m g).length with hn
    have hlead : (m g).getD (n - 1) 0 ≠ 0 := by
      rcases (normal_iff (m g)).mp hg with h | h
      · omega
      · exact h
    have hne : m g ≠ [] := fun e => h0 (by rw [hn, e]; rfl)
    have hlc : (toPoly (m g)).leadingCoeff = (m g).getD (n - 1) 0 := by
      rw [leadingCoeff, toPoly_coeff]
      congr 1
      have := natDegree_eq hg hne
      omega
    have hrd : rd (alloc m f n) g (n - 1) = (m g).getD (n - 1) 0 := by
      rw [rd_alloc, if_neg (by omega)]
      rfl
    rw [hrd, show inv? ((m g).getD (n - 1) 0) = some ((m g).getD (n - 1) 0)⁻¹ by rw [inv?, if_neg hlead]]
    dsimp only
    set e := ((m g).getD (n - 1) 0)⁻¹ with he
    set m1 := wr (alloc m f n) f (n - 1) e with hm1
    -- the loop reads cell `n - 1`, which it does not write
    have hloop : ∀ c s (x : Mem K), s + c ≤ n - 1 → rd x f (n - 1) = e →
        forUp (fun i m => wr m f i (rd m g i * rd m f (n - 1))) s c x
          = forUp (fun i m => wr m f i (rd m g i * e)) s c x := by
      intro c
      induction c with
      | zero => intros; rfl
      | succ c ih =>
        intro s x hs hx
        simp only [forUp]
        rw [hx]
        apply ih
        · omega
        · rw [rd_wr, if_neg (by omega), hx]
    have hlen1 : (m1 f).length = n := by rw [hm1, wr_length, alloc_length]; simp
    rw [hloop (n - 1) 0 m1 (by omega) (by
      rw [hm1, rd_wr, alloc_length, if_pos (by simp; omega)])]
    obtain ⟨a1, a2, a3⟩ := forUp_spec f (fun i m => rd m g i * e)
      (fun i m m' h => by simp only [h]) (n - 1) 0 m1
    set m2 := forUp (fun i m => wr m f i (rd m g i * e)) 0 (n - 1) m1 with hm2
    have hlen3 : (wr m2 f (n - 1) 1 f).length = n := by rw [wr_length, a2, hlen1]
    have hget : ∀ i, (wr m2 f (n - 1) 1 f).getD i 0 = e * (m g).getD i 0 := by
      intro i
      rw [show (wr m2 f (n - 1) 1 f).getD i 0 = rd (wr m2 f (n - 1) 1) f i from rfl, rd_wr, a2,
        hlen1]
      by_cases hi : i = n - 1
      · subst hi
        rw [if_pos (by omega), he, inv_mul_cancel₀ hlead]
      · rw [if_neg (by omega), a3, hlen1]
        by_cases hi2 : i < n - 1
        · rw [if_pos (by omega), hm1, rd_wr, if_neg (by omega), rd_alloc, if_neg (by omega), rd,
            mul_comm]
        · rw [if_neg (by omega), getD_of_le (m g) (by omega), mul_zero]
          exact getD_of_le _ (by rw [hlen1]; omega)
    refine ⟨_, rfl, ?_, ?_, fun x hx => ?_⟩
    · rw [normal_iff, hlen3, hget]
      right
      exact mul_ne_zero (inv_ne_zero hlead) hlead
    · rw [toPoly_eq_iff]
      intro i
      rw [hget, coeff_C_mul, toPoly_coeff, hlc]
    · rw [wr_other _ _ hx, a1 x hx, hm1, wr_other _ _ hx, alloc_other _ hx]

/-- Extended Euclid: the loop invariant carried to the end. -/
theorem invLoop_spec (F M : K[X]) (n fuel : ℕ) (b0 b1 r0 r1 : List K)
    (hr0 : Normal r0) (hr1 : Normal r1) (hr1n : r1 ≠ []) (hlt : r1.length < r0.length)
    (hf : r1.length < fuel)
    (hb0n : Normal b0) (hb1n : Normal b1)
    (h0 : M ∣ toPoly b0 * F - toPoly r0) (h1 : M ∣ toPoly b1 * F - toPoly r1)
    (hd0 : b0.length + r0.length ≤ n + 1) (hd1 : b1.length + r0.length ≤ n + 1)
    (hg : ∀ c, c ∣ toPoly r0 → c ∣ toPoly r1 → c ∣ M ∧ c ∣ F) :
    ∃ r b, invLoop fuel b0 b1 r0 r1 = some (r, b) ∧ Normal r ∧ r ≠ [] ∧ Normal b
      ∧ M ∣ toPoly b * F - toPoly r ∧ b.length + r.length ≤ n
      ∧ toPoly r ∣ M ∧ toPoly r ∣ F := by
  induction fuel generalizing b0 b1 r0 r1 with
  | zero => omega
  | succ fuel ih =>
    obtain ⟨q, r2, e1, e2, e3, e4, e5⟩ := div_spec r0 r1 hr0 hr1 hr1n
    simp only [invLoop, e1]
    by_cases hr2 : r2 = []
    · subst hr2
      rw [if_pos (by simp [is0])]
      rw [toPoly_nil, add_zero] at e4
      have := hg (toPoly r1) (e4 ▸ dvd_mul_left _ _) dvd_rfl
      exact ⟨r1, b1, rfl, hr1, hr1n, hb1n, h1, by omega, this.1, this.2⟩
    · rw [if_neg (by simp [is0, hr2])]
      set b2 := (sub (fun i => if i = 1 then b0 else mulV b1 q) 2 1 2) 2 with hb2
      have hs := sub_spec (fun i => if i = 1 then b0 else mulV b1 q) 2 1 2
      have hval : toPoly b2 = toPoly b0 - toPoly b1 * toPoly q := by
        rw [hb2, hs.1.1]
        simp [(mulV_spec b1 q).1]
      have hnorm : Normal b2 := hs.2
      have hlen : b2.length + r1.length ≤ n + 1 := by
        by_cases hb : b2 = []
        · rw [hb]
          simp
          omega
        · have h3 := natDegree_eq hnorm hb
          rw [hval] at h3
          have h4 := natDegree_sub_le (toPoly b0) (toPoly b1 * toPoly q)
          have h5 : (toPoly b1 * toPoly q).natDegree ≤ (b1.length - 1) + (q.length - 1) :=
            le_trans natDegree_mul_le (add_le_add (natDegree_le _) (natDegree_le _))
          have h6 := natDegree_le b0
          -- the length of the quotient
          have hq : q.length + r1.length ≤ r0.length + 1 := by
            by_cases hq0 : q = []
            · rw [hq0]
              simp
              omega
            · have g1 := natDegree_eq e2 hq0
              have g2 := natDegree_eq hr1 hr1n
              have hr0n : r0 ≠ [] := by
                intro e
                rw [e] at hlt
                simp at hlt
              have g3 := natDegree_eq hr0 hr0n
              have g4 : (toPoly q * toPoly r1).natDegree
                  = (toPoly q).natDegree + (toPoly r1).natDegree :=
                natDegree_mul (fun e => hq0 ((toPoly_eq_zero e2).mp e))
                  (fun e => hr1n ((toPoly_eq_zero hr1).mp e))
              have g5 : toPoly q * toPoly r1 = toPoly r0 - toPoly r2 := by rw [e4]; ring
              have g6 := natDegree_sub_le (toPoly r0) (toPoly r2)
              have g7 := natDegree_le r2
              rw [← g5, g4] at g6
              rcases le_max_iff.mp g6 with g | g <;> omega
          have hb1pos : b1 = [] ∨ 0 < b1.length := by
            rcases b1.eq_nil_or_concat with h | ⟨_, _, h⟩
            · left; exact h
            · right; rw [h]; simp
          rcases hb1pos with hb1 | hb1
          · rw [hb1, toPoly_nil, zero_mul, sub_zero] at h3
            have : 0 < b2.length := List.length_pos_iff.mpr hb
            by_cases hb0 : b0 = []
            · rw [hb0] at hval
              rw [hb1] at hval
              simp [toPoly_nil] at hval
              exact absurd ((toPoly_eq_zero hnorm).mp hval) hb
            · have := natDegree_eq hb0n hb0
              omega
          · by_cases hb0 : b0 = []
            · have hq0 : q ≠ [] := by
                intro e
                rw [hb0, e] at hval
                simp [toPoly_nil] at hval
                exact hb ((toPoly_eq_zero hnorm).mp hval)
              have hqp : 0 < q.length := List.length_pos_iff.mpr hq0
              rw [hb0, toPoly_nil, zero_sub, natDegree_neg] at h3
              omega
            · have hb0p : 0 < b0.length := List.length_pos_iff.mpr hb0
              have h7 := le_trans h4 (max_le_max h6 h5)
              have hq' : 0 < q.length ∨ q = [] := by
                rcases q.eq_nil_or_concat with h | ⟨_, _, h⟩
                · right; exact h
                · left; rw [h]; simp
              rcases hq' with hq' | hq'
              · rcases le_max_iff.mp h7 with g | g <;> omega
              · rw [hq', toPoly_nil, mul_zero, sub_zero] at h3
                omega
      apply ih b1 b2 r1 r2 hr1 e3 hr2 e5 (by omega) hb1n hnorm h1
      · have : toPoly b2 * F - toPoly r2
            = (toPoly b0 * F - toPoly r0) - toPoly q * (toPoly b1 * F - toPoly r1) := by
          rw [hval, e4]
          ring
        rw [this]
        exact dvd_sub h0 (Dvd.dvd.mul_left h1 _)
      · omega
      · exact hlen
      · intro c c1 c2
        apply hg c _ c1
        rw [e4]
        exact dvd_add (Dvd.dvd.mul_left c1 _) c2

theorem invert_spec (f m : List K) (hf : Normal f) (hm : Normal m) (hf0 : f ≠ [])
    (hlt : f.length < m.length) (hco : IsCoprime (toPoly f) (toPoly m)) :
    ∃ b, invert f m = some b ∧ Normal b ∧ toPoly m ∣ toPoly b * toPoly f - 1
      ∧ b.length < m.length := by
  have hlm : 0 < f.length := List.length_pos_iff.mpr hf0
  obtain ⟨r, b, h1, h2, h3, h4, h5, h6, h7, h8⟩ := invLoop_spec (toPoly f) (toPoly m)
    m.length (f.length + 1) [] [1] m f hm hf hf0 hlt (by omega) normal_nil
    (by simp [Normal]) (by simp [toPoly_nil]) (by simp [toPoly_cons, toPoly_nil])
    (by simp) (by simp; omega) (fun c c1 c2 => ⟨c1, c2⟩)
  unfold invert
  rw [h1]
  dsimp only
  have hunit : IsUnit (toPoly r) := hco.isUnit_of_dvd' h8 h7
  have hr1 : r.length = 1 := by
    have := natDegree_eq h2 h3
    rw [natDegree_eq_zero_of_isUnit hunit] at this
    omega
  have hlead : r.getD 0 0 ≠ 0 := by
    rcases (normal_iff r).mp h2 with h | h
    · omega
    · rwa [hr1] at h
  have hrC : toPoly r = C (r.getD 0 0) := by
    rw [toPoly_eq_iff]
    intro i
    rw [coeff_C]
    split
    next h => rw [h]
    next h => exact getD_of_le r (by omega)
  rw [show inv? (r.getD 0 0) = some (r.getD 0 0)⁻¹ by rw [inv?, if_neg hlead]]
  dsimp only
  have hc := constMul_spec (fun _ => b) 0 (r.getD 0 0)⁻¹ 1
  refine ⟨_, rfl, hc.2, ?_, ?_⟩
  · rw [hc.1.1]
    have : C (r.getD 0 0)⁻¹ * toPoly b * toPoly f - 1
        = C (r.getD 0 0)⁻¹ * (toPoly b * toPoly f - toPoly r) := by
      rw [hrC, mul_sub, ← C_mul, inv_mul_cancel₀ hlead]
      simp [mul_assoc]
    rw [this]
    exact Dvd.dvd.mul_left h5 _
  · have : (constMul (fun _ => b) 0 (r.getD 0 0)⁻¹ 1 0).length ≤ b.length := by
      have hh : toPoly (constMul (fun _ => b) 0 (r.getD 0 0)⁻¹ 1 0)
          = toPoly (b.map (fun x => (r.getD 0 0)⁻¹ * x)) := by
        rw [hc.1.1, constMul_toPoly]
      simpa using length_le_of_toPoly_eq hc.2 hh
    omega

end division

end Pbc.Poly
