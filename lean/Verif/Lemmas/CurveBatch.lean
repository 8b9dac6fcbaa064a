import Verif.Lemmas.Curve
import Mathlib.Algebra.BigOperators.Group.Finset.Basic
import Mathlib.Algebra.BigOperators.Ring.Finset
import Mathlib.Algebra.Field.GeomSum

/-! # Lemmas on the batch operations of the curve model -/

set_option linter.unusedSectionVars false

namespace Pbc.Curve

open Spec
open Pbc.Quad (inv?)

variable {K : Type*} [Field K] [DecidableEq K]

theorem mdPrefix_spec (d : ℕ → K) : ∀ (k i : ℕ) (t : ℕ → K),
    (∀ j < i, t j = ∏ l ∈ Finset.range (j + 1), d l) →
    ∀ j < i + k, mdPrefix d k i t j = ∏ l ∈ Finset.range (j + 1), d l
  | 0, i, t, h, j, hj => h j (by omega)
  | k + 1, i, t, h, j, hj => by
    unfold mdPrefix
    refine mdPrefix_spec d k (i + 1) _ ?_ j (by omega)
    intro j hj
    by_cases hi : i > 0
    · rw [if_pos hi]
      by_cases hji : j = i
      · subst hji
        rw [Function.update_self, Function.update_self, Function.update_of_ne (by omega),
          h _ (by omega), show j - 1 + 1 = j by omega, Finset.prod_range_succ _ j, mul_comm]
      · rw [Function.update_of_ne hji, Function.update_of_ne hji, h j (by omega)]
    · rw [if_neg hi]
      have : j = 0 := by omega
      subst this
      have : i = 0 := by omega
      subst this
      simp

theorem mdBack_eq (y : ℕ → K) : ∀ (k : ℕ) (t : ℕ → K) (e : K),
    mdBack y k t e = maBack (fun i => 2 * y i) k t e
  | 0, _, _ => rfl
  | k + 1, t, e => by
    unfold mdBack maBack
    dsimp only
    rw [show 2 * (e * y (k + 1)) = e * (2 * y (k + 1)) by ring]
    exact mdBack_eq y k _ _

theorem maBack_spec (d : ℕ → K) : ∀ (k : ℕ) (t : ℕ → K) (e : K), (∀ j ≤ k, d j ≠ 0) →
    (∀ j < k, t j = ∏ l ∈ Finset.range (j + 1), d l) →
    e = (∏ l ∈ Finset.range (k + 1), d l)⁻¹ →
    (maBack d k t e).2 = (d 0)⁻¹ ∧
    (∀ j, 1 ≤ j → j ≤ k → (maBack d k t e).1 j = (d j)⁻¹) ∧
    (∀ j, k < j → (maBack d k t e).1 j = t j)
  | 0, t, e, _, _, he => by
    refine ⟨by simpa [maBack] using he, fun j h1 h2 => by omega, fun j _ => rfl⟩
  | k + 1, t, e, hd, ht, he => by
    unfold maBack
    have hp : ∀ n ≤ k + 2, ∏ l ∈ Finset.range n, d l ≠ 0 := fun n hn =>
      Finset.prod_ne_zero_iff.2 fun l hl => hd l (by have := Finset.mem_range.1 hl; omega)
    have he' : e * d (k + 1) = (∏ l ∈ Finset.range (k + 1), d l)⁻¹ := by
      rw [he, Finset.prod_range_succ _ (k + 1), mul_inv, mul_assoc,
        inv_mul_cancel₀ (hd (k + 1) le_rfl), mul_one]
    obtain ⟨h1, h2, h3⟩ := maBack_spec d k (Function.update t (k + 1) (t k * e)) (e * d (k + 1))
      (fun j hj => hd j (by omega))
      (fun j hj => by rw [Function.update_of_ne (by omega)]; exact ht j (by omega)) he'
    refine ⟨h1, ?_, ?_⟩
    · intro j hj1 hj2
      by_cases hj : j = k + 1
      · subst hj
        rw [h3 _ (by omega), Function.update_self, ht k (by omega), he,
          Finset.prod_range_succ _ (k + 1), mul_inv, ← mul_assoc,
          mul_inv_cancel₀ (hp (k + 1) (by omega)), one_mul]
      · exact h2 j hj1 (by omega)
    · intro j hj
      rw [h3 j (by omega), Function.update_of_ne (by omega)]

/-- The table of inverses. -/
theorem table_spec (d : ℕ → K) (n : ℕ) (hn : 1 ≤ n) (hd : ∀ i < n, d i ≠ 0) :
    ∃ e, inv? (mdPrefix d n 0 (fun _ => 0) (n - 1)) = some e ∧ ∀ i < n,
      Function.update (maBack d (n - 1) (mdPrefix d n 0 (fun _ => 0)) e).1 0
        (maBack d (n - 1) (mdPrefix d n 0 (fun _ => 0)) e).2 i = (d i)⁻¹ := by
  have hpre := mdPrefix_spec d n 0 (fun _ => 0) (fun j hj => by omega)
  have hlast := hpre (n - 1) (by omega)
  have hne : mdPrefix d n 0 (fun _ => 0) (n - 1) ≠ 0 := by
    rw [hlast]
    exact Finset.prod_ne_zero_iff.2 fun l hl => hd l (by have := Finset.mem_range.1 hl; omega)
  refine ⟨_, inv_ne hne, ?_⟩
  obtain ⟨h1, h2, _⟩ := maBack_spec d (n - 1) (mdPrefix d n 0 (fun _ => 0))
    (mdPrefix d n 0 (fun _ => 0) (n - 1))⁻¹ (fun j hj => hd j (by omega))
    (fun j hj => hpre j (by omega)) (by rw [hlast])
  intro i hi
  by_cases h0 : i = 0
  · subst h0; rw [Function.update_self, h1]
  · rw [Function.update_of_ne h0, h2 i (by omega) (by omega)]

theorem table_zero (d : ℕ → K) (n : ℕ) (i : ℕ) (hi : i < n) (hd : d i = 0) :
    inv? (mdPrefix d n 0 (fun _ => 0) (n - 1)) = none := by
  rw [mdPrefix_spec d n 0 (fun _ => 0) (fun j hj => by omega) (n - 1) (by omega),
    Finset.prod_eq_zero (i := i) (Finset.mem_range.2 (by omega)) hd]
  simp [inv?]

theorem mdFlags_coord (c a : ℕ → ℕ) : ∀ (k i : ℕ) (m : Mem K) (l : ℕ),
    (mdFlags c a k i m l).x = (m l).x ∧ (mdFlags c a k i m l).y = (m l).y
  | 0, _, _, _ => ⟨rfl, rfl⟩
  | k + 1, i, m, l => by
    unfold mdFlags
    have ih := mdFlags_coord c a k (i + 1)
    dsimp only
    split_ifs <;> refine ⟨(ih _ l).1.trans ?_, (ih _ l).2.trans ?_⟩ <;>
      simp only [wInf_x, wInf_y]

theorem mdFlags_mono (c a : ℕ → ℕ) : ∀ (k i : ℕ) (m : Mem K) (l : ℕ), (m l).inf = true →
    (mdFlags c a k i m l).inf = true
  | 0, _, _, _, h => h
  | k + 1, i, m, l, h => by
    unfold mdFlags
    dsimp only
    have hw : ∀ n, (wInf m n true l).inf = true := by
      intro n
      by_cases hl : l = n
      · subst hl; exact wInf_self m l true
      · rw [wInf_ne _ _ _ hl]; exact h
    split_ifs <;> apply mdFlags_mono <;> first | exact hw _ | exact h

theorem mdFlags_inf (c a : ℕ → ℕ) : ∀ (k s : ℕ) (m : Mem K),
    (∀ i, s ≤ i → i < s + k → (m (a i)).y ≠ 0) →
    (∀ i j, s ≤ i → i < s + k → s ≤ j → j < s + k → i ≠ j → c i ≠ a j) → ∀ l,
    ((mdFlags c a k s m l).inf = true ↔
      (m l).inf = true ∨ ∃ i, s ≤ i ∧ i < s + k ∧ c i = l ∧ (m (a i)).inf = true)
  | 0, s, m, _, _, l => by
    simp only [mdFlags, add_zero, iff_self_or]
    rintro ⟨i, h1, h2, _⟩; omega
  | k + 1, s, m, hy, hca, l => by
    unfold mdFlags
    dsimp only
    rw [if_neg (hy s le_rfl (by omega))]
    cases hs : (m (a s)).inf with
    | false =>
      simp only [Bool.false_eq_true, if_false]
      rw [mdFlags_inf c a k (s + 1) m (fun i h1 h2 => hy i (by omega) (by omega))
        (fun i j h1 h2 h3 h4 => hca i j (by omega) (by omega) (by omega) (by omega)) l]
      constructor
      · rintro (h | ⟨i, h1, h2, h3, h4⟩)
        · exact Or.inl h
        · exact Or.inr ⟨i, by omega, by omega, h3, h4⟩
      · rintro (h | ⟨i, h1, h2, h3, h4⟩)
        · exact Or.inl h
        · have : i ≠ s := by rintro rfl; rw [hs] at h4; cases h4
          exact Or.inr ⟨i, by omega, by omega, h3, h4⟩
    | true =>
      simp only [if_true]
      have hne : ∀ i, s + 1 ≤ i → i < s + 1 + k → wInf m (c s) true (a i) = m (a i) :=
        fun i h1 h2 => wInf_ne _ _ _ (Ne.symm (hca s i le_rfl (by omega) (by omega) (by omega) (by omega)))
      rw [mdFlags_inf c a k (s + 1) _
        (fun i h1 h2 => by rw [hne i h1 h2]; exact hy i (by omega) (by omega))
        (fun i j h1 h2 h3 h4 => hca i j (by omega) (by omega) (by omega) (by omega)) l]
      constructor
      · rintro (h | ⟨i, h1, h2, h3, h4⟩)
        · by_cases hl : l = c s
          · exact Or.inr ⟨s, le_rfl, by omega, hl.symm, hs⟩
          · rw [wInf_ne _ _ _ hl] at h; exact Or.inl h
        · rw [hne i h1 h2] at h4
          exact Or.inr ⟨i, by omega, by omega, h3, h4⟩
      · intro h
        by_cases hl : l = c s
        · subst hl; exact Or.inl (wInf_self _ _ _)
        · rcases h with h | ⟨i, h1, h2, h3, h4⟩
          · rw [wInf_ne _ _ _ hl]; exact Or.inl h
          · have : i ≠ s := by rintro rfl; exact hl h3.symm
            exact Or.inr ⟨i, by omega, by omega, h3, by rw [hne i (by omega) (by omega)]; exact h4⟩

/-- What the last loop of the batch doubling writes. -/
def mdRes (ca : K) (p q : Pt K) (t : K) : Pt K :=
  if p.inf then p else
    let l := (q.x ^ 2 * 3 + ca) * t
    let e0 := l ^ 2 - 2 * q.x
    ⟨false, e0, (q.x - e0) * l - q.y⟩

theorem mdFinish_spec (ca : K) (c a : ℕ → ℕ) (t : ℕ → K) : ∀ (k s : ℕ) (m : Mem K),
    (∀ i j, s ≤ i → i < s + k → s ≤ j → j < s + k → i ≠ j → c i ≠ a j ∧ c i ≠ c j) →
    (∀ i, s ≤ i → i < s + k →
      mdFinish ca c a t k s m (c i) = mdRes ca (m (c i)) (m (a i)) (t i)) ∧
    ∀ l, (∀ i, s ≤ i → i < s + k → c i ≠ l) → mdFinish ca c a t k s m l = m l
  | 0, s, m, _ => ⟨fun i h1 h2 => by omega, fun l _ => rfl⟩
  | k + 1, s, m, h => by
    unfold mdFinish
    dsimp only
    simp only [wInfYX, Int.cast_ofNat]
    set m1 : Mem K := if (m (c s)).inf = true then m else
      Function.update m (c s) ⟨false, (((m (a s)).x ^ 2 * 3 + ca) * t s) ^ 2 - 2 * (m (a s)).x,
        ((m (a s)).x - ((((m (a s)).x ^ 2 * 3 + ca) * t s) ^ 2 - 2 * (m (a s)).x)) *
          (((m (a s)).x ^ 2 * 3 + ca) * t s) - (m (a s)).y⟩ with hm1
    have hself : m1 (c s) = mdRes ca (m (c s)) (m (a s)) (t s) := by
      rw [hm1]; unfold mdRes
      split_ifs
      · rfl
      · simp
    have hother : ∀ l, l ≠ c s → m1 l = m l := by
      intro l hl
      rw [hm1]
      split_ifs
      · rfl
      · simp [hl]
    obtain ⟨h1, h2⟩ := mdFinish_spec ca c a t k (s + 1) m1
      (fun i j h1 h2 h3 h4 => h i j (by omega) (by omega) (by omega) (by omega))
    constructor
    · intro i hi1 hi2
      by_cases his : i = s
      · subst his
        rw [h2 (c i) (fun j hj1 hj2 => (h j i (by omega) (by omega) (by omega) (by omega) (by omega)).2), hself]
      · have h' := h s i (by omega) (by omega) (by omega) (by omega) (Ne.symm his)
        rw [h1 i (by omega) (by omega), hother _ h'.2.symm, hother _ h'.1.symm]
    · intro l hl
      rw [h2 l (fun i hi1 hi2 => hl i (by omega) (by omega)), hother l (Ne.symm (hl s le_rfl (by omega)))]

theorem mdRes_eq (ca : K) (p q : Pt K) (hp : p.inf = false) :
    mdRes ca p q (2 * q.y)⁻¹ = ⟨false, dblX ca q.x q.y, dblY ca q.x q.y⟩ := by
  unfold mdRes dblX dblY
  simp [hp, dblX]

variable {ca cb : K}

theorem pt_ext {p q : Pt K} (h1 : p.inf = q.inf) (h2 : p.x = q.x) (h3 : p.y = q.y) : p = q := by
  cases p; cases q; simp_all

theorem multiDouble_rep (h2 : (2 : K) ≠ 0) {m : Mem K} {c a : ℕ → ℕ} {n : ℕ} (hn : 1 ≤ n)
    {P : ℕ → (EC ca cb).Point} (hP : ∀ i < n, PtRep (m (a i)) (P i))
    (hy : ∀ i < n, (m (a i)).y ≠ 0)
    (hf : ∀ i < n, (m (a i)).inf = false → (m (c i)).inf = false)
    (hca : ∀ i < n, ∀ j < n, i ≠ j → c i ≠ a j ∧ c i ≠ c j) :
    ∃ m', multiDouble ca m c a n = some m' ∧ (∀ i < n, PtRep (m' (c i)) (2 • P i)) ∧
      ∀ l, (∀ i < n, c i ≠ l) → m' l = m l := by
  unfold multiDouble
  dsimp only
  set m1 := mdFlags c a n 0 m with hm1
  have hco : ∀ l, (m1 l).x = (m l).x ∧ (m1 l).y = (m l).y := mdFlags_coord c a n 0 m
  have hinf := mdFlags_inf c a n 0 m (fun i _ h => hy i (by omega))
    (fun i j _ h3 _ h4 h5 => (hca i (by omega) j (by omega) h5).1)
  rw [← hm1] at hinf
  obtain ⟨e, he, ht⟩ := table_spec (fun i => 2 * (m1 (a i)).y) n hn
    (fun i hi => mul_ne_zero h2 (by rw [(hco _).2]; exact hy i hi))
  rw [he]
  dsimp only
  rw [mdBack_eq]
  obtain ⟨h3, h4⟩ := mdFinish_spec ca c a
    (Function.update (maBack (fun i => 2 * (m1 (a i)).y) (n - 1)
      (mdPrefix (fun i => 2 * (m1 (a i)).y) n 0 (fun _ => 0)) e).1 0
      (maBack (fun i => 2 * (m1 (a i)).y) (n - 1)
      (mdPrefix (fun i => 2 * (m1 (a i)).y) n 0 (fun _ => 0)) e).2) n 0 m1
    (fun i j _ h3 _ h4 h5 => hca i (by omega) j (by omega) h5)
  have hai : ∀ i < n, (m1 (c i)).inf = (m (a i)).inf := by
    intro i hi
    cases hA : (m (a i)).inf with
    | true => exact (hinf (c i)).2 (Or.inr ⟨i, by omega, by omega, rfl, hA⟩)
    | false =>
      rw [Bool.eq_false_iff]
      intro h
      rcases (hinf (c i)).1 h with h | ⟨j, _, hj, hc, hj'⟩
      · rw [hf i hi hA] at h; cases h
      · by_cases hij : j = i
        · subst hij; rw [hA] at hj'; cases hj'
        · exact (hca j (by omega) i hi hij).2 hc
  refine ⟨_, rfl, ?_, ?_⟩
  · intro i hi
    rw [h3 i (by omega) (by omega), ht i hi]
    cases hA : (m (a i)).inf with
    | true =>
      have hz : P i = .zero := by
        have := hP i hi
        cases hp : P i with
        | zero => rfl
        | some x y hn' => rw [hp] at this; rw [this.1] at hA; cases hA
      have : (m1 (c i)).inf = true := by rw [hai i hi, hA]
      unfold mdRes
      rw [this, if_pos rfl, hz]
      exact this
    | false =>
      rw [mdRes_eq ca _ _ (by rw [hai i hi, hA]), (hco _).1, (hco _).2]
      have := hP i hi
      cases hp : P i with
      | zero => rw [hp] at this; have this : (m (a i)).inf = true := this; rw [hA] at this; cases this
      | some x y hn' =>
        rw [hp] at this
        obtain ⟨_, h5, h6⟩ := this
        rw [h5, h6, two_nsmul]
        exact dbl_some h2 hn' (by rw [← h6]; exact hy i hi)
  · intro l hl
    rw [h4 l (fun i _ hi => hl i (by omega))]
    have h5 : (m1 l).inf = (m l).inf := by
      rw [Bool.eq_iff_iff, hinf l, or_iff_left]
      rintro ⟨i, _, hi, hc, _⟩
      exact hl i (by omega) hc
    exact pt_ext h5 (hco l).1 (hco l).2

theorem multiDouble_keeps (m : Mem K) (c a : ℕ → ℕ) (n : ℕ)
    (hca : ∀ i < n, ∀ j < n, i ≠ j → c i ≠ a j ∧ c i ≠ c j) (i : ℕ) (hi : i < n)
    (h : (m (c i)).inf = true) (m' : Mem K) (hm : multiDouble ca m c a n = some m') :
    (m' (c i)).inf = true := by
  unfold multiDouble at hm
  dsimp only at hm
  split at hm
  · cases hm
  · rw [Option.some.injEq] at hm
    rw [← hm, (mdFinish_spec ca c a _ n 0 _
      (fun i j _ h3 _ h4 h5 => hca i (by omega) j (by omega) h5)).1 i (by omega) (by omega)]
    have := mdFlags_mono c a n 0 m (c i) h
    unfold mdRes
    rw [if_pos this]
    exact this

theorem maFinish_rep (h2 : (2 : K) ≠ 0) (c a b : ℕ → ℕ) (t : ℕ → K)
    (P Q : ℕ → (EC ca cb).Point) : ∀ (k s : ℕ) (m : Mem K),
    (∀ i j, s ≤ i → i < s + k → s ≤ j → j < s + k → i ≠ j → c i ≠ a j ∧ c i ≠ b j ∧ c i ≠ c j) →
    (∀ i, s ≤ i → i < s + k → t i = ((m (b i)).x - (m (a i)).x)⁻¹ ∧ (m (a i)).x ≠ (m (b i)).x ∧
      PtRep (m (a i)) (P i) ∧ PtRep (m (b i)) (Q i)) →
    ∃ m', maFinish ca c a b t k s m = some m' ∧
      (∀ i, s ≤ i → i < s + k → PtRep (m' (c i)) (P i + Q i)) ∧
      ∀ l, (∀ i, s ≤ i → i < s + k → c i ≠ l) → m' l = m l
  | 0, s, m, _, _ => ⟨m, rfl, fun i h1 h2 => by omega, fun l _ => rfl⟩
  | k + 1, s, m, h, hv => by
    obtain ⟨ht, hx, hP, hQ⟩ := hv s le_rfl (by omega)
    obtain ⟨m1, e1, h1, ho⟩ := add_rep h2 hP hQ (c s)
    have hadd : (if (m (a s)).inf then some (set m (c s) (b s))
      else if (m (b s)).inf then some (set m (c s) (a s))
      else if (m (a s)).x = (m (b s)).x then
        if (m (a s)).y = (m (b s)).y then
          if (m (a s)).y = 0 then some (wInf m (c s) true)
          else doubleNoCheck ca m (c s) (a s)
        else some (wInf m (c s) true)
      else
        let e2 := (m (b s)).y - (m (a s)).y
        let e2 := e2 * t s
        let e0 := e2 ^ 2
        let e0 := e0 - (m (a s)).x
        let e0 := e0 - (m (b s)).x
        let e1 := (m (a s)).x - e0
        let e1 := e1 * e2
        let e1 := e1 - (m (a s)).y
        let m := wX m (c s) e0
        let m := wY m (c s) e1
        some (wInf m (c s) false)) = some m1 := by
      rw [← e1]
      unfold add
      dsimp only
      rw [inv_ne (sub_ne_zero.2 (Ne.symm hx)), ht]
    have hm : ∀ i, s + 1 ≤ i → i < s + 1 + k → m1 (a i) = m (a i) ∧ m1 (b i) = m (b i) := by
      intro i hi1 hi2
      have := h s i le_rfl (by omega) (by omega) (by omega) (by omega)
      exact ⟨ho _ this.1.symm, ho _ this.2.1.symm⟩
    obtain ⟨m2, e2, h3, h4⟩ := maFinish_rep h2 c a b t P Q k (s + 1) m1
      (fun i j h1 h2 h3 h4 => h i j (by omega) (by omega) (by omega) (by omega))
      (fun i h1 h2 => by
        rw [(hm i h1 h2).1, (hm i h1 h2).2]; exact hv i (by omega) (by omega))
    refine ⟨m2, ?_, ?_, ?_⟩
    · unfold maFinish
      dsimp only at hadd ⊢
      rw [hadd]
      exact e2
    · intro i hi1 hi2
      by_cases his : i = s
      · subst his
        rw [h4 (c i) (fun j hj1 hj2 => (h j i (by omega) (by omega) (by omega) (by omega) (by omega)).2.2)]
        exact h1
      · exact h3 i (by omega) (by omega)
    · intro l hl
      rw [h4 l (fun i hi1 hi2 => hl i (by omega) (by omega)), ho l (Ne.symm (hl s le_rfl (by omega)))]

theorem multiAdd_rep (h2 : (2 : K) ≠ 0) {m : Mem K} {c a b : ℕ → ℕ} {n : ℕ} (hn : 1 ≤ n)
    {P Q : ℕ → (EC ca cb).Point} (hP : ∀ i < n, PtRep (m (a i)) (P i))
    (hQ : ∀ i < n, PtRep (m (b i)) (Q i)) (hx : ∀ i < n, (m (a i)).x ≠ (m (b i)).x)
    (hca : ∀ i < n, ∀ j < n, i ≠ j → c i ≠ a j ∧ c i ≠ b j ∧ c i ≠ c j) :
    ∃ m', multiAdd ca m c a b n = some m' ∧ (∀ i < n, PtRep (m' (c i)) (P i + Q i)) ∧
      ∀ l, (∀ i < n, c i ≠ l) → m' l = m l := by
  unfold multiAdd
  dsimp only
  obtain ⟨e, he, ht⟩ := table_spec (fun i => (m (b i)).x - (m (a i)).x) n hn
    (fun i hi => sub_ne_zero.2 (Ne.symm (hx i hi)))
  rw [he]
  dsimp only
  obtain ⟨m', e', h3, h4⟩ := maFinish_rep h2 c a b _ P Q n 0 m
    (fun i j _ h3 _ h4 h5 => hca i (by omega) j (by omega) h5)
    (fun i _ hi => ⟨ht i (by omega), hx i (by omega), hP i (by omega), hQ i (by omega)⟩)
  exact ⟨m', e', fun i hi => h3 i (by omega) (by omega), fun l hl => h4 l fun i _ hi => hl i (by omega)⟩

end Pbc.Curve
