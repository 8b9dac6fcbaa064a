/-
Lemmas on the enumeration of forms and on the product of factors.
-/
import Verif.Model.Hilbert
import Verif.Spec.Forms
import Mathlib.Data.List.Range
import Mathlib.Tactic

set_option autoImplicit false

namespace Pbc.Hilbert

open Spec.Forms

/-- The values of `a` met for one `b`. -/
def rowAs (t a : ℕ) : List ℕ :=
  (List.range' a (Nat.sqrt t + 1 - a)).filter (fun x => t % x = 0)

theorem loopA_eq {S : Type*} (visit : ℕ → ℕ → ℕ → S → S) (t b : ℕ) :
    ∀ (fuel a : ℕ) (s : S), a * a ≤ t → Nat.sqrt t + 1 - a ≤ fuel →
      loopA visit t b fuel a s = some ((rowAs t a).foldl (fun s x => visit x b t s) s) := by
  intro fuel
  induction fuel with
  | zero =>
    intro a s h1 h2
    have := Nat.le_sqrt.2 h1
    omega
  | succ n ih =>
    intro a s h1 h2
    have ha := Nat.le_sqrt.2 h1
    obtain ⟨k, hk⟩ : ∃ k, Nat.sqrt t + 1 - a = k + 1 := ⟨Nat.sqrt t - a, by omega⟩
    have hk' : Nat.sqrt t + 1 - (a + 1) = k := by omega
    simp only [loopA]
    have hrow : ∀ s : S, (rowAs t a).foldl (fun s x => visit x b t s) s =
        (rowAs t (a + 1)).foldl (fun s x => visit x b t s) (if t % a = 0 then visit a b t s else s) := by
      intro s
      rw [rowAs, rowAs, hk, hk', List.range'_succ, List.filter_cons]
      by_cases h : t % a = 0
      · simp [h]
      · simp [h]
    rw [hrow]
    split
    next h3 => exact ih (a + 1) _ h3 (by omega)
    next h3 =>
      have : Nat.sqrt t < a + 1 := Nat.sqrt_lt.2 (by omega)
      have : k = 0 := by omega
      rw [rowAs, hk', this]
      rfl

/-- The values of `b` of the outer loop. -/
def rowBs (D b : ℕ) : List ℕ := List.range' b ((bound D - b) / 2 + 1) 2

theorem loopB_eq {S : Type*} (row : ℕ → ℕ → S → Option S) (f : ℕ → S → S) (D : ℕ) :
    ∀ (fuel b : ℕ) (s : S), b ≤ bound D → (bound D - b) / 2 + 1 ≤ fuel →
      (∀ b' s, b' ≤ bound D → b' % 2 = b % 2 → row ((b' * b' + D) / 4) b' s = some (f b' s)) →
      loopB row D fuel b s = some ((rowBs D b).foldl (fun s x => f x s) s) := by
  intro fuel
  induction fuel with
  | zero => intro b s h1 h2; omega
  | succ n ih =>
    intro b s h1 h2 hrow
    simp only [loopB]
    rw [hrow b s h1 rfl]
    simp only
    split
    next h3 =>
      have : (bound D - b) / 2 = 0 := by omega
      rw [rowBs, this]
      rfl
    next h3 =>
      rw [ih (b + 2) _ (by omega) (by omega) (fun b' s hb hb' => hrow b' s hb (by omega))]
      rw [rowBs, rowBs, show (bound D - b) / 2 + 1 = ((bound D - (b + 2)) / 2 + 1) + 1 by omega]
      conv_rhs => rw [List.range'_succ, List.foldl_cons]

/-- The pairs `(a, b)` met by the second pass, in order. -/
def visited (D : ℕ) : List (ℕ × ℕ) :=
  (rowBs D (D % 2)).flatMap (fun b => (rowAs ((b * b + D) / 4) (max b 1)).map (fun a => (a, b)))

theorem bound_sq {D b : ℕ} (h : b ≤ bound D) : 3 * (b * b) ≤ D := by
  have := Nat.le_sqrt.1 h
  omega

theorem le_bound {D b : ℕ} (h : 3 * (b * b) ≤ D) : b ≤ bound D := Nat.le_sqrt.2 (by omega)

theorem sqrt_le_self' (t : ℕ) : Nat.sqrt t ≤ t := Nat.sqrt_le_self t

theorem start_sq {D b : ℕ} (hD : 3 ≤ D) (h : b ≤ bound D) (hp : b % 2 = D % 2) :
    max b 1 * max b 1 ≤ (b * b + D) / 4 := by
  have h1 := bound_sq h
  by_cases hb : b ≤ 1
  · rw [max_eq_right hb]
    have : b = 0 ∨ b = 1 := by omega
    rcases this with rfl | rfl <;> omega
  · rw [max_eq_left (by omega)]
    omega

theorem start_le_bound {D : ℕ} (hD : 3 ≤ D) : D % 2 ≤ bound D := by
  have : 1 ≤ bound D := le_bound (by omega)
  omega

theorem t_le {D b : ℕ} (h : b ≤ bound D) : (b * b + D) / 4 ≤ D := by
  have := bound_sq h
  omega

/-- The second pass folds over the visited pairs. -/
theorem second_eq {S : Type*} (visit : ℕ → ℕ → ℕ → S → S) (D fuel : ℕ) (hD : 3 ≤ D)
    (hf : D ≤ fuel) (s : S) :
    loopB (rowVisit visit fuel) D fuel (D % 2) s =
      some ((visited D).foldl (fun s p => visit p.1 p.2 ((p.2 * p.2 + D) / 4) s) s) := by
  have hB : bound D ≤ D / 3 := Nat.sqrt_le_self _
  rw [loopB_eq (rowVisit visit fuel)
    (fun b s => (rowAs ((b * b + D) / 4) (max b 1)).foldl
      (fun s x => visit x b ((b * b + D) / 4) s) s) D fuel (D % 2) s (start_le_bound hD)
      (by omega)]
  · rw [visited, List.foldl_flatMap]
    simp only [List.foldl_map]
  · intro b s hb hpar
    rw [rowVisit, show (if 1 < b then b else 1) = max b 1 by
      rw [max_def]; split_ifs <;> omega]
    refine loopA_eq visit _ b fuel _ s (start_sq hD hb (by omega)) ?_
    have h1 := Nat.sqrt_le_self ((b * b + D) / 4)
    have h2 := t_le hb
    have : 1 ≤ max b 1 := le_max_right _ _
    omega

/-- What is left of the first row when the pair `(1, b)` has been taken. -/
theorem rowAs_one {t : ℕ} (h : 1 ≤ t) : rowAs t 1 = 1 :: rowAs t 2 := by
  have : 1 ≤ Nat.sqrt t := Nat.le_sqrt.2 (by omega)
  rw [rowAs, rowAs, show Nat.sqrt t + 1 - 1 = (Nat.sqrt t + 1 - 2) + 1 by omega,
    List.range'_succ, List.filter_cons]
  simp [Nat.mod_one]

theorem rowAs_two {t : ℕ} (h : ¬ 2 * 2 ≤ t) : rowAs t 2 = [] := by
  have : Nat.sqrt t < 2 := Nat.sqrt_lt.2 (by omega)
  rw [rowAs, show Nat.sqrt t + 1 - 2 = 0 by omega]
  rfl

/-- The first pass folds over the same pairs, starting from nothing. -/
theorem first_eq (D fuel : ℕ) (hD : 3 ≤ D) (hf : D ≤ fuel) :
    firstPass fuel D =
      some ((visited D).foldl (fun s p => Count.visit p.1 p.2 ((p.2 * p.2 + D) / 4) s) ⟨0, 0, 0⟩) := by
  have hB : bound D ≤ D / 3 := Nat.sqrt_le_self _
  have hfirst : ∀ b, b ≤ 1 → Count.visit 1 b ((b * b + D) / 4) ⟨0, 0, 0⟩ = ⟨1, 1, 1⟩ := by
    intro b hb
    have : isSingle 1 b ((b * b + D) / 4) = true := by
      have : b = 0 ∨ b = 1 := by omega
      rcases this with rfl | rfl <;> simp [isSingle]
    rw [Count.visit, if_pos this]
    norm_num
  have hsplit : visited D = (1, D % 2) ::
      ((rowAs ((D % 2 * (D % 2) + D) / 4) 2).map (fun a => (a, D % 2)) ++
      ((List.range' (D % 2 + 2) ((bound D - D % 2) / 2) 2).flatMap (fun b =>
        (rowAs ((b * b + D) / 4) (max b 1)).map (fun a => (a, b))))) := by
    rw [visited, rowBs, List.range'_succ, List.flatMap_cons,
      show max (D % 2) 1 = 1 from max_eq_right (by omega), rowAs_one, List.map_cons,
      List.cons_append]
    have h1 := start_sq hD (start_le_bound hD) (by omega)
    rw [show max (D % 2) 1 = 1 from max_eq_right (by omega)] at h1
    omega
  rw [firstPass]
  rw [loopB_eq (rowCount fuel)
    (fun b s => (rowAs ((b * b + D) / 4) (max b 2)).foldl
      (fun s x => Count.visit x b ((b * b + D) / 4) s) s) D fuel (D % 2) _ (start_le_bound hD)
      (by omega)]
  · rw [hsplit, List.foldl_cons, hfirst _ (by omega), List.foldl_append, List.foldl_map,
      rowBs, List.range'_succ, List.foldl_cons, List.foldl_flatMap,
      show max (D % 2) 2 = 2 from max_eq_right (by omega)]
    congr 1
    apply List.foldl_ext
    intro s b hb
    rw [List.mem_range'] at hb
    obtain ⟨i, hi, rfl⟩ := hb
    rw [List.foldl_map, max_eq_left (by omega), max_eq_left (by omega)]
  · intro b s hb hpar
    rw [rowCount]
    have h1 := Nat.sqrt_le_self ((b * b + D) / 4)
    have h2 := t_le hb
    split
    next h =>
      rw [show max b 2 = 2 from max_eq_right (by omega)]
      split
      next h4 => exact loopA_eq _ _ b fuel _ s h4 (by omega)
      next h4 => rw [rowAs_two h4]; rfl
    next h =>
      rw [show max b 2 = b from max_eq_left (by omega)]
      refine loopA_eq _ _ b fuel _ s ?_ (by omega)
      have := start_sq hD hb (by omega)
      rwa [max_eq_left (by omega)] at this

theorem mem_rowAs {t a x : ℕ} (ha : 1 ≤ a) : x ∈ rowAs t a ↔ a ≤ x ∧ x * x ≤ t ∧ x ∣ t := by
  rw [rowAs, List.mem_filter, List.mem_range'_1, decide_eq_true_eq, ← Nat.dvd_iff_mod_eq_zero,
    ← Nat.le_sqrt]
  constructor
  · rintro ⟨⟨h1, h2⟩, h3⟩; exact ⟨h1, by omega, h3⟩
  · rintro ⟨h1, h2, h3⟩; exact ⟨⟨h1, by omega⟩, h3⟩

theorem mem_rowBs {D b : ℕ} (hD : 3 ≤ D) : b ∈ rowBs D (D % 2) ↔ b % 2 = D % 2 ∧ b ≤ bound D := by
  have h0 := start_le_bound hD
  rw [rowBs, List.mem_range']
  constructor
  · rintro ⟨i, hi, rfl⟩; omega
  · rintro ⟨h1, h2⟩
    exact ⟨(b - D % 2) / 2, by omega, by omega⟩

theorem sq_mod_four (b : ℕ) : b * b % 4 = b % 2 := by
  rcases Nat.even_or_odd' b with ⟨k, rfl | rfl⟩
  · rw [show 2 * k * (2 * k) = 4 * (k * k) by ring]; omega
  · rw [show (2 * k + 1) * (2 * k + 1) = 4 * (k * k + k) + 1 by ring]; omega

/-- The visited pairs are the reduced forms with `b ≥ 0`. -/
theorem mem_visited {D : ℕ} (hD : 3 ≤ D) (h4 : D % 4 = 0 ∨ D % 4 = 3) (a b : ℕ) :
    (a, b) ∈ visited D ↔ 1 ≤ a ∧ b ≤ a ∧ ∃ c, a ≤ c ∧ b * b + D = 4 * (a * c) := by
  have hq := sq_mod_four b
  rw [visited, List.mem_flatMap]
  constructor
  · rintro ⟨b', hb', hm⟩
    rw [List.mem_map] at hm
    obtain ⟨a', ha', he⟩ := hm
    rw [Prod.mk.injEq] at he
    obtain ⟨rfl, rfl⟩ := he
    rw [mem_rowAs (le_max_right _ _)] at ha'
    obtain ⟨k1, k2, c, hc⟩ := ha'
    rw [mem_rowBs hD] at hb'
    have h1 : 1 ≤ a' := le_trans (le_max_right _ _) k1
    refine ⟨h1, le_trans (le_max_left _ _) k1, c, ?_, ?_⟩
    · rw [hc] at k2
      exact Nat.le_of_mul_le_mul_left k2 h1
    · omega
  · rintro ⟨h1, h2, c, h3, h5⟩
    have hac : a * a ≤ a * c := Nat.mul_le_mul_left a h3
    have hba : b * b ≤ a * a := Nat.mul_le_mul h2 h2
    refine ⟨b, ?_, ?_⟩
    · rw [mem_rowBs hD]
      exact ⟨by omega, le_bound (by omega)⟩
    · rw [List.mem_map]
      refine ⟨a, ?_, rfl⟩
      rw [mem_rowAs (le_max_right _ _), show (b * b + D) / 4 = a * c by omega]
      exact ⟨max_le h2 h1, hac, a.dvd_mul_right c⟩

theorem visited_nodup (D : ℕ) : (visited D).Nodup := by
  rw [visited, List.nodup_flatMap]
  constructor
  · intro b _
    refine List.Nodup.map (fun x y h => (Prod.mk.inj h).1) ?_
    exact (List.nodup_range' (step := 1) (by omega)).filter _
  · refine List.Pairwise.imp ?_ (List.nodup_range' (step := 2) (by omega))
    intro x y hxy
    rw [Function.onFun, List.disjoint_left]
    intro p h1 h2
    rw [List.mem_map] at h1 h2
    obtain ⟨_, _, rfl⟩ := h1
    obtain ⟨_, _, h⟩ := h2
    exact hxy (Prod.mk.inj h).2.symm

end Pbc.Hilbert
