import Verif.Model.Mnt
import Mathlib.Data.Int.ModEq
import Mathlib.Data.Set.Finite.Lattice
import Mathlib.Data.Finite.Prod
import Mathlib.Algebra.Group.Even
import Mathlib.Order.Interval.Set.Infinite
import Mathlib.Order.Interval.Finset.Defs
import Mathlib.Data.Int.Interval
import Mathlib.Dynamics.PeriodicPts.Lemmas
import Mathlib.Tactic.Ring
import Mathlib.Algebra.Order.Ring.Abs
import Mathlib.Tactic.Linarith
import Mathlib.Tactic.LinearCombination
import Mathlib.Tactic.IntervalCases
import Mathlib.Tactic.NormNum.Prime

/-!
# C57, C58, C59: Pell equations, MNT curves and Freeman curves
-/

set_option autoImplicit false

namespace Props

open Pbc.Mnt

/-! ## The continued fraction expansion -/

theorem root_spec {D : ℤ} (hD : 0 < D) (hsq : ¬ IsSquare D) :
    0 < root D ∧ root D * root D < D ∧ D < (root D + 1) * (root D + 1) := by
  obtain ⟨n, rfl⟩ := Int.eq_ofNat_of_zero_le hD.le
  have h1 : Nat.sqrt n * Nat.sqrt n ≤ n := Nat.sqrt_le n
  have h2 : n < (Nat.sqrt n + 1) * (Nat.sqrt n + 1) := Nat.lt_succ_sqrt n
  have h3 : Nat.sqrt n * Nat.sqrt n ≠ n := by
    intro e; apply hsq; exact ⟨(Nat.sqrt n : ℤ), by exact_mod_cast e.symm⟩
  have h4 : 0 < Nat.sqrt n := Nat.sqrt_pos.2 (by exact_mod_cast hD)
  have e : root ((n : ℕ) : ℤ) = (Nat.sqrt n : ℤ) := by simp [root]
  rw [e]
  refine ⟨by exact_mod_cast h4, ?_, by exact_mod_cast h2⟩
  exact_mod_cast lt_of_le_of_ne h1 h3

/-- A reduced pair `(P, Q)`. -/
structure Reduced (D P Q : ℤ) : Prop where
  le : P ≤ root D
  pos : 0 < P
  lt : root D - P < Q
  ge : Q ≤ root D + P
  dvd : Q ∣ D - P * P

theorem Reduced.qpos {D P Q : ℤ} (h : Reduced D P Q) : 0 < Q := by have := h.lt; have := h.le; omega

/-- The partial quotient. -/
theorem Reduced.quot {D P Q : ℤ} (h : Reduced D P Q) :
    1 ≤ Int.tdiv (root D + P) Q ∧ Int.tdiv (root D + P) Q * Q ≤ root D + P ∧
      root D + P < Int.tdiv (root D + P) Q * Q + Q := by
  have hQ := h.qpos
  have hs : 0 ≤ root D + P := by have := h.ge; omega
  rw [Int.tdiv_eq_ediv_of_nonneg hs]
  have h1 := Int.mul_ediv_add_emod (root D + P) Q
  have h2 := Int.emod_nonneg (root D + P) hQ.ne'
  have h3 := Int.emod_lt_of_pos (root D + P) hQ
  refine ⟨?_, by nlinarith, by nlinarith⟩
  rw [Int.le_ediv_iff_mul_le hQ]
  have := h.ge
  omega

/-- The next pair. -/
def nextP (D P Q : ℤ) : ℤ := Int.tdiv (root D + P) Q * Q - P

/-- The next pair. -/
def nextQ (D P Q : ℤ) : ℤ := Int.tdiv (D - nextP D P Q * nextP D P Q) Q

theorem nextQ_mul {D P Q : ℤ} (h : Reduced D P Q) :
    nextQ D P Q * Q = D - nextP D P Q * nextP D P Q := by
  rw [nextQ]
  apply Int.tdiv_mul_cancel
  obtain ⟨k, hk⟩ := h.dvd
  rw [nextP]
  generalize Int.tdiv (root D + P) Q = a
  exact ⟨k - a * a * Q + 2 * a * P, by linear_combination hk⟩

theorem Reduced.next {D P Q : ℤ} (hD : 0 < D) (hsq : ¬ IsSquare D) (h : Reduced D P Q) :
    Reduced D (nextP D P Q) (nextQ D P Q) := by
  obtain ⟨r1, r2, r3⟩ := root_spec hD hsq
  obtain ⟨a1, a2, a3⟩ := h.quot
  have hQ := h.qpos
  have hm := nextQ_mul h
  have e : nextP D P Q = Int.tdiv (root D + P) Q * Q - P := rfl
  have hle : nextP D P Q ≤ root D := by rw [e]; omega
  have hgt : root D - Q < nextP D P Q := by rw [e]; omega
  have hge : Q - P ≤ nextP D P Q := by
    rw [e]; nlinarith
  have hpos : 0 < nextP D P Q := by have := h.le; omega
  have hle2 : Q ≤ nextP D P Q + root D := by
    have := h.le; omega
  generalize nextP D P Q = P' at *
  generalize nextQ D P Q = Q' at *
  have hQ' : 0 < Q' := by
    have : 0 < Q' * Q := by rw [hm]; nlinarith
    by_contra hc
    have : Q' * Q ≤ 0 := by nlinarith
    omega
  refine ⟨hle, hpos, ?_, ?_, ⟨Q, by rw [← hm]⟩⟩
  · by_contra hc
    have hc : Q' ≤ root D - P' := by omega
    have : Q' * Q ≤ (root D - P') * (P' + root D) := by
      calc Q' * Q ≤ (root D - P') * Q := by nlinarith
        _ ≤ _ := by nlinarith
    nlinarith
  · by_contra hc
    have hc : root D + P' + 1 ≤ Q' := by omega
    have : (root D + P' + 1) * (root D - P' + 1) ≤ Q' * Q := by
      calc (root D + P' + 1) * (root D - P' + 1) ≤ (root D + P' + 1) * Q := by nlinarith
        _ ≤ _ := by nlinarith
    nlinarith

theorem reduced_start {D : ℤ} (hD : 0 < D) (hsq : ¬ IsSquare D) :
    Reduced D (root D) (D - root D * root D) := by
  obtain ⟨r1, r2, r3⟩ := root_spec hD hsq
  exact ⟨le_rfl, r1, by omega, by nlinarith, dvd_rfl⟩

/-- The pair before can be computed from a reduced pair. -/
theorem next_inj {D P Q P' Q' : ℤ} (hD : 0 < D) (hsq : ¬ IsSquare D) (h : Reduced D P Q)
    (h' : Reduced D P' Q') (h1 : nextP D P Q = nextP D P' Q') (h2 : nextQ D P Q = nextQ D P' Q') :
    P = P' ∧ Q = Q' := by
  have hn := h.next hD hsq
  have m1 := nextQ_mul h
  have m2 := nextQ_mul h'
  have hQ : Q = Q' := by
    have : nextQ D P Q * Q = nextQ D P Q * Q' := by rw [m1, h1, h2, m2]
    exact Int.eq_of_mul_eq_mul_left hn.qpos.ne' this
  subst hQ
  refine ⟨?_, rfl⟩
  have e : nextP D P Q = Int.tdiv (root D + P) Q * Q - P := rfl
  have e' : nextP D P' Q = Int.tdiv (root D + P') Q * Q - P' := rfl
  have hQ := h.qpos
  have hd : (Int.tdiv (root D + P) Q - Int.tdiv (root D + P') Q) * Q = P - P' := by
    have := h1; rw [e, e'] at this; linear_combination this
  have hb1 : P - P' < Q := by have := h.le; have := h'.lt; omega
  have hb2 : -Q < P - P' := by have := h'.le; have := h.lt; omega
  generalize Int.tdiv (root D + P) Q - Int.tdiv (root D + P') Q = c at hd
  have : c = 0 := by nlinarith
  rw [this] at hd
  omega

/-- What the loop keeps true. -/
structure Good (D : ℤ) (s : CF) : Prop where
  red : Reduced D s.P1 s.Q1
  quot : s.a1 = Int.tdiv (root D + s.P1) s.Q1
  sign : s.d = 1 ∨ s.d = -1
  norm : s.p0 * s.p0 - D * (s.q0 * s.q0) = s.d * s.Q1
  mixed : s.p0 * s.p1 - D * (s.q0 * s.q1) = s.d * (s.a1 * s.Q1 - s.P1)
  det : (s.p1 * s.q0 - s.p0 * s.q1) * (s.p1 * s.q0 - s.p0 * s.q1) = 1

theorem good_start {D : ℤ} (hD : 0 < D) (hsq : ¬ IsSquare D) : Good D (cfStart D) := by
  refine ⟨reduced_start hD hsq, rfl, Or.inr rfl, ?_, ?_, ?_⟩ <;> simp only [cfStart] <;> ring

theorem good_step {D : ℤ} (hD : 0 < D) (hsq : ¬ IsSquare D) {s : CF} (h : Good D s) :
    Good D (cfStep D s) := by
  obtain ⟨hr, ha, hd, hn, hm, hdet⟩ := h
  have hP : s.a1 * s.Q1 - s.P1 = nextP D s.P1 s.Q1 := by rw [ha]; rfl
  have hQ' := nextQ_mul hr
  have hq := hr.qpos
  have hdd : s.d * s.d = 1 := by rcases hd with h | h <;> rw [h] <;> rfl
  have e1 : (cfStep D s).P1 = nextP D s.P1 s.Q1 := hP
  have e2 : (cfStep D s).Q1 = nextQ D s.P1 s.Q1 := by
    show Int.tdiv (D - (s.a1 * s.Q1 - s.P1) * (s.a1 * s.Q1 - s.P1)) s.Q1 = _
    rw [hP]; rfl
  have e3 : (cfStep D s).a1 = Int.tdiv (root D + (cfStep D s).P1) (cfStep D s).Q1 := rfl
  -- the norm of the next convergent
  have hC : s.p1 * s.p1 - D * (s.q1 * s.q1) = -s.d * nextQ D s.P1 s.Q1 := by
    rw [hP] at hm
    have hid : (s.p0 * s.p1 - D * (s.q0 * s.q1)) * (s.p0 * s.p1 - D * (s.q0 * s.q1)) -
        (s.p0 * s.p0 - D * (s.q0 * s.q0)) * (s.p1 * s.p1 - D * (s.q1 * s.q1)) =
        D * ((s.p1 * s.q0 - s.p0 * s.q1) * (s.p1 * s.q0 - s.p0 * s.q1)) := by ring
    rw [hm, hn, hdet] at hid
    have : s.Q1 * (s.p1 * s.p1 - D * (s.q1 * s.q1)) = s.Q1 * (-s.d * nextQ D s.P1 s.Q1) := by
      generalize s.p1 * s.p1 - D * (s.q1 * s.q1) = C at *
      generalize nextP D s.P1 s.Q1 = P' at *
      linear_combination -s.d * hid + (s.d * P' * P' - C * s.Q1) * hdd + s.d * hQ'
    exact Int.eq_of_mul_eq_mul_left hq.ne' this
  refine ⟨by rw [e1, e2]; exact hr.next hD hsq, e3, ?_, ?_, ?_, ?_⟩
  · show -s.d = 1 ∨ -s.d = -1
    rcases hd with h | h <;> rw [h] <;> simp
  · rw [e2]; exact hC
  · rw [e2, e1]
    show s.p1 * ((cfStep D s).a1 * s.p1 + s.p0) - D * (s.q1 * ((cfStep D s).a1 * s.q1 + s.q0)) =
      -s.d * _
    rw [hP] at hm
    linear_combination (cfStep D s).a1 * hC + hm
  · show (((cfStep D s).a1 * s.p1 + s.p0) * s.q1 - s.p1 * ((cfStep D s).a1 * s.q1 + s.q0)) *
      (((cfStep D s).a1 * s.p1 + s.p0) * s.q1 - s.p1 * ((cfStep D s).a1 * s.q1 + s.q0)) = 1
    linear_combination hdet

/-- At the end of a period `Q = 1`. -/
theorem good_exit {D : ℤ} (hD : 0 < D) (hsq : ¬ IsSquare D) {s : CF} (h : Good D s)
    (he : root D + root D = s.a1) : s.Q1 = 1 := by
  obtain ⟨r1, _, _⟩ := root_spec hD hsq
  obtain ⟨_, a2, _⟩ := h.red.quot
  rw [← h.quot, ← he] at a2
  have := h.red.qpos
  have := h.red.le
  by_contra hc
  have : 2 ≤ s.Q1 := by omega
  nlinarith

theorem found_sound {D N : ℤ} {s : CF} (h : Good D s) {xy : ℤ × ℤ} (hm : xy ∈ cfFound N s) :
    xy.1 * xy.1 - D * (xy.2 * xy.2) = N := by
  rw [cfFound] at hm
  by_cases hd : s.d = if N > 0 then 1 else -1
  · rw [if_pos hd] at hm
    simp only [List.mem_map, List.mem_filter, decide_eq_true_eq] at hm
    obtain ⟨f, ⟨hf, hQ⟩, rfl⟩ := hm
    rw [squareFactors, List.mem_filter, decide_eq_true_eq] at hf
    have hdiv : ((N.natAbs / (f * f) : ℕ) : ℤ) * ((f : ℤ) * f) = N.natAbs := by
      exact_mod_cast Nat.div_mul_cancel (Nat.dvd_of_mod_eq_zero hf.2)
    have hn := h.norm
    rw [hQ] at hn
    have hN : s.d * (N.natAbs : ℤ) = N := by
      rw [hd]
      split_ifs <;> omega
    show s.p0 * (f : ℤ) * (s.p0 * (f : ℤ)) - D * (s.q0 * (f : ℤ) * (s.q0 * (f : ℤ))) = N
    linear_combination (f : ℤ) * f * hn + s.d * hdiv + hN
  · rw [if_neg hd] at hm
    simp at hm

theorem cfLoop_sound {D N : ℤ} (hD : 0 < D) (hsq : ¬ IsSquare D) (fuel : ℕ) (s : CF)
    (sols : List (ℤ × ℤ)) (hs : Good D s)
    (hsols : ∀ xy ∈ sols, xy.1 * xy.1 - D * (xy.2 * xy.2) = N) (out : CF × List (ℤ × ℤ))
    (h : cfLoop D N fuel s sols = some out) :
    Good D out.1 ∧ out.1.Q1 = 1 ∧ out.1.d = 1 ∧ ∀ xy ∈ out.2, xy.1 * xy.1 - D * (xy.2 * xy.2) = N := by
  induction fuel generalizing s sols with
  | zero => simp [cfLoop] at h
  | succ fuel ih =>
    rw [cfLoop] at h
    have hsols' : ∀ xy ∈ sols ++ cfFound N s, xy.1 * xy.1 - D * (xy.2 * xy.2) = N := by
      intro xy hm
      rcases List.mem_append.1 hm with hm | hm
      · exact hsols xy hm
      · exact found_sound hs hm
    split_ifs at h with hc
    · obtain rfl : (s, sols ++ cfFound N s) = out := by simpa using h
      exact ⟨hs, good_exit hD hsq hs hc.1, hc.2, hsols'⟩
    · exact ih _ _ (good_step hD hsq hs) hsols' h

/-- **C57.**  For every positive non-square `D` and every `N`: every pair the solver reports satisfies
`x² - D y² = N`, and the unit it reports satisfies `x² - D y² = 1`. -/
theorem C57_sound {D N : ℤ} (hD : 0 < D) (hsq : ¬ IsSquare D) (fuel : ℕ) (ps : Pell)
    (h : generalPell fuel D N = some ps) :
    ps.minx * ps.minx - D * (ps.miny * ps.miny) = 1 ∧
      ∀ xy ∈ ps.sols, xy.1 * xy.1 - D * (xy.2 * xy.2) = N := by
  rw [generalPell, Option.map_eq_some_iff] at h
  obtain ⟨out, h1, rfl⟩ := h
  obtain ⟨g, hQ, hd, hs⟩ := cfLoop_sound hD hsq fuel _ [] (good_start hD hsq) (by simp) out h1
  refine ⟨?_, hs⟩
  have := g.norm
  rw [hQ, hd] at this
  simpa using this

/-- **C57.**  Multiplying a solution by the unit gives a solution again. -/
theorem C57_advance {D N : ℤ} (ps : Pell) (xy : ℤ × ℤ)
    (hu : ps.minx * ps.minx - D * (ps.miny * ps.miny) = 1)
    (hs : xy.1 * xy.1 - D * (xy.2 * xy.2) = N) :
    (advance D ps xy).1 * (advance D ps xy).1 -
      D * ((advance D ps xy).2 * (advance D ps xy).2) = N := by
  simp only [advance]
  linear_combination (xy.1 * xy.1 - D * (xy.2 * xy.2)) * hu + hs

/-! ### The solver ends -/

/-- Reduced pairs with a sign. -/
abbrev RS (D : ℤ) := {x : (ℤ × ℤ) × Bool // Reduced D x.1.1 x.1.2}

instance finite_RS (D : ℤ) : Finite (RS D) := by
  have : Set.Finite {x : (ℤ × ℤ) × Bool | Reduced D x.1.1 x.1.2} := by
    apply Set.Finite.subset
      (((Set.finite_Icc (0 : ℤ) (root D)).prod (Set.finite_Icc (0 : ℤ) (2 * root D))).prod
        (Set.finite_univ (α := Bool)))
    rintro ⟨⟨P, Q⟩, b⟩ h
    have h : Reduced D P Q := h
    have := h.le; have := h.pos; have := h.ge; have := h.qpos
    exact ⟨⟨⟨h.pos.le, h.le⟩, ⟨h.qpos.le, by show Q ≤ _; omega⟩⟩, trivial⟩
  exact this.to_subtype

/-- The step on reduced pairs. -/
def rsNext {D : ℤ} (hD : 0 < D) (hsq : ¬ IsSquare D) (x : RS D) : RS D :=
  ⟨((nextP D x.1.1.1 x.1.1.2, nextQ D x.1.1.1 x.1.1.2), !x.1.2), x.2.next hD hsq⟩

theorem rsNext_injective {D : ℤ} (hD : 0 < D) (hsq : ¬ IsSquare D) :
    Function.Injective (rsNext hD hsq) := by
  rintro ⟨⟨⟨P, Q⟩, b⟩, h⟩ ⟨⟨⟨P', Q'⟩, b'⟩, h'⟩ e
  simp only [rsNext, Subtype.mk.injEq, Prod.mk.injEq, Bool.not_inj_iff] at e
  obtain ⟨e1, e2⟩ := next_inj hD hsq h h' e.1.1 e.1.2
  obtain rfl : P = P' := e1
  obtain rfl : Q = Q' := e2
  simp [e.2]

/-- The pair of a state. -/
def rsOf {D : ℤ} (s : CF) (h : Good D s) : RS D := ⟨((s.P1, s.Q1), decide (s.d = 1)), h.red⟩

theorem rsOf_step {D : ℤ} (hD : 0 < D) (hsq : ¬ IsSquare D) (s : CF) (h : Good D s) :
    rsOf (cfStep D s) (good_step hD hsq h) = rsNext hD hsq (rsOf s h) := by
  have hP : s.a1 * s.Q1 - s.P1 = nextP D s.P1 s.Q1 := by rw [h.quot]; rfl
  apply Subtype.ext
  simp only [rsOf, rsNext, Prod.mk.injEq]
  refine ⟨⟨hP, ?_⟩, ?_⟩
  · show Int.tdiv (D - (s.a1 * s.Q1 - s.P1) * (s.a1 * s.Q1 - s.P1)) s.Q1 = _
    rw [hP]; rfl
  · show decide (-s.d = 1) = _
    rcases h.sign with e | e <;> rw [e] <;> rfl

theorem cfLoop_ends {D N : ℤ} (hD : 0 < D) (hsq : ¬ IsSquare D) (fuel : ℕ) (s : CF) (hs : Good D s)
    (hex : ∃ k < fuel, root D + root D = ((cfStep D)^[k] s).a1 ∧ ((cfStep D)^[k] s).d = 1)
    (sols : List (ℤ × ℤ)) : (cfLoop D N fuel s sols).isSome := by
  induction fuel generalizing s sols with
  | zero => obtain ⟨k, hk, _⟩ := hex; omega
  | succ fuel ih =>
    rw [cfLoop]
    split_ifs with hc
    · rfl
    · apply ih _ (good_step hD hsq hs)
      obtain ⟨k, hk, he⟩ := hex
      cases k with
      | zero => exact absurd he hc
      | succ k => exact ⟨k, by omega, by rw [Function.iterate_succ_apply] at he; exact he⟩

/-- **C57.**  For every positive non-square `D` the solver ends. -/
theorem C57_ends {D N : ℤ} (hD : 0 < D) (hsq : ¬ IsSquare D) : ∃ fuel ps, generalPell fuel D N = some ps := by
  have hg : ∀ k, Good D ((cfStep D)^[k] (cfStart D)) := by
    intro k
    induction k with
    | zero => exact good_start hD hsq
    | succ k ih => rw [Function.iterate_succ_apply']; exact good_step hD hsq ih
  have hrs : ∀ k, rsOf _ (hg k) = (rsNext hD hsq)^[k] (rsOf _ (hg 0)) := by
    intro k
    induction k with
    | zero => rfl
    | succ k ih =>
      rw [Function.iterate_succ_apply' (rsNext hD hsq), ← ih, ← rsOf_step]
      apply Subtype.ext
      simp only [rsOf, Function.iterate_succ_apply']
  obtain ⟨T, hT, hper⟩ := (rsNext_injective hD hsq).mem_periodicPts (rsOf _ (hg 0))
  obtain ⟨k, rfl⟩ : ∃ k, T = k + 1 := ⟨T - 1, by omega⟩
  have he : rsNext hD hsq (rsOf _ (hg k)) = rsOf _ (hg 0) := by
    rw [hrs k, ← Function.iterate_succ_apply' (rsNext hD hsq)]; exact hper
  set s := (cfStep D)^[k] (cfStart D) with hs
  have hg' : Good D s := hg k
  have he' := congrArg Subtype.val he
  simp only [rsNext, rsOf, Prod.mk.injEq] at he'
  obtain ⟨⟨e1, e2⟩, e3⟩ := he'
  have e1 : nextP D s.P1 s.Q1 = root D := e1
  have e2 : nextQ D s.P1 s.Q1 = D - root D * root D := e2
  have hd : s.d = 1 := by
    have : (!decide (s.d = 1)) = false := e3
    simpa using this
  have hQ : s.Q1 = 1 := by
    have hm := nextQ_mul hg'.red
    rw [e1, e2] at hm
    obtain ⟨_, r2, _⟩ := root_spec hD hsq
    have : (D - root D * root D) * s.Q1 = (D - root D * root D) * 1 := by linarith
    exact Int.eq_of_mul_eq_mul_left (by omega) this
  have hP : s.P1 = root D := by
    have h1 := hg'.red.lt
    have h2 := hg'.red.le
    omega
  have ha : root D + root D = s.a1 := by rw [hg'.quot, hQ, hP, Int.tdiv_one]
  have := cfLoop_ends (N := N) hD hsq (k + 1) (cfStart D) (good_start hD hsq) ⟨k, by omega, ha, hd⟩ []
  obtain ⟨out, h⟩ := Option.isSome_iff_exists.1 this
  exact ⟨k + 1, _, by rw [generalPell, h]; rfl⟩

/-- Three classes of solutions of `x² - 3045 y² = -20`, and the unit. -/
example : generalPell 10 3045 (-20) =
    some ⟨111823361, 2026464, [(55, 1), (33440, 606), (20298025, 367841)]⟩ := by decide +kernel

example : (0 : ℤ) < 3045 ∧ root 3045 * root 3045 ≠ 3045 := by decide +kernel

/-! ## The cofactor -/

theorem divOut_mul (p : ℤ) (fuel : ℕ) (rc out : ℤ × ℤ) (h : divOut p fuel rc = some out) :
    out.1 * out.2 = rc.1 * rc.2 := by
  induction fuel generalizing rc with
  | zero => simp [divOut] at h
  | succ fuel ih =>
    obtain ⟨r, c⟩ := rc
    rw [divOut] at h
    split_ifs at h with hc
    · rw [ih _ h]
      have := Int.tdiv_mul_cancel (Int.dvd_of_emod_eq_zero hc)
      show Int.tdiv r p * (c * p) = r * c
      linear_combination c * this
    · rw [← Option.some.inj h]

theorem splitLoop_spec (pp : ℤ → Bool) (np : ℤ → ℤ) (fuel : ℕ) (p : ℤ) (rc out : ℤ × ℤ)
    (h : splitLoop pp np fuel p rc = some (some out)) :
    out.1 * out.2 = rc.1 * rc.2 ∧ pp out.1 = true := by
  induction fuel generalizing p rc with
  | zero => simp [splitLoop] at h
  | succ fuel ih =>
    rw [splitLoop, Option.bind_eq_some_iff] at h
    obtain ⟨rc', h1, h2⟩ := h
    have e := divOut_mul p _ _ _ h1
    split_ifs at h2 with hp hs
    · obtain rfl : rc' = out := by simpa using h2
      exact ⟨e, hp⟩
    · simp at h2
    · obtain ⟨e1, e2⟩ := ih _ _ h2
      exact ⟨e1.trans e, e2⟩

theorem split_spec (pp : ℤ → Bool) (np : ℤ → ℤ) (fuel : ℕ) (n : ℤ) (out : ℤ × ℤ)
    (h : split pp np fuel n = some (some out)) : out.1 * out.2 = n ∧ pp out.1 = true := by
  rw [split] at h
  split_ifs at h with hp
  · obtain rfl : (n, (1 : ℤ)) = out := by simpa using h
    exact ⟨mul_one n, hp⟩
  · obtain ⟨e1, e2⟩ := splitLoop_spec pp np fuel 2 _ out h
    exact ⟨e1.trans (mul_one n), e2⟩

/-! ## The search -/

/-- Every curve reported comes from a solution of the equation. -/
theorem searchLoop_sound {D N : ℤ} (step2 : ℤ → Option (Option CM)) (stop : CM → Bool) (bitlimit : ℕ)
    (ps : Pell) (hu : ps.minx * ps.minx - D * (ps.miny * ps.miny) = 1) (fuel : ℕ)
    (done todo : List (ℤ × ℤ)) (hd : ∀ xy ∈ done, xy.1 * xy.1 - D * (xy.2 * xy.2) = N)
    (ht : ∀ xy ∈ todo, xy.1 * xy.1 - D * (xy.2 * xy.2) = N) (l : List CM)
    (h : searchLoop step2 stop bitlimit D ps fuel done todo = some l) (cm : CM) (hm : cm ∈ l) :
    ∃ U V : ℤ, U * U - D * (V * V) = N ∧ step2 U = some (some cm) := by
  induction fuel generalizing done todo l with
  | zero => simp [searchLoop] at h
  | succ fuel ih =>
    cases todo with
    | nil => rw [searchLoop] at h; exact ih [] done (by simp) hd l h hm
    | cons s todo =>
      rw [searchLoop, Option.bind_eq_some_iff] at h
      obtain ⟨c, h1, h2⟩ := h
      have hhere : cm ∈ c.toList →
          ∃ U V : ℤ, U * U - D * (V * V) = N ∧ step2 U = some (some cm) := by
        intro hc
        refine ⟨s.1, s.2, ht s (by simp), ?_⟩
        rw [h1]
        simpa using hc
      split_ifs at h2 with c1 c2
      · rw [← Option.some.inj h2] at hm; exact hhere hm
      · rw [← Option.some.inj h2] at hm; exact hhere hm
      · rw [Option.map_eq_some_iff] at h2
        obtain ⟨l', h3, rfl⟩ := h2
        rcases List.mem_append.1 hm with hm | hm
        · exact hhere hm
        · refine ih _ _ ?_ ?_ l' h3 hm
          · intro xy hx
            rcases List.mem_append.1 hx with hx | hx
            · exact hd xy hx
            · rw [List.mem_singleton.1 hx]
              exact C57_advance ps s hu (ht s (by simp))
          · intro xy hx; exact ht xy (by simp [hx])

theorem search_sound {D N : ℤ} (hD : 0 < D) (step2 : ℤ → Option (Option CM)) (stop : CM → Bool)
    (bitlimit fuel : ℕ) (l : List CM) (h : search step2 stop bitlimit fuel D N = some l) (cm : CM)
    (hm : cm ∈ l) : ∃ U V : ℤ, U * U - D * (V * V) = N ∧ step2 U = some (some cm) := by
  rw [search] at h
  split_ifs at h with hr
  · rw [← Option.some.inj h] at hm; simp at hm
  · have hsq : ¬ IsSquare D := by
      rintro ⟨x, hx⟩
      apply hr
      rw [hx, root]
      have : (x * x).toNat = x.natAbs * x.natAbs := by
        rw [← Int.natAbs_mul]
        have := mul_self_nonneg x
        omega
      rw [this, Nat.sqrt_eq, Int.natAbs_mul_self']
    rw [Option.bind_eq_some_iff] at h
    obtain ⟨ps, h1, h2⟩ := h
    obtain ⟨hu, hs⟩ := C57_sound hD hsq fuel ps h1
    split_ifs at h2 with he
    · rw [← Option.some.inj h2] at hm; simp at hm
    · exact searchLoop_sound step2 stop bitlimit ps hu fuel [] ps.sols (by simp) hs l h2 cm hm

/-! ## MNT curves -/

/-- What is claimed of a curve for the complex multiplication method: the discriminant, the order and
the trace `t = q + 1 - n` satisfy `4q = t² + D V²`, and the order is cofactor times prime. -/
structure CMCurve (pp : ℤ → Bool) (D : ℤ) (cm : CM) : Prop where
  disc : cm.D = D
  eqn : ∃ V : ℤ, 4 * cm.q - (cm.q + 1 - cm.n) * (cm.q + 1 - cm.n) = D * (V * V)
  order : cm.h * cm.r = cm.n
  qprime : pp cm.q = true
  rprime : pp cm.r = true

theorem mntStep2_spec (pp : ℤ → Bool) (np : ℤ → ℤ) (fuel : ℕ) (D U V : ℤ) (cm : CM)
    (hU : U * U - 3 * D * (V * V) = -8) (h : mntStep2 pp np fuel D U = some (some cm)) :
    CMCurve pp D cm ∧ cm.k = 6 ∧ cm.n ∣ cm.q * cm.q - cm.q + 1 := by
  rw [mntStep2] at h
  dsimp only at h
  by_cases c : U % 6 ≠ 1 ∧ U % 6 ≠ 5
  · rw [if_pos c] at h; simp at h
  rw [if_neg c] at h
  have key : ∀ l n : ℤ, (n = l * l + 1 - l ∨ n = l * l + 1 + l) →
      3 * (4 * (l * l + 1) - ((l * l + 1) + 1 - n) * ((l * l + 1) + 1 - n)) = U * U + 8 →
      (if ¬ pp (l * l + 1) = true then some none
        else (split pp np fuel n).map fun rc => rc.map fun rc =>
          (⟨6, D, l * l + 1, rc.1, rc.2, n⟩ : CM)) = some (some cm) →
      CMCurve pp D cm ∧ cm.k = 6 ∧ cm.n ∣ cm.q * cm.q - cm.q + 1 := by
    intro l n hn hU2 h
    by_cases hq : pp (l * l + 1) = true
    swap
    · rw [if_pos hq] at h; simp at h
    rw [if_neg (by simp [hq])] at h
    rw [Option.map_eq_some_iff] at h
    obtain ⟨rc, h1, h2⟩ := h
    rw [Option.map_eq_some_iff] at h2
    obtain ⟨rc, rfl, rfl⟩ := h2
    obtain ⟨e1, e2⟩ := split_spec pp np fuel n rc h1
    refine ⟨⟨rfl, ⟨V, ?_⟩, (mul_comm _ _).trans e1, hq, e2⟩, rfl, ?_⟩
    · have : 3 * (4 * (l * l + 1) - ((l * l + 1) + 1 - n) * ((l * l + 1) + 1 - n)) =
          3 * (D * (V * V)) := by rw [hU2]; linear_combination hU
      exact Int.eq_of_mul_eq_mul_left (by norm_num) this
    · show n ∣ (l * l + 1) * (l * l + 1) - (l * l + 1) + 1
      rcases hn with rfl | rfl
      · exact ⟨l * l + 1 + l, by ring⟩
      · exact ⟨l * l + 1 - l, by ring⟩
  by_cases c1 : U % 6 = 1
  · rw [if_pos c1, if_pos c1] at h
    obtain ⟨m, hm⟩ : ∃ m, U = 6 * m + 1 := ⟨U / 6, by omega⟩
    have hl : Int.tdiv (U - 1) 3 = 2 * m := by
      rw [show U - 1 = 3 * (2 * m) by omega, Int.mul_tdiv_cancel_left _ (by norm_num)]
    rw [hl] at h
    rw [if_neg (by norm_num : ¬ (1 : ℤ) < 0)] at h
    exact key (2 * m) _ (Or.inr rfl) (by rw [hm]; ring) h
  · have c5 : U % 6 = 5 := by omega
    rw [if_neg c1, if_neg c1] at h
    obtain ⟨m, hm⟩ : ∃ m, U = 6 * m - 1 := ⟨U / 6 + 1, by omega⟩
    have hl : Int.tdiv (U + 1) 3 = 2 * m := by
      rw [show U + 1 = 3 * (2 * m) by omega, Int.mul_tdiv_cancel_left _ (by norm_num)]
    rw [hl] at h
    rw [if_pos (by norm_num : (-1 : ℤ) < 0)] at h
    exact key (2 * m) _ (Or.inl rfl) (by rw [hm]; ring) h

/-- **C58.**  For every `D` with `3D` in the range of an `unsigned int`, every bit limit, every
primality test and every call-back: each curve reported satisfies the equation of the complex
multiplication method, its order is `h r`, `q` and `r` pass the test, and the order divides
`Φ₆(q) = q² - q + 1`. -/
theorem C58_sound (pp : ℤ → Bool) (np : ℤ → ℤ) (stop : CM → Bool) (D bitlimit fuel : ℕ) (hD : 0 < D)
    (hr : 3 * D < 2 ^ 32) (l : List CM) (h : searchD pp np stop D bitlimit fuel = some l) :
    ∀ cm ∈ l, CMCurve pp D cm ∧ cm.k = 6 ∧ cm.n ∣ cm.q * cm.q - cm.q + 1 := by
  intro cm hm
  rw [searchD] at h
  have e : D * 3 % 2 ^ 32 = D * 3 := Nat.mod_eq_of_lt (by omega)
  rw [e] at h
  obtain ⟨U, V, h1, h2⟩ := search_sound (by exact_mod_cast (by omega : 0 < D * 3)) _ _ _ _ l h cm hm
  refine mntStep2_spec pp np fuel D U V cm ?_ h2
  push_cast at h1
  linear_combination h1

/-- **C58, what fails.**  `D * 3` is computed in 32 bits.  For `D = 1431655963` a curve is reported
that does not satisfy the equation for that `D`. -/
theorem C58_overflow_fails (pp : ℤ → Bool) (np : ℤ → ℤ) (bitlimit : ℕ)
    (hpp : ∀ n : ℤ, pp n = true ↔ Nat.Prime n.natAbs) :
    ∃ fuel cm, searchD pp np (fun _ => true) 1431655963 bitlimit fuel = some [cm] ∧
      ¬ ∃ V : ℤ, 4 * cm.q - (cm.q + 1 - cm.n) * (cm.q + 1 - cm.n) = 1431655963 * (V * V) := by
  have p1 : pp 577 = true := (hpp 577).2 (by norm_num)
  have p2 : pp 601 = true := (hpp 601).2 (by norm_num)
  have hs : mntStep2 pp np 40 1431655963 73 = some (some ⟨6, 1431655963, 577, 601, 1, 601⟩) := by
    rw [mntStep2]
    norm_num [p1, p2, split, show Int.tdiv 72 3 = 24 from rfl]
  have h1 : generalPell 40 593 (-8) =
      some ⟨721517598849, 29629176560, [(73, 3), (39520384263, 1622907667)]⟩ := by decide +kernel
  refine ⟨40, ⟨6, 1431655963, 577, 601, 1, 601⟩, ?_, ?_⟩
  · rw [searchD, search, if_neg (by decide +kernel),
      show ((1431655963 * 3 % 2 ^ 32 : ℕ) : ℤ) = 593 from rfl, h1,
      Option.bind_some, if_neg (by simp), searchLoop]
    simp [hs]
  · rintro ⟨V, hV⟩
    dsimp only at hV
    have : V * V < 1 ∨ 1 < V * V ∨ V * V = 1 := by omega
    omega

/-! ## Freeman curves -/

/-- **C59.**  The branch that ends the process is never reached. -/
theorem C59_no_die (D U V : ℤ) (hU : U * U - 15 * D * (V * V) = -20) : U % 15 = 5 ∨ U % 15 = 10 := by
  have h : U * U % 15 = 10 := by
    have : U * U = 15 * (D * (V * V)) - 20 := by linear_combination hU
    omega
  rw [Int.mul_emod] at h
  have h0 := Int.emod_nonneg U (by norm_num : (15 : ℤ) ≠ 0)
  have h1 := Int.emod_lt_of_pos U (by norm_num : (0 : ℤ) < 15)
  generalize U % 15 = x at *
  interval_cases x <;> simp_all

/-- What `freeman_step2` reports. -/
theorem freemanStep2_spec (pp : ℤ → Bool) (np : ℤ → ℤ) (fuel : ℕ) (D U : ℤ) (cm : CM)
    (h : freemanStep2 pp np fuel D U = some (some cm)) :
    ∃ x : ℤ, (15 * x + 5 = U ∨ 15 * x - 5 = U) ∧ cm.k = 10 ∧ cm.D = D ∧
      cm.q = 25 * x ^ 4 + 25 * x ^ 3 + 25 * x ^ 2 + 10 * x + 3 ∧
      cm.n = 25 * x ^ 4 + 25 * x ^ 3 + 15 * x ^ 2 + 5 * x + 1 ∧
      cm.h * cm.r = cm.n ∧ pp cm.q = true ∧ pp cm.r = true := by
  rw [freemanStep2] at h
  dsimp only at h
  by_cases c : U % 15 ≠ 5 ∧ U % 15 ≠ 10
  · rw [if_pos c] at h; simp at h
  rw [if_neg c] at h
  obtain ⟨x, hx, hU⟩ : ∃ x : ℤ, Int.tdiv (if U % 15 = 5 then U - 5 else U + 5) 15 = x ∧
      (15 * x + 5 = U ∨ 15 * x - 5 = U) := by
    by_cases c1 : U % 15 = 5
    · refine ⟨U / 15, ?_, Or.inl (by omega)⟩
      rw [if_pos c1, show U - 5 = 15 * (U / 15) by omega, Int.mul_tdiv_cancel_left _ (by norm_num)]
    · refine ⟨U / 15 + 1, ?_, Or.inr (by omega)⟩
      rw [if_neg c1, show U + 5 = 15 * (U / 15 + 1) by omega,
        Int.mul_tdiv_cancel_left _ (by norm_num)]
  rw [hx] at h
  by_cases hq : pp ((x + x + x * x * 5 + x * x * 5 * x + x * x * 5 * x * x) * 5 + 3) = true
  · rw [if_neg (by simp [hq]), Option.map_eq_some_iff] at h
    obtain ⟨rc, h1, h2⟩ := h
    rw [Option.map_eq_some_iff] at h2
    obtain ⟨rc, rfl, rfl⟩ := h2
    obtain ⟨e1, e2⟩ := split_spec pp np fuel _ rc h1
    exact ⟨x, hU, rfl, rfl, by dsimp only; ring, by dsimp only; ring, (mul_comm _ _).trans e1, hq, e2⟩
  · rw [if_pos hq] at h; simp at h

/-- **C59.**  For every `D` and every bit limit, each curve reported has embedding degree 10: its
order divides `Φ₁₀(q)`; the order is `h r`, and `q` and `r` pass the test. -/
theorem C59_embedding (pp : ℤ → Bool) (np : ℤ → ℤ) (stop : CM → Bool) (D bitlimit fuel : ℕ)
    (hD : 0 < D) (l : List CM) (h : searchG pp np stop D bitlimit fuel = some l) :
    ∀ cm ∈ l, cm.k = 10 ∧ cm.D = D ∧ cm.n ∣ cm.q ^ 4 - cm.q ^ 3 + cm.q ^ 2 - cm.q + 1 ∧
      cm.h * cm.r = cm.n ∧ pp cm.q = true ∧ pp cm.r = true := by
  intro cm hm
  rw [searchG] at h
  obtain ⟨U, V, h1, h2⟩ := search_sound (by exact_mod_cast (by omega : 0 < D * 15)) _ _ _ _ l h cm hm
  obtain ⟨x, hx, hk, hd, hq, hn, hh, h3, h4⟩ := freemanStep2_spec pp np fuel D U cm h2
  refine ⟨hk, hd, ?_, hh, h3, h4⟩
  rw [hq, hn]
  exact ⟨61 + 555 * x + 3060 * x ^ 2 + 11000 * x ^ 3 + 30100 * x ^ 4 + 63375 * x ^ 5 +
    108250 * x ^ 6 + 147500 * x ^ 7 + 165000 * x ^ 8 + 143750 * x ^ 9 + 100000 * x ^ 10 +
    46875 * x ^ 11 + 15625 * x ^ 12, by ring⟩

/-- **C59.**  From a solution `U ≡ 5 (mod 15)` of the equation the curve reported satisfies the
equation of the complex multiplication method. -/
theorem C59_cm_partial (pp : ℤ → Bool) (np : ℤ → ℤ) (fuel : ℕ) (D U V : ℤ) (cm : CM)
    (hU : U * U - 15 * D * (V * V) = -20) (h5 : U % 15 = 5)
    (h : freemanStep2 pp np fuel D U = some (some cm)) : CMCurve pp D cm := by
  obtain ⟨x, hx, hk, hd, hq, hn, hh, h3, h4⟩ := freemanStep2_spec pp np fuel D U cm h
  refine ⟨hd, ⟨V, ?_⟩, hh, h3, h4⟩
  have hx : 15 * x + 5 = U := by omega
  have : 15 * (4 * cm.q - (cm.q + 1 - cm.n) * (cm.q + 1 - cm.n)) = 15 * (D * (V * V)) := by
    rw [hq, hn]
    subst hx
    linear_combination hU
  exact Int.eq_of_mul_eq_mul_left (by norm_num) this

/-- **C59, what fails.**  From a solution `U ≡ 10 (mod 15)` the wrong sign is taken for the parameter
and the curve reported misses the equation by `20 x`, which is never zero. -/
theorem C59_sign_fails (pp : ℤ → Bool) (np : ℤ → ℤ) (fuel : ℕ) (D U V : ℤ) (cm : CM)
    (hU : U * U - 15 * D * (V * V) = -20) (h10 : U % 15 = 10)
    (h : freemanStep2 pp np fuel D U = some (some cm)) :
    ∃ x : ℤ, 15 * x - 5 = U ∧
      4 * cm.q - (cm.q + 1 - cm.n) * (cm.q + 1 - cm.n) = D * (V * V) + 20 * x := by
  obtain ⟨x, hx, hk, hd, hq, hn, hh, h3, h4⟩ := freemanStep2_spec pp np fuel D U cm h
  have hx : 15 * x - 5 = U := by omega
  refine ⟨x, hx, ?_⟩
  have : 15 * (4 * cm.q - (cm.q + 1 - cm.n) * (cm.q + 1 - cm.n)) =
      15 * (D * (V * V) + 20 * x) := by
    rw [hq, hn]
    subst hx
    linear_combination hU
  exact Int.eq_of_mul_eq_mul_left (by norm_num) this

/-- **C59, what fails.**  For `D = 203` the first curve reported (`q = 8443`, order `8261 = 11 · 751`)
satisfies no equation `4q = t² + 203 V²`. -/
theorem C59_fails (pp : ℤ → Bool) (np : ℤ → ℤ) (bitlimit : ℕ)
    (hpp : ∀ n : ℤ, pp n = true ↔ Nat.Prime n.natAbs)
    (hnp : np 2 = 3 ∧ np 3 = 5 ∧ np 5 = 7 ∧ np 7 = 11) :
    ∃ fuel cm, searchG pp np (fun _ => true) 203 bitlimit fuel = some [cm] ∧
      ¬ ∃ V : ℤ, 4 * cm.q - (cm.q + 1 - cm.n) * (cm.q + 1 - cm.n) = 203 * (V * V) := by
  have p1 : pp 8443 = true := (hpp 8443).2 (by norm_num)
  have p2 : pp 751 = true := (hpp 751).2 (by norm_num)
  have p3 : pp 8261 = false := by
    rw [← Bool.not_eq_true, hpp]; norm_num
  obtain ⟨n1, n2, n3, n4⟩ := hnp
  have hs : freemanStep2 pp np 40 203 55 = some (some ⟨10, 203, 8443, 751, 11, 8261⟩) := by
    have hsp : split pp np 40 8261 = some (some (751, 11)) := by
      rw [split, p3, if_neg (by simp)]
      have d2 : divOut 2 8262 (8261, 1) = some (8261, 1) := rfl
      have d3 : divOut 3 8262 (8261, 1) = some (8261, 1) := rfl
      have d5 : divOut 5 8262 (8261, 1) = some (8261, 1) := rfl
      have d7 : divOut 7 8262 (8261, 1) = some (8261, 1) := rfl
      have d11 : divOut 11 8262 (8261, 1) = some (751, 11) := rfl
      have s3 : ¬ Nat.size (Int.natAbs 3) > 16 := by decide +kernel
      have s5 : ¬ Nat.size (Int.natAbs 5) > 16 := by decide +kernel
      have s7 : ¬ Nat.size (Int.natAbs 7) > 16 := by decide +kernel
      have s11 : ¬ Nat.size (Int.natAbs 11) > 16 := by decide +kernel
      have na : (8261 : ℤ).natAbs + 1 = 8262 := rfl
      rw [splitLoop]; dsimp only; rw [na, d2, Option.bind_some, p3, if_neg (by simp), n1, if_neg s3]
      rw [splitLoop]; dsimp only; rw [na, d3, Option.bind_some, p3, if_neg (by simp), n2, if_neg s5]
      rw [splitLoop]; dsimp only; rw [na, d5, Option.bind_some, p3, if_neg (by simp), n3, if_neg s7]
      rw [splitLoop]; dsimp only; rw [na, d7, Option.bind_some, p3, if_neg (by simp), n4, if_neg s11]
      rw [splitLoop]; dsimp only; rw [na, d11, Option.bind_some, if_pos p2]
    rw [freemanStep2]
    norm_num [p1, hsp, show Int.tdiv 60 15 = 4 from rfl]
  have h1 : generalPell 40 3045 (-20) =
      some ⟨111823361, 2026464, [(55, 1), (33440, 606), (20298025, 367841)]⟩ := by decide +kernel
  refine ⟨40, ⟨10, 203, 8443, 751, 11, 8261⟩, ?_, ?_⟩
  · rw [searchG, search, if_neg (by decide +kernel), show ((203 : ℕ) : ℤ) * 15 = 3045 from rfl, h1,
      Option.bind_some, if_neg (by simp), searchLoop]
    simp [hs]
  · rintro ⟨V, hV⟩
    dsimp only at hV
    omega

/-! ## C82: the bit limit, and the search ends -/

/-- Where a reported curve comes from: a first solution, or a solution within the limit. -/
theorem searchLoop_limit {D : ℤ} (step2 : ℤ → Option (Option CM)) (stop : CM → Bool) (bitlimit : ℕ)
    (ps : Pell) (fuel : ℕ) (first : List (ℤ × ℤ)) (done todo : List (ℤ × ℤ))
    (hd : ∀ xy ∈ done, xy ∈ first ∨ 2 * Nat.size xy.1.natAbs ≤ bitlimit + 10)
    (ht : ∀ xy ∈ todo, xy ∈ first ∨ 2 * Nat.size xy.1.natAbs ≤ bitlimit + 10) (l : List CM)
    (h : searchLoop step2 stop bitlimit D ps fuel done todo = some l) (cm : CM) (hm : cm ∈ l) :
    ∃ xy : ℤ × ℤ, step2 xy.1 = some (some cm) ∧
      (xy ∈ first ∨ 2 * Nat.size xy.1.natAbs ≤ bitlimit + 10) := by
  induction fuel generalizing done todo l with
  | zero => simp [searchLoop] at h
  | succ fuel ih =>
    cases todo with
    | nil => rw [searchLoop] at h; exact ih [] done (by simp) hd l h hm
    | cons s todo =>
      rw [searchLoop, Option.bind_eq_some_iff] at h
      obtain ⟨c, h1, h2⟩ := h
      have hhere : cm ∈ c.toList → ∃ xy : ℤ × ℤ, step2 xy.1 = some (some cm) ∧
          (xy ∈ first ∨ 2 * Nat.size xy.1.natAbs ≤ bitlimit + 10) := by
        intro hc
        refine ⟨s, ?_, ht s (by simp)⟩
        rw [h1]
        simpa using hc
      split_ifs at h2 with c1 c2
      · rw [← Option.some.inj h2] at hm; exact hhere hm
      · rw [← Option.some.inj h2] at hm; exact hhere hm
      · rw [Option.map_eq_some_iff] at h2
        obtain ⟨l', h3, rfl⟩ := h2
        rcases List.mem_append.1 hm with hm | hm
        · exact hhere hm
        · refine ih _ _ ?_ ?_ l' h3 hm
          · intro xy hx
            rcases List.mem_append.1 hx with hx | hx
            · exact hd xy hx
            · rw [List.mem_singleton.1 hx]; right; omega
          · intro xy hx; exact ht xy (by simp [hx])

theorem search_limit {D N : ℤ} (step2 : ℤ → Option (Option CM)) (stop : CM → Bool)
    (bitlimit fuel : ℕ) (l : List CM) (h : search step2 stop bitlimit fuel D N = some l) (cm : CM)
    (hm : cm ∈ l) : ∃ xy : ℤ × ℤ, step2 xy.1 = some (some cm) ∧
      ((∃ ps, generalPell fuel D N = some ps ∧ xy ∈ ps.sols) ∨
        2 * Nat.size xy.1.natAbs ≤ bitlimit + 10) := by
  rw [search] at h
  split_ifs at h with hr
  · rw [← Option.some.inj h] at hm; simp at hm
  · rw [Option.bind_eq_some_iff] at h
    obtain ⟨ps, h1, h2⟩ := h
    split_ifs at h2 with he
    · rw [← Option.some.inj h2] at hm; simp at hm
    · obtain ⟨xy, e1, e2⟩ := searchLoop_limit step2 stop bitlimit ps fuel ps.sols [] ps.sols (by simp)
        (fun xy hx => Or.inl hx) l h2 cm hm
      exact ⟨xy, e1, e2.imp (fun hx => ⟨ps, h1, hx⟩) id⟩

theorem abs_lt_size (U : ℤ) : |U| < 2 ^ Nat.size U.natAbs := by
  rw [Int.abs_eq_natAbs]
  exact_mod_cast Nat.lt_size_self U.natAbs

/-- **C82.**  A curve found by `pbc_cm_search_d` that does not come from one of the first solutions
has an order of at most `bitlimit + 10` bits. -/
theorem C82_mnt_partial (pp : ℤ → Bool) (np : ℤ → ℤ) (stop : CM → Bool) (D bitlimit fuel : ℕ)
    (l : List CM) (h : searchD pp np stop D bitlimit fuel = some l) :
    ∀ cm ∈ l, cm.n < 2 ^ (bitlimit + 10) ∨
      ∃ ps xy, generalPell fuel ((D * 3 % 2 ^ 32 : ℕ) : ℤ) (-8) = some ps ∧ xy ∈ ps.sols ∧
        mntStep2 pp np fuel D xy.1 = some (some cm) := by
  intro cm hm
  obtain ⟨⟨U, V⟩, h1, h2⟩ := search_limit _ _ _ _ l h cm hm
  rcases h2 with ⟨ps, h2, h3⟩ | h2
  · exact Or.inr ⟨ps, _, h2, h3, h1⟩
  left
  have hn : cm.n ≤ U * U := by
    dsimp only at h1
    rw [mntStep2] at h1
    dsimp only at h1
    by_cases c : U % 6 ≠ 1 ∧ U % 6 ≠ 5
    · rw [if_pos c] at h1; simp at h1
    rw [if_neg c] at h1
    obtain ⟨m, d, hU, hd, hl, hdd⟩ : ∃ m d : ℤ, U = 6 * m + d ∧ (d = 1 ∨ d = -1) ∧
        Int.tdiv (if U % 6 = 1 then U - 1 else U + 1) 3 = 2 * m ∧
        (if U % 6 = 1 then (1 : ℤ) else -1) = d := by
      by_cases c1 : U % 6 = 1
      · refine ⟨U / 6, 1, by omega, Or.inl rfl, ?_, if_pos c1⟩
        rw [if_pos c1, show U - 1 = 3 * (2 * (U / 6)) by omega,
          Int.mul_tdiv_cancel_left _ (by norm_num)]
      · refine ⟨U / 6 + 1, -1, by omega, Or.inr rfl, ?_, if_neg c1⟩
        rw [if_neg c1, show U + 1 = 3 * (2 * (U / 6 + 1)) by omega,
          Int.mul_tdiv_cancel_left _ (by norm_num)]
    rw [hl, hdd] at h1
    split_ifs at h1 with hq hd1
    all_goals first
      | (simp at h1; done)
      | skip
    all_goals
      rw [Option.map_eq_some_iff] at h1
      obtain ⟨rc, h3, h4⟩ := h1
      rw [Option.map_eq_some_iff] at h4
      obtain ⟨rc, rfl, rfl⟩ := h4
      dsimp only
      rw [hU]
    · obtain rfl : d = -1 := by omega
      rcases lt_trichotomy m 0 with hm | hm | hm
      · nlinarith
      · subst hm; norm_num
      · nlinarith
    · obtain rfl : d = 1 := by omega
      rcases lt_trichotomy m 0 with hm | hm | hm
      · nlinarith
      · subst hm; norm_num
      · nlinarith
  have ha := abs_lt_size U
  have hp : U * U < 2 ^ Nat.size U.natAbs * 2 ^ Nat.size U.natAbs := by
    rw [← abs_mul_abs_self U]
    have := abs_nonneg U
    nlinarith
  have : (2 : ℤ) ^ Nat.size U.natAbs * 2 ^ Nat.size U.natAbs ≤ 2 ^ (bitlimit + 10) := by
    rw [← pow_add]
    exact pow_le_pow_right₀ (by norm_num) (by dsimp only at h2; omega)
  omega

/-- **C82, what fails.**  The first solutions are not compared with the limit: for `D = 1779` a curve
of order 601 is reported whatever the limit. -/
theorem C82_first_fails (pp : ℤ → Bool) (np : ℤ → ℤ) (bitlimit : ℕ)
    (hpp : ∀ n : ℤ, pp n = true ↔ Nat.Prime n.natAbs) :
    ∃ fuel cm, searchD pp np (fun _ => true) 1779 bitlimit fuel = some [cm] ∧ cm.n = 601 := by
  have p1 : pp 577 = true := (hpp 577).2 (by norm_num)
  have p2 : pp 601 = true := (hpp 601).2 (by norm_num)
  have hs : mntStep2 pp np 400 1779 73 = some (some ⟨6, 1779, 577, 601, 1, 601⟩) := by
    rw [mntStep2]
    norm_num [p1, p2, split, show Int.tdiv 72 3 = 24 from rfl]
  have h1 : ((generalPell 400 5337 (-8)).map fun ps => ps.sols.head?) = some (some (73, 1)) := by
    decide +kernel
  rw [Option.map_eq_some_iff] at h1
  obtain ⟨⟨minx, miny, sols⟩, h1, h2⟩ := h1
  refine ⟨400, ⟨6, 1779, 577, 601, 1, 601⟩, ?_, rfl⟩
  rw [searchD, search, if_neg (by decide +kernel),
      show ((1779 * 3 % 2 ^ 32 : ℕ) : ℤ) = 5337 from rfl, h1, Option.bind_some]
  cases sols with
  | nil => simp at h2
  | cons s sols =>
    obtain rfl : s = (73, 1) := by simpa using h2
    rw [if_neg (by simp), searchLoop]
    simp [hs]

/-- **C82, what fails.**  In `pbc_cm_search_g` the order grows with the fourth power of the solution
while the limit is compared with twice the length of the solution: every curve found from a positive
solution of `s ≥ 9` bits has an order of at least `4 s - 16` bits. -/
theorem C82_freeman_fails (pp : ℤ → Bool) (np : ℤ → ℤ) (fuel : ℕ) (D U : ℤ) (cm : CM) (hU : 0 < U)
    (h : freemanStep2 pp np fuel D U = some (some cm)) (s : ℕ) (hs : 9 ≤ s)
    (hU : (2 : ℤ) ^ (s - 1) ≤ U) : 2 ^ (4 * s - 16) ≤ cm.n := by
  obtain ⟨x, hx, hk, hd, hq, hn, hh, h3, h4⟩ := freemanStep2_spec pp np fuel D U cm h
  obtain ⟨t, rfl⟩ : ∃ t, s = t + 4 := ⟨s - 4, by omega⟩
  have e : (2 : ℤ) ^ (t + 4 - 1) = 8 * 2 ^ t := by
    rw [show t + 4 - 1 = t + 3 by omega, pow_add]; ring
  rw [e] at hU
  have h2 : (1 : ℤ) < 2 ^ t := one_lt_pow₀ (by norm_num) (by omega)
  have hx0 : (2 : ℤ) ^ t ≤ 2 * x := by omega
  have hx1 : 0 < x := by omega
  have e2 : (2 : ℤ) ^ (4 * (t + 4) - 16) = (2 ^ t) ^ 4 := by
    rw [show 4 * (t + 4) - 16 = t * 4 by omega, pow_mul]
  rw [e2, hn]
  have : ((2 : ℤ) ^ t) ^ 4 ≤ (2 * x) ^ 4 := pow_le_pow_left₀ (by omega) hx0 4
  have hx2 : 0 < x ^ 2 := by positivity
  have hx3 : 0 < x ^ 3 := by positivity
  have hx4 : 0 < x ^ 4 := by positivity
  nlinarith

/-! ### Every search ends -/

theorem divOut_isSome (p : ℤ) (hp : 2 ≤ p) (fuel : ℕ) (r c : ℤ) (hr : r ≠ 0)
    (hf : r.natAbs < fuel) : ∃ out, divOut p fuel (r, c) = some out ∧ out.1 ≠ 0 := by
  induction fuel generalizing r c with
  | zero => omega
  | succ fuel ih =>
    rw [divOut]
    split_ifs with hc
    · obtain ⟨k, rfl⟩ := Int.dvd_of_emod_eq_zero hc
      have hk : k ≠ 0 := by rintro rfl; simp at hr
      rw [Int.mul_tdiv_cancel_left _ (by omega)]
      apply ih k _ hk
      rw [Int.natAbs_mul] at hf
      have h1 : 2 ≤ p.natAbs := by omega
      have h2 : 0 < k.natAbs := by omega
      nlinarith
    · exact ⟨_, rfl, hr⟩

theorem splitLoop_isSome (pp : ℤ → Bool) (np : ℤ → ℤ) (hnp : ∀ p, 2 ≤ p → p < np p) (fuel : ℕ) (p : ℤ)
    (hp : 2 ≤ p) (rc : ℤ × ℤ) (hr : rc.1 ≠ 0) (hf : 2 ^ 16 < p + fuel) :
    p < 2 ^ 16 → (splitLoop pp np fuel p rc).isSome := by
  induction fuel generalizing p rc with
  | zero => intro h; exfalso; push_cast at hf; omega
  | succ fuel ih =>
    intro hlt
    rw [splitLoop]
    obtain ⟨out, h1, h2⟩ := divOut_isSome p hp (rc.1.natAbs + 1) rc.1 rc.2 hr (by omega)
    rw [show rc = (rc.1, rc.2) from rfl] at *
    rw [h1, Option.bind_some]
    split_ifs with c1 c2
    · rfl
    · rfl
    · have := hnp p hp
      have hs : (np p).natAbs < 2 ^ 16 := Nat.size_le.1 (by omega)
      refine ih (np p) (by omega) out h2 (by push_cast at hf ⊢; omega) ?_
      have : np p < (2 ^ 16 : ℕ) := by omega
      exact_mod_cast this

theorem split_isSome (pp : ℤ → Bool) (np : ℤ → ℤ) (hnp : ∀ p, 2 ≤ p → p < np p) (fuel : ℕ)
    (hf : 2 ^ 16 ≤ fuel) (n : ℤ) (hn : n ≠ 0) : (split pp np fuel n).isSome := by
  rw [split]
  split_ifs
  · rfl
  · apply splitLoop_isSome pp np hnp fuel 2 le_rfl _ hn _ (by norm_num)
    have : ((2 ^ 16 : ℕ) : ℤ) ≤ fuel := by exact_mod_cast hf
    push_cast at this
    omega

theorem mntStep2_isSome (pp : ℤ → Bool) (np : ℤ → ℤ) (hnp : ∀ p, 2 ≤ p → p < np p) (fuel : ℕ)
    (hf : 2 ^ 16 ≤ fuel) (D U : ℤ) : (mntStep2 pp np fuel D U).isSome := by
  rw [mntStep2]
  dsimp only
  split_ifs
  all_goals first
    | rfl
    | (rw [Option.isSome_map]; apply split_isSome pp np hnp fuel hf; nlinarith)

theorem freemanStep2_isSome (pp : ℤ → Bool) (np : ℤ → ℤ) (hnp : ∀ p, 2 ≤ p → p < np p) (fuel : ℕ)
    (hf : 2 ^ 16 ≤ fuel) (D U V : ℤ) (hU : U * U - 15 * D * (V * V) = -20) :
    (freemanStep2 pp np fuel D U).isSome := by
  rw [freemanStep2]
  dsimp only
  rw [if_neg (by have := C59_no_die D U V hU; omega)]
  generalize Int.tdiv _ 15 = x
  split_ifs
  swap
  · rfl
  · rw [Option.isSome_map]
    apply split_isSome pp np hnp fuel hf
    have : (x + x + x * x * 5 + x * x * 5 * x + x * x * 5 * x * x) * 5 + 3 -
        (x * 5 + (x * 5 * x + x * 5 * x)) - 2 =
        5 * (x * (5 * x * x * x + 5 * x * x + 3 * x + 1)) + 1 := by ring
    rw [this]
    omega

theorem searchLoop_ends {D N : ℤ} (hD : 0 < D) (step2 : ℤ → Option (Option CM)) (stop : CM → Bool)
    (hstep : ∀ U V : ℤ, U * U - D * (V * V) = N → (step2 U).isSome)
    (bitlimit : ℕ) (ps : Pell) (hu : ps.minx * ps.minx - D * (ps.miny * ps.miny) = 1)
    (h1 : 0 < ps.minx) (h2 : 0 < ps.miny) (fuel : ℕ) (done todo : List (ℤ × ℤ))
    (hne : done ++ todo ≠ [])
    (hall : ∀ xy ∈ done ++ todo, xy.1 * xy.1 - D * (xy.2 * xy.2) = N ∧ 0 < xy.1 ∧ 0 < xy.2)
    (hf : 2 * ((done ++ todo).map fun xy => (2 ^ (bitlimit + 10) - xy.1).toNat).sum +
      (if todo = [] then 1 else 0) < fuel) :
    (searchLoop step2 stop bitlimit D ps fuel done todo).isSome := by
  induction fuel generalizing done todo with
  | zero => omega
  | succ fuel ih =>
    cases todo with
    | nil =>
      rw [searchLoop]
      rw [List.append_nil] at hne hall hf
      refine ih [] done (by simpa using hne) (by simpa using hall) ?_
      rw [if_pos rfl] at hf
      rw [if_neg hne, List.nil_append]
      omega
    | cons s todo =>
      rw [searchLoop]
      obtain ⟨hs, hx, hy⟩ := hall s (by simp)
      obtain ⟨c, hc⟩ := Option.isSome_iff_exists.1 (hstep _ _ hs)
      rw [hc, Option.bind_some]
      split_ifs with c1 c2
      · rfl
      · rfl
      · rw [Option.isSome_map]
        have hadv := C57_advance ps s hu hs
        have hm2 : 1 ≤ ps.miny * s.2 := Int.add_one_le_iff.2 (mul_pos h2 hy)
        have hgt : s.1 < (advance D ps s).1 := by
          show s.1 < ps.minx * s.1 + ps.miny * s.2 * D
          nlinarith
        have hlt : (advance D ps s).1 < 2 ^ (bitlimit + 10) := by
          have h3 := abs_lt_size (advance D ps s).1
          have h4 : (2 : ℤ) ^ Nat.size (advance D ps s).1.natAbs ≤ 2 ^ (bitlimit + 10) :=
            pow_le_pow_right₀ (by norm_num) (by omega)
          have := le_abs_self (advance D ps s).1
          omega
        refine ih _ _ (by simp) ?_ ?_
        · intro xy hxy
          simp only [List.append_assoc, List.singleton_append, List.mem_append, List.mem_cons] at hxy
          rcases hxy with hxy | rfl | hxy
          · exact hall xy (by simp [hxy])
          · refine ⟨hadv, by omega, ?_⟩
            show 0 < ps.minx * s.2 + ps.miny * s.1
            positivity
          · exact hall xy (by simp [hxy])
        · simp only [List.map_append, List.map_cons, List.sum_append, List.sum_cons, List.map_nil,
            List.sum_nil, List.append_assoc, reduceCtorEq, if_false] at hf ⊢
          generalize (2 : ℤ) ^ (bitlimit + 10) = B at *
          generalize (List.map (fun xy : ℤ × ℤ => (B - xy.1).toNat) done).sum = A1 at *
          generalize (List.map (fun xy : ℤ × ℤ => (B - xy.1).toNat) todo).sum = A2 at *
          split_ifs <;> omega

/-- What the loop keeps positive. -/
structure Pos (s : CF) : Prop where
  p0 : 0 < s.p0
  p1 : 0 < s.p1
  q0 : 0 < s.q0
  q1 : 0 < s.q1

theorem pos_start {D : ℤ} (hD : 0 < D) (hsq : ¬ IsSquare D) : Pos (cfStart D) := by
  obtain ⟨r1, _, _⟩ := root_spec hD hsq
  obtain ⟨a1, _, _⟩ := (reduced_start hD hsq).quot
  constructor <;> simp only [cfStart] <;> first | omega | nlinarith

theorem pos_step {D : ℤ} (hD : 0 < D) (hsq : ¬ IsSquare D) {s : CF} (h : Good D s) (hp : Pos s) :
    Pos (cfStep D s) := by
  have g := good_step hD hsq h
  obtain ⟨a1, _, _⟩ := g.red.quot
  rw [← g.quot] at a1
  obtain ⟨x1, x2, x3, x4⟩ := hp
  refine ⟨x2, ?_, x4, ?_⟩
  · show 0 < (cfStep D s).a1 * s.p1 + s.p0
    positivity
  · show 0 < (cfStep D s).a1 * s.q1 + s.q0
    positivity

theorem cfLoop_pos {D N : ℤ} (hD : 0 < D) (hsq : ¬ IsSquare D) (fuel : ℕ) (s : CF)
    (sols : List (ℤ × ℤ)) (hs : Good D s) (hp : Pos s)
    (hsols : ∀ xy ∈ sols, 0 < xy.1 ∧ 0 < xy.2) (out : CF × List (ℤ × ℤ))
    (h : cfLoop D N fuel s sols = some out) :
    Pos out.1 ∧ ∀ xy ∈ out.2, 0 < xy.1 ∧ 0 < xy.2 := by
  induction fuel generalizing s sols with
  | zero => simp [cfLoop] at h
  | succ fuel ih =>
    rw [cfLoop] at h
    have hsols' : ∀ xy ∈ sols ++ cfFound N s, 0 < xy.1 ∧ 0 < xy.2 := by
      intro xy hm
      rcases List.mem_append.1 hm with hm | hm
      · exact hsols xy hm
      · rw [cfFound] at hm
        by_cases hd : s.d = if N > 0 then 1 else -1
        · rw [if_pos hd] at hm
          simp only [List.mem_map, List.mem_filter, decide_eq_true_eq] at hm
          obtain ⟨f, ⟨hf, hQ⟩, rfl⟩ := hm
          have hQ1 := hs.red.qpos
          have hf0 : 0 < f := by
            rcases Nat.eq_zero_or_pos f with rfl | h0
            · simp at hQ; omega
            · exact h0
          have hf1 : (0 : ℤ) < f := by exact_mod_cast hf0
          exact ⟨mul_pos hp.p0 hf1, mul_pos hp.q0 hf1⟩
        · rw [if_neg hd] at hm; simp at hm
    split_ifs at h with hc
    · obtain rfl : (s, sols ++ cfFound N s) = out := by simpa using h
      exact ⟨hp, hsols'⟩
    · exact ih _ _ (good_step hD hsq hs) (pos_step hD hsq hs hp) hsols' h

/-- **C57.**  Every solution reported is positive, and so is the unit. -/
theorem C57_pos {D N : ℤ} (hD : 0 < D) (hsq : ¬ IsSquare D) (fuel : ℕ) (ps : Pell)
    (h : generalPell fuel D N = some ps) :
    (0 < ps.minx ∧ 0 < ps.miny) ∧ ∀ xy ∈ ps.sols, 0 < xy.1 ∧ 0 < xy.2 := by
  rw [generalPell, Option.map_eq_some_iff] at h
  obtain ⟨out, h1, rfl⟩ := h
  obtain ⟨g, hs⟩ := cfLoop_pos hD hsq fuel _ [] (good_start hD hsq) (pos_start hD hsq) (by simp) out h1
  exact ⟨⟨g.p0, g.q0⟩, hs⟩

theorem cfLoop_mono {D N : ℤ} (fuel : ℕ) (s : CF) (sols : List (ℤ × ℤ)) (out : CF × List (ℤ × ℤ))
    (h : cfLoop D N fuel s sols = some out) (g : ℕ) (hg : fuel ≤ g) : cfLoop D N g s sols = some out := by
  induction fuel generalizing s sols g with
  | zero => simp [cfLoop] at h
  | succ fuel ih =>
    obtain ⟨g, rfl⟩ : ∃ g', g = g' + 1 := ⟨g - 1, by omega⟩
    rw [cfLoop] at h ⊢
    split_ifs at h ⊢ with hc
    · exact h
    · exact ih _ _ h g (by omega)

theorem search_ends {D N : ℤ} (hD : 0 < D) (step2 : ℕ → ℤ → Option (Option CM)) (stop : CM → Bool)
    (F : ℕ) (hstep : ∀ fuel ≥ F, ∀ U V : ℤ, U * U - D * (V * V) = N → (step2 fuel U).isSome)
    (bitlimit : ℕ) : ∃ fuel l, search (step2 fuel) stop bitlimit fuel D N = some l := by
  by_cases hr : root D * root D = D
  · exact ⟨0, [], by rw [search, if_pos hr]⟩
  have hsq : ¬ IsSquare D := by
    rintro ⟨x, hx⟩
    apply hr
    rw [hx, root]
    have : (x * x).toNat = x.natAbs * x.natAbs := by
      rw [← Int.natAbs_mul]
      have := mul_self_nonneg x
      omega
    rw [this, Nat.sqrt_eq, Int.natAbs_mul_self']
  obtain ⟨f0, ps, h0⟩ := C57_ends (N := N) hD hsq
  obtain ⟨hu, hs⟩ := C57_sound hD hsq f0 ps h0
  obtain ⟨⟨hp1, hp2⟩, hp⟩ := C57_pos hD hsq f0 ps h0
  let f := max (max F f0) (2 * (ps.sols.map fun xy => (2 ^ (bitlimit + 10) - xy.1).toNat).sum + 2)
  have hf0 : generalPell f D N = some ps := by
    rw [generalPell, Option.map_eq_some_iff] at h0 ⊢
    obtain ⟨out, h1, h2⟩ := h0
    exact ⟨out, cfLoop_mono f0 _ _ out h1 f (le_max_of_le_left (le_max_right _ _)), h2⟩
  by_cases he : ps.sols = []
  · exact ⟨f, [], by rw [search, if_neg hr, hf0, Option.bind_some, if_pos he]⟩
  have := searchLoop_ends hD (step2 f) stop (hstep f (le_max_of_le_left (le_max_left _ _))) bitlimit ps
    hu hp1 hp2 f [] ps.sols he (fun xy hx => ⟨hs xy hx, hp xy hx⟩) (by
      have : 2 * (ps.sols.map fun xy => (2 ^ (bitlimit + 10) - xy.1).toNat).sum + 2 ≤ f :=
        le_max_right _ _
      rw [List.nil_append]
      split_ifs <;> omega)
  obtain ⟨l, hl⟩ := Option.isSome_iff_exists.1 this
  exact ⟨f, l, by rw [search, if_neg hr, hf0, Option.bind_some, if_neg he, hl]⟩

/-- **C82.**  For every `D ≥ 1` with `3D` not a multiple of `2 ^ 32`, every limit, every primality
test, every call-back and every next-prime function that goes up, `pbc_cm_search_d` ends. -/
theorem C82_mnt_ends (pp : ℤ → Bool) (np : ℤ → ℤ) (hnp : ∀ p, 2 ≤ p → p < np p) (stop : CM → Bool)
    (D bitlimit : ℕ) (hD : D * 3 % 2 ^ 32 ≠ 0) :
    ∃ fuel l, searchD pp np stop D bitlimit fuel = some l :=
  search_ends (by exact_mod_cast Nat.pos_of_ne_zero hD) (fun fuel => mntStep2 pp np fuel D) stop (2 ^ 16)
    (fun fuel hf U _ _ => mntStep2_isSome pp np hnp fuel hf D U) bitlimit

/-- **C82.**  The same for `pbc_cm_search_g`, for every `D ≥ 1`. -/
theorem C82_freeman_ends (pp : ℤ → Bool) (np : ℤ → ℤ) (hnp : ∀ p, 2 ≤ p → p < np p)
    (stop : CM → Bool) (D bitlimit : ℕ) (hD : 0 < D) :
    ∃ fuel l, searchG pp np stop D bitlimit fuel = some l :=
  search_ends (by positivity) (fun fuel => freemanStep2 pp np fuel D) stop (2 ^ 16)
    (fun fuel hf U V hU => freemanStep2_isSome pp np hnp fuel hf D U V (by linear_combination hU))
    bitlimit

/-- A test and a next-prime function as asked for, and a search with two curves. -/
example : (∀ p : ℤ, 2 ≤ p → p < (fun p => p + 1) p) ∧
    (searchD (fun n => n ∈ [577, 601, 5, 7, 3]) (fun p => p + 1) (fun _ => true) 19 20 100).map
      (fun l => l.map fun cm => (cm.q, cm.n)) = some [(5, 7)] := by
  refine ⟨fun p _ => by dsimp only; omega, by decide +kernel⟩

end Props
