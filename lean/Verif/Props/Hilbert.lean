/-
C110: the class polynomial.

The enumeration meets every reduced form of discriminant `-D` exactly once, the polynomial built is
the product of `X - j` over these forms, and the rounding gives the integer coefficients as soon as
the computed ones are off by less than one half.
-/
import Verif.Lemmas.Hilbert
import Mathlib.Analysis.Complex.Basic
import Mathlib.Algebra.Polynomial.Monic
import Mathlib.Algebra.Polynomial.BigOperators

set_option autoImplicit false

namespace Pbc.Hilbert

open Spec.Forms Polynomial

/-- The complex number. -/
def Mpc.toC (z : Mpc ℝ) : ℂ := ⟨z.a, z.b⟩

/-- A complex number as a pair of floats. -/
def ofC (z : ℂ) : Mpc ℝ := ⟨z.re, z.im⟩

@[simp] theorem toC_ofC (z : ℂ) : (ofC z).toC = z := rfl

@[simp] theorem ofC_toC (z : Mpc ℝ) : ofC z.toC = z := rfl

theorem toC_add (z w : Mpc ℝ) : (z.add w).toC = z.toC + w.toC := rfl

theorem toC_neg (z : Mpc ℝ) : z.neg.toC = -z.toC := rfl

theorem toC_mul (z w : Mpc ℝ) : (z.mul w).toC = z.toC * w.toC := by
  apply Complex.ext
  · simp [Mpc.toC, Mpc.mul]
  · simp [Mpc.toC, Mpc.mul]; ring

/-- The polynomial held by the array: `X^n + Pz[0] X^(n-1) + … + Pz[n-1]`. -/
noncomputable def polyOf (Pz : List (Mpc ℝ)) : ℂ[X] :=
  Pz.foldl (fun p z => p * X + C z.toC) 1

theorem linLoop_spec (p0 : Mpc ℝ) : ∀ (xs : List (Mpc ℝ)) (z1 : Mpc ℝ) (N H : ℂ[X]),
    N * X + C (p0.toC * z1.toC) = H * (X + C p0.toC) →
    ((linLoop p0 z1 xs).1.foldl (fun p z => p * X + C z.toC) N) * X
      + C (p0.toC * (linLoop p0 z1 xs).2.toC) =
    (xs.foldl (fun p z => p * X + C z.toC) H) * (X + C p0.toC) := by
  intro xs
  induction xs with
  | nil => intro z1 N H h; exact h
  | cons x xs ih =>
    intro z1 N H h
    simp only [linLoop, List.foldl_cons]
    apply ih
    simp only [toC_add, toC_mul, C_add, C_mul] at h ⊢
    linear_combination X * h

theorem mulLin_spec (j : Mpc ℝ) (Pz : List (Mpc ℝ)) :
    polyOf (mulLin j Pz) = polyOf Pz * (X - C j.toC) := by
  cases Pz with
  | nil => simp [polyOf, mulLin, toC_neg, sub_eq_add_neg]
  | cons x xs =>
    simp only [polyOf, mulLin, List.foldl_cons, List.foldl_append, List.foldl_nil, List.cons_append]
    have h := linLoop_spec j.neg xs x (1 * X + C (x.add j.neg).toC) (1 * X + C x.toC) (by
      simp only [toC_add, toC_neg, C_add, C_mul, C_neg]; ring)
    rw [toC_mul, h, toC_neg, C_neg, sub_eq_add_neg]

theorem quadLoop_spec (p1 p0 : Mpc ℝ) : ∀ (xs : List (Mpc ℝ)) (z2 z1 : Mpc ℝ) (N H : ℂ[X]),
    N * X ^ 2 + C (p1.toC * z1.toC + p0.toC * z2.toC) * X + C (p0.toC * z1.toC) =
      H * (X ^ 2 + C p1.toC * X + C p0.toC) →
    ((quadLoop p1 p0 z2 z1 xs).1.foldl (fun p z => p * X + C z.toC) N) * X ^ 2
      + C (p1.toC * (quadLoop p1 p0 z2 z1 xs).2.1.toC
        + p0.toC * (quadLoop p1 p0 z2 z1 xs).2.2.toC) * X
      + C (p0.toC * (quadLoop p1 p0 z2 z1 xs).2.1.toC) =
    (xs.foldl (fun p z => p * X + C z.toC) H) * (X ^ 2 + C p1.toC * X + C p0.toC) := by
  intro xs
  induction xs with
  | nil => intro z2 z1 N H h; exact h
  | cons x xs ih =>
    intro z2 z1 N H h
    simp only [quadLoop, List.foldl_cons]
    apply ih
    simp only [toC_add, toC_mul, C_add, C_mul] at h ⊢
    linear_combination X * h

theorem quad_factor (j : Mpc ℝ) :
    (X ^ 2 + C (⟨-(j.a * 2), 0⟩ : Mpc ℝ).toC * X + C (⟨j.b * j.b + j.a * j.a, 0⟩ : Mpc ℝ).toC : ℂ[X])
      = (X - C j.toC) * (X - C (starRingEnd ℂ j.toC)) := by
  have h1 : (⟨-(j.a * 2), 0⟩ : Mpc ℝ).toC = -(j.toC + starRingEnd ℂ j.toC) := by
    apply Complex.ext
    · simp [Mpc.toC]; ring
    · simp [Mpc.toC]
  have h2 : (⟨j.b * j.b + j.a * j.a, 0⟩ : Mpc ℝ).toC = j.toC * starRingEnd ℂ j.toC := by
    apply Complex.ext
    · simp [Mpc.toC]; ring
    · simp [Mpc.toC]; ring
  rw [h1, h2, C_neg, C_add, C_mul]
  ring

theorem mulQuad_spec (j : Mpc ℝ) (Pz : List (Mpc ℝ)) :
    polyOf (mulQuad j Pz) = polyOf Pz * ((X - C j.toC) * (X - C (starRingEnd ℂ j.toC))) := by
  rw [← quad_factor]
  match Pz with
  | [] =>
    simp only [polyOf, mulQuad, List.foldl_cons, List.foldl_nil]
    ring
  | [x] =>
    simp only [polyOf, mulQuad, List.foldl_cons, List.foldl_nil, toC_add, toC_mul, C_add, C_mul]
    ring
  | x :: y :: xs =>
    simp only [polyOf, mulQuad, List.foldl_cons, List.foldl_append, List.foldl_nil,
      List.cons_append]
    generalize hp1 : (⟨-(j.a * 2), 0⟩ : Mpc ℝ) = p1
    generalize hp0 : (⟨j.b * j.b + j.a * j.a, 0⟩ : Mpc ℝ) = p0
    have h := quadLoop_spec p1 p0 xs x y
      ((1 * X + C (x.add p1).toC) * X + C ((y.add (x.mul p1)).add p0).toC)
      ((1 * X + C x.toC) * X + C y.toC) (by
        simp only [toC_add, toC_mul, C_add, C_mul]; ring)
    rw [← h]
    simp only [toC_add, toC_mul, C_add, C_mul]
    ring

theorem coeff_polyOf (Pz : List (Mpc ℝ)) : (polyOf Pz).Monic ∧ (polyOf Pz).natDegree = Pz.length ∧
    ∀ i (h : i < Pz.reverse.length), (polyOf Pz).coeff i = (Pz.reverse[i]).toC := by
  induction Pz using List.reverseRecOn with
  | nil => simp [polyOf]
  | append_singleton xs z ih =>
    have hp : polyOf (xs ++ [z]) = polyOf xs * X + C z.toC := by simp [polyOf]
    have hdX : (polyOf xs * X).natDegree = xs.length + 1 := by
      rw [natDegree_mul_X ih.1.ne_zero, ih.2.1]
    have hlt : (C z.toC : ℂ[X]).degree < (polyOf xs * X).degree := by
      refine lt_of_le_of_lt degree_C_le ?_
      rw [degree_eq_natDegree (ih.1.mul monic_X).ne_zero, hdX]
      exact_mod_cast Nat.succ_pos _
    refine ⟨hp ▸ (ih.1.mul monic_X).add_of_left hlt, ?_, ?_⟩
    · rw [hp, natDegree_add_eq_left_of_degree_lt hlt, hdX]; simp
    · intro i h
      rw [hp]
      cases i with
      | zero => simp
      | succ i =>
        have h' : i < xs.reverse.length := by simpa using h
        rw [coeff_add, coeff_mul_X, ih.2.2 i h', coeff_C_succ, add_zero]
        simp

/-- The point of the upper half plane that belongs to a form, `s` being the square root of `D`. -/
noncomputable def tau (s : ℝ) (f : Form) : ℂ := ⟨-(f.b / (2 * f.a)), s / (2 * f.a)⟩

/-- The forms that one visited pair stands for. -/
def expand (D : ℕ) (p : ℕ × ℕ) : List Form :=
  let t := (p.2 * p.2 + D) / 4
  if isSingle p.1 p.2 t then [⟨p.1, p.2, (t / p.1 : ℕ)⟩]
  else [⟨p.1, p.2, (t / p.1 : ℕ)⟩, ⟨p.1, -p.2, (t / p.1 : ℕ)⟩]

/-- All of them. -/
def forms (D : ℕ) : List Form := (visited D).flatMap (expand D)

theorem visited_data {D a b c : ℕ} (h1 : 1 ≤ a) (h : b * b + D = 4 * (a * c)) :
    (b * b + D) / 4 = a * c ∧ (b * b + D) / 4 / a = c := by
  have : (b * b + D) / 4 = a * c := by omega
  exact ⟨this, by rw [this, Nat.mul_div_cancel_left _ h1]⟩

theorem single_iff {D a b c : ℕ} (h1 : 1 ≤ a) (h : b * b + D = 4 * (a * c)) :
    isSingle a b ((b * b + D) / 4) = true ↔ a = b ∨ a = c ∨ b = 0 := by
  rw [(visited_data h1 h).1]
  simp only [isSingle, Bool.or_eq_true, beq_iff_eq]
  rw [or_assoc]
  refine or_congr_right (or_congr_left ?_)
  exact ⟨fun h => Nat.eq_of_mul_eq_mul_left h1 h, fun h => by rw [← h]⟩

theorem mem_forms {D : ℕ} (hD : 3 ≤ D) (h4 : D % 4 = 0 ∨ D % 4 = 3) (f : Form) :
    f ∈ forms D ↔ f.Reduced ∧ f.disc = -D := by
  obtain ⟨fa, fb, fc⟩ := f
  rw [forms, List.mem_flatMap]
  simp only [Form.Reduced, Form.disc]
  constructor
  · rintro ⟨⟨a, b⟩, hp, hm⟩
    rw [mem_visited hD h4] at hp
    obtain ⟨h1, h2, c, h3, h5⟩ := hp
    have hs := single_iff h1 h5
    have hd := (visited_data h1 h5).2
    have h5' : (b : ℤ) * b + D = 4 * (a * c) := by exact_mod_cast h5
    rw [expand] at hm
    simp only [hd] at hm
    split at hm
    next hc =>
      rw [List.mem_singleton, Form.mk.injEq] at hm
      obtain ⟨rfl, rfl, rfl⟩ := hm
      refine ⟨⟨by omega, by rw [abs_of_nonneg (by omega)]; omega, by omega, fun _ => by omega⟩, ?_⟩
      linear_combination h5'
    next hc =>
      rw [hs] at hc
      push Not at hc
      rw [List.mem_cons, List.mem_singleton, Form.mk.injEq, Form.mk.injEq] at hm
      rcases hm with ⟨rfl, rfl, rfl⟩ | ⟨rfl, rfl, rfl⟩
      · refine ⟨⟨by omega, by rw [abs_of_nonneg (by omega)]; omega, by omega, fun _ => by omega⟩, ?_⟩
        linear_combination h5'
      · have habs : |(-(b : ℤ))| = b := by rw [abs_neg, abs_of_nonneg (by omega)]
        refine ⟨⟨by omega, by rw [habs]; omega, by omega, ?_⟩, ?_⟩
        · rw [habs]
          rintro (h | h) <;> omega
        · linear_combination h5'
  · rintro ⟨⟨h1, h2, h3, h6⟩, h5⟩
    obtain ⟨a, rfl⟩ : ∃ a : ℕ, fa = a := ⟨fa.toNat, by omega⟩
    obtain ⟨c, rfl⟩ : ∃ c : ℕ, fc = c := ⟨fc.toNat, by omega⟩
    have hb : (fb.natAbs : ℤ) = |fb| := Int.natCast_natAbs fb
    have hsq : (fb.natAbs : ℤ) * fb.natAbs = fb ^ 2 := by rw [hb, abs_mul_abs_self]; ring
    have h5' : fb.natAbs * fb.natAbs + D = 4 * (a * c) := by
      have : (fb.natAbs : ℤ) * fb.natAbs + D = 4 * (a * c) := by rw [hsq]; linarith
      exact_mod_cast this
    have h1' : 1 ≤ a := by omega
    refine ⟨(a, fb.natAbs), (mem_visited hD h4 _ _).2 ⟨h1', by omega, c, by omega, h5'⟩, ?_⟩
    have hs := single_iff h1' h5'
    have hd := (visited_data h1' h5').2
    rw [expand]
    simp only [hd]
    split
    next hc =>
      rw [hs] at hc
      rw [List.mem_singleton, Form.mk.injEq]
      refine ⟨rfl, ?_, rfl⟩
      rw [hb]
      rcases hc with h | h | h
      · exact (abs_of_nonneg (h6 (Or.inl (by omega)))).symm
      · exact (abs_of_nonneg (h6 (Or.inr (by omega)))).symm
      · omega
    next hc =>
      rw [List.mem_cons, List.mem_singleton, Form.mk.injEq, Form.mk.injEq]
      rcases le_total 0 fb with h | h
      · left; exact ⟨rfl, by rw [hb, abs_of_nonneg h], rfl⟩
      · right; exact ⟨rfl, by rw [hb, abs_of_nonpos h]; ring, rfl⟩

theorem forms_nodup {D : ℕ} (hD : 3 ≤ D) (h4 : D % 4 = 0 ∨ D % 4 = 3) : (forms D).Nodup := by
  rw [forms, List.nodup_flatMap]
  have key : ∀ (p : ℕ × ℕ) (f : Form), f ∈ expand D p → f.a = p.1 ∧ f.b.natAbs = p.2 := by
    intro p f hf
    rw [expand] at hf
    split at hf
    · rw [List.mem_singleton] at hf; subst hf; exact ⟨rfl, by simp⟩
    · rw [List.mem_cons, List.mem_singleton] at hf
      rcases hf with rfl | rfl <;> exact ⟨rfl, by simp⟩
  constructor
  · rintro ⟨a, b⟩ hp
    rw [mem_visited hD h4] at hp
    obtain ⟨h1, h2, c, h3, h5⟩ := hp
    rw [expand]
    simp only
    split
    · simp
    next hc =>
      rw [single_iff h1 h5] at hc
      push Not at hc
      rw [List.nodup_cons]
      refine ⟨?_, by simp⟩
      rw [List.mem_singleton, Form.mk.injEq]
      omega
  · refine List.Pairwise.imp ?_ (visited_nodup D)
    rintro p q hpq
    rw [Function.onFun, List.disjoint_left]
    intro f h1 h2
    have k1 := key p f h1
    have k2 := key q f h2
    refine hpq (Prod.ext ?_ ?_)
    · have := k1.1.symm.trans k2.1; exact_mod_cast this
    · exact k1.2.symm.trans k2.2

theorem count_foldl (D : ℕ) (L : List (ℕ × ℕ)) (s : Count) :
    L.foldl (fun s p => Count.visit p.1 p.2 ((p.2 * p.2 + D) / 4) s) s =
      ⟨s.d + ((L.flatMap (expand D)).map (fun f => (1 / (f.a : ℚ)))).sum,
        s.h + (L.flatMap (expand D)).length, s.jcount + L.length⟩ := by
  induction L generalizing s with
  | nil => simp
  | cons p L ih =>
    rw [List.foldl_cons, ih, List.flatMap_cons, List.map_append, List.sum_append, List.length_append,
      List.length_cons]
    rw [Count.visit, expand]
    split
    · simp only [List.map_cons, List.map_nil, List.sum_cons, List.sum_nil, List.length_cons,
        List.length_nil, Count.mk.injEq, Int.cast_natCast]
      refine ⟨by ring, by omega, by omega⟩
    · simp only [List.map_cons, List.map_nil, List.sum_cons, List.sum_nil, List.length_cons,
        List.length_nil, Count.mk.injEq, Int.cast_natCast]
      refine ⟨by ring, by omega, by omega⟩

/-- **C110**, counting: both passes end, and the first one finds the number `h` of reduced forms of
discriminant `-D`, the sum of `1 / a` over them (which sets the precision) and the number of values
of `j` to compute. -/
theorem C110_count (D fuel : ℕ) (hD : 3 ≤ D) (h4 : D % 4 = 0 ∨ D % 4 = 3) (hf : D ≤ fuel) :
    ∃ L : List Form, L.Nodup ∧ (∀ f, f ∈ L ↔ f.Reduced ∧ f.disc = -D) ∧
      firstPass fuel D = some ⟨(L.map (fun f => 1 / (f.a : ℚ))).sum, L.length,
        (L.filter (fun f => 0 ≤ f.b)).length⟩ := by
  refine ⟨forms D, forms_nodup hD h4, mem_forms hD h4, ?_⟩
  rw [first_eq D fuel hD hf, count_foldl, Option.some.injEq, Count.mk.injEq]
  refine ⟨by rw [zero_add]; rfl, by rw [zero_add]; rfl, ?_⟩
  rw [zero_add, forms]
  have hmem : ∀ p ∈ visited D, 1 ≤ p.1 ∧ ∃ c, p.2 * p.2 + D = 4 * (p.1 * c) := by
    rintro ⟨a, b⟩ hp
    rw [mem_visited hD h4] at hp
    obtain ⟨h1, -, c, -, h5⟩ := hp
    exact ⟨h1, c, h5⟩
  generalize visited D = V at hmem
  induction V with
  | nil => rfl
  | cons p V ih =>
    rw [List.flatMap_cons, List.filter_append, List.length_append, List.length_cons,
      ← ih (fun q hq => hmem q (List.mem_cons_of_mem _ hq))]
    obtain ⟨h1, c, h5⟩ := hmem p List.mem_cons_self
    rw [expand]
    split
    · simp; omega
    next hc =>
      rw [single_iff h1 h5] at hc
      push Not at hc
      rw [List.filter_cons_of_pos (by simp), List.filter_cons_of_neg (by
        simp; omega)]
      simp; omega

theorem poly_foldl (J : ℂ → ℂ) (hJ : ∀ t, J (-starRingEnd ℂ t) = starRingEnd ℂ (J t)) (s : ℝ) (D : ℕ)
    (L : List (ℕ × ℕ)) (Pz : List (Mpc ℝ)) :
    polyOf (L.foldl (fun P p => visitPoly (fun z => ofC (J z.toC)) s p.1 p.2
      ((p.2 * p.2 + D) / 4) P) Pz) =
    polyOf Pz * ((L.flatMap (expand D)).map (fun f => X - C (J (tau s f)))).prod := by
  induction L generalizing Pz with
  | nil => simp
  | cons p L ih =>
    rw [List.foldl_cons, ih, List.flatMap_cons, List.map_append, List.prod_append, ← mul_assoc]
    congr 1
    have hα : ∀ c : ℤ, (alpha s p.1 p.2).toC = tau s ⟨p.1, p.2, c⟩ := by
      intro c
      apply Complex.ext
      · simp only [alpha, Mpc.toC, tau, Nat.cast_mul, Nat.cast_ofNat, Int.cast_natCast]; ring
      · simp only [alpha, Mpc.toC, tau, Nat.cast_mul, Nat.cast_ofNat, Int.cast_natCast]; ring
    have hα' : ∀ c : ℤ, -starRingEnd ℂ (tau s ⟨p.1, p.2, c⟩) = tau s ⟨p.1, -p.2, c⟩ := by
      intro c
      apply Complex.ext
      · simp only [Complex.neg_re, Complex.conj_re, tau, Int.cast_neg]; ring
      · simp only [Complex.neg_im, Complex.conj_im, tau]; ring
    rw [visitPoly, expand]
    split
    · rw [mulLin_spec, toC_ofC, List.map_singleton, List.prod_singleton, hα]
    · rw [mulQuad_spec, toC_ofC, List.map_cons, List.map_singleton, List.prod_cons,
        List.prod_singleton, ← hα', hJ, ← hα]

theorem prod_monic {α : Type*} (g : α → ℂ) (L : List α) :
    (L.map (fun f => (X - C (g f) : ℂ[X]))).prod.Monic ∧
      (L.map (fun f => (X - C (g f) : ℂ[X]))).prod.natDegree = L.length := by
  induction L with
  | nil => simp
  | cons x L ih =>
    rw [List.map_cons, List.prod_cons, (monic_X_sub_C _).natDegree_mul ih.1, ih.2,
      natDegree_X_sub_C, List.length_cons]
    exact ⟨(monic_X_sub_C _).mul ih.1, by omega⟩

/-- **C110**, the polynomial: with exact arithmetic and a function `J` that is real on the imaginary
axis (`J (- conj τ) = conj (J τ)`, as for the modular function), the second pass computes the
product of `X - J (τ_f)` over all reduced forms `f` of discriminant `-D`, `s` being the square
root of `D`. -/
theorem C110_product (J : ℂ → ℂ) (hJ : ∀ t, J (-starRingEnd ℂ t) = starRingEnd ℂ (J t)) (s : ℝ)
    (D fuel : ℕ) (hD : 3 ≤ D) (h4 : D % 4 = 0 ∨ D % 4 = 3) (hf : D ≤ fuel) :
    ∃ (L : List Form) (Pz : List (Mpc ℝ)), L.Nodup ∧ (∀ f, f ∈ L ↔ f.Reduced ∧ f.disc = -D) ∧
      secondPass (fun z => ofC (J z.toC)) s fuel D = some Pz ∧ Pz.length = L.length ∧
      polyOf Pz = (L.map (fun f => X - C (J (tau s f)))).prod := by
  have hp := poly_foldl J hJ s D (visited D) []
  refine ⟨forms D, _, forms_nodup hD h4, mem_forms hD h4, second_eq _ D fuel hD hf [], ?_, ?_⟩
  · rw [← (coeff_polyOf _).2.1, hp]
    rw [show polyOf [] = 1 from rfl, one_mul, (prod_monic _ _).2, forms]
  · rw [hp, show polyOf [] = 1 from rfl, one_mul]; rfl

theorem roundF_eq {x : ℝ} {z : ℤ} (h : |x - z| < 1 / 2) : roundF x = z := by
  rw [abs_lt] at h
  unfold roundF
  simp only
  by_cases hx : x < 0
  · rw [if_pos hx, if_pos (by linarith), Int.ceil_eq_iff]
    constructor <;> linarith
  · rw [if_neg hx, if_neg (by linarith), Int.floor_eq_iff]
    constructor <;> linarith

/-- **C110**, the result.  Let `J` be the values computed for `j`.  If the coefficients of the
product of `X - J (τ_f)` over the reduced forms are closer than one half to those of a monic integer
polynomial `H`, the array returned holds the coefficients of `H`, from the constant one to the
leading 1.

Partial: the claim is that `H` is the Hilbert polynomial, and that the precision chosen makes the
hypothesis true.  See `C110_imprimitive_fails` for the first; the second needs bounds on the
rounding errors of GMP floats. -/
theorem C110_hilbert_partial (J : ℂ → ℂ) (hJ : ∀ t, J (-starRingEnd ℂ t) = starRingEnd ℂ (J t))
    (s : ℝ) (D fuel : ℕ) (hD : 3 ≤ D) (h4 : D % 4 = 0 ∨ D % 4 = 3) (hf : D ≤ fuel)
    (L : List Form) (hn : L.Nodup) (hL : ∀ f, f ∈ L ↔ f.Reduced ∧ f.disc = -D)
    (H : ℤ[X]) (hH : H.Monic) (hdeg : H.natDegree = L.length)
    (hclose : ∀ i < L.length,
      |((L.map (fun f => (X - C (J (tau s f)) : ℂ[X]))).prod.coeff i).re - H.coeff i| < 1 / 2) :
    hilbert (fun z => ofC (J z.toC)) s fuel D = some ((List.range (L.length + 1)).map H.coeff) := by
  obtain ⟨L', Pz, n', m', e, hlen, hP⟩ := C110_product J hJ s D fuel hD h4 hf
  obtain ⟨L'', -, -, e1⟩ := C110_count D fuel hD h4 hf
  have hperm : L.Perm L' := (List.perm_ext_iff_of_nodup hn n').2 (fun f => by rw [hL, m'])
  have hprod : polyOf Pz = (L.map (fun f => (X - C (J (tau s f)) : ℂ[X]))).prod := by
    rw [hP]; exact ((hperm.map _).prod_eq).symm
  have hlen' : Pz.length = L.length := by rw [hlen, hperm.length_eq]
  rw [hilbert, e1, e]
  simp only [Option.map_some, Option.some.injEq]
  rw [rounded, List.range_succ, List.map_append, List.map_singleton, ← hdeg, hH.coeff_natDegree, hdeg]
  congr 1
  apply List.ext_getElem
  · simp [hlen']
  · intro i h1 h2
    rw [List.length_map] at h1
    rw [List.getElem_map, List.getElem_map, List.getElem_range]
    apply roundF_eq
    have := hclose i (by simpa using h2)
    rw [← hprod, (coeff_polyOf Pz).2.2 i h1] at this
    exact this

/-- When `-D` is a fundamental discriminant, every form met is primitive. -/
theorem C110_primitive (D : ℕ) (hF : Fundamental D) (f : Form) (hd : f.disc = -D) (h0 : 0 < D) :
    f.Primitive := by
  obtain ⟨a, b, c⟩ := f
  rintro g ⟨a', rfl⟩ ⟨b', rfl⟩ ⟨c', rfl⟩
  simp only [Form.disc] at hd
  have he : (D : ℤ) = g ^ 2 * (4 * a' * c' - b' ^ 2) := by linear_combination hd
  have hg : g ≠ 0 := by
    rintro rfl
    simp at he
    omega
  have hpos : 0 < 4 * a' * c' - b' ^ 2 := by
    by_contra hn
    have h2 : 0 < g ^ 2 := by positivity
    have : g ^ 2 * (4 * a' * c' - b' ^ 2) ≤ 0 := mul_nonpos_of_nonneg_of_nonpos h2.le (by omega)
    omega
  obtain ⟨E, hE⟩ : ∃ E : ℕ, 4 * a' * c' - b' ^ 2 = E := ⟨_, (Int.toNat_of_nonneg hpos.le).symm⟩
  have hD : D = g.natAbs ^ 2 * E := by
    have : (D : ℤ) = (g.natAbs : ℤ) ^ 2 * E := by rw [Int.natCast_natAbs, sq_abs, he, hE]
    exact_mod_cast this
  have hb : b' ^ 2 % 4 = 0 ∨ b' ^ 2 % 4 = 1 := by
    rcases Int.even_or_odd' b' with ⟨k, rfl | rfl⟩
    · left; rw [show (2 * k) ^ 2 = 4 * k ^ 2 by ring]; omega
    · right; rw [show (2 * k + 1) ^ 2 = 4 * (k ^ 2 + k) + 1 by ring]; omega
  have hE4 : E % 4 = 0 ∨ E % 4 = 3 := by
    have : 4 * a' * c' = 4 * (a' * c') := by ring
    omega
  exact Int.isUnit_iff_natAbs_eq.2 (hF g.natAbs E hD hE4)

/-- **C110** fails for every other discriminant: if `D = g² E` with `g > 1`, forms that are not
primitive are met too, and the product for `D` is a multiple of the one for `E`: it is not the
(irreducible) Hilbert polynomial of `-D`. -/
theorem C110_imprimitive_fails (J : ℂ → ℂ) (s : ℝ) (g E : ℕ) (hg : 1 < g) (hE : 3 ≤ E)
    (h4 : E % 4 = 0 ∨ E % 4 = 3) (LD LE : List Form) (hnD : LD.Nodup) (hnE : LE.Nodup)
    (hLD : ∀ f, f ∈ LD ↔ f.Reduced ∧ f.disc = -(g ^ 2 * E : ℕ))
    (hLE : ∀ f, f ∈ LE ↔ f.Reduced ∧ f.disc = -E) :
    (LE.map (fun f => (X - C (J (tau s f)) : ℂ[X]))).prod ∣
      (LD.map (fun f => (X - C (J (tau (g * s) f)) : ℂ[X]))).prod ∧
    LE ≠ [] ∧ ∃ f ∈ LD, ¬ f.Primitive := by
  let sc : Form → Form := fun f => ⟨g * f.a, g * f.b, g * f.c⟩
  have hg0 : (g : ℤ) ≠ 0 := by omega
  have hgp : (0 : ℤ) < g := by omega
  have hinj : Function.Injective sc := by
    rintro ⟨a, b, c⟩ ⟨a', b', c'⟩ h
    simp only [sc, Form.mk.injEq] at h
    simp only [Form.mk.injEq]
    exact ⟨mul_left_cancel₀ hg0 h.1, mul_left_cancel₀ hg0 h.2.1, mul_left_cancel₀ hg0 h.2.2⟩
  have hsc : ∀ f ∈ LE, sc f ∈ LD := by
    rintro ⟨a, b, c⟩ hf
    rw [hLE] at hf
    rw [hLD]
    simp only [Form.Reduced, Form.disc, sc] at hf ⊢
    obtain ⟨⟨h1, h2, h3, h5⟩, h6⟩ := hf
    have habs : |(g : ℤ) * b| = g * |b| := by rw [abs_mul, abs_of_pos hgp]
    refine ⟨⟨by positivity, by rw [habs]; gcongr, by gcongr, ?_⟩, ?_⟩
    · rw [habs]
      rintro (h | h)
      · exact mul_nonneg hgp.le (h5 (Or.inl (mul_left_cancel₀ hg0 h)))
      · exact mul_nonneg hgp.le (h5 (Or.inr (mul_left_cancel₀ hg0 h)))
    · push_cast
      linear_combination (g : ℤ) ^ 2 * h6
  have hτ : ∀ f ∈ LE, tau s f = tau (g * s) (sc f) := by
    rintro ⟨a, b, c⟩ hf
    rw [hLE] at hf
    have h1 : (0 : ℤ) < a := hf.1.1
    have ha : (a : ℝ) ≠ 0 := by exact_mod_cast h1.ne'
    have hgr : (g : ℝ) ≠ 0 := by exact_mod_cast hg0
    apply Complex.ext
    · simp only [tau, sc]; push_cast; field_simp
    · simp only [tau, sc]; push_cast; field_simp
  have hpf : (⟨1, (E % 2 : ℕ), ((E + E % 2) / 4 : ℕ)⟩ : Form) ∈ LE := by
    rw [hLE]
    have hk : 4 * ((E + E % 2) / 4) = E + E % 2 := by omega
    have h01 : E % 2 = 0 ∨ E % 2 = 1 := by omega
    refine ⟨⟨one_pos, ?_, ?_, fun _ => Int.natCast_nonneg _⟩, ?_⟩
    · show |((E % 2 : ℕ) : ℤ)| ≤ 1
      rw [abs_of_nonneg (Int.natCast_nonneg _)]; omega
    · show (1 : ℤ) ≤ (((E + E % 2) / 4 : ℕ) : ℤ)
      omega
    · show (((E % 2 : ℕ) : ℤ)) ^ 2 - 4 * 1 * (((E + E % 2) / 4 : ℕ) : ℤ) = -E
      have : (4 : ℤ) * (((E + E % 2) / 4 : ℕ) : ℤ) = E + (E % 2 : ℕ) := by exact_mod_cast hk
      rcases h01 with h | h <;> rw [h] at this ⊢ <;> push_cast at this ⊢ <;> linarith
  refine ⟨?_, List.ne_nil_of_mem hpf, sc _, hsc _ hpf, ?_⟩
  · have e1 : LE.map (fun f => (X - C (J (tau s f)) : ℂ[X])) =
        (LE.map sc).map (fun f => (X - C (J (tau (g * s) f)) : ℂ[X])) := by
      rw [List.map_map]
      exact List.map_congr_left (fun f hf => by rw [Function.comp_apply, hτ f hf])
    rw [e1]
    have hsub : (LE.map sc).Subperm LD := by
      refine List.subperm_of_subset ((List.nodup_map_iff hinj).2 hnE) ?_
      intro f hf
      rw [List.mem_map] at hf
      obtain ⟨f', h1, rfl⟩ := hf
      exact hsc f' h1
    obtain ⟨M, hM1, hM2⟩ := hsub
    rw [← (hM1.map _).prod_eq]
    exact (hM2.map _).prod_dvd_prod
  · intro hp
    have := hp g (Dvd.intro _ rfl) (Dvd.intro _ rfl) (Dvd.intro _ rfl)
    rw [Int.isUnit_iff] at this
    omega

/-- `D = 23`: the three forms `(1, 1, 6)` and `(2, ±1, 3)`, two values of `j` to compute. -/
example : firstPass 23 23 = some ⟨2, 3, 2⟩ := by decide +kernel

/-- `D = 23` is fundamental and meets the hypotheses of `C110_count`, `C110_product`. -/
example : Fundamental 23 ∧ 3 ≤ 23 ∧ 23 % 4 = 3 := by
  refine ⟨?_, by omega, rfl⟩
  intro f E h _
  have h1 : f ^ 2 ∣ 23 := Dvd.intro _ h.symm
  have h2 : f ∣ 23 := (Dvd.intro_left f (by ring)).trans h1
  rcases (Nat.dvd_prime (by norm_num)).1 h2 with h | h
  · exact h
  · subst h; norm_num at h1

/-- `D = 12 = 2² · 3`: the form `(2, 2, 2)` is met beside `(1, 0, 3)`, although the class number
is one. -/
example : visited 12 = [(1, 0), (2, 2)] ∧ firstPass 12 12 = some ⟨3 / 2, 2, 2⟩ := by decide +kernel

/-- The product over the forms of `D = 23`, for made up values of `j` (over the rationals):
`(X - 5) (X² - 4 X + 13)`. -/
example : secondPass (fun z : Mpc ℚ => if z.a = -(1 / 2) then ⟨5, 0⟩ else ⟨2, 3⟩) 1 23 23 =
    some [⟨-9, 0⟩, ⟨33, 0⟩, ⟨-65, 0⟩] := by decide +kernel

/-- Rounding: to the nearest integer on both sides of zero. -/
example : rounded ([⟨-9 + 1 / 3, 1 / 7⟩, ⟨33 - 1 / 3, 0⟩, ⟨-65 - 1 / 3, 0⟩] : List (Mpc ℚ)) =
    [-65, 33, -9, 1] := by decide +kernel

end Pbc.Hilbert
