import Verif.Lemmas.Certify
import Mathlib.FieldTheory.Finite.Basic
import Mathlib.RingTheory.AdjoinRoot
import Mathlib.LinearAlgebra.Dimension.Free
import Mathlib.FieldTheory.Finiteness
import Mathlib.Tactic.LinearCombination

/-! # Irreducibility of polynomials over a prime field, by computations that the kernel can do -/

set_option autoImplicit false

namespace Pbc.Certify

open Polynomial

section eval

variable {L : Type*} [CommRing L] (ρ : L) (q : ℕ)

/-- The value of a polynomial, given by its coefficients, the constant one first. -/
def ev : List ℕ → L
  | [] => 0
  | c :: l => c + ρ * ev l

/-- A multiple. -/
def scale (c : ℕ) (l : List ℕ) : List ℕ := l.map fun x => c * x % q

/-- A sum. -/
def addL (x y : List ℕ) : List ℕ := List.zipWith (fun a b => (a + b) % q) x y

/-- `x` times a polynomial of degree below `n`, where `x^n` is given. -/
def mulX (top : List ℕ) (l : List ℕ) : List ℕ := addL q (0 :: l.dropLast) (scale q (l.getLastD 0) top)

/-- A product. -/
def mulL (top : List ℕ) (x y : List ℕ) : List ℕ :=
  x.foldr (fun c acc => addL q (scale q c y) (mulX q top acc)) (top.map fun _ => 0)

variable {ρ q}

theorem cast_mod' (hq : (q : L) = 0) (n : ℕ) : ((n % q : ℕ) : L) = n := by
  conv_rhs => rw [← Nat.mod_add_div n q]
  rw [Nat.cast_add, Nat.cast_mul, hq, zero_mul, add_zero]

theorem ev_scale (hq : (q : L) = 0) (c : ℕ) (l : List ℕ) : ev ρ (scale q c l) = c * ev ρ l := by
  induction l with
  | nil => simp [scale, ev]
  | cons a l ih =>
    rw [scale, List.map_cons, ev, ← scale, ih, cast_mod' hq, ev, Nat.cast_mul]
    ring

theorem ev_add (hq : (q : L) = 0) (x y : List ℕ) (h : x.length = y.length) : ev ρ (addL q x y) = ev ρ x + ev ρ y := by
  induction x generalizing y with
  | nil => cases y with
    | nil => simp [addL, ev]
    | cons => simp at h
  | cons a x ih => cases y with
    | nil => simp at h
    | cons b y =>
      rw [addL, List.zipWith_cons_cons, ev, ← addL, ih y (by simpa using h), cast_mod' hq, ev, ev, Nat.cast_add]
      ring

theorem ev_append (x y : List ℕ) : ev ρ (x ++ y) = ev ρ x + ρ ^ x.length * ev ρ y := by
  induction x with
  | nil => simp [ev]
  | cons a x ih => rw [List.cons_append, ev, ih, ev, List.length_cons, pow_succ]; ring

theorem length_scale (c : ℕ) (l : List ℕ) : (scale q c l).length = l.length := by simp [scale]

theorem length_add (x y : List ℕ) (h : x.length = y.length) : (addL q x y).length = y.length := by simp [addL, h]

theorem length_mulX (top l : List ℕ) (hl : l.length = top.length) (h0 : 0 < top.length) :
    (mulX q top l).length = top.length := by
  rw [mulX, length_add, length_scale]
  simp only [List.length_cons, List.length_dropLast, length_scale]
  omega

theorem ev_mulX (hq : (q : L) = 0) (top l : List ℕ) (hl : l.length = top.length) (h0 : 0 < top.length)
    (ht : ρ ^ top.length = ev ρ top) : ev ρ (mulX q top l) = ρ * ev ρ l := by
  rw [mulX, ev_add hq _ _ (by simp only [List.length_cons, List.length_dropLast, length_scale]; omega), ev_scale hq, ev]
  obtain ⟨c, m, rfl⟩ : ∃ c m, l = m ++ [c] := by
    rcases List.eq_nil_or_concat l with rfl | ⟨m, c, rfl⟩
    · simp at hl; omega
    · exact ⟨c, m, by simp⟩
  have hm : top.length = m.length + 1 := by simpa using hl.symm
  rw [List.dropLast_concat, ev_append, ← ht, hm]
  simp only [List.getLastD_concat, ev]
  push_cast
  ring

theorem mulL_spec (hq : (q : L) = 0) (top x y : List ℕ) (hy : y.length = top.length) (h0 : 0 < top.length)
    (ht : ρ ^ top.length = ev ρ top) :
    (mulL q top x y).length = top.length ∧ ev ρ (mulL q top x y) = ev ρ x * ev ρ y := by
  induction x with
  | nil =>
    refine ⟨by simp [mulL], ?_⟩
    have : ∀ l : List ℕ, ev ρ (l.map fun _ => 0) = 0 := fun l => by
      induction l with
      | nil => rfl
      | cons _ _ ih => rw [List.map_cons, ev, ih]; simp
    rw [mulL, List.foldr_nil, this, ev, zero_mul]
  | cons c x ih =>
    have e : mulL q top (c :: x) y = addL q (scale q c y) (mulX q top (mulL q top x y)) := rfl
    have hl := length_mulX (q := q) top _ ih.1 h0
    rw [e, length_add _ _ (by rw [length_scale, hl, hy]), ev_add hq _ _ (by rw [length_scale, hl, hy]), ev_scale hq,
      ev_mulX hq top _ ih.1 h0 ht, ih.2, ev]
    exact ⟨hl, by ring⟩

/-- Powers. -/
def powL (top : List ℕ) (k : ℕ) (b : List ℕ) (e : ℕ) (acc : List ℕ) : List ℕ := powBy (mulL q top) k b e acc

theorem powL_spec (hq : (q : L) = 0) (top : List ℕ) (h0 : 0 < top.length) (ht : ρ ^ top.length = ev ρ top) (k : ℕ) :
    ∀ (b : List ℕ) (e : ℕ) (acc : List ℕ), e < 2 ^ k → b.length = top.length → acc.length = top.length →
      (powBy (mulL q top) k b e acc).length = top.length ∧
      ev ρ (powBy (mulL q top) k b e acc) = ev ρ acc * ev ρ b ^ e := by
  induction k with
  | zero =>
    intro b e acc he hb ha
    obtain rfl : e = 0 := by simpa using he
    simp [powBy, ha]
  | succ k ih =>
    intro b e acc he hb ha
    have h2 := mulL_spec (ρ := ρ) hq top b b hb h0 ht
    have ha' : (if e % 2 = 1 then mulL q top acc b else acc).length = top.length ∧
        ev ρ (if e % 2 = 1 then mulL q top acc b else acc) = ev ρ acc * ev ρ b ^ (e % 2) := by
      split_ifs with h
      · have := mulL_spec (ρ := ρ) hq top acc b hb h0 ht
        rw [h, pow_one]
        exact this
      · rw [show e % 2 = 0 by omega, pow_zero, mul_one]
        exact ⟨ha, rfl⟩
    obtain ⟨i1, i2⟩ := ih (mulL q top b b) (e / 2) _ (by rw [pow_succ] at he; omega) h2.1 ha'.1
    rw [powBy]
    refine ⟨i1, ?_⟩
    rw [i2, h2.2, ha'.2, ← sq, ← pow_mul, mul_assoc, ← pow_add, Nat.mod_add_div]

end eval

/-- `x^(q^1), x^(q^2), …`, given the previous one. -/
def frobs (q k : ℕ) (top one : List ℕ) : ℕ → List ℕ → List (List ℕ)
  | 0, _ => []
  | n + 1, x => let x' := powBy (mulL q top) k x q one; x' :: frobs q k top one n x'

/-- The check: `top` are the negated lower coefficients; for `i = 1, …, n / 2` the polynomial `x^(q^i) - x` is invertible,
the inverses being given. -/
def checkIrred (q k : ℕ) (top : List ℕ) (ws : List (List ℕ)) : Bool :=
  let one := 1 :: List.replicate (top.length - 1) 0
  let x := 0 :: 1 :: List.replicate (top.length - 2) 0
  let minus := 0 :: (q - 1) :: List.replicate (top.length - 2) 0
  2 ≤ top.length && q < 2 ^ k && top.length ≤ 2 * ws.length + 1 &&
    (List.zipWith (fun u w => decide (mulL q top w (addL q u minus) = one)) (frobs q k top one ws.length x) ws).all id

theorem frobs_spec {L : Type*} [CommRing L] {ρ : L} {q k : ℕ} (hq : (q : L) = 0) (hk : q < 2 ^ k) (top one : List ℕ)
    (h0 : 0 < top.length) (ht : ρ ^ top.length = ev ρ top) (h1 : ev ρ one = 1) (hl : one.length = top.length) :
    ∀ (n : ℕ) (x : List ℕ), x.length = top.length → ∀ i, i < n → ∃ u, (frobs q k top one n x)[i]? = some u ∧
      u.length = top.length ∧ ev ρ u = ev ρ x ^ q ^ (i + 1)
  | 0, _, _, i, hi => absurd hi (by omega)
  | n + 1, x, hx, i, hi => by
    obtain ⟨e1, e2⟩ := powL_spec (ρ := ρ) hq top h0 ht k x q one hk hx hl
    rw [h1, one_mul] at e2
    cases i with
    | zero => exact ⟨_, rfl, e1, by rw [e2]; simp⟩
    | succ i =>
      obtain ⟨u, f1, f2, f3⟩ := frobs_spec hq hk top one h0 ht h1 hl n _ e1 i (by omega)
      refine ⟨u, by simpa [frobs] using f1, f2, ?_⟩
      rw [f3, e2, ← pow_mul, pow_succ' q (i + 1)]

theorem ev_replicate {L : Type*} [CommRing L] (ρ : L) (n : ℕ) : ev ρ (List.replicate n 0) = 0 := by
  induction n with
  | zero => rfl
  | succ n ih => rw [List.replicate_succ, ev, ih]; simp

/-- No element of degree at most `n / 2` over the prime field is a root. -/
theorem checkIrred_root {L : Type*} [Field L] {ρ : L} {q k : ℕ} (hq0 : 1 ≤ q) (hq : (q : L) = 0) {top : List ℕ} {ws : List (List ℕ)}
    (h : checkIrred q k top ws = true) (ht : ρ ^ top.length = ev ρ top) {d : ℕ} (h1 : 1 ≤ d) (hd : 2 * d ≤ top.length) :
    ρ ^ q ^ d ≠ ρ := by
  intro hρ
  simp only [checkIrred, Bool.and_eq_true, decide_eq_true_eq, List.all_eq_true] at h
  obtain ⟨⟨⟨h2, hk⟩, hw⟩, hall⟩ := h
  have hone : ev ρ (1 :: List.replicate (top.length - 1) 0) = 1 := by rw [ev, ev_replicate]; simp
  have hx : ev ρ (0 :: 1 :: List.replicate (top.length - 2) 0) = ρ := by rw [ev, ev, ev_replicate]; simp
  obtain ⟨u, e1, e2, e3⟩ := frobs_spec (ρ := ρ) hq hk top (1 :: List.replicate (top.length - 1) 0) (by omega) ht hone
    (by simp only [List.length_cons, List.length_replicate]; omega) ws.length
    (0 :: 1 :: List.replicate (top.length - 2) 0) (by simp only [List.length_cons, List.length_replicate]; omega) (d - 1) (by omega)
  rw [hx, Nat.sub_add_cancel h1, hρ] at e3
  obtain ⟨w, hw'⟩ : ∃ w, ws[d - 1]? = some w := ⟨ws[d - 1]'(by omega), List.getElem?_eq_getElem (by omega)⟩
  have hm := hall (decide (mulL q top w (addL q u (0 :: (q - 1) :: List.replicate (top.length - 2) 0)) =
      1 :: List.replicate (top.length - 1) 0)) (by
    refine List.mem_of_getElem? (i := d - 1) ?_
    rw [List.getElem?_zipWith, e1, hw'])
  simp only [id_eq, decide_eq_true_eq] at hm
  have hlm : (0 :: (q - 1) :: List.replicate (top.length - 2) 0).length = top.length := by
    simp only [List.length_cons, List.length_replicate]; omega
  have hla := length_add (q := q) u (0 :: (q - 1) :: List.replicate (top.length - 2) 0) (by rw [e2, hlm])
  have := (mulL_spec (ρ := ρ) hq top w _ (hla.trans hlm) (by omega) ht).2
  rw [hm, hone, ev_add hq _ _ (by rw [e2, hlm]), e3, ev, ev, ev_replicate] at this
  have hq1 : ((q - 1 : ℕ) : L) = -1 := by
    rw [Nat.cast_sub hq0, hq]; simp
  rw [hq1] at this
  apply one_ne_zero (α := L)
  rw [this]
  push_cast
  ring

/-- The polynomial with the given negated lower coefficients. -/
noncomputable def monicOf (q : ℕ) (top : List ℕ) : (ZMod q)[X] := X ^ top.length - ev X top

theorem ev_map {L M : Type*} [CommRing L] [CommRing M] (φ : L →+* M) (ρ : L) (l : List ℕ) : φ (ev ρ l) = ev (φ ρ) l := by
  induction l with
  | nil => exact map_zero φ
  | cons c l ih => rw [ev, map_add, map_mul, ih, map_natCast, ev]

theorem degree_ev (q : ℕ) [Fact q.Prime] (l : List ℕ) : (ev (X : (ZMod q)[X]) l).degree < l.length := by
  induction l with
  | nil => simp [ev]
  | cons c l ih =>
    rw [ev]
    refine (degree_add_le _ _).trans_lt (max_lt ?_ ?_)
    · rw [← C_eq_natCast]
      exact degree_C_le.trans_lt (by exact_mod_cast Nat.succ_pos _)
    · rcases eq_or_ne (ev (X : (ZMod q)[X]) l) 0 with h0 | h0
      · rw [h0, mul_zero, degree_zero]; exact WithBot.bot_lt_coe _
      · rw [degree_eq_natDegree h0] at ih
        rw [degree_mul, degree_X, degree_eq_natDegree h0, List.length_cons]
        have : (ev (X : (ZMod q)[X]) l).natDegree < l.length := by exact_mod_cast ih
        exact_mod_cast (by omega : 1 + (ev (X : (ZMod q)[X]) l).natDegree < l.length + 1)

theorem monicOf_monic (q : ℕ) [Fact q.Prime] (top : List ℕ) : (monicOf q top).Monic := by
  rw [monicOf, sub_eq_add_neg]
  exact monic_X_pow_add (by rw [degree_neg]; exact degree_ev q top)

theorem monicOf_natDegree (q : ℕ) [Fact q.Prime] (top : List ℕ) : (monicOf q top).natDegree = top.length := by
  rw [monicOf]
  have h := degree_ev q top
  have : (X ^ top.length - ev (X : (ZMod q)[X]) top).degree = ((top.length : ℕ) : WithBot ℕ) := by
    rw [degree_sub_eq_left_of_degree_lt] <;> rw [degree_X_pow]
    exact h
  exact natDegree_eq_of_degree_eq_some this

/-- The check proves irreducibility. -/
theorem irreducible_of_check {q k : ℕ} [hp : Fact q.Prime] {top : List ℕ} {ws : List (List ℕ)}
    (h : checkIrred q k top ws = true) : Irreducible (monicOf q top) := by
  have h2 : 2 ≤ top.length := by
    simp only [checkIrred, Bool.and_eq_true, decide_eq_true_eq] at h
    exact h.1.1.1
  have hd := monicOf_natDegree q top
  have hne : monicOf q top ≠ 1 := fun e => by rw [e, natDegree_one] at hd; omega
  rw [(monicOf_monic q top).irreducible_iff_lt_natDegree_lt hne]
  intro g hg hgd hdvd
  rw [Finset.mem_Ioc, hd] at hgd
  obtain ⟨p, hpi, hpg⟩ := exists_irreducible_of_natDegree_pos hgd.1
  have hpf := hpg.trans hdvd
  have hpd : p.natDegree ≤ g.natDegree := natDegree_le_of_dvd hpg hg.ne_zero
  have hp0 : p.natDegree ≠ 0 := fun h0 => by
    rw [eq_C_of_natDegree_eq_zero h0] at hpi
    exact not_irreducible_C _ hpi
  have hfi : Fact (Irreducible p) := ⟨hpi⟩
  have hfin : Module.Finite (ZMod q) (AdjoinRoot p) := (AdjoinRoot.powerBasis hpi.ne_zero).finite
  have : Finite (AdjoinRoot p) := Module.finite_of_finite (ZMod q)
  have hF : Fintype (AdjoinRoot p) := Fintype.ofFinite _
  have hcard : Fintype.card (AdjoinRoot p) = q ^ p.natDegree := by
    rw [Module.card_eq_pow_finrank (K := ZMod q), ZMod.card, (AdjoinRoot.powerBasis hpi.ne_zero).finrank,
      AdjoinRoot.powerBasis_dim]
  have hpow := FiniteField.pow_card (AdjoinRoot.root p)
  rw [hcard] at hpow
  have hq0 : (q : AdjoinRoot p) = 0 := by
    rw [← map_natCast (algebraMap (ZMod q) (AdjoinRoot p)), ZMod.natCast_self, map_zero]
  refine checkIrred_root (L := AdjoinRoot p) (ρ := AdjoinRoot.root p) hp.out.one_lt.le hq0 h ?_ (d := p.natDegree)
    (by omega) (by omega) hpow
  have hroot : AdjoinRoot.mk p (monicOf q top) = 0 := AdjoinRoot.mk_eq_zero.2 hpf
  rw [monicOf, map_sub, map_pow, AdjoinRoot.mk_X, ev_map, AdjoinRoot.mk_X, sub_eq_zero] at hroot
  exact hroot

end Pbc.Certify
