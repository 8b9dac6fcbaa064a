import Verif.Model.SetMultiz
import Verif.Props.Multiz
import Verif.Lemmas.Poly
import Mathlib.Algebra.Field.ZMod

/-!
# Properties of `element_set_multiz` and `element_item`

A nested list stands for a polynomial in the generators of the tower (`Multiz.value`): the list at depth
`d` for the polynomial in `x_d` with the entries as coefficients.  Below the last generator, `x_d = 0`,
only the constant coefficient counts.
-/

set_option autoImplicit false

namespace Pbc.SetMultiz

open Pbc.Multiz

section Spec

mutual

/-- No list is longer than the degree of the extension it is read in; `none` is a polynomial ring, which takes
lists of any length. -/
def Fits : List (Option ℕ) → MZ → Prop
  | [], _ => True
  | _ :: _, .int _ => True
  | w :: ws, .arr l => (∀ n ∈ w, l.length ≤ n) ∧ FitsL ws l

/-- Every entry fits. -/
def FitsL : List (Option ℕ) → List MZ → Prop
  | _, [] => True
  | ws, a :: l => Fits ws a ∧ FitsL ws l

end

/-- The function gives, for every nested list without empty lists and of fitting width, an element whose image
in the top of the tower is the value of the list. -/
def Sound {A R : Type*} [CommRing R] (set : MZ → Option A) (φ : A → R) (x : ℕ → R) (d : ℕ)
    (ws : List (Option ℕ)) : Prop :=
  ∀ m, Multiz.Nonempty m → Fits ws m → ∃ a, set m = some a ∧ φ a = value x d m

end Spec

variable {A R : Type*} [CommRing R]

theorem fitsL_iff {ws : List (Option ℕ)} {l : List MZ} : FitsL ws l ↔ ∀ a ∈ l, Fits ws a := by
  induction l with
  | nil => simp [FitsL]
  | cons a l ih => simp [FitsL, ih]

theorem toMpz_spec : (m : MZ) → Multiz.Nonempty m → toMpz m = some (const m)
  | .int z, _ => rfl
  | .arr [], h => (h.1 rfl).elim
  | .arr (a :: l), h => by rw [toMpz, toMpz_spec a h.2.1, const]

theorem value_const (x : ℕ → R) (d : ℕ) (hx : ∀ e, d ≤ e → x e = 0) :
    (m : MZ) → Multiz.Nonempty m → value x d m = (const m : R)
  | .int z, _ => by rw [value, const]
  | .arr [], h => (h.1 rfl).elim
  | .arr (a :: l), h => by
    rw [value, valueL, hx d le_rfl, zero_mul, add_zero, const]
    exact value_const x (d + 1) (fun e he => hx e (by omega)) a h.2.1

/-- **C105**, prime fields and integers: the constant coefficient. -/
theorem C105_generic (setMpz : ℤ → A) (φ : A → R) (hφ : ∀ z, φ (setMpz z) = (z : R)) (x : ℕ → R) (d : ℕ)
    (hx : ∀ e, d ≤ e → x e = 0) : Sound (generic setMpz) φ x d [] := by
  intro m hm _
  refine ⟨setMpz (const m), by rw [generic, toMpz_spec m hm]; rfl, ?_⟩
  rw [hφ, value_const x d hx m hm]

/-- **C105**, quadratic extensions, lists of one or two entries. -/
theorem C105_quadratic_partial [Zero A] {base : MZ → Option A} {φ : A → R} {x : ℕ → R} {d : ℕ}
    {ws : List (Option ℕ)} (h0 : φ 0 = 0) (hb : Sound base φ x (d + 1) ws) :
    Sound (fq base) (fun e => φ e.x + x d * φ e.y) x d (some 2 :: ws) := by
  intro m hm hf
  match m, hm, hf with
  | .int z, hm, hf =>
    obtain ⟨a, h1, h2⟩ := hb (.int z) trivial (by cases ws <;> trivial)
    refine ⟨⟨a, 0⟩, by rw [fq, isZ, if_pos rfl, h1]; rfl, ?_⟩
    simp only [h0, h2, value, mul_zero, add_zero]
  | .arr [], hm, _ => exact (hm.1 rfl).elim
  | .arr [a], hm, hf =>
    obtain ⟨u, h1, h2⟩ := hb a hm.2.1 hf.2.1
    refine ⟨⟨u, 0⟩, by simp [fq, isZ, «at», count, h1], ?_⟩
    simp only [h0, h2, value, valueL]
  | .arr [a, b], hm, hf =>
    obtain ⟨u, h1, h2⟩ := hb a hm.2.1 hf.2.1
    obtain ⟨v, h3, h4⟩ := hb b hm.2.2.1 hf.2.2.1
    refine ⟨⟨u, v⟩, by simp [fq, isZ, «at», count, h1, h3], ?_⟩
    simp only [h2, h4, value, valueL]; ring
  | .arr (a :: b :: c :: l), _, hf =>
    have := hf.1 2 rfl
    simp at this

/-- The value of a list of coefficients at a point. -/
def evalL (t : R) : List R → R
  | [] => 0
  | a :: l => a + t * evalL t l

theorem evalL_zero (t : R) (n : ℕ) : evalL t (List.replicate n 0) = 0 := by
  induction n with
  | zero => rfl
  | succ n ih => rw [List.replicate_succ, evalL, ih, mul_zero, add_zero]

theorem evalL_append_zero (t : R) (l : List R) (n : ℕ) : evalL t (l ++ List.replicate n 0) = evalL t l := by
  induction l with
  | nil => exact evalL_zero t n
  | cons a l ih => rw [List.cons_append, evalL, evalL, ih]

/-- The coefficients read one by one. -/
theorem mapM_at {base : MZ → Option A} {φ : A → R} {x : ℕ → R} {d : ℕ} {ws : List (Option ℕ)}
    (hb : Sound base φ x (d + 1) ws) : (l : List MZ) → NonemptyL l → FitsL ws l →
    ∃ c : List A, l.mapM base = some c ∧ c.length = l.length ∧ evalL (x d) (c.map φ) = valueL x d l
  | [], _, _ => ⟨[], by simp, rfl, rfl⟩
  | a :: l, hn, hf => by
    obtain ⟨u, h1, h2⟩ := hb a hn.1 hf.1
    obtain ⟨c, h3, h4, h5⟩ := mapM_at hb l hn.2 hf.2
    refine ⟨u :: c, by simp [h1, h3], by simp [h4], ?_⟩
    rw [List.map_cons, evalL, h5, h2, valueL]

theorem range_mapM (l : List MZ) (base : MZ → Option A) :
    ((List.range l.length).mapM fun i => («at» (.arr l) i).bind base) = l.mapM base := by
  induction l with
  | nil => simp
  | cons a l ih =>
    rw [List.length_cons, List.range_succ_eq_map, List.mapM_cons, List.mapM_cons, List.mapM_map]
    have e : (List.mapM ((fun i => («at» (.arr (a :: l)) i).bind base) ∘ Nat.succ) (List.range l.length)) =
        l.mapM base := by rw [← ih]; rfl
    rw [e]; rfl

theorem range_mapM_pad [Zero A] (l : List MZ) (base : MZ → Option A) (n : ℕ) (h : l.length ≤ n) :
    ((List.range n).mapM fun i : ℕ => if Int.ofNat i ≥ count (.arr l) then some 0
      else («at» (.arr l) i).bind base) = (l.mapM base).map (· ++ List.replicate (n - l.length) 0) := by
  induction l generalizing n with
  | nil =>
    have : ∀ k, (List.range n).length = k → ((List.range n).mapM fun i : ℕ =>
        if Int.ofNat i ≥ count (.arr []) then some (0 : A) else («at» (.arr []) i).bind base) =
        some (List.replicate k 0) := by
      generalize List.range n = r
      intro k hk
      subst hk
      induction r with
      | nil => simp
      | cons i r ih =>
        rw [List.mapM_cons, ih]
        simp [count, List.replicate_succ]
    rw [this n (by simp)]
    simp
  | cons a l ih =>
    obtain ⟨n, rfl⟩ := Nat.exists_eq_add_of_le h
    have hn : (a :: l).length + n = (l.length + n) + 1 := by rw [List.length_cons]; omega
    rw [hn, List.range_succ_eq_map, List.mapM_cons, List.mapM_cons, List.mapM_map]
    have e : (List.mapM ((fun i : ℕ => if Int.ofNat i ≥ count (.arr (a :: l)) then some (0 : A)
        else («at» (.arr (a :: l)) i).bind base) ∘ Nat.succ) (List.range (l.length + n))) =
        (l.mapM base).map (· ++ List.replicate (l.length + n - l.length) 0) := by
      rw [← ih (l.length + n) (by omega)]
      congr 1
      funext i
      simp [count, «at»]
    rw [e]
    have e2 : l.length + n + 1 - (a :: l).length = l.length + n - l.length := by rw [List.length_cons]; omega
    rw [e2]
    have e3 : ¬ (Int.ofNat 0 ≥ count (.arr (a :: l))) := by simp [count]
    rw [if_neg e3]
    cases h1 : base a with
    | none => simp [«at», h1]
    | some u =>
      cases h2 : l.mapM base with
      | none => simp [«at», h1]
      | some c => simp [«at», h1]

/-- **C105**, extensions `R[x]/(f)` of degree `n`, lists of at most `n` entries. -/
theorem C105_polymod_partial [Zero A] {base : MZ → Option A} {φ : A → R} {x : ℕ → R} {d n : ℕ}
    {ws : List (Option ℕ)} (h0 : φ 0 = 0) (hb : Sound base φ x (d + 1) ws) (hn : 0 < n) :
    Sound (polymod n base) (fun e => evalL (x d) (e.map φ)) x d (some n :: ws) := by
  intro m hm hf
  cases m with
  | int z =>
    obtain ⟨a, h1, h2⟩ := hb (.int z) trivial (by cases ws <;> trivial)
    refine ⟨a :: List.replicate (n - 1) 0, by rw [polymod, isZ, if_pos rfl, h1]; rfl, ?_⟩
    change evalL (x d) (List.map φ _) = _
    rw [List.map_cons, List.map_replicate, h0, evalL, evalL_zero, h2, value, value, mul_zero, add_zero]
  | arr l =>
    obtain ⟨c, h1, h2, h3⟩ := mapM_at hb l hm.2 hf.2
    refine ⟨c ++ List.replicate (n - l.length) 0, ?_, ?_⟩
    · rw [polymod, isZ, if_neg (by simp), range_mapM_pad l base n (hf.1 n rfl), h1]; rfl
    · change evalL (x d) (List.map φ _) = _
      rw [List.map_append, List.map_replicate, h0, evalL_append_zero, h3, value]

/-- **C105**: the element read has exactly `n` coefficients. -/
theorem C105_polymod_length [Zero A] (base : MZ → Option A) (n : ℕ) (hn : 0 < n) (m : MZ) (e : List A)
    (h : polymod n base m = some e) : e.length = n := by
  rw [polymod] at h
  by_cases hz : isZ m = true
  · rw [if_pos hz] at h
    obtain ⟨a, _, rfl⟩ := Option.map_eq_some_iff.1 h
    rw [List.length_cons, List.length_replicate]; omega
  · rw [if_neg hz] at h
    have : ∀ (f : ℕ → Option A) (r : List ℕ) (e : List A), r.mapM f = some e → e.length = r.length := by
      intro f r
      induction r with
      | nil => intro e h; simp at h; simp [h]
      | cons i r ih =>
        intro e h
        rw [List.mapM_cons] at h
        obtain ⟨a, _, h⟩ := Option.bind_eq_some_iff.1 h
        obtain ⟨c, hc, h⟩ := Option.bind_eq_some_iff.1 h
        have := Option.some.inj h
        rw [← this, List.length_cons, ih c hc, List.length_cons]
    rw [this _ _ _ h, List.length_range]

/-- **C105**, polynomial rings: any length; the result has no leading zero. -/
theorem C105_poly {K : Type*} [CommRing K] [DecidableEq K] {base : MZ → Option K} {φ : K →+* R} {x : ℕ → R}
    {d : ℕ} {ws : List (Option ℕ)} (hb : Sound base φ x (d + 1) ws) :
    Sound (poly base) (fun e => (Spec.toPoly e).eval₂ φ (x d)) x d (none :: ws) ∧
      ∀ m e, poly base m = some e → Spec.Normal e := by
  have hev : ∀ l : List K, (Spec.toPoly l).eval₂ φ (x d) = evalL (x d) (l.map φ) := by
    intro l
    induction l with
    | nil => simp [Poly.toPoly_nil, evalL]
    | cons a l ih =>
      rw [Poly.toPoly_cons, Polynomial.eval₂_add, Polynomial.eval₂_C, Polynomial.eval₂_mul, Polynomial.eval₂_X,
        ih, List.map_cons, evalL]
  refine ⟨fun m hm hf => ?_, fun m e h => ?_⟩
  · cases m with
    | int z =>
      refine ⟨Poly.strip [(Int.cast z : K)], rfl, ?_⟩
      change (Spec.toPoly _).eval₂ φ (x d) = _
      rw [Poly.strip_toPoly, hev, value]
      simp [evalL]
    | arr l =>
      obtain ⟨c, h1, h2, h3⟩ := mapM_at hb l hm.2 hf.2
      refine ⟨Poly.strip c, ?_, ?_⟩
      · rw [poly, isZ, if_neg (by simp)]
        have : (count (.arr l)).toNat = l.length := by simp [count]
        rw [this, range_mapM, h1]; rfl
      · change (Spec.toPoly _).eval₂ φ (x d) = _
        rw [Poly.strip_toPoly, hev, h3, value]
  · rw [poly] at h
    by_cases hz : isZ m = true
    · rw [if_pos hz] at h
      obtain ⟨z, _, rfl⟩ := Option.map_eq_some_iff.1 h
      exact Poly.strip_normal _
    · rw [if_neg hz] at h
      obtain ⟨z, _, rfl⟩ := Option.map_eq_some_iff.1 h
      exact Poly.strip_normal _

/-! ### Items and back -/

/-- `tree` gives, for every element, a nested list that `set` reads as that element. -/
def Inverse (set : MZ → Option A) (tree : A → MZ) (valid : A → Prop) : Prop :=
  ∀ a, valid a → set (tree a) = some a

/-- **C105**, prime fields and integers: `element_to_mpz` gives a list that reads back. -/
theorem C105_items_generic (setMpz : ℤ → A) (toZ : A → ℤ) (h : ∀ a, setMpz (toZ a) = a) :
    Inverse (generic setMpz) (fun a => .int (toZ a)) (fun _ => True) := by
  intro a _
  change some (setMpz (toZ a)) = some a
  rw [h]

/-- **C105**, quadratic extensions: the list of items reads back. -/
theorem C105_items_quadratic [Zero A] {base : MZ → Option A} {tree : A → MZ} {valid : A → Prop}
    (h : Inverse base tree valid) :
    Inverse (fq base) (fun e => .arr ((fqItems e).map tree)) (fun e => valid e.x ∧ valid e.y) := by
  rintro ⟨a, b⟩ ⟨ha, hb⟩
  simp [fq, isZ, fqItems, «at», count, h a ha, h b hb]

theorem mapM_items {base : MZ → Option A} {tree : A → MZ} {valid : A → Prop} (h : Inverse base tree valid)
    (l : List A) (hl : ∀ a ∈ l, valid a) : (l.map tree).mapM base = some l := by
  induction l with
  | nil => simp
  | cons a l ih =>
    rw [List.map_cons, List.mapM_cons, h a (hl a (by simp)), ih (fun b hb => hl b (by simp [hb]))]
    rfl

/-- **C105**, extensions of degree `n`: the list of items reads back. -/
theorem C105_items_polymod [Zero A] {base : MZ → Option A} {tree : A → MZ} {valid : A → Prop}
    (h : Inverse base tree valid) (n : ℕ) :
    Inverse (polymod n base) (fun e => .arr ((polyItems e).map tree))
      (fun e => e.length = n ∧ ∀ a ∈ e, valid a) := by
  rintro e ⟨rfl, he⟩
  change polymod e.length base (.arr (e.map tree)) = some e
  rw [polymod, isZ, if_neg (by simp), range_mapM_pad _ _ _ (by simp), mapM_items h e he]
  simp

/-- **C105**, polynomial rings: the list of items reads back. -/
theorem C105_items_poly [DecidableEq R] {base : MZ → Option R} {tree : R → MZ} {valid : R → Prop}
    (h : Inverse base tree valid) :
    Inverse (poly base) (fun e => .arr ((polyItems e).map tree))
      (fun e => Spec.Normal e ∧ ∀ a ∈ e, valid a) := by
  rintro e ⟨hn, he⟩
  change poly base (.arr (e.map tree)) = some e
  have hc : (count (.arr (e.map tree))).toNat = (e.map tree).length := by simp [count]
  rw [poly, isZ, if_neg (by simp), hc, range_mapM, mapM_items h e he]
  exact congrArg some (Poly.strip_of_normal hn)

/-- **C105**, points: the list of items of a finite point reads back, whatever the destination held. -/
theorem C105_items_curve_partial {base : MZ → Option A} {tree : A → MZ} {valid : A → Prop}
    (h : Inverse base tree valid) (p old : Curve.Pt A) (hp : p.inf = false) (hx : valid p.x) (hy : valid p.y) :
    curve base old (.arr ((curveItems p).map tree)) = some p := by
  obtain ⟨i, a, b⟩ := p
  subst hp
  simp [curve, isZ, curveItems, count, «at», h a hx, h b hy]

/-- **C105 fails** for the point at infinity: it has no items, and reading the empty list leaves the destination
as it was. -/
theorem C105_items_infinity_fails (base : MZ → Option A) (tree : A → MZ) (p old : Curve.Pt A)
    (hp : p.inf = true) : curve base old (.arr ((curveItems p).map tree)) = some old := by
  obtain ⟨i, a, b⟩ := p
  subst hp
  simp [curve, isZ, curveItems, count]

/-! ### What is not so -/

/-- **C105 fails** for points: any pair of coordinates is accepted, on the curve or not. -/
theorem C105_curve_fails {base : MZ → Option A} (old : Curve.Pt A) (m k : MZ) (rest : List MZ) (a b : A)
    (ha : base m = some a) (hb : base k = some b) :
    curve base old (.arr (m :: k :: rest)) = some ⟨false, a, b⟩ := by
  have : ¬ ((rest.length : ℤ) + 1 + 1 < 2) := by omega
  simp [curve, isZ, count, «at», ha, hb, this]

/-- **C105**, points: a non-zero integer or a list of fewer than two entries leaves the point as it was; the
integer zero gives the point at infinity. -/
theorem C105_curve_other (base : MZ → Option A) (old : Curve.Pt A) :
    (∀ z : ℤ, z ≠ 0 → curve base old (.int z) = some old) ∧
      (∀ l : List MZ, l.length < 2 → curve base old (.arr l) = some old) ∧
      ∃ p, curve base old (.int 0) = some p ∧ p.inf = true := by
  refine ⟨fun z hz => ?_, fun l hl => ?_, { old with inf := true }, rfl, rfl⟩
  · have : Multiz.is0 (.int z) = false := by simp [Multiz.is0, hz]
    simp [curve, isZ, this]
  · have : (l.length : ℤ) < 2 := by exact_mod_cast hl
    simp [curve, isZ, count, this]

/-- **C105 fails** for lists that are too long: in a quadratic extension only the first two entries are read … -/
theorem C105_quadratic_long_fails [Zero A] (base : MZ → Option A) (a b : MZ) (rest : List MZ) :
    fq base (.arr (a :: b :: rest)) = fq base (.arr [a, b]) := by
  have : ¬ (2 > (rest.length : ℤ) + 1 + 1) := by omega
  simp [fq, isZ, count, «at», this]

/-- … and in an extension of degree `n` only the first `n`. -/
theorem C105_polymod_long_fails [Zero A] (base : MZ → Option A) (n : ℕ) (l : List MZ) :
    polymod n base (.arr l) = polymod n base (.arr (l.take n)) := by
  rw [polymod, polymod, isZ, isZ, if_neg (by simp), if_neg (by simp)]
  have : ∀ (r : List ℕ), (∀ i ∈ r, i < n) →
      (r.mapM fun i : ℕ => if Int.ofNat i ≥ count (.arr l) then some (0 : A) else («at» (.arr l) i).bind base) =
      r.mapM fun i : ℕ => if Int.ofNat i ≥ count (.arr (l.take n)) then some (0 : A)
        else («at» (.arr (l.take n)) i).bind base := by
    intro r hr
    induction r with
    | nil => simp
    | cons i r ih =>
      rw [List.mapM_cons, List.mapM_cons, ih (fun j hj => hr j (by simp [hj]))]
      have hi : i < n := hr i (by simp)
      have h1 : (Int.ofNat i ≥ count (.arr l)) ↔ (Int.ofNat i ≥ count (.arr (l.take n))) := by
        simp only [count, List.length_take, Int.ofNat_eq_natCast, ge_iff_le, Nat.cast_le]
        omega
      have h2 : «at» (.arr l) i = «at» (.arr (l.take n)) i := by
        simp [«at», List.getElem?_take, hi]
      simp only [h1, h2]
  exact this _ (fun i hi => List.mem_range.1 hi)

/-- **C105 fails** on empty lists: in every field but a polynomial ring the first entry is read although there is
none (prime fields, integers and quadratic extensions over them). -/
theorem C105_empty_fails [Zero A] (setMpz : ℤ → A) (base : MZ → Option A) :
    generic setMpz (.arr []) = none ∧ fq base (.arr []) = none := ⟨rfl, rfl⟩

/-! ### A case -/

section Example

private instance : Fact (Nat.Prime 7) := ⟨by decide⟩

private instance : Zero (Quad.El (ZMod 7)) := ⟨⟨0, 0⟩⟩

private def gens : ℕ → ZMod 7
  | 0 => 3
  | 1 => 5
  | _ => 0

/-- The field of seven elements, then `i² = -1`, then degree three. -/
private def f7 : MZ → Option (ZMod 7) := generic fun z => (z : ZMod 7)

example : polymod 3 (fq f7) (.arr [.arr [.int 8, .int 2], .int (-1)]) = some [⟨1, 2⟩, ⟨6, 0⟩, ⟨0, 0⟩] := by decide

/-- The value in `ℤ/7`, with the generators sent to `3` and `5`. -/
example : Sound (polymod 3 (fq f7)) (fun e => evalL (gens 0) (e.map fun q => q.x + gens 1 * q.y))
    gens 0 [some 3, some 2] :=
  C105_polymod_partial (φ := fun q : Quad.El (ZMod 7) => q.x + gens 1 * q.y) (by decide)
    (C105_quadratic_partial (φ := fun a : ZMod 7 => a) rfl
      (C105_generic (fun z : ℤ => (z : ZMod 7)) (fun a : ZMod 7 => a) (fun _ => rfl) gens 2 (fun e he => by
        match e, he with
        | e + 2, _ => rfl))) (by decide)

example : Multiz.Nonempty (.arr [.arr [.int 8, .int 2], .int (-1)]) ∧
    Fits [some 3, some 2] (.arr [.arr [.int 8, .int 2], .int (-1)]) := by
  simp [Multiz.Nonempty, NonemptyL, Fits, FitsL]

/-- The items of an element read back. -/
example (e : List (Quad.El (ZMod 7))) (he : e.length = 3) :
    polymod 3 (fq f7) (.arr (e.map fun q => .arr [.int q.x.val, .int q.y.val])) = some e :=
  C105_items_polymod (C105_items_quadratic (C105_items_generic (fun z : ℤ => (z : ZMod 7))
    (fun a => (a.val : ℤ)) (fun a => by revert a; decide))) 3
    e ⟨he, fun _ _ => ⟨trivial, trivial⟩⟩

/-- A point that is not on `y² = x³ + x`. -/
example : curve f7 ⟨true, 0, 0⟩ (.arr [.int 1, .int 1]) = some ⟨false, 1, 1⟩ ∧
    ((1 : ZMod 7) ^ 2 ≠ 1 ^ 3 + 1) := by decide

end Example

end Pbc.SetMultiz
