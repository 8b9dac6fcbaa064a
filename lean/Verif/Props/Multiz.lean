import Verif.Model.Multiz
import Mathlib.Algebra.Polynomial.Eval.Degree
import Mathlib.Algebra.Polynomial.Coeff
import Mathlib.Data.List.GetD
import Mathlib.Algebra.Order.Antidiag.Prod
import Mathlib.Tactic.Ring
import Mathlib.Tactic.LinearCombination

/-!
# Properties of multinomials

A multinomial is read as a polynomial in variables `x₀, x₁, …`: a list at depth `d` is a polynomial
in `x_d` whose coefficients are the entries.  Values are taken in an arbitrary commutative ring, at
an arbitrary point, so equality of values is equality of polynomials.
-/

set_option autoImplicit false

namespace Pbc.Multiz

universe u

section Spec

variable {R : Type u} [CommRing R] (x : ℕ → R)

mutual

/-- The value of a multinomial at depth `d`. -/
def value : ℕ → MZ → R
  | _, .int z => (z : R)
  | d, .arr l => valueL d l

/-- The value of the polynomial in `x_d` with the given coefficients. -/
def valueL : ℕ → List MZ → R
  | _, [] => 0
  | d, a :: l => value (d + 1) a + x d * valueL d l

end

mutual

/-- No list in the tree is empty: what `multiz_new_list` and `multiz_append` can build. -/
def Nonempty : MZ → Prop
  | .int _ => True
  | .arr l => l ≠ [] ∧ NonemptyL l

/-- Every entry is without empty lists. -/
def NonemptyL : List MZ → Prop
  | [] => True
  | a :: l => Nonempty a ∧ NonemptyL l

end

/-- The constant coefficient. -/
def const : MZ → ℤ
  | .int z => z
  | .arr [] => 0
  | .arr (a :: _) => const a

end Spec

variable {R : Type u} [CommRing R] (x : ℕ → R)

theorem nonemptyL_iff {l : List MZ} : NonemptyL l ↔ ∀ a ∈ l, Nonempty a := by
  induction l with
  | nil => simp [NonemptyL]
  | cons a l ih => simp [NonemptyL, ih]

mutual

theorem unary_spec (f : ℤ → ℤ) (g : R) (hf : ∀ z, ((f z : ℤ) : R) = z * g) (d : ℕ) :
    (a : MZ) → value x d (unary f a) = value x d a * g
  | .int z => by simp [unary, value, hf]
  | .arr l => by rw [unary, value, value]; exact unaryL_spec f g hf d l

theorem unaryL_spec (f : ℤ → ℤ) (g : R) (hf : ∀ z, ((f z : ℤ) : R) = z * g) (d : ℕ) :
    (l : List MZ) → valueL x d (unaryL f l) = valueL x d l * g
  | [] => by simp [unaryL, valueL]
  | a :: l => by
    rw [unaryL, valueL, valueL, unary_spec f g hf (d + 1) a, unaryL_spec f g hf d l]
    ring

end

mutual

theorem unary_nonempty (f : ℤ → ℤ) : (a : MZ) → Nonempty a → Nonempty (unary f a)
  | .int _, _ => trivial
  | .arr [], h => (h.1 rfl).elim
  | .arr (a :: l), h =>
    ⟨by simp [unaryL], unaryL_nonempty f (a :: l) h.2⟩

theorem unaryL_nonempty (f : ℤ → ℤ) : (l : List MZ) → NonemptyL l → NonemptyL (unaryL f l)
  | [], _ => trivial
  | a :: l, h => ⟨unary_nonempty f a h.1, unaryL_nonempty f l h.2⟩

end

/-- Replacing the first integer changes the constant coefficient only. -/
theorem modFirst_spec (f : ℤ → ℤ) : (a : MZ) → Nonempty a →
    ∃ c, modFirst f a = some c ∧ Nonempty c ∧ const c = f (const a) ∧
      ∀ d, value x d c = value x d a + (f (const a) : R) - (const a : R)
  | .int z, _ => ⟨_, rfl, trivial, rfl, fun d => by simp [value, const]⟩
  | .arr [], h => (h.1 rfl).elim
  | .arr (a :: l), h => by
    obtain ⟨c, hc, hc1, hc2, hc3⟩ := modFirst_spec f a h.2.1
    refine ⟨.arr (c :: l), by simp [modFirst, hc], ⟨by simp, hc1, h.2.2⟩, by simpa [const] using hc2,
      fun d => ?_⟩
    simp only [value, valueL, const]
    rw [hc3 (d + 1)]
    ring

theorem binZL_add (a : ℤ) (b : MZ) (hb : Nonempty b) :
    ∃ c, binZL (· + ·) a b = some c ∧ Nonempty c ∧ ∀ d, value x d c = (a : R) + value x d b := by
  cases b with
  | int z => exact ⟨_, rfl, trivial, fun d => by simp [value]⟩
  | arr l =>
    obtain ⟨c, h1, h2, _, h3⟩ := modFirst_spec x (fun z => a + z) (.arr l) hb
    exact ⟨c, h1, h2, fun d => by rw [h3 d]; push_cast; ring⟩

theorem binZR_add (b : ℤ) (a : MZ) (ha : Nonempty a) :
    ∃ c, binZR (· + ·) b a = some c ∧ Nonempty c ∧ ∀ d, value x d c = value x d a + (b : R) := by
  cases a with
  | int z => exact ⟨_, rfl, trivial, fun d => by simp [value]⟩
  | arr l =>
    obtain ⟨c, h1, h2, _, h3⟩ := modFirst_spec x (fun z => b + z) (.arr l) ha
    exact ⟨c, h1, h2, fun d => by rw [h3 d]; push_cast; ring⟩

theorem mapM_spec {α β : Type*} (f : α → Option β) (Q : α → β → Prop) :
    (l : List α) → (∀ a ∈ l, ∃ c, f a = some c ∧ Q a c) →
      ∃ l', l.mapM f = some l' ∧ List.Forall₂ Q l l'
  | [], _ => ⟨[], by simp, .nil⟩
  | a :: l, h => by
    obtain ⟨c, hc, hQ⟩ := h a (by simp)
    obtain ⟨l', hl, hl'⟩ := mapM_spec f Q l fun a ha => h a (by simp [ha])
    exact ⟨c :: l', by simp [hc, hl], .cons hQ hl'⟩

theorem forall₂_value (d : ℕ) (g : R → R) (hg : ∀ u v w, g (u + w * v) = g u + w * g v)
    (h0 : g 0 = 0)
    {l l' : List MZ} (h : List.Forall₂ (fun a c => Nonempty c ∧
      value x (d + 1) c = g (value x (d + 1) a)) l l') :
    NonemptyL l' ∧ l'.length = l.length ∧ valueL x d l' = g (valueL x d l) := by
  induction h with
  | nil => exact ⟨trivial, rfl, by simp [valueL, h0]⟩
  | cons h1 _ ih =>
    obtain ⟨i1, i2, i3⟩ := ih
    refine ⟨⟨h1.1, i1⟩, by simp [i2], ?_⟩
    rw [valueL, valueL, h1.2, i3, hg]

mutual

theorem bin_add (d : ℕ) : (a b : MZ) → Nonempty a → Nonempty b →
    ∃ c, bin (· + ·) a b = some c ∧ Nonempty c ∧ value x d c = value x d a + value x d b
  | .int z, b, _, hb => by
    obtain ⟨c, h1, h2, h3⟩ := binZL_add x z b hb
    exact ⟨c, by rw [bin, h1], h2, by rw [h3 d]; rfl⟩
  | .arr l, .int z, ha, _ => by
    obtain ⟨c, h1, h2, h3⟩ := binZR_add x z (.arr l) ha
    exact ⟨c, by rw [bin, h1], h2, by rw [h3 d]; rfl⟩
  | .arr l, .arr l', ha, hb => by
    obtain ⟨c, h1, h2, h3, h4⟩ := binL_add d l l' ha.2 hb.2
    refine ⟨.arr c, by rw [bin, h1]; rfl, ⟨?_, h2⟩, by simpa [value] using h4⟩
    intro hc
    rw [hc] at h3
    exact ha.1 (List.length_eq_zero_iff.1 (by simp at h3; omega))

theorem binL_add (d : ℕ) : (l l' : List MZ) → NonemptyL l → NonemptyL l' →
    ∃ c, binL (· + ·) l l' = some c ∧ NonemptyL c ∧ c.length = max l.length l'.length ∧
      valueL x d c = valueL x d l + valueL x d l'
  | [], l', _, hb => by
    obtain ⟨c, h1, h2⟩ := mapM_spec (binZL (· + ·) 0)
      (fun a c => Nonempty c ∧ value x (d + 1) c = id (value x (d + 1) a)) l' (fun a ha => by
        obtain ⟨c, e1, e2, e3⟩ := binZL_add x 0 a (nonemptyL_iff.1 hb a ha)
        exact ⟨c, e1, e2, by rw [e3]; simp⟩)
    obtain ⟨i1, i2, i3⟩ := forall₂_value x d id (fun _ _ _ => rfl) rfl h2
    exact ⟨c, by rw [binL, h1], i1, by simp [i2], by rw [i3]; simp [valueL]⟩
  | a :: l, [], ha, _ => by
    obtain ⟨c, h1, h2⟩ := mapM_spec (binZR (· + ·) 0)
      (fun a c => Nonempty c ∧ value x (d + 1) c = id (value x (d + 1) a)) (a :: l)
      (fun a' ha' => by
        obtain ⟨c, e1, e2, e3⟩ := binZR_add x 0 a' (nonemptyL_iff.1 ha a' ha')
        exact ⟨c, e1, e2, by rw [e3]; simp⟩)
    obtain ⟨i1, i2, i3⟩ := forall₂_value x d id (fun _ _ _ => rfl) rfl h2
    exact ⟨c, by rw [binL, h1], i1, by simp [i2], by rw [i3]; simp [valueL]⟩
  | a :: l, b :: l', ha, hb => by
    obtain ⟨c, h1, h2, h3⟩ := bin_add (d + 1) a b ha.1 hb.1
    obtain ⟨c', g1, g2, g3, g4⟩ := binL_add d l l' ha.2 hb.2
    refine ⟨c :: c', by rw [binL, h1, g1]; rfl, ⟨h2, g2⟩, by simp [g3], ?_⟩
    simp only [valueL]
    rw [h3, g4]
    ring

end

/-! ### Products -/

open Polynomial in
/-- The polynomial with the given coefficients. -/
noncomputable def polyL (c : List R) : R[X] := c.foldr (fun a p => C a + X * p) 0

open Polynomial in
theorem coeff_polyL (c : List R) (i : ℕ) : (polyL c).coeff i = c.getD i 0 := by
  induction c generalizing i with
  | nil => simp [polyL]
  | cons a c ih =>
    have : polyL (a :: c) = C a + X * polyL c := rfl
    rw [this]
    cases i with
    | zero => simp
    | succ i => simp [coeff_C, ih, coeff_X_mul]

open Polynomial in
theorem eval_polyL (d : ℕ) (l : List MZ) :
    (polyL (l.map (value x (d + 1)))).eval (x d) = valueL x d l := by
  induction l with
  | nil => simp [polyL, valueL]
  | cons a l ih =>
    have : polyL ((a :: l).map (value x (d + 1)))
        = C (value x (d + 1) a) + X * polyL (l.map (value x (d + 1))) := rfl
    rw [this, valueL, eval_add, eval_C, eval_mul, eval_X, ih]

open Polynomial in
/-- A list of the right coefficients of a product has the value of the product. -/
theorem valueL_conv (d : ℕ) (l l' c : List MZ) (hl : l ≠ []) (hl' : l' ≠ [])
    (hlen : c.length = l.length + l'.length - 1)
    (hc : ∀ i < c.length, value x (d + 1) (c.getD i (.int 0)) =
      ∑ j ∈ Finset.range (i + 1), (l.map (value x (d + 1))).getD j 0 *
        (l'.map (value x (d + 1))).getD (i - j) 0) :
    valueL x d c = valueL x d l * valueL x d l' := by
  rw [← eval_polyL x d c, ← eval_polyL x d l, ← eval_polyL x d l', ← eval_mul]
  congr 1
  ext i
  rw [coeff_polyL, coeff_mul, Finset.Nat.sum_antidiagonal_eq_sum_range_succ
    (fun a b => (polyL (l.map (value x (d + 1)))).coeff a *
      (polyL (l'.map (value x (d + 1)))).coeff b)]
  simp only [coeff_polyL]
  by_cases hi : i < c.length
  · rw [← hc i hi]
    simp [hi]
  · rw [List.getD_eq_default _ _ (by simpa using hi)]
    symm
    apply Finset.sum_eq_zero
    intro j _
    have h1 := List.length_pos_iff.2 hl
    have h2 := List.length_pos_iff.2 hl'
    by_cases hj : j < l.length
    · rw [List.getD_eq_default (l'.map _) _ (by simp; omega), mul_zero]
    · rw [List.getD_eq_default (l.map _) _ (by simpa using hj), zero_mul]

/-- What `rows` has to be for a product. -/
def RowsFor (d : ℕ) (rows : List (MZ → Option MZ)) (l : List MZ) : Prop :=
  List.Forall₂ (fun r a => ∀ b, Nonempty b → ∃ c, r b = some c ∧ Nonempty c ∧
    value x d c = value x d a * value x d b) rows l

theorem mulEntry_spec (d : ℕ) {rows : List (MZ → Option MZ)} {l : List MZ}
    (h : RowsFor x d rows l) {bs : List MZ} (hb : NonemptyL bs) (i : ℕ) :
    ∃ c, mulEntry rows bs i = some c ∧ Nonempty c ∧ value x d c =
      ∑ j ∈ Finset.range (i + 1), (l.map (value x d)).getD j 0 *
        (bs.map (value x d)).getD (i - j) 0 := by
  rw [mulEntry]
  have hbv : ∀ k, Nonempty (bs.getD k (.int 0)) ∧
      value x d (bs.getD k (.int 0)) = (bs.map (value x d)).getD k 0 := by
    intro k
    by_cases hk : k < bs.length
    · rw [List.getD_eq_getElem _ _ hk, List.getD_eq_getElem _ _ (by simpa using hk)]
      exact ⟨nonemptyL_iff.1 hb _ (List.getElem_mem hk), by simp⟩
    · rw [List.getD_eq_default _ _ (by omega), List.getD_eq_default _ _ (by simp; omega)]
      exact ⟨trivial, by simp [value]⟩
  have hrow : ∀ k b, Nonempty b →
      ∃ c, rows.getD k (fun b => some (unary (· * 0) b)) b = some c ∧ Nonempty c ∧
        value x d c = (l.map (value x d)).getD k 0 * value x d b := by
    intro k b hbn
    have hlen := h.length_eq
    by_cases hk : k < rows.length
    · rw [List.getD_eq_getElem _ _ hk, List.getD_eq_getElem _ _ (by simp; omega)]
      have := h.get hk (by omega) b hbn
      simpa using this
    · rw [List.getD_eq_default _ _ (by omega), List.getD_eq_default _ _ (by simp; omega)]
      refine ⟨_, rfl, unary_nonempty _ _ hbn, ?_⟩
      rw [unary_spec x (· * 0) 0 (by simp)]
      simp
  suffices hs : ∀ m, ∃ c, (List.range m).foldlM (fun z j =>
      ((rows.getD j (fun b => some (unary (· * 0) b))) (bs.getD (i - j) (.int 0))).bind fun y =>
        add z y) (.int 0) = some c ∧ Nonempty c ∧ value x d c =
      ∑ j ∈ Finset.range m, (l.map (value x d)).getD j 0 * (bs.map (value x d)).getD (i - j) 0 from
    hs (i + 1)
  intro m
  induction m with
  | zero => exact ⟨.int 0, by simp, trivial, by simp [value]⟩
  | succ m ih =>
    obtain ⟨c, h1, h2, h3⟩ := ih
    obtain ⟨hn, hv⟩ := hbv (i - m)
    obtain ⟨y, y1, y2, y3⟩ := hrow m _ hn
    obtain ⟨s, s1, s2, s3⟩ := bin_add x d c y h2 y2
    refine ⟨s, ?_, s2, ?_⟩
    · rw [List.range_succ, List.foldlM_append, h1]
      simp only [Option.bind_eq_bind, Option.bind_some, List.foldlM_cons, List.foldlM_nil, y1, add, s1]
      rfl
    · rw [s3, h3, y3, hv, Finset.sum_range_succ]

mutual

theorem mul_spec (d : ℕ) : (a b : MZ) → Nonempty a → Nonempty b →
    ∃ c, mul a b = some c ∧ Nonempty c ∧ value x d c = value x d a * value x d b
  | .int z, b, _, hb =>
    ⟨_, by rw [mul], unary_nonempty _ _ hb, by
      rw [unary_spec x (· * z) (z : R) (by simp)]; simp [value, mul_comm]⟩
  | .arr l, .int z, ha, _ =>
    ⟨_, by rw [mul], unary_nonempty _ _ ha, by
      rw [unary_spec x (· * z) (z : R) (by simp)]; simp [value]⟩
  | .arr l, .arr l', ha, hb => by
    have hrows := mulRows_spec (d + 1) l ha.2
    obtain ⟨c, c1, c2⟩ := mapM_spec (mulEntry (mulRows l) l')
      (fun i c => Nonempty c ∧ value x (d + 1) c =
        ∑ j ∈ Finset.range (i + 1), (l.map (value x (d + 1))).getD j 0 *
          (l'.map (value x (d + 1))).getD (i - j) 0) (List.range (l.length + l'.length - 1))
      (fun i _ => by
        obtain ⟨c, e1, e2, e3⟩ := mulEntry_spec x (d + 1) hrows hb.2 i
        exact ⟨c, e1, e2, e3⟩)
    have hlen : c.length = l.length + l'.length - 1 := by
      rw [← c2.length_eq, List.length_range]
    have hget : ∀ i (hi : i < c.length), Nonempty c[i] ∧ value x (d + 1) c[i] =
        ∑ j ∈ Finset.range (i + 1), (l.map (value x (d + 1))).getD j 0 *
          (l'.map (value x (d + 1))).getD (i - j) 0 := by
      intro i hi
      have := c2.get (i := i) (by simp; omega) hi
      simpa using this
    have h1 := List.length_pos_iff.2 ha.1
    have h2 := List.length_pos_iff.2 hb.1
    refine ⟨.arr c, by rw [mul, c1]; rfl, ⟨?_, ?_⟩, ?_⟩
    · intro h0
      rw [h0] at hlen
      simp at hlen
      omega
    · rw [nonemptyL_iff]
      intro a ha
      obtain ⟨i, hi, rfl⟩ := List.getElem_of_mem ha
      exact (hget i hi).1
    · simp only [value]
      refine valueL_conv x d l l' c ha.1 hb.1 hlen fun i hi => ?_
      rw [List.getD_eq_getElem _ _ hi]
      exact (hget i hi).2

theorem mulRows_spec (d : ℕ) : (l : List MZ) → NonemptyL l → RowsFor x d (mulRows l) l
  | [], _ => .nil
  | a :: l, h => .cons (fun b hb => mul_spec d a b h.1 hb) (mulRows_spec d l h.2)

end

/-! ### The property -/

/-- **C23.**  The sum of two multinomials, of any nesting, is the sum of polynomials, integers acting
as constants. -/
theorem C23_add (a b : MZ) (ha : Nonempty a) (hb : Nonempty b) :
    ∃ c, add a b = some c ∧ Nonempty c ∧
      ∀ (R : Type u) [CommRing R] (x : ℕ → R) (d : ℕ), value x d c = value x d a + value x d b := by
  obtain ⟨c, h1, h2, -⟩ := bin_add (R := ℤ) (fun _ => 0) 0 a b ha hb
  refine ⟨c, h1, h2, fun R _ x d => ?_⟩
  obtain ⟨c', h1', _, h3'⟩ := bin_add x d a b ha hb
  rw [h1] at h1'
  obtain rfl := Option.some.inj h1'
  exact h3'

/-- **C23.**  The product of two multinomials is the product of polynomials. -/
theorem C23_mul (a b : MZ) (ha : Nonempty a) (hb : Nonempty b) :
    ∃ c, mul a b = some c ∧ Nonempty c ∧
      ∀ (R : Type u) [CommRing R] (x : ℕ → R) (d : ℕ), value x d c = value x d a * value x d b := by
  obtain ⟨c, h1, h2, -⟩ := mul_spec (R := ℤ) (fun _ => 0) 0 a b ha hb
  refine ⟨c, h1, h2, fun R _ x d => ?_⟩
  obtain ⟨c', h1', _, h3'⟩ := mul_spec x d a b ha hb
  rw [h1] at h1'
  obtain rfl := Option.some.inj h1'
  exact h3'

/-- **C23.**  Negation, copying and multiplication by an integer act on every coefficient. -/
theorem C23_unary (a : MZ) (z : ℤ) (d : ℕ) :
    value x d (neg a) = - value x d a ∧ value x d (mulMpz a z) = value x d a * (z : R) ∧
      value x d (clone a) = value x d a := by
  refine ⟨?_, unary_spec x _ _ (by simp) d a, ?_⟩
  · rw [neg, unary_spec x _ (-1) (by simp)]; ring
  · rw [clone, unary_spec x _ 1 (by simp)]; ring

mutual

/-- The pairs on which subtraction is right: integers stand against integers all the way down, and
what the longer list has in excess consists of integers. -/
def Aligned : MZ → MZ → Prop
  | .int _, .int _ => True
  | .arr l, .arr l' => AlignedL l l'
  | _, _ => False

/-- `Aligned` entry by entry. -/
def AlignedL : List MZ → List MZ → Prop
  | [], l' => ∀ a ∈ l', ∃ z, a = .int z
  | l, [] => ∀ a ∈ l, ∃ z, a = .int z
  | a :: l, b :: l' => Aligned a b ∧ AlignedL l l'

end

mutual

theorem bin_sub (d : ℕ) : (a b : MZ) → Aligned a b →
    ∃ c, bin (· - ·) a b = some c ∧ value x d c = value x d a - value x d b
  | .int a, .int b, _ => ⟨.int (a - b), by rw [bin]; rfl, by simp [value]⟩
  | .arr l, .arr l', h => by
    rw [Aligned] at h
    obtain ⟨c, h1, h2⟩ := binL_sub d l l' h
    exact ⟨.arr c, by rw [bin, h1]; rfl, by simpa [value] using h2⟩
  | .int _, .arr _, h => by simp [Aligned] at h
  | .arr _, .int _, h => by simp [Aligned] at h

theorem binL_sub (d : ℕ) : (l l' : List MZ) → AlignedL l l' →
    ∃ c, binL (· - ·) l l' = some c ∧ valueL x d c = valueL x d l - valueL x d l'
  | [], l', h => by
    rw [AlignedL] at h
    obtain ⟨c, h1, h2⟩ := mapM_spec (binZL (· - ·) 0)
      (fun a c => Nonempty c ∧ value x (d + 1) c = (fun v => -v) (value x (d + 1) a)) l'
      (fun a ha => by
        obtain ⟨z, rfl⟩ := h a ha
        exact ⟨.int (0 - z), rfl, trivial, by simp [value]⟩)
    obtain ⟨_, _, i3⟩ := forall₂_value x d (fun v => -v) (fun _ _ _ => by ring) (by simp) h2
    exact ⟨c, by rw [binL, h1], by rw [i3]; simp [valueL]⟩
  | a :: l, [], h => by
    rw [AlignedL] at h
    · obtain ⟨c, h1, h2⟩ := mapM_spec (binZR (· - ·) 0)
        (fun a c => Nonempty c ∧ value x (d + 1) c = id (value x (d + 1) a)) (a :: l)
        (fun a ha => by
          obtain ⟨z, rfl⟩ := h a ha
          exact ⟨.int (z - 0), rfl, trivial, by simp [value]⟩)
      obtain ⟨_, _, i3⟩ := forall₂_value x d id (fun _ _ _ => rfl) rfl h2
      exact ⟨c, by rw [binL, h1], by rw [i3]; simp [valueL]⟩
    · simp
  | a :: l, b :: l', h => by
    rw [AlignedL] at h
    obtain ⟨c, h1, h3⟩ := bin_sub (d + 1) a b h.1
    obtain ⟨c', g1, g4⟩ := binL_sub d l l' h.2
    refine ⟨c :: c', by rw [binL, h1, g1]; rfl, ?_⟩
    simp only [valueL]
    rw [h3, g4]
    ring

end

/-- **C23.**  Subtraction is right when integers stand against integers (two integers, two lists of
integers of any lengths, two trees of the same shape).  Against that, see `C23_sub_fails`. -/
theorem C23_sub_partial (a b : MZ) (h : Aligned a b) (d : ℕ) :
    ∃ c, sub a b = some c ∧ value x d c = value x d a - value x d b := bin_sub x d a b h

/-- **C23, discrepancy.**  A list minus an integer `z` has the constant coefficient of
`z - list`: the result is off by `2 (z - c)` where `c` is the constant coefficient.  An integer minus
a list leaves the higher coefficients of the list as they are instead of negating them. -/
theorem C23_sub_fails (l : List MZ) (z : ℤ) (h : Nonempty (.arr l)) (d : ℕ) :
    (∃ c, sub (.arr l) (.int z) = some c ∧
      value x d c = (value x d (.arr l) - z) + 2 * ((z : R) - const (.arr l))) ∧
    (∃ c, sub (.int z) (.arr l) = some c ∧
      value x d c = (z - value x d (.arr l)) + 2 * (value x d (.arr l) - const (.arr l))) := by
  obtain ⟨c, h1, _, _, h3⟩ := modFirst_spec x (fun y => z - y) (.arr l) h
  refine ⟨⟨c, by rw [sub, bin]; exact h1, ?_⟩, ⟨c, by rw [sub, bin]; exact h1, ?_⟩⟩
  all_goals
    rw [h3 d]
    push_cast
    ring

/-- **C23, discrepancy.**  Comparison looks at lengths and leading coefficients, so a zero leading
coefficient makes everything shorter "equal". -/
theorem C23_cmp_fails (l l' : List MZ) (z : ℤ) (h : l'.length ≤ l.length) :
    cmp (.arr (l ++ [.int 0])) (.arr l') = some 0 ∧ cmp (.arr (l ++ [.int 0])) (.int z) = some 0 := by
  have hl : leadSgn (.arr (l ++ [.int 0])) = some 0 := by
    rw [leadSgn]
    induction l generalizing l' with
    | nil => simp [leadSgnL, leadSgn]
    | cons a l ih =>
      have := ih [] (by simp)
      match l, this with
      | [], this => simpa [leadSgnL] using this
      | b :: l, this => simpa [leadSgnL] using this
  refine ⟨?_, by rw [cmp, hl]⟩
  rw [cmp, if_pos (by simp; omega), hl]

example : ∃ a b : MZ, Nonempty a ∧ Nonempty b ∧ ¬ Aligned a b ∧ Aligned b b ∧
    value (fun i => (i : ℤ) + 7) 0 a = (1 + 2 * 8) + 3 * 7 ∧
    ∃ c, mul a b = some c ∧ value (fun i => (i : ℤ) + 7) 0 c = ((1 + 2 * 8) + 3 * 7) * (4 + 5 * 7) := by
  refine ⟨.arr [.arr [.int 1, .int 2], .int 3], .arr [.int 4, .int 5], ?_, ?_, ?_, ?_, ?_, ?_⟩
  · simp [Nonempty, NonemptyL]
  · simp [Nonempty, NonemptyL]
  · simp [Aligned, AlignedL]
  · simp [Aligned, AlignedL]
  · simp [value, valueL]
  · obtain ⟨c, h1, _, h3⟩ := C23_mul.{0} (.arr [.arr [.int 1, .int 2], .int 3]) (.arr [.int 4, .int 5])
      (by simp [Nonempty, NonemptyL]) (by simp [Nonempty, NonemptyL])
    exact ⟨c, h1, by rw [h3 ℤ]; simp [value, valueL]⟩

end Pbc.Multiz
