import Verif.Lemmas.Quadratic
import Verif.Lemmas.Bytes
import Mathlib.Data.ZMod.Basic
import Mathlib.Algebra.Field.ZMod
import Mathlib.Tactic.NormNum.Prime

/-!
# Properties of the quadratic extensions
-/

set_option autoImplicit false

namespace Props

open Spec Pbc Pbc.Quad QuadraticAlgebra

variable {K : Type*} [Field K] [DecidableEq K]

section arithmetic

instance fact7 : Fact (∀ r : ZMod 7, r ^ 2 ≠ 3 + 0 * r) := ⟨by decide⟩
instance fact7i : Fact (∀ r : ZMod 7, r ^ 2 ≠ -1 + 0 * r) := ⟨by decide⟩
instance prime7 : Fact (Nat.Prime 7) := ⟨by norm_num⟩

/-- **C24**.  Every program of calls on elements of `K(√v)`, `v` a non-square, with any aliasing of
the arguments and dividing only by nonzero elements, computes what it computes in the field
`K[ω]/(ω² - v)`.  `t` is the private temporary of the generic routines. -/
theorem C24_programs {v : K} [Fact (∀ r : K, r ^ 2 ≠ v + 0 * r)] (t : ℕ) (prog : List RingOp)
    (ht : ∀ o ∈ prog, t ∉ o.vars) (m : Mem K) (hal : RingAllowed (view v m) prog) :
    ∃ m', run (fqOps v) t m prog = some m' ∧
      ∀ i, i ≠ t → view v m' i = ringRun (view v m) prog i :=
  run_view t prog ht m _ (fun _ _ => rfl) hal

example : ∃ m', run (fqOps (3 : ZMod 7)) 9 (fun i => ⟨(i : ZMod 7), 1⟩)
    [.mul 1 1 1, .invert 2 2, .halve 2 2, .div 1 2 2] = some m' ∧
      ∀ i, i ≠ 9 → view 3 m' i = ringRun (view 3 (fun i => ⟨(i : ZMod 7), 1⟩))
        [.mul 1 1 1, .invert 2 2, .halve 2 2, .div 1 2 2] i := by
  have h2 : (2 : QuadraticAlgebra (ZMod 7) 3 0) ≠ 0 := by
    intro h
    have := congrArg QuadraticAlgebra.re h
    revert this
    change ¬ (2 : ZMod 7) = 0
    decide
  have h21 : view (3 : ZMod 7) (fun i => ⟨(i : ZMod 7), 1⟩) 2 ≠ 0 := by
    intro h
    have := congrArg QuadraticAlgebra.im h
    revert this
    change ¬ (1 : ZMod 7) = 0
    decide
  refine C24_programs 9 _ (by simp [RingOp.vars]) _ ?_
  refine ⟨trivial, ?_, h2, ?_, trivial⟩
  · simpa [RingOp.ok, RingOp.step, RingOp.dest, RingOp.value, Function.update] using h21
  · simp [RingOp.ok, RingOp.step, RingOp.dest, RingOp.value, Function.update, h21, h2]

/-- C24, multiplication and squaring: for *any* `v` (square or not) the Karatsuba formulas are the
product of `K[ω]/(ω² - v)`, only the destination changes, whatever aliases what. -/
theorem C24_mul_any (v : K) (m : Mem K) (n a b : ℕ) :
    view v (mul v m n a b) = Function.update (view v m) n (view v m a * view v m b) ∧
    view v (square v m n a) = Function.update (view v m) n (view v m a ^ 2) := by
  refine ⟨view_mul m n a b, ?_⟩
  rw [square_eq, view_mul, sq]

/-- C24, inversion: defined exactly away from 0, and then `invert(x) * x = 1`. -/
theorem C24_invert {v : K} (hv : ¬ IsSquare v) (m : Mem K) (n a : ℕ) :
    (view v m a = 0 → invert v m n a = none) ∧
    (view v m a ≠ 0 → ∃ m', invert v m n a = some m' ∧ view v m' n * view v m a = 1 ∧
      ∀ i, i ≠ n → m' i = m i) := by
  have : Fact (∀ r : K, r ^ 2 ≠ v + 0 * r) := ⟨fun r h => hv ⟨r, by rw [← sq, h]; ring⟩⟩
  constructor
  · intro h
    have h1 := congrArg QuadraticAlgebra.re h
    have h2 := congrArg QuadraticAlgebra.im h
    simp [view, alg] at h1 h2
    rw [invert_eq, if_pos (by simp [nrm, h1, h2])]
  · intro h
    obtain ⟨m', e, hm⟩ := view_invert m n a h
    refine ⟨m', e, ?_, ?_⟩
    · rw [hm]; simp [h]
    · intro i hi
      rw [invert_eq, if_neg (nrm_ne (m a) h)] at e
      cases e
      simp [hi]

example : ∃ m', invert (3 : ZMod 7) (fun _ => ⟨2, 5⟩) 0 1 = some m' ∧
    view 3 m' 0 * view 3 (fun _ => ⟨2, 5⟩) 1 = 1 ∧ ∀ i, i ≠ 0 → m' i = ⟨2, 5⟩ :=
  (C24_invert (by decide) _ 0 1).2 (fun h => by
    have := congrArg QuadraticAlgebra.re h
    revert this
    change ¬ (2 : ZMod 7) = 0
    decide)

/-- C24: `is0`, `is1` and `cmp` decide equality. -/
theorem C24_tests (v : K) (a b : El K) :
    (is0 a = true ↔ alg v a = 0) ∧ (is1 a = true ↔ alg v a = 1) ∧
    (Quad.cmp a b = false ↔ alg v a = alg v b) := by
  refine ⟨?_, ?_, ?_⟩
  · simp [is0, QuadraticAlgebra.ext_iff, alg]
  · rw [QuadraticAlgebra.ext_iff]
    simp only [is1, Bool.and_eq_true, decide_eq_true_eq, alg]
    rfl
  · simp [Quad.cmp, QuadraticAlgebra.ext_iff, alg]

/-- **C25**.  The same for `K(i)`, where `-1` is not a square. -/
theorem C25_programs [Fact (∀ r : K, r ^ 2 ≠ -1 + 0 * r)] (t : ℕ) (prog : List RingOp)
    (ht : ∀ o ∈ prog, t ∉ o.vars) (m : Mem K) (hal : RingAllowed (view (-1) m) prog) :
    ∃ m', run fiOps t m prog = some m' ∧
      ∀ i, i ≠ t → view (-1) m' i = ringRun (view (-1) m) prog i := by
  rw [fiOps_eq]
  exact run_view t prog ht m _ (fun _ _ => rfl) hal

example : ∃ m', run fiOps 9 (fun i => ⟨(i : ZMod 7), 1⟩)
    [.mul 1 1 1, .square 1 1, .invert 2 2] = some m' ∧
      ∀ i, i ≠ 9 → view (-1) m' i = ringRun (view (-1) (fun i => ⟨(i : ZMod 7), 1⟩))
        [.mul 1 1 1, .square 1 1, .invert 2 2] i := by
  refine C25_programs 9 _ (by simp [RingOp.vars]) _ ⟨trivial, trivial, ?_, trivial⟩
  intro h
  simp [RingOp.step, RingOp.dest, Function.update] at h
  have := congrArg QuadraticAlgebra.im h
  revert this
  change ¬ (1 : ZMod 7) = 0
  decide

/-- C25: the specialised routines and the general ones with `v = -1` leave the same store, for every
field and every aliasing (and are undefined in the same cases). -/
theorem C25_agree (m : Mem K) (n a b : ℕ) :
    fiMul m n a b = mul (-1) m n a b ∧ fiSquare m n a = square (-1) m n a ∧
    fiInvert m n a = invert (-1) m n a ∧
    (∀ q e, fiIsSqr q e = isSqr q (-1 : K) e) ∧
    (∀ q r, fiSqrt q r m n a = sqrt q r (-1) m n a) :=
  ⟨fiMul_eq m n a b, fiSquare_eq m n a, fiInvert_eq m n a, fiIsSqr_eq, fun q r => fiSqrt_eq q r m n a⟩

end arithmetic

section squares

/-- **C26**, square test: over a finite field and for a non-square `v`, `is_sqr` answers whether the
element is a square of `K(√v)`. -/
theorem C26_is_sqr [Fintype K] {v : K} (hv : ¬ IsSquare v) (q : K → Bool)
    (hq : ∀ a, q a = true ↔ IsSquare a) (e : El K) :
    isSqr q v e = true ↔ IsSquare (alg v e) :=
  isSqr_iff v hq hv e

/-- C26, square test for `K(i)`. -/
theorem C26_fi_is_sqr [Fintype K] (hv : ¬ IsSquare (-1 : K)) (q : K → Bool)
    (hq : ∀ a, q a = true ↔ IsSquare a) (e : El K) :
    fiIsSqr q e = true ↔ IsSquare (alg (-1) e) := by
  rw [fiIsSqr_eq]; exact isSqr_iff _ hq hv e

example : isSqr (fun a : ZMod 7 => decide (IsSquare a)) 3 ⟨2, 1⟩ = true ↔
    IsSquare (alg (3 : ZMod 7) ⟨2, 1⟩) :=
  C26_is_sqr (by decide) _ (by simp) _

/-- **C26** (partial: squares inside the base field are excluded, except where the base root of
`x²` happens to be `x` and `x` is a nonzero square; `C26_sqrt_base_fails` shows that the exclusion is
necessary).  The square root of a square is a root; only the destination changes. -/
theorem C26_sqrt_partial {v : K} (hv : ¬ IsSquare v) (h2 : (2 : K) ≠ 0) (q : K → Bool) (r : K → K)
    (hq : ∀ a, q a = true ↔ IsSquare a) (hr : ∀ a, IsSquare a → r a ^ 2 = a)
    (m : Mem K) (n e : ℕ) (hsq : IsSquare (alg v (m e)))
    (hok : (m e).y ≠ 0 ∨ (m e).x ≠ 0 ∧ IsSquare (m e).x ∧ r ((m e).x ^ 2) = (m e).x) :
    ∃ m', sqrt q r v m n e = some m' ∧ alg v (m' n) ^ 2 = alg v (m e) ∧
      ∀ i, i ≠ n → m' i = m i :=
  sqrt_some_of v m n e hq hr h2 hv hsq hok

/-- C26, square roots in `K(i)` (partial in the same way). -/
theorem C26_fi_sqrt_partial (hv : ¬ IsSquare (-1 : K)) (h2 : (2 : K) ≠ 0) (q : K → Bool) (r : K → K)
    (hq : ∀ a, q a = true ↔ IsSquare a) (hr : ∀ a, IsSquare a → r a ^ 2 = a)
    (m : Mem K) (n e : ℕ) (hsq : IsSquare (alg (-1) (m e)))
    (hok : (m e).y ≠ 0 ∨ (m e).x ≠ 0 ∧ IsSquare (m e).x ∧ r ((m e).x ^ 2) = (m e).x) :
    ∃ m', fiSqrt q r m n e = some m' ∧ alg (-1) (m' n) ^ 2 = alg (-1) (m e) ∧
      ∀ i, i ≠ n → m' i = m i := by
  rw [fiSqrt_eq]
  exact sqrt_some_of _ m n e hq hr h2 hv hsq hok

/-- Square roots modulo 7. -/
def root7 (a : ZMod 7) : ZMod 7 := if a = 1 then 1 else if a = 2 then 3 else if a = 4 then 2 else 0

example : ∃ m', sqrt (fun a : ZMod 7 => decide (IsSquare a)) root7 3 (fun _ => ⟨4, 2⟩) 0 1 = some m' ∧
    alg 3 (m' 0) ^ 2 = alg 3 ⟨4, 2⟩ ∧ ∀ i, i ≠ 0 → m' i = (⟨4, 2⟩ : El (ZMod 7)) :=
  C26_sqrt_partial (by decide) (by decide) _ _ (by simp) (by unfold root7; decide) _ 0 1
    ((alg_sq_iff 3 _).2 ⟨1, 1, by decide, by decide⟩) (Or.inl (by decide))

/-- The full statement of C26 is false.  On an element `x` of the base field the routine inverts
zero when `x` is not a square of the base field, and also when the base root of `x²` is `-x`. -/
theorem C26_sqrt_base_fails (v : K) (q : K → Bool) (r : K → K)
    (hq : ∀ a, q a = true ↔ IsSquare a) (hr : ∀ a, IsSquare a → r a ^ 2 = a)
    (m : Mem K) (n e : ℕ) (hy : (m e).y = 0)
    (h : ¬ IsSquare (m e).x ∨ r ((m e).x ^ 2) = -(m e).x) :
    sqrt q r v m n e = none ∧ (v = -1 → fiSqrt q r m n e = none) := by
  refine ⟨sqrt_none_of v m n e hq hr hy h, ?_⟩
  rintro rfl
  rw [fiSqrt_eq]; exact sqrt_none_of _ m n e hq hr hy h

/-- ... although, over a finite field, every element of the base field is a square of `K(√v)`, and
`is_sqr` says so. -/
theorem C26_base_is_sqr [Fintype K] {v : K} (hv : ¬ IsSquare v) (q : K → Bool)
    (hq : ∀ a, q a = true ↔ IsSquare a) (x : K) :
    IsSquare (alg v ⟨x, 0⟩) ∧ isSqr q v ⟨x, 0⟩ = true := by
  have h : isSqr q v ⟨x, 0⟩ = true := by
    unfold isSqr
    rw [hq]
    exact ⟨x, by ring⟩
  exact ⟨(isSqr_iff v hq hv _).1 h, h⟩

example : IsSquare (alg (3 : ZMod 7) ⟨5, 0⟩) ∧
    sqrt (fun a : ZMod 7 => decide (IsSquare a)) root7 3 (fun _ => ⟨5, 0⟩) 0 1 = none :=
  ⟨(C26_base_is_sqr (by decide) (fun a => decide (IsSquare a)) (by simp) 5).1,
    (C26_sqrt_base_fails 3 _ root7 (by simp) (by unfold root7; decide) _ 0 1 rfl
      (Or.inl (by decide))).1⟩

end squares

section encoding

/-- The encoding of `Fp` as values: `to_bytes`/`from_bytes` of the prime fields
(`/repo/arith/montfp.c:415-433`); C05 ties it to the backends. -/
def fpCodec (p : ℕ) : Codec (ZMod p) where
  enc x := (outRawN (fpLength p) x.val).getD []
  dec data := ((importBE (data.take (fpLength p)) : ℕ), fpLength p)

/-- The prime field encoding round trips. -/
theorem C27_fp_round_trip (p : ℕ) [NeZero p] : RoundTrip (fpCodec p) (fpLength p) := by
  intro x rest
  obtain ⟨l, h1, h2, h3, h4⟩ := outRawN_spec (lt_fpLength (ZMod.val_lt x))
  have he : (fpCodec p).enc x = l := by simp [fpCodec, h1]
  refine ⟨by rw [he, h2], by rw [he]; exact h3, ?_⟩
  rw [he]
  simp [fpCodec, ← h2, h4, ZMod.natCast_zmod_val]

/-- **C27**, encoding: if the base field's encoding round trips with `L` bytes, the quadratic
extension's does with `2L` bytes, and its encoding is the two coordinates in order. -/
theorem C27_round_trip {K : Type*} (c : Codec K) (L : ℕ) (h : RoundTrip c L) :
    RoundTrip (codec c) (2 * L) ∧ ∀ e : El K, (codec c).enc e = c.enc e.x ++ c.enc e.y := by
  refine ⟨?_, fun _ => rfl⟩
  rintro ⟨x, y⟩ rest
  refine ⟨?_, ?_, ?_⟩
  · simp [codec, (h x rest).1, (h y rest).1, two_mul]
  · intro b hb
    simp only [codec, List.mem_append] at hb
    rcases hb with hb | hb
    · exact (h x rest).2.1 b hb
    · exact (h y rest).2.1 b hb
  · simp only [codec, List.append_assoc]
    rw [(h x _).2.2]
    simp only [List.drop_left' (h x []).1]
    rw [(h y _).2.2, two_mul]

/-- C27: distinct elements have distinct encodings. -/
theorem C27_injective {K : Type*} (c : Codec K) (L : ℕ) (h : RoundTrip c L) :
    Function.Injective (codec c).enc := by
  intro a b hab
  have h1 := ((C27_round_trip c L h).1 a []).2.2
  have h2 := ((C27_round_trip c L h).1 b []).2.2
  rw [hab] at h1
  exact (Prod.mk.inj (h1.symm.trans h2)).1

example : RoundTrip (codec (codec (fpCodec 1009))) (2 * (2 * fpLength 1009)) :=
  (C27_round_trip _ _ (C27_round_trip _ _ (C27_fp_round_trip 1009)).1).1

/-- **C27**, sign: if the base field's sign is odd and vanishes only at 0, so does the extension's. -/
theorem C27_sign (s : K → ℤ) (hodd : ∀ x, s (-x) = - s x) (hz : ∀ x, s x = 0 ↔ x = 0) (e : El K) :
    sign s ⟨-e.x, -e.y⟩ = - sign s e ∧ (sign s e = 0 ↔ e = ⟨0, 0⟩) := by
  obtain ⟨x, y⟩ := e
  unfold sign
  constructor
  · simp only [hodd, neg_eq_zero]
    split <;> rfl
  · by_cases h : s x = 0
    · simp only [h, if_true, hz, El.mk.injEq]
      simp [(hz x).1 h]
    · simp only [h, if_false, false_iff, El.mk.injEq]
      exact fun h' => h ((hz x).2 h'.1)

/-- The sign of `Fp`: the parity of the representative. -/
def fpSign (p : ℕ) (x : ZMod p) : ℤ := if x = 0 then 0 else if x.val % 2 = 1 then 1 else -1

example (e : El (ZMod 7)) : sign (fpSign 7) ⟨-e.x, -e.y⟩ = - sign (fpSign 7) e :=
  (C27_sign (fpSign 7) (by unfold fpSign; decide) (by unfold fpSign; decide) e).1

/-- C27, hashing: each coordinate is the base field's hash of one half of the digest (the second
half is the longer one when the length is odd), so every digest byte is used exactly once. -/
theorem C27_from_hash {K : Type*} (base : List ℕ → K) (data : List ℕ) :
    ∃ l r, l ++ r = data ∧ (r.length = l.length ∨ r.length = l.length + 1) ∧
      fromHash base data = ⟨base l, base r⟩ := by
  refine ⟨data.take (data.length / 2), data.drop (data.length / 2), List.take_append_drop _ _, ?_, rfl⟩
  simp only [List.length_take, List.length_drop]
  omega

end encoding

end Props
