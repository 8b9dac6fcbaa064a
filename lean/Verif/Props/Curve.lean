import Verif.Lemmas.CurveBatch
import Verif.Props.Quadratic
import Mathlib.AlgebraicGeometry.EllipticCurve.Weierstrass

/-!
# C33–C41, C72: the elliptic curve groups

The coordinates are in an abstract field; the group is Mathlib's group of points.
-/

set_option autoImplicit false

namespace Props

open Spec Pbc Pbc.Curve
open Pbc.Quad (Codec RoundTrip inv?)

variable {K : Type*} [Field K] [DecidableEq K] {ca cb : K}

section group

/-- A stored element stands for a point of the curve exactly when it satisfies the equation. -/
theorem onCurve_iff_rep (h2 : (2 : K) ≠ 0) (hD : 4 * ca ^ 3 + 27 * cb ^ 2 ≠ 0) (p : Pt K) :
    OnCurve ca cb p ↔ ∃ P : (EC ca cb).Point, PtRep p P := by
  have hΔ : (EC ca cb).Δ ≠ 0 := by
    have e : (EC ca cb).Δ = - (2 ^ 4 * (4 * ca ^ 3 + 27 * cb ^ 2)) := by
      simp only [EC, WeierstrassCurve.Δ, WeierstrassCurve.b₂, WeierstrassCurve.b₄,
        WeierstrassCurve.b₆, WeierstrassCurve.b₈]
      ring
    rw [e]
    exact neg_ne_zero.2 (mul_ne_zero (pow_ne_zero 4 h2) hD)
  constructor
  · rintro (h | h)
    · exact ⟨.zero, h⟩
    · cases hp : p.inf with
      | true => exact ⟨.zero, hp⟩
      | false =>
        have he : (EC ca cb).Equation p.x p.y := by
          rw [WeierstrassCurve.Affine.equation_iff]
          simp only [EC]
          linear_combination h
        exact ⟨.some p.x p.y ((WeierstrassCurve.Affine.equation_iff_nonsingular_of_Δ_ne_zero hΔ).1 he),
          hp, rfl, rfl⟩
  · rintro ⟨P, h⟩
    cases P with
    | zero => exact Or.inl h
    | some x y hn =>
      obtain ⟨_, rfl, rfl⟩ := h
      have := (WeierstrassCurve.Affine.equation_iff _ _).1 hn.1
      simp only [EC] at this
      exact Or.inr (by linear_combination this)

/-- **C33**, histories: every program of curve calls, in place or not, keeps every element standing
for the point that Mathlib's group law prescribes.  `t` is the hidden temporary of `element_sub`. -/
theorem C33_programs (h2 : (2 : K) ≠ 0) (t : ℕ) (prog : List GroupOp)
    (ht : ∀ o ∈ prog, t ∉ o.vars) (m : Mem K) (s : ℕ → (EC ca cb).Point)
    (h : ∀ i, i ≠ t → PtRep (m i) (s i)) :
    ∃ m', run ca t m prog = some m' ∧ ∀ i, i ≠ t → PtRep (m' i) (groupRun s prog i) :=
  run_rep h2 t prog ht m s h

/-- **C33**, invariant: on a nonsingular curve, whatever program of calls runs, all elements stay on
the curve. -/
theorem C33_on_curve (h2 : (2 : K) ≠ 0) (hD : 4 * ca ^ 3 + 27 * cb ^ 2 ≠ 0) (t : ℕ)
    (prog : List GroupOp) (ht : ∀ o ∈ prog, t ∉ o.vars) (m : Mem K)
    (h : ∀ i, i ≠ t → OnCurve ca cb (m i)) :
    ∃ m', run ca t m prog = some m' ∧ ∀ i, i ≠ t → OnCurve ca cb (m' i) := by
  have hex : ∀ i, ∃ P : (EC ca cb).Point, i ≠ t → PtRep (m i) P := by
    intro i
    by_cases hi : i = t
    · exact ⟨0, fun h => absurd hi h⟩
    · obtain ⟨P, hP⟩ := (onCurve_iff_rep h2 hD _).1 (h i hi)
      exact ⟨P, fun _ => hP⟩
  choose s hs using hex
  obtain ⟨m', e, h'⟩ := C33_programs h2 t prog ht m s hs
  exact ⟨m', e, fun i hi => (onCurve_iff_rep h2 hD _).2 ⟨_, h' i hi⟩⟩

/-- **C33**, tests: `is0`, comparison (with or without the quotient exponent) and the validity test
answer for the points. -/
theorem C33_tests (h2 : (2 : K) ≠ 0) {m : Mem K} {a b : ℕ} {P Q : (EC ca cb).Point}
    (hP : PtRep (m a) P) (hQ : PtRep (m b) Q) :
    (isZero (m a) = true ↔ P = 0) ∧
    (∃ r, Curve.cmp ca none m a b = some r ∧ (r = false ↔ P = Q)) ∧
    (∀ n, ∃ r, Curve.cmp ca (some n) m a b = some r ∧ (r = false ↔ n • (P - Q) = 0)) ∧
    isValid ca cb (m a) = true := by
  have hz : ∀ {p : Pt K} {R : (EC ca cb).Point}, PtRep p R → (p.inf = true ↔ R = 0) := by
    intro p R hR
    cases R with
    | zero => exact ⟨fun _ => rfl, fun _ => hR⟩
    | some x y hn =>
      refine ⟨fun h => ?_, fun h => by cases h⟩
      rw [hR.1] at h; cases h
  have hPQ : a = b → P = Q := by
    rintro rfl
    cases P with
    | zero =>
      cases Q with
      | zero => rfl
      | some x y hn => exact absurd (hQ.1.symm.trans hP) (by simp)
    | some x y hn =>
      cases Q with
      | zero => exact absurd (hP.1.symm.trans hQ) (by simp)
      | some x' y' hn' =>
        obtain ⟨_, rfl, rfl⟩ := hP
        obtain ⟨_, rfl, rfl⟩ := hQ
        rfl
  refine ⟨hz hP, ?_, ?_, ?_⟩
  · unfold Curve.cmp
    by_cases hab : a = b
    · rw [if_pos hab]
      exact ⟨_, rfl, by simp [hPQ hab]⟩
    · rw [if_neg hab]
      refine ⟨_, rfl, ?_⟩
      unfold pointCmp
      cases P with
      | zero =>
        have hP : (m a).inf = true := hP
        rw [hP]
        cases Q with
        | zero => have hQ : (m b).inf = true := hQ; simp [hQ]
        | some x y hn => simp [hQ.1]
      | some x y hn =>
        obtain ⟨h1, rfl, rfl⟩ := hP
        rw [h1]
        cases Q with
        | zero => have hQ : (m b).inf = true := hQ; simp [hQ]
        | some x' y' hn' =>
          obtain ⟨h1, rfl, rfl⟩ := hQ
          simp [h1]
  · intro n
    unfold Curve.cmp
    by_cases hab : a = b
    · rw [if_pos hab]
      exact ⟨_, rfl, by simp [hPQ hab]⟩
    · rw [if_neg hab]
      dsimp only
      have hinv : PtRep (if (m b).inf then fresh else ⟨false, (m b).x, -(m b).y⟩ : Pt K) (-Q) := by
        refine neg_rep hQ ?_
        split_ifs
        · rfl
        · rfl
      obtain ⟨r, e, hr⟩ := addV_rep h2 hinv hP
      rw [e]
      dsimp only
      obtain ⟨r', e', hr'⟩ := pow_rep h2 hr n
      rw [e']
      refine ⟨_, rfl, ?_⟩
      rw [Bool.not_eq_false', hz hr', add_comm, ← sub_eq_add_neg]
  · unfold isValid
    cases P with
    | zero => have hP : (m a).inf = true := hP; simp [hP]
    | some x y hn =>
      obtain ⟨h1, rfl, rfl⟩ := hP
      have := (WeierstrassCurve.Affine.equation_iff _ _).1 hn.1
      simp only [EC] at this
      simp only [h1, Bool.false_eq_true, if_false, decide_eq_true_eq]
      linear_combination -this

/-- The point (1, 2) of `Y² = X³ + 3` over the field of 7 elements. -/
example : ∃ (m : Mem (ZMod 7)) (s : ℕ → (EC (0 : ZMod 7) 3).Point),
    (∀ i, i ≠ 9 → PtRep (m i) (s i)) ∧ (m 0 = ⟨false, 1, 2⟩) ∧
    ((run 0 9 m [.double 1 0, .add 2 1 0, .sub 2 2 0, .mulMpz 3 0 12]).map fun m => (m 1, m 2))
      = some (⟨false, 6, 3⟩, ⟨false, 6, 3⟩) := by
  obtain ⟨P, hP⟩ := (onCurve_iff_rep (ca := (0 : ZMod 7)) (cb := 3) (by decide) (by decide)
    ⟨false, 1, 2⟩).1 (Or.inr (by decide))
  refine ⟨fun _ => ⟨false, 1, 2⟩, fun _ => P, fun _ _ => hP, rfl, ?_⟩
  decide +kernel

/-- **C34**: `element_mul_mpz(P, n)` is `n P`, in place or not, for every `n`. -/
theorem C34_scalar (h2 : (2 : K) ≠ 0) {m : Mem K} {a : ℕ} {P : (EC ca cb).Point}
    (h : PtRep (m a) P) (c n : ℕ) :
    ∃ m', mulMpz ca m c a n = some m' ∧ PtRep (m' c) (n • P) ∧ ∀ i, i ≠ c → m' i = m i :=
  mulMpz_rep h2 h c n

example : ((mulMpz (0 : ZMod 7) (fun _ => ⟨false, 1, 2⟩) 1 0 3).map fun m => isZero (m 1)) = some false ∧
    ((mulMpz (0 : ZMod 7) (fun _ => ⟨false, 1, 2⟩) 1 0 13).map fun m => isZero (m 1)) = some true := by
  decide +kernel

/-- **C72**, odd order: the answer of `element_is_sqr` is right: every point is the double of
another. -/
theorem C72_odd (n : ℕ) (hn : n % 2 = 1) (P : (EC ca cb).Point) (p : Pt K)
    (_hp : PtRep p P) (ho : n • P = 0) : Curve.isSqr ca n p = some true ∧ ∃ Q, P = 2 • Q := by
  refine ⟨by unfold Curve.isSqr; rw [if_pos hn], (n / 2 + 1) • P, ?_⟩
  rw [smul_smul, show 2 * (n / 2 + 1) = n + 1 by omega, add_smul, ho, one_smul, zero_add]

/-- **C72** fails for even orders: every point whose double is not `O` is reported as not a double,
even when it is one. -/
theorem C72_even_fails (h2 : (2 : K) ≠ 0) (n : ℕ) (hn : n % 2 = 0) (h0 : n ≠ 0)
    (P : (EC ca cb).Point) (p : Pt K) (hp : PtRep p (2 • P)) (ho : n • (2 • P) = 0)
    (h4 : 4 • P ≠ 0) : Curve.isSqr ca n p = some false := by
  unfold Curve.isSqr
  rw [if_neg (by omega)]
  dsimp only
  obtain ⟨r, e, hr⟩ := pow_rep h2 hp ((n - 1) / 2)
  rw [e, Option.map_some, Option.some.injEq, Bool.eq_false_iff]
  intro h
  have hz : ((n - 1) / 2) • (2 • P) = 0 := by
    cases hR : ((n - 1) / 2) • (2 • P) with
    | zero => rfl
    | some x y hn' => rw [hR] at hr; rw [hr.1] at h; cases h
  apply h4
  have e1 : (n - 2) • (2 • P) = 0 := by
    rw [show n - 2 = 2 * ((n - 1) / 2) by omega, mul_smul, hz, smul_zero]
  have e2 : n • (2 • P) = (n - 2) • (2 • P) + 4 • P := by
    rw [show (4 : ℕ) = 2 * 2 from rfl, mul_smul, ← add_smul, show n - 2 + 2 = n by omega]
  rw [ho, e1, zero_add] at e2
  exact e2.symm

end group

section batch

/-- **C35**, doubling, part: if no stored ordinate is 0, no output overlaps a later input or another
output, and every output whose input is not `O` was not `O` before the call, the batch doubles all
points and leaves the other elements alone.  Missing: points of order two, `O` whose stored ordinate
is 0, and outputs holding `O` beforehand: for those the statement is false, see below. -/
theorem C35_double_partial (h2 : (2 : K) ≠ 0) {m : Mem K} {c a : ℕ → ℕ} {n : ℕ} (hn : 1 ≤ n)
    {P : ℕ → (EC ca cb).Point} (hP : ∀ i < n, PtRep (m (a i)) (P i))
    (hy : ∀ i < n, (m (a i)).y ≠ 0)
    (hf : ∀ i < n, (m (a i)).inf = false → (m (c i)).inf = false)
    (hca : ∀ i < n, ∀ j < n, i ≠ j → c i ≠ a j ∧ c i ≠ c j) :
    ∃ m', multiDouble ca m c a n = some m' ∧ (∀ i < n, PtRep (m' (c i)) (2 • P i)) ∧
      ∀ l, (∀ i < n, c i ≠ l) → m' l = m l :=
  multiDouble_rep h2 hn hP hy hf hca

/-- **C35** fails: one stored ordinate 0 (a point of order two, or an `O` never given coordinates)
makes the common inversion invert 0. -/
theorem C35_double_y0_fails (m : Mem K) (c a : ℕ → ℕ) (n i : ℕ) (hi : i < n)
    (hy : (m (a i)).y = 0) : multiDouble ca m c a n = none := by
  unfold multiDouble
  dsimp only
  rw [table_zero _ n i hi (by rw [(mdFlags_coord c a n 0 m (a i)).2, hy, mul_zero])]

/-- **C35** fails: an output that holds `O` before the call (as every freshly initialised element
does) holds `O` afterwards, whatever its input. -/
theorem C35_double_fresh_fails (m : Mem K) (c a : ℕ → ℕ) (n : ℕ)
    (hca : ∀ i < n, ∀ j < n, i ≠ j → c i ≠ a j ∧ c i ≠ c j) (i : ℕ) (hi : i < n)
    (h : (m (c i)).inf = true) (m' : Mem K) (hm : multiDouble ca m c a n = some m') :
    (m' (c i)).inf = true :=
  multiDouble_keeps m c a n hca i hi h m' hm

/-- **C35**, addition, part: if in every pair the stored abscissas differ, the batch adds all pairs.
Missing: equal stored abscissas, for which the statement is false, see below. -/
theorem C35_add_partial (h2 : (2 : K) ≠ 0) {m : Mem K} {c a b : ℕ → ℕ} {n : ℕ} (hn : 1 ≤ n)
    {P Q : ℕ → (EC ca cb).Point} (hP : ∀ i < n, PtRep (m (a i)) (P i))
    (hQ : ∀ i < n, PtRep (m (b i)) (Q i)) (hx : ∀ i < n, (m (a i)).x ≠ (m (b i)).x)
    (hca : ∀ i < n, ∀ j < n, i ≠ j → c i ≠ a j ∧ c i ≠ b j ∧ c i ≠ c j) :
    ∃ m', multiAdd ca m c a b n = some m' ∧ (∀ i < n, PtRep (m' (c i)) (P i + Q i)) ∧
      ∀ l, (∀ i < n, c i ≠ l) → m' l = m l :=
  multiAdd_rep h2 hn hP hQ hx hca

/-- **C35** fails: one pair with equal abscissas makes the common inversion invert 0, although the
code goes on to treat that pair separately. -/
theorem C35_add_x_fails (m : Mem K) (c a b : ℕ → ℕ) (n i : ℕ) (hi : i < n)
    (hx : (m (a i)).x = (m (b i)).x) : multiAdd ca m c a b n = none := by
  unfold multiAdd
  dsimp only
  rw [table_zero _ n i hi (by rw [hx, sub_self])]

/-- Elements 0, 1: (1,2), (6,3) on `Y² = X³ + 3` mod 7. -/
def bm7 : Mem (ZMod 7) := fun i =>
  if i = 0 then ⟨false, 1, 2⟩ else if i = 1 then ⟨false, 6, 3⟩ else if i < 4 then ⟨false, 1, 2⟩
  else fresh

example : ((multiDouble (0 : ZMod 7) bm7 (fun i => i + 2) (fun i => i) 2).map fun m => (m 2, isZero (m 3)))
      = some (⟨false, 6, 3⟩, false) ∧
    ((multiDouble (0 : ZMod 7) bm7 (fun i => i + 4) (fun i => i) 2).map fun m => isZero (m 4))
      = some true ∧
    ((multiAdd (0 : ZMod 7) bm7 (fun i => i + 4) (fun i => i) (fun i => 1 - i) 2).map
      fun m => decide (m 4 = m 5) && !(isZero (m 4))) = some true := by
  decide +kernel

end batch

section encoding

/-- **C36**: for any buffer and any base field decoder, the parsed element is on the curve: it is the
decoded pair if that pair satisfies the equation, and `O` otherwise. -/
theorem C36_from_bytes (cd : Codec K) (data : List ℕ) :
    OnCurve ca cb (fromBytes cd ca cb data).1 ∧
    ((fromBytes cd ca cb data).1.inf = false ↔
      OnCurve ca cb ⟨false, (cd.dec data).1, (cd.dec (data.drop (cd.dec data).2)).1⟩) ∧
    ((fromBytes cd ca cb data).1.inf = false →
      (fromBytes cd ca cb data).1 =
        ⟨false, (cd.dec data).1, (cd.dec (data.drop (cd.dec data).2)).1⟩) := by
  unfold fromBytes
  dsimp only
  set x := (cd.dec data).1
  set y := (cd.dec (data.drop (cd.dec data).2)).1
  have hv : isValid ca cb ⟨false, x, y⟩ = true ↔ y ^ 2 = x ^ 3 + ca * x + cb := by
    unfold isValid
    simp only [Bool.false_eq_true, if_false, decide_eq_true_eq]
    constructor <;> intro h <;> linear_combination -h
  by_cases h : isValid ca cb ⟨false, x, y⟩ = true
  · simp [h, OnCurve, hv.1 h]
  · have h' := mt hv.2 h
    simp only [Bool.not_eq_true] at h
    simp [h, OnCurve, h']

example : (fromBytes (fpCodec 7) 0 3 [1, 2]).1 = ⟨false, 1, 2⟩ ∧
    (fromBytes (fpCodec 7) 0 3 [1, 3]).1.inf = true := by decide +kernel

/-- **C37**, part: every point other than `O` survives the round trip, and the returned length is the
number of bytes written.  Missing: `O`, for which the statement is false, see below. -/
theorem C37_round_trip_partial (cd : Codec K) (L : ℕ) (hc : RoundTrip cd L) (p : Pt K)
    (hp : p.inf = false) (h : OnCurve ca cb p) (rest : List ℕ) :
    fromBytes cd ca cb (toBytes cd p ++ rest) = (p, 2 * L) ∧ (toBytes cd p).length = 2 * L := by
  obtain ⟨inf, x, y⟩ := p
  dsimp only at hp
  subst hp
  have h : y ^ 2 = x ^ 3 + ca * x + cb := h.resolve_left (by simp)
  have hv : isValid ca cb ⟨false, x, y⟩ = true := by
    unfold isValid
    simp only [Bool.false_eq_true, if_false, decide_eq_true_eq]
    linear_combination -h
  constructor
  · unfold fromBytes toBytes
    simp only [List.append_assoc, (hc x _).2.2, List.drop_left' (hc x []).1, (hc y _).2.2, hv]
    simp [two_mul]
  · simp [toBytes, (hc x []).1, (hc y []).1, two_mul]

/-- **C37** at `O`: the identity is written as whatever coordinates were left in the element, so it
reads back as `O` exactly when these are off the curve; otherwise the result is another point. -/
theorem C37_identity (cd : Codec K) (L : ℕ) (hc : RoundTrip cd L) (x y : K) (rest : List ℕ) :
    (fromBytes cd ca cb (toBytes cd ⟨true, x, y⟩ ++ rest)).1.inf = true ↔
      ¬ OnCurve ca cb ⟨false, x, y⟩ := by
  have h := (C36_from_bytes (ca := ca) (cb := cb) cd (toBytes cd ⟨true, x, y⟩ ++ rest)).2.1
  have hx : toBytes cd ⟨true, x, y⟩ ++ rest = cd.enc x ++ (cd.enc y ++ rest) := by
    simp [toBytes]
  rw [hx] at h ⊢
  rw [(hc x _).2.2] at h
  simp only [List.drop_left' (hc x []).1, (hc y _).2.2] at h
  rw [← h]
  simp

/-- **C37** fails at `O` on every curve with `b = 0` (all type A pairings): a fresh `O` reads back as
the point (0, 0) of order two. -/
theorem C37_identity_fails (cd : Codec K) (L : ℕ) (hc : RoundTrip cd L) :
    (fromBytes cd ca 0 (toBytes cd fresh)).1 = ⟨false, 0, 0⟩ := by
  have h0 : OnCurve ca 0 (⟨false, 0, 0⟩ : Pt K) := Or.inr (by simp)
  have h := (C37_round_trip_partial cd L hc ⟨false, 0, 0⟩ rfl h0 []).1
  rw [List.append_nil] at h
  exact congrArg Prod.fst h

/-- **C37**, compressed form: every point other than `O` survives, given that the base field's square
root and sign do their job. -/
theorem C37_compressed (cd : Codec K) (L : ℕ) (hc : RoundTrip cd L) (sq : K → K) (s : K → ℤ)
    (hsq : ∀ a, IsSquare a → sq a ^ 2 = a) (hodd : ∀ x, s (-x) = - s x) (hz : ∀ x, s x = 0 ↔ x = 0)
    (p : Pt K) (hp : p.inf = false) (h : OnCurve ca cb p) (rest : List ℕ) :
    fromBytesCompressed cd sq s ca cb (toBytesCompressed cd s p ++ rest) = some (p, L + 1) ∧
    (toBytesCompressed cd s p).length = L + 1 := by
  obtain ⟨inf, x, y⟩ := p
  dsimp only at hp
  subst hp
  have h : y ^ 2 = x ^ 3 + ca * x + cb := h.resolve_left (by simp)
  have hr : rhs ca cb x = y ^ 2 := by unfold rhs; linear_combination -h
  have hy : sq (rhs ca cb x) = y ∨ sq (rhs ca cb x) = -y := by
    have := hsq (rhs ca cb x) ⟨y, by rw [hr, pow_two]⟩
    rw [hr] at this ⊢
    exact sq_eq_sq_iff_eq_or_eq_neg.1 this
  constructor
  · unfold fromBytesCompressed toBytesCompressed
    simp only [List.append_assoc, (hc x _).2.2, pointFromX]
    rw [List.getElem?_append_right (by rw [(hc x []).1]), (hc x []).1]
    simp only [Nat.sub_self, List.singleton_append, List.getElem?_cons_zero]
    rcases hy with hy | hy <;> rw [hy]
    · by_cases hs : s y > 0
      · simp [hs, not_lt.2 (le_of_lt hs)]
      · simp [hs]
    · by_cases hs : s y > 0
      · simp [hs, hodd]
      · simp only [hs, if_false, ne_eq, not_true_eq_false, hodd]
        by_cases h0 : s y = 0
        · have := (hz y).1 h0
          subst this
          simp
        · rw [if_pos (by omega)]; simp
  · simp [toBytesCompressed, (hc x []).1]

example : fromBytesCompressed (fpCodec 7) root7 (fpSign 7) 0 3
    (toBytesCompressed (fpCodec 7) (fpSign 7) ⟨false, 1, 5⟩) = some (⟨false, 1, 5⟩, 2) := by
  have h := (C37_compressed (ca := (0 : ZMod 7)) (cb := 3) (fpCodec 7) (fpLength 7)
    (C27_fp_round_trip 7) root7 (fpSign 7) (by unfold root7; decide)
    (by unfold fpSign; decide) (by unfold fpSign; decide) ⟨false, 1, 5⟩ rfl
    (Or.inr (by decide)) []).1
  rwa [List.append_nil] at h

/-- **C37**, the form with `x` only: what is read back is the point or its negative, and the returned length is the
number of bytes written. -/
theorem C37_x_only (cd : Codec K) (L : ℕ) (hc : RoundTrip cd L) (sq : K → K)
    (hsq : ∀ a, IsSquare a → sq a ^ 2 = a) (x y : K) (h : OnCurve ca cb ⟨false, x, y⟩) (rest : List ℕ) :
    (toBytesXOnly cd ⟨false, x, y⟩).length = L ∧
    (fromBytesXOnly cd sq ca cb (toBytesXOnly cd ⟨false, x, y⟩ ++ rest) = (⟨false, x, y⟩, L) ∨
      fromBytesXOnly cd sq ca cb (toBytesXOnly cd ⟨false, x, y⟩ ++ rest) = (⟨false, x, -y⟩, L)) := by
  have h : y ^ 2 = x ^ 3 + ca * x + cb := h.resolve_left (by simp)
  have hr : rhs ca cb x = y ^ 2 := by unfold rhs; linear_combination -h
  have hy : sq (rhs ca cb x) = y ∨ sq (rhs ca cb x) = -y := by
    have := hsq (rhs ca cb x) ⟨y, by rw [hr, pow_two]⟩
    rw [hr] at this ⊢
    exact sq_eq_sq_iff_eq_or_eq_neg.1 this
  refine ⟨(hc x []).1, ?_⟩
  unfold fromBytesXOnly toBytesXOnly
  simp only [(hc x _).2.2, pointFromX]
  rcases hy with hy | hy <;> rw [hy] <;> simp

example : (fromBytesXOnly (fpCodec 7) root7 0 3 (toBytesXOnly (fpCodec 7) ⟨false, 1, 5⟩)).1.x = 1 := by
  rcases (C37_x_only (ca := (0 : ZMod 7)) (cb := 3) (fpCodec 7) (fpLength 7) (C27_fp_round_trip 7) root7
    (by unfold root7; decide) 1 5 (Or.inr (by decide)) []).2 with h | h <;> rw [List.append_nil] at h <;> rw [h]

/-- **C38**, exact: the compressed and the `x`-only parsers produce a point of the curve exactly when
the right-hand side at the decoded abscissa is a square; nothing is checked.  So the property
holds for those buffers only. -/
theorem C38_partial (cd : Codec K) (sq : K → K) (s : K → ℤ)
    (hsq : ∀ a, IsSquare a → sq a ^ 2 = a) (data : List ℕ) (p : Pt K) (len : ℕ)
    (h : fromBytesCompressed cd sq s ca cb data = some (p, len)) :
    p.inf = false ∧
    (OnCurve ca cb p ↔ IsSquare ((cd.dec data).1 ^ 3 + ca * (cd.dec data).1 + cb)) ∧
    (OnCurve ca cb (fromBytesXOnly cd sq ca cb data).1 ↔
      IsSquare ((cd.dec data).1 ^ 3 + ca * (cd.dec data).1 + cb)) := by
  unfold fromBytesCompressed at h
  set x := (cd.dec data).1
  have hr : rhs ca cb x = x ^ 3 + ca * x + cb := by unfold rhs; ring
  have key : ∀ y : K, (y = sq (rhs ca cb x) ∨ y = - sq (rhs ca cb x)) →
      (OnCurve ca cb ⟨false, x, y⟩ ↔ IsSquare (x ^ 3 + ca * x + cb)) := by
    intro y hy
    have hy2 : y ^ 2 = sq (rhs ca cb x) ^ 2 := by rcases hy with rfl | rfl <;> ring
    constructor
    · intro h
      have h : y ^ 2 = x ^ 3 + ca * x + cb := h.resolve_left (by simp)
      exact ⟨y, by rw [← h, pow_two]⟩
    · intro h
      rw [← hr] at h
      refine Or.inr ?_
      change y ^ 2 = x ^ 3 + ca * x + cb
      rw [hy2, hsq _ h, hr]
  dsimp only at h
  split at h
  · cases h
  · rw [Option.some.injEq, Prod.mk.injEq] at h
    obtain ⟨h, -⟩ := h
    refine ⟨?_, ?_, key _ (Or.inl rfl)⟩
    · rw [← h]; unfold pointFromX; split_ifs <;> rfl
    · rw [← h]
      unfold pointFromX
      split_ifs
      · exact key _ (Or.inr rfl)
      · exact key _ (Or.inl rfl)
      · exact key _ (Or.inr rfl)
      · exact key _ (Or.inl rfl)

/-- **C38** fails: `X = 0` on `Y² = X³ + 3` mod 7. -/
theorem C38_fails : ∃ p len, fromBytesCompressed (fpCodec 7) root7 (fpSign 7) 0 3 [0, 1] = some (p, len) ∧
    ¬ OnCurve 0 3 p ∧ ¬ OnCurve 0 3 (fromBytesXOnly (fpCodec 7) root7 0 3 [0]).1 := by
  obtain ⟨⟨p, len⟩, h⟩ : ∃ r, fromBytesCompressed (fpCodec 7) root7 (fpSign 7) 0 3 [0, 1] = some r :=
    Option.isSome_iff_exists.1 (by decide +kernel)
  have hsq : ∀ a : ZMod 7, IsSquare a → root7 a ^ 2 = a := by unfold root7; decide
  have hns : ¬ IsSquare (((fpCodec 7).dec [0, 1]).1 ^ 3 + 0 * ((fpCodec 7).dec [0, 1]).1 + 3 : ZMod 7) := by
    decide +kernel
  have := C38_partial (fpCodec 7) root7 (fpSign 7) hsq [0, 1] p len h
  exact ⟨p, len, h, mt this.2.1.1 hns, fun h' => hns (this.2.2.1 h')⟩

/-- The abscissas tried by the hash search. -/
def hashSeq (x : K) : ℕ → K
  | 0 => x
  | k + 1 => hashSeq (x ^ 2 + 1) k

theorem hashSearch_spec (q : K → Bool) (hq : ∀ a, q a = true ↔ IsSquare a) : ∀ (fuel : ℕ) (x r : K),
    hashSearch q ca cb fuel x = some r → ∃ k < fuel, r = hashSeq x k ∧
      IsSquare (r ^ 3 + ca * r + cb) ∧
      ∀ j < k, ¬ IsSquare (hashSeq x j ^ 3 + ca * hashSeq x j + cb)
  | 0, x, r, h => by cases h
  | fuel + 1, x, r, h => by
    have hr : ∀ x, rhs ca cb x = x ^ 3 + ca * x + cb := fun x => by unfold rhs; ring
    unfold hashSearch at h
    split_ifs at h with h1
    · rw [Option.some.injEq] at h
      subst h
      exact ⟨0, by omega, rfl, by rw [← hr]; exact (hq _).1 h1, fun j hj => by omega⟩
    · obtain ⟨k, h2, h3, h4, h5⟩ := hashSearch_spec q hq fuel _ _ h
      refine ⟨k + 1, by omega, h3, h4, ?_⟩
      intro j hj
      cases j with
      | zero => intro h; rw [hr] at h1; exact h1 ((hq _).2 h)
      | succ j => exact h5 j (by omega)

/-- **C39**: whenever the search stops, the hash to the curve is `h` times the point whose abscissa
is the first of `x, x² + 1, ...` for which the equation has a solution, with the ordinate that is
not negative (`h` the cofactor, or 1). -/
theorem C39_from_hash (h2 : (2 : K) ≠ 0) (hD : 4 * ca ^ 3 + 27 * cb ^ 2 ≠ 0) (q : K → Bool)
    (hq : ∀ a, q a = true ↔ IsSquare a) (sq : K → K) (hsq : ∀ a, IsSquare a → sq a ^ 2 = a)
    (s : K → ℤ) (hodd : ∀ x, s (-x) = - s x) (cofac : Option ℕ) (fuel : ℕ) (x : K) (p : Pt K)
    (h : fromHash q sq s ca cb cofac fuel x = some p) :
    ∃ (k : ℕ) (y : K) (P : (EC ca cb).Point), PtRep ⟨false, hashSeq x k, y⟩ P ∧
      PtRep p (cofac.getD 1 • P) ∧ 0 ≤ s y ∧
      ∀ j < k, ¬ IsSquare (hashSeq x j ^ 3 + ca * hashSeq x j + cb) := by
  unfold fromHash at h
  cases hs : hashSearch q ca cb fuel x with
  | none => rw [hs] at h; cases h
  | some r =>
    rw [hs] at h
    dsimp only at h
    obtain ⟨k, _, rfl, h4, h5⟩ := hashSearch_spec q hq fuel x r hs
    set r := hashSeq x k
    set y := if s (sq (rhs ca cb r)) < 0 then -sq (rhs ca cb r) else sq (rhs ca cb r) with hy
    have hr : rhs ca cb r = r ^ 3 + ca * r + cb := by unfold rhs; ring
    have hy2 : y ^ 2 = r ^ 3 + ca * r + cb := by
      have : y ^ 2 = sq (rhs ca cb r) ^ 2 := by rw [hy]; split_ifs <;> ring
      rw [this, hsq _ (by rw [hr]; exact h4), hr]
    have hsy : 0 ≤ s y := by
      rw [hy]
      split_ifs with h0
      · rw [hodd]; omega
      · omega
    obtain ⟨P, hP⟩ := (onCurve_iff_rep h2 hD ⟨false, r, y⟩).1 (Or.inr hy2)
    refine ⟨k, y, P, hP, ?_, hsy, h5⟩
    cases cofac with
    | none =>
      rw [Option.some.injEq] at h
      subst h
      rw [Option.getD_none, one_smul]; exact hP
    | some n =>
      obtain ⟨p', e, hp'⟩ := pow_rep h2 hP n
      dsimp only at h
      rw [e, Option.some.injEq] at h
      subst h
      exact hp'

example : fromHash (fun a : ZMod 7 => decide (IsSquare a)) root7 (fpSign 7) 0 3 none 5 0
    = some ⟨false, 1, 5⟩ := by decide +kernel

/-- **C39**, random points: `element_random` of both kinds gives points of the curve, a multiple of
the cofactor in the first case, a multiple of the generator in the second. -/
theorem C39_random (h2 : (2 : K) ≠ 0) (hD : 4 * ca ^ 3 + 27 * cb ^ 2 ≠ 0) (q : K → Bool)
    (hq : ∀ a, q a = true ↔ IsSquare a) (sq : K → K) (hsq : ∀ a, IsSquare a → sq a ^ 2 = a)
    (cofac : Option ℕ) (draws : List K) (p : Pt K) :
    (randomSolve q sq ca cb cofac draws = some p →
      ∃ P : (EC ca cb).Point, PtRep p (cofac.getD 1 • P)) ∧
    (∀ (gen : Pt K) (G : (EC ca cb).Point) (n : ℕ), PtRep gen G →
      ∃ r, randomPointMul ca gen n = some r ∧ PtRep r (n • G)) := by
  refine ⟨?_, fun gen G n hG => pow_rep h2 hG n⟩
  have hno : ∀ (draws : List K) p, randomNoCofac q sq ca cb draws = some p → OnCurve ca cb p := by
    intro draws
    induction draws with
    | nil => intro p h; cases h
    | cons x rest ih =>
      intro p h
      unfold randomNoCofac at h
      split_ifs at h with h1
      · rw [Option.some.injEq] at h
        subst h
        refine Or.inr ?_
        rw [hq] at h1
        change sq (rhs ca cb x) ^ 2 = _
        rw [hsq _ h1]
        unfold rhs; ring
      · exact ih p h
  intro h
  unfold randomSolve at h
  cases hs : randomNoCofac q sq ca cb draws with
  | none => rw [hs] at h; cases h
  | some r =>
    rw [hs] at h
    obtain ⟨P, hP⟩ := (onCurve_iff_rep h2 hD r).1 (hno draws r hs)
    refine ⟨P, ?_⟩
    cases cofac with
    | none =>
      dsimp only at h
      rw [Option.some.injEq] at h
      subst h
      rw [Option.getD_none, one_smul]; exact hP
    | some n =>
      obtain ⟨p', e, hp'⟩ := pow_rep h2 hP n
      dsimp only at h
      rw [e, Option.some.injEq] at h
      subst h
      exact hp'

end encoding

section orders

theorem traceLoop_spec {R : Type*} [CommRing R] (q t : ℤ) (α β : R) (hs : α + β = t) (hp : α * β = q) :
    ∀ (k i : ℕ) (c1 c2 : ℤ), (c1 : R) = α ^ (i + 1) + β ^ (i + 1) → (c2 : R) = α ^ i + β ^ i →
      ((traceLoop q t k c1 c2 : ℤ) : R) = α ^ (i + 1 + k) + β ^ (i + 1 + k)
  | 0, i, c1, c2, h1, _ => h1
  | k + 1, i, c1, c2, h1, h2 => by
    unfold traceLoop
    rw [show i + 1 + (k + 1) = (i + 1) + 1 + k by ring]
    refine traceLoop_spec q t α β hs hp k (i + 1) _ _ ?_ h1
    push_cast
    rw [h1, h2, ← hs, ← hp]
    ring

/-- **C40**: with `α`, `β` the roots of `X² - t X + q` (in any commutative ring), the trace over the
degree `n` extension is `αⁿ + βⁿ` and the order is `(1 - αⁿ)(1 - βⁿ)`, for every `n ≥ 1`. -/
theorem C40_trace {R : Type*} [CommRing R] (q t : ℤ) (α β : R) (hs : α + β = t) (hp : α * β = q)
    (n : ℕ) (hn : 1 ≤ n) :
    ((traceN q t n : ℤ) : R) = α ^ n + β ^ n ∧
    ((orderExtn q t n : ℤ) : R) = (1 - α ^ n) * (1 - β ^ n) := by
  have h := traceLoop_spec q t α β hs hp (n - 1) 0 t 2 (by rw [← hs]; ring) (by push_cast; ring)
  rw [show 0 + 1 + (n - 1) = n by omega] at h
  refine ⟨h, ?_⟩
  unfold orderExtn
  push_cast
  rw [show traceN q t n = traceLoop q t (n - 1) t 2 from rfl, h, ← hp, mul_pow]
  ring

/-- **C40** does not extend to `n = 0`: the code returns the trace itself instead of 2. -/
theorem C40_zero (q t : ℤ) : traceN q t 0 = t := rfl

example : traceN 7 (-3) 4 = -73 ∧ orderExtn 7 (-3) 2 = 55 := by decide

/-- **C41**, the curve with given invariant. -/
theorem C41_curve_j (h2 : (2 : K) ≠ 0) (h3 : (3 : K) ≠ 0) (j : K) (h0 : j ≠ 0) (h1 : j ≠ 1728) :
    ∃ a b, curveJ j = some (a, b) ∧ ∃ _ : (EC a b).IsElliptic, (EC a b).j = j := by
  have hne : (1728 : K) - j ≠ 0 := sub_ne_zero.2 (Ne.symm h1)
  obtain ⟨k, hk⟩ : ∃ k, k = (1728 - j)⁻¹ * j := ⟨_, rfl⟩
  refine ⟨k + (k + k), k + k, by
    unfold curveJ; simp only [Int.cast_ofNat, inv_ne hne, hk], ?_⟩
  have hk' : k * (1728 - j) = j := by rw [hk]; field_simp
  have hk0 : k ≠ 0 := hk ▸ mul_ne_zero (inv_ne_zero hne) h0
  have hΔ : (EC (k + (k + k)) (k + k)).Δ = -(1728 * (k ^ 2 * (k + 1))) := by
    simp only [EC, WeierstrassCurve.Δ, WeierstrassCurve.b₂, WeierstrassCurve.b₄,
      WeierstrassCurve.b₆, WeierstrassCurve.b₈]
    ring
  have h1728 : (1728 : K) ≠ 0 := by
    have : (1728 : K) = 2 ^ 6 * 3 ^ 3 := by norm_num
    rw [this]
    exact mul_ne_zero (pow_ne_zero _ h2) (pow_ne_zero _ h3)
  have hk1 : k + 1 ≠ 0 := by
    intro h
    have : (1728 : K) = (k + 1) * (1728 - j) := by linear_combination -hk'
    rw [h, zero_mul] at this
    exact h1728 this
  have hΔ0 : (EC (k + (k + k)) (k + k)).Δ ≠ 0 := by
    rw [hΔ]
    exact neg_ne_zero.2 (mul_ne_zero h1728 (mul_ne_zero (pow_ne_zero 2 hk0) hk1))
  refine ⟨⟨isUnit_iff_ne_zero.2 hΔ0⟩, ?_⟩
  rw [WeierstrassCurve.j, Units.val_inv_eq_inv_val, WeierstrassCurve.coe_Δ', hΔ]
  have hc4 : (EC (k + (k + k)) (k + k)).c₄ ^ 3 = -(1728 ^ 2 * k ^ 3) := by
    simp only [EC, WeierstrassCurve.c₄, WeierstrassCurve.b₂, WeierstrassCurve.b₄]
    ring
  rw [hc4]
  have hj : j = 1728 * k / (k + 1) := by
    field_simp
    linear_combination -hk'
  rw [hj]
  field_simp

/-- **C41**, the twist by `v`: same invariant, and if `K` contains `w` with `w² = v` (take `K` to be
the quadratic extension) the map `(x, y) ↦ (v x, v w y)` takes the points of the curve exactly to
those of the twist. -/
theorem C41_twist {v a b : K} (hv : v ≠ 0) :
    ((EC (twist v a b).1 (twist v a b).2).Δ = v ^ 6 * (EC a b).Δ) ∧
    (∀ (_ : (EC a b).IsElliptic) (_ : (EC (twist v a b).1 (twist v a b).2).IsElliptic),
      (EC (twist v a b).1 (twist v a b).2).j = (EC a b).j) ∧
    (∀ w x y : K, w ^ 2 = v → (OnCurve a b ⟨false, x, y⟩ ↔
      OnCurve (twist v a b).1 (twist v a b).2 ⟨false, v * x, v * w * y⟩)) := by
  have hΔ : (EC (twist v a b).1 (twist v a b).2).Δ = v ^ 6 * (EC a b).Δ := by
    simp only [twist, EC, WeierstrassCurve.Δ, WeierstrassCurve.b₂, WeierstrassCurve.b₄,
      WeierstrassCurve.b₆, WeierstrassCurve.b₈]
    ring
  have hc : (EC (twist v a b).1 (twist v a b).2).c₄ ^ 3 = v ^ 6 * (EC a b).c₄ ^ 3 := by
    simp only [twist, EC, WeierstrassCurve.c₄, WeierstrassCurve.b₂, WeierstrassCurve.b₄]
    ring
  refine ⟨hΔ, ?_, ?_⟩
  · intro i1 i2
    rw [WeierstrassCurve.j, WeierstrassCurve.j, Units.val_inv_eq_inv_val, Units.val_inv_eq_inv_val,
      WeierstrassCurve.coe_Δ', WeierstrassCurve.coe_Δ', hΔ, hc]
    have : v ^ 6 ≠ 0 := pow_ne_zero _ hv
    rw [mul_inv, mul_mul_mul_comm, inv_mul_cancel₀ this, one_mul]
  · intro w x y hw
    simp only [OnCurve, twist, Bool.false_eq_true, false_or]
    have e : v ^ 3 ≠ 0 := pow_ne_zero 3 hv
    rw [show (v * w * y) ^ 2 = v ^ 3 * y ^ 2 by rw [← hw]; ring,
      show (v * x) ^ 3 + a * v * v * (v * x) + b * v * v * v = v ^ 3 * (x ^ 3 + a * x + b) by ring,
      mul_right_inj' e]

example : ∃ a b, curveJ (5 : ℚ) = some (a, b) ∧ ∃ _ : (EC a b).IsElliptic, (EC a b).j = 5 :=
  C41_curve_j (by norm_num) (by norm_num) 5 (by norm_num) (by norm_num)

end orders

end Props
