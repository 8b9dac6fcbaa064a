import Verif.Lemmas.Poly
import Verif.Props.Quadratic

/-!
# Properties of polynomial rings: C28, C29, C30, C73, C74
-/

set_option autoImplicit false
set_option linter.unusedSectionVars false

namespace Props

open Pbc Pbc.Poly Polynomial Spec
open Pbc.Quad (inv? Codec RoundTrip)

variable {R : Type*} [CommRing R] [DecidableEq R]

/-- **C28**: starting from normalised arrays, any sequence of calls (whatever arguments coincide)
computes in `R[X]` and keeps every array normalised.  The only restriction is that multiplications by
an integer do not annihilate (see **C73** for what happens otherwise). -/
theorem C28_program [Nontrivial R] (prog : List (PolyOp R)) (hok : ∀ o ∈ prog, o.ok)
    (m : Mem R) (s : ℕ → R[X]) (h : PolyRep m s) :
    PolyRep (prog.foldl exec m) (polyRun s prog) := by
  unfold polyRun
  induction prog generalizing m s with
  | nil => exact h
  | cons o prog ih =>
    exact ih (fun x hx => hok x (List.mem_cons_of_mem _ hx)) _ _
      (exec_rep o (hok o List.mem_cons_self) m s h)

/-- **C28**: every single operation named in the property, for arbitrary (even unnormalised) arrays
and arbitrary coincidences of the arguments: the result stands for the right polynomial, nothing else
changes, and the result has no leading zero (for `neg`: if the argument has none). -/
theorem C28_operations (m : Mem R) (c a b : ℕ) (r : R) :
    (toPoly (add m c a b c) = toPoly (m a) + toPoly (m b) ∧ Normal (add m c a b c)
      ∧ ∀ e, e ≠ c → add m c a b e = m e)
    ∧ (toPoly (sub m c a b c) = toPoly (m a) - toPoly (m b) ∧ Normal (sub m c a b c)
      ∧ ∀ e, e ≠ c → sub m c a b e = m e)
    ∧ (toPoly (neg m c a c) = - toPoly (m a) ∧ (Normal (m a) → Normal (neg m c a c))
      ∧ ∀ e, e ≠ c → neg m c a e = m e)
    ∧ (toPoly (mul m c a b c) = toPoly (m a) * toPoly (m b) ∧ Normal (mul m c a b c)
      ∧ ∀ e, e ≠ c → mul m c a b e = m e)
    ∧ (toPoly (constMul m c r a c) = C r * toPoly (m a) ∧ Normal (constMul m c r a c)
      ∧ ∀ e, e ≠ c → constMul m c r a e = m e) :=
  ⟨⟨(add_spec m c a b).1.1, (add_spec m c a b).2, (add_spec m c a b).1.2⟩,
    ⟨(sub_spec m c a b).1.1, (sub_spec m c a b).2, (sub_spec m c a b).1.2⟩,
    ⟨(neg_spec m c a).1.1, (neg_spec m c a).2, (neg_spec m c a).1.2⟩,
    ⟨(mul_spec m c a b).1.1, (mul_spec m c a b).2, (mul_spec m c a b).1.2⟩,
    ⟨(constMul_spec m c r a).1.1, (constMul_spec m c r a).2, (constMul_spec m c r a).1.2⟩⟩

/-- **C28**: on normalised arrays the tests and the degree are right. -/
theorem C28_tests [Nontrivial R] (f g : List R) (hf : Normal f) (hg : Normal g) :
    (is0 f = true ↔ toPoly f = 0) ∧ (is1 f = true ↔ toPoly f = 1)
    ∧ (Poly.cmp f g = false ↔ toPoly f = toPoly g)
    ∧ (Poly.degree f = if toPoly f = 0 then -1 else ((toPoly f).natDegree : ℤ))
    ∧ ∀ i, f.getD i 0 = (toPoly f).coeff i := by
  refine ⟨?_, ?_, ?_, ?_, fun i => (toPoly_coeff f i).symm⟩
  · rw [toPoly_eq_zero hf]
    simp [is0]
  · have h1 : toPoly [(1 : R)] = 1 := by simp [toPoly_cons, toPoly_nil]
    have h2 : Normal [(1 : R)] := by simp [Normal]
    constructor
    · intro h
      unfold is1 at h
      split at h
      next hl =>
        rw [← h1]
        congr 1
        apply list_ext hl
        intro i hi
        have : i = 0 := by omega
        subst this
        simpa using h
      next hl => simp at h
    · intro h
      have := eq_of_toPoly_eq hf h2 (h.trans h1.symm)
      subst this
      simp [is1]
  · constructor
    · intro h
      unfold Poly.cmp at h
      split at h
      next hl => simp at h
      next hl =>
        push Not at hl
        congr 1
        apply list_ext hl
        intro i hi
        rw [List.any_eq_false] at h
        simpa using h i (by simpa using hi)
    · intro h
      have := eq_of_toPoly_eq hf hg h
      subst this
      simp [Poly.cmp]
  · split
    next h =>
      rw [(toPoly_eq_zero hf).mp h]
      rfl
    next h =>
      have := natDegree_eq hf (fun e => h ((toPoly_eq_zero hf).mpr e))
      rw [Poly.degree]
      omega

/-- **C28**, sign: with an odd coefficient sign vanishing only at 0, the sign of a normalised
polynomial is odd and vanishes only at 0. -/
theorem C28_sign (s : R → ℤ) (hodd : ∀ x, s (-x) = - s x) (hz : ∀ x, s x = 0 ↔ x = 0)
    (f : List R) (hf : Normal f) :
    sgn s (f.map (fun x => -x)) = - sgn s f ∧ (sgn s f = 0 ↔ toPoly f = 0) := by
  constructor
  · clear hf
    induction f with
    | nil => rfl
    | cons x f ih =>
      simp only [List.map, sgn, hodd]
      by_cases h : s x = 0
      · simp [h, ih]
      · simp [h]
  · have key : sgn s f = 0 ↔ ∀ x ∈ f, x = 0 := by
      clear hf
      induction f with
      | nil => simp [sgn]
      | cons x f ih =>
        simp only [sgn]
        by_cases h : s x = 0
        · rw [if_neg (by simpa using h), ih]
          simp [(hz x).mp h]
        · simp [h]
          intro e
          exact absurd ((hz x).mpr e) h
    rw [key]
    constructor
    · intro h
      rw [toPoly_eq_iff]
      intro i
      rw [coeff_zero]
      by_cases hi : i < f.length
      · rw [List.getD_eq_getElem _ _ hi]
        exact h _ (List.getElem_mem hi)
      · exact getD_of_le f (by omega)
    · intro h x hx
      rw [(toPoly_eq_zero hf).mp h] at hx
      simp at hx

/-- (x + 1)(x - 1) - x² + 1 = 0 computed in place over the integers. -/
example : ([PolyOp.setX 0, .set1 1, .add 2 0 1, .sub 3 0 1, .mul 2 2 3, .square 0 0, .sub 2 2 0,
      .add 2 2 1].foldl exec (fun _ => ([] : List ℤ))) 2 = []
    ∧ PolyRep (fun _ => ([] : List ℤ)) (fun _ => 0) := by
  refine ⟨by decide, fun e => ⟨rfl, normal_nil⟩⟩

/-! ## Division and gcd -/

variable {K : Type*} [Field K] [DecidableEq K]

/-- **C29**: division by a nonzero polynomial succeeds, and gives normalised quotient and remainder
with `a = q b + r` and `deg r < deg b`. -/
theorem C29_division (a b : List K) (ha : Normal a) (hb : Normal b) (hb0 : toPoly b ≠ 0) :
    ∃ q r, Poly.div a b = some (q, r) ∧ Normal q ∧ Normal r
      ∧ toPoly a = toPoly q * toPoly b + toPoly r ∧ (toPoly r).degree < (toPoly b).degree := by
  have hbn : b ≠ [] := fun e => hb0 ((toPoly_eq_zero hb).mpr e)
  obtain ⟨q, r, h1, h2, h3, h4, h5⟩ := div_spec a b ha hb hbn
  refine ⟨q, r, h1, h2, h3, h4, ?_⟩
  have : 0 < b.length := List.length_pos_iff.mpr hbn
  rw [degree_eq hb, degree_eq h3, if_neg (show ¬ b.length = 0 by omega)]
  split
  · exact WithBot.bot_lt_coe _
  · exact_mod_cast (show r.length - 1 < b.length - 1 by omega)

/-- **C29**: the quotient and remainder are the ones of Mathlib's Euclidean division. -/
theorem C29_unique (a b : List K) (ha : Normal a) (hb : Normal b) (hb0 : toPoly b ≠ 0) :
    ∃ q r, Poly.div a b = some (q, r) ∧ toPoly q = toPoly a / toPoly b
      ∧ toPoly r = toPoly a % toPoly b := by
  obtain ⟨q, r, h1, _, _, h4, h5⟩ := C29_division a b ha hb hb0
  have hd := EuclideanDomain.div_add_mod (toPoly a) (toPoly b)
  have hm : (toPoly a % toPoly b).degree < (toPoly b).degree :=
    EuclideanDomain.mod_lt (toPoly a) hb0
  have hq : toPoly q = toPoly a / toPoly b := by
    by_contra hne
    have hsub : toPoly q - toPoly a / toPoly b ≠ 0 := sub_ne_zero.mpr hne
    have e : (toPoly q - toPoly a / toPoly b) * toPoly b = toPoly a % toPoly b - toPoly r := by
      linear_combination - hd - h4
    have h6 : ((toPoly q - toPoly a / toPoly b) * toPoly b).degree < (toPoly b).degree := by
      rw [e]
      exact lt_of_le_of_lt (degree_sub_le _ _) (max_lt hm h5)
    rw [degree_mul, degree_eq_natDegree hsub, degree_eq_natDegree hb0] at h6
    have : (toPoly q - toPoly a / toPoly b).natDegree + (toPoly b).natDegree
        < (toPoly b).natDegree := by exact_mod_cast h6
    omega
  refine ⟨q, r, h1, hq, ?_⟩
  rw [hq] at h4
  linear_combination - hd - h4

/-- **C29**: division by zero never returns. -/
theorem C29_zero (a b : List K) (hb : Normal b) : Poly.div a b = none ↔ toPoly b = 0 := by
  constructor
  · intro h
    by_contra hb0
    have hbn : b ≠ [] := fun e => hb0 ((toPoly_eq_zero hb).mpr e)
    unfold Poly.div at h
    rw [if_neg (by simp [is0, hbn])] at h
    dsimp only at h
    split at h
    · simp at h
    · have hlead : b.getD (b.length - 1) 0 ≠ 0 := by
        rcases (normal_iff b).mp hb with h' | h'
        · exact absurd (List.length_eq_zero_iff.mp h') hbn
        · exact h'
      rw [inv?, if_neg hlead] at h
      simp at h
  · intro h
    rw [(toPoly_eq_zero hb).mp h]
    simp [Poly.div, is0]

/-- A division with a remainder over ℚ. -/
example : Poly.div ([3, 2, 0, 1] : List ℚ) [5, 3] = some ([43/27, -5/9, 1/3], [-134/27])
    ∧ Normal ([3, 2, 0, 1] : List ℚ) ∧ Normal ([5, 3] : List ℚ) := by
  refine ⟨by decide +kernel, by simp [Normal], by simp [Normal]⟩

/-- **C30** (partial): if the second argument is nonzero, `poly_gcd` returns a greatest common
divisor.  Missing: the second argument zero, see `C30_zero_fails`. -/
theorem C30_gcd_partial (f g : List K) (hf : Normal f) (hg : Normal g) (hg0 : toPoly g ≠ 0) :
    ∃ d, Poly.gcd f g = some d ∧ Normal d ∧ toPoly d ∣ toPoly f ∧ toPoly d ∣ toPoly g
      ∧ ∀ c, c ∣ toPoly f → c ∣ toPoly g → c ∣ toPoly d := by
  obtain ⟨d, h1, h2, _, h4, h5, h6⟩ := gcdLoop_spec (g.length + 1) f g hf hg
    (fun e => hg0 ((toPoly_eq_zero hg).mpr e)) (by omega)
  exact ⟨d, h1, h2, h4, h5, h6⟩

/-- **C30**: with second argument zero the program dies, though `gcd(f, 0) = f`. -/
theorem C30_zero_fails (f : List K) : Poly.gcd f [] = none := by
  simp [Poly.gcd, gcdLoop, Poly.div, is0]

/-- **C30**: `poly_make_monic`, also in place, divides by the leading coefficient; nonzero input gives
a monic polynomial. -/
theorem C30_make_monic (m : Mem K) (f g : ℕ) (hg : Normal (m g)) :
    ∃ m', makeMonic m f g = some m' ∧ Normal (m' f)
      ∧ toPoly (m' f) = C (toPoly (m g)).leadingCoeff⁻¹ * toPoly (m g)
      ∧ (toPoly (m g) ≠ 0 → (toPoly (m' f)).Monic)
      ∧ ∀ e, e ≠ f → m' e = m e := by
  obtain ⟨m', h1, h2, h3, h4⟩ := makeMonic_spec m f g hg
  refine ⟨m', h1, h2, h3, fun h0 => ?_, h4⟩
  rw [h3, mul_comm]
  exact monic_mul_leadingCoeff_inv h0

/-- **C30**: gcd followed by make_monic is the monic gcd. -/
theorem C30_monic_gcd_partial (f g : List K) (hf : Normal f) (hg : Normal g) (hg0 : toPoly g ≠ 0) :
    ∃ d m', Poly.gcd f g = some d ∧ makeMonic (fun _ => d) 0 0 = some m'
      ∧ (toPoly (m' 0)).Monic ∧ toPoly (m' 0) ∣ toPoly f ∧ toPoly (m' 0) ∣ toPoly g
      ∧ ∀ c, c ∣ toPoly f → c ∣ toPoly g → c ∣ toPoly (m' 0) := by
  obtain ⟨d, h1, h2, h3, h4, h5⟩ := C30_gcd_partial f g hf hg hg0
  obtain ⟨m', e1, _, e3, e4, _⟩ := C30_make_monic (fun _ => d) 0 0 h2
  have hd0 : toPoly d ≠ 0 := by
    intro h
    rw [h] at h4
    exact hg0 (zero_dvd_iff.mp h4)
  have hu : IsUnit (C (toPoly d).leadingCoeff⁻¹) :=
    isUnit_C.mpr (isUnit_iff_ne_zero.mpr (inv_ne_zero (leadingCoeff_ne_zero.mpr hd0)))
  refine ⟨d, m', h1, e1, e4 hd0, ?_, ?_, fun c c1 c2 => ?_⟩
  · rw [e3]; exact (hu.mul_left_dvd).mpr h3
  · rw [e3]; exact (hu.mul_left_dvd).mpr h4
  · rw [e3]; exact Dvd.dvd.mul_left (h5 c c1 c2) _

/-- gcd(x² - 1, x² - 3x + 2) over ℚ, made monic, is x - 1. -/
example : ((Poly.gcd ([-1, 0, 1] : List ℚ) [2, -3, 1]).bind fun d =>
      makeMonic (fun _ => d) 0 0).map (· 0)
      = some [-1, 1]
    ∧ Normal ([-1, 0, 1] : List ℚ) ∧ Normal ([2, -3, 1] : List ℚ) := by
  refine ⟨by decide +kernel, by simp [Normal], by simp [Normal]⟩

/-! ## Multiplication by integers -/

/-- **C73** (partial): doubling and multiplication by an integer are right as polynomials, and keep
arrays normalised if the integer annihilates no coefficient. -/
theorem C73_scalar_partial (m : Mem R) (c a : ℕ) (z : ℤ) :
    toPoly (double m c a c) = 2 * toPoly (m a) ∧ toPoly (mulZ m c a z c) = toPoly (m a) * (z : R[X])
    ∧ ((∀ x : R, 2 * x = 0 → x = 0) → Normal (m a) → Normal (double m c a c))
    ∧ ((∀ x : R, x * (z : R) = 0 → x = 0) → Normal (m a) → Normal (mulZ m c a z c)) :=
  ⟨(double_spec m c a).1.1, (mulZ_spec m c a z).1.1, (double_spec m c a).2, (mulZ_spec m c a z).2⟩

/-- **C73**: if the integer annihilates the leading coefficient, the result keeps a leading zero.  If
it annihilates every coefficient of a nonzero polynomial, the result stands for 0 but is reported to be
different from 0, and dividing by it inverts zero. -/
theorem C73_scalar_fails (m : Mem K) (c a : ℕ) (z : ℤ) (ha : Normal (m a)) (ha0 : toPoly (m a) ≠ 0)
    (hz : (z : K) = 0) (e : List K) (he : (m a).length ≤ e.length) :
    toPoly (mulZ m c a z c) = 0 ∧ is0 (mulZ m c a z c) = false
    ∧ Poly.cmp (mulZ m c a z c) [] = true ∧ Poly.div e (mulZ m c a z c) = none := by
  have h1 := (mapLoop_get (fun x : K => x * (z : K)) m c a).1
  have h2 : mulZ m c a z c = (m a).map (fun x => x * (z : K)) := h1
  have hne : m a ≠ [] := fun e => ha0 ((toPoly_eq_zero ha).mpr e)
  have hlen : 0 < (m a).length := List.length_pos_iff.mpr hne
  refine ⟨?_, ?_, ?_, ?_⟩
  · rw [(mulZ_spec m c a z).1.1, ← map_intCast (C : K →+* K[X]), hz]
    simp
  · rw [h2]
    simp [is0, hne]
  · rw [h2]
    simp [Poly.cmp, hne]
  · rw [h2]
    unfold Poly.div
    rw [if_neg (by simp [is0, hne])]
    dsimp only
    rw [if_neg (by rw [List.length_map]; omega), map_getD _ (by simp), hz, mul_zero]
    simp [inv?]

/-- 2 times 1 in characteristic two. -/
example : mulZ (fun _ => ([1] : List (ZMod 2))) 0 1 2 0 = [0] := by decide

/-! ## Bytes -/

theorem fromLoop_enc {A : Type*} (c : Codec A) (L : ℕ) (h : RoundTrip c L) (l : List A)
    (rest : List ℕ) (n : ℕ) :
    fromLoop c l.length (l.flatMap c.enc ++ rest) n = (l, n + l.length * L) := by
  induction l generalizing n with
  | nil => simp [fromLoop]
  | cons x l ih =>
    obtain ⟨h1, _, h3⟩ := h x (l.flatMap c.enc ++ rest)
    simp only [List.flatMap_cons, List.length_cons, fromLoop, List.append_assoc]
    rw [h3]
    dsimp only
    rw [List.drop_append_of_le_length (by omega), ← h1, List.drop_length, List.nil_append, ih, h1]
    simp only [Prod.mk.injEq, true_and]
    ring

/-- **C74** (partial): if the coefficient encoding round trips, a polynomial with fewer than 65536
coefficients round trips, and both directions report `2 + L·count` bytes.  Missing: longer polynomials,
see `C74_length_fails`. -/
theorem C74_round_trip_partial {A : Type*} (c : Codec A) (L : ℕ) (h : RoundTrip c L) (l : List A)
    (hl : l.length < 65536) (rest : List ℕ) :
    fromBytes c (Poly.toBytes c l ++ rest) = (l, 2 + l.length * L)
    ∧ (Poly.toBytes c l).length = 2 + l.length * L ∧ ∀ b ∈ Poly.toBytes c l, b < 256 := by
  have hcount : l.length % 256 + l.length / 256 % 256 * 256 = l.length := by omega
  refine ⟨?_, ?_, ?_⟩
  · simp only [fromBytes, Poly.toBytes, List.cons_append, List.nil_append, List.getD_cons_zero,
      List.getD_cons_succ, List.drop_succ_cons, List.drop_zero]
    rw [hcount, fromLoop_enc c L h]
  · simp only [Poly.toBytes, List.length_append, List.length_flatMap]
    rw [show (fun a => (c.enc a).length) = fun _ => L from funext fun x => (h x []).1]
    simp
  · intro b hb
    simp only [Poly.toBytes, List.mem_append, List.mem_flatMap] at hb
    rcases hb with hb | ⟨x, _, hb⟩
    · simp at hb
      omega
    · exact (h x []).2.1 b hb

/-- **C74**: a polynomial with at least 65536 coefficients never round trips: the count is stored in
two bytes. -/
theorem C74_length_fails {A : Type*} (c : Codec A) (l : List A) (hl : 65536 ≤ l.length) :
    (fromBytes c (Poly.toBytes c l)).1 ≠ l := by
  have hlen : ∀ k data n, (fromLoop c k data n).1.length = k := by
    intro k
    induction k with
    | zero => intros; rfl
    | succ k ih => intro data n; simp [fromLoop, ih]
  intro h
  have := congrArg List.length h
  rw [fromBytes, hlen] at this
  simp [Poly.toBytes] at this
  omega

/-- **C74**: `from_bytes` does not normalise: whatever a string of bytes decodes to with a final zero
coefficient stays so. -/
theorem C74_unnormalised {A : Type*} [CommRing A] [DecidableEq A] (c : Codec A) (L : ℕ)
    (h : RoundTrip c L) (l : List A) (hl : l.length < 65535) :
    ¬ Normal (fromBytes c (Poly.toBytes c (l ++ [0]))).1 := by
  have := (C74_round_trip_partial c L h (l ++ [0]) (by simp; omega) []).1
  rw [List.append_nil] at this
  rw [this]
  simp [Normal]

/-- x² + 5 over the field with 1009 elements. -/
example : Poly.toBytes (fpCodec 1009) [5, 0, 1] = [3, 0, 0, 5, 0, 0, 0, 1]
    ∧ RoundTrip (fpCodec 1009) (fpLength 1009) :=
  ⟨by decide +kernel, C27_fp_round_trip 1009⟩

end Props
