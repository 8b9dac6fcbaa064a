import Verif.Model.CmGen
import Verif.Lemmas.CmCurves
import Verif.Lemmas.TraceDiv
import Verif.Props.Curve
import Verif.Props.PolyFactor
import Verif.Props.ParamGen
import Verif.Props.Mnt
import Mathlib.FieldTheory.KummerExtension

/-!
# The curves and fields of generated parameters: C111 (types D and G), C112 (type F), C113 (type E)
-/

set_option autoImplicit false
set_option linter.unusedSectionVars false

namespace Props

open Pbc Pbc.Curve Pbc.CmGen Spec

section point

variable {F : Type*} [Field F] [DecidableEq F]

theorem rep_inf {a b : F} {p : Pt F} {P : (EC a b).Point} (h : PtRep p P) : p.inf = true ↔ P = 0 := by
  cases P with
  | zero => exact ⟨fun _ => rfl, fun _ => h⟩
  | some x y hp =>
    constructor
    · intro hi
      have := h.1
      rw [hi] at this
      cases this
    · intro h0
      cases h0

theorem noCofac_spec {a b : F} (h2 : (2 : F) ≠ 0) (hD : 4 * a ^ 3 + 27 * b ^ 2 ≠ 0) {isSqr : F → Bool}
    (hs : ∀ a, isSqr a = true ↔ IsSquare a) {sq : F → F} (hsq : ∀ a, IsSquare a → sq a ^ 2 = a) :
    ∀ (draws : List F) (g : Pt F), randomNoCofac isSqr sq a b draws = some g →
      ∃ G : (EC a b).Point, PtRep g G ∧ G ≠ 0 := by
  intro draws g hg
  obtain ⟨h, -⟩ := C39_random h2 hD isSqr hs sq hsq none draws g
  obtain ⟨G, hG⟩ := h (by simp [randomSolve, hg])
  rw [Option.getD_none, one_smul] at hG
  refine ⟨G, hG, ?_⟩
  rw [Ne, ← rep_inf hG]
  induction draws with
  | nil => cases hg
  | cons x rest ih =>
    rw [randomNoCofac] at hg
    by_cases h1 : isSqr (rhs a b x) = true
    · rw [if_pos h1] at hg
      cases hg
      simp
    · rw [if_neg h1] at hg
      exact ih hg (by intro h'; exact ⟨G, by rw [Option.getD_none, one_smul]; exact hG⟩)

/-- The square roots taken while `draws` are tried as abscissas are right.  (`element_sqrt` of a quadratic extension is
wrong on elements of the base field, C26, so this is asked only of the elements it is called on.) -/
def Roots (isSqr : F → Bool) (sq : F → F) (a b : F) (draws : List F) : Prop :=
  ∀ u ∈ draws, isSqr (rhs a b u) = true → sq (rhs a b u) ^ 2 = rhs a b u

theorem roots_all {isSqr : F → Bool} (hs : ∀ a, isSqr a = true ↔ IsSquare a) {sq : F → F}
    (hsq : ∀ a, IsSquare a → sq a ^ 2 = a) (a b : F) (draws : List F) : Roots isSqr sq a b draws :=
  fun _ _ hu => hsq _ ((hs _).1 hu)

theorem noCofac_roots {a b : F} (h2 : (2 : F) ≠ 0) (hD : 4 * a ^ 3 + 27 * b ^ 2 ≠ 0) {isSqr : F → Bool} {sq : F → F} :
    ∀ (draws : List F) (_ : Roots isSqr sq a b draws) (g : Pt F), randomNoCofac isSqr sq a b draws = some g →
      ∃ G : (EC a b).Point, PtRep g G ∧ G ≠ 0
  | [], _, g, h => by cases h
  | x :: rest, hr, g, h => by
    rw [randomNoCofac] at h
    split_ifs at h with h1
    · cases h
      obtain ⟨R, hR⟩ := (Props.onCurve_iff_rep h2 hD ⟨false, x, sq (rhs a b x)⟩).1 (.inr (by
        change sq (rhs a b x) ^ 2 = _
        rw [hr x (by simp) h1, rhs]; ring))
      exact ⟨R, hR, by rw [Ne, ← rep_inf hR]; simp⟩
    · exact noCofac_roots h2 hD rest (fun u hu => hr u (List.mem_cons_of_mem _ hu)) g h

theorem randomPoint_spec {a b : F} (h2 : (2 : F) ≠ 0) (hD : 4 * a ^ 3 + 27 * b ^ 2 ≠ 0) {isSqr : F → Bool}
    {sq : F → F} {draws : List F} (hr : Roots isSqr sq a b draws) {x : ℕ} {p : Pt F}
    (h : randomPoint isSqr sq a b draws x = some p) :
    ∃ P : (EC a b).Point, PtRep p P := by
  rw [randomPoint] at h
  cases hg : randomNoCofac isSqr sq a b draws with
  | none => rw [hg] at h; cases h
  | some g =>
    rw [hg] at h
    obtain ⟨G, hG, -⟩ := noCofac_roots h2 hD draws hr g hg
    obtain ⟨r, h3, h4⟩ := pow_rep h2 hG x
    dsimp only at h
    rw [randomPointMul, h3] at h
    cases h
    exact ⟨_, h4⟩

theorem scalar_spec {a b : F} (h2 : (2 : F) ≠ 0) {p : Pt F} {P : (EC a b).Point} (hP : PtRep p P) (n : ℕ) :
    ∃ r, scalar a p n = some r ∧ PtRep r (n • P) := pow_rep h2 hP n

theorem genNqr_spec {isSqr : F → Bool} (hs : ∀ a, isSqr a = true ↔ IsSquare a) :
    ∀ (l : List F) (v : F), genNqr isSqr l = some v → ¬ IsSquare v := by
  intro l
  induction l with
  | nil => intro v h; cases h
  | cons x rest ih =>
    intro v h
    rw [genNqr] at h
    by_cases h1 : isSqr x = true
    · rw [if_pos h1] at h; exact ih v h
    · rw [if_neg h1] at h
      cases h
      rwa [hs] at h1

/-- The result of the twist test. -/
theorem twistTest_spec {a b : F} (h2 : (2 : F) ≠ 0) (hD : 4 * a ^ 3 + 27 * b ^ 2 ≠ 0) {isSqr : F → Bool}
    (hs : ∀ a, isSqr a = true ↔ IsSquare a) {sq : F → F} (hsq : ∀ a, IsSquare a → sq a ^ 2 = a)
    {nqr : F} {n : ℕ} {draws : List F} {x : ℕ} {ab : F × F}
    (h : twistTest isSqr sq nqr n a b draws x = some ab) :
    ∃ (p : Pt F) (P : (EC a b).Point), randomPoint isSqr sq a b draws x = some p ∧ PtRep p P ∧
      ab = if n • P = 0 then (a, b) else twist nqr a b := by
  rw [twistTest] at h
  cases hp : randomPoint isSqr sq a b draws x with
  | none => rw [hp] at h; cases h
  | some p =>
    rw [hp] at h
    obtain ⟨P, hP⟩ := randomPoint_spec h2 hD (roots_all hs hsq _ _ _) hp
    obtain ⟨r, h3, h4⟩ := scalar_spec h2 hP n
    dsimp only at h
    rw [h3] at h
    refine ⟨p, P, rfl, hP, ?_⟩
    cases h
    by_cases h0 : n • P = 0
    · rw [if_pos h0, if_pos ((rep_inf h4).2 h0)]
    · rw [if_neg h0, if_neg (mt (rep_inf h4).1 h0)]

end point

/-! ### Type E -/

section typeE

variable {F : Type*} [Field F] [DecidableEq F] [Fintype F]

theorem typeE_consts {m : ℕ} (hp : (Fintype.card F).Prime) (hq : Fintype.card F = 3 * m ^ 2 + 1) :
    (2 : F) ≠ 0 ∧ (3 : F) ≠ 0 := by
  have hm : m ≠ 0 := by
    rintro rfl
    rw [hq] at hp
    exact Nat.not_prime_one hp
  have hcp : CharP F (Fintype.card F) := by
    obtain ⟨p, hc⟩ := CharP.exists F
    obtain ⟨n, hpp, hn⟩ := FiniteField.card F p
    have hn1 : (n : ℕ) = 1 := by
      rw [hn] at hp
      exact (Nat.Prime.eq_one_of_pow hp)
    rw [hn, hn1, pow_one]
    exact hc
  have h4 : 4 ≤ Fintype.card F := by
    have : 1 ≤ m ^ 2 := Nat.one_le_iff_ne_zero.2 (pow_ne_zero 2 hm)
    omega
  constructor
  · intro h
    have := (CharP.cast_eq_zero_iff F (Fintype.card F) 2).1 (by exact_mod_cast h)
    have := Nat.le_of_dvd (by norm_num) this
    omega
  · intro h
    have := (CharP.cast_eq_zero_iff F (Fintype.card F) 3).1 (by exact_mod_cast h)
    have := Nat.le_of_dvd (by norm_num) this
    omega

/-- **C113.**  In the prime field with `q = 3 m² + 1` elements the code always keeps the curve
`y² = x³ + 1`, whatever is drawn, and this curve has exactly the `q - 1` points intended. -/
theorem C113_curve {m : ℕ} (hp : (Fintype.card F).Prime) (hq : Fintype.card F = 3 * m ^ 2 + 1)
    {isSqr : F → Bool} (hs : ∀ a, isSqr a = true ↔ IsSquare a) {sq : F → F}
    (hsq : ∀ a, IsSquare a → sq a ^ 2 = a) (nqr : F) (draws : List F) (x : ℕ) :
    (∀ a b, eCurve isSqr sq nqr (Fintype.card F - 1) draws x = some (a, b) →
      (a = 0 ∧ b = 1) ∧ Nat.card (EC a b).Point = Fintype.card F - 1) ∧
    ((∃ u ∈ draws, IsSquare (u ^ 3 + 1)) →
      ∃ ab, eCurve isSqr sq nqr (Fintype.card F - 1) draws x = some ab) := by
  obtain ⟨h2, h3⟩ := typeE_consts hp hq
  have hD : 4 * (0 : F) ^ 3 + 27 * 1 ^ 2 ≠ 0 := by
    rw [show 4 * (0 : F) ^ 3 + 27 * 1 ^ 2 = 3 ^ 3 by norm_num]
    exact pow_ne_zero _ h3
  have hcard : Nat.card (EC (0 : F) 1).Point = Fintype.card F - 1 := by
    have := Tate.card_typeE hp hq
    omega
  constructor
  · intro a b h
    obtain ⟨p, P, -, -, h4⟩ := twistTest_spec h2 hD hs hsq h
    have hP : (Fintype.card F - 1) • P = 0 := by rw [← hcard]; exact card_nsmul_eq_zero'
    rw [if_pos hP] at h4
    cases h4
    exact ⟨⟨rfl, rfl⟩, hcard⟩
  · intro hu
    have hg : ∃ g, randomNoCofac isSqr sq 0 1 draws = some g := by
      induction draws with
      | nil => simp at hu
      | cons y rest ih =>
        rw [randomNoCofac]
        by_cases h1 : isSqr (rhs 0 1 y) = true
        · exact ⟨_, if_pos h1⟩
        · rw [if_neg h1]
          refine ih ?_
          obtain ⟨u, hm, hu⟩ := hu
          rcases List.mem_cons.1 hm with rfl | hm
          · rw [hs] at h1
            refine absurd ?_ h1
            rw [rhs, show (u ^ 2 + 0) * u + 1 = u ^ 3 + 1 by ring]
            exact hu
          · exact ⟨u, hm, hu⟩
    obtain ⟨g, hg⟩ := hg
    obtain ⟨G, hG, -⟩ := noCofac_spec h2 hD hs hsq draws g hg
    obtain ⟨r, h4, h5⟩ := pow_rep h2 hG x
    obtain ⟨r', h6, h7⟩ := scalar_spec h2 h5 (Fintype.card F - 1)
    refine ⟨if r'.inf then (0, 1) else twist nqr 0 1, ?_⟩
    rw [eCurve, twistTest, randomPoint, hg]
    dsimp only
    rw [randomPointMul, h4]
    dsimp only
    rw [h6]

/-- **C113**, with the numbers that `pbc_param_init_e_gen` chooses: when the primality test is right, the
curve recorded is `y² = x³ + 1`; it has `h r²` points. -/
theorem C113_typeE {pp : ℤ → Bool} {rand : ℕ → ℕ} {mrand : ℕ → ℕ → ℕ} {fuel rbits : ℕ} {qbits : ℤ}
    {res : ParamGen.Result} (hpp : ParamGen.Sound pp) (hm : ∀ c l, 0 < l → mrand c l < l)
    (h : ParamGen.eGen pp rand mrand fuel rbits qbits = some res) (hF : (Fintype.card F : ℤ) = res.q)
    {isSqr : F → Bool} (hs : ∀ a, isSqr a = true ↔ IsSquare a) {sq : F → F}
    (hsq : ∀ a, IsSquare a → sq a ^ 2 = a) (nqr : F) (draws : List F) (x : ℕ) (a b : F)
    (he : eCurve isSqr sq nqr (res.h * res.r ^ 2).toNat draws x = some (a, b)) :
    (a = 0 ∧ b = 1) ∧ (Nat.card (EC a b).Point : ℤ) = res.h * res.r ^ 2 := by
  have h1 : pp 1 = false := by
    rw [Bool.eq_false_iff]
    intro h1
    exact Nat.not_prime_one (hpp 1 h1)
  obtain ⟨-, -, h3, ⟨s, -, h4, -⟩, -, h5⟩ := ParamGen.C56_typeE hm h1 h
  have hprime := hpp _ h5
  rw [← hF, Int.natAbs_natCast] at hprime
  have hq : Fintype.card F = 3 * (s * res.r.natAbs) ^ 2 + 1 := by
    have : (Fintype.card F : ℤ) = 3 * ((s * res.r.natAbs : ℕ) : ℤ) ^ 2 + 1 := by
      rw [hF, h3, h4]
      push_cast
      rw [mul_pow, sq_abs]
      ring
    exact_mod_cast this
  have hn : res.h * res.r ^ 2 = ((Fintype.card F - 1 : ℕ) : ℤ) := by
    rw [Nat.cast_sub Fintype.card_pos, hF, h3]; push_cast; ring
  rw [hn, Int.toNat_natCast] at he
  rw [hn]
  obtain ⟨h6, h7⟩ := (C113_curve hprime hq hs hsq nqr draws x).1 a b he
  exact ⟨h6, by rw [h7]⟩

/-- Square roots modulo 13. -/
def root13 (a : ZMod 13) : ZMod 13 :=
  (((List.range 13).map fun i : ℕ => (i : ZMod 13)).find? fun y => decide (y ^ 2 = a)).getD 0

/-- Type E with `q = 13 = 3 · 2² + 1`. -/
example : eCurve (fun a : ZMod 13 => decide (IsSquare a)) root13 2 12 [1, 4] 5 = some (0, 1) := by decide +kernel

end typeE

/-! ### Type F -/

section typeF

open Polynomial in
theorem irreducible_fifth' {K L : Type*} [Field K] [Field L] [Algebra K L] {α : K} (hα0 : α ≠ 0)
    (h : Irreducible (X ^ 6 + C α : K[X])) {θ : L} (hθ : θ ^ 6 = -algebraMap K L α) :
    Irreducible (X ^ 6 + C (α ^ 5) : K[X]) := by
  have hm : (X ^ 6 + C α : K[X]).Monic := monic_X_pow_add_C _ (by norm_num)
  have hm5 : (X ^ 6 + C (α ^ 5) : K[X]).Monic := monic_X_pow_add_C _ (by norm_num)
  have hα' : algebraMap K L α ≠ 0 := (_root_.map_ne_zero _).2 hα0
  have hθ0 : θ ≠ 0 := by
    intro h0
    rw [h0, zero_pow (by norm_num)] at hθ
    exact hα' (neg_eq_zero.1 hθ.symm)
  have i1 : IsIntegral K θ := ⟨_, hm, by
    rw [eval₂_add, eval₂_X_pow, eval₂_C, hθ]; exact neg_add_cancel _⟩
  have hη : (θ ^ 5) ^ 6 + algebraMap K L (α ^ 5) = 0 := by
    rw [← pow_mul, show 5 * 6 = 6 * 5 from rfl, pow_mul, hθ, map_pow]
    ring
  have i2 : IsIntegral K (θ ^ 5) := ⟨_, hm5, by rw [eval₂_add, eval₂_X_pow, eval₂_C]; exact hη⟩
  have e : IntermediateField.adjoin K {θ ^ 5} = IntermediateField.adjoin K {θ} := by
    refine le_antisymm ?_ ?_
    · rw [IntermediateField.adjoin_simple_le_iff]
      exact pow_mem (IntermediateField.mem_adjoin_simple_self K θ) 5
    · rw [IntermediateField.adjoin_simple_le_iff]
      have : θ = -algebraMap K L α * (θ ^ 5)⁻¹ := by
        rw [← hθ]; field_simp
      have hmem := IntermediateField.mem_adjoin_simple_self K (θ ^ 5)
      generalize θ ^ 5 = η at hmem this
      rw [this]
      exact IntermediateField.mul_mem _ (IntermediateField.neg_mem _ (IntermediateField.algebraMap_mem _ _))
        (IntermediateField.inv_mem _ hmem)
  have d1 := IntermediateField.adjoin.finrank i1
  have d2 := IntermediateField.adjoin.finrank i2
  have hmin : X ^ 6 + C α = minpoly K θ := minpoly.eq_of_irreducible_of_monic h (by
    rw [map_add, map_pow, aeval_X, aeval_C, hθ, neg_add_cancel]) hm
  rw [e, d1, ← hmin, natDegree_X_pow_add_C] at d2
  have hdvd : minpoly K (θ ^ 5) ∣ X ^ 6 + C (α ^ 5) := minpoly.dvd _ _ (by
    rw [map_add, map_pow, aeval_X, aeval_C]; exact hη)
  rw [eq_of_monic_of_dvd_of_natDegree_le (minpoly.monic i2) hm5 hdvd (by rw [← d2, natDegree_X_pow_add_C])]
  exact minpoly.irreducible i2

open Polynomial in
theorem ne_zero_of_irreducible {K : Type*} [Field K] {α : K} (h : Irreducible (X ^ 6 + C α : K[X])) : α ≠ 0 := by
  rintro rfl
  rw [map_zero, add_zero] at h
  exact (Polynomial.prime_X.not_isUnit) ((h.isUnit_or_isUnit (show (X ^ 6 : K[X]) = X * X ^ 5 by ring)).resolve_right
    (by
      intro hu
      have := (isUnit_pow_iff (by norm_num)).1 hu
      exact Polynomial.prime_X.not_isUnit this))

open Polynomial in
/-- If `x⁶ + α` is irreducible then so is `x⁶ + α⁵`. -/
theorem irreducible_fifth {K : Type*} [Field K] {α : K} (h : Irreducible (X ^ 6 + C α : K[X])) :
    Irreducible (X ^ 6 + C (α ^ 5) : K[X]) := by
  have hfact := Fact.mk h
  refine irreducible_fifth' (L := AdjoinRoot (X ^ 6 + C α : K[X])) (ne_zero_of_irreducible h) h
    (θ := AdjoinRoot.root (X ^ 6 + C α : K[X])) ?_
  have := AdjoinRoot.eval₂_root (X ^ 6 + C α : K[X])
  rw [eval₂_add, eval₂_X_pow, eval₂_C] at this
  exact eq_neg_of_add_eq_zero_left this

open Polynomial in
/-- If `x⁶ + α` is irreducible then `-α` is neither a square nor a cube. -/
theorem not_power_of_irreducible {K : Type*} [Field K] {α : K} (h : Irreducible (X ^ 6 + C α : K[X])) :
    (∀ c, c ^ 2 ≠ -α) ∧ ∀ c, c ^ 3 ≠ -α := by
  constructor
  · intro c hc
    have e : (X ^ 6 + C α : K[X]) = (X ^ 3 - C c) * (X ^ 3 + C c) := by
      rw [show α = -c ^ 2 by rw [hc, neg_neg]]
      simp only [map_neg, map_pow]
      ring
    rcases h.isUnit_or_isUnit e with hu | hu
    · have := natDegree_eq_zero_of_isUnit hu
      rw [natDegree_X_pow_sub_C] at this
      omega
    · have := natDegree_eq_zero_of_isUnit hu
      rw [natDegree_X_pow_add_C] at this
      omega
  · intro c hc
    have e : (X ^ 6 + C α : K[X]) = (X ^ 2 - C c) * (X ^ 4 + C c * X ^ 2 + C c ^ 2) := by
      rw [show α = -c ^ 3 by rw [hc, neg_neg]]
      simp only [map_neg, map_pow]
      ring
    rcases h.isUnit_or_isUnit e with hu | hu
    · have := natDegree_eq_zero_of_isUnit hu
      rw [natDegree_X_pow_sub_C] at this
      omega
    · have := natDegree_eq_zero_of_isUnit hu
      have e4 : (X ^ 4 + C c * X ^ 2 + C c ^ 2 : K[X]).natDegree = 4 := by compute_degree!
      rw [e4] at this
      omega

open Polynomial in
/-- `x⁶ - a` is irreducible when `a` is neither a square nor a cube. -/
theorem irreducible_of_not_power {K : Type*} [Field K] {a : K} (h2 : ∀ c, c ^ 2 ≠ a) (h3 : ∀ c, c ^ 3 ≠ a) :
    Irreducible (X ^ 6 - C a : K[X]) := by
  have := X_pow_mul_sub_C_irreducible (n := 2) (m := 3) (X_pow_sub_C_irreducible_of_prime Nat.prime_three h3) (by
    intro E _ _ x hx
    have hint : IsIntegral K x := not_not.mp fun h ↦ by
      simpa only [degree_zero, degree_X_pow_sub_C (show 0 < 3 by norm_num),
        WithBot.natCast_ne_bot] using congr_arg degree (hx.symm.trans (dif_neg h))
    refine X_pow_sub_C_irreducible_of_prime Nat.prime_two fun b hb => h2 (Algebra.norm _ b) ?_
    rw [← map_pow, hb, ← IntermediateField.adjoin.powerBasis_gen hint,
      Algebra.PowerBasis.norm_gen_eq_coeff_zero_minpoly]
    simp [IntermediateField.minpoly_gen, hx]
    ring)
  exact this

open Polynomial in
theorem alphaLoop_spec {K : Type*} [Field K] [DecidableEq K] [Fintype K] :
    ∀ (l : List K) (α : K), alphaLoop (Fintype.card K) l = some α → Irreducible (X ^ 6 + C α : K[X]) := by
  intro l
  induction l with
  | nil => intro α h; cases h
  | cons a rest ih =>
    intro α h
    rw [alphaLoop] at h
    obtain ⟨b, h1, h2⟩ := C78_irreducible [a, 0, 0, 0, 0, 0, 1] (by simp [Spec.Normal]) (by simp)
    rw [h1] at h
    cases b with
    | false => exact ih α h
    | true =>
      cases h
      have := h2.1 rfl
      simp only [Poly.toPoly_cons, Poly.toPoly_nil] at this
      convert this using 1
      simp
      ring

open Polynomial in
/-- **C112**, the search for `α`: it stops at the first value drawn whose negative is neither a square nor a
cube, and such values exist in a field of `6 m + 1` elements. -/
theorem C112_alpha {K : Type*} [Field K] [DecidableEq K] [Fintype K] :
    (∀ (α : K) rest, alphaLoop (Fintype.card K) (α :: rest) =
      if (∀ c, c ^ 2 ≠ -α) ∧ (∀ c, c ^ 3 ≠ -α) then some α else alphaLoop (Fintype.card K) rest) ∧
    (6 ∣ Fintype.card K - 1 → ∃ α : K, (∀ c, c ^ 2 ≠ -α) ∧ ∀ c, c ^ 3 ≠ -α) := by
  constructor
  · intro α rest
    have hiff : ((∀ c, c ^ 2 ≠ -α) ∧ ∀ c, c ^ 3 ≠ -α) ↔ Irreducible (X ^ 6 + C α : K[X]) := by
      refine ⟨fun ⟨h2, h3⟩ => ?_, not_power_of_irreducible⟩
      have := irreducible_of_not_power h2 h3
      rwa [map_neg, sub_neg_eq_add] at this
    rw [alphaLoop]
    obtain ⟨b, h1, h2⟩ := C78_irreducible [α, 0, 0, 0, 0, 0, 1] (by simp [Spec.Normal]) (by simp)
    have e : (Spec.toPoly [α, 0, 0, 0, 0, 0, 1] : K[X]) = X ^ 6 + C α := by
      simp only [Poly.toPoly_cons, Poly.toPoly_nil]
      simp
      ring
    rw [e, ← hiff] at h2
    rw [h1]
    cases b with
    | false => rw [if_neg (fun h => by cases h2.2 h)]
    | true => rw [if_pos (h2.1 rfl)]
  · intro h6
    obtain ⟨g, -, g2, g3⟩ := Tate.exists_not_power h6
    exact ⟨-g, by rw [neg_neg]; exact g2, by rw [neg_neg]; exact g3⟩

/-- The numbers of type F. -/
theorem bn_of_fGen {pp : ℤ → Bool} {fuel : ℕ} {bits : ℤ} {out : ParamGen.BN}
    (h : ParamGen.fGen pp fuel bits = some out) :
    ∃ x : ℤ, x ≠ 0 ∧ out.q = Tate.bnQ x ∧ out.r = Tate.bnR x ∧ out.t = Tate.bnT x := by
  obtain ⟨-, -, -, -, -, y, e, he, hy, h1, h2, h3⟩ := ParamGen.C56_typeF h
  have hy0 : 0 < y := lt_of_lt_of_le (by positivity) hy
  refine ⟨e * y, mul_ne_zero (by rcases he with rfl | rfl <;> norm_num) hy0.ne', h2, h3, ?_⟩
  rw [h1, Tate.bnT]
  rcases he with rfl | rfl <;> ring

variable {F : Type*} [Field F] [DecidableEq F] [Fintype F]
variable {K : Type*} [Field K] [DecidableEq K] [Fintype K] [Algebra F K]
variable {pp : ℤ → Bool} {fuel : ℕ} {bits : ℤ} {out : ParamGen.BN}

theorem disc_b {b : F} (h3 : (3 : F) ≠ 0) (hb : b ≠ 0) : 4 * (0 : F) ^ 3 + 27 * b ^ 2 ≠ 0 := by
  rw [show 4 * (0 : F) ^ 3 + 27 * b ^ 2 = 3 ^ 3 * b ^ 2 by ring]
  exact mul_ne_zero (pow_ne_zero _ h3) (pow_ne_zero _ hb)

/-- **C112**, the curve over the prime field: if no coefficient drawn is 0 and no point drawn is the point
at infinity then the curve recorded has exactly `r` points. -/
theorem C112_curve (hpp : ParamGen.Sound pp) (h : ParamGen.fGen pp fuel bits = some out)
    (hF : (Fintype.card F : ℤ) = out.q) {isSqr : F → Bool} (hs : ∀ a, isSqr a = true ↔ IsSquare a)
    {sq : F → F} (hsq : ∀ a, IsSquare a → sq a ^ 2 = a) (l : List (F × List F × ℕ))
    (hl : ∀ d ∈ l, d.1 ≠ 0 ∧ ∀ p, randomPoint isSqr sq 0 d.1 d.2.1 d.2.2 = some p → p.inf = false) (b : F)
    (hb : fCurve isSqr sq out.r.toNat l = some b) :
    b ≠ 0 ∧ (Nat.card (EC 0 b).Point : ℤ) = out.r := by
  obtain ⟨-, hr, -⟩ := ParamGen.C56_typeF h
  have hrp := hpp _ hr
  obtain ⟨x, hx, h1, h2, -⟩ := bn_of_fGen h
  rw [h1] at hF
  have h6 := Tate.bn_six hF
  have c2 : (2 : F) ≠ 0 := Tate.two_ne_of h6
  have c3 : (3 : F) ≠ 0 := Tate.three_ne_of h6
  have hr0 : 0 ≤ out.r := by
    rw [h2, Tate.bnR]
    nlinarith [sq_nonneg (6 * x ^ 2 + 3 * x), sq_nonneg (3 * x + 1)]
  obtain ⟨r, hr'⟩ := Int.eq_ofNat_of_zero_le hr0
  rw [hr'] at h2 hrp hb ⊢
  rw [Int.natAbs_natCast] at hrp
  rw [Int.toNat_natCast] at hb
  induction l with
  | nil => cases hb
  | cons d rest ih =>
    obtain ⟨e1, draws, k⟩ := d
    obtain ⟨he, hinf⟩ := hl _ (List.mem_cons_self ..)
    rw [fCurve] at hb
    cases hp : randomPoint isSqr sq 0 e1 draws k with
    | none => rw [hp] at hb; cases hb
    | some p =>
      rw [hp] at hb
      obtain ⟨P, hP⟩ := randomPoint_spec c2 (disc_b c3 he) (roots_all hs hsq _ _ _) hp
      obtain ⟨p', hp', hP'⟩ := scalar_spec c2 hP r
      dsimp only at hb
      rw [hp'] at hb
      dsimp only at hb
      by_cases hi : p'.inf = true
      · rw [if_pos hi] at hb
        cases hb
        have hP0 : P ≠ 0 := by
          rw [Ne, ← rep_inf hP, hinf p hp]
          simp
        refine ⟨he, ?_⟩
        rw [Tate.card_bn hx hF h2 hrp he hP0 ((rep_inf hP').1 hi)]
      · rw [if_neg hi] at hb
        exact ih (fun d hd => hl d (List.mem_cons_of_mem _ hd)) hb

/-- **C112**: a curve with `r` points is accepted as soon as its coefficient is drawn. -/
theorem C112_accepts (h : ParamGen.fGen pp fuel bits = some out)
    (hF : (Fintype.card F : ℤ) = out.q) {isSqr : F → Bool} (hs : ∀ a, isSqr a = true ↔ IsSquare a)
    {sq : F → F} (hsq : ∀ a, IsSquare a → sq a ^ 2 = a) (b : F) (hb : b ≠ 0)
    (hN : (Nat.card (EC 0 b).Point : ℤ) = out.r) (draws : List F) (k : ℕ) (g : Pt F)
    (hg : randomNoCofac isSqr sq 0 b draws = some g) (rest : List (F × List F × ℕ)) :
    fCurve isSqr sq out.r.toNat ((b, draws, k) :: rest) = some b := by
  obtain ⟨x, hx, h1, h2, -⟩ := bn_of_fGen h
  rw [h1] at hF
  have h6 := Tate.bn_six hF
  have c2 : (2 : F) ≠ 0 := Tate.two_ne_of h6
  have c3 : (3 : F) ≠ 0 := Tate.three_ne_of h6
  obtain ⟨G, hG, -⟩ := noCofac_spec c2 (disc_b c3 hb) hs hsq draws g hg
  obtain ⟨p, h3, h4⟩ := pow_rep c2 hG k
  obtain ⟨p', h5, h6⟩ := scalar_spec c2 h4 out.r.toNat
  rw [fCurve, randomPoint, hg]
  dsimp only
  rw [randomPointMul, h3]
  dsimp only
  rw [h5]
  dsimp only
  rw [if_pos ((rep_inf h6).2 ?_)]
  rw [← hN, Int.toNat_natCast]
  exact card_nsmul_eq_zero'

/-- **C112**: the search can end, and with a right curve. -/
theorem C112_curve_can_return (hpp : ParamGen.Sound pp) (h : ParamGen.fGen pp fuel bits = some out)
    (hF : (Fintype.card F : ℤ) = out.q) {isSqr : F → Bool} (hs : ∀ a, isSqr a = true ↔ IsSquare a)
    {sq : F → F} (hsq : ∀ a, IsSquare a → sq a ^ 2 = a) :
    ∃ b u : F, b ≠ 0 ∧ (Nat.card (EC 0 b).Point : ℤ) = out.r ∧
      fCurve isSqr sq out.r.toNat [(b, [u], 1)] = some b ∧
      ∀ p, randomPoint isSqr sq 0 b [u] 1 = some p → p.inf = false := by
  obtain ⟨hq, hr, -⟩ := ParamGen.C56_typeF h
  have hqp := hpp _ hq
  have hrp := hpp _ hr
  obtain ⟨x, hx, h1, h2, h3⟩ := bn_of_fGen h
  have h6 := Tate.bn_six (hF.trans h1)
  have c2 : (2 : F) ≠ 0 := Tate.two_ne_of h6
  have c3 : (3 : F) ≠ 0 := Tate.three_ne_of h6
  rw [← hF, Int.natAbs_natCast] at hqp
  obtain ⟨b, hb, hN⟩ := Tate.exists_curve (F := F) (t := Tate.bnT x) (V := 6 * x ^ 2 + 4 * x + 1) hqp h6 (by
    rw [hF, h1, ← Tate.bn_square]; ring)
  rw [hF, h1, ← Tate.bnQ_eq, ← h2] at hN
  -- a point other than the point at infinity
  have hcard : 1 < Nat.card (EC 0 b).Point := by
    have : Nat.card (EC 0 b).Point = out.r.natAbs := by rw [← hN, Int.natAbs_natCast]
    rw [this]
    exact hrp.one_lt
  have : Nontrivial (EC 0 b).Point := (Finite.one_lt_card_iff_nontrivial).1 hcard
  obtain ⟨P, hP⟩ := exists_ne (0 : (EC 0 b).Point)
  cases P with
  | zero => exact absurd rfl hP
  | some u v huv =>
    have hsqr : IsSquare (rhs 0 b u) := ⟨v, by
      have := huv.1
      rw [WeierstrassCurve.Affine.equation_iff] at this
      simp [EC] at this
      rw [rhs, ← pow_two, this]; ring⟩
    have hno : randomNoCofac isSqr sq 0 b [u] = some ⟨false, u, sq (rhs 0 b u)⟩ := by
      rw [randomNoCofac, if_pos ((hs _).2 hsqr)]
    refine ⟨b, u, hb, hN, C112_accepts h hF hs hsq b hb hN [u] 1 _ hno [], ?_⟩
    intro p hp
    obtain ⟨G, hG, hG0⟩ := noCofac_spec c2 (disc_b c3 hb) hs hsq _ _ hno
    obtain ⟨p', h4, h5⟩ := pow_rep c2 hG 1
    rw [randomPoint, hno] at hp
    dsimp only at hp
    rw [randomPointMul, h4] at hp
    cases hp
    rw [one_smul] at h5
    rw [Bool.eq_false_iff, Ne, rep_inf h5]
    exact hG0

/-- **C112, what fails.**  When the random multiple is the point at infinity any coefficient is accepted, and
there is one for which the number of points is not `r`. -/
theorem C112_curve_unlucky_fails (h : ParamGen.fGen pp fuel bits = some out)
    (hF : (Fintype.card F : ℤ) = out.q) {isSqr : F → Bool} (sq : F → F) :
    ∃ b : F, b ≠ 0 ∧ (Nat.card (EC 0 b).Point : ℤ) ≠ out.r ∧
      ∀ (draws : List F) (g : Pt F), randomNoCofac isSqr sq 0 b draws = some g →
        ∀ rest, fCurve isSqr sq out.r.toNat ((b, draws, 0) :: rest) = some b := by
  obtain ⟨x, hx, h1, h2, h3⟩ := bn_of_fGen h
  rw [h1] at hF
  have h6 := Tate.bn_six hF
  have c2 : (2 : F) ≠ 0 := Tate.two_ne_of h6
  have c3 : (3 : F) ≠ 0 := Tate.three_ne_of h6
  have hchar : ringChar F ≠ 2 := fun hc => c2 (by
    have := CharP.cast_eq_zero F (ringChar F)
    rwa [hc] at this)
  obtain ⟨v, hv⟩ := FiniteField.exists_nonsquare hchar
  have hv0 : v ≠ 0 := by rintro rfl; exact hv IsSquare.zero
  have htw := Tate.card_twist c2 (disc_b c3 one_ne_zero) hv
  rw [mul_zero, mul_one] at htw
  have hne : ∃ b : F, b ≠ 0 ∧ (Nat.card (EC 0 b).Point : ℤ) ≠ out.r := by
    by_contra hc
    push Not at hc
    have e1 := hc 1 one_ne_zero
    have e2 := hc (v ^ 3) (pow_ne_zero 3 hv0)
    have htw' : (Nat.card (EC (0 : F) 1).Point : ℤ) + Nat.card (EC 0 (v ^ 3)).Point = 2 * Fintype.card F + 2 := by
      exact_mod_cast htw
    rw [e1, e2, hF, h2, Tate.bnQ_eq] at htw'
    have : Tate.bnT x = 0 := by linarith
    unfold Tate.bnT at this
    nlinarith [sq_nonneg x]
  obtain ⟨b, hb, hN⟩ := hne
  refine ⟨b, hb, hN, fun draws g hg rest => ?_⟩
  have e : randomPointMul (0 : F) g 0 = some fresh := by simp [randomPointMul, Gen.powMpz]; rfl
  have hz : PtRep (fresh : Pt F) (0 : (EC 0 b).Point) := rfl
  obtain ⟨p', h5, h6⟩ := scalar_spec c2 hz out.r.toNat
  rw [fCurve, randomPoint, hg]
  dsimp only
  rw [e]
  dsimp only
  rw [h5]
  dsimp only
  rw [if_pos ((rep_inf h6).2 (smul_zero _))]

theorem twistMultiplier_eq (q r t : ℤ) : twistMultiplier q r t = orderExtn q t 12 / (r * r) := rfl

/-- The point drawn for the test of the twist. -/
theorem fTwist_spec {q r t : ℤ} {c α : K} (c2 : (2 : K) ≠ 0) (c3 : (3 : K) ≠ 0) (hc : c ≠ 0) (hα : α ≠ 0)
    {isSqr : K → Bool} {sq : K → K} {draws : List K} (hrt : Roots isSqr sq 0 (-(c * α)) draws) {k : ℕ} {α' : K}
    (h : fTwist isSqr sq q r t c α draws k = some α') :
    ∃ (p : Pt K) (P : (EC 0 (-(c * α))).Point), randomPoint isSqr sq 0 (-(c * α)) draws k = some p ∧ PtRep p P ∧
      α' = if (orderExtn q t 12 / (r * r)).toNat • P = 0 then α ^ 5 else α := by
  rw [fTwist] at h
  cases hp : randomPoint isSqr sq 0 (-(c * α)) draws k with
  | none => rw [hp] at h; cases h
  | some p =>
    rw [hp] at h
    obtain ⟨P, hP⟩ := randomPoint_spec c2 (disc_b c3 (neg_ne_zero.2 (mul_ne_zero hc hα))) hrt hp
    obtain ⟨r', h3, h4⟩ := scalar_spec c2 hP (orderExtn q t 12 / (r * r)).toNat
    dsimp only at h
    rw [twistMultiplier_eq, h3] at h
    dsimp only at h
    refine ⟨p, P, rfl, hP, ?_⟩
    by_cases h0 : (orderExtn q t 12 / (r * r)).toNat • P = 0
    · rw [if_pos ((rep_inf h4).2 h0), Gen.powMpz_spec] at h
      rw [if_pos h0]
      exact (Option.some.inj h).symm
    · rw [if_neg (mt (rep_inf h4).1 h0)] at h
      rw [if_neg h0]
      exact (Option.some.inj h).symm

theorem consts_ext (c2 : (2 : F) ≠ 0) (c3 : (3 : F) ≠ 0) : (2 : K) ≠ 0 ∧ (3 : K) ≠ 0 := by
  constructor
  · have := (map_ne_zero (algebraMap F K)).2 c2
    rwa [map_ofNat] at this
  · have := (map_ne_zero (algebraMap F K)).2 c3
    rwa [map_ofNat] at this

/-- The two possible orders of the twist. -/
theorem twist_orders (hpp : ParamGen.Sound pp) (h : ParamGen.fGen pp fuel bits = some out)
    (hF : (Fintype.card F : ℤ) = out.q) (hK : Fintype.card K = Fintype.card F ^ 2) {b : F} (hb : b ≠ 0)
    (hN : (Nat.card (EC 0 b).Point : ℤ) = out.r) {α : K}
    (hα : Irreducible (Polynomial.X ^ 6 + Polynomial.C α : Polynomial K)) :
    ((Nat.card (EC 0 (-(algebraMap F K b * α))).Point : ℤ) = out.r * (2 * out.q - out.r) ∧
      (Nat.card (EC 0 (-(algebraMap F K b * α ^ 5))).Point : ℤ) = out.q ^ 2 + 1 + 2 * out.r) ∨
    ((Nat.card (EC 0 (-(algebraMap F K b * α))).Point : ℤ) = out.q ^ 2 + 1 + 2 * out.r ∧
      (Nat.card (EC 0 (-(algebraMap F K b * α ^ 5))).Point : ℤ) = out.r * (2 * out.q - out.r)) := by
  obtain ⟨-, hr, -⟩ := ParamGen.C56_typeF h
  have hrp := hpp _ hr
  obtain ⟨x, hx, h1, h2, -⟩ := bn_of_fGen h
  obtain ⟨g2, g3⟩ := not_power_of_irreducible hα
  have hN' : Nat.card (EC 0 b).Point = out.r.natAbs := by rw [← hN, Int.natAbs_natCast]
  have hr' : (out.r.natAbs : ℤ) = Tate.bnR x := by rw [← h2, ← hN]; rfl
  have key := Tate.card_bn_twist hx (hF.trans h1) hr' hrp hb hN' hK
    (neg_ne_zero.2 (ne_zero_of_irreducible hα)) g2 g3
  rw [h1, h2]
  rw [show -(algebraMap F K b * α) = -α * algebraMap F K b by ring,
    show -(algebraMap F K b * α ^ 5) = (-α) ^ 5 * algebraMap F K b by ring]
  exact key

open Polynomial in
/-- **C112**, the twist over the quadratic extension: unless a good twist was rejected because the point
drawn is killed by `n₁₂ / r²`, the curve `y² = x³ - α b` that the pairing will use for its second group has
exactly `r (2 q - r)` points, so a subgroup of order `r`; and `x⁶ + α` is irreducible. -/
theorem C112_twist (hpp : ParamGen.Sound pp) (h : ParamGen.fGen pp fuel bits = some out)
    (hF : (Fintype.card F : ℤ) = out.q) (hK : Fintype.card K = Fintype.card F ^ 2) {b : F} (hb : b ≠ 0)
    (hN : (Nat.card (EC 0 b).Point : ℤ) = out.r) {isSqr : K → Bool} {sq : K → K} {αs : List K} {α : K}
    (hα : alphaLoop (Fintype.card K) αs = some α) {draws : List K}
    (hrt : Roots isSqr sq 0 (-(algebraMap F K b * α)) draws) {k : ℕ} {α' : K}
    (hT : fTwist isSqr sq out.q out.r out.t (algebraMap F K b) α draws k = some α')
    (luck : out.r ∣ (Nat.card (EC 0 (-(algebraMap F K b * α))).Point : ℤ) →
      ∀ p (P : (EC 0 (-(algebraMap F K b * α))).Point),
        randomPoint isSqr sq 0 (-(algebraMap F K b * α)) draws k = some p → PtRep p P →
          (orderExtn out.q out.t 12 / (out.r * out.r)).toNat • P ≠ 0) :
    Irreducible (X ^ 6 + C α' : K[X]) ∧
      (Nat.card (EC 0 (-(algebraMap F K b * α'))).Point : ℤ) = out.r * (2 * out.q - out.r) := by
  have hirr := alphaLoop_spec αs α hα
  obtain ⟨x, hx, h1, h2, h3⟩ := bn_of_fGen h
  have h6 := Tate.bn_six (hF.trans h1)
  obtain ⟨c2, c3⟩ := consts_ext (K := K) (Tate.two_ne_of h6) (Tate.three_ne_of h6)
  obtain ⟨p, P, hp, hP, e⟩ := fTwist_spec c2 c3 ((map_ne_zero (algebraMap F K)).2 hb)
    (ne_zero_of_irreducible hirr) hrt hT
  rcases twist_orders (K := K) hpp h hF hK hb hN hirr with ⟨e1, e2⟩ | ⟨e1, e2⟩
  · rw [if_neg (luck (e1 ▸ dvd_mul_right _ _) p P hp hP)] at e
    subst e
    exact ⟨hirr, e1⟩
  · have hz : (orderExtn out.q out.t 12 / (out.r * out.r)).toNat • P = 0 := by
      obtain ⟨m, hm⟩ := Tate.bn_order12 x
      rw [← h1, ← h2, ← h3] at hm
      have hr0 : out.r ≠ 0 := by
        intro h0
        have := hpp _ (ParamGen.C56_typeF h).2.1
        rw [h0] at this
        exact Nat.not_prime_zero this
      rw [hm, Int.mul_ediv_cancel_left _ (mul_ne_zero hr0 hr0), ← e1]
      rcases le_or_gt 0 m with hm0 | hm0
      · obtain ⟨m', rfl⟩ := Int.eq_ofNat_of_zero_le hm0
        rw [← Nat.cast_mul, Int.toNat_natCast, Nat.mul_comm, mul_smul, card_nsmul_eq_zero', smul_zero]
      · rw [Int.toNat_of_nonpos (mul_nonpos_of_nonneg_of_nonpos (by positivity) hm0.le), zero_smul]
    rw [if_pos hz] at e
    subst e
    exact ⟨irreducible_fifth hirr, e2⟩

theorem bn_wrong {x : ℤ} (hx : x ≠ 0) : ¬ Tate.bnR x ∣ Tate.bnQ x ^ 2 + 1 + 2 * Tate.bnR x := by
  intro h
  have h1 : Tate.bnR x ∣ 6 * x * (6 * x ^ 2 + 3 * x + 1) := by
    have e : 6 * x * (6 * x ^ 2 + 3 * x + 1) = Tate.bnR x * (3 + Tate.bnQ x + 6 * x ^ 2) -
        (Tate.bnQ x ^ 2 + 1 + 2 * Tate.bnR x) := by unfold Tate.bnR Tate.bnQ; ring
    rw [e]
    exact dvd_sub (dvd_mul_right _ _) h
  have hpos : 0 < 6 * x ^ 2 + 3 * x + 1 := by nlinarith [sq_nonneg (x + 1), sq_nonneg x]
  rcases lt_or_gt_of_ne hx with hneg | hp
  · rcases eq_or_ne x (-1) with rfl | h2
    · norm_num [Tate.bnR] at h1
    · have h1' : Tate.bnR x ∣ -(6 * x * (6 * x ^ 2 + 3 * x + 1)) := (dvd_neg).2 h1
      have hle := Int.le_of_dvd (by nlinarith) h1'
      have hx2 : x ≤ -2 := by omega
      have e : Tate.bnR x = -(6 * x * (6 * x ^ 2 + 3 * x + 1)) + 36 * (x * (x + 1)) ^ 2 + 12 * x + 1 := by
        unfold Tate.bnR; ring
      have h3 : 2 ≤ x * (x + 1) := by nlinarith
      have h4 : -x ≤ x * (x + 1) := by nlinarith
      nlinarith
  · have hle := Int.le_of_dvd (by positivity) h1
    have e : Tate.bnR x = 6 * x * (6 * x ^ 2 + 3 * x + 1) + 36 * x ^ 4 + 1 := by unfold Tate.bnR; ring
    have : 0 < x ^ 4 := by positivity
    linarith

/-- **C112, what fails.**  If the twist is right but the random multiple is the point at infinity, `α` is
replaced all the same; the curve then has no point of order `r` at all. -/
theorem C112_twist_unlucky_fails (hpp : ParamGen.Sound pp) (h : ParamGen.fGen pp fuel bits = some out)
    (hF : (Fintype.card F : ℤ) = out.q) (hK : Fintype.card K = Fintype.card F ^ 2) {b : F} (hb : b ≠ 0)
    (hN : (Nat.card (EC 0 b).Point : ℤ) = out.r) {isSqr : K → Bool} {sq : K → K} {αs : List K} {α : K}
    (hα : alphaLoop (Fintype.card K) αs = some α)
    (hgood : out.r ∣ (Nat.card (EC 0 (-(algebraMap F K b * α))).Point : ℤ)) {draws : List K} {g : Pt K}
    (hg : randomNoCofac isSqr sq 0 (-(algebraMap F K b * α)) draws = some g) :
    fTwist isSqr sq out.q out.r out.t (algebraMap F K b) α draws 0 = some (α ^ 5) ∧
      ¬ out.r ∣ (Nat.card (EC 0 (-(algebraMap F K b * α ^ 5))).Point : ℤ) := by
  have hirr := alphaLoop_spec αs α hα
  obtain ⟨x, hx, h1, h2, h3⟩ := bn_of_fGen h
  have h6 := Tate.bn_six (hF.trans h1)
  obtain ⟨c2, c3⟩ := consts_ext (K := K) (Tate.two_ne_of h6) (Tate.three_ne_of h6)
  constructor
  · have e : randomPointMul (0 : K) g 0 = some fresh := by simp [randomPointMul, Gen.powMpz]; rfl
    have hz : PtRep (fresh : Pt K) (0 : (EC 0 (-(algebraMap F K b * α))).Point) := rfl
    obtain ⟨p', h5, h6⟩ := scalar_spec c2 hz (twistMultiplier out.q out.r out.t).toNat
    rw [fTwist, randomPoint, hg]
    dsimp only
    rw [e]
    dsimp only
    rw [h5]
    dsimp only
    rw [if_pos ((rep_inf h6).2 (smul_zero _)), Gen.powMpz_spec]
  · have hw := bn_wrong hx
    rw [← h1, ← h2] at hw
    rcases twist_orders (K := K) hpp h hF hK hb hN hirr with ⟨e1, e2⟩ | ⟨e1, e2⟩
    · rw [e2]; exact hw
    · rw [e1] at hgood
      exact absurd hgood hw

/-- `r` does not divide the multiplier, which is positive. -/
theorem bn_multiplier {x : ℤ} (hx : x ≠ 0) (hrp : Prime (Tate.bnR x)) :
    0 < orderExtn (Tate.bnQ x) (Tate.bnT x) 12 / (Tate.bnR x * Tate.bnR x) ∧
      ¬ Tate.bnR x ∣ orderExtn (Tate.bnQ x) (Tate.bnT x) 12 / (Tate.bnR x * Tate.bnR x) := by
  have hq19 := Tate.bnQ_ge hx
  have hT : 0 < Tate.bnT x := by unfold Tate.bnT; positivity
  have hqr := Tate.bnQ_eq x
  have hR : 0 < Tate.bnR x := by
    have hsq := Tate.bn_square x
    have : Tate.bnT x ^ 2 ≤ 4 * Tate.bnQ x := by linarith [sq_nonneg (6 * x ^ 2 + 4 * x + 1)]
    nlinarith
  have h1 := bn_wrong hx
  have h2 := Tate.bn_not_dvd hx
  have hr2 : ¬ Tate.bnR x ∣ 2 := fun h => h2 (Dvd.dvd.mul_right h _)
  have hr3 : ¬ Tate.bnR x ∣ 3 := by
    intro h
    have hle := Int.le_of_dvd (by norm_num) h
    have e : Tate.bnR x = 6 * (6 * x ^ 4 + 6 * x ^ 3 + 3 * x ^ 2 + x) + 1 := by unfold Tate.bnR; ring
    have h1 : Tate.bnR x = 1 := by omega
    rw [h1] at hrp
    exact hrp.not_unit isUnit_one
  have hΦ : Tate.bnR x ∣ Tate.bnQ x ^ 4 - Tate.bnQ x ^ 2 + 1 := by
    refine ⟨46656 * x ^ 12 + 139968 * x ^ 11 + 241056 * x ^ 10 + 272160 * x ^ 9 + 225504 * x ^ 8 +
        138672 * x ^ 7 + 65448 * x ^ 6 + 23112 * x ^ 5 + 6264 * x ^ 4 + 1188 * x ^ 3 + 174 * x ^ 2 + 6
        * x + 1, ?_⟩
    unfold Tate.bnQ Tate.bnR
    ring
  have hrq : ¬ Tate.bnR x ∣ Tate.bnQ x := by
    intro h
    refine hrp.not_unit (isUnit_of_dvd_one ?_)
    have := dvd_sub hΦ (Dvd.dvd.mul_left h (Tate.bnQ x ^ 3 - Tate.bnQ x))
    rwa [show Tate.bnQ x ^ 4 - Tate.bnQ x ^ 2 + 1 - (Tate.bnQ x ^ 3 - Tate.bnQ x) * Tate.bnQ x = 1 by ring] at this
  rw [Tate.bn_order12', Int.mul_ediv_cancel_left _ (mul_ne_zero hR.ne' hR.ne')]
  generalize Tate.bnQ x = q at *
  generalize Tate.bnT x = t at *
  generalize Tate.bnR x = r at *
  have p1 : 0 < q ^ 2 + 1 + 2 * r := by positivity
  have p2 : 0 < q + 1 + t := by positivity
  have p3 : 0 < 1 + (t ^ 2 - 2 * q) + q ^ 2 := by nlinarith [sq_nonneg (q - 1)]
  have p4 : 0 < (q ^ 2) ^ 2 + q ^ 2 * (t ^ 2 - 2 * q) + (t ^ 2 - 2 * q) ^ 2 - q ^ 2 + (t ^ 2 - 2 * q) + 1 := by
    have : 0 < q ^ 2 - 1 := by nlinarith
    nlinarith [sq_nonneg (2 * (t ^ 2 - 2 * q) + q ^ 2 + 1)]
  have p5 : 0 < 2 * q - r := by linarith
  refine ⟨by positivity, fun hd => ?_⟩
  rcases hrp.dvd_or_dvd hd with hd | hd
  · exact h1 hd
  rcases hrp.dvd_or_dvd hd with hd | hd
  rcases hrp.dvd_or_dvd hd with hd | hd
  rcases hrp.dvd_or_dvd hd with hd | hd
  · refine h2 ?_
    rw [show 2 * t = q + 1 + t - r by rw [hqr]; ring]
    exact dvd_sub hd (dvd_refl _)
  · have : r ∣ 2 * (q ^ 2 + 1) := by
      have e : 2 * (q ^ 2 + 1) = 1 + (t ^ 2 - 2 * q) + q ^ 2 - r * (r - 2 * (q + 1)) - (t ^ 2 - (q + 1 - r) ^ 2) := by ring
      rw [e, show t = q + 1 - r by rw [hqr]; ring, sub_self, sub_zero]
      rw [show t = q + 1 - r by rw [hqr]; ring] at hd
      exact dvd_sub hd (dvd_mul_right _ _)
    rcases hrp.dvd_or_dvd this with hd | hd
    · exact hr2 hd
    · exact h1 (dvd_add hd (dvd_mul_left _ _))
  · rw [show t = q + 1 - r by rw [hqr]; ring] at hd
    have h3 : r ∣ 3 * (q ^ 4 + q ^ 2 + 1) := by
      have e : 3 * (q ^ 4 + q ^ 2 + 1) = ((q ^ 2) ^ 2 + q ^ 2 * ((q + 1 - r) ^ 2 - 2 * q) +
          ((q + 1 - r) ^ 2 - 2 * q) ^ 2 - q ^ 2 + ((q + 1 - r) ^ 2 - 2 * q) + 1) -
          r * ((r - 2 * (q + 1)) * (q ^ 2 + ((q + 1 - r) ^ 2 - 2 * q) + (q ^ 2 + 1) + 1)) := by ring
      rw [e]
      exact dvd_sub hd (dvd_mul_right _ _)
    rcases hrp.dvd_or_dvd h3 with hd | hd
    · exact hr3 hd
    · have := dvd_sub hd hΦ
      rw [show q ^ 4 + q ^ 2 + 1 - (q ^ 4 - q ^ 2 + 1) = 2 * q ^ 2 by ring] at this
      rcases hrp.dvd_or_dvd this with hd | hd
      · exact hr2 hd
      · exact hrq (hrp.dvd_of_dvd_pow hd)
  · have := dvd_add hd (dvd_refl r)
    rw [sub_add_cancel] at this
    rcases hrp.dvd_or_dvd this with hd | hd
    · exact hr2 hd
    · exact hrq hd

/-- Few points of a curve `y² = x³ + b` have `y²` in the base field. -/
theorem card_base (bt : K) : Nat.card {P : (EC 0 bt).Point // ∀ u y hn, P = .some u y hn → y ^ 2 ∈ Set.range (algebraMap F K)} ≤
    6 * Fintype.card F + 1 := by
  classical
  let S : Finset (K × K) := Finset.univ.biUnion fun c : F =>
    (Polynomial.nthRoots 3 (algebraMap F K c - bt)).toFinset ×ˢ (Polynomial.nthRoots 2 (algebraMap F K c)).toFinset
  have hS : S.card ≤ 6 * Fintype.card F := by
    refine Finset.card_biUnion_le.trans ((Finset.sum_le_card_nsmul _ _ 6 fun c _ => ?_).trans ?_)
    · rw [Finset.card_product]
      exact Nat.mul_le_mul ((Multiset.toFinset_card_le _).trans (Polynomial.card_nthRoots 3 _))
        ((Multiset.toFinset_card_le _).trans (Polynomial.card_nthRoots 2 _))
    · rw [smul_eq_mul, mul_comm]; rfl
  have hmem : ∀ {u y : K} (hn : (EC 0 bt).Nonsingular u y), y ^ 2 ∈ Set.range (algebraMap F K) → (u, y) ∈ S := by
    rintro u y hn ⟨c, hc⟩
    have := Tate.eqn_of hn
    rw [Finset.mem_biUnion]
    refine ⟨c, Finset.mem_univ _, ?_⟩
    rw [Finset.mem_product, Multiset.mem_toFinset, Multiset.mem_toFinset, Polynomial.mem_nthRoots (by norm_num),
      Polynomial.mem_nthRoots (by norm_num)]
    exact ⟨by rw [hc]; linear_combination -this, hc.symm⟩
  let f : {P : (EC 0 bt).Point // ∀ u y hn, P = .some u y hn → y ^ 2 ∈ Set.range (algebraMap F K)} → Option S := fun P =>
    match P with
    | ⟨.zero, _⟩ => none
    | ⟨.some u y hn, h⟩ => some ⟨(u, y), hmem hn (h u y hn rfl)⟩
  have hf : Function.Injective f := by
    rintro ⟨_ | ⟨u, y, hn⟩, h⟩ ⟨_ | ⟨u', y', hn'⟩, h'⟩ e
    · rfl
    · cases e
    · cases e
    · have := congrArg Subtype.val (Option.some.inj e)
      obtain ⟨rfl, rfl⟩ := Prod.mk.inj this
      rfl
  refine (Nat.card_le_card_of_injective f hf).trans ?_
  rw [Nat.card_eq_fintype_card, Fintype.card_option, Fintype.card_coe]
  omega

theorem bn_points {x : ℤ} (hx : x ≠ 0) : 12 * Tate.bnQ x + 2 < Tate.bnR x * (2 * Tate.bnQ x - Tate.bnR x) := by
  unfold Tate.bnQ Tate.bnR
  have h5 : (25 : ℤ) ≤ 2 * (36 * x ^ 4 + 36 * x ^ 3 + 24 * x ^ 2 + 6 * x + 1) -
      (36 * x ^ 4 + 36 * x ^ 3 + 18 * x ^ 2 + 6 * x + 1) := by
    rcases lt_or_gt_of_ne hx with h | h
    · nlinarith [sq_nonneg (x * (x + 1)), sq_nonneg (x + 1), mul_nonneg (sq_nonneg x) (show 0 ≤ -(x + 1) by omega)]
    · nlinarith [pow_pos h 3]
  have h6 : 2 * (36 * x ^ 4 + 36 * x ^ 3 + 24 * x ^ 2 + 6 * x + 1) ≤
      3 * (36 * x ^ 4 + 36 * x ^ 3 + 18 * x ^ 2 + 6 * x + 1) := by
    nlinarith [sq_nonneg (x * (2 * x + 1)), sq_nonneg (x + 1), sq_nonneg (x * (x + 1)), sq_nonneg (2 * x + 1)]
  have hx2 : 0 < x ^ 2 := by positivity
  have h9 : 0 ≤ 36 * x ^ 4 + 36 * x ^ 3 + 18 * x ^ 2 + 6 * x + 1 := by
    nlinarith [sq_nonneg (6 * x ^ 2 + 3 * x), sq_nonneg (3 * x + 1)]
  generalize 36 * x ^ 4 + 36 * x ^ 3 + 18 * x ^ 2 + 6 * x + 1 = r at *
  generalize 36 * x ^ 4 + 36 * x ^ 3 + 24 * x ^ 2 + 6 * x + 1 = q at *
  have := mul_le_mul_of_nonneg_left h5 h9
  omega

open Polynomial in
/-- **C112**: a right twist can be recognised, with square roots that are right only outside the base field. -/
theorem C112_twist_can_return (hpp : ParamGen.Sound pp) (h : ParamGen.fGen pp fuel bits = some out)
    (hF : (Fintype.card F : ℤ) = out.q) (hK : Fintype.card K = Fintype.card F ^ 2) {b : F} (hb : b ≠ 0)
    (hN : (Nat.card (EC 0 b).Point : ℤ) = out.r) {isSqr : K → Bool} (hs : ∀ a, isSqr (a ^ 2) = true) {sq : K → K}
    (hsq : ∀ a, a ∉ Set.range (algebraMap F K) → IsSquare a → sq a ^ 2 = a) {α : K}
    (hα : Irreducible (X ^ 6 + C α : K[X]))
    (hgood : out.r ∣ (Nat.card (EC 0 (-(algebraMap F K b * α))).Point : ℤ)) :
    ∃ u, rhs 0 (-(algebraMap F K b * α)) u ∉ Set.range (algebraMap F K) ∧
      Roots isSqr sq 0 (-(algebraMap F K b * α)) [u] ∧
      fTwist isSqr sq out.q out.r out.t (algebraMap F K b) α [u] 1 = some α ∧
      ∀ p, randomPoint isSqr sq 0 (-(algebraMap F K b * α)) [u] 1 = some p →
        ∀ p', scalar 0 p (orderExtn out.q out.t 12 / (out.r * out.r)).toNat = some p' → p'.inf = false := by
  obtain ⟨-, hr, -⟩ := ParamGen.C56_typeF h
  have hrp := hpp _ hr
  obtain ⟨x, hx, h1, h2, h3⟩ := bn_of_fGen h
  have h6 := Tate.bn_six (hF.trans h1)
  obtain ⟨c2, c3⟩ := consts_ext (K := K) (Tate.two_ne_of h6) (Tate.three_ne_of h6)
  have hD := disc_b c3 (neg_ne_zero.2 (mul_ne_zero ((map_ne_zero (algebraMap F K)).2 hb) (ne_zero_of_irreducible hα)))
  have := Fact.mk hrp
  obtain ⟨S, hS⟩ := exists_prime_addOrderOf_dvd_card' out.r.natAbs (Int.natCast_dvd_natCast.1 (by
    rw [Int.natCast_natAbs, abs_dvd]; exact hgood))
  have hrz : Prime out.r := Int.prime_iff_natAbs_prime.2 hrp
  rw [h2] at hrz
  obtain ⟨m1, m2⟩ := bn_multiplier hx hrz
  rw [← h1, ← h2, ← h3] at m1 m2
  have hSm : (twistMultiplier out.q out.r out.t).toNat • S ≠ 0 := by
    rw [Ne, ← addOrderOf_dvd_iff_nsmul_eq_zero, hS, twistMultiplier_eq]
    intro hd
    refine m2 ?_
    have := Int.natCast_dvd_natCast.2 hd
    rwa [Int.natCast_natAbs, abs_dvd, Int.toNat_of_nonneg m1.le] at this
  have hcard : (Nat.card (EC 0 (-(algebraMap F K b * α))).Point : ℤ) = out.r * (2 * out.q - out.r) := by
    rcases twist_orders (K := K) hpp h hF hK hb hN hα with ⟨e1, -⟩ | ⟨e1, -⟩
    · exact e1
    · rw [e1, h1, h2] at hgood
      exact absurd hgood (bn_wrong hx)
  obtain ⟨P, hP, hPb⟩ : ∃ P : (EC 0 (-(algebraMap F K b * α))).Point, (twistMultiplier out.q out.r out.t).toNat • P ≠ 0 ∧
      ¬ ∀ u y hn, P = .some u y hn → y ^ 2 ∈ Set.range (algebraMap F K) := by
    by_contra hc
    push Not at hc
    let H := (nsmulAddMonoidHom (α := (EC 0 (-(algebraMap F K b * α))).Point) (twistMultiplier out.q out.r out.t).toNat).ker
    have hH : 2 * Nat.card H ≤ Nat.card (EC 0 (-(algebraMap F K b * α))).Point := by
      obtain ⟨k, hk⟩ := AddSubgroup.card_addSubgroup_dvd_card H
      rcases k with _ | _ | k
      · have : 0 < Nat.card (EC 0 (-(algebraMap F K b * α))).Point := Nat.card_pos
        omega
      · have ht := AddSubgroup.eq_top_of_card_eq H (by omega)
        exact absurd (show S ∈ H from ht ▸ AddSubgroup.mem_top _) hSm
      · rw [hk]; nlinarith
    have hle : Nat.card (EC 0 (-(algebraMap F K b * α))).Point ≤ Nat.card H + Nat.card {P : (EC 0 (-(algebraMap F K b * α))).Point //
        ∀ u y hn, P = .some u y hn → y ^ 2 ∈ Set.range (algebraMap F K)} := by
      classical
      rw [← Nat.card_sum]
      have hcov : ∀ P : (EC 0 (-(algebraMap F K b * α))).Point, P ∉ H → ∀ u y hn, P = .some u y hn →
          y ^ 2 ∈ Set.range (algebraMap F K) := fun P hP => hc P hP
      refine Nat.card_le_card_of_injective (fun P => if hP : P ∈ H then Sum.inl ⟨P, hP⟩ else
        Sum.inr ⟨P, hcov P hP⟩) fun P Q e => ?_
      by_cases hP : P ∈ H <;> by_cases hQ : Q ∈ H <;> simp [hP, hQ] at e
      · exact e
      · exact e
    have hb := card_base (F := F) (-(algebraMap F K b * α))
    have hn := bn_points hx
    rw [← h1, ← h2, ← hcard] at hn
    omega
  push Not at hPb
  obtain ⟨u, v, huv, hPc, hv⟩ := hPb
  have heq : v ^ 2 = rhs 0 (-(algebraMap F K b * α)) u := by
    have := Tate.eqn_of huv
    rw [rhs]; linear_combination this
  have hroot : sq (rhs 0 (-(algebraMap F K b * α)) u) ^ 2 = rhs 0 (-(algebraMap F K b * α)) u := by
    rw [← heq]
    exact hsq _ hv ⟨v, pow_two v⟩
  have hrt : Roots isSqr sq 0 (-(algebraMap F K b * α)) [u] := fun w hw _ => by
    obtain rfl : w = u := by simpa using hw
    exact hroot
  refine ⟨u, heq ▸ hv, hrt, ?_⟩
  have hno : randomNoCofac isSqr sq 0 (-(algebraMap F K b * α)) [u] =
      some ⟨false, u, sq (rhs 0 (-(algebraMap F K b * α)) u)⟩ := by
    rw [randomNoCofac, if_pos (by rw [← heq]; exact hs v)]
  obtain ⟨G, hG, -⟩ := noCofac_roots c2 hD _ hrt _ hno
  have hGP : G = P ∨ G = -P := by
    cases hGc : G with
    | zero => rw [hGc] at hG; cases hG
    | some u' v' huv' =>
      rw [hGc] at hG
      obtain ⟨-, e1, e2⟩ := hG
      dsimp only at e1 e2
      have e3 : v' ^ 2 = v ^ 2 := by rw [← e2, hroot, heq]
      subst e1
      rcases sq_eq_sq_iff_eq_or_eq_neg.1 e3 with e4 | e4
      · left; subst e4; rw [hPc]
      · right
        subst e4
        rw [hPc, WeierstrassCurve.Affine.Point.neg_some]
        congr 1
        simp [WeierstrassCurve.Affine.negY, EC]
  obtain ⟨p1, h4, h5⟩ := pow_rep c2 hG 1
  obtain ⟨p2, h7, h8⟩ := scalar_spec c2 h5 (twistMultiplier out.q out.r out.t).toNat
  have hinf : ¬ p2.inf = true := by
    rw [rep_inf h8, one_smul]
    rcases hGP with rfl | rfl
    · exact hP
    · rw [smul_neg, neg_eq_zero]; exact hP
  constructor
  · rw [fTwist, randomPoint, hno]
    dsimp only
    rw [randomPointMul, h4]
    dsimp only
    rw [h7]
    dsimp only
    rw [if_neg hinf]
  · intro p hp p' hp'
    rw [randomPoint, hno] at hp
    dsimp only at hp
    rw [randomPointMul, h4] at hp
    obtain rfl := Option.some.inj hp
    rw [← twistMultiplier_eq, h7] at hp'
    obtain rfl := Option.some.inj hp'
    exact Bool.eq_false_iff.2 hinf

/-- **C112**, the quadratic extension: `β` is not a square. -/
theorem C112_beta {isSqr : F → Bool} (hs : ∀ a, isSqr a = true ↔ IsSquare a) (l : List F) (β : F)
    (h : genNqr isSqr l = some β) : ¬ IsSquare β := genNqr_spec hs l β h

end typeF

/-! ### Types D and G -/

section typeD

open Polynomial

variable {F : Type*} [Field F] [DecidableEq F] [Fintype F]

theorem toPoly_classPoly (coeffs : List ℤ) (j : F) :
    eval j (toPoly (classPoly coeffs : List F)) = aeval j (toPoly coeffs) := by
  induction coeffs with
  | nil => simp [classPoly, Poly.toPoly_nil]
  | cons c rest ih =>
    rw [classPoly, List.map_cons, Poly.toPoly_cons, Poly.toPoly_cons]
    rw [classPoly] at ih
    simp [ih]

theorem classPoly_modulus {coeffs : List ℤ} {n : ℕ} (h : Polymod.Modulus n coeffs) :
    Polymod.Modulus n (classPoly coeffs : List F) := by
  refine ⟨h.pos, by rw [classPoly, List.length_map]; exact h.len, ?_⟩
  have h1 := h.top
  have h2 := h.len
  rw [classPoly, List.getD_eq_getElem _ _ (by rw [List.length_map]; omega), List.getElem_map]
  rw [List.getD_eq_getElem _ _ (by omega)] at h1
  rw [h1, Int.cast_one]

theorem disc_iff {a b : F} (h2 : (2 : F) ≠ 0) : (EC a b).IsElliptic ↔ 4 * a ^ 3 + 27 * b ^ 2 ≠ 0 := by
  have e : (EC a b).Δ = - (2 ^ 4 * (4 * a ^ 3 + 27 * b ^ 2)) := by
    simp only [EC, WeierstrassCurve.Δ, WeierstrassCurve.b₂, WeierstrassCurve.b₄, WeierstrassCurve.b₆,
      WeierstrassCurve.b₈]
    ring
  constructor
  · intro h h0
    have := h.isUnit
    rw [e, h0, mul_zero, neg_zero] at this
    exact not_isUnit_zero this
  · intro h
    refine ⟨isUnit_iff_ne_zero.2 ?_⟩
    rw [e]
    exact neg_ne_zero.2 (mul_ne_zero (pow_ne_zero _ h2) h)

/-- The curve before the test of the twist. -/
theorem cmCurve_start (h2 : (2 : F) ≠ 0) (h3 : (3 : F) ≠ 0) {coeffs : List ℤ} {d : ℕ} (hd : 2 ≤ d)
    (hc : Polymod.Modulus d coeffs) (hroot : ∃ j : F, aeval j (toPoly coeffs) = 0)
    (h0 : aeval (0 : F) (toPoly coeffs) ≠ 0) {isSqr : F → Bool} {sq : F → F} {nqr : F} {n : ℕ}
    {rnd draws : List F} {x : ℕ} {ab : F × F}
    (h : cmCurve isSqr sq nqr (Fintype.card F) n coeffs rnd draws x = some ab) :
    ∃ j a b, aeval j (toPoly coeffs) = 0 ∧ classRoot (Fintype.card F) coeffs rnd = some j ∧
      curveJ j = some (a, b) ∧ (∃ _ : (EC a b).IsElliptic, (EC a b).j = j) ∧
      twistTest isSqr sq nqr n a b draws x = some ab := by
  obtain ⟨k1, k2⟩ := C79_find_root_partial (classPoly_modulus (F := F) hc) hd rnd
  rw [cmCurve] at h
  cases hr : PolyFactor.findRoot (Fintype.card F) (classPoly coeffs) rnd with
  | none => rw [classRoot, hr] at h; cases h
  | some res =>
    cases res with
    | noRoot =>
      obtain ⟨j, hj⟩ := hroot
      exact absurd (by rw [toPoly_classPoly]; exact hj) (k2.1 hr j)
    | root j =>
      have hj := k1 j hr
      rw [toPoly_classPoly] at hj
      rw [classRoot, hr] at h
      dsimp only at h
      have hj0 : j ≠ 0 := by rintro rfl; exact h0 hj
      by_cases h1728 : j = 1728
      · subst h1728
        rw [curveJ] at h
        simp [Quad.inv?] at h
      · obtain ⟨a, b, e1, e2⟩ := C41_curve_j h2 h3 j hj0 h1728
        rw [e1] at h
        exact ⟨j, a, b, hj, by rw [classRoot, hr], e1, e2, h⟩

theorem twist_elliptic {v a b : F} (hv : v ≠ 0) (h : (EC a b).IsElliptic) :
    ∃ _ : (EC (twist v a b).1 (twist v a b).2).IsElliptic, (EC (twist v a b).1 (twist v a b).2).j = (EC a b).j := by
  obtain ⟨e1, e2, -⟩ := C41_twist (a := a) (b := b) hv
  have : (EC (twist v a b).1 (twist v a b).2).IsElliptic := by
    refine ⟨?_⟩
    rw [e1]
    exact ((isUnit_iff_ne_zero.2 hv).pow 6).mul h.isUnit
  exact ⟨this, e2 h this⟩

/-- **C111**, the invariant: if the class polynomial has roots in the field, 0 not among them, the curve
returned, twisted or not, has a root of the class polynomial as its `j`-invariant. -/
theorem C111_invariant (h2 : (2 : F) ≠ 0) (h3 : (3 : F) ≠ 0) {coeffs : List ℤ} {d : ℕ} (hd : 2 ≤ d)
    (hc : Polymod.Modulus d coeffs) (hroot : ∃ j : F, aeval j (toPoly coeffs) = 0)
    (h0 : aeval (0 : F) (toPoly coeffs) ≠ 0) {isSqr : F → Bool} (hs : ∀ a, isSqr a = true ↔ IsSquare a)
    {sq : F → F} (hsq : ∀ a, IsSquare a → sq a ^ 2 = a) {vs : List F} {nqr : F} (hv : genNqr isSqr vs = some nqr)
    {n : ℕ} {rnd draws : List F} {x : ℕ} {a b : F}
    (h : cmCurve isSqr sq nqr (Fintype.card F) n coeffs rnd draws x = some (a, b)) :
    ∃ _ : (EC a b).IsElliptic, aeval (EC a b).j (toPoly coeffs) = 0 := by
  have hns := genNqr_spec hs vs nqr hv
  have hv0 : nqr ≠ 0 := by rintro rfl; exact hns IsSquare.zero
  obtain ⟨j, a', b', hj, -, -, ⟨i1, i2⟩, ht⟩ := cmCurve_start h2 h3 hd hc hroot h0 h
  obtain ⟨p, P, -, -, e⟩ := twistTest_spec h2 ((disc_iff h2).1 i1) hs hsq ht
  by_cases hP : n • P = 0
  · rw [if_pos hP] at e
    cases e
    exact ⟨i1, by rw [i2]; exact hj⟩
  · rw [if_neg hP] at e
    obtain ⟨i3, i4⟩ := twist_elliptic hv0 i1
    have ea : a = (twist nqr a' b').1 := congrArg Prod.fst e
    have eb : b = (twist nqr a' b').2 := congrArg Prod.snd e
    subst ea eb
    exact ⟨i3, by rw [i4, i2]; exact hj⟩

/-- **C111**, the order.  The theory of complex multiplication says that a curve whose invariant is a root of
the class polynomial has `n` or `2 q + 2 - n` points (`hCM`).  Given this, the curve returned has exactly `n`
points, unless the point drawn on a curve with `2 q + 2 - n` points is killed by `n`. -/
theorem C111_order_partial (h2 : (2 : F) ≠ 0) (h3 : (3 : F) ≠ 0) {coeffs : List ℤ} {d : ℕ} (hd : 2 ≤ d)
    (hc : Polymod.Modulus d coeffs) (hroot : ∃ j : F, aeval j (toPoly coeffs) = 0)
    (h0 : aeval (0 : F) (toPoly coeffs) ≠ 0) {isSqr : F → Bool} (hs : ∀ a, isSqr a = true ↔ IsSquare a)
    {sq : F → F} (hsq : ∀ a, IsSquare a → sq a ^ 2 = a) {vs : List F} {nqr : F} (hv : genNqr isSqr vs = some nqr)
    {n : ℕ} {rnd draws : List F} {x : ℕ} {a b : F}
    (hCM : ∀ (a b : F) (_ : (EC a b).IsElliptic), aeval (EC a b).j (toPoly coeffs) = 0 →
      Nat.card (EC a b).Point = n ∨ Nat.card (EC a b).Point + n = 2 * Fintype.card F + 2)
    (luck : ∀ (j a b : F) (p : Pt F) (P : (EC a b).Point), classRoot (Fintype.card F) coeffs rnd = some j →
      curveJ j = some (a, b) → randomPoint isSqr sq a b draws x = some p → PtRep p P → n • P = 0 →
      Nat.card (EC a b).Point = n)
    (h : cmCurve isSqr sq nqr (Fintype.card F) n coeffs rnd draws x = some (a, b)) :
    Nat.card (EC a b).Point = n := by
  have hns := genNqr_spec hs vs nqr hv
  have hv0 : nqr ≠ 0 := by rintro rfl; exact hns IsSquare.zero
  obtain ⟨j, a', b', hj, hcr, hcj, ⟨i1, i2⟩, ht⟩ := cmCurve_start h2 h3 hd hc hroot h0 h
  have hD := (disc_iff h2).1 i1
  obtain ⟨p, P, hp, hP, e⟩ := twistTest_spec h2 hD hs hsq ht
  by_cases hP0 : n • P = 0
  · rw [if_pos hP0] at e
    cases e
    exact luck j a b p P hcr hcj hp hP hP0
  · rw [if_neg hP0] at e
    have ea : a = nqr ^ 2 * a' := (congrArg Prod.fst e).trans (by simp only [twist]; ring)
    have eb : b = nqr ^ 3 * b' := (congrArg Prod.snd e).trans (by simp only [twist]; ring)
    have hsum := Tate.card_twist h2 hD hns
    rw [← ea, ← eb] at hsum
    rcases hCM a' b' i1 (by rw [i2]; exact hj) with hN | hN
    · refine absurd ?_ hP0
      rw [← hN]
      exact card_nsmul_eq_zero'
    · omega

/-- **C111, what fails.**  If the random multiple is the point at infinity the curve is kept whatever the
number of points wanted, so there are numbers of points for which it is wrong. -/
theorem C111_unlucky_fails (h2 : (2 : F) ≠ 0) {coeffs : List ℤ} {isSqr : F → Bool} {sq : F → F} {nqr : F}
    {rnd draws : List F} {j a b : F} {g : Pt F} (hj : classRoot (Fintype.card F) coeffs rnd = some j)
    (hab : curveJ j = some (a, b)) (hg : randomNoCofac isSqr sq a b draws = some g) (n : ℕ) :
    cmCurve isSqr sq nqr (Fintype.card F) n coeffs rnd draws 0 = some (a, b) := by
  have e : randomPointMul a g 0 = some fresh := by simp [randomPointMul, Gen.powMpz]; rfl
  have hz : PtRep (fresh : Pt F) (0 : (EC a b).Point) := rfl
  obtain ⟨p', h5, h6⟩ := scalar_spec h2 hz n
  rw [cmCurve, hj]
  dsimp only
  rw [hab]
  dsimp only
  rw [twistTest, randomPoint, hg]
  dsimp only
  rw [e]
  dsimp only
  rw [h5]
  dsimp only
  rw [if_pos ((rep_inf h6).2 (smul_zero _))]

/-- **C111, what fails.**  The code does not look at whether a root was found.  If the class polynomial has no
root in the field, whatever is returned is `y² = x³`, which is not an elliptic curve; and something is returned. -/
theorem C111_no_root_fails (h2 : (2 : F) ≠ 0) (h3 : (3 : F) ≠ 0) {coeffs : List ℤ} {d : ℕ} (hd : 2 ≤ d)
    (hc : Polymod.Modulus d coeffs) (hroot : ∀ j : F, aeval j (toPoly coeffs) ≠ 0) (isSqr : F → Bool)
    (h00 : isSqr 0 = true) (sq : F → F) (nqr : F) (n : ℕ) (rnd : List F) :
    (∀ draws x ab, cmCurve isSqr sq nqr (Fintype.card F) n coeffs rnd draws x = some ab → ab = (0, 0)) ∧
      cmCurve isSqr sq nqr (Fintype.card F) n coeffs rnd [0] 0 = some (0, 0) ∧ ¬ (EC (0 : F) 0).IsElliptic := by
  obtain ⟨-, k2⟩ := C79_find_root_partial (classPoly_modulus (F := F) hc) hd rnd
  have hr := k2.2 (fun r => by rw [toPoly_classPoly]; exact hroot r)
  have hcr : classRoot (Fintype.card F) coeffs rnd = some 0 := by rw [classRoot, hr]
  have h1728 : (1728 : F) ≠ 0 := by
    have : (1728 : F) = 2 ^ 6 * 3 ^ 3 := by norm_num
    rw [this]
    exact mul_ne_zero (pow_ne_zero _ h2) (pow_ne_zero _ h3)
  have hcj : curveJ (0 : F) = some (0, 0) := by
    rw [curveJ]
    simp [Quad.inv?, h1728]
  have htw : twist nqr (0 : F) 0 = (0, 0) := by simp [twist]
  refine ⟨?_, ?_, ?_⟩
  · intro draws x ab h
    rw [cmCurve, hcr] at h
    dsimp only at h
    rw [hcj] at h
    dsimp only at h
    rw [twistTest] at h
    cases hp : randomPoint isSqr sq (0 : F) 0 draws x with
    | none => rw [hp] at h; cases h
    | some p =>
      rw [hp] at h
      dsimp only at h
      cases hp' : scalar 0 p n with
      | none => rw [hp'] at h; cases h
      | some p' =>
        rw [hp'] at h
        dsimp only at h
        rw [htw, ite_self] at h
        exact (Option.some.inj h).symm
  · refine C111_unlucky_fails h2 hcr hcj (g := ⟨false, 0, sq (rhs 0 0 0)⟩) ?_ n
    rw [randomNoCofac, if_pos (by rw [rhs]; simpa using h00)]
  · rw [disc_iff h2]
    simp

/-- **C111, what fails.**  For a discriminant of class number one the class polynomial has degree 1, and the
search for its root writes outside the array of coefficients: no curve is ever returned. -/
theorem C111_class_number_one_fails (q n : ℕ) (c : ℤ) (isSqr : F → Bool) (sq : F → F) (nqr : F)
    (rnd draws : List F) (x : ℕ) : cmCurve isSqr sq nqr q n [c, 1] rnd draws x = none := by
  have := (C79_linear_fails q (c : F) rnd).1
  rw [cmCurve, classRoot, classPoly]
  simp [this]

/-- **C111**, the orders recorded: `nk` is the order over the extension of degree `k`, and the division of
`nk` by `r²` is exact, when `r` divides the order and `φ(q)` for a factor `φ` of `(X^k - 1) / (X - 1)`. -/
theorem cmOrders_spec (q n r : ℤ) (k : ℕ) (hk : 1 ≤ k) (φ : ℤ[X]) (hφ : (X - 1) * φ ∣ (X ^ k - 1 : ℤ[X]))
    (h1 : r ∣ n) (h2 : r ∣ φ.eval q) :
    (cmOrders q n r k).1 = orderExtn q (q + 1 - n) k ∧ (cmOrders q n r k).2 * r ^ 2 = (cmOrders q n r k).1 := by
  have e : (cmOrders q n r k).1 = orderExtn q (q + 1 - n) k := by
    simp only [cmOrders, orderExtn]
    rw [show q - n + 1 = q + 1 - n by ring]
    ring
  refine ⟨e, ?_⟩
  have hd := TraceDiv.sq_dvd' q (q + 1 - n) r k hk φ hφ (by rw [show q + 1 - (q + 1 - n) = n by ring]; exact h1) h2
  rw [← e] at hd
  have e2 : (cmOrders q n r k).2 = (cmOrders q n r k).1 / (r * r) := rfl
  rw [e2, pow_two]
  rw [pow_two] at hd
  exact Int.ediv_mul_cancel hd

/-- **C111**, type D: for the curves that the search finds, `nk` and `hk` are right. -/
theorem C111_orders_typeD (pp : ℤ → Bool) (np : ℤ → ℤ) (stop : Mnt.CM → Bool) (D bitlimit fuel : ℕ) (hD : 0 < D)
    (hr : 3 * D < 2 ^ 32) (l : List Mnt.CM) (h : Mnt.searchD pp np stop D bitlimit fuel = some l) :
    ∀ cm ∈ l, (cmOrders cm.q cm.n cm.r cm.k).1 = orderExtn cm.q (cm.q + 1 - cm.n) 6 ∧
      (cmOrders cm.q cm.n cm.r cm.k).2 * cm.r ^ 2 = orderExtn cm.q (cm.q + 1 - cm.n) 6 := by
  intro cm hm
  obtain ⟨h1, h2, h3⟩ := C58_sound pp np stop D bitlimit fuel hD hr l h cm hm
  have hrn : cm.r ∣ cm.n := ⟨cm.h, by rw [← h1.order]; ring⟩
  obtain ⟨k1, k2⟩ := cmOrders_spec cm.q cm.n cm.r 6 (by norm_num) (X ^ 2 - X + 1)
    ⟨(X + 1) * (X ^ 2 + X + 1), by ring⟩ hrn (by
      have := hrn.trans h3
      simpa [pow_two] using this)
  rw [h2]
  exact ⟨k1, by rw [k2, k1]⟩

/-- **C111**, type G: for the curves that the search finds, `nk` and `hk` are right. -/
theorem C111_orders_typeG (pp : ℤ → Bool) (np : ℤ → ℤ) (stop : Mnt.CM → Bool) (D bitlimit fuel : ℕ) (hD : 0 < D)
    (l : List Mnt.CM) (h : Mnt.searchG pp np stop D bitlimit fuel = some l) :
    ∀ cm ∈ l, (cmOrders cm.q cm.n cm.r cm.k).1 = orderExtn cm.q (cm.q + 1 - cm.n) 10 ∧
      (cmOrders cm.q cm.n cm.r cm.k).2 * cm.r ^ 2 = orderExtn cm.q (cm.q + 1 - cm.n) 10 := by
  intro cm hm
  obtain ⟨h2, -, h3, h4, -⟩ := C59_embedding pp np stop D bitlimit fuel hD l h cm hm
  have hrn : cm.r ∣ cm.n := ⟨cm.h, by rw [← h4]; ring⟩
  obtain ⟨k1, k2⟩ := cmOrders_spec cm.q cm.n cm.r 10 (by norm_num) (X ^ 4 - X ^ 3 + X ^ 2 - X + 1)
    ⟨(X + 1) * (X ^ 4 + X ^ 3 + X ^ 2 + X + 1), by ring⟩ hrn (by
      have := hrn.trans h3
      simpa using this)
  rw [h2]
  exact ⟨k1, by rw [k2, k1]⟩

/-- **C111**, the extension field: the polynomial chosen is monic and irreducible, of the degree asked for. -/
theorem C111_irreducible (d : ℕ) (hd : 0 < d) (polys : List (List F)) (hl : ∀ c ∈ polys, c.length = d) (f : List F)
    (h : irredLoop (Fintype.card F) polys = some f) :
    Polymod.Modulus d f ∧ Irreducible (toPoly f) := by
  induction polys with
  | nil => cases h
  | cons c rest ih =>
    have hc := hl c (List.mem_cons_self ..)
    rw [irredLoop] at h
    obtain ⟨b, h1, h2⟩ := C78_irreducible (c ++ [1]) (by simp [Spec.Normal]) (by
      intro _
      rw [List.getD_eq_getElem _ _ (by simp)]
      simp)
    rw [h1] at h
    cases b with
    | false => exact ih (fun c hc => hl c (List.mem_cons_of_mem _ hc)) h
    | true =>
      cases h
      refine ⟨⟨hd, by simp [hc], ?_⟩, h2.1 rfl⟩
      rw [List.getD_eq_getElem _ _ (by simp [hc])]
      simp [← hc]

theorem el_const (f : F[X]) (d : ℕ) (hd : 0 < d) (v : F) :
    Polymod.el f d (fun i => if i = 0 then v else 0) = algebraMap F _ v := by
  rw [Polymod.el, Polymod.val, Finset.sum_eq_single 0]
  · simp [AdjoinRoot.algebraMap_eq]
  · intro i _ hi
    rw [if_neg hi, map_zero, zero_mul]
  · intro h
    exact absurd (Finset.mem_range.2 hd) h

theorem square_ext (f : List F) (d : ℕ) (hf : Polymod.Modulus d f) (hirr : Irreducible (toPoly f)) (hd : Odd d) (v : F)
    (hv : v ≠ 0) : IsSquare (algebraMap F (AdjoinRoot (toPoly f)) v) ↔ IsSquare v := by
  refine ⟨fun ⟨c, hc⟩ => ?_, fun h => h.map _⟩
  have hfact := Fact.mk hirr
  have hdeg : Module.finrank F (AdjoinRoot (toPoly f)) = d := by
    rw [(AdjoinRoot.powerBasis hirr.ne_zero).finrank, AdjoinRoot.powerBasis_dim]
    exact natDegree_eq_of_degree_eq_some hf.degree
  have hn := congrArg (Algebra.norm F) hc
  rw [Algebra.norm_algebraMap, hdeg, map_mul] at hn
  obtain ⟨e, he⟩ := hd
  refine ⟨Algebra.norm F c * (v ^ e)⁻¹, ?_⟩
  have hve : v ^ e ≠ 0 := pow_ne_zero _ hv
  field_simp
  rw [pow_two (Algebra.norm F c), ← hn, he]
  ring

/-- **C111**, the nonresidue: in an extension of odd degree (3 for type D, 5 for type G) the search stops at
the first value that is 0 or not a square of the prime field; the latter is not a square of the extension either. -/
theorem C111_nqr_partial (hodd : Odd (Fintype.card F)) (d : ℕ) (hd : Odd d) (f : List F) (hf : Polymod.Modulus d f)
    (hirr : Irreducible (toPoly f)) :
    (∀ vs v, nqrLoop (Fintype.card F) d f vs = some v →
      v = 0 ∨ (¬ IsSquare (algebraMap F (AdjoinRoot (toPoly f)) v) ∧ ¬ IsSquare v)) ∧
    (∀ vs v, v ∈ vs → ¬ IsSquare v → ∃ w, nqrLoop (Fintype.card F) d f vs = some w) := by
  have hfact := Fact.mk hirr
  have key : ∀ w, w ≠ 0 → ∃ b, Polymod.isSqr (Fintype.card F ^ d)
      (⟨fun i => if i = 0 then w else 0⟩ : Polymod.Arr d f) = some b ∧ (b = true ↔ IsSquare w) := by
    intro w hw
    have he : Polymod.el (toPoly f) d (fun i => if i = 0 then w else 0) ≠ 0 := by
      rw [el_const _ d hf.pos]
      exact (_root_.map_ne_zero _).2 hw
    obtain ⟨b, k1, k2⟩ := C76_is_sqr_partial hodd hf ⟨fun i => if i = 0 then w else 0⟩ he
    refine ⟨b, k1, ?_⟩
    rw [k2, el_const _ d hf.pos, square_ext f d hf hirr hd w hw]
  have key0 : Polymod.isSqr (Fintype.card F ^ d)
      (⟨fun i => if i = 0 then 0 else 0⟩ : Polymod.Arr d f) = some false := by
    refine (C76_zero_fails hodd hf ⟨fun i => if i = 0 then (0 : F) else 0⟩ ?_).1
    exact (el_const _ d hf.pos 0).trans (map_zero _)
  constructor
  · intro vs
    induction vs with
    | nil => intro v h; cases h
    | cons w rest ih =>
      intro v h
      rw [nqrLoop] at h
      by_cases hw : w = 0
      · subst hw
        rw [key0] at h
        cases h
        exact Or.inl rfl
      · obtain ⟨b, k1, k2⟩ := key w hw
        rw [k1] at h
        cases b with
        | true => exact ih v h
        | false =>
          cases h
          have hn : ¬ IsSquare w := fun hs => by cases k2.2 hs
          exact Or.inr ⟨fun hs => hn ((square_ext f d hf hirr hd _ hw).1 hs), hn⟩
  · intro vs
    induction vs with
    | nil => intro v h; cases h
    | cons w rest ih =>
      intro v hm hv
      rw [nqrLoop]
      by_cases hw : w = 0
      · subst hw
        rw [key0]
        exact ⟨0, rfl⟩
      · obtain ⟨b, k1, k2⟩ := key w hw
        rw [k1]
        cases b with
        | true =>
          rcases List.mem_cons.1 hm with rfl | hm
          · exact absurd (k2.1 rfl) hv
          · exact ih v hm hv
        | false => exact ⟨w, rfl⟩

/-- **C111, what fails.**  If 0 is drawn it is taken for a nonresidue. -/
theorem C111_nqr_zero_fails (hodd : Odd (Fintype.card F)) (d : ℕ) (f : List F) (hf : Polymod.Modulus d f)
    (hirr : Irreducible (toPoly f)) (vs : List F) :
    nqrLoop (Fintype.card F) d f (0 :: vs) = some 0 := by
  have := Fact.mk hirr
  have he : Polymod.el (toPoly f) d (fun i => if i = 0 then (0 : F) else 0) = 0 := by
    rw [el_const _ d hf.pos, map_zero]
  rw [nqrLoop, (C76_zero_fails hodd hf ⟨fun i => if i = 0 then (0 : F) else 0⟩ he).1]

/-- **C111**, everything recorded by `pbc_param_init_d_gen` (`d = 3`, `k = 6`) and by `pbc_param_init_g_gen`
(`d = 5`, `k = 10`) together. -/
theorem C111_gen_partial (h2 : (2 : F) ≠ 0) (h3 : (3 : F) ≠ 0) (hodd : Odd (Fintype.card F)) {coeffs : List ℤ} {m : ℕ}
    (hm : 2 ≤ m) (hc : Polymod.Modulus m coeffs) (hroot : ∃ j : F, aeval j (toPoly coeffs) = 0)
    (h0 : aeval (0 : F) (toPoly coeffs) ≠ 0) {isSqr : F → Bool} (hs : ∀ a, isSqr a = true ↔ IsSquare a)
    {sq : F → F} (hsq : ∀ a, IsSquare a → sq a ^ 2 = a) {vs : List F} {nqr : F} (hv : genNqr isSqr vs = some nqr)
    {n r k d : ℕ} (hd : Odd d) {rnd draws : List F} {x : ℕ} {polys : List (List F)}
    (hl : ∀ c ∈ polys, c.length = d) {ws : List F} {out : DGen F}
    (h : dGen isSqr sq nqr (Fintype.card F) n r k d coeffs rnd draws x polys ws = some out) :
    (∃ _ : (EC out.a out.b).IsElliptic, aeval (EC out.a out.b).j (toPoly coeffs) = 0) ∧
      (Polymod.Modulus d out.irred ∧ Irreducible (toPoly out.irred)) ∧
      (out.nqr = 0 ∨ (¬ IsSquare (algebraMap F (AdjoinRoot (toPoly out.irred)) out.nqr) ∧ ¬ IsSquare out.nqr)) ∧
      cmCurve isSqr sq nqr (Fintype.card F) n coeffs rnd draws x = some (out.a, out.b) ∧
      (out.nk, out.hk) = cmOrders (Fintype.card F) n r k := by
  rw [dGen] at h
  cases h1 : cmCurve isSqr sq nqr (Fintype.card F) n coeffs rnd draws x with
  | none => rw [h1] at h; cases h
  | some ab =>
    obtain ⟨a, b⟩ := ab
    rw [h1] at h
    dsimp only at h
    cases h4 : irredLoop (Fintype.card F) polys with
    | none => rw [h4] at h; cases h
    | some f =>
      rw [h4] at h
      dsimp only at h
      cases h5 : nqrLoop (Fintype.card F) d f ws with
      | none => rw [h5] at h; cases h
      | some v =>
        rw [h5] at h
        cases h
        have hf := C111_irreducible d hd.pos polys hl f h4
        exact ⟨C111_invariant h2 h3 hm hc hroot h0 hs hsq hv h1, hf,
          (C111_nqr_partial hodd d hd f hf.1 hf.2).1 ws v h5, rfl, rfl⟩

local instance : Fact (Nat.Prime 19) := ⟨by norm_num⟩

/-- Square roots modulo 19. -/
def root19 (a : ZMod 19) : ZMod 19 :=
  (((List.range 19).map fun i : ℕ => (i : ZMod 19)).find? fun y => decide (y ^ 2 = a)).getD 0

/-- Discriminant -15, class polynomial `x² + 191025 x - 121287375`, in the field of 19 elements
(`4 · 19 = 4² + 15 · 2²`): the roots are 5 and 15, and the curves have 16 or 24 points. -/
example : cmCurve (fun a : ZMod 19 => decide (IsSquare a)) root19 2 19 16 [-121287375, 191025, 1] [0, 1, 2, 3] [0, 1, 2, 3] 3 =
    some (15, 10) := by decide +kernel


/-- With 24 points wanted the curve with 16 points is kept all the same, for every choice of the point: all its
points are killed by 8. -/
example : ∀ u : ZMod 19, ∀ x < 8, cmCurve (fun a : ZMod 19 => decide (IsSquare a)) root19 2 19 24 [-121287375, 191025, 1]
    [0, 1, 2, 3] [u] x ∈ [none, some (15, 10)] := by decide +kernel

local instance : Fact (Nat.Prime 31) := ⟨by norm_num⟩

/-- Square roots modulo 31. -/
def root31 (a : ZMod 31) : ZMod 31 :=
  (((List.range 31).map fun i : ℕ => (i : ZMod 31)).find? fun y => decide (y ^ 2 = a)).getD 0

/-- In the field of 31 elements the curves have 40 or 24 points; with 24 wanted the curve is twisted. -/
example : cmCurve (fun a : ZMod 31 => decide (IsSquare a)) root31 3 31 24 [-121287375, 191025, 1] [0, 1, 2, 3] [0, 1, 2, 3] 1 =
    some (17, 3) := by decide +kernel

example : ∃ j : ZMod 19, aeval j (toPoly ([-121287375, 191025, 1] : List ℤ)) = 0 :=
  ⟨5, by rw [← toPoly_classPoly]; simp [classPoly, Poly.toPoly_cons, Poly.toPoly_nil]; decide⟩

example : aeval (0 : ZMod 19) (toPoly ([-121287375, 191025, 1] : List ℤ)) ≠ 0 := by
  rw [← toPoly_classPoly]; simp [classPoly, Poly.toPoly_cons, Poly.toPoly_nil]; decide

/-- The hypothesis on the number of points is met by a curve with 16 points and one with 24. -/
example : cmOrders 19 16 8 2 = (384, 6) := by decide

/-- Type F with `x = -1`: `q = 19`, `r = 13`; the curve with 12 points is passed over. -/
example : (ParamGen.fGen ParamGen.isPrime 1 6).map (fun o => (o.q, o.r, o.t)) = some (19, 13, 7) := by decide +kernel

example : fCurve (fun a : ZMod 19 => decide (IsSquare a)) root19 13 [(1, [0, 1, 2], 5), (2, [0, 4], 5)] = some 2 := by
  decide +kernel

end typeD

end Props
