import Verif.Lemmas.EtaTPairing
import Mathlib.Algebra.Field.ZMod

/-!
# Properties of the type I pairing (`/repo/ecc/eta_T_3.c`)

The base field is any field `F` of characteristic 3; where the number `m` enters, `F` has `3^m`
elements and `m` is prime to 6, as in all generated parameters (`C103_parameters`).
-/

set_option autoImplicit false
set_option linter.unusedSectionVars false

namespace Pbc.EtaT

open Spec
open Pbc.Ternary (E2 E3)
open Pbc.Curve (Pt Mem fresh)

private instance : Fact (Nat.Prime 3) := ⟨by decide⟩

variable {F : Type*} [Field F] [DecidableEq F] [CharP F 3]

/-! ### Points -/

/-- **C98**, every program of calls computes the operations of the group of the curve. -/
theorem C98_programs (t : ℕ) (prog : List GroupOp) (ht : ∀ o ∈ prog, t ∉ o.vars) (mem : Mem F)
    (s : ℕ → (EC (-1 : F) 1).Point) (h : ∀ i, i ≠ t → PtRep (mem i) (s i)) :
    ∃ mem', run t mem prog = some mem' ∧ ∀ i, i ≠ t → PtRep (mem' i) (groupRun s prog i) :=
  run_rep t prog ht mem s h

/-- All solutions of the equation are points of the group. -/
theorem C98_equation (p : Pt F) : OnCurve (-1 : F) 1 p ↔ ∃ P : (EC (-1 : F) 1).Point, PtRep p P := by
  constructor
  · rintro (h | h)
    · exact ⟨0, h⟩
    · by_cases hi : p.inf = true
      · exact ⟨0, hi⟩
      · have e : p.y ^ 2 = p.x ^ 3 - p.x + 1 := by rw [h]; ring
        exact ⟨pt p.x p.y e, by simpa using hi, rfl, rfl⟩
  · rintro ⟨P, hP⟩
    rcases P with _ | ⟨x, y, hn⟩
    · exact Or.inl hP
    · obtain ⟨_, rfl, rfl⟩ := hP
      refine Or.inr ?_
      rw [eqn hn]; ring

/-- **C98**, invariant: whatever program of calls runs, all elements stay on the curve. -/
theorem C98_on_curve (t : ℕ) (prog : List GroupOp) (ht : ∀ o ∈ prog, t ∉ o.vars) (mem : Mem F)
    (h : ∀ i, i ≠ t → OnCurve (-1 : F) 1 (mem i)) :
    ∃ mem', run t mem prog = some mem' ∧ ∀ i, i ≠ t → OnCurve (-1 : F) 1 (mem' i) := by
  have hex : ∀ i, ∃ P : (EC (-1 : F) 1).Point, i ≠ t → PtRep (mem i) P := by
    intro i
    by_cases hi : i = t
    · exact ⟨0, fun h => absurd hi h⟩
    · obtain ⟨P, hP⟩ := (C98_equation _).1 (h i hi)
      exact ⟨P, fun _ => hP⟩
  choose s hs using hex
  obtain ⟨m', e, h'⟩ := C98_programs t prog ht mem s hs
  exact ⟨m', e, fun i hi => (C98_equation _).2 ⟨_, h' i hi⟩⟩

/-- **C98**, the tests answer for the points. -/
theorem C98_tests {p q : Pt F} {P Q : (EC (-1 : F) 1).Point} (hP : PtRep p P) (hQ : PtRep q Q) :
    (is0 p = true ↔ P = 0) ∧ (cmp p q = false ↔ P = Q) := by
  rcases P with _ | ⟨x, y, hn⟩ <;> rcases Q with _ | ⟨x', y', hn'⟩
  · have h : p.inf = true := hP
    have h' : q.inf = true := hQ
    exact ⟨⟨fun _ => rfl, fun _ => h⟩, ⟨fun _ => rfl, fun _ => by rw [cmp, if_pos (h.trans h'.symm), if_pos h]⟩⟩
  · have h : p.inf = true := hP
    obtain ⟨h', rfl, rfl⟩ := hQ
    refine ⟨⟨fun _ => rfl, fun _ => h⟩, ⟨fun e => ?_, fun e => by cases e⟩⟩
    rw [cmp, if_neg (by rw [h, h']; decide)] at e; cases e
  · obtain ⟨h, rfl, rfl⟩ := hP
    have h' : q.inf = true := hQ
    refine ⟨⟨fun e => ?_, fun e => by cases e⟩, ⟨fun e => ?_, fun e => by cases e⟩⟩
    · rw [is0, h] at e; cases e
    · rw [cmp, if_neg (by rw [h, h']; decide)] at e; cases e
  · obtain ⟨h, rfl, rfl⟩ := hP
    obtain ⟨h', rfl, rfl⟩ := hQ
    refine ⟨⟨fun e => ?_, fun e => by cases e⟩, ⟨fun e => ?_, fun e => ?_⟩⟩
    · rw [is0, h] at e; cases e
    · rw [cmp, if_pos (h.trans h'.symm), h] at e
      simp only [Bool.false_eq_true, if_false, Bool.or_eq_false_iff, decide_eq_false_iff_not, not_not] at e
      simp [e.1, e.2]
    · simp only [WeierstrassCurve.Affine.Point.some.injEq] at e
      rw [cmp, if_pos (h.trans h'.symm), h]
      simp [e.1, e.2]

/-- `(0, 1)` on the curve over GF(3) has order 7; doubling and adding with aliases. -/
example : ((run (F := ZMod 3) 9 (fun _ => ⟨false, 0, 1⟩)
      [.double 1 1, .add 1 1 0, .sub 1 1 0, .neg 2 0, .add 0 0 2, .mulMpz 3 3 7]).map fun m =>
        [is0 (m 0), cmp (m 1) (m 2), is0 (m 3)]) = some [true, true, true] := by
  decide +kernel

/-! ### Random points -/

/-- **C99**, the part that holds: if the first value drawn is not 0 and the square roots the field
delivers are checked as they are here, the result is `n2` times a point of the curve; it is killed by
`n` when `n n2` is the order of the curve. -/
theorem C99_random_partial [Fintype F] {m : ℕ} (hF : Fintype.card F = 3 ^ m)
    (hm : m % 12 = 1 ∨ m % 12 = 5 ∨ m % 12 = 7 ∨ m % 12 = 11) (sqrt : F → F) {n n2 : ℕ}
    (hn : n * n2 = Spec.EtaT.order m) (x : F) (hx : x ≠ 0) (draws : List F) (old p : Pt F)
    (h : random sqrt n2 (x :: draws) old = some p) :
    ∃ P : (EC (-1 : F) 1).Point, PtRep p (n2 • P) ∧ n • n2 • P = 0 := by
  have key : ∀ (draws : List F) (t t2 y : F), t2 ≠ t → ∀ r, randLoop sqrt draws t t2 y = some r →
      r.2 ^ 2 = r.1 ^ 3 - r.1 + 1 := by
    intro draws
    induction draws with
    | nil => intro t t2 y _ r hr; cases hr
    | cons x draws ih =>
      intro t t2 y ht r hr
      rw [randLoop] at hr
      by_cases hx : x = 0
      · rw [if_pos hx, if_neg ht] at hr
        exact ih t t2 y ht r hr
      · rw [if_neg hx] at hr
        by_cases hs : sqrt (x ^ 3 - x + 1) * sqrt (x ^ 3 - x + 1) = x ^ 3 - x + 1
        · simp only [if_pos hs, Option.some.injEq] at hr
          rw [← hr, sq]
          exact hs
        · simp only [if_neg hs] at hr
          exact ih _ _ _ hs r hr
  rw [random] at h
  have hloop : ∀ r, randLoop sqrt (x :: draws) 0 0 old.y = some r → r.2 ^ 2 = r.1 ^ 3 - r.1 + 1 := by
    intro r hr
    rw [randLoop, if_neg hx] at hr
    by_cases hs : sqrt (x ^ 3 - x + 1) * sqrt (x ^ 3 - x + 1) = x ^ 3 - x + 1
    · simp only [if_pos hs, Option.some.injEq] at hr
      rw [← hr, sq]
      exact hs
    · simp only [if_neg hs] at hr
      exact key _ _ _ _ hs r hr
  rcases hl : randLoop sqrt (x :: draws) 0 0 old.y with _ | ⟨x', y'⟩
  · rw [hl] at h; cases h
  · rw [hl] at h
    have e := hloop _ hl
    obtain ⟨r, e1, hr⟩ := pow_rep (p := ⟨false, x', y'⟩) (P := pt x' y' e) ⟨rfl, rfl, rfl⟩ n2
    have hpr : p = r := Option.some.inj (h.symm.trans e1)
    refine ⟨pt x' y' e, by rw [hpr]; exact hr, ?_⟩
    rw [smul_smul, hn, order_smul hF hm]

example : random (F := ZMod 3) (fun t => t) 1 [2, 0] ⟨false, 0, 0⟩ = some ⟨false, 2, 1⟩ := by decide +kernel

/-- The elements that stand for 0 and 1 in a group of two elements when the routines run on `(0, 0)`. -/
private def Rep2 (g : GPt F) (a : Multiplicative (ZMod 2)) : Prop :=
  ∃ p, g.val = some p ∧ ((a.toAdd = 0 ∧ p.inf = true) ∨ (a.toAdd = 1 ∧ p.inf = false ∧ p.x = 0 ∧ p.y = 0))

private theorem addV2 {p q : Pt F} {a b : ZMod 2}
    (hp : (a = 0 ∧ p.inf = true) ∨ (a = 1 ∧ p.inf = false ∧ p.x = 0 ∧ p.y = 0))
    (hq : (b = 0 ∧ q.inf = true) ∨ (b = 1 ∧ q.inf = false ∧ q.x = 0 ∧ q.y = 0)) :
    ∃ r, addV p q = some r ∧ ((a + b = 0 ∧ r.inf = true) ∨ (a + b = 1 ∧ r.inf = false ∧ r.x = 0 ∧ r.y = 0)) := by
  obtain ⟨pi, px, py⟩ := p
  obtain ⟨qi, qx, qy⟩ := q
  rcases hp with ⟨rfl, h1⟩ | ⟨rfl, h1, h2, h3⟩ <;> rcases hq with ⟨rfl, k1⟩ | ⟨rfl, k1, k2, k3⟩ <;>
    simp_all [addV, add, set, Pbc.Curve.wInf, Pbc.Curve.wX, Pbc.Curve.wY, Function.update] <;> decide

/-- **C99** fails in general: if the first value drawn is 0, `continue` leaves the loop, because the
two temporaries it compares are still equal.  A fresh element then ends as `(0, 0)`, which is not on
the curve, whatever odd cofactor it is multiplied by. -/
theorem C99_random_fails (sqrt : F → F) (n2 : ℕ) (hn : n2 % 2 = 1) (draws : List F) :
    ∃ p, random sqrt n2 (0 :: draws) ⟨true, 0, 0⟩ = some p ∧ p.inf = false ∧ p.x = 0 ∧ p.y = 0 ∧
      ¬ OnCurve (-1 : F) 1 p := by
  have pr : Gen.PowRel (Rep2 (F := F)) :=
    { one := ⟨fresh, rfl, Or.inl ⟨rfl, rfl⟩⟩
      mul := by
        rintro a b c d ⟨p, hp, hP⟩ ⟨q, hq, hQ⟩
        obtain ⟨r, e, h⟩ := addV2 hP hQ
        refine ⟨r, ?_, h⟩
        change a.val.bind (fun p => c.val.bind fun q => addV p q) = some r
        rw [hp, hq]
        exact e
      sqr := by
        rintro a b ⟨p, hp, hP⟩
        obtain ⟨r, e, h⟩ := addV2 hP hP
        refine ⟨r, ?_, h⟩
        change a.val.bind (fun p => addV p p) = some r
        rw [hp]
        exact e }
  obtain ⟨g, e, r, hr, h⟩ := Gen.powMpz_rel pr (a := (⟨some ⟨false, 0, 0⟩⟩ : GPt F))
    (b := Multiplicative.ofAdd (1 : ZMod 2)) ⟨_, rfl, Or.inr ⟨rfl, rfl, rfl, rfl⟩⟩ n2
  have e1 : random sqrt n2 (0 :: draws) (⟨true, 0, 0⟩ : Pt F) = some r := by
    rw [random, randLoop, if_pos rfl, if_pos rfl]
    simp only [e]
    exact hr
  have h1 : (Multiplicative.ofAdd (1 : ZMod 2) ^ n2).toAdd = 1 := by
    rw [toAdd_pow, toAdd_ofAdd, nsmul_eq_mul, mul_one]
    have := ZMod.natCast_mod n2 2
    rw [hn] at this
    rw [← this]; rfl
  rw [h1] at h
  rcases h with ⟨h, _⟩ | ⟨_, h2, h3, h4⟩
  · exact absurd h (by decide)
  · refine ⟨r, e1, h2, h3, h4, ?_⟩
    rintro (hi | hi)
    · rw [h2] at hi; cases hi
    · rw [h3, h4] at hi
      have : (1 : F) = 0 := by linear_combination -hi
      exact one_ne_zero this

/-! ### The final powering -/

section
variable [Fintype F] {m : ℕ}

/-- **C100**: `algorithm6` is the power `3^(3m) - 1`; on its results `algorithm7` is the power `3^m + 1`;
`algorithm8` is the power `(3^(3m) - 1) (3^m + 1) (3^m + 1 - μ 3^((m+1)/2))`, whose product with the order
of the curve is `3^(6m) - 1`.  They fail on 0 only. -/
theorem C100_final (hF : Fintype.card F = 3 ^ m)
    (hm : m % 12 = 1 ∨ m % 12 = 5 ∨ m % 12 = 7 ∨ m % 12 = 11) :
    (∀ u : E3 (E2 F), u ≠ ⟨0, 0, 0⟩ → ∃ v, alg6 u = some v ∧ v = npow u (3 ^ (3 * m) - 1) ∧
      alg7 m v = npow v (3 ^ m + 1)) ∧
    (∀ u : E3 (E2 F), u ≠ ⟨0, 0, 0⟩ → alg8 m u = some (npow u (Spec.EtaT.expo m))) ∧
    alg8 m (⟨0, 0, 0⟩ : E3 (E2 F)) = none ∧
    Spec.EtaT.order m * Spec.EtaT.expo m = 3 ^ (6 * m) - 1 := by
  obtain ⟨K, L, _, _, _, _, _, _, _, ρ, σ, T⟩ := exists_tower F hm hF
  refine ⟨fun u hu => ?_, fun u hu => ?_, T.alg8_zero, order_mul_expo hm⟩
  · obtain ⟨v, e, e2, h1⟩ := T.alg6_spec hm hu
    refine ⟨v, e, T.value_injective hm (by rw [e2, T.value_npow]), T.value_injective hm ?_⟩
    rw [T.alg7_spec hm h1, T.value_npow]
  · obtain ⟨v, e, e2⟩ := T.alg8_spec hm hu
    rw [e]
    exact congrArg some (T.value_injective hm (by rw [e2, T.value_npow]))

/-- **C101**: the unrolled loop, with its sparse cube, computes the same element as the plain one. -/
theorem C101_unrolled (hF : Fintype.card F = 3 ^ m)
    (hm : m % 12 = 1 ∨ m % 12 = 5 ∨ m % 12 = 7 ∨ m % 12 = 11) (h : (m - 1) / 2 % 2 = 0) (xP yP xQ yQ : F) :
    alg5 m xP yP xQ yQ = alg4 m xP yP xQ yQ := by
  obtain ⟨K, L, _, _, _, _, _, _, _, ρ, σ, T⟩ := exists_tower F hm hF
  exact T.alg5_eq hm h xP yP xQ yQ

/-! ### The pairing -/

/-- **C102**: for points of the curve the pairing is defined, and additive in both arguments. -/
theorem C102_bilinear (hF : Fintype.card F = 3 ^ m)
    (hm : m % 12 = 1 ∨ m % 12 = 5 ∨ m % 12 = 7 ∨ m % 12 = 11) :
    (∀ {P₁ P₂ P₃ Q : Pt F} {p₁ p₂ q : (EC (-1 : F) 1).Point},
      PtRep P₁ p₁ → PtRep P₂ p₂ → PtRep P₃ (p₁ + p₂) → PtRep Q q →
      ∃ v₁ v₂, pairing m P₁ Q = some v₁ ∧ pairing m P₂ Q = some v₂ ∧ pairing m P₃ Q = some (v₁.mul v₂)) ∧
    (∀ {P Q₁ Q₂ Q₃ : Pt F} {p q₁ q₂ : (EC (-1 : F) 1).Point},
      PtRep P p → PtRep Q₁ q₁ → PtRep Q₂ q₂ → PtRep Q₃ (q₁ + q₂) →
      ∃ v₁ v₂, pairing m P Q₁ = some v₁ ∧ pairing m P Q₂ = some v₂ ∧ pairing m P Q₃ = some (v₁.mul v₂)) := by
  obtain ⟨K, L, _, _, _, _, _, _, _, ρ, σ, T⟩ := exists_tower F hm hF
  exact ⟨fun h₁ h₂ h₃ hQ => T.pairing_add_left hm h₁ h₂ h₃ hQ,
    fun hP h₁ h₂ h₃ => T.pairing_add_right hm hP h₁ h₂ h₃⟩

private theorem exists_rep (p : (EC (-1 : F) 1).Point) : ∃ P : Pt F, PtRep P p := by
  rcases p with _ | ⟨x, y, h⟩
  · exact ⟨⟨true, 0, 0⟩, rfl⟩
  · exact ⟨⟨false, x, y⟩, rfl, rfl, rfl⟩

private theorem smul_left (hF : Fintype.card F = 3 ^ m)
    (hm : m % 12 = 1 ∨ m % 12 = 5 ∨ m % 12 = 7 ∨ m % 12 = 11) {P Q : Pt F} {p q : (EC (-1 : F) 1).Point}
    (hP : PtRep P p) (hQ : PtRep Q q) {v : E3 (E2 F)} (hv : pairing m P Q = some v) (a : ℕ) :
    ∀ {P' : Pt F}, PtRep P' (a • p) → pairing m P' Q = some (npow v a) := by
  induction a with
  | zero =>
    intro P' h
    rw [zero_smul] at h
    have h' : P'.inf = true := h
    rw [pairing, h']; rfl
  | succ a ih =>
    intro P' h
    obtain ⟨R, hR⟩ := exists_rep (a • p)
    rw [add_smul, one_smul] at h
    obtain ⟨v₁, v₂, e₁, e₂, e₃⟩ := (C102_bilinear hF hm).1 hR hP h hQ
    rw [ih hR, Option.some.injEq] at e₁
    rw [hv, Option.some.injEq] at e₂
    rw [e₃, ← e₁, ← e₂, npow]

private theorem smul_right (hF : Fintype.card F = 3 ^ m)
    (hm : m % 12 = 1 ∨ m % 12 = 5 ∨ m % 12 = 7 ∨ m % 12 = 11) {P Q : Pt F} {p q : (EC (-1 : F) 1).Point}
    (hP : PtRep P p) (hQ : PtRep Q q) {v : E3 (E2 F)} (hv : pairing m P Q = some v) (b : ℕ) :
    ∀ {Q' : Pt F}, PtRep Q' (b • q) → pairing m P Q' = some (npow v b) := by
  induction b with
  | zero =>
    intro Q' h
    rw [zero_smul] at h
    have h' : Q'.inf = true := h
    rw [pairing, h', Bool.or_true]; rfl
  | succ b ih =>
    intro Q' h
    obtain ⟨R, hR⟩ := exists_rep (b • q)
    rw [add_smul, one_smul] at h
    obtain ⟨v₁, v₂, e₁, e₂, e₃⟩ := (C102_bilinear hF hm).2 hP hR hQ h
    rw [ih hR, Option.some.injEq] at e₁
    rw [hv, Option.some.injEq] at e₂
    rw [e₃, ← e₁, ← e₂, npow]

/-- **C102**, multiples: `e(a P, b Q) = e(P, Q)^(a b)`. -/
theorem C102_scalars (hF : Fintype.card F = 3 ^ m)
    (hm : m % 12 = 1 ∨ m % 12 = 5 ∨ m % 12 = 7 ∨ m % 12 = 11) {P Q P' Q' : Pt F}
    {p q : (EC (-1 : F) 1).Point} (hP : PtRep P p) (hQ : PtRep Q q) (a b : ℕ) (hP' : PtRep P' (a • p))
    (hQ' : PtRep Q' (b • q)) :
    ∃ v, pairing m P Q = some v ∧ pairing m P' Q' = some (npow v (a * b)) := by
  obtain ⟨K, L, _, _, _, _, _, _, _, ρ, σ, T⟩ := exists_tower F hm hF
  obtain ⟨v, hv, _⟩ := T.pairing_spec hm hP hQ
  refine ⟨v, hv, ?_⟩
  rw [smul_right hF hm hP' hQ (smul_left hF hm hP hQ hv a hP') b hQ']
  refine congrArg some (T.value_injective hm ?_)
  rw [T.value_npow, T.value_npow, T.value_npow, pow_mul]

/-- **C102**, symmetry: on multiples of one point the arguments may be exchanged. -/
theorem C102_symmetric (hF : Fintype.card F = 3 ^ m)
    (hm : m % 12 = 1 ∨ m % 12 = 5 ∨ m % 12 = 7 ∨ m % 12 = 11) {P Q : Pt F}
    (g : (EC (-1 : F) 1).Point) (a b : ℕ) (hP : PtRep P (a • g)) (hQ : PtRep Q (b • g)) :
    pairing m P Q = pairing m Q P := by
  obtain ⟨G, hG⟩ := exists_rep g
  obtain ⟨v, e, e1⟩ := C102_scalars hF hm hG hG a b hP hQ
  obtain ⟨w, e', e2⟩ := C102_scalars hF hm hG hG b a hQ hP
  rw [e, Option.some.injEq] at e'
  rw [e1, e2, e', mul_comm]

/-- **C102**, order: the values are roots of unity, of the order of the first or of the second argument. -/
theorem C102_order (hF : Fintype.card F = 3 ^ m)
    (hm : m % 12 = 1 ∨ m % 12 = 5 ∨ m % 12 = 7 ∨ m % 12 = 11) {P Q : Pt F}
    {p q : (EC (-1 : F) 1).Point} (hP : PtRep P p) (hQ : PtRep Q q) (n : ℕ) (hn : n • p = 0 ∨ n • q = 0) :
    ∃ v, pairing m P Q = some v ∧ npow v n = E3.one := by
  rcases hn with hn | hn
  · obtain ⟨v, e, e'⟩ := C102_scalars hF hm hP hQ n 1 (P' := ⟨true, 0, 0⟩) (Q' := Q) (by rw [hn]; rfl)
      (by rwa [one_smul])
    rw [mul_one] at e'
    exact ⟨v, e, (Option.some.inj e').symm⟩
  · obtain ⟨v, e, e'⟩ := C102_scalars hF hm hP hQ 1 n (P' := P) (Q' := ⟨true, 0, 0⟩) (by rwa [one_smul])
      (by rw [hn]; rfl)
    rw [one_mul, pairing, Bool.or_true] at e'
    exact ⟨v, e, (Option.some.inj e').symm⟩

/-- Over GF(3), where `(0, 1)` has order 7: the value at `((0, 1), (0, 1))` is not 1, its seventh power is. -/
example : ((pairing (F := ZMod 3) 1 ⟨false, 0, 1⟩ ⟨false, 0, 1⟩).map fun v =>
    let w := npow v 7
    [w.c0.c0, w.c0.c1, w.c1.c0, w.c1.c1, w.c2.c0, w.c2.c1]) = some [1, 0, 0, 0, 0, 0] := by
  decide +kernel

example : ((pairing (F := ZMod 3) 1 ⟨false, 0, 1⟩ ⟨false, 0, 1⟩).map fun v =>
    [v.c0.c0, v.c0.c1, v.c1.c0, v.c1.c1, v.c2.c0, v.c2.c1]) = some [2, 0, 1, 1, 2, 1] := by
  decide +kernel

/-! ### The order of the curve and the generated parameters -/

/-- **C103**: multiplying by `3^m + 1 ± 3^((m+1)/2)` gives the neutral element, for every point. -/
theorem C103_order (hF : Fintype.card F = 3 ^ m)
    (hm : m % 12 = 1 ∨ m % 12 = 5 ∨ m % 12 = 7 ∨ m % 12 = 11) (mem : Mem F) (c a : ℕ)
    (h : OnCurve (-1 : F) 1 (mem a)) :
    ∃ mem', mulMpz mem c a (Spec.EtaT.order m) = some mem' ∧ is0 (mem' c) = true := by
  obtain ⟨P, hP⟩ := (C98_equation _).1 h
  obtain ⟨m', e, h', _⟩ := mulMpz_rep hP c (Spec.EtaT.order m)
  rw [order_smul hF hm] at h'
  exact ⟨m', e, h'⟩

end

/-- **C103**, the generated parameters: the degree is prime to 6 and so in one of the four classes the
routines distinguish, group order times cofactor is the order of the curve, both are odd, and the group
order has more than the requested number of bits. -/
theorem C103_parameters (size : ℤ) (p : Params) (h : paramGen size = some p) :
    (p.m % 12 = 1 ∨ p.m % 12 = 5 ∨ p.m % 12 = 7 ∨ p.m % 12 = 11) ∧ p.n * p.n2 = Spec.EtaT.order p.m ∧
    p.n % 2 = 1 ∧ p.n2 % 2 = 1 ∧ 0 < p.t ∧ p.t < p.m ∧ 2 ^ size.toNat < p.n := by
  have key : ∀ (b : ℤ) (q : Params), size ≤ b →
      ((q.m % 12 = 1 ∨ q.m % 12 = 5 ∨ q.m % 12 = 7 ∨ q.m % 12 = 11) ∧ q.n * q.n2 = Spec.EtaT.order q.m ∧
        q.n % 2 = 1 ∧ q.n2 % 2 = 1 ∧ 0 < q.t ∧ q.t < q.m ∧ 2 ^ b.toNat < q.n) →
      ((q.m % 12 = 1 ∨ q.m % 12 = 5 ∨ q.m % 12 = 7 ∨ q.m % 12 = 11) ∧ q.n * q.n2 = Spec.EtaT.order q.m ∧
        q.n % 2 = 1 ∧ q.n2 % 2 = 1 ∧ 0 < q.t ∧ q.t < q.m ∧ 2 ^ size.toNat < q.n) := by
    rintro b q hs ⟨h1, h2, h3, h4, h0, h5, h6⟩
    exact ⟨h1, h2, h3, h4, h0, h5, lt_of_le_of_lt (Nat.pow_le_pow_right (by decide) (Int.toNat_le_toNat hs)) h6⟩
  unfold paramGen at h
  by_cases h150 : size ≤ 150
  · rw [if_pos h150] at h
    exact Option.some.inj h ▸ key _ _ h150 (by decide +kernel)
  rw [if_neg h150] at h
  by_cases h206 : size ≤ 206
  · rw [if_pos h206] at h
    exact Option.some.inj h ▸ key _ _ h206 (by decide +kernel)
  rw [if_neg h206] at h
  by_cases h259 : size ≤ 259
  · rw [if_pos h259] at h
    exact Option.some.inj h ▸ key _ _ h259 (by decide +kernel)
  rw [if_neg h259] at h
  by_cases h316 : size ≤ 316
  · rw [if_pos h316] at h
    exact Option.some.inj h ▸ key _ _ h316 (by decide +kernel)
  rw [if_neg h316] at h
  by_cases h376 : size ≤ 376
  · rw [if_pos h376] at h
    exact Option.some.inj h ▸ key _ _ h376 (by decide +kernel)
  rw [if_neg h376] at h
  by_cases h430 : size ≤ 430
  · rw [if_pos h430] at h
    exact Option.some.inj h ▸ key _ _ h430 (by decide +kernel)
  rw [if_neg h430] at h
  by_cases h484 : size ≤ 484
  · rw [if_pos h484] at h
    exact Option.some.inj h ▸ key _ _ h484 (by decide +kernel)
  rw [if_neg h484] at h
  by_cases h552 : size ≤ 552
  · rw [if_pos h552] at h
    exact Option.some.inj h ▸ key _ _ h552 (by decide +kernel)
  rw [if_neg h552] at h
  by_cases h644 : size ≤ 644
  · rw [if_pos h644] at h
    exact Option.some.inj h ▸ key _ _ h644 (by decide +kernel)
  rw [if_neg h644] at h
  by_cases h696 : size ≤ 696
  · rw [if_pos h696] at h
    exact Option.some.inj h ▸ key _ _ h696 (by decide +kernel)
  rw [if_neg h696] at h
  by_cases h803 : size ≤ 803
  · rw [if_pos h803] at h
    exact Option.some.inj h ▸ key _ _ h803 (by decide +kernel)
  rw [if_neg h803] at h
  by_cases h892 : size ≤ 892
  · rw [if_pos h892] at h
    exact Option.some.inj h ▸ key _ _ h892 (by decide +kernel)
  rw [if_neg h892] at h
  cases h

example : (paramGen 160).map (fun p => (p.m, p.t)) = some (199, 164) := by decide +kernel

end Pbc.EtaT
