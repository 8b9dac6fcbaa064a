import Verif.Lemmas.PairingAProd
import Verif.Spec.Pairing
import Mathlib.Tactic.NormNum.Prime

/-! # Pairings of types A and A1

`K` is a finite field in which `-1` is not a square, the curve is `Y² = X³ + X`, GT lives in
`K(i) = QuadraticAlgebra K (-1) 0`.  The pairing that should be computed is defined without reference to
the code: `eA r h P Q` is `F(φ(Q))^((q-1)h)` for a function `F` whose divisor is `r(P)` at the
finite points, where `φ(x, y) = (-x, i y)` (`C80_tate`). -/

set_option autoImplicit false
set_option linter.unusedSectionVars false

namespace Pbc.PairingA

open Pbc.Quad
open Pbc.Curve (Pt)
open WeierstrassCurve WeierstrassCurve.Affine
open Spec (EC PtRep Bilinear)
open Tate

variable {K : Type*} [Field K] [DecidableEq K] [Fintype K] [Fact (∀ r : K, r ^ 2 ≠ -1 + 0 * r)]

/-- The reduced Tate pairing with distortion map. -/
noncomputable def eA (r h : ℕ) (P Q : (EC (1 : K) 0).Point) : L2 K :=
  tateT tw r ((Fintype.card K - 1) * h) P Q

variable {p : Params} {r l : ℕ} {inv : K → K}

/-- A type A pairing over `K`: `r = 2^exp2 ± 2^exp1 ± 1` is a prime above 5 and `q + 1 = h r`. -/
structure TypeA (K : Type*) [Field K] [Fintype K] (p : Params) (r : ℕ) (inv : K → K) : Prop where
  valid : ValidA p r
  prime : r.Prime
  cof : Fintype.card K + 1 = p.h * r
  inv : ∀ x : K, x ≠ 0 → inv x = x⁻¹

/-- A type A1 pairing over `K`: `r ≥ 3` is odd, not necessarily prime, and `p + 1 = l r`. -/
structure TypeA1 (K : Type*) [Field K] [Fintype K] (r l : ℕ) : Prop where
  odd : Odd r
  three : 3 ≤ r
  cof : Fintype.card K + 1 = l * r

/-! ### The pairing -/

/-- The pairing is bilinear, with values in the `r`-th roots of unity. -/
theorem eA_bilinear {h : ℕ} (hodd : Odd r) (hq : Fintype.card K + 1 = h * r) :
    Bilinear r (eA (K := K) r h) where
  add_left P₁ P₂ Q h₁ h₂ _ := tateT_add_left tw (kills hq) hodd.pos.ne' h₁ h₂ Q
  add_right P Q₁ Q₂ hP h₁ h₂ := tateT_add_right tw (kills hq) hodd hP h₁ h₂
  root P Q hP _ := tateT_pow tw (kills hq) hodd.pos.ne' hP Q

theorem good_of {Q : (EC (1 : K) 0).Point} {q' : Pt K} (hodd : Odd r) (hq' : PtRep q' Q) (hQ : Q ≠ 0)
    (hr : r • Q = 0) : ∃ hg : Good q', ∀ h P, eA r h P Q = tate r ((Fintype.card K - 1) * h) P (pl q' hg) := by
  obtain ⟨hn, rfl, _⟩ := rep_some hq' hQ
  have hy := y_ne_of_odd hn hodd hr
  refine ⟨⟨eqn_of hn, hy⟩, fun h P => ?_⟩
  rw [eA, tateT_some tw P hn hy]
  rfl

theorem TypeA.even (h : TypeA K p r inv) : Even p.h := h_even h.cof h.valid.odd

theorem TypeA1.even (h : TypeA1 K r l) : Even l := h_even h.cof h.odd

/-- What a Miller function gives after the final powering of type A. -/
theorem TypeA.final (h : TypeA K p r inv) {P Q : (EC (1 : K) 0).Point} {q' : Pt K} (hP : P ≠ 0)
    (hq' : PtRep q' Q) (hQ : Q ≠ 0) (hr : r • Q = 0) {F : Place (L2 K) (1 : K) 0 → L2 K}
    (hF : Full P r F) : ∃ hg : Good q', ∀ f, alg (-1) f = F (pl q' hg) →
      ∃ g, tateexp inv f p.h = some g ∧ alg (-1) g = eA r p.h P Q := by
  obtain ⟨hg, he⟩ := good_of h.valid.odd hq' hQ hr
  refine ⟨hg, fun f hf => ?_⟩
  obtain ⟨g, eg, hg'⟩ := tateexp_eq h.inv (f := f) (by rw [hf]; exact hF.ne_zero _) h.even
  exact ⟨g, eg, by rw [hg', he, tate_eq (kills h.cof) hP hF, hf]⟩

/-- The same for type A1. -/
theorem TypeA1.final (h : TypeA1 K r l) {P Q : (EC (1 : K) 0).Point} {q' : Pt K} (hP : P ≠ 0)
    (hq' : PtRep q' Q) (hQ : Q ≠ 0) (hr : r • Q = 0) {F : Place (L2 K) (1 : K) 0 → L2 K}
    (hF : Full P r F) : ∃ hg : Good q', ∀ f, alg (-1) f = F (pl q' hg) →
      ∃ g, a1exp f l = some g ∧ alg (-1) g = eA r l P Q := by
  obtain ⟨hg, he⟩ := good_of h.odd hq' hQ hr
  refine ⟨hg, fun f hf => ?_⟩
  obtain ⟨g, eg, hg'⟩ := a1exp_eq (f := f) (by rw [hf]; exact hF.ne_zero _) l
  exact ⟨g, eg, by rw [hg', he, tate_eq (kills h.cof) hP hF, hf]⟩

theorem inf_of {Q : (EC (1 : K) 0).Point} {q' : Pt K} (h : PtRep q' Q) :
    q'.inf = true ∧ Q = 0 ∨ q'.inf = false ∧ Q ≠ 0 := by
  rcases Q with _ | ⟨x, y, hn⟩
  · exact .inl ⟨h, rfl⟩
  · exact .inr ⟨h.1, Point.some_ne_zero hn⟩

/-- The identity tests in front of a pairing routine. -/
theorem apply_of {h : ℕ} {map : Pt K → Pt K → Option (El K)} {P Q : (EC (1 : K) 0).Point}
    {p' q' : Pt K} (hp : PtRep p' P) (hq : PtRep q' Q)
    (hm : P ≠ 0 → Q ≠ 0 → ∃ g, map p' q' = some g ∧ alg (-1) g = eA r h P Q) :
    ∃ g, pairingApply map p' q' = some g ∧ alg (-1) g = eA r h P Q := by
  rcases inf_of hp with ⟨hi, rfl⟩ | ⟨hi, h0⟩
  · refine ⟨one2, by rw [pairingApply, if_pos hi], ?_⟩
    rw [eA, tateT_zero_left]; rfl
  rcases inf_of hq with ⟨hj, rfl⟩ | ⟨hj, h1⟩
  · refine ⟨one2, by rw [pairingApply, if_neg (by simp [hi]), if_pos hj], ?_⟩
    rw [eA, tateT_zero_right]; rfl
  · obtain ⟨g, e, hg⟩ := hm h0 h1
    exact ⟨g, by rw [pairingApply, if_neg (by simp [hi]), if_neg (by simp [hj])]; exact e, hg⟩

/-- Preprocessing commutes with the identity tests. -/
theorem pp_apply_eq {T : Type*} (init : Pt K → Option T) (app : T → Pt K → Option (El K))
    (map : Pt K → Pt K → Option (El K)) (p' q' : Pt K)
    (h : p'.inf = false → q'.inf = false → (init p').bind (fun t => app t q') = map p' q')
    (hd : p'.inf = false → (init p').isSome) :
    (pairingPpInit init p').bind (fun t => pairingPpApply app t q') = pairingApply map p' q' := by
  unfold pairingPpInit pairingApply
  by_cases hi : p'.inf = true
  · simp [hi, pairingPpApply]
  · rw [if_neg hi, if_neg hi]
    have hi' : p'.inf = false := by simpa using hi
    obtain ⟨t, ht⟩ := Option.isSome_iff_exists.1 (hd hi')
    by_cases hj : q'.inf = true
    · simp [hj, pairingPpApply, ht]
    · rw [if_neg hj]
      have hj' : q'.inf = false := by simpa using hj
      rw [← h hi' hj', ht]
      simp [pairingPpApply, hj']

/-- **C80** for type A: on points of order dividing `r` every method (default projective, affine,
preprocessed) succeeds and computes the same bilinear pairing `eA`. -/
theorem C80_typeA (h : TypeA K p r inv) :
    Bilinear r (eA (K := K) r p.h) ∧
    ∀ (P Q : (EC (1 : K) 0).Point) (p' q' : Pt K), PtRep p' P → PtRep q' Q → r • P = 0 → r • Q = 0 →
      ∃ g, alg (-1) g = eA r p.h P Q ∧ pairingApply (pairingProj inv p) p' q' = some g ∧
        pairingApply (pairingAffine inv p) p' q' = some g ∧
        (pairingPpInit (ppInit p) p').bind (fun t => pairingPpApply (ppApply inv p) t q') = some g := by
  have h2 : (2 : K) ≠ 0 := two_ne' (-1 : K)
  refine ⟨eA_bilinear h.valid.odd h.cof, fun P Q p' q' hp hq hP hQ => ?_⟩
  obtain ⟨g, e1, hg⟩ := apply_of (r := r) (h := p.h) (map := pairingProj inv p) hp hq
    (fun h0 h1 => by
      obtain ⟨F, hF, hrun⟩ := projMiller_spec h2 h.valid (order_prime h.prime h0 hP) hp
      obtain ⟨hg, hfin⟩ := h.final h0 hq h1 hQ hF
      obtain ⟨f, ef, hf⟩ := hrun q' hg
      obtain ⟨g, eg, hg⟩ := hfin f hf
      exact ⟨g, by rw [pairingProj, ef]; exact eg, hg⟩)
  obtain ⟨g', e2, hg'⟩ := apply_of (r := r) (h := p.h) (map := pairingAffine inv p) hp hq
    (fun h0 h1 => by
      obtain ⟨F, hF, hrun⟩ := affineMiller_spec h2 h.valid (order_prime h.prime h0 hP) hp
      obtain ⟨hg, hfin⟩ := h.final h0 hq h1 hQ hF
      obtain ⟨f, ef, hf⟩ := hrun q' hg
      obtain ⟨g, eg, hg⟩ := hfin f hf
      exact ⟨g, by rw [pairingAffine, ef]; exact eg, hg⟩)
  have hgg : g' = g := alg_inj (hg'.trans hg.symm)
  rw [hgg] at e2
  refine ⟨g, hg, e1, e2, ?_⟩
  rw [← e2]
  have hpp := pp_eq p h.valid.lt.le (K := K)
  refine pp_apply_eq (ppInit p) (ppApply inv p) (pairingAffine inv p) p' q' (fun _ _ => ?_) (fun hi => ?_)
  · rw [pairingAffine, ← hpp, Option.bind_assoc]; rfl
  · have h0 : P ≠ 0 := by
      rcases inf_of hp with ⟨hj, _⟩ | ⟨_, h0⟩
      · rw [hi] at hj; exact absurd hj (by decide)
      · exact h0
    obtain ⟨F, hF, hrun⟩ := affineMiller_spec h2 h.valid (order_prime h.prime h0 hP) hp
    have hgP : Good p' := by
      obtain ⟨hn, rfl, _⟩ := rep_some hp h0
      exact ⟨eqn_of hn, y_ne_of_odd hn h.valid.odd hP⟩
    obtain ⟨f, ef, _⟩ := hrun p' hgP
    rw [← hpp] at ef
    cases hi : ppInit p p' with
    | none => rw [hi] at ef; exact absurd ef (by simp)
    | some t => rfl

/-- **C80**, what the pairing is: for `P ≠ 0` and `Q ≠ 0` in the `r`-torsion, `eA r h P Q` is
`z^((q-1)h)` for every `z` that is, up to a constant of `K`, the value at `(-x, i y)` of a function
with divisor `r(P)` at the finite points. -/
theorem C80_tate {h : ℕ} (hodd : Odd r) (hq : Fintype.card K + 1 = h * r)
    {P : (EC (1 : K) 0).Point} (hP : P ≠ 0) (hr : r • P = 0) {x y : K}
    {hn : (EC (1 : K) 0).Nonsingular x y} (hQ : r • Point.some x y hn = 0) {z : L2 K}
    (R : Place (L2 K) (1 : K) 0) (hx : R.x = -x) (hy : R.Y = alg (-1) ⟨0, 1⟩ * algebraMap K (L2 K) y)
    (hz : HasDiv (Tate.ev R) z (r • FreeAbelianGroup.of P)) :
    eA r h P (.some x y hn) = z ^ ((Fintype.card K - 1) * h) := by
  have hy0 := y_ne_of_odd hn hodd hQ
  rw [eA, tateT_some tw P hn hy0]
  obtain ⟨F, hF⟩ := exists_full (L := L2 K) hP hodd.pos.ne' hr
  rw [tate_eq (kills hq) hP hF]
  refine (kills hq).sim ?_
  have hR : tw.place x y (eqn_of hn) hy0 = R := by
    rcases R with ⟨Rx, RY, _, _⟩
    simp only at hx hy
    subst hx hy
    simp only [Twist.place, Place.mk.injEq]
    exact ⟨neg_one_mul _, rfl⟩
  rw [hR]
  exact (hF.div R).unique hz

/-- **C81** for type A1: on points of order dividing `r` whose double-and-add chain `Chain r P` meets
no exceptional step, every method succeeds and computes the same bilinear pairing `eA`.  In particular
this holds for all `P` of exact order `r` (`C81_full_order`).  Missing: the points of smaller order,
for which the claim is false (`C81_small_order_fails`). -/
theorem C81_typeA1_partial (h : TypeA1 K r l) :
    Bilinear r (eA (K := K) r l) ∧
    ∀ (P Q : (EC (1 : K) 0).Point) (p' q' : Pt K), PtRep p' P → PtRep q' Q → r • P = 0 → r • Q = 0 →
      (P ≠ 0 → Chain r P) →
      ∃ g, alg (-1) g = eA r l P Q ∧ pairingApply (a1PairingProj r l) p' q' = some g ∧
        pairingApply (a1PairingAffine r l) p' q' = some g ∧
        (pairingPpInit (a1PpInit r) p').bind (fun t => pairingPpApply (a1PpApply r l) t q') = some g := by
  have h2 : (2 : K) ≠ 0 := two_ne' (-1 : K)
  refine ⟨eA_bilinear h.odd h.cof, fun P Q p' q' hp hq hP hQ hc => ?_⟩
  obtain ⟨g, e1, hg⟩ := apply_of (r := r) (h := l) (map := a1PairingProj r l) hp hq
    (fun h0 h1 => by
      obtain ⟨F, hF, hrun⟩ := a1ProjMiller_spec h2 h.three h.odd h0 hP (hc h0) hp
      obtain ⟨hg, hfin⟩ := h.final h0 hq h1 hQ hF
      obtain ⟨g, eg, hg⟩ := hfin _ (hrun q' hg)
      exact ⟨g, eg, hg⟩)
  obtain ⟨g', e2, hg'⟩ := apply_of (r := r) (h := l) (map := a1PairingAffine r l) hp hq
    (fun h0 h1 => by
      obtain ⟨F, hF, hrun⟩ := a1Miller_spec h2 h.three h.odd h0 hP (hc h0) hp
      obtain ⟨hg, hfin⟩ := h.final h0 hq h1 hQ hF
      obtain ⟨f, ef, hf⟩ := hrun q' hg
      obtain ⟨g, eg, hg⟩ := hfin f hf
      exact ⟨g, by rw [a1PairingAffine, ef]; exact eg, hg⟩)
  have hgg : g' = g := alg_inj (hg'.trans hg.symm)
  rw [hgg] at e2
  refine ⟨g, hg, e1, e2, ?_⟩
  rw [← e2]
  have hpp := a1_pp_eq r (by have := h.three; omega) (K := K)
  refine pp_apply_eq (a1PpInit r) (a1PpApply r l) (a1PairingAffine r l) p' q' (fun _ _ => ?_)
    (fun hi => ?_)
  · rw [a1PairingAffine, ← hpp, Option.bind_assoc]; rfl
  · have h0 : P ≠ 0 := by
      rcases inf_of hp with ⟨hj, _⟩ | ⟨_, h0⟩
      · rw [hi] at hj; exact absurd hj (by decide)
      · exact h0
    obtain ⟨F, hF, hrun⟩ := a1Miller_spec h2 h.three h.odd h0 hP (hc h0) hp
    have hgP : Good p' := by
      obtain ⟨hn, rfl, _⟩ := rep_some hp h0
      exact ⟨eqn_of hn, y_ne_of_odd hn h.odd hP⟩
    obtain ⟨f, ef, _⟩ := hrun p' hgP
    rw [← hpp] at ef
    cases hi : a1PpInit r p' with
    | none => rw [hi] at ef; exact absurd ef (by simp)
    | some t => rfl

/-- **C81**: points of exact order `r` are covered. -/
theorem C81_full_order (h : TypeA1 K r l) {P Q : (EC (1 : K) 0).Point} {p' q' : Pt K}
    (hp : PtRep p' P) (hq : PtRep q' Q) (hP : addOrderOf P = r) (hQ : r • Q = 0) :
    ∃ g, alg (-1) g = eA r l P Q ∧ pairingApply (a1PairingProj r l) p' q' = some g ∧
      pairingApply (a1PairingAffine r l) p' q' = some g ∧
      (pairingPpInit (a1PpInit r) p').bind (fun t => pairingPpApply (a1PpApply r l) t q') = some g :=
  (C81_typeA1_partial h).2 P Q p' q' hp hq (hP ▸ addOrderOf_nsmul_eq_zero P) hQ
    (fun _ => chain_of_order h.three h.odd hP)

/-- **C80**, in the words of the API: `e(aP, bQ) = e(P, Q)^(ab)` for all integers, type A. -/
theorem C80_smul (h : TypeA K p r inv) {P Q : (EC (1 : K) 0).Point} {p' q' p'' q'' : Pt K} (a b : ℤ)
    (hp : PtRep p' P) (hq : PtRep q' Q) (hp2 : PtRep p'' (a • P)) (hq2 : PtRep q'' (b • Q))
    (hP : r • P = 0) (hQ : r • Q = 0) :
    ∃ g g', pairingApply (pairingProj inv p) p' q' = some g ∧
      pairingApply (pairingProj inv p) p'' q'' = some g' ∧ alg (-1) g' = alg (-1) g ^ (a * b) := by
  obtain ⟨hb, hc⟩ := C80_typeA h
  obtain ⟨g, hg, e, -⟩ := hc P Q p' q' hp hq hP hQ
  obtain ⟨g', hg', e', -⟩ := hc (a • P) (b • Q) p'' q'' hp2 hq2 (by rw [smul_comm, hP, smul_zero])
    (by rw [smul_comm, hQ, smul_zero])
  exact ⟨g, g', e, e', by rw [hg', hg, hb.smul_smul h.prime.ne_zero hP hQ]⟩

/-! ### Identity, preprocessing, methods, negation -/

/-- **C43**: with `O` as an argument all the methods of type A give 1, whatever the other argument
is. -/
theorem C43_typeA (hp : p.exp1 ≤ p.exp2) (P Q : Pt K) (h : P.inf = true ∨ Q.inf = true) :
    pairingApply (pairingProj inv p) P Q = some one2 ∧
    pairingApply (pairingAffine inv p) P Q = some one2 ∧
    ∀ t, pairingPpInit (ppInit p) P = some t → pairingPpApply (ppApply inv p) t Q = some one2 := by
  have main : ∀ map : Pt K → Pt K → Option (El K), pairingApply map P Q = some one2 := fun map => by
    unfold pairingApply
    rcases h with h | h <;> simp [h]
  refine ⟨main _, main _, fun t ht => ?_⟩
  unfold pairingPpInit at ht
  rcases h with h | h
  · rw [if_pos h] at ht
    obtain rfl : t = none := by simpa using ht.symm
    rfl
  · rcases t with _ | t
    · rfl
    · simp [pairingPpApply, h]

/-- **C44** for type A: the preprocessed pairing is the affine pairing, for all points of the plane —
on the curve or not, of any order — for which preprocessing itself goes through. -/
theorem C44_typeA (hp : p.exp1 ≤ p.exp2) (P Q : Pt K) {t : Option (List (Abc K))}
    (ht : pairingPpInit (ppInit p) P = some t) :
    pairingPpApply (ppApply inv p) t Q = pairingApply (pairingAffine inv p) P Q := by
  have := pp_apply_eq (ppInit p) (ppApply inv p) (pairingAffine inv p) P Q
    (fun _ _ => by rw [pairingAffine, ← pp_eq p hp, Option.bind_assoc]; rfl)
    (fun hi => by
      unfold pairingPpInit at ht
      rw [if_neg (by simp [hi])] at ht
      cases h : ppInit p P with
      | none => rw [h] at ht; exact absurd ht (by simp)
      | some _ => rfl)
  rw [ht] at this
  exact this

/-- **C44** for type A1. -/
theorem C44_typeA1 (hr : 2 ≤ r) (P Q : Pt K) {t : Option (List (Pp1 K))}
    (ht : pairingPpInit (a1PpInit r) P = some t) :
    pairingPpApply (a1PpApply r l) t Q = pairingApply (a1PairingAffine r l) P Q := by
  have := pp_apply_eq (a1PpInit r) (a1PpApply r l) (a1PairingAffine r l) P Q
    (fun _ _ => by rw [a1PairingAffine, ← a1_pp_eq r hr, Option.bind_assoc]; rfl)
    (fun hi => by
      unfold pairingPpInit at ht
      rw [if_neg (by simp [hi])] at ht
      cases h : a1PpInit r P with
      | none => rw [h] at ht; exact absurd ht (by simp)
      | some _ => rfl)
  rw [ht] at this
  exact this

/-- **C46** for type A: the projective and the affine method agree. -/
theorem C46_typeA (h : TypeA K p r inv) {P Q : (EC (1 : K) 0).Point} {p' q' : Pt K}
    (hp : PtRep p' P) (hq : PtRep q' Q) (hP : r • P = 0) (hQ : r • Q = 0) :
    pairingApply (pairingProj inv p) p' q' = pairingApply (pairingAffine inv p) p' q' ∧
      (pairingApply (pairingProj inv p) p' q').isSome := by
  obtain ⟨g, _, e1, e2, _⟩ := (C80_typeA h).2 P Q p' q' hp hq hP hQ
  rw [e1, e2]; exact ⟨rfl, rfl⟩

/-- **C46** for type A1. -/
theorem C46_typeA1 (h : TypeA1 K r l) {P Q : (EC (1 : K) 0).Point} {p' q' : Pt K}
    (hp : PtRep p' P) (hq : PtRep q' Q) (hP : r • P = 0) (hQ : r • Q = 0) (hc : P ≠ 0 → Chain r P) :
    pairingApply (a1PairingProj r l) p' q' = pairingApply (a1PairingAffine r l) p' q' ∧
      (pairingApply (a1PairingProj r l) p' q').isSome := by
  obtain ⟨g, _, e1, e2, _⟩ := (C81_typeA1_partial h).2 P Q p' q' hp hq hP hQ hc
  rw [e1, e2]; exact ⟨rfl, rfl⟩

/-- **C47**: `e(-P, Q) = e(P, -Q) = e(P, Q)⁻¹` for type A. -/
theorem C47_neg (h : TypeA K p r inv) {P Q : (EC (1 : K) 0).Point} {p' q' : Pt K}
    (hp : PtRep p' P) (hq : PtRep q' Q) (hP : r • P = 0) (hQ : r • Q = 0) :
    ∃ g g', pairingApply (pairingProj inv p) p' q' = some g ∧
      pairingApply (pairingProj inv p) (neg p') q' = some g' ∧
      pairingApply (pairingProj inv p) p' (neg q') = some g' ∧
      alg (-1) g * alg (-1) g' = 1 ∧ invert2 g = some g' := by
  obtain ⟨hb, hc⟩ := C80_typeA h
  have hP' : r • -P = 0 := by rw [smul_neg, hP, neg_zero]
  have hQ' : r • -Q = 0 := by rw [smul_neg, hQ, neg_zero]
  obtain ⟨g, hg, e, -⟩ := hc P Q p' q' hp hq hP hQ
  obtain ⟨g1, hg1, e1, -⟩ := hc (-P) Q _ q' (neg_rep hp) hq hP' hQ
  obtain ⟨g2, hg2, e2, -⟩ := hc P (-Q) p' _ hp (neg_rep hq) hP hQ'
  rw [hb.neg_left h.prime.ne_zero hP hQ] at hg1
  rw [hb.neg_right h.prime.ne_zero hP hQ] at hg2
  obtain rfl : g2 = g1 := alg_inj (hg2.trans hg1.symm)
  have hne := hb.ne_zero h.prime.ne_zero hP hQ
  obtain ⟨g3, e3, hg3⟩ := alg_invert2 (f := g) (by rw [hg]; exact hne)
  obtain rfl : g3 = g2 := alg_inj (by rw [hg3, hg, hg2])
  exact ⟨g, _, e, e1, e2, by rw [hg, hg2, mul_inv_cancel₀ hne], e3⟩

/-! ### Roots of unity and the Lucas ladder -/

/-- The final powering takes every nonzero element to an `r`-th root of unity, namely its power of
exponent `(q² - 1) / r`. -/
theorem C48_finalpow (hodd : Odd r) (hq : Fintype.card K + 1 = l * r)
    (hinv : ∀ x : K, x ≠ 0 → inv x = x⁻¹) {f : El K} (hf : alg (-1) f ≠ 0) :
    ∃ g, gtFrom inv l f = some g ∧ alg (-1) g ^ r = 1 ∧
      alg (-1) g = alg (-1) f ^ ((Fintype.card K ^ 2 - 1) / r) ∧ a1exp f l = some g := by
  obtain ⟨g, e, hg⟩ := tateexp_eq hinv hf (h_even hq hodd)
  obtain ⟨g', e', hg'⟩ := a1exp_eq hf l
  obtain rfl : g' = g := alg_inj (hg'.trans hg.symm)
  refine ⟨g', e, ?_, ?_, e'⟩
  · rw [hg, ← pow_mul, mul_comm, pow_mul, (kills hq).rpow _ hf]
  · rw [hg]
    congr 1
    refine (Nat.div_eq_of_eq_mul_left hodd.pos ?_).symm
    have h1 : 1 ≤ Fintype.card K := Fintype.card_pos
    have : Fintype.card K ^ 2 - 1 = (Fintype.card K - 1) * (Fintype.card K + 1) := by
      obtain ⟨m, hm⟩ : ∃ m, Fintype.card K = m + 1 := ⟨_, (Nat.sub_add_cancel h1).symm⟩
      rw [hm, Nat.add_sub_cancel]
      have : (m + 1) ^ 2 = m * (m + 1 + 1) + 1 := by ring
      omega
    rw [this, hq]; ring

theorem invert2_zero {f : El K} (h : alg (-1) f = 0) : invert2 f = none := by
  have h1 : f.x = 0 := congrArg QuadraticAlgebra.re h
  have h2 : f.y = 0 := congrArg QuadraticAlgebra.im h
  unfold invert2
  simp [fiInvert, inv?, h1, h2]

theorem root_of_tateexp (hodd : Odd r) (hq : Fintype.card K + 1 = l * r)
    (hinv : ∀ x : K, x ≠ 0 → inv x = x⁻¹) {f g : El K} (e : tateexp inv f l = some g) :
    alg (-1) g ^ r = 1 := by
  by_cases hf : alg (-1) f = 0
  · unfold tateexp at e
    rw [invert2_zero hf] at e
    exact absurd e (by simp)
  · obtain ⟨g', e', hg', -⟩ := C48_finalpow hodd hq hinv hf
    rw [gtFrom, finalpow, e] at e'
    obtain rfl : g = g' := by simpa using e'
    exact hg'

theorem root_of_a1exp (hodd : Odd r) (hq : Fintype.card K + 1 = l * r) {f g : El K}
    (e : a1exp f l = some g) : alg (-1) g ^ r = 1 := by
  by_cases hf : alg (-1) f = 0
  · unfold a1exp at e
    rw [invert2_zero hf] at e
    exact absurd e (by simp)
  · obtain ⟨g', _, hg', _, e'⟩ := C48_finalpow (inv := (·⁻¹)) hodd hq (fun _ _ => rfl) hf
    rw [e] at e'
    obtain rfl : g = g' := by simpa using e'
    exact hg'

/-- **C48**: whatever `element_random` or `element_from_hash` of GT started from, and whatever the
points given to a type A pairing — on the curve or not — a result, if there is one, is an `r`-th root of
unity. -/
theorem C48_typeA (h : TypeA K p r inv) (P Q : Pt K) (x g : El K)
    (hg : gtFrom inv p.h x = some g ∨ pairingAffine inv p P Q = some g ∨ pairingProj inv p P Q = some g ∨
      ∃ t, ppApply inv p t Q = some g) :
    alg (-1) g ^ r = 1 := by
  have main := fun f => root_of_tateexp (f := f) (g := g) h.valid.odd h.cof h.inv
  rcases hg with hg | hg | hg | ⟨t, hg⟩
  · exact main x hg
  · obtain ⟨f, _, e⟩ := Option.bind_eq_some_iff.1 hg; exact main f e
  · obtain ⟨f, _, e⟩ := Option.bind_eq_some_iff.1 hg; exact main f e
  · obtain ⟨f, _, e⟩ := Option.bind_eq_some_iff.1 hg; exact main f e

/-- **C48** for type A1, the same. -/
theorem C48_typeA1 (h : TypeA1 K r l) (hinv : ∀ x : K, x ≠ 0 → inv x = x⁻¹) (P Q : Pt K) (x g : El K)
    (hg : gtFrom inv l x = some g ∨ a1PairingAffine r l P Q = some g ∨ a1PairingProj r l P Q = some g ∨
      ∃ t, a1PpApply r l t Q = some g) :
    alg (-1) g ^ r = 1 := by
  rcases hg with hg | hg | hg | ⟨t, hg⟩
  · exact root_of_tateexp h.odd h.cof hinv hg
  · obtain ⟨f, _, e⟩ := Option.bind_eq_some_iff.1 hg; exact root_of_a1exp h.odd h.cof e
  · exact root_of_a1exp h.odd h.cof hg
  · obtain ⟨f, _, e⟩ := Option.bind_eq_some_iff.1 hg; exact root_of_a1exp h.odd h.cof e

/-- **C49** for `lucas_odd`: for every nonsquare `v`, every unitary element and every even cofactor the
ladder returns the power. -/
theorem C49_lucas_odd {v : K} [Fact (∀ r : K, r ^ 2 ≠ v + 0 * r)]
    (hinv : ∀ x : K, x ≠ 0 → inv x = x⁻¹) {i : El K} (hi : i.x ^ 2 - v * i.y ^ 2 = 1) {c : ℕ}
    (hc : Even c) : alg v (lucasOdd inv i c) = alg v i ^ c := by
  rw [lucasOdd_eq (two_ne' v) hinv i (by rw [nrm]; linear_combination hi) c,
    Nat.two_mul_div_two_of_even hc]

/-- The parity is needed: for an odd cofactor the exponent is one too small. -/
theorem C49_odd_cofactor {v : K} [Fact (∀ r : K, r ^ 2 ≠ v + 0 * r)]
    (hinv : ∀ x : K, x ≠ 0 → inv x = x⁻¹) {i : El K} (hi : i.x ^ 2 - v * i.y ^ 2 = 1) {c : ℕ}
    (hc : Odd c) : alg v (lucasOdd inv i c) * alg v i = alg v i ^ c := by
  rw [lucasOdd_eq (two_ne' v) hinv i (by rw [nrm]; linear_combination hi) c, ← pow_succ]
  congr 1
  obtain ⟨m, rfl⟩ := hc
  omega

/-! ### Products -/

theorem anyZero_iff (P Q : ℕ → Pt K) : ∀ N, anyZero P Q N = true ↔ ∃ j < N, (P j).inf = true ∨ (Q j).inf = true
  | 0 => by simp [anyZero]
  | N + 1 => by
    rw [anyZero, Bool.or_eq_true, Bool.or_eq_true, anyZero_iff P Q N]
    constructor
    · rintro ((⟨j, hj, h⟩ | h) | h)
      · exact ⟨j, by omega, h⟩
      · exact ⟨N, by omega, .inl h⟩
      · exact ⟨N, by omega, .inr h⟩
    · rintro ⟨j, hj, h⟩
      rcases Nat.lt_succ_iff_lt_or_eq.1 hj with h1 | rfl
      · exact .inl (.inl ⟨j, h1, h⟩)
      · rcases h with h | h
        · exact .inl (.inr h)
        · exact .inr h

variable {P Q : ℕ → (EC (1 : K) 0).Point} {p' q' : ℕ → Pt K} {N : ℕ}

theorem not_anyZero (hp : ∀ j < N, PtRep (p' j) (P j)) (hq : ∀ j < N, PtRep (q' j) (Q j))
    (hP0 : ∀ j < N, P j ≠ 0) (hQ0 : ∀ j < N, Q j ≠ 0) : ¬ anyZero p' q' N = true := by
  rw [anyZero_iff]
  rintro ⟨j, hj, h | h⟩
  · rw [(rep_some (hp j hj) (hP0 j hj)).choose_spec.2] at h; exact absurd h (by decide)
  · rw [(rep_some (hq j hj) (hQ0 j hj)).choose_spec.2] at h; exact absurd h (by decide)

theorem prod_final {h : ℕ} (hodd : Odd r) (hcof : Fintype.card K + 1 = h * r)
    (hq : ∀ j < N, PtRep (q' j) (Q j)) (hP0 : ∀ j < N, P j ≠ 0) (hQ0 : ∀ j < N, Q j ≠ 0)
    (hQ : ∀ j < N, r • Q j = 0) {F : ℕ → Place (L2 K) (1 : K) 0 → L2 K}
    (hF : ∀ j < N, Full (P j) r (F j)) :
    (∀ j < N, Good (q' j)) ∧ (∏ j ∈ Finset.range N, ev (F j) (q' j)) ≠ 0 ∧
    (∏ j ∈ Finset.range N, ev (F j) (q' j)) ^ ((Fintype.card K - 1) * h) =
      ∏ j ∈ Finset.range N, eA r h (P j) (Q j) := by
  have hg : ∀ j < N, ∃ hg : Good (q' j), ∀ h P, eA r h P (Q j) =
      tate r ((Fintype.card K - 1) * h) P (pl (q' j) hg) := fun j hj =>
    good_of hodd (hq j hj) (hQ0 j hj) (hQ j hj)
  refine ⟨fun j hj => (hg j hj).choose, Finset.prod_ne_zero_iff.2 fun j hj => ?_, ?_⟩
  · rw [Finset.mem_range] at hj
    rw [ev_good _ (hg j hj).choose]
    exact (hF j hj).ne_zero _
  · rw [← Finset.prod_pow]
    refine Finset.prod_congr rfl fun j hj => ?_
    rw [Finset.mem_range] at hj
    obtain ⟨hgj, he⟩ := hg j hj
    rw [he, ev_good _ hgj, tate_eq (kills hcof) (hP0 j hj) (hF j hj)]

/-- **C45** for type A: for arrays of any length `N ≥ 1` of nonzero points of order `r` the product
routine returns the product of the single pairings. -/
theorem C45_typeA (h : TypeA K p r inv) (hN : 1 ≤ N)
    (hp : ∀ j < N, PtRep (p' j) (P j)) (hq : ∀ j < N, PtRep (q' j) (Q j))
    (hP : ∀ j < N, r • P j = 0) (hQ : ∀ j < N, r • Q j = 0)
    (hP0 : ∀ j < N, P j ≠ 0) (hQ0 : ∀ j < N, Q j ≠ 0) :
    ∃ (g : El K) (gs : ℕ → El K), prodPairing (prodPairings inv p) p' q' N = some g ∧
      (∀ j < N, pairingApply (pairingProj inv p) (p' j) (q' j) = some (gs j)) ∧
      alg (-1) g = ∏ j ∈ Finset.range N, alg (-1) (gs j) ∧
      alg (-1) g = ∏ j ∈ Finset.range N, eA r p.h (P j) (Q j) := by
  have h2 : (2 : K) ≠ 0 := two_ne' (-1 : K)
  obtain ⟨F, hF, hrun⟩ := prodMiller_spec h2 hN h.valid
    (fun j hj => order_prime h.prime (hP0 j hj) (hP j hj)) hp
  obtain ⟨hg, hne, hpr⟩ := prod_final h.valid.odd h.cof hq hP0 hQ0 hQ hF
  obtain ⟨f, ef, hf⟩ := hrun q' hg
  obtain ⟨g, eg, hg'⟩ := tateexp_eq h.inv (f := f) (by rw [hf]; exact hne) h.even
  rw [hf, hpr] at hg'
  have single := (C80_typeA h).2
  have : Nonempty (El K) := ⟨one2⟩
  choose! gs hgs using fun j (hj : j < N) =>
    single (P j) (Q j) (p' j) (q' j) (hp j hj) (hq j hj) (hP j hj) (hQ j hj)
  refine ⟨g, gs, ?_, fun j hj => (hgs j hj).2.1, ?_, hg'⟩
  · rw [prodPairing, if_neg (not_anyZero hp hq hP0 hQ0), prodPairings, ef]; exact eg
  · rw [hg']
    exact Finset.prod_congr rfl fun j hj => (hgs j (Finset.mem_range.1 hj)).1.symm

/-- **C45** for type A1, for chains without exceptional steps. -/
theorem C45_typeA1 (h : TypeA1 K r l) (hN : 1 ≤ N)
    (hp : ∀ j < N, PtRep (p' j) (P j)) (hq : ∀ j < N, PtRep (q' j) (Q j))
    (hP : ∀ j < N, r • P j = 0) (hQ : ∀ j < N, r • Q j = 0)
    (hP0 : ∀ j < N, P j ≠ 0) (hQ0 : ∀ j < N, Q j ≠ 0) (hc : ∀ j < N, Chain r (P j)) :
    ∃ (g : El K) (gs : ℕ → El K), prodPairing (a1ProdPairings r l) p' q' N = some g ∧
      (∀ j < N, pairingApply (a1PairingProj r l) (p' j) (q' j) = some (gs j)) ∧
      alg (-1) g = ∏ j ∈ Finset.range N, alg (-1) (gs j) ∧
      alg (-1) g = ∏ j ∈ Finset.range N, eA r l (P j) (Q j) := by
  have h2 : (2 : K) ≠ 0 := two_ne' (-1 : K)
  obtain ⟨F, hF, hrun⟩ := a1ProdMiller_spec h2 hN h.three h.odd hP0 hP hc hp
  obtain ⟨hg, hne, hpr⟩ := prod_final h.odd h.cof hq hP0 hQ0 hQ hF
  obtain ⟨f, ef, hf⟩ := hrun q' hg
  obtain ⟨g, eg, hg'⟩ := a1exp_eq (f := f) (by rw [hf]; exact hne) l
  rw [hf, hpr] at hg'
  have single := (C81_typeA1_partial h).2
  have : Nonempty (El K) := ⟨one2⟩
  choose! gs hgs using fun j (hj : j < N) => single (P j) (Q j) (p' j) (q' j) (hp j hj) (hq j hj)
    (hP j hj) (hQ j hj) (fun _ => hc j hj)
  refine ⟨g, gs, ?_, fun j hj => (hgs j hj).2.1, ?_, hg'⟩
  · rw [prodPairing, if_neg (not_anyZero hp hq hP0 hQ0), a1ProdPairings, ef]; exact eg
  · rw [hg']
    exact Finset.prod_congr rfl fun j hj => (hgs j (Finset.mem_range.1 hj)).1.symm

/-- **C43 fails for products**: a single identity among the arguments of `element_prod_pairing` makes
the whole product 1, for every pairing routine.  So the result is wrong whenever the product of the
other pairings is not 1 (an instance is below). -/
theorem C43_prod_fails (map : (ℕ → Pt K) → (ℕ → Pt K) → ℕ → Option (El K)) {j : ℕ} (hj : j < N)
    (h : (p' j).inf = true ∨ (q' j).inf = true) : prodPairing map p' q' N = some one2 := by
  rw [prodPairing, if_pos ((anyZero_iff _ _ _).2 ⟨j, hj, h⟩)]

/-! ### Instances -/

section instances

instance prime43 : Fact (Nat.Prime 43) := ⟨by norm_num⟩
instance fact43 : Fact (∀ r : ZMod 43, r ^ 2 ≠ -1 + 0 * r) := ⟨by decide⟩

/-- `q = 43`, `r = 11 = 2³ + 2 + 1`, `h = 4`. -/
theorem typeA43 : TypeA (ZMod 43) ⟨3, 1, 1, 4⟩ 11 (·⁻¹) where
  valid := ⟨by decide, by decide, .inl rfl, .inl (by norm_num), by decide⟩
  prime := by norm_num
  cof := by simp [ZMod.card]
  inv _ _ := rfl

/-- The same with `r = 11 = 2⁴ - 2² - 1`. -/
theorem typeA43' : TypeA (ZMod 43) ⟨4, 2, -1, 4⟩ 11 (·⁻¹) where
  valid := ⟨by decide, by decide, .inr rfl, .inr (by norm_num), by decide⟩
  prime := by norm_num
  cof := by simp [ZMod.card]
  inv _ _ := rfl

/-- `p = 59`, `n = 15`, `l = 4`: a composite order. -/
instance prime59 : Fact (Nat.Prime 59) := ⟨by norm_num⟩
instance fact59 : Fact (∀ r : ZMod 59, r ^ 2 ≠ -1 + 0 * r) := ⟨by decide⟩

theorem typeA59 : TypeA1 (ZMod 59) 15 4 where
  odd := by decide
  three := by decide
  cof := by simp [ZMod.card]

theorem zero_of {F : Type*} [Field F] [DecidableEq F] (h2 : (2 : F) ≠ 0) {P : (EC (1 : F) 0).Point} {p : Pt F}
    (hp : PtRep p P) (n : ℕ) (h : ((Gen.powMpz (⟨some p⟩ : Curve.GPt F 1) n).bind (·.val)).map (·.inf) =
      some true) : n • P = 0 := by
  obtain ⟨r, e, hr⟩ := Curve.pow_rep (ca := (1 : F)) (cb := 0) h2 hp n
  rw [e] at h
  have hi : r.inf = true := by simpa using h
  rcases hQ : n • P with _ | ⟨x, y, hn⟩
  · rfl
  · rw [hQ] at hr
    rw [hr.1] at hi
    exact absurd hi (by decide)

/-- A point of order 11. -/
def P43 : (EC (1 : ZMod 43) 0).Point := .some 4 5 (by
  rw [nonsingular_iff, equation_iff]; decide +kernel)

/-- Another one. -/
def Q43 : (EC (1 : ZMod 43) 0).Point := .some 13 19 (by
  rw [nonsingular_iff, equation_iff]; decide +kernel)

theorem P43_rep : PtRep (⟨false, 4, 5⟩ : Pt (ZMod 43)) P43 := ⟨rfl, rfl, rfl⟩
theorem Q43_rep : PtRep (⟨false, 13, 19⟩ : Pt (ZMod 43)) Q43 := ⟨rfl, rfl, rfl⟩

theorem P43_order : 11 • P43 = 0 := zero_of (by decide) P43_rep 11 (by decide +kernel)
theorem Q43_order : 11 • Q43 = 0 := zero_of (by decide) Q43_rep 11 (by decide +kernel)

theorem P43_ne : P43 ≠ 0 := Point.some_ne_zero _
theorem Q43_ne : Q43 ≠ 0 := Point.some_ne_zero _

/-- **C80**, an instance: both parameter sets give the value `18 + 35 i`, which is not 1. -/
example : pairingApply (pairingProj (·⁻¹) ⟨3, 1, 1, 4⟩) (⟨false, 4, 5⟩ : Pt (ZMod 43)) ⟨false, 13, 19⟩ =
      some ⟨18, 35⟩ ∧
    pairingApply (pairingProj (·⁻¹) ⟨4, 2, -1, 4⟩) (⟨false, 4, 5⟩ : Pt (ZMod 43)) ⟨false, 13, 19⟩ =
      some ⟨18, 35⟩ := by decide +kernel

/-- So the pairing is not degenerate there. -/
theorem eA43 : eA 11 4 P43 Q43 = alg (-1) ⟨18, 35⟩ := by
  obtain ⟨g, hg, e, -⟩ := (C80_typeA typeA43).2 P43 Q43 _ _ P43_rep Q43_rep P43_order Q43_order
  have e' : pairingApply (pairingProj (·⁻¹) ⟨3, 1, 1, 4⟩) (⟨false, 4, 5⟩ : Pt (ZMod 43)) ⟨false, 13, 19⟩ =
      some ⟨18, 35⟩ := by decide +kernel
  rw [e'] at e
  rw [← hg, ← Option.some.inj e]

example := (C80_typeA typeA43').2 P43 Q43 _ _ P43_rep Q43_rep P43_order Q43_order

example : ∃ g g', pairingApply (pairingProj (·⁻¹) ⟨3, 1, 1, 4⟩) (⟨false, 4, 5⟩ : Pt (ZMod 43))
      ⟨false, 13, 19⟩ = some g ∧ pairingApply (pairingProj (·⁻¹) ⟨3, 1, 1, 4⟩)
      (neg (⟨false, 4, 5⟩ : Pt (ZMod 43))) ⟨false, 13, 19⟩ = some g' ∧ invert2 g = some g' := by
  obtain ⟨g, g', h1, h2, _, _, h3⟩ := C47_neg typeA43 P43_rep Q43_rep P43_order Q43_order
  exact ⟨g, g', h1, h2, h3⟩

/-- **C43** for products: the true value is `18 + 35 i`, the code returns 1. -/
theorem C43_prod_fails_instance :
    prodPairing (prodPairings (·⁻¹) ⟨3, 1, 1, 4⟩)
      (fun j => if j = 0 then (⟨false, 4, 5⟩ : Pt (ZMod 43)) else ⟨true, 0, 0⟩)
      (fun _ => ⟨false, 13, 19⟩) 2 = some one2 ∧
    eA 11 4 P43 Q43 * eA 11 4 0 Q43 ≠ alg (-1) one2 := by
  refine ⟨C43_prod_fails _ (j := 1) (by decide) (.inl rfl), ?_⟩
  rw [(eA_bilinear (by decide) (by simp [ZMod.card])).zero_left (by decide) Q43_order, mul_one, eA43]
  intro h
  have := congrArg QuadraticAlgebra.im h
  exact absurd this (by decide)

/-- **C45**, an instance with two pairs. -/
example : ∃ g, prodPairing (prodPairings (·⁻¹) ⟨3, 1, 1, 4⟩)
      (fun j => if j = 0 then (⟨false, 4, 5⟩ : Pt (ZMod 43)) else ⟨false, 13, 19⟩)
      (fun _ => ⟨false, 13, 19⟩) 2 = some g ∧
    alg (-1) g = eA 11 4 P43 Q43 * eA 11 4 Q43 Q43 := by
  obtain ⟨g, _, e, _, _, h⟩ := C45_typeA (N := 2) (P := fun j => if j = 0 then P43 else Q43)
    (Q := fun _ => Q43) (p' := fun j => if j = 0 then (⟨false, 4, 5⟩ : Pt (ZMod 43)) else ⟨false, 13, 19⟩)
    (q' := fun _ => ⟨false, 13, 19⟩) typeA43 (by decide)
    (fun j _ => by split_ifs; exacts [P43_rep, Q43_rep]) (fun _ _ => Q43_rep)
    (fun j _ => by split_ifs; exacts [P43_order, Q43_order]) (fun _ _ => Q43_order)
    (fun j _ => by split_ifs; exacts [P43_ne, Q43_ne]) (fun _ _ => Q43_ne)
  exact ⟨g, e, by simpa [Finset.prod_range_succ] using h⟩

/-- **C48**, **C49**: instances. -/
example : ∃ g, gtFrom (·⁻¹) 4 (⟨3, 7⟩ : El (ZMod 43)) = some g ∧ alg (-1) g ^ 11 = 1 := by
  obtain ⟨g, h1, h2, -⟩ := C48_finalpow (K := ZMod 43) (r := 11) (l := 4) (inv := (·⁻¹)) (by decide)
    (by simp [ZMod.card]) (fun _ _ => rfl) (f := ⟨3, 7⟩)
    (fun h => absurd (congrArg QuadraticAlgebra.re h) (by decide))
  exact ⟨g, h1, h2⟩

example : alg (-1) (lucasOdd (·⁻¹) (⟨18, 35⟩ : El (ZMod 43)) 4) = alg (-1) ⟨18, 35⟩ ^ 4 :=
  C49_lucas_odd (fun _ _ => rfl) (by decide +kernel) (by decide)

example : (pairingPpInit (ppInit ⟨3, 1, 1, 4⟩) (⟨false, 4, 5⟩ : Pt (ZMod 43))).isSome := by
  decide +kernel

/-- A point of order 15. -/
def G59 : (EC (1 : ZMod 59) 0).Point := .some 4 3 (by
  rw [nonsingular_iff, equation_iff]; decide +kernel)

theorem G59_rep : PtRep (⟨false, 4, 3⟩ : Pt (ZMod 59)) G59 := ⟨rfl, rfl, rfl⟩

theorem G59_order : addOrderOf G59 = 15 := by
  have hz : 15 • G59 = 0 := zero_of (by decide) G59_rep 15 (by decide +kernel)
  have ne : ∀ n : ℕ, ((Gen.powMpz (⟨some ⟨false, 4, 3⟩⟩ : Curve.GPt (ZMod 59) 1) n).bind (·.val)).map
      (·.inf) = some false → n • G59 ≠ 0 := fun n h h0 => by
    obtain ⟨r, e, hr⟩ := Curve.pow_rep (ca := (1 : ZMod 59)) (cb := 0) (by decide) G59_rep n
    rw [e] at h
    rw [h0] at hr
    have h1 : r.inf = true := hr
    simp [h1] at h
  have h3 := ne 3 (by decide +kernel)
  have h5 := ne 5 (by decide +kernel)
  have hd := addOrderOf_dvd_of_nsmul_eq_zero hz
  have hm : addOrderOf G59 ∈ Nat.divisors 15 := Nat.mem_divisors.2 ⟨hd, by decide⟩
  rw [show Nat.divisors 15 = {1, 3, 5, 15} by decide +kernel] at hm
  simp only [Finset.mem_insert, Finset.mem_singleton] at hm
  rcases hm with hm | hm | hm | hm
  · exact absurd (by rw [← hm]; exact addOrderOf_nsmul_eq_zero G59 : 1 • G59 = 0)
      (ne 1 (by decide +kernel))
  · exact absurd (by rw [← hm]; exact addOrderOf_nsmul_eq_zero G59) h3
  · exact absurd (by rw [← hm]; exact addOrderOf_nsmul_eq_zero G59) h5
  · exact hm

/-- **C81**, an instance of full order. -/
theorem eA59 : eA 15 4 G59 G59 = alg (-1) ⟨22, 44⟩ := by
  obtain ⟨g, hg, e, -⟩ := C81_full_order typeA59 G59_rep G59_rep G59_order
    (G59_order ▸ addOrderOf_nsmul_eq_zero G59)
  have e' : pairingApply (a1PairingProj 15 4) (⟨false, 4, 3⟩ : Pt (ZMod 59)) ⟨false, 4, 3⟩ =
      some ⟨22, 44⟩ := by decide +kernel
  rw [e'] at e
  rw [← hg, ← Option.some.inj e]

/-- **C81 fails for points of smaller order**: `5 G` has order 3 and its chain meets `O` before the end.
The default method then inverts zero, the affine method returns a wrong value: `e(5G, G) ≠ e(G, G)⁵`. -/
theorem C81_small_order_fails : ∃ s : Pt (ZMod 59), PtRep s (5 • G59) ∧
    pairingApply (a1PairingProj 15 4) s ⟨false, 4, 3⟩ = none ∧
    (∃ g, pairingApply (a1PairingAffine 15 4) s ⟨false, 4, 3⟩ = some g ∧
      alg (-1) g ≠ eA 15 4 (5 • G59) G59) := by
  have hr : 15 • G59 = 0 := G59_order ▸ addOrderOf_nsmul_eq_zero G59
  obtain ⟨s, e, hs⟩ := Curve.pow_rep (ca := (1 : ZMod 59)) (cb := 0) (by decide) G59_rep 5
  have e' : (Gen.powMpz (⟨some ⟨false, 4, 3⟩⟩ : Curve.GPt (ZMod 59) 1) 5).bind (·.val) =
      some ⟨false, 12, 41⟩ := by decide +kernel
  rw [e'] at e
  obtain rfl := Option.some.inj e
  refine ⟨_, hs, by decide +kernel, ⟨46, 3⟩, by decide +kernel, ?_⟩
  rw [(eA_bilinear typeA59.odd typeA59.cof).nsmul_left (by decide) hr hr 5, eA59]
  obtain ⟨g, eg, hg⟩ := alg_pow2 (⟨22, 44⟩ : El (ZMod 59)) 5
  rw [← hg]
  have e2 : pow2 (⟨22, 44⟩ : El (ZMod 59)) 5 = some ⟨29, 35⟩ := by decide +kernel
  rw [e2] at eg
  rw [← Option.some.inj eg]
  intro h
  exact absurd (congrArg QuadraticAlgebra.re h) (by decide)

end instances

end Pbc.PairingA
