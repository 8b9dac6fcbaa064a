import Verif.Props.EtaT
import Verif.Props.Ternary
import Verif.Lemmas.Tri3Cert

/-!
# The fields behind the generated type I parameters

Specification: Mathlib's `Irreducible`, `AdjoinRoot`, `Nat.card`. The theorems about points and pairing
(C98 to C103) are stated for a field of `3^m` elements; here the field is the one the library builds
from the generated degree and middle exponent.
-/

set_option autoImplicit false

namespace Pbc.EtaT

open Spec
open Pbc.Ternary (E2 E3 El trinomial Reps Good fieldInit)
open Pbc.Curve (Pt Mem)

private instance : Fact (Nat.Prime 3) := ⟨by decide⟩

/-- **C104**: the trinomial of every generated parameter set is irreducible over the field of three elements. -/
theorem C104_irreducible (size : ℤ) (p : Params) (h : paramGen size = some p) :
    Irreducible (trinomial p.m p.t) := by
  unfold paramGen at h
  by_cases h150 : size ≤ 150
  · rw [if_pos h150] at h
    exact Option.some.inj h ▸ Tri3.irreducible_97
  rw [if_neg h150] at h
  by_cases h206 : size ≤ 206
  · rw [if_pos h206] at h
    exact Option.some.inj h ▸ Tri3.irreducible_199
  rw [if_neg h206] at h
  by_cases h259 : size ≤ 259
  · rw [if_pos h259] at h
    exact Option.some.inj h ▸ Tri3.irreducible_235
  rw [if_neg h259] at h
  by_cases h316 : size ≤ 316
  · rw [if_pos h316] at h
    exact Option.some.inj h ▸ Tri3.irreducible_385
  rw [if_neg h316] at h
  by_cases h376 : size ≤ 376
  · rw [if_pos h376] at h
    exact Option.some.inj h ▸ Tri3.irreducible_337
  rw [if_neg h376] at h
  by_cases h430 : size ≤ 430
  · rw [if_pos h430] at h
    exact Option.some.inj h ▸ Tri3.irreducible_373
  rw [if_neg h430] at h
  by_cases h484 : size ≤ 484
  · rw [if_pos h484] at h
    exact Option.some.inj h ▸ Tri3.irreducible_395
  rw [if_neg h484] at h
  by_cases h552 : size ≤ 552
  · rw [if_pos h552] at h
    exact Option.some.inj h ▸ Tri3.irreducible_433
  rw [if_neg h552] at h
  by_cases h644 : size ≤ 644
  · rw [if_pos h644] at h
    exact Option.some.inj h ▸ Tri3.irreducible_467
  rw [if_neg h644] at h
  by_cases h696 : size ≤ 696
  · rw [if_pos h696] at h
    exact Option.some.inj h ▸ Tri3.irreducible_503
  rw [if_neg h696] at h
  by_cases h803 : size ≤ 803
  · rw [if_pos h803] at h
    exact Option.some.inj h ▸ Tri3.irreducible_509
  rw [if_neg h803] at h
  by_cases h892 : size ≤ 892
  · rw [if_pos h892] at h
    exact Option.some.inj h ▸ Tri3.irreducible_617
  rw [if_neg h892] at h
  cases h

/-- **C104**: the residues form a field of `3^m` elements. -/
theorem C104_elements (size : ℤ) (p : Params) (h : paramGen size = some p) :
    IsField (AdjoinRoot (trinomial p.m p.t)) ∧ Nat.card (AdjoinRoot (trinomial p.m p.t)) = 3 ^ p.m := by
  have : Fact (Irreducible (trinomial p.m p.t)) := ⟨C104_irreducible size p h⟩
  obtain ⟨-, -, -, -, h0, ht, -⟩ := C103_parameters size p h
  have hf := Pbc.Ternary.tri_monic h0 ht
  have hfin : Module.Finite (ZMod 3) (AdjoinRoot (trinomial p.m p.t)) := hf.finite_adjoinRoot
  refine ⟨Field.toIsField _, ?_⟩
  rw [Module.natCard_eq_pow_finrank (K := ZMod 3), Nat.card_zmod,
    (AdjoinRoot.powerBasis hf.ne_zero).finrank, AdjoinRoot.powerBasis_dim, Pbc.Ternary.tri_natDegree h0 ht]

/-- **C104**, the representation: set up with a generated degree and middle exponent, for any positive word
size, every nonzero element is inverted. -/
theorem C104_invert {w : ℕ} (hw : 0 < w) (size : ℤ) (p : Params) (h : paramGen size = some p) :
    ∃ P : Pbc.Ternary.Params w, fieldInit p.m p.t = some P ∧
      ∀ (a : El w) (x : AdjoinRoot (trinomial p.m p.t)), Reps p.m p.t P.len a x → x ≠ 0 →
        ∃ e z, Pbc.Ternary.invert P a = some e ∧ Reps p.m p.t P.len e z ∧ z * x = 1 := by
  have : Fact (Irreducible (trinomial p.m p.t)) := ⟨C104_irreducible size p h⟩
  obtain ⟨-, -, -, -, h0, ht, -⟩ := C103_parameters size p h
  obtain ⟨P, hP, hg⟩ := Pbc.Ternary.C65_init hw h0 ht
  refine ⟨P, hP, fun a x ha hx => ?_⟩
  obtain ⟨e, h1, h2⟩ := Pbc.Ternary.C65_invert_field hg ha hx
  exact ⟨e, _, h1, h2, inv_mul_cancel₀ hx⟩

/-- **C104**, the pairing: with the generated parameters the pairing is bilinear on the curve over the field
built from them, and on points killed by the generated group order its values are roots of unity of that
order. -/
theorem C104_pairing (size : ℤ) (p : Params) (h : paramGen size = some p)
    [Fact (Irreducible (trinomial p.m p.t))] [DecidableEq (AdjoinRoot (trinomial p.m p.t))]
    {P Q P' Q' : Pt (AdjoinRoot (trinomial p.m p.t))}
    {x y : (EC (-1 : AdjoinRoot (trinomial p.m p.t)) 1).Point} (hP : PtRep P x) (hQ : PtRep Q y) (a b : ℕ)
    (hP' : PtRep P' (a • x)) (hQ' : PtRep Q' (b • y)) :
    ∃ v, pairing p.m P Q = some v ∧ pairing p.m P' Q' = some (npow v (a * b)) ∧
      (p.n • x = 0 ∨ p.n • y = 0 → npow v p.n = E3.one) := by
  obtain ⟨hm, -, -, -, h0, ht, -⟩ := C103_parameters size p h
  have hc := (C104_elements size p h).2
  have hfin : Module.Finite (ZMod 3) (AdjoinRoot (trinomial p.m p.t)) :=
    (Pbc.Ternary.tri_monic h0 ht).finite_adjoinRoot
  have : Finite (AdjoinRoot (trinomial p.m p.t)) := Module.finite_of_finite (ZMod 3)
  have : Fintype (AdjoinRoot (trinomial p.m p.t)) := Fintype.ofFinite _
  have : CharP (AdjoinRoot (trinomial p.m p.t)) 3 :=
    charP_of_injective_algebraMap (algebraMap (ZMod 3) (AdjoinRoot (trinomial p.m p.t))).injective 3
  rw [Nat.card_eq_fintype_card] at hc
  obtain ⟨v, e, e'⟩ := C102_scalars hc hm hP hQ a b hP' hQ'
  refine ⟨v, e, e', fun hn => ?_⟩
  obtain ⟨w, e1, e2⟩ := C102_order hc hm hP hQ p.n hn
  rw [e, Option.some.injEq] at e1
  rw [e1, e2]

/-- A generated point of the curve: `(0, 1)`. -/
example (size : ℤ) (p : Params) (h : paramGen size = some p) [DecidableEq (AdjoinRoot (trinomial p.m p.t))] :
    ∃ (_ : Fact (Irreducible (trinomial p.m p.t))) (x : (EC (-1 : AdjoinRoot (trinomial p.m p.t)) 1).Point),
      PtRep ⟨false, 0, 1⟩ x := by
  have hi : Fact (Irreducible (trinomial p.m p.t)) := ⟨C104_irreducible size p h⟩
  have : CharP (AdjoinRoot (trinomial p.m p.t)) 3 :=
    charP_of_injective_algebraMap (algebraMap (ZMod 3) (AdjoinRoot (trinomial p.m p.t))).injective 3
  refine ⟨hi, (C98_equation _).1 ?_⟩
  simp [OnCurve]

example : ∃ p, paramGen 200 = some p := ⟨_, rfl⟩

/-- `3^97`: a field; inverses with 64-bit words. -/
example : Nat.card (AdjoinRoot (trinomial 97 12)) = 3 ^ 97 ∧
    ∃ P : Pbc.Ternary.Params 64, fieldInit 97 12 = some P := by
  have h : paramGen 100 = some ⟨97, 12, 2726865189058261010774960798134976187171462721, 7⟩ := rfl
  obtain ⟨P, hP, -⟩ := C104_invert (w := 64) (by decide) 100 _ h
  exact ⟨(C104_elements 100 _ h).2, P, hP⟩

end Pbc.EtaT
