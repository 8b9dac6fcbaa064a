import Verif.Props.NonDegF
import Verif.Props.PairingFInst
import Verif.Props.CmGen

/-! # C107, C112: type F parameters as they are generated have a pairing that is not degenerate -/

set_option autoImplicit false
set_option linter.unusedSectionVars false

namespace Pbc.NonDeg

open Pbc.Curve (Pt)
open Pbc.PairingD (Ext)
open Pbc.PairingF (TypeF eF nalpha init apply pairing exists_ext_gen)
open WeierstrassCurve WeierstrassCurve.Affine
open Spec (EC PtRep Pairing)
open Tate

section extension

open Polynomial

/-- The field of the pairing values: `K` with a root of `x^6 + alpha`. -/
theorem exists_field {K : Type} [Field K] [Fintype K] {α : K} (hirr : Irreducible (X ^ 6 + C α : K[X])) :
    ∃ (L : Type) (_ : Field L) (_ : DecidableEq L) (_ : Fintype L) (_ : Algebra K L) (E12 : Ext K L) (ξ : L),
      E12.Ok ξ ∧ E12.d = 6 ∧ Fintype.card L = Fintype.card K ^ 6 ∧ ξ ^ 6 + algebraMap K L α = 0 := by
  classical
  have hfact : Fact (Irreducible (X ^ 6 + C α : K[X])) := ⟨hirr⟩
  have h0 : (X ^ 6 + C α : K[X]) ≠ 0 := hirr.ne_zero
  have hdeg : (X ^ 6 + C α : K[X]).natDegree = 6 := natDegree_X_pow_add_C
  have hfr : Module.finrank K (AdjoinRoot (X ^ 6 + C α : K[X])) = 6 := by
    rw [(AdjoinRoot.powerBasis h0).finrank, AdjoinRoot.powerBasis_dim, hdeg]
  have hfd : FiniteDimensional K (AdjoinRoot (X ^ 6 + C α : K[X])) :=
    Module.finite_of_finrank_pos (by rw [hfr]; norm_num)
  have hfin : Finite (AdjoinRoot (X ^ 6 + C α : K[X])) := Module.finite_of_finite K
  have hft := Fintype.ofFinite (AdjoinRoot (X ^ 6 + C α : K[X]))
  obtain ⟨E, hE, hd⟩ := exists_ext_gen (AdjoinRoot.root (X ^ 6 + C α : K[X])) AdjoinRoot.adjoinRoot_eq_top
  refine ⟨_, inferInstance, Classical.decEq _, hft, inferInstance, E, _, hE, hd.trans hfr, ?_, ?_⟩
  · have := Module.natCard_eq_pow_finrank (K := K) (V := AdjoinRoot (X ^ 6 + C α : K[X]))
    rwa [hfr, Nat.card_eq_fintype_card, Nat.card_eq_fintype_card] at this
  · have := AdjoinRoot.eval₂_root (X ^ 6 + C α : K[X])
    rwa [eval₂_add, eval₂_X_pow, eval₂_C] at this

end extension

theorem bn_dvd (x : ℤ) : bnR x ∣ bnQ x ^ 4 - bnQ x ^ 2 + 1 := by
  have h1 : bnR x ∣ bnQ x - 6 * x ^ 2 := ⟨1, by unfold bnQ bnR; ring⟩
  have h2 : bnR x ∣ (6 * x ^ 2) ^ 4 - (6 * x ^ 2) ^ 2 + 1 :=
    ⟨36 * x ^ 4 - 36 * x ^ 3 + 18 * x ^ 2 - 6 * x + 1, by unfold bnR; ring⟩
  have e : bnQ x ^ 4 - bnQ x ^ 2 + 1 = (bnQ x - 6 * x ^ 2) * ((bnQ x + 6 * x ^ 2) * (bnQ x ^ 2 + (6 * x ^ 2) ^ 2) -
      (bnQ x + 6 * x ^ 2)) + ((6 * x ^ 2) ^ 4 - (6 * x ^ 2) ^ 2 + 1) := by ring
  rw [e]
  exact dvd_add (h1.mul_right _) h2

section gen

open Polynomial

variable {F K : Type} [Field F] [DecidableEq F] [Fintype F] [Field K] [DecidableEq K] [Fintype K] [Algebra F K]
  {E2 : Ext F K} {η : K} {q r : ℕ} {b alpha0 alpha1 : F} {x : ℤ}

/-- What the generation of type F parameters establishes — `q` and `r` from the family, a curve of order `r`, `alpha` with
`x^6 + alpha` irreducible and the twist of an order divisible by `r` — is all that the pairing needs. -/
theorem C107_typeF_generated (hE : E2.Ok η) (hd : E2.d = 2) (hcF : Fintype.card F = q) (hcK : Fintype.card K = q ^ 2)
    (hx : x ≠ 0) (hq : (q : ℤ) = bnQ x) (hr : (r : ℤ) = bnR x) (hrp : r.Prime) (hb : b ≠ 0)
    (hN : Nat.card (EC 0 b).Point = r)
    (hirr : Irreducible (X ^ 6 + C (algebraMap F K alpha0 + algebraMap F K alpha1 * η) : K[X]))
    (hT : r ∣ Nat.card (EC 0 (nalpha η alpha0 alpha1 * algebraMap F K b)).Point) :
    ∃ (L : Type) (_ : Field L) (_ : DecidableEq L) (_ : Fintype L) (_ : Algebra K L) (E12 : Ext K L) (ξ : L)
      (p : PairingF.Data F K L), TypeF E2 E12 η ξ q r alpha0 alpha1 ∧
        Family x q r b (nalpha η alpha0 alpha1 * algebraMap F K b) ∧ init E2 E12 q r b alpha0 alpha1 = some p ∧
        ∀ (P : (EC 0 b).Point) (Q : (EC 0 (nalpha η alpha0 alpha1 * algebraMap F K b)).Point) p' q', PtRep p' P →
          PtRep q' Q → r • Q = 0 → (apply (pairing p) p' q' = some 1 ↔ p'.inf = true ∨ q'.inf = true) := by
  obtain ⟨L, _, _, _, _, E12, ξ, hE12, hd12, hcL, hξ⟩ := exists_field hirr
  have ht : TypeF E2 E12 η ξ q r alpha0 alpha1 :=
    { ok2 := hE, d2 := hd, ok12 := hE12, d12 := hd12, cardF := hcF, cardK := hcK
      cardL := by rw [hcL, hcK, ← pow_mul]
      six := by
        have := bn_six hq
        have : 19 ≤ q := by
          have := bnQ_ge hx
          rw [← hq] at this
          exact_mod_cast this
        omega
      root := hξ
      prime := hrp
      dvd := by
        have h1 : q ^ 2 ≤ q ^ 4 := Nat.pow_le_pow_right (by rw [← hcF]; exact Fintype.card_pos) (by norm_num)
        have := bn_dvd x
        rw [← hq, ← hr] at this
        zify [h1]
        exact this }
  have hf : Family x q r b (nalpha η alpha0 alpha1 * algebraMap F K b) := ⟨hx, hq, hr, hb, hN, hT⟩
  letI : Algebra F L := ((algebraMap K L).comp (algebraMap F K)).toAlgebra
  have : IsScalarTower F K L := IsScalarTower.of_algebraMap_eq fun _ => rfl
  obtain ⟨p, hp, -⟩ := PairingF.C90_typeF (b := b) ht
  exact ⟨L, _, _, _, _, E12, ξ, p, ht, hf, hp, fun P Q p' q' h1 h2 h3 => C107_typeF ht hp hf h1 h2 h3⟩

end gen

/-! ### Instance: `x = -1`, `q = 19`, `r = 13` -/

private instance prime19 : Fact (Nat.Prime 19) := ⟨by norm_num⟩
private instance fact19 : Fact (∀ s : ZMod 19, s ^ 2 ≠ 2 + 0 * s) := ⟨by decide⟩

/-- The field of 361 elements. -/
abbrev K361 := QuadraticAlgebra (ZMod 19) 2 0

instance fin361 : Fintype K361 := Fintype.ofEquiv (ZMod 19 × ZMod 19) (QuadraticAlgebra.equivProd 2 0).symm

theorem card361 : Fintype.card K361 = 19 ^ 2 := by
  rw [Fintype.ofEquiv_card, Fintype.card_prod, ZMod.card]; rfl

def E361 : Ext (ZMod 19) K361 := ⟨2, fun x i => if i = 0 then x.re else if i = 1 then x.im else 0,
  fun f => ⟨f 0, f 1⟩⟩

theorem ok361 : E361.Ok (⟨0, 1⟩ : K361) where
  pos := by decide
  make g := by
    ext <;> simp [E361, Finset.sum_range_succ]
  item x := by
    ext <;> simp [E361, Finset.sum_range_succ]

theorem nalpha361 : nalpha (⟨0, 1⟩ : K361) (18 : ZMod 19) 10 = ⟨1, 9⟩ := by decide +kernel

/-- Points of order 13 of the curve `Y² = X³ + 2` and its twist. -/
def P19 : (EC (0 : ZMod 19) 2).Point := .some 4 3 (by rw [nonsingular_iff, equation_iff]; decide +kernel)

def Q361 : (EC (0 : K361) (nalpha (⟨0, 1⟩ : K361) (18 : ZMod 19) 10 * algebraMap (ZMod 19) K361 2)).Point :=
  .some ⟨4, 2⟩ ⟨13, 5⟩ (by rw [nonsingular_iff, equation_iff]; decide +kernel)

theorem Q361_rep : PtRep (⟨false, ⟨4, 2⟩, ⟨13, 5⟩⟩ : Pt K361) Q361 := ⟨rfl, rfl, rfl⟩

theorem Q361_order : 13 • Q361 = 0 := PairingD.zero_of (by decide) Q361_rep 13 (by decide +kernel)

theorem card19 : Nat.card (EC (0 : ZMod 19) 2).Point = 13 := by
  rw [card_eq (nonsingular_of_disc (by decide) (by decide))]
  decide +kernel

theorem not_pow361 : (∀ c : K361, c ^ 2 ≠ ⟨1, 9⟩) ∧ ∀ c : K361, c ^ 3 ≠ ⟨1, 9⟩ := by
  have h : ∀ {n m : ℕ}, n * m = 360 → (⟨1, 9⟩ : K361) ^ m ≠ 1 → ∀ c : K361, c ^ n ≠ ⟨1, 9⟩ := by
    intro n m hnm h1 c hc
    apply h1
    rw [← hc, ← pow_mul, hnm]
    have := FiniteField.pow_card_sub_one_eq_one c (by
      rintro rfl
      have : n ≠ 0 := by rintro rfl; omega
      rw [zero_pow this] at hc
      exact absurd hc (by decide))
    rwa [card361] at this
  exact ⟨h (n := 2) (m := 180) rfl (by decide +kernel), h (n := 3) (m := 120) rfl (by decide +kernel)⟩

theorem twist361 : 13 ∣ Nat.card (EC (0 : K361) (nalpha (⟨0, 1⟩ : K361) (18 : ZMod 19) 10 *
    algebraMap (ZMod 19) K361 2)).Point := by
  have h : addOrderOf Q361 = 13 := addOrderOf_eq_prime (hp := ⟨by norm_num⟩) Q361_order (Point.some_ne_zero _)
  rw [← h]
  exact addOrderOf_dvd_natCard Q361

open Polynomial in
theorem irr361 : Irreducible (X ^ 6 + C (algebraMap (ZMod 19) K361 18 + algebraMap (ZMod 19) K361 10 * ⟨0, 1⟩) : K361[X]) := by
  have := Props.irreducible_of_not_power not_pow361.1 not_pow361.2
  rw [← nalpha361, nalpha, map_neg, sub_neg_eq_add] at this
  exact this

/-- The pairing of the two points, with these parameters, is not 1. -/
example : ∃ (L : Type) (_ : Field L) (_ : DecidableEq L) (_ : Fintype L) (_ : Algebra K361 L) (E12 : Ext K361 L)
    (p : PairingF.Data (ZMod 19) K361 L), init E361 E12 19 13 2 18 10 = some p ∧
      apply (pairing p) ⟨false, 4, 3⟩ ⟨false, ⟨4, 2⟩, ⟨13, 5⟩⟩ ≠ some 1 := by
  obtain ⟨L, i1, i2, i3, i4, E12, ξ, p, -, -, hp, h⟩ := C107_typeF_generated (x := -1) ok361 rfl (ZMod.card 19) card361
    (by norm_num) rfl rfl (by norm_num : Nat.Prime 13) (by decide) card19 irr361 twist361
  refine ⟨L, i1, i2, i3, i4, E12, p, hp, fun h1 => ?_⟩
  have := (h P19 Q361 ⟨false, 4, 3⟩ _ ⟨rfl, rfl, rfl⟩ Q361_rep Q361_order).1 h1
  simp at this

end Pbc.NonDeg
