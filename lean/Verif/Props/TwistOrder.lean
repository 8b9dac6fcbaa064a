import Verif.Props.NonDegAll
import Verif.Lemmas.FourTorsion

/-! # C88, C107: the order of the twist in types D and G

The twist of types D and G need not be assumed to have points of order `r`: the pairing is not degenerate, so every point
`P ≠ O` of order `r` has a partner, and a pairing with values in the `r`-th roots of unity is trivial on a group whose
order `r` does not divide. -/

set_option autoImplicit false
set_option linter.unusedSectionVars false

namespace Pbc.NonDeg

open Pbc.Quad
open Pbc.Curve (Pt)
open WeierstrassCurve WeierstrassCurve.Affine
open Spec (EC PtRep Pairing)
open Tate

section D

open Pbc.PairingD (one2 TypeD TypeG eD two_F Ext Data initD initG apply pairing millerAffine tatepowerD tatepowerG
  almostCoddh eD_pairing C88_typeD C88_typeG_partial C53_typeD C89_typeD)

variable {F K : Type*} [Field F] [DecidableEq F] [Fintype F] [Field K] [DecidableEq K] [Fintype K] [Algebra F K]
variable {E : Ext F K} {ξ : K} {q k r h n : ℕ} {a b v0 : F}
variable [Fact (∀ s : K, s ^ 2 ≠ algebraMap F K v0 + 0 * s)]

local notation "φ" => algebraMap F K

/-- The pairing of types D and G, without assumptions on the twist. -/
theorem eD_pairing_all (h3 : (3 : F) ≠ 0) (hQ : 61 < Fintype.card K) (hodd : Odd r) (hq : Fintype.card K + 1 = h * r) :
    Pairing r (fun (P : (EC a b).Point) Q => eD (K := K) v0 r h P Q) := by
  obtain ⟨S, hS⟩ := exists_four (a := φ v0 ^ 2 * φ a) (b := φ v0 ^ 3 * φ b) (two_ne' (φ v0)) (fun h0 =>
    h3 ((algebraMap F K).injective (by rw [map_ofNat, h0, map_zero]))) (by omega)
  exact eD_pairing hodd hq hS

/-- If `r` divides the order of the curve over `F`, it divides the order of the twist over `K`. -/
theorem twist_dvd (h3 : (3 : F) ≠ 0) (hD : 4 * a ^ 3 + 27 * b ^ 2 ≠ 0) (hQ : 61 < Fintype.card K) (hp : r.Prime)
    (hodd : Odd r) (hq : Fintype.card K + 1 = h * r) (hr : r ∣ Nat.card (EC a b).Point) :
    r ∣ Nat.card (EC (φ v0 ^ 2 * φ a) (φ v0 ^ 3 * φ b)).Point := by
  have hfr : Fact r.Prime := ⟨hp⟩
  obtain ⟨P, hP⟩ := exists_prime_addOrderOf_dvd_card' r hr
  have h0 : P ≠ 0 := fun h0 => by
    rw [h0, addOrderOf_zero] at hP
    exact hp.one_lt.ne hP
  have hrP : r • P = 0 := hP ▸ addOrderOf_nsmul_eq_zero P
  obtain ⟨Q, hne⟩ := exists_eD_all (K := K) (v0 := v0) h3 hD hQ hodd hq h0 hrP
  have hb := eD_pairing_all (K := K) (a := a) (b := b) (v0 := v0) h3 hQ hodd hq
  by_contra hd
  have e1 := hb.nsmul_right hp.ne_zero Q hrP (Nat.card (EC (φ v0 ^ 2 * φ a) (φ v0 ^ 3 * φ b)).Point)
  rw [card_nsmul_eq_zero', hb.zero_right hp.ne_zero hrP] at e1
  have := pow_gcd_eq_one.2 ⟨e1.symm, hb.root P Q hrP⟩
  rw [((hp.coprime_iff_not_dvd.2 hd).symm : Nat.gcd _ r = 1), pow_one] at this
  exact hne this

/-- **C88** for type D without assumptions on the twist: the field of the twist has more than 61 elements and its
characteristic is not 3. -/
theorem C88_typeD_all (ht : TypeD E ξ q k r) (h3 : (3 : F) ≠ 0) (hQ : 61 < q ^ E.d) :
    ∃ p, initD E q k r a b v0 = some p ∧
      Pairing r (fun (P : (EC a b).Point) Q => eD (K := K) v0 r ((q ^ E.d + 1) / r) P Q) ∧
    ∀ (P : (EC a b).Point) (Q : (EC (φ v0 ^ 2 * φ a) (φ v0 ^ 3 * φ b)).Point) (p' : Pt F) (q' : Pt K),
      PtRep p' P → PtRep q' Q → r • P = 0 →
      ∃ g, apply (pairing p millerAffine tatepowerD) p' q' = some g ∧
        alg (φ v0) g = eD v0 r ((q ^ E.d + 1) / r) P Q := by
  obtain ⟨p, e, -, hval⟩ := C88_typeD (a := a) (b := b) (v0 := v0) ht
  exact ⟨p, e, eD_pairing_all h3 (ht.cardK ▸ hQ) ht.odd ht.cof, hval⟩

theorem TypeG.big (ht : TypeG E ξ q r) (v0 : F) [Fact (∀ s : K, s ^ 2 ≠ algebraMap F K v0 + 0 * s)] (h3 : (3 : F) ≠ 0) :
    61 < q ^ 5 := by
  have h2 : (2 : F) ≠ 0 := two_F (K := K) v0
  have h5 : 5 ≤ q := by
    have hodd := FiniteField.odd_card_of_char_ne_two (F := F) fun hc => h2 (by
      have := CharP.cast_eq_zero F (ringChar F)
      rwa [hc] at this)
    rw [ht.cardF] at hodd
    have h1 : 1 < q := ht.cardF ▸ Fintype.one_lt_card
    have hq3 : q ≠ 3 := fun h => h3 (by
      have := FiniteField.cast_card_eq_zero F
      rw [ht.cardF, h] at this
      exact_mod_cast this)
    omega
  exact lt_of_lt_of_le (by norm_num) (Nat.pow_le_pow_left h5 5)

/-- **C88** for type G without assumptions on the twist (`C88_typeG_partial`). -/
theorem C88_typeG_all_partial (ht : TypeG E ξ q r) (h3 : (3 : F) ≠ 0) :
    ∃ p, initG E q r a b v0 = some p ∧
      Pairing r (fun (P : (EC a b).Point) Q => eD (K := K) v0 r ((q ^ 5 + 1) / r) P Q) ∧
    ∀ (P : (EC a b).Point) (Q : (EC (φ v0 ^ 2 * φ a) (φ v0 ^ 3 * φ b)).Point) (p' : Pt F) (q' : Pt K),
      PtRep p' P → PtRep q' Q → r • P = 0 →
      (∀ g, apply (pairing p millerAffine tatepowerG) p' q' = some g →
        alg (φ v0) g = eD v0 r ((q ^ 5 + 1) / r) P Q) ∧
      (P = 0 ∨ Q = 0 ∨ eD v0 r ((q ^ 5 + 1) / r) P Q ≠ 1 →
        (apply (pairing p millerAffine tatepowerG) p' q').isSome) := by
  obtain ⟨p, e, -, hval⟩ := C88_typeG_partial (a := a) (b := b) (v0 := v0) ht
  exact ⟨p, e, eD_pairing_all h3 (ht.cardK ▸ TypeG.big ht v0 h3) ht.odd ht.cof, hval⟩

/-- **C107** for type D: a prime `r` that divides the order of the curve divides the order of the twist, so G2 has
elements of order `r`. -/
theorem C107_typeD_twist (ht : TypeD E ξ q k r) (h3 : (3 : F) ≠ 0) (hD : 4 * a ^ 3 + 27 * b ^ 2 ≠ 0)
    (hQ : 61 < q ^ E.d) (hr : r ∣ Nat.card (EC a b).Point) :
    r ∣ Nat.card (EC (φ v0 ^ 2 * φ a) (φ v0 ^ 3 * φ b)).Point :=
  twist_dvd h3 hD (ht.cardK ▸ hQ) ht.prime ht.odd ht.cof hr

/-- **C107** for type G. -/
theorem C107_typeG_twist (ht : TypeG E ξ q r) (h3 : (3 : F) ≠ 0) (hD : 4 * a ^ 3 + 27 * b ^ 2 ≠ 0)
    (hr : r ∣ Nat.card (EC a b).Point) : r ∣ Nat.card (EC (φ v0 ^ 2 * φ a) (φ v0 ^ 3 * φ b)).Point :=
  twist_dvd h3 hD (ht.cardK ▸ TypeG.big ht v0 h3) ht.prime ht.odd ht.cof hr

/-- **C53** for type D without assumptions on the twist: with `P ≠ O` there is a point `Q` of order `r` for which the test
answers yes for `x P` and `y Q` exactly if `y = ±x` modulo `r`. -/
theorem C53_typeD_all (ht : TypeD E ξ q k r) {p : Data F K} (hi : initD E q k r a b v0 = some p) (h3 : (3 : F) ≠ 0)
    (hD : 4 * a ^ 3 + 27 * b ^ 2 ≠ 0) (hQ : 61 < q ^ E.d) {P : (EC a b).Point} (hP : P ≠ 0) (hr : r • P = 0) :
    ∃ Q : (EC (φ v0 ^ 2 * φ a) (φ v0 ^ 3 * φ b)).Point, ∀ (x y : ℤ), x • P ≠ 0 → y • Q ≠ 0 →
      ∀ (p₁ p₂ : Pt F) (q₁ q₂ : Pt K), PtRep p₁ P → PtRep p₂ (x • P) → PtRep q₁ Q → PtRep q₂ (y • Q) →
      ∃ ans, almostCoddh p millerAffine tatepowerD p₁ p₂ q₁ q₂ = some ans ∧
        (ans = true ↔ (r : ℤ) ∣ y - x ∨ (r : ℤ) ∣ y + x) := by
  obtain ⟨Q, hne⟩ := exists_eD_all (K := K) (v0 := v0) h3 hD (ht.cardK ▸ hQ) ht.odd ht.cof hP hr
  have hfr : Fact r.Prime := ⟨ht.prime⟩
  have hdv : r ∣ Nat.card (EC a b).Point := addOrderOf_eq_prime hr hP ▸ addOrderOf_dvd_natCard P
  obtain ⟨S, hS⟩ := exists_prime_addOrderOf_dvd_card' r (C107_typeD_twist (K := K) (v0 := v0) ht h3 hD hQ hdv)
  refine ⟨Q, fun x y hx hy p₁ p₂ q₁ q₂ h₁ h₂ h₃ h₄ => C53_typeD ht hi ⟨S, fun h0 => ?_, hS ▸ addOrderOf_nsmul_eq_zero S⟩ hr
    hne hx hy h₁ h₂ h₃ h₄⟩
  rw [h0, addOrderOf_zero] at hS
  exact ht.prime.one_lt.ne hS

/-! ### Instances -/

private instance prime79 : Fact (Nat.Prime 79) := ⟨by norm_num⟩
private instance fact79 : Fact (∀ s : ZMod 79, s ^ 2 ≠ algebraMap (ZMod 79) (ZMod 79) 3 + 0 * s) :=
  ⟨by simp only [Algebra.algebraMap_self, RingHom.id_apply]; decide +kernel⟩

example : ∃ p, initD E79 79 2 5 (1 : ZMod 79) 23 3 = some p :=
  let ⟨p, h, _⟩ := C88_typeD_all (a := 1) (b := 23) (v0 := 3) type79 (by decide) (by decide)
  ⟨p, h⟩

/-- The order of the curve is divisible by 5 because it has a point of order 5, hence so is that of the twist. -/
example : 5 ∣ Nat.card (EC (algebraMap (ZMod 79) (ZMod 79) 3 ^ 2 * algebraMap (ZMod 79) (ZMod 79) 1)
    (algebraMap (ZMod 79) (ZMod 79) 3 ^ 3 * algebraMap (ZMod 79) (ZMod 79) 23)).Point :=
  C107_typeD_twist type79 (by decide) (by decide +kernel) (by decide) (by
    have : Fact (Nat.Prime 5) := ⟨by norm_num⟩
    exact addOrderOf_eq_prime P79_order (Point.some_ne_zero _) ▸ addOrderOf_dvd_natCard P79)

example {p : Data (ZMod 79) (ZMod 79)} (hi : initD E79 79 2 5 1 23 3 = some p) :=
  C53_typeD_all (P := P79) type79 hi (by decide) (by decide +kernel) (by decide) (Point.some_ne_zero _) P79_order

end D

end Pbc.NonDeg
