import Verif.Lemmas.NonDegE
import Verif.Lemmas.CmCurves
import Verif.Props.PairingE
import Verif.Props.CmGen

/-! # Non-degeneracy of the pairing of type E (C107)

For the parameters that `pbc_param_init_e_gen` makes: a prime `q = 3 (s r)² + 1` and the curve `y² = x³ + 1`
(C113).  All points killed by `r` have coordinates in the field, so G1 has `r²` elements; no element but the
neutral one pairs to one with everything. -/

set_option autoImplicit false
set_option linter.unusedSectionVars false

namespace Pbc.PairingE

open Pbc.Curve (Pt)
open Pbc.PairingF (apply)
open WeierstrassCurve WeierstrassCurve.Affine
open Spec (EC PtRep Bilinear TypeE tors mem_tors GoodShift)
open TateK

variable {K : Type*} [Field K] [DecidableEq K] [Fintype K] {q r exp2 exp1 s : ℕ} {sign1 sign0 : ℤ}

/-- The numbers of generated parameters: `q = 3 (s r)² + 1` is prime, and `r` does not divide `s`. -/
structure Numbers (q r s : ℕ) : Prop where
  prime : q.Prime
  eq : q = 3 * (s * r) ^ 2 + 1
  cop : ¬ r ∣ s

/-- A primitive cube root of unity. -/
theorem exists_cube_root (h3 : (3 : K) ≠ 0) (hq : 3 ∣ Fintype.card K - 1) : ∃ ζ : K, ζ ^ 2 + ζ + 1 = 0 := by
  obtain ⟨g, hg⟩ := IsCyclic.exists_generator (α := Kˣ)
  obtain ⟨k, hk⟩ := hq
  have hord : orderOf g = Fintype.card K - 1 := by
    rw [orderOf_eq_card_of_forall_mem_zpowers hg, Nat.card_eq_fintype_card, Fintype.card_units]
  have hpos : 0 < Fintype.card K - 1 := by
    have := Fintype.one_lt_card (α := K)
    omega
  have hk0 : 0 < k := by omega
  have hne : g ^ k ≠ 1 := fun h => by
    have := Nat.le_of_dvd hk0 (orderOf_dvd_of_pow_eq_one h)
    omega
  have hcube : (g ^ k) ^ 3 = 1 := by
    rw [← pow_mul, mul_comm, ← hk, ← hord, pow_orderOf_eq_one]
  refine ⟨((g ^ k : Kˣ) : K), ?_⟩
  have h1 : ((g ^ k : Kˣ) : K) ^ 3 = 1 := by rw [← Units.val_pow_eq_pow_val, hcube, Units.val_one]
  have h2 : ((g ^ k : Kˣ) : K) - 1 ≠ 0 := fun h => hne (Units.ext (by rw [Units.val_one]; exact sub_eq_zero.1 h))
  refine mul_left_cancel₀ h2 ?_
  linear_combination h1

theorem Numbers.full (h : TypeE K q r exp2 exp1 sign1 sign0) (n : Numbers q r s) :
    ∃ ζ : K, Full K 1 ζ r (3 * s ^ 2) := by
  have hq : Fintype.card K = 3 * (s * r) ^ 2 + 1 := by rw [h.card, n.eq]
  have hp : (Fintype.card K).Prime := h.card ▸ n.prime
  obtain ⟨h2, h3⟩ := Props.typeE_consts hp hq
  obtain ⟨ζ, hζ⟩ := exists_cube_root h3 ⟨(s * r) ^ 2, by omega⟩
  have hs : 2 ≤ s := by
    by_contra hs
    have : s = 0 ∨ s = 1 := by omega
    rcases this with rfl | rfl
    · exact n.cop (dvd_zero r)
    · have hodd := h.prime.odd_of_ne_two (by have := h.big; omega)
      have hev : 2 ∣ Fintype.card K := by
        rw [hq, one_mul]
        obtain ⟨j, rfl⟩ := hodd
        exact ⟨6 * j ^ 2 + 6 * j + 2, by ring⟩
      have h22 := (Nat.prime_dvd_prime_iff_eq Nat.prime_two hp).1 hev
      have hb := h.big
      rw [← h22, one_mul] at hq
      nlinarith
  refine ⟨ζ, hζ, h2, h3, one_ne_zero, h.prime, h.big, by rw [hq]; ring, ?_, by nlinarith, ?_⟩
  · have := Tate.card_typeE hp hq
    have e : 3 * s ^ 2 * r ^ 2 = 3 * (s * r) ^ 2 := by ring
    omega
  · intro hd
    rcases (Nat.Prime.dvd_mul h.prime).1 hd with h' | h'
    · have := Nat.le_of_dvd (by norm_num) h'
      have := h.big
      omega
    · exact n.cop (h.prime.dvd_of_dvd_pow h')

/-- **C107** for type E: for every element of G1 but the neutral one there is one of G2 with which the pairing is
not one. -/
theorem C107_typeE (h : TypeE K q r exp2 exp1 sign1 sign0) (n : Numbers q r s) {R : (EC (0 : K) 1).Point}
    (hR : GoodShift r R) {R' : Pt K} (hR' : PtRep R' R) {miller : Data K → Pt K → Pt K → Pt K → Option K}
    (hm : Routine miller) {P : (EC (0 : K) 1).Point} {p' : Pt K} (hp : PtRep p' P) (hP : P ≠ 0) (hr : r • P = 0) :
    ∃ Q : (EC (0 : K) 1).Point, r • Q = 0 ∧ ∀ q', PtRep q' Q →
      ∃ v, apply (pairing miller (init q r 0 exp2 exp1 sign1 sign0 R')) p' q' = some v ∧ v ≠ 1 := by
  obtain ⟨ζ, F⟩ := n.full h
  obtain ⟨f, hf⟩ := exists_fullK (H := tors r) (mem_tors.2 hr) hP h.prime.ne_zero hr
  obtain ⟨χ, hχ⟩ := exists_char F.kills F.avoids (mem_tors.2 hr) hf
  obtain ⟨Q, hQ, hQ1⟩ := F.nondeg hP hr hf hχ
  refine ⟨Q, hQ, fun q' hq => ⟨_, (C93_typeE h hR hR').2 _ hm P Q p' q' hp hq hr hQ, ?_⟩⟩
  obtain ⟨A, hA⟩ := exists_off (notMem_add (GoodShift.one hR) (mem_tors.2 hQ))
  obtain ⟨B, hB⟩ := exists_off (GoodShift.one hR)
  have he : (q - 1) / r = 3 * s ^ 2 * r := by
    rw [n.eq, Nat.add_sub_cancel]
    refine Nat.div_eq_of_eq_mul_left h.prime.pos ?_
    ring
  rw [eE, tateK_eq hP hf hA hB, div_pow, he, hχ.val A B, hA, hB, add_sub_cancel_right,
    mul_div_cancel_right₀ _ (pow_ne_zero _ (hf.ne_zero B))]
  exact hQ1

/-- **C113** for the group of type E: all points killed by `r` have coordinates in the field; G1 has `r²`
elements and is not cyclic. -/
theorem C113_torsion (h : TypeE K q r exp2 exp1 sign1 sign0) (n : Numbers q r s) :
    Nat.card {P : (EC (0 : K) 1).Point // r • P = 0} = r ^ 2 ∧
    ¬ ∃ g : (EC (0 : K) 1).Point, r • g = 0 ∧ ∀ P : (EC (0 : K) 1).Point, r • P = 0 → ∃ k : ℤ, P = k • g := by
  obtain ⟨ζ, F⟩ := n.full h
  have hc := F.card_tors
  refine ⟨hc, fun ⟨g, hg, hall⟩ => ?_⟩
  have hfin := F.finite
  have hle : tors (A := (EC (0 : K) 1).Point) r ≤ AddSubgroup.zmultiples g := fun P hP => by
    obtain ⟨k, hk⟩ := hall P hP
    exact ⟨k, hk.symm⟩
  have h1 := AddSubgroup.card_le_of_le hle
  rw [hc, Nat.card_zmultiples] at h1
  have h2 := Nat.le_of_dvd h.prime.pos (addOrderOf_dvd_of_nsmul_eq_zero hg)
  have := h.big
  nlinarith

/-- **C113** for the cofactor: multiplying any point of the curve by `h = 3 s²` gives an element of G1, as drawing
at random and hashing rely on. -/
theorem C113_cofactor (h : TypeE K q r exp2 exp1 sign1 sign0) (n : Numbers q r s) (P : (EC (0 : K) 1).Point) :
    r • (3 * s ^ 2) • P = 0 := by
  obtain ⟨ζ, F⟩ := n.full h
  have hfin := F.finite
  have hle : tors (A := (EC (0 : K) 1).Point) r ≤ tors (r ^ 2) := fun T hT => by
    rw [mem_tors] at hT ⊢
    rw [pow_two, mul_smul, hT, smul_zero]
  have hd := card_tors_dvd (n := 2) F.prime F.N F.cop
  have heq := AddSubgroup.eq_of_le_of_card_ge hle (by
    rw [F.card_tors]; exact Nat.le_of_dvd (pow_pos h.prime.pos 2) hd)
  have hm : (3 * s ^ 2) • P ∈ tors (A := (EC (0 : K) 1).Point) (r ^ 2) := by
    rw [mem_tors, smul_smul, mul_comm, ← F.N]
    exact card_nsmul_eq_zero'
  rw [← heq] at hm
  exact hm

/-! ### An instance: `q = 1453 = 12 · 11² + 1` -/

theorem type1453 : Fact (Nat.Prime 1453) := ⟨by norm_num⟩

section instance1453

attribute [local instance] type1453

theorem params1453 : TypeE (ZMod 1453) 1453 11 3 1 1 1 where
  card := ZMod.card 1453
  two := by decide
  prime := by norm_num
  dvd := by norm_num
  pos := by norm_num
  lt := by norm_num
  s1 := .inl rfl
  s0 := .inl rfl
  hr := by norm_num
  big := by norm_num

theorem numbers1453 : Numbers 1453 11 2 where
  prime := by norm_num
  eq := by norm_num
  cop := by norm_num

example : Nat.card {P : (EC (0 : ZMod 1453) 1).Point // 11 • P = 0} = 121 :=
  (C113_torsion params1453 numbers1453).1

example (P : (EC (0 : ZMod 1453) 1).Point) : 11 • 12 • P = 0 := C113_cofactor params1453 numbers1453 P

/-- A point of order 11. -/
def P1453 : (EC (0 : ZMod 1453) 1).Point := .some 10 287 (by
  rw [nonsingular_iff, equation_iff]; decide +kernel)

/-- Another, not a multiple of the first. -/
def Q1453 : (EC (0 : ZMod 1453) 1).Point := .some 12 550 (by
  rw [nonsingular_iff, equation_iff]; decide +kernel)

/-- The shift. -/
def R1453 : (EC (0 : ZMod 1453) 1).Point := .some 2 3 (by
  rw [nonsingular_iff, equation_iff]; decide +kernel)

theorem P1453_rep : PtRep (⟨false, 10, 287⟩ : Pt (ZMod 1453)) P1453 := ⟨rfl, rfl, rfl⟩
theorem Q1453_rep : PtRep (⟨false, 12, 550⟩ : Pt (ZMod 1453)) Q1453 := ⟨rfl, rfl, rfl⟩
theorem R1453_rep : PtRep (⟨false, 2, 3⟩ : Pt (ZMod 1453)) R1453 := ⟨rfl, rfl, rfl⟩

theorem P1453_order : 11 • P1453 = 0 := PairingD.zero_of (by decide) P1453_rep 11 (by decide +kernel)
theorem Q1453_order : 11 • Q1453 = 0 := PairingD.zero_of (by decide) Q1453_rep 11 (by decide +kernel)

theorem good1453 : GoodShift 11 R1453 := by
  have := ne_of (by decide) R1453_rep 22 (by decide +kernel)
  rwa [GoodShift, ← two_smul ℕ, smul_smul]

example : ∃ Q : (EC (0 : ZMod 1453) 1).Point, 11 • Q = 0 ∧ ∀ q', PtRep q' Q →
    ∃ v, apply (pairing millerProj (init 1453 11 0 3 1 1 1 ⟨false, 2, 3⟩)) ⟨false, 10, 287⟩ q' = some v ∧ v ≠ 1 :=
  C107_typeE params1453 numbers1453 good1453 R1453_rep (.inr rfl) P1453_rep (Point.some_ne_zero _) P1453_order

end instance1453

end Pbc.PairingE
