import Verif.Props.PairingA
import Verif.Props.PairingD
import Verif.Props.Gt
import Verif.Lemmas.PointCount

/-! # C107: the pairings are not degenerate

`eA`, `eD` are the pairings that `C80_typeA`, `C81_typeA1_partial`, `C88_typeD` show the code computes.
The statements about the routines themselves follow. -/

set_option autoImplicit false
set_option linter.unusedSectionVars false

namespace Pbc.NonDeg

open Pbc.Quad
open Pbc.PairingA
open Pbc.Curve (Pt)
open WeierstrassCurve WeierstrassCurve.Affine
open Spec (EC PtRep Bilinear Pairing)
open Tate

section A

variable {K : Type*} [Field K] [DecidableEq K] [Fintype K] [Fact (∀ r : K, r ^ 2 ≠ -1 + 0 * r)]
variable {p : Params} {r l h : ℕ} {inv : K → K} {P Q : (EC (1 : K) 0).Point} {p' q' : Pt K}

theorem neg_nsq (z : K) : z ^ 2 ≠ -1 := by
  have := (Fact.out : ∀ r : K, r ^ 2 ≠ -1 + 0 * r) z
  rwa [zero_mul, add_zero] at this

/-- **C107**: the curve of types A and A1 has `q + 1` points, so every point multiplied by the
cofactor has order dividing `r`. -/
theorem C107_order : Nat.card (EC (1 : K) 0).Point = Fintype.card K + 1 ∧
    ∀ P : (EC (1 : K) 0).Point, (Fintype.card K + 1) • P = 0 := by
  have h := card_typeA (K := K) neg_nsq
  exact ⟨h, fun P => by rw [← h]; exact card_nsmul_eq_zero'⟩

theorem smul_cof (hq : Fintype.card K + 1 = h * r) (P : (EC (1 : K) 0).Point) : r • h • P = 0 := by
  rw [smul_smul, mul_comm, ← hq]
  exact C107_order.2 P

/-- The pairing as a map in its second argument, on the whole curve. -/
theorem eA_pairing (hodd : Odd r) (hq : Fintype.card K + 1 = h * r) (hP : P ≠ 0) (hr : r • P = 0) :
    Pairing r (eA (K := K) r h) where
  add_left P₁ P₂ Q h₁ h₂ := tateT_add_left tw (kills hq) hodd.pos.ne' h₁ h₂ Q
  add_right P₁ Q₁ Q₂ h₁ :=
    tateT_add_right_all tw (two_ne' (-1 : K)) (kills hq) hodd h₁ (PairingD.four_ne hodd hr hP) Q₁ Q₂
  root P Q hP := tateT_pow tw (kills hq) hodd.pos.ne' hP Q

/-- **C107** for types A and A1: for every `P ≠ O` of order dividing `r` there is a point of the curve
whose pairing with `P` is not 1.  `r` is any odd number. -/
theorem C107_exists (hodd : Odd r) (hq : Fintype.card K + 1 = h * r) (hP : P ≠ 0) (hr : r • P = 0) :
    ∃ Q, eA (K := K) r h P Q ≠ 1 := by
  refine exists_ne_of_card' tw (two_ne' (-1 : K)) hodd hq hP hr (kills hq) ?_
  rw [C107_order.1]
  have : (Finset.univ.filter fun x : K => x ^ 3 + 1 * x + 0 = 0) = {0} := by
    ext x
    simp only [Finset.mem_filter, Finset.mem_univ, true_and, Finset.mem_singleton]
    constructor
    · intro hx
      have e0 : x * (x ^ 2 + 1) = 0 := by linear_combination hx
      rcases mul_eq_zero.1 e0 with h0 | h0
      · exact h0
      · exact absurd (by linear_combination h0) (neg_nsq x)
    · rintro rfl; ring
  rw [this, Finset.card_singleton]
  omega

/-- **C107** for types A and A1, `r` prime to the cofactor: the partner can be taken of order dividing
`r`. -/
theorem C107_torsion (hodd : Odd r) (hq : Fintype.card K + 1 = h * r) (hcop : h.Coprime r)
    (hP : P ≠ 0) (hr : r • P = 0) : ∃ Q, r • Q = 0 ∧ eA (K := K) r h P Q ≠ 1 := by
  obtain ⟨Q, hQ⟩ := C107_exists hodd hq hP hr
  have hb := eA_pairing (K := K) hodd hq hP hr
  refine ⟨h • Q, smul_cof hq Q, fun h1 => hQ ?_⟩
  rw [hb.nsmul_right hodd.pos.ne' Q hr] at h1
  have := pow_gcd_eq_one.2 ⟨h1, hb.root P Q hr⟩
  rwa [hcop, pow_one] at this

/-- The points of order dividing `r`: the group G1 (and G2) of types A and A1. -/
def G1 (K : Type*) [Field K] [DecidableEq K] (r : ℕ) : AddSubgroup (EC (1 : K) 0).Point :=
  (nsmulAddMonoidHom r).ker

theorem mem_G1 {P : (EC (1 : K) 0).Point} : P ∈ G1 K r ↔ r • P = 0 := AddMonoidHom.mem_ker

/-- **C107**: if `r` is a prime that does not divide the cofactor, G1 has exactly `r` elements. -/
theorem C107_card (hp : r.Prime) (hq : Fintype.card K + 1 = h * r) (hh : ¬ r ∣ h) :
    Nat.card (G1 K r) = r := by
  have hE := (C107_order (K := K)).1
  have hfr : Fact r.Prime := ⟨hp⟩
  obtain ⟨P, hP⟩ := exists_prime_addOrderOf_dvd_card' (G := (EC (1 : K) 0).Point) r
    (by rw [hE, hq]; exact dvd_mul_left _ _)
  have h1 : r ∣ Nat.card (G1 K r) := by
    have hm : P ∈ G1 K r := mem_G1.2 (hP ▸ addOrderOf_nsmul_eq_zero P)
    have := addOrderOf_dvd_natCard (⟨P, hm⟩ : G1 K r)
    rwa [← AddSubgroup.addOrderOf_coe, hP] at this
  have h2 : Nat.card (G1 K r) = r ^ (Nat.card (G1 K r)).primeFactorsList.length :=
    Nat.eq_prime_pow_of_unique_prime_dvd Nat.card_pos.ne' fun {d} hd hdv => by
      have : Fact d.Prime := ⟨hd⟩
      obtain ⟨Q, hQ⟩ := exists_prime_addOrderOf_dvd_card' (G := G1 K r) d hdv
      have h3 : r • Q = 0 := Subtype.ext (mem_G1.1 Q.2)
      have h4 := addOrderOf_dvd_of_nsmul_eq_zero h3
      rw [hQ] at h4
      exact (Nat.prime_dvd_prime_iff_eq hd hp).1 h4
  have h3 : Nat.card (G1 K r) ∣ h * r := by
    rw [← hq, ← hE]; exact AddSubgroup.card_addSubgroup_dvd_card _
  generalize hk : (Nat.card (G1 K r)).primeFactorsList.length = k at h2
  rw [h2] at h1 h3 ⊢
  rcases k with _ | _ | k
  · rw [pow_zero, Nat.dvd_one] at h1; exact absurd h1 hp.one_lt.ne'
  · simp
  · refine absurd ?_ hh
    have : r * r ∣ h * r := (Dvd.intro_left (r ^ k) (by ring)).trans h3
    exact Nat.dvd_of_mul_dvd_mul_right hp.pos this

/-- **C107**: if `r` is a prime that does not divide the cofactor, no two points other than `O` of G1
pair to 1. -/
theorem C107_ne (hp : r.Prime) (hodd : Odd r) (hq : Fintype.card K + 1 = h * r) (hh : ¬ r ∣ h)
    (hP : P ≠ 0) (hQ : Q ≠ 0) (hrP : r • P = 0) (hrQ : r • Q = 0) : eA (K := K) r h P Q ≠ 1 := by
  have hfr : Fact r.Prime := ⟨hp⟩
  obtain ⟨S, hS, hne⟩ := C107_torsion hodd hq ((hp.coprime_iff_not_dvd.2 hh).symm) hP hrP
  intro h1
  have hm : (⟨S, mem_G1.2 hS⟩ : G1 K r) ∈ AddSubgroup.zmultiples (⟨Q, mem_G1.2 hrQ⟩ : G1 K r) :=
    mem_zmultiples_of_prime_card (C107_card hp hq hh) (fun e => hQ (congrArg Subtype.val e))
  obtain ⟨n, hn⟩ := AddSubgroup.mem_zmultiples_iff.1 hm
  have hn' : n • Q = S := congrArg Subtype.val hn
  rw [← hn', (eA_pairing hodd hq hP hrP).zsmul_right hodd.pos.ne' Q hrP, h1, one_zpow] at hne
  exact hne rfl

/-- **C107** for the routines of type A: if `r` does not divide the cofactor, the pairing of two points
of order dividing `r` is 1 only if one of them is `O`.  By `C80_typeA` all methods agree. -/
theorem C107_typeA (ht : TypeA K p r inv) (hh : ¬ r ∣ p.h) (hp : PtRep p' P) (hq : PtRep q' Q)
    (hrP : r • P = 0) (hrQ : r • Q = 0) :
    pairingApply (pairingProj inv p) p' q' = some one2 ↔ p'.inf = true ∨ q'.inf = true := by
  obtain ⟨g, hg, e, -⟩ := (C80_typeA ht).2 P Q p' q' hp hq hrP hrQ
  have h1 : alg (-1) (one2 : El K) = 1 := rfl
  rcases inf_of hp with ⟨hi, rfl⟩ | ⟨hi, h0⟩
  · simp [pairingApply, hi]
  rcases inf_of hq with ⟨hj, rfl⟩ | ⟨hj, h0'⟩
  · simp [pairingApply, hj]
  · simp only [hi, hj, Bool.false_eq_true, or_self, iff_false]
    rw [e, Option.some.injEq]
    rintro rfl
    exact C107_ne ht.prime ht.valid.odd ht.cof hh h0 h0' hrP hrQ (by rw [← hg, h1])

/-- **C107** for type A1 with `r` prime to the cofactor: a point of exact order `r` has a partner of
order dividing `r`, and the routine returns a value other than 1 for it. -/
theorem C107_typeA1 (ht : TypeA1 K r l) (hcop : l.Coprime r) (hp : PtRep p' P) (hP : addOrderOf P = r) :
    ∃ Q : (EC (1 : K) 0).Point, r • Q = 0 ∧ ∀ q', PtRep q' Q →
      ∃ g, pairingApply (a1PairingProj r l) p' q' = some g ∧ g ≠ one2 := by
  have hrP : r • P = 0 := hP ▸ addOrderOf_nsmul_eq_zero P
  have h0 : P ≠ 0 := by
    rintro rfl
    rw [addOrderOf_zero] at hP
    have := ht.three
    omega
  obtain ⟨Q, hQ, hne⟩ := C107_torsion ht.odd ht.cof hcop h0 hrP
  refine ⟨Q, hQ, fun q' hq => ?_⟩
  obtain ⟨g, hg, e, -⟩ := C81_full_order ht hp hq hP hQ
  refine ⟨g, e, ?_⟩
  rintro rfl
  exact hne (by rw [← hg]; rfl)

/-- **C107, what fails**: a second argument that is `r` times a point pairs to 1 with everything. -/
theorem C107_multiple_fails (ht : TypeA K p r inv) (hp : PtRep p' P) (hq : PtRep q' Q)
    (hrP : r • P = 0) (hrQ : r • Q = 0) {S : (EC (1 : K) 0).Point} (hS : Q = r • S) :
    pairingApply (pairingProj inv p) p' q' = some one2 := by
  obtain ⟨g, hg, e, -⟩ := (C80_typeA ht).2 P Q p' q' hp hq hrP hrQ
  rw [e, Option.some.injEq]
  refine alg_inj (hg.trans ?_)
  have h1 : alg (-1) (one2 : El K) = 1 := rfl
  by_cases h0 : P = 0
  · rw [h0, h1, eA, tateT_zero_left]
  · have hb := eA_pairing ht.valid.odd ht.cof h0 hrP
    rw [hS, hb.nsmul_right ht.prime.ne_zero S hrP, hb.root P S hrP, h1]

/-- **C107, what fails**: if `r` divides the cofactor, which parameter generation does not exclude, and
the curve is a cyclic group, the pairing is 1 on all of G1 x G1. -/
theorem C107_cofactor_fails (ht : TypeA K p r inv) (hh : r ∣ p.h) [IsAddCyclic (EC (1 : K) 0).Point]
    (hp : PtRep p' P) (hq : PtRep q' Q) (hrP : r • P = 0) (hrQ : r • Q = 0) :
    pairingApply (pairingProj inv p) p' q' = some one2 := by
  obtain ⟨G, hG⟩ := IsAddCyclic.exists_generator (α := (EC (1 : K) 0).Point)
  obtain ⟨k, hk⟩ := AddSubgroup.mem_zmultiples_iff.1 (hG Q)
  have hord : addOrderOf G = p.h * r := by
    rw [addOrderOf_eq_card_of_forall_mem_zmultiples hG, C107_order.1, ht.cof]
  have h1 : ((p.h * r : ℕ) : ℤ) ∣ r * k := by
    rw [← hord, addOrderOf_dvd_iff_zsmul_eq_zero, mul_smul, hk, natCast_zsmul, hrQ]
  have h2 : (p.h : ℤ) ∣ k := by
    push_cast at h1
    rw [mul_comm (p.h : ℤ)] at h1
    exact Int.dvd_of_mul_dvd_mul_left (by exact_mod_cast ht.prime.ne_zero) h1
  obtain ⟨c, rfl⟩ := (Int.natCast_dvd_natCast.2 hh).trans h2
  refine C107_multiple_fails ht hp hq hrP hrQ (S := c • G) ?_
  rw [← hk, mul_smul, natCast_zsmul]

end A

/-! ### Signatures -/

section S

variable {K : Type} [Field K] [DecidableEq K] [Fintype K] [Fact (∀ r : K, r ^ 2 ≠ -1 + 0 * r)]
variable {p : Params} {r h : ℕ} {inv : K → K}

/-- The pairing on G1. -/
noncomputable def eG (r h : ℕ) (P Q : G1 K r) : L2 K := eA r h P.1 Q.1

theorem apply_eG (r h : ℕ) (P Q : G1 K r) : Gt.apply (eG (K := K) r h) P Q = eA r h P.1 Q.1 := by
  rw [Gt.apply]
  split_ifs with h0 h1
  · rw [h0, eA]; exact (tateT_zero_left tw _).symm
  · rw [h1, eA]; rfl
  · rfl

theorem apply_bilinear (hodd : Odd r) (hq : Fintype.card K + 1 = h * r) :
    Bilinear r (Gt.apply (eG (K := K) r h)) where
  add_left P₁ P₂ Q _ _ _ := by
    rw [apply_eG, apply_eG, apply_eG]
    exact (eA_bilinear hodd hq).add_left _ _ _ (mem_G1.1 P₁.2) (mem_G1.1 P₂.2) (mem_G1.1 Q.2)
  add_right P Q₁ Q₂ _ _ _ := by
    rw [apply_eG, apply_eG, apply_eG]
    exact (eA_bilinear hodd hq).add_right _ _ _ (mem_G1.1 P.2) (mem_G1.1 Q₁.2) (mem_G1.1 Q₂.2)
  root P Q _ _ := by
    rw [apply_eG]
    exact (eA_bilinear hodd hq).root _ _ (mem_G1.1 P.2) (mem_G1.1 Q.2)

/-- **C107**, **C71** for type A: with a base point other than `O` exactly one element of G1 is a valid
signature, without assumptions on the pairing. -/
theorem C107_bls (ht : TypeA K p r inv) (hh : ¬ r ∣ p.h) [NeZero r] {g : G1 K r} (hg : g ≠ 0)
    (H sig : G1 K r) (x : ZMod r) :
    Gt.blsVerify (eG (K := K) r p.h) g (Gt.blsPublic x g) H sig = true ↔ sig = Gt.blsSign x H := by
  have hall : ∀ P : G1 K r, r • P = 0 := fun P => Subtype.ext (mem_G1.1 P.2)
  refine Props.C71_sound ht.prime _ (apply_bilinear ht.valid.odd ht.cof) (C107_card ht.prime ht.cof hh)
    (hall g) ⟨g, ?_⟩ H sig x
  rw [apply_eG]
  have h0 : g.1 ≠ 0 := fun e => hg (Subtype.ext e)
  exact C107_ne ht.prime ht.valid.odd ht.cof hh h0 h0 (mem_G1.1 g.2) (mem_G1.1 g.2)

end S

/-! ### Types D and G -/

section D

open Pbc.PairingD (TypeD TypeG eD twD incl incl_ne incl_torsion two_F Ext Data initD apply pairing
  millerAffine tatepowerD C88_typeD C89_typeD_converse four_ne)

variable {F K : Type*} [Field F] [DecidableEq F] [Fintype F] [Field K] [DecidableEq K] [Fintype K] [Algebra F K]
variable {E : Ext F K} {ξ : K} {q k r h : ℕ} {a b v0 : F}
variable [Fact (∀ s : K, s ^ 2 ≠ algebraMap F K v0 + 0 * s)]
variable {P : (EC a b).Point} {p' : Pt F}

local notation "φ" => algebraMap F K

/-- The pairing of types D and G: if the twist has more than `|K| + 1` points, every `P ≠ O` has a
partner. -/
theorem exists_eD (hodd : Odd r) (hq : Fintype.card K + 1 = h * r) (hP : P ≠ 0) (hr : r • P = 0)
    (hE : Fintype.card K + 2 ≤ Nat.card (EC (φ v0 ^ 2 * φ a) (φ v0 ^ 3 * φ b)).Point) :
    ∃ Q, eD (K := K) v0 r h P Q ≠ 1 :=
  exists_ne_of_card twD (two_ne' (φ v0)) hodd hq (incl_ne hP)
    (incl_torsion (two_F (K := K) v0) hr) (kills hq) hE

/-- **C107** for type D: if the twist has more than `q^(k/2) + 1` points, there is for every `P ≠ O` of
G1 a point of the twist for which the routine returns a value other than 1.  Missing: twists with fewer
points. -/
theorem C107_typeD_partial (ht : TypeD E ξ q k r) {p : Data F K} (hi : initD E q k r a b v0 = some p)
    (hE : q ^ E.d + 2 ≤ Nat.card (EC (φ v0 ^ 2 * φ a) (φ v0 ^ 3 * φ b)).Point)
    (hp : PtRep p' P) (hP : P ≠ 0) (hr : r • P = 0) :
    ∃ Q : (EC (φ v0 ^ 2 * φ a) (φ v0 ^ 3 * φ b)).Point, ∀ q', PtRep q' Q →
      ∃ g, apply (pairing p millerAffine tatepowerD) p' q' = some g ∧ g ≠ one2 := by
  rw [← ht.cardK] at hE
  obtain ⟨Q, hQ⟩ := exists_eD ht.odd ht.cof hP hr hE
  refine ⟨Q, fun q' hq => ?_⟩
  obtain ⟨p₀, e₀, -, hval⟩ := C88_typeD (a := a) (b := b) (v0 := v0) ht
  rw [e₀, Option.some.injEq] at hi
  subst hi
  obtain ⟨g, e, hg⟩ := hval P Q p' q' hp hq hr
  refine ⟨g, e, ?_⟩
  rintro rfl
  exact hQ (by rw [← hg]; rfl)

/-- **C89**, **C107** for type D: on such twists comparison in G2 is equality of the pairings with any
`P ≠ O`, without assumptions on the pairing. -/
theorem C107_cmp_partial (ht : TypeD E ξ q k r) {p : Data F K} (hi : initD E q k r a b v0 = some p)
    (hE : q ^ E.d + 2 ≤ Nat.card (EC (φ v0 ^ 2 * φ a) (φ v0 ^ 3 * φ b)).Point)
    {n : ℕ} (hcard : Nat.card (EC (φ v0 ^ 2 * φ a) (φ v0 ^ 3 * φ b)).Point = n * r) (hcop : n.Coprime r)
    {m : Curve.Mem K} {i j : ℕ}
    {Q₁ Q₂ : (EC (φ v0 ^ 2 * φ a) (φ v0 ^ 3 * φ b)).Point}
    (h₁ : PtRep (m i) Q₁) (h₂ : PtRep (m j) Q₂) (hp : PtRep p' P) (hP : P ≠ 0) (hr : r • P = 0) :
    apply (pairing p millerAffine tatepowerD) p' (m i) =
      apply (pairing p millerAffine tatepowerD) p' (m j) ↔
    Curve.cmp (φ v0 ^ 2 * φ a) (some n) m i j = some false := by
  have hn : 0 < n := Nat.pos_of_ne_zero fun h0 => by rw [h0, zero_mul] at hcard; omega
  have hfr : Fact r.Prime := ⟨ht.prime⟩
  obtain ⟨S, hS⟩ := exists_prime_addOrderOf_dvd_card'
    (G := (EC (φ v0 ^ 2 * φ a) (φ v0 ^ 3 * φ b)).Point) r (by rw [hcard]; exact dvd_mul_left _ _)
  have hS' : ∃ S : (EC (φ v0 ^ 2 * φ a) (φ v0 ^ 3 * φ b)).Point, S ≠ 0 ∧ r • S = 0 := by
    refine ⟨S, ?_, hS ▸ addOrderOf_nsmul_eq_zero S⟩
    rintro rfl
    rw [addOrderOf_zero] at hS
    exact ht.prime.one_lt.ne hS
  constructor
  · have hE' := hE
    rw [← ht.cardK] at hE'
    exact C89_typeD_converse ht hi hS' hn hcard h₁ h₂ hp hr (exists_eD ht.odd ht.cof hP hr hE')
  · intro hc
    obtain ⟨g, e₁, e₂⟩ := PairingD.C89_typeD ht hi hS' hcop h₁ h₂ hc hp hr
    rw [e₁, e₂]

end D

/-! ### Instances -/

/-- The hypotheses are met: `q = 43`, `r = 11`, `h = 4`. -/
example : eA (K := ZMod 43) 11 4 P43 P43 ≠ 1 :=
  C107_ne (by norm_num) (by decide) (by simp [ZMod.card]) (by decide) P43_ne P43_ne P43_order P43_order

example : pairingApply (pairingProj (·⁻¹) ⟨3, 1, 1, 4⟩) (⟨false, 4, 5⟩ : Pt (ZMod 43)) ⟨false, 13, 19⟩ ≠
    some one2 := fun h => by
  have := (C107_typeA typeA43 (by decide) P43_rep Q43_rep P43_order Q43_order).1 h
  simp at this

example : Nat.card (G1 (ZMod 43) 11) = 11 :=
  C107_card (by norm_num) (h := 4) (by simp [ZMod.card]) (by decide)

/-- Type A1 with composite order 15. -/
example := C107_typeA1 typeA59 (by decide) G59_rep G59_order

/-- Signatures. -/
example (H sig : G1 (ZMod 43) 11) (x : ZMod 11) :
    Gt.blsVerify (eG (K := ZMod 43) 11 4) (⟨P43, mem_G1.2 P43_order⟩ : G1 (ZMod 43) 11)
      (Gt.blsPublic x ⟨P43, mem_G1.2 P43_order⟩) H sig = true ↔ sig = Gt.blsSign x H :=
  C107_bls typeA43 (by decide) (fun e => P43_ne (congrArg Subtype.val e)) H sig x

private instance prime587 : Fact (Nat.Prime 587) := ⟨by norm_num⟩
private instance fact587 : Fact (∀ r : ZMod 587, r ^ 2 ≠ -1 + 0 * r) := ⟨by decide +kernel⟩

/-- `q = 587`, `r = 7 = 2² + 2 + 1`, `h = 84 = 12 · 7`: what parameter generation may return. -/
theorem typeA587 : TypeA (ZMod 587) ⟨2, 1, 1, 84⟩ 7 (·⁻¹) where
  valid := ⟨by decide, by decide, .inl rfl, .inl (by norm_num), by decide⟩
  prime := by norm_num
  cof := by simp [ZMod.card]
  inv _ _ := rfl

/-- A point of order 49. -/
def S587 : (EC (1 : ZMod 587) 0).Point := .some 3 183 (by
  rw [nonsingular_iff, equation_iff]; decide +kernel)

/-- Seven times that point. -/
def P587 : (EC (1 : ZMod 587) 0).Point := .some 404 559 (by
  rw [nonsingular_iff, equation_iff]; decide +kernel)

theorem S587_rep : PtRep (⟨false, 3, 183⟩ : Pt (ZMod 587)) S587 := ⟨rfl, rfl, rfl⟩
theorem P587_rep : PtRep (⟨false, 404, 559⟩ : Pt (ZMod 587)) P587 := ⟨rfl, rfl, rfl⟩
theorem P587_order : 7 • P587 = 0 := PairingA.zero_of (by decide +kernel) P587_rep 7 (by decide +kernel)

theorem P587_eq : P587 = 7 • S587 := by
  obtain ⟨s, e, hs⟩ := Curve.pow_rep (ca := (1 : ZMod 587)) (cb := 0) (by decide +kernel) S587_rep 7
  have e' : (Gen.powMpz (⟨some ⟨false, 3, 183⟩⟩ : Curve.GPt (ZMod 587) 1) 7).bind (·.val) =
      some ⟨false, 404, 559⟩ := by decide +kernel
  rw [e', Option.some.injEq] at e
  subst e
  rcases hQ : 7 • S587 with _ | ⟨x, y, hn⟩
  · rw [hQ] at hs; exact absurd hs (by simp [PtRep])
  · rw [hQ] at hs
    obtain ⟨-, rfl, rfl⟩ := hs
    rfl

/-- Type D, `q = 43`, `k = 2`: the twist has 55 points. -/
theorem twist43 : 43 ^ PairingD.E43.d + 2 ≤ Nat.card (EC (algebraMap (ZMod 43) (ZMod 43) 2 ^ 2 *
    algebraMap (ZMod 43) (ZMod 43) 3) (algebraMap (ZMod 43) (ZMod 43) 2 ^ 3 *
      algebraMap (ZMod 43) (ZMod 43) 3)).Point := by
  simp only [Algebra.algebraMap_self, RingHom.id_apply]
  rw [card_eq]
  · decide +kernel
  · intro x y h
    rw [nonsingular_iff, equation_iff]
    revert x y
    decide +kernel

example := C107_typeD_partial PairingD.type43 PairingD.init43 twist43 PairingD.P43_rep PairingD.P43_ne
  PairingD.P43_order

/-- **C107, what fails**: a point of order 7 that pairs to 1 with itself. -/
theorem C107_fails_instance :
    pairingApply (pairingProj (·⁻¹) ⟨2, 1, 1, 84⟩) (⟨false, 404, 559⟩ : Pt (ZMod 587)) ⟨false, 404, 559⟩ =
      some one2 := C107_multiple_fails typeA587 P587_rep P587_rep P587_order P587_order P587_eq

/-- A generator of the curve. -/
def G587 : (EC (1 : ZMod 587) 0).Point := .some 15 255 (by
  rw [nonsingular_iff, equation_iff]; decide +kernel)

theorem G587_rep : PtRep (⟨false, 15, 255⟩ : Pt (ZMod 587)) G587 := ⟨rfl, rfl, rfl⟩

theorem G587_ne {n : ℕ} (h : ((Gen.powMpz (⟨some ⟨false, 15, 255⟩⟩ : Curve.GPt (ZMod 587) 1) n).bind
    (·.val)).map (·.inf) = some false) : n • G587 ≠ 0 := fun h0 => by
  obtain ⟨r, e, hr⟩ := Curve.pow_rep (ca := (1 : ZMod 587)) (cb := 0) (by decide +kernel) G587_rep n
  rw [e] at h
  rw [h0] at hr
  have h1 : r.inf = true := hr
  simp [h1] at h

instance cyclic587 : IsAddCyclic (EC (1 : ZMod 587) 0).Point := by
  refine isAddCyclic_of_addOrderOf_eq_card G587 ?_
  rw [C107_order.1, ZMod.card]
  refine addOrderOf_eq_of_nsmul_and_div_prime_nsmul (by decide)
    (PairingA.zero_of (by decide +kernel) G587_rep 588 (by decide +kernel)) fun t ht hd => ?_
  have hm : t ∈ Nat.primeFactors 588 := Nat.mem_primeFactors.2 ⟨ht, hd, by decide⟩
  have h588 : Nat.primeFactors 588 = {2, 3, 7} := by decide +kernel
  rw [h588] at hm
  simp only [Finset.mem_insert, Finset.mem_singleton] at hm
  rcases hm with rfl | rfl | rfl
  · exact G587_ne (by decide +kernel)
  · exact G587_ne (by decide +kernel)
  · exact G587_ne (by decide +kernel)

/-- There the pairing is 1 on all of G1. -/
example {P Q : (EC (1 : ZMod 587) 0).Point} {p' q' : Pt (ZMod 587)} (hp : PtRep p' P) (hq : PtRep q' Q)
    (hP : 7 • P = 0) (hQ : 7 • Q = 0) :
    pairingApply (pairingProj (·⁻¹) ⟨2, 1, 1, 84⟩) p' q' = some one2 :=
  C107_cofactor_fails typeA587 (by decide) hp hq hP hQ

end Pbc.NonDeg
