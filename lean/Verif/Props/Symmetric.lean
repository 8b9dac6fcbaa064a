import Verif.Lemmas.SymE
import Verif.Props.NonDeg
import Verif.Props.NonDegE

/-! # C114: pairings with G1 = G2 are symmetric

`pairing_is_symmetric` answers yes for types A, A1, E and I, where G1 and G2 are the same group.  For types A and A1
this group is cyclic and symmetry follows from bilinearity.  For type E it has `r²` elements; symmetry is a
reciprocity law. -/

set_option autoImplicit false
set_option linter.unusedSectionVars false

namespace Spec

/-- A bilinear map is symmetric on multiples of one element. -/
theorem Bilinear.symm_of_multiple {A : Type*} [AddCommGroup A] {L : Type*} [Field L] {r : ℕ} {e : A → A → L}
    (h : Bilinear r e) (h0 : r ≠ 0) {P Q : A} (hP : r • P = 0) {n : ℤ} (hn : n • P = Q) : e P Q = e Q P := by
  rw [← hn, h.zsmul_left h0 hP hP, h.zsmul_right h0 hP hP]

end Spec

/-! ### Types A and A1 -/

namespace Pbc.NonDeg

open Pbc.Quad
open Pbc.PairingA
open Pbc.Curve (Pt)
open WeierstrassCurve WeierstrassCurve.Affine
open Spec (EC PtRep Bilinear Pairing)
open Tate

variable {K : Type*} [Field K] [DecidableEq K] [Fintype K] [Fact (∀ r : K, r ^ 2 ≠ -1 + 0 * r)]
variable {p : Params} {r l h : ℕ} {inv : K → K} {P Q : (EC (1 : K) 0).Point} {p' q' : Pt K}

/-- **C114** for type A: the arguments may be exchanged. -/
theorem C114_typeA (ht : TypeA K p r inv) (hh : ¬ r ∣ p.h) (hp : PtRep p' P) (hq : PtRep q' Q) (hrP : r • P = 0)
    (hrQ : r • Q = 0) :
    ∃ g, pairingApply (pairingProj inv p) p' q' = some g ∧ pairingApply (pairingProj inv p) q' p' = some g ∧
      pairingApply (pairingAffine inv p) p' q' = some g ∧ pairingApply (pairingAffine inv p) q' p' = some g := by
  obtain ⟨hb, hval⟩ := C80_typeA (K := K) ht
  obtain ⟨g, hg, e, ea, -⟩ := hval P Q p' q' hp hq hrP hrQ
  obtain ⟨g', hg', e', ea', -⟩ := hval Q P q' p' hq hp hrQ hrP
  have h0 := ht.prime.ne_zero
  suffices hgg : g' = g from ⟨g, e, hgg ▸ e', ea, hgg ▸ ea'⟩
  refine alg_inj (v := -1) ?_
  rw [hg', hg]
  by_cases hP : P = 0
  · rw [hP, hb.zero_right h0 hrQ, hb.zero_left h0 hrQ]
  have hfr : Fact r.Prime := ⟨ht.prime⟩
  have hm : (⟨Q, mem_G1.2 hrQ⟩ : G1 K r) ∈ AddSubgroup.zmultiples (⟨P, mem_G1.2 hrP⟩ : G1 K r) :=
    mem_zmultiples_of_prime_card (C107_card ht.prime ht.cof hh) (fun e => hP (congrArg Subtype.val e))
  obtain ⟨n, hn⟩ := AddSubgroup.mem_zmultiples_iff.1 hm
  exact (hb.symm_of_multiple h0 hrP (congrArg Subtype.val hn : n • P = Q)).symm

/-- The elements killed by a number prime to the cofactor. -/
theorem card_tors_coprime {M : Type*} [AddCommGroup M] [Finite M] (hN : Nat.card M = h * r) (hc : h.Coprime r) :
    Nat.card (Spec.tors (A := M) r) ∣ r := by
  have hd : Nat.card (Spec.tors (A := M) r) ∣ h * r := by
    rw [← hN]; exact AddSubgroup.card_addSubgroup_dvd_card _
  refine Nat.Coprime.dvd_of_dvd_mul_left ?_ hd
  by_contra hno
  obtain ⟨q, pp, h1, h2⟩ := Nat.Prime.not_coprime_iff_dvd.1 hno
  have := Fact.mk pp
  obtain ⟨x, hx⟩ := exists_prime_addOrderOf_dvd_card' (G := Spec.tors (A := M) r) q h1
  have h3 : r • x = 0 := Subtype.ext (Spec.mem_tors.1 x.2)
  have h4 := addOrderOf_dvd_of_nsmul_eq_zero h3
  rw [hx] at h4
  have := Nat.dvd_gcd h2 h4
  rw [hc] at this
  exact pp.one_lt.ne' (Nat.dvd_one.1 this)

/-- **C114** for type A1, points of order `r`. -/
theorem C114_typeA1 (ht : TypeA1 K r l) (hc : l.Coprime r) (hp : PtRep p' P) (hq : PtRep q' Q) (hP : addOrderOf P = r)
    (hQ : addOrderOf Q = r) :
    ∃ g, pairingApply (a1PairingProj r l) p' q' = some g ∧ pairingApply (a1PairingProj r l) q' p' = some g := by
  have hrP : r • P = 0 := hP ▸ addOrderOf_nsmul_eq_zero P
  have hrQ : r • Q = 0 := hQ ▸ addOrderOf_nsmul_eq_zero Q
  have hb := (C81_typeA1_partial (K := K) ht).1
  obtain ⟨g, hg, e, -⟩ := C81_full_order ht hp hq hP hrQ
  obtain ⟨g', hg', e', -⟩ := C81_full_order ht hq hp hQ hrP
  refine ⟨g, e, ?_⟩
  have h0 : r ≠ 0 := by have := ht.three; omega
  rw [e']
  refine congrArg some (alg_inj (v := -1) ?_)
  rw [hg', hg]
  have hE := (C107_order (K := K)).1
  have hfin : Finite (EC (1 : K) 0).Point := Nat.finite_of_card_ne_zero (by rw [hE]; omega)
  have hd := card_tors_coprime (M := (EC (1 : K) 0).Point) (h := l) (r := r) (by rw [hE, ht.cof]) hc
  have hle : AddSubgroup.zmultiples P ≤ Spec.tors (A := (EC (1 : K) 0).Point) r := by
    rw [AddSubgroup.zmultiples_le]; exact hrP
  have heq := AddSubgroup.eq_of_le_of_card_ge hle (by
    rw [Nat.card_zmultiples, hP]; exact Nat.le_of_dvd (Nat.pos_of_ne_zero h0) hd)
  have hm : Q ∈ AddSubgroup.zmultiples P := by rw [heq]; exact hrQ
  obtain ⟨n, hn⟩ := AddSubgroup.mem_zmultiples_iff.1 hm
  exact (hb.symm_of_multiple h0 hrP hn).symm

/-! ### Instances -/

section instance43

attribute [local instance] prime43

example := C114_typeA typeA43' (by decide) P43_rep Q43_rep P43_order Q43_order

example := C114_typeA1 typeA59 (by decide) G59_rep G59_rep G59_order G59_order

end instance43

end Pbc.NonDeg

/-! ### Type E -/

namespace Pbc.PairingE

open Pbc.Curve (Pt)
open Pbc.PairingF (apply)
open WeierstrassCurve WeierstrassCurve.Affine
open Spec (EC PtRep Bilinear TypeE tors mem_tors GoodShift)
open TateK Tate

variable {K : Type*} [Field K] [DecidableEq K] [Fintype K] {q r exp2 exp1 s : ℕ} {sign1 sign0 : ℤ} {a b : K}
  {R P Q : (EC a b).Point} {R' p' q' : Pt K} {miller : Data K → Pt K → Pt K → Pt K → Option K}

theorem eE_eq (hR : GoodShift r R) {f : Off (tors (A := (EC a b).Point) r) → K} (hf : FullK (tors r) P r f) (hP : P ≠ 0)
    {χ : (EC a b).Point → K} (hχ : IsChar r ((q - 1) / r) f χ) (hQ : r • Q = 0) : eE q r R P Q = χ Q := by
  obtain ⟨A, hA⟩ := exists_off (notMem_add (GoodShift.one hR) (mem_tors.2 hQ))
  obtain ⟨B, hB⟩ := exists_off (GoodShift.one hR)
  rw [eE, tateK_eq hP hf hA hB, div_pow, hχ.val A B, hA, hB, add_sub_cancel_right,
    mul_div_cancel_right₀ _ (pow_ne_zero _ (hf.ne_zero B))]

theorem eE_bilinear (h : TypeE K q r exp2 exp1 sign1 sign0) (hR : GoodShift r R) :
    Bilinear r (fun P Q : (EC a b).Point => eE q r R P Q) := by
  have hr0 := h.prime.ne_zero
  have h1 := GoodShift.one hR
  have h2 := GoodShift.two hR
  refine ⟨fun P₁ P₂ Q e₁ e₂ eQ => ?_, fun P Q₁ Q₂ e e₁ e₂ => ?_, fun P Q e eQ => ?_⟩
  · exact tateK_add_left h.kills hr0 h1 (mem_tors.2 e₁) (mem_tors.2 e₂) e₁ e₂ (mem_tors.2 eQ)
  · exact tateK_add_right h.kills hr0 h1 h2 (mem_tors.2 e) e (mem_tors.2 e₁) (mem_tors.2 e₂)
  · exact tateK_pow h.kills hr0 h1 (mem_tors.2 e) e (mem_tors.2 eQ)

/-- The pairing of type E is symmetric when `r²` divides `q - 1`. -/
theorem eE_symm (h : TypeE K q r exp2 exp1 sign1 sign0) (hr2 : r ^ 2 ∣ q - 1)
    (hav : Avoids (tors (A := (EC a b).Point) r)) (hR : GoodShift r R) (hP : r • P = 0) (hQ : r • Q = 0) :
    eE q r R P Q = eE q r R Q P := by
  have hp := h.prime
  have hr0 := hp.ne_zero
  have hb := eE_bilinear h hR
  by_cases hm : P ∈ AddSubgroup.zmultiples Q
  · obtain ⟨n, hn⟩ := AddSubgroup.mem_zmultiples_iff.1 hm
    exact (hb.symm_of_multiple hr0 hQ hn).symm
  have hP0 : P ≠ 0 := by rintro rfl; exact hm (AddSubgroup.zero_mem _)
  by_cases hQ0 : Q = 0
  · subst hQ0
    exact (hb.zero_right hr0 hP).trans (hb.zero_left hr0 hP).symm
  obtain ⟨c, hc⟩ := hr2
  have hodd : Odd r := hp.odd_of_ne_two (by have := h.big; omega)
  have he : (q - 1) / r = c * r := Nat.div_eq_of_eq_mul_left hp.pos (by rw [hc]; ring)
  have hk : KillsK K r (c * r) := he ▸ h.kills
  have heven : Even (c * r) := by
    have ho := FiniteField.odd_card_of_char_ne_two (F := K) fun hc => h.two (by
      have := CharP.cast_eq_zero K (ringChar K)
      rwa [hc] at this)
    rw [h.card] at ho
    have h1 : Even (q - 1) := by
      rw [Nat.even_iff]
      omega
    rw [hc, pow_two, mul_assoc, Nat.even_mul] at h1
    rw [mul_comm]
    exact h1.resolve_left (Nat.not_even_iff_odd.2 hodd)
  obtain ⟨g, hg⟩ := exists_fullK (H := tors r) (mem_tors.2 hQ) hQ0 hr0 hQ
  obtain ⟨ψ, hψ⟩ := exists_char hk hav (mem_tors.2 hQ) hg
  obtain ⟨κ, hκ⟩ := char_symm hp hodd hk heven hav hQ0 hQ hg hψ
  have key : ∀ P : (EC a b).Point, r • P = 0 → P ∉ AddSubgroup.zmultiples Q → eE q r R P Q = κ * eE q r R Q P := by
    intro P hP hm
    have hP0 : P ≠ 0 := by rintro rfl; exact hm (AddSubgroup.zero_mem _)
    obtain ⟨f, hf⟩ := exists_fullK (H := tors r) (mem_tors.2 hP) hP0 hr0 hP
    obtain ⟨χ, hχ⟩ := exists_char hk hav (mem_tors.2 hP) hf
    rw [eE_eq hR hf hP0 (he ▸ hχ) hQ, eE_eq hR hg hQ0 (he ▸ hψ) hP]
    exact hκ P f χ hm hP hf hχ
  have h2P : r • (2 • P) = 0 := by rw [smul_comm, hP, smul_zero]
  have hm2 : 2 • P ∉ AddSubgroup.zmultiples Q := notMem_of_prime hp hP hm (by norm_num) (by have := h.big; omega)
  have k1 := key P hP hm
  have k2 := key (2 • P) h2P hm2
  have n1 := hb.nsmul_left hr0 hP hQ 2
  have n2 := hb.nsmul_right hr0 hQ hP 2
  rw [n1, n2, k1] at k2
  have hne : eE q r R Q P ≠ 0 := hb.ne_zero hr0 hQ hP
  have hκ0 : κ ≠ 0 := by
    rintro rfl
    rw [zero_mul] at k1
    exact hb.ne_zero hr0 hP hQ k1
  have hκ1 : κ = 1 := by
    refine mul_left_cancel₀ (mul_ne_zero hκ0 (pow_ne_zero 2 hne)) ?_
    linear_combination k2
  rw [k1, hκ1, one_mul]

/-- **C114** for type E on any curve with many points beside those killed by `r`: the arguments may be exchanged. -/
theorem C114_typeE_curve (h : TypeE K q r exp2 exp1 sign1 sign0) (hr2 : r ^ 2 ∣ q - 1)
    (hcard : 4 * Nat.card {P : (EC a b).Point // r • P = 0} < Nat.card (EC a b).Point) (hR : GoodShift r R)
    (hR' : PtRep R' R) (hm : Routine miller) (hp : PtRep p' P) (hq : PtRep q' Q) (hP : r • P = 0) (hQ : r • Q = 0) :
    ∃ g, apply (pairing miller (init q r a exp2 exp1 sign1 sign0 R')) p' q' = some g ∧
      apply (pairing miller (init q r a exp2 exp1 sign1 sign0 R')) q' p' = some g := by
  have hfin : Finite (EC a b).Point := Nat.finite_of_card_ne_zero (by omega)
  obtain ⟨-, hval⟩ := C93_typeE h hR hR'
  refine ⟨_, hval _ hm P Q p' q' hp hq hP hQ, ?_⟩
  rw [hval _ hm Q P q' p' hq hp hQ hP, eE_symm h hr2 (avoids_of_card hcard) hR hP hQ]

/-- **C114** for the type E parameters that are generated: the arguments may be exchanged, although G1 is not
cyclic. -/
theorem C114_typeE (h : TypeE K q r exp2 exp1 sign1 sign0) (n : Numbers q r s) {R P Q : (EC (0 : K) 1).Point}
    (hR : GoodShift r R) (hR' : PtRep R' R) (hm : Routine miller) (hp : PtRep p' P) (hq : PtRep q' Q) (hP : r • P = 0)
    (hQ : r • Q = 0) :
    ∃ g, apply (pairing miller (init q r 0 exp2 exp1 sign1 sign0 R')) p' q' = some g ∧
      apply (pairing miller (init q r 0 exp2 exp1 sign1 sign0 R')) q' p' = some g := by
  obtain ⟨ζ, F⟩ := n.full h
  obtain ⟨-, hval⟩ := C93_typeE h hR hR'
  refine ⟨_, hval _ hm P Q p' q' hp hq hP hQ, ?_⟩
  rw [hval _ hm Q P q' p' hq hp hQ hP,
    eE_symm h ⟨3 * s ^ 2, by rw [n.eq, Nat.add_sub_cancel]; ring⟩ F.avoids hR hP hQ]

/-! ### Pairing an element with itself -/

section self

variable {R P Q : (EC (0 : K) 1).Point} {ζ : K}

theorem Numbers.exp (h : TypeE K q r exp2 exp1 sign1 sign0) (n : Numbers q r s) : (q - 1) / r = 3 * s ^ 2 * r := by
  rw [n.eq, Nat.add_sub_cancel]
  refine Nat.div_eq_of_eq_mul_left h.prime.pos ?_
  ring

/-- The pairing is invariant under multiplication by a cube root of unity. -/
theorem eE_root (h : TypeE K q r exp2 exp1 sign1 sign0) (n : Numbers q r s) (F : Full K 1 ζ r (3 * s ^ 2))
    (hR : GoodShift r R) (hP0 : P ≠ 0) (hP : r • P = 0) (hQ : r • Q = 0) :
    eE q r R (rootP 1 F.root P) (rootP 1 F.root Q) = eE q r R P Q := by
  have he := n.exp h
  have hω0 : ∀ T, rootP 1 F.root T = 0 → T = 0 := fun T => root_ne F.root F.two F.three F.b
  have hH : ∀ T, rootP 1 F.root T ∈ tors r → T ∈ tors (A := (EC (0 : K) 1).Point) r := fun T hT => by
    rw [mem_tors] at hT ⊢
    rw [← map_nsmul] at hT
    exact hω0 _ hT
  have hP' : r • rootP 1 F.root P = 0 := by rw [← map_nsmul, hP, map_zero]
  have hQ' : r • rootP 1 F.root Q = 0 := by rw [← map_nsmul, hQ, map_zero]
  have hP0' : rootP 1 F.root P ≠ 0 := fun h0 => hP0 (hω0 _ h0)
  obtain ⟨f, f', hf, hf', c, hc, hff⟩ := exists_full_root F.root hH (mem_tors.2 hP) (mem_tors.2 hP') hP0' h.prime hP
  obtain ⟨χ, hχ⟩ := exists_char F.kills F.avoids (mem_tors.2 hP) hf
  obtain ⟨χ', hχ'⟩ := exists_char F.kills F.avoids (mem_tors.2 hP') hf'
  rw [eE_eq hR hf hP0 (he ▸ hχ) hQ, eE_eq hR hf' hP0' (he ▸ hχ') hQ']
  obtain ⟨A, B, rfl⟩ := exists_sub F.avoids Q
  have k1 := hχ'.val (A.root F.root hH) (B.root F.root hH)
  rw [hff, hff, Off.root_pt, Off.root_pt, ← map_sub, mul_pow, mul_pow, hχ.val A B] at k1
  have n1 := pow_ne_zero (3 * s ^ 2 * r) hc
  have n2 := pow_ne_zero (3 * s ^ 2 * r) (hf.ne_zero B)
  refine mul_right_cancel₀ (mul_ne_zero n1 n2) ?_
  linear_combination -k1

/-- Two independent elements generate a group of `r²` elements. -/
theorem generate {M : Type*} [AddCommGroup M] [Finite M] {r : ℕ} (hp : r.Prime) (hc : Nat.card (tors (A := M) r) = r ^ 2)
    {P T : M} (hP0 : P ≠ 0) (hP : r • P = 0) (hT : r • T = 0) (hm : T ∉ AddSubgroup.zmultiples P) {Q : M} (hQ : r • Q = 0) :
    ∃ i j : ℤ, Q = i • P + j • T := by
  have hord : addOrderOf P = r :=
    ((Nat.dvd_prime hp).1 (addOrderOf_dvd_of_nsmul_eq_zero hP)).resolve_left
      fun h => hP0 (AddMonoid.addOrderOf_eq_one_iff.1 h)
  have hle : AddSubgroup.zmultiples P ⊔ AddSubgroup.zmultiples T ≤ tors (A := M) r := by
    rw [sup_le_iff, AddSubgroup.zmultiples_le, AddSubgroup.zmultiples_le]; exact ⟨hP, hT⟩
  have hlt : AddSubgroup.zmultiples P < AddSubgroup.zmultiples P ⊔ AddSubgroup.zmultiples T := by
    refine lt_of_le_of_ne le_sup_left fun e => hm ?_
    rw [e]
    exact AddSubgroup.mem_sup_right (AddSubgroup.mem_zmultiples T)
  have h1 : Nat.card ↥(AddSubgroup.zmultiples P ⊔ AddSubgroup.zmultiples T) ∣ r ^ 2 := by
    rw [← hc]; exact AddSubgroup.card_dvd_of_le hle
  have h2 : r < Nat.card ↥(AddSubgroup.zmultiples P ⊔ AddSubgroup.zmultiples T) := by
    by_contra hno
    have := AddSubgroup.eq_of_le_of_card_ge hlt.le (by rw [Nat.card_zmultiples, hord]; omega)
    exact hlt.ne this
  have h3 : Nat.card ↥(AddSubgroup.zmultiples P ⊔ AddSubgroup.zmultiples T) = r ^ 2 := by
    obtain ⟨i, hi, e⟩ := (Nat.dvd_prime_pow hp).1 h1
    rw [e] at h2 ⊢
    have : 1 < i := by
      by_contra hno
      have := Nat.pow_le_pow_right hp.pos (show i ≤ 1 by omega)
      rw [pow_one] at this
      omega
    rw [show i = 2 by omega]
  have heq := AddSubgroup.eq_of_le_of_card_ge hle (by rw [hc, h3])
  have hQm : Q ∈ AddSubgroup.zmultiples P ⊔ AddSubgroup.zmultiples T := by rw [heq]; exact hQ
  obtain ⟨x, ⟨i, rfl⟩, y, ⟨j, rfl⟩, e⟩ := AddSubgroup.mem_sup.1 hQm
  exact ⟨i, j, e.symm⟩

/-- **C114** for type E: if `r ≡ 2` modulo 3, no element but the neutral one pairs to one with itself. -/
theorem C114_typeE_self (h : TypeE K q r exp2 exp1 sign1 sign0) (n : Numbers q r s) (h3 : r % 3 = 2) (hR : GoodShift r R)
    {R' : Pt K} (hR' : PtRep R' R) {miller : Data K → Pt K → Pt K → Pt K → Option K} (hm : Routine miller)
    {p' : Pt K} (hp : PtRep p' P) (hP0 : P ≠ 0) (hP : r • P = 0) :
    ∃ g, apply (pairing miller (init q r 0 exp2 exp1 sign1 sign0 R')) p' p' = some g ∧ g ≠ 1 := by
  refine ⟨_, (C93_typeE h hR hR').2 _ hm P P p' p' hp hp hP hP, fun h1 => ?_⟩
  obtain ⟨ζ, F⟩ := n.full h
  have hb := eE_bilinear h hR
  have hr0 := h.prime.ne_zero
  have hfin := F.finite
  set w := rootP 1 F.root with hw
  have hwP : r • w P = 0 := by rw [← map_nsmul, hP, map_zero]
  have hwwP : r • w (w P) = 0 := by rw [← map_nsmul, hwP, map_zero]
  have hsum := sum_root F.root F.two F.three F.b P
  have hsum' := sum_root F.root F.two F.three F.b (w P)
  rw [← hw] at hsum hsum'
  have hcube : w (w (w P)) = P := by
    have : w (w (w P)) = -(w P + w (w P)) := (neg_eq_of_add_eq_zero_right hsum').symm
    rw [this, neg_eq_iff_add_eq_zero, ← hsum]
    abel
  have hwP0 : w P ≠ 0 := fun h0 => hP0 (root_ne F.root F.two F.three F.b h0)
  have hsym : ∀ {P Q : (EC (0 : K) 1).Point}, r • P = 0 → r • Q = 0 → eE q r R P Q = eE q r R Q P := fun h1 h2 =>
    eE_symm h ⟨3 * s ^ 2, by rw [n.eq, Nat.add_sub_cancel]; ring⟩ F.avoids hR h1 h2
  -- the values
  have e1 : eE q r R P (w (w P)) = eE q r R P (w P) := by
    have := eE_root h n F hR hP0 hP hwwP
    rw [← hw, hcube, hsym hwP hP] at this
    exact this.symm
  have e2 := hb.add_right P (P + w P) (w (w P)) hP (by rw [smul_add, hP, hwP, add_zero]) hwwP
  have e3 := hb.add_right P P (w P) hP hP hwP
  rw [hsum, e3, h1, one_mul, e1] at e2
  have e4 : eE q r R P 0 = 1 := hb.zero_right hr0 hP
  rw [e4, ← pow_two] at e2
  have hodd : Odd r := h.prime.odd_of_ne_two (by have := h.big; omega)
  have e5 : eE q r R P (w P) = 1 := by
    have h5 := hb.root P (w P) hP hwP
    obtain ⟨k, hk⟩ := hodd
    generalize eE q r R P (w P) = z at h5 e2
    rw [hk, pow_succ, pow_mul, ← e2, one_pow, one_mul] at h5
    exact h5
  -- `P` and its image are independent
  have hind : w P ∉ AddSubgroup.zmultiples P := by
    intro hmem
    obtain ⟨μ, hμ⟩ := AddSubgroup.mem_zmultiples_iff.1 hmem
    have hord : addOrderOf P = r :=
      ((Nat.dvd_prime h.prime).1 (addOrderOf_dvd_of_nsmul_eq_zero hP)).resolve_left
        fun h => hP0 (AddMonoid.addOrderOf_eq_one_iff.1 h)
    have hz : (1 + μ + μ * μ) • P = 0 := by
      rw [← hsum, ← hμ, map_zsmul, ← hμ, smul_smul, add_smul, add_smul, one_smul]
    have hd : (r : ℤ) ∣ 1 + μ + μ * μ := by
      rw [← hord]; exact addOrderOf_dvd_iff_zsmul_eq_zero.2 hz
    have hfact := Fact.mk h.prime
    have hzm : ((1 + μ + μ * μ : ℤ) : ZMod r) = 0 := (ZMod.intCast_zmod_eq_zero_iff_dvd _ _).2 hd
    push_cast at hzm
    have hne : (μ : ZMod r) ≠ 1 := by
      intro h1
      rw [h1] at hzm
      have : ((3 : ℕ) : ZMod r) = 0 := by push_cast; linear_combination hzm
      have := Nat.le_of_dvd (by norm_num) ((ZMod.natCast_eq_zero_iff 3 r).1 this)
      have := h.big
      omega
    have hc3 : (μ : ZMod r) ^ 3 = 1 := by linear_combination ((μ : ZMod r) - 1) * hzm
    have hord3 : orderOf (μ : ZMod r) = 3 := by
      have : Fact (Nat.Prime 3) := ⟨Nat.prime_three⟩
      exact orderOf_eq_prime hc3 hne
    have h0 : (μ : ZMod r) ≠ 0 := by
      intro h0
      rw [h0] at hc3
      norm_num at hc3
    have := orderOf_dvd_of_pow_eq_one (ZMod.pow_card_sub_one_eq_one h0)
    rw [hord3] at this
    omega
  -- so everything pairs to one with `P`
  obtain ⟨f, hf⟩ := exists_fullK (H := tors r) (mem_tors.2 hP) hP0 hr0 hP
  obtain ⟨χ, hχ⟩ := exists_char F.kills F.avoids (mem_tors.2 hP) hf
  obtain ⟨Q, hQ, hQ1⟩ := F.nondeg hP0 hP hf hχ
  apply hQ1
  obtain ⟨i, j, rfl⟩ := generate h.prime F.card_tors hP0 hP hwP hind hQ
  have hχ' : IsChar r ((q - 1) / r) f χ := by rw [n.exp h]; exact hχ
  rw [← eE_eq (q := q) hR hf hP0 hχ' hQ]
  have e6 := hb.add_right P (i • P) (j • w P) hP (by rw [smul_comm, hP, smul_zero]) (by rw [smul_comm, hwP, smul_zero])
  have e7 := hb.zsmul_right hr0 hP hP i
  have e8 := hb.zsmul_right hr0 hP hwP j
  rw [e6, e7, e8, h1, e5, one_zpow, one_zpow, one_mul]

/-- **C114, what fails**: if `r ≡ 1` modulo 3, some element other than the neutral one pairs to one with itself. -/
theorem C114_typeE_self_fails (h : TypeE K q r exp2 exp1 sign1 sign0) (n : Numbers q r s) (h3 : r % 3 = 1)
    (hR : GoodShift r R) {R' : Pt K} (hR' : PtRep R' R) {miller : Data K → Pt K → Pt K → Pt K → Option K}
    (hm : Routine miller) :
    ∃ P : (EC (0 : K) 1).Point, P ≠ 0 ∧ r • P = 0 ∧ ∀ p', PtRep p' P →
      apply (pairing miller (init q r 0 exp2 exp1 sign1 sign0 R')) p' p' = some 1 := by
  obtain ⟨ζ, F⟩ := n.full h
  have hr0 := h.prime.ne_zero
  have hfin := F.finite
  have hfact := Fact.mk h.prime
  -- a point of order `r`
  obtain ⟨P, hPo⟩ := exists_prime_addOrderOf_dvd_card' (G := (EC (0 : K) 1).Point) r (by
    rw [F.N]; exact Dvd.dvd.mul_left (dvd_pow_self r two_ne_zero) _)
  have hP : r • P = 0 := by rw [← hPo]; exact addOrderOf_nsmul_eq_zero P
  have hP0 : P ≠ 0 := by
    rintro rfl
    rw [addOrderOf_zero] at hPo
    exact h.prime.one_lt.ne hPo
  -- an eigenvector
  obtain ⟨l, hl⟩ := exists_cube_root (K := ZMod r) (fun h0 => by
    have : ((3 : ℕ) : ZMod r) = 0 := by exact_mod_cast h0
    have := Nat.le_of_dvd (by norm_num) ((ZMod.natCast_eq_zero_iff 3 r).1 this)
    have := h.big
    omega) (by rw [ZMod.card]; omega)
  have hdl : ∃ u : ℕ, r ∣ 1 + u + u * u := by
    refine ⟨l.val, (ZMod.natCast_eq_zero_iff _ r).1 ?_⟩
    push_cast
    rw [ZMod.natCast_zmod_val]
    linear_combination hl
  obtain ⟨u, hu⟩ := hdl
  have hkill : ∀ T : (EC (0 : K) 1).Point, r • T = 0 → T + u • T + u • u • T = 0 := fun T hT => by
    obtain ⟨c, hc⟩ := hu
    have : (1 + u + u * u) • T = 0 := by rw [hc, mul_comm, mul_smul, hT, smul_zero]
    rwa [add_smul, add_smul, one_smul, mul_smul] at this
  have heig : ∃ (V : (EC (0 : K) 1).Point) (μ : ℕ), V ≠ 0 ∧ r • V = 0 ∧ rootP 1 F.root V = μ • V := by
    by_cases hz : rootP 1 F.root P = u • P
    · exact ⟨P, u, hP0, hP, hz⟩
    · -- `V = w P - u P` has eigenvalue `u²`
      refine ⟨rootP 1 F.root P - u • P, u * u, sub_ne_zero.2 hz, ?_, ?_⟩
      · rw [smul_sub, ← map_nsmul, hP, map_zero, smul_comm, hP, smul_zero, sub_zero]
      · have hs := sum_root F.root F.two F.three F.b P
        have k1 := hkill P hP
        have hwP : r • rootP 1 F.root P = 0 := by rw [← map_nsmul, hP, map_zero]
        have k2 := hkill _ hwP
        rw [map_sub, map_nsmul, smul_sub, mul_smul, mul_smul]
        have e1 : rootP 1 F.root (rootP 1 F.root P) = -(P + rootP 1 F.root P) :=
          (neg_eq_of_add_eq_zero_right hs).symm
        have e2 : u • u • rootP 1 F.root P = -(rootP 1 F.root P + u • rootP 1 F.root P) :=
          (neg_eq_of_add_eq_zero_right k2).symm
        have e3 : u • u • u • P = P := by
          have k3 := congrArg (u • ·) k1
          simp only [smul_add, smul_zero] at k3
          have k4 : u • u • u • P = -(u • P + u • u • P) := (neg_eq_of_add_eq_zero_right k3).symm
          rw [k4, neg_eq_iff_add_eq_zero, ← k1]
          abel
        rw [e1, e2, e3]
        abel
  obtain ⟨V, μ, hV0, hV, hμ⟩ := heig
  refine ⟨V, hV0, hV, fun p' hp => ?_⟩
  rw [(C93_typeE h hR hR').2 _ hm V V p' p' hp hp hV hV]
  obtain ⟨f, hf⟩ := exists_fullK (H := tors r) (mem_tors.2 hV) hV0 hr0 hV
  obtain ⟨χ, hχ⟩ := exists_char F.kills F.avoids (mem_tors.2 hV) hf
  rw [eE_eq hR hf hV0 (n.exp h ▸ hχ) hV,
    no_eigen F.root F.two F.three F.b h.prime h.big F.kills F.avoids hV0 hV hf hχ hμ hμ]

end self

/-! ### Instances -/

section instance1453

attribute [local instance] type1453

/-- Two independent points: the common value is not one. -/
theorem value1453 : apply (pairing millerProj (init 1453 11 (0 : ZMod 1453) 3 1 1 1 ⟨false, 2, 3⟩))
    ⟨false, 10, 287⟩ ⟨false, 12, 550⟩ = some 354 := by decide +kernel

example : apply (pairing millerProj (init 1453 11 (0 : ZMod 1453) 3 1 1 1 ⟨false, 2, 3⟩))
    ⟨false, 12, 550⟩ ⟨false, 10, 287⟩ = some 354 := by
  obtain ⟨g, h1, h2⟩ := C114_typeE params1453 numbers1453 good1453 R1453_rep (.inr rfl) P1453_rep Q1453_rep
    P1453_order Q1453_order
  rw [h2, ← h1, value1453]

example : ∃ g, apply (pairing millerProj (init 1453 11 (0 : ZMod 1453) 3 1 1 1 ⟨false, 2, 3⟩))
    ⟨false, 10, 287⟩ ⟨false, 10, 287⟩ = some g ∧ g ≠ 1 :=
  C114_typeE_self params1453 numbers1453 (by norm_num) good1453 R1453_rep (.inr rfl) P1453_rep
    (Point.some_ne_zero _) P1453_order

example : 4 * Nat.card {P : (EC (0 : ZMod 1453) 1).Point // 11 • P = 0} < Nat.card (EC (0 : ZMod 1453) 1).Point := by
  obtain ⟨ζ, F⟩ := numbers1453.full params1453
  rw [(C113_torsion params1453 numbers1453).1, F.N]
  norm_num

end instance1453

/-! `q = 2029 = 12 · 13² + 1`, where `r ≡ 1` modulo 3 -/

theorem type2029 : Fact (Nat.Prime 2029) := ⟨by norm_num⟩

section instance2029

attribute [local instance] type2029

theorem params2029 : TypeE (ZMod 2029) 2029 13 3 2 1 1 where
  card := ZMod.card 2029
  two := by decide
  prime := by norm_num
  dvd := by norm_num
  pos := by norm_num
  lt := by norm_num
  s1 := .inl rfl
  s0 := .inl rfl
  hr := by norm_num
  big := by norm_num

theorem numbers2029 : Numbers 2029 13 2 where
  prime := by norm_num
  eq := by norm_num
  cop := by norm_num

def R2029 : (EC (0 : ZMod 2029) 1).Point := .some 2 3 (by
  rw [nonsingular_iff, equation_iff]; decide +kernel)

theorem R2029_rep : PtRep (⟨false, 2, 3⟩ : Pt (ZMod 2029)) R2029 := ⟨rfl, rfl, rfl⟩

theorem good2029 : GoodShift 13 R2029 := by
  have := ne_of (by decide) R2029_rep 26 (by decide +kernel)
  rwa [GoodShift, ← two_smul ℕ, smul_smul]

example : ∃ P : (EC (0 : ZMod 2029) 1).Point, P ≠ 0 ∧ 13 • P = 0 ∧ ∀ p', PtRep p' P →
    apply (pairing millerProj (init 2029 13 0 3 2 1 1 ⟨false, 2, 3⟩)) p' p' = some 1 :=
  C114_typeE_self_fails params2029 numbers2029 (by norm_num) good2029 R2029_rep (.inr rfl)

end instance2029

end Pbc.PairingE
