import Verif.Props.NonDeg
import Verif.Lemmas.NonDegAll
import Verif.Lemmas.CmCurves

/-! # C107: the pairings of types D and G are not degenerate

No assumption on the number of points of the twist beyond its order: the curve is an elliptic curve (the discriminant is
not zero), the characteristic is not 2 or 3, and the field `K` of the twist has more than 61 elements. -/

set_option autoImplicit false
set_option linter.unusedSectionVars false

namespace Pbc.NonDeg

open Pbc.Quad
open Pbc.Curve (Pt)
open WeierstrassCurve WeierstrassCurve.Affine
open Spec (EC PtRep Pairing)
open Tate

section group

variable {G M : Type*} [AddCommGroup G] [Finite G] {n r : ℕ}

/-- In a group of order `n r` with `r` a prime that does not divide `n`, the elements of order dividing `r` are the
multiples of any one of them. -/
theorem mem_zmultiples_of_torsion (hp : r.Prime) (hc : Nat.card G = n * r) (hn : ¬ r ∣ n) {Q S : G} (hQ : Q ≠ 0)
    (hrQ : r • Q = 0) (hrS : r • S = 0) : S ∈ AddSubgroup.zmultiples Q := by
  have hfr : Fact r.Prime := ⟨hp⟩
  set T : AddSubgroup G := (nsmulAddMonoidHom r).ker with hT
  have mem : ∀ {P : G}, P ∈ T ↔ r • P = 0 := AddMonoidHom.mem_ker
  have h1 : r ∣ Nat.card T := by
    have := addOrderOf_dvd_natCard (⟨Q, mem.2 hrQ⟩ : T)
    rwa [← AddSubgroup.addOrderOf_coe, addOrderOf_eq_prime hrQ hQ] at this
  have h2 : Nat.card T = r ^ (Nat.card T).primeFactorsList.length :=
    Nat.eq_prime_pow_of_unique_prime_dvd Nat.card_pos.ne' fun {d} hd hdv => by
      have : Fact d.Prime := ⟨hd⟩
      obtain ⟨Q, hQ⟩ := exists_prime_addOrderOf_dvd_card' (G := T) d hdv
      have h3 : r • Q = 0 := Subtype.ext (mem.1 Q.2)
      have h4 := addOrderOf_dvd_of_nsmul_eq_zero h3
      rw [hQ] at h4
      exact (Nat.prime_dvd_prime_iff_eq hd hp).1 h4
  have h3 : Nat.card T ∣ n * r := by
    rw [← hc]; exact AddSubgroup.card_addSubgroup_dvd_card _
  have hcard : Nat.card T = r := by
    generalize hk : (Nat.card T).primeFactorsList.length = k at h2
    rw [h2] at h1 h3 ⊢
    rcases k with _ | _ | k
    · rw [pow_zero, Nat.dvd_one] at h1; exact absurd h1 hp.one_lt.ne'
    · simp
    · refine absurd ?_ hn
      have : r * r ∣ n * r := (Dvd.intro_left (r ^ k) (by ring)).trans h3
      exact Nat.dvd_of_mul_dvd_mul_right hp.pos this
  have hm : (⟨S, mem.2 hrS⟩ : T) ∈ AddSubgroup.zmultiples (⟨Q, mem.2 hrQ⟩ : T) :=
    mem_zmultiples_of_prime_card hcard (fun e => hQ (congrArg Subtype.val e))
  obtain ⟨i, hi⟩ := AddSubgroup.mem_zmultiples_iff.1 hm
  exact AddSubgroup.mem_zmultiples_iff.2 ⟨i, congrArg Subtype.val hi⟩

end group

section pairing

variable {G₁ G₂ : Type*} [AddCommGroup G₁] [AddCommGroup G₂] [Finite G₂] {M : Type*} [Field M] {n r : ℕ}
  {e : G₁ → G₂ → M}

/-- If `P` has a partner in a group of order `n r`, every element other than 0 of order dividing `r` is one. -/
theorem ne_of_partner (hb : Pairing r e) (hp : r.Prime) (hc : Nat.card G₂ = n * r) (hn : ¬ r ∣ n) {P : G₁}
    (hP : r • P = 0) (hex : ∃ S, e P S ≠ 1) {Q : G₂} (hQ : Q ≠ 0) (hrQ : r • Q = 0) : e P Q ≠ 1 := by
  obtain ⟨S, hS⟩ := hex
  intro h1
  have hnS : r • (n • S) = 0 := by
    rw [smul_smul, mul_comm, ← hc]; exact card_nsmul_eq_zero'
  obtain ⟨i, hi⟩ := AddSubgroup.mem_zmultiples_iff.1 (mem_zmultiples_of_torsion hp hc hn hQ hrQ hnS)
  have h2 : e P (n • S) = 1 := by
    rw [← hi, hb.zsmul_right hp.ne_zero Q hP, h1, one_zpow]
  rw [hb.nsmul_right hp.ne_zero S hP] at h2
  have := pow_gcd_eq_one.2 ⟨h2, hb.root P S hP⟩
  rw [((hp.coprime_iff_not_dvd.2 hn).symm : n.gcd r = 1), pow_one] at this
  exact hS this

end pairing

section D

open Pbc.PairingD (one2 TypeD TypeG eD twD incl incl_ne incl_torsion two_F Ext Data initD initG apply pairing
  millerAffine tatepowerD tatepowerG C88_typeD C88_typeG_partial C89_typeD_converse four_ne)

variable {F K : Type*} [Field F] [DecidableEq F] [Fintype F] [Field K] [DecidableEq K] [Fintype K] [Algebra F K]
variable {E : Ext F K} {ξ : K} {q k r h n : ℕ} {a b v0 : F}
variable [Fact (∀ s : K, s ^ 2 ≠ algebraMap F K v0 + 0 * s)]
variable {P : (EC a b).Point} {p' : Pt F}

local notation "φ" => algebraMap F K

/-- The pairing of types D and G: every `P ≠ O` has a partner on the twist. -/
theorem exists_eD_all (h3 : (3 : F) ≠ 0) (hD : 4 * a ^ 3 + 27 * b ^ 2 ≠ 0) (hQ : 61 < Fintype.card K) (hodd : Odd r)
    (hq : Fintype.card K + 1 = h * r) (hP : P ≠ 0) (hr : r • P = 0) : ∃ Q, eD (K := K) v0 r h P Q ≠ 1 := by
  refine exists_ne twD (two_ne' (φ v0)) ?_ ?_ hQ hodd hq (incl_ne hP) (incl_torsion (two_F (K := K) v0) hr) (kills hq)
  · intro h0
    exact h3 ((algebraMap F K).injective (by rw [map_ofNat, h0, map_zero]))
  · intro h0
    refine hD ((algebraMap F K).injective ?_)
    rw [map_zero, ← h0]
    simp only [map_add, map_mul, map_pow, map_ofNat]

/-- **C107** for type D: for every `P ≠ O` of G1 there is a point of the twist for which the routine returns a value
other than 1. -/
theorem C107_typeD (ht : TypeD E ξ q k r) {p : Data F K} (hi : initD E q k r a b v0 = some p)
    (h3 : (3 : F) ≠ 0) (hD : 4 * a ^ 3 + 27 * b ^ 2 ≠ 0) (hQ : 61 < q ^ E.d) (hp : PtRep p' P) (hP : P ≠ 0)
    (hr : r • P = 0) :
    ∃ Q : (EC (φ v0 ^ 2 * φ a) (φ v0 ^ 3 * φ b)).Point, ∀ q', PtRep q' Q →
      ∃ g, apply (pairing p millerAffine tatepowerD) p' q' = some g ∧ g ≠ one2 := by
  rw [← ht.cardK] at hQ
  obtain ⟨Q, hQ⟩ := exists_eD_all (v0 := v0) h3 hD hQ ht.odd ht.cof hP hr
  refine ⟨Q, fun q' hq => ?_⟩
  obtain ⟨p₀, e₀, -, hval⟩ := C88_typeD (a := a) (b := b) (v0 := v0) ht
  rw [e₀, Option.some.injEq] at hi
  subst hi
  obtain ⟨g, e, hg⟩ := hval P Q p' q' hp hq hr
  refine ⟨g, e, ?_⟩
  rintro rfl
  exact hQ (by rw [← hg]; rfl)

/-- **C107** for type D: with `n r` points on the twist and `n` prime to `r`, the pairing of `P` in G1 and `Q` of order
dividing `r` on the twist is 1 only if one of them is `O`. -/
theorem C107_typeD_iff (ht : TypeD E ξ q k r) {p : Data F K} (hi : initD E q k r a b v0 = some p)
    (h3 : (3 : F) ≠ 0) (hD : 4 * a ^ 3 + 27 * b ^ 2 ≠ 0) (hQ : 61 < q ^ E.d)
    (hcard : Nat.card (EC (φ v0 ^ 2 * φ a) (φ v0 ^ 3 * φ b)).Point = n * r) (hn : ¬ r ∣ n)
    {Q : (EC (φ v0 ^ 2 * φ a) (φ v0 ^ 3 * φ b)).Point} {q' : Pt K} (hp : PtRep p' P) (hq : PtRep q' Q) (hr : r • P = 0)
    (hrQ : r • Q = 0) :
    apply (pairing p millerAffine tatepowerD) p' q' = some one2 ↔ p'.inf = true ∨ q'.inf = true := by
  obtain ⟨p₀, e₀, hb, hval⟩ := C88_typeD (a := a) (b := b) (v0 := v0) ht
  rw [e₀, Option.some.injEq] at hi
  subst hi
  rcases PairingD.inf_of hp with ⟨hi, rfl⟩ | ⟨hi, h0⟩
  · simp [apply, hi]
  rcases PairingD.inf_of hq with ⟨hj, rfl⟩ | ⟨hj, h0'⟩
  · simp [apply, hj]
  simp only [hi, hj, Bool.false_eq_true, or_self, iff_false]
  obtain ⟨g, e, hg⟩ := hval P Q p' q' hp hq hr
  rw [e, Option.some.injEq]
  rintro rfl
  have hQ' := hQ
  rw [← ht.cardK] at hQ'
  exact ne_of_partner (hb ⟨Q, h0', hrQ⟩) ht.prime hcard hn hr (exists_eD_all h3 hD hQ' ht.odd ht.cof h0 hr) h0' hrQ
    (by rw [← hg]; rfl)

/-- **C89**, **C107** for type D: comparison in G2 is equality of the pairings with any `P ≠ O`. -/
theorem C107_cmp (ht : TypeD E ξ q k r) {p : Data F K} (hi : initD E q k r a b v0 = some p)
    (h3 : (3 : F) ≠ 0) (hD : 4 * a ^ 3 + 27 * b ^ 2 ≠ 0) (hQ : 61 < q ^ E.d)
    (hcard : Nat.card (EC (φ v0 ^ 2 * φ a) (φ v0 ^ 3 * φ b)).Point = n * r) (hcop : n.Coprime r)
    {m : Curve.Mem K} {i j : ℕ} {Q₁ Q₂ : (EC (φ v0 ^ 2 * φ a) (φ v0 ^ 3 * φ b)).Point}
    (h₁ : PtRep (m i) Q₁) (h₂ : PtRep (m j) Q₂) (hp : PtRep p' P) (hP : P ≠ 0) (hr : r • P = 0) :
    apply (pairing p millerAffine tatepowerD) p' (m i) =
      apply (pairing p millerAffine tatepowerD) p' (m j) ↔
    Curve.cmp (φ v0 ^ 2 * φ a) (some n) m i j = some false := by
  have hn : 0 < n := Nat.pos_of_ne_zero fun h0 => by
    rw [h0, zero_mul] at hcard
    exact Nat.card_pos.ne' hcard
  have hfr : Fact r.Prime := ⟨ht.prime⟩
  obtain ⟨S, hS⟩ := exists_prime_addOrderOf_dvd_card'
    (G := (EC (φ v0 ^ 2 * φ a) (φ v0 ^ 3 * φ b)).Point) r (by rw [hcard]; exact dvd_mul_left _ _)
  have hS' : ∃ S : (EC (φ v0 ^ 2 * φ a) (φ v0 ^ 3 * φ b)).Point, S ≠ 0 ∧ r • S = 0 := by
    refine ⟨S, ?_, hS ▸ addOrderOf_nsmul_eq_zero S⟩
    rintro rfl
    rw [addOrderOf_zero] at hS
    exact ht.prime.one_lt.ne hS
  constructor
  · have hQ' := hQ
    rw [← ht.cardK] at hQ'
    exact C89_typeD_converse ht hi hS' hn hcard h₁ h₂ hp hr (exists_eD_all h3 hD hQ' ht.odd ht.cof hP hr)
  · intro hc
    obtain ⟨g, e₁, e₂⟩ := PairingD.C89_typeD ht hi hS' hcop h₁ h₂ hc hp hr
    rw [e₁, e₂]

/-- **C107**, **C88** for type G: with `n r` points on the twist and `n` prime to `r`, the routine returns a value for
every `P` in G1 and `Q` of order dividing `r` on the twist, and this is 1 only if one of them is `O`. -/
theorem C107_typeG (ht : TypeG E ξ q r) {p : Data F K} (hi : initG E q r a b v0 = some p)
    (h3 : (3 : F) ≠ 0) (hD : 4 * a ^ 3 + 27 * b ^ 2 ≠ 0)
    (hcard : Nat.card (EC (φ v0 ^ 2 * φ a) (φ v0 ^ 3 * φ b)).Point = n * r) (hn : ¬ r ∣ n)
    {Q : (EC (φ v0 ^ 2 * φ a) (φ v0 ^ 3 * φ b)).Point} {q' : Pt K} (hp : PtRep p' P) (hq : PtRep q' Q) (hr : r • P = 0)
    (hrQ : r • Q = 0) :
    ∃ g, apply (pairing p millerAffine tatepowerG) p' q' = some g ∧
      alg (φ v0) g = eD v0 r ((q ^ 5 + 1) / r) P Q ∧ (g = one2 ↔ p'.inf = true ∨ q'.inf = true) := by
  obtain ⟨p₀, e₀, hb, hval⟩ := C88_typeG_partial (a := a) (b := b) (v0 := v0) ht
  rw [e₀, Option.some.injEq] at hi
  subst hi
  obtain ⟨hv, hs⟩ := hval P Q p' q' hp hq hr
  have hQ' : 61 < Fintype.card K := by
    have h2 : (2 : F) ≠ 0 := two_F (K := K) v0
    have h5 : 5 ≤ q := by
      have hodd := FiniteField.odd_card_of_char_ne_two (F := F) fun hc => h2 (by
        have := CharP.cast_eq_zero F (ringChar F)
        rwa [hc] at this)
      rw [ht.cardF] at hodd
      have h1 : 1 < q := ht.cardF ▸ Fintype.one_lt_card
      have hq3 : q ≠ 3 := fun h => h3 (by
        have := FiniteField.cast_card_eq_zero F
        rw [ht.cardF, h] at this
        exact_mod_cast this)
      omega
    rw [ht.cardK]
    exact lt_of_lt_of_le (by norm_num) (Nat.pow_le_pow_left h5 5)
  have key : P ≠ 0 → Q ≠ 0 → eD (K := K) v0 r ((q ^ 5 + 1) / r) P Q ≠ 1 := fun h0 h1 =>
    ne_of_partner (hb ⟨Q, h1, hrQ⟩) ht.prime hcard hn hr (exists_eD_all h3 hD hQ' ht.odd ht.cof h0 hr) h1 hrQ
  obtain ⟨g, hg⟩ := Option.isSome_iff_exists.1 (hs (by
    by_cases h0 : P = 0
    · exact Or.inl h0
    by_cases h1 : Q = 0
    · exact Or.inr (Or.inl h1)
    · exact Or.inr (Or.inr (key h0 h1))))
  refine ⟨g, hg, hv g hg, ?_⟩
  rcases PairingD.inf_of hp with ⟨hi, rfl⟩ | ⟨hi, h0⟩
  · rw [apply, if_pos hi, Option.some.injEq] at hg
    simp [hg, hi]
  rcases PairingD.inf_of hq with ⟨hj, rfl⟩ | ⟨hj, h0'⟩
  · rw [apply, if_neg (by simp [hi]), if_pos hj, Option.some.injEq] at hg
    simp [hg, hj]
  simp only [hi, hj, Bool.false_eq_true, or_self, iff_false]
  rintro rfl
  exact key h0 h0' (by rw [← hv _ hg]; rfl)

/-- **C107** for type G: every `P ≠ O` of G1 has a partner on the twist. -/
theorem C107_typeG_exists (ht : TypeG E ξ q r) {p : Data F K} (hi : initG E q r a b v0 = some p)
    (h3 : (3 : F) ≠ 0) (hD : 4 * a ^ 3 + 27 * b ^ 2 ≠ 0) (hQ : 61 < q ^ 5) (hp : PtRep p' P) (hP : P ≠ 0)
    (hr : r • P = 0) :
    ∃ Q : (EC (φ v0 ^ 2 * φ a) (φ v0 ^ 3 * φ b)).Point, ∀ q', PtRep q' Q →
      ∃ g, apply (pairing p millerAffine tatepowerG) p' q' = some g ∧ g ≠ one2 := by
  rw [← ht.cardK] at hQ
  obtain ⟨Q, hQ⟩ := exists_eD_all (v0 := v0) h3 hD hQ ht.odd ht.cof hP hr
  refine ⟨Q, fun q' hq => ?_⟩
  obtain ⟨p₀, e₀, -, hval⟩ := C88_typeG_partial (a := a) (b := b) (v0 := v0) ht
  rw [e₀, Option.some.injEq] at hi
  subst hi
  obtain ⟨hv, hs⟩ := hval P Q p' q' hp hq hr
  obtain ⟨g, hg⟩ := Option.isSome_iff_exists.1 (hs (.inr (.inr hQ)))
  refine ⟨g, hg, ?_⟩
  rintro rfl
  exact hQ (by rw [← hv _ hg]; rfl)

end D

/-! ### Instances -/

section instances

open Pbc.PairingD (Ext TypeD TypeG zero_of exists_ext nonsquare_up initG)

private instance prime79 : Fact (Nat.Prime 79) := ⟨by norm_num⟩
private instance prime139 : Fact (Nat.Prime 139) := ⟨by norm_num⟩

/-- `F_79` over itself. -/
def E79 : Ext (ZMod 79) (ZMod 79) := ⟨1, fun x i => if i = 0 then x else 0, fun f => f 0⟩

private instance fact79 : Fact (∀ s : ZMod 79, s ^ 2 ≠ algebraMap (ZMod 79) (ZMod 79) 3 + 0 * s) :=
  ⟨by simp only [Algebra.algebraMap_self, RingHom.id_apply]; decide +kernel⟩

theorem type79 : TypeD E79 0 79 2 5 where
  ok := ⟨by decide, fun g => by simp [E79], fun x => by simp [E79]⟩
  cardF := ZMod.card 79
  cardK := ZMod.card 79
  hk := rfl
  prime := by norm_num
  three := by norm_num
  six := by decide
  dvd := by decide

/-- A point of order 5 of `Y² = X³ + X + 23`, which has 90 points. -/
def P79 : (EC (1 : ZMod 79) 23).Point := .some 57 52 (by
  rw [nonsingular_iff, equation_iff]; decide +kernel)

/-- A point of order 5 of the twist. -/
def Q79 : (EC (algebraMap (ZMod 79) (ZMod 79) 3 ^ 2 * algebraMap (ZMod 79) (ZMod 79) 1)
    (algebraMap (ZMod 79) (ZMod 79) 3 ^ 3 * algebraMap (ZMod 79) (ZMod 79) 23)).Point := .some 59 74 (by
  rw [nonsingular_iff, equation_iff]
  simp only [Algebra.algebraMap_self, RingHom.id_apply]
  decide +kernel)

theorem P79_rep : PtRep (⟨false, 57, 52⟩ : Pt (ZMod 79)) P79 := ⟨rfl, rfl, rfl⟩
theorem Q79_rep : PtRep (⟨false, 59, 74⟩ : Pt (ZMod 79)) Q79 := ⟨rfl, rfl, rfl⟩

theorem P79_order : 5 • P79 = 0 := zero_of (by decide) P79_rep 5 (by decide +kernel)

theorem Q79_order : 5 • Q79 = 0 := zero_of (by decide) Q79_rep 5 (by
  simp only [Algebra.algebraMap_self, RingHom.id_apply]
  decide +kernel)

/-- The twist has 70 points, fewer than `q + 1`. -/
theorem twist79 : Nat.card (EC (algebraMap (ZMod 79) (ZMod 79) 3 ^ 2 * algebraMap (ZMod 79) (ZMod 79) 1)
    (algebraMap (ZMod 79) (ZMod 79) 3 ^ 3 * algebraMap (ZMod 79) (ZMod 79) 23)).Point = 14 * 5 := by
  simp only [Algebra.algebraMap_self, RingHom.id_apply]
  rw [card_eq (nonsingular_of_disc (by decide) (by decide +kernel))]
  decide +kernel

example {p : PairingD.Data (ZMod 79) (ZMod 79)} (hi : PairingD.initD E79 79 2 5 1 23 3 = some p) :
    PairingD.apply (PairingD.pairing p PairingD.millerAffine PairingD.tatepowerD) ⟨false, 57, 52⟩ ⟨false, 59, 74⟩ ≠
      some PairingD.one2 := fun h => by
  have := (C107_typeD_iff (P := P79) (Q := Q79) type79 hi (by decide) (by decide +kernel) (by decide) twist79 (by decide)
    P79_rep Q79_rep P79_order Q79_order).1 h
  simp at this

example {p : PairingD.Data (ZMod 79) (ZMod 79)} (hi : PairingD.initD E79 79 2 5 1 23 3 = some p) :=
  C107_typeD (P := P79) (p' := ⟨false, 57, 52⟩) type79 hi (by decide) (by decide +kernel) (by decide)
    P79_rep (Point.some_ne_zero _) P79_order

/-- The data exist. -/
example : ∃ p, PairingD.initD E79 79 2 5 1 23 3 = some p :=
  let ⟨p, h, _⟩ := PairingD.C88_typeD (a := 1) (b := 23) (v0 := 3) type79
  ⟨p, h⟩

/-- No curve `Y² = X³ + B` over the field of `139 ^ 5` elements has an order divisible by 961. -/
theorem order139 (τ c : ℤ) (h : τ ^ 2 + 3 * c ^ 2 = 4 * 139 ^ 5) : ¬ (961 : ℤ) ∣ 139 ^ 5 + 1 + τ := by
  rintro ⟨k, hk⟩
  have hτ : τ = 961 * k - (139 ^ 5 + 1) := by linarith
  have hb : τ ^ 2 ≤ 4 * 139 ^ 5 := by nlinarith [sq_nonneg c]
  have h1 : -455600 ≤ τ := by nlinarith
  have h2 : τ ≤ 455600 := by nlinarith
  have k1 : 53994162 ≤ k := by omega
  have k2 : k ≤ 53995109 := by omega
  obtain ⟨m, rfl⟩ : ∃ m : ℕ, k = 53994162 + m := ⟨(k - 53994162).toNat, by omega⟩
  have hm : m < 948 := by omega
  have key : ∀ m : ℕ, m < 948 → ¬ ((4 * 139 ^ 5 - (961 * (53994162 + (m : ℤ)) - (139 ^ 5 + 1)) ^ 2) % 3 = 0 ∧
      (Nat.sqrt ((4 * 139 ^ 5 - (961 * (53994162 + (m : ℤ)) - (139 ^ 5 + 1)) ^ 2) / 3).toNat) ^ 2 =
        ((4 * 139 ^ 5 - (961 * (53994162 + (m : ℤ)) - (139 ^ 5 + 1)) ^ 2) / 3).toNat) := by decide +kernel
  have hc : 4 * 139 ^ 5 - (961 * (53994162 + (m : ℤ)) - (139 ^ 5 + 1)) ^ 2 = 3 * c ^ 2 := by
    rw [← hτ]; linarith
  refine key m hm ?_
  rw [hc]
  refine ⟨by omega, ?_⟩
  have : (3 * c ^ 2 / 3).toNat = c.natAbs ^ 2 := by
    rw [Int.mul_ediv_cancel_left _ (by norm_num), ← Int.natAbs_pow_two]
    rfl
  rw [this, pow_two c.natAbs, Nat.sqrt_eq, pow_two]

/-- A point of order 31. -/
def P139 : (EC (0 : ZMod 139) 8).Point := .some 138 110 (by rw [nonsingular_iff, equation_iff]; decide +kernel)

theorem P139_rep : PtRep (⟨false, 138, 110⟩ : Pt (ZMod 139)) P139 := ⟨rfl, rfl, rfl⟩

/-- Type G with `q = 139`, `r = 31` and the curve `Y² = X³ + 8`. -/
theorem exists_typeG139 : ∃ (K : Type) (_ : Field K) (_ : DecidableEq K) (_ : Fintype K)
    (_ : Algebra (ZMod 139) K) (E : Ext (ZMod 139) K) (ξ : K), TypeG E ξ 139 31 ∧
    (∀ s : K, s ^ 2 ≠ algebraMap (ZMod 139) K 2 + 0 * s) ∧
    (∃ P : (EC (0 : ZMod 139) 8).Point, P ≠ 0 ∧ 31 • P = 0) ∧
    ∃ n, Nat.card (EC (algebraMap (ZMod 139) K 2 ^ 2 * algebraMap (ZMod 139) K 0)
      (algebraMap (ZMod 139) K 2 ^ 3 * algebraMap (ZMod 139) K 8)).Point = n * 31 ∧ ¬ 31 ∣ n := by
  classical
  have := Fintype.ofFinite (GaloisField 139 5)
  have hc : Fintype.card (GaloisField 139 5) = 139 ^ 5 := by
    rw [← Nat.card_eq_fintype_card]; exact GaloisField.card 139 5 (by norm_num)
  obtain ⟨E, ξ, hE, hd⟩ := exists_ext (ZMod 139) (GaloisField 139 5)
  rw [GaloisField.finrank 139 (by norm_num)] at hd
  have h2 : (2 : GaloisField 139 5) ≠ 0 := by
    intro h
    have := (CharP.cast_eq_zero_iff (GaloisField 139 5) 139 2).1 (by exact_mod_cast h)
    exact absurd this (by decide)
  have hns : ∀ s : GaloisField 139 5, s ^ 2 ≠ algebraMap (ZMod 139) _ 2 + 0 * s := by
    refine nonsquare_up h2 ?_ (by decide)
    rw [hc, show ((2 : ZMod 139) ^ (139 ^ 5 / 2)) = -1 by
      rw [show 139 ^ 5 / 2 = 138 * 188003060 + 69 by norm_num, pow_add, pow_mul,
        show (2 : ZMod 139) ^ 138 = 1 by decide +kernel, one_pow]; decide +kernel, map_neg, map_one]
    intro h
    exact h2 (by linear_combination -h)
  have hP : 31 • P139 = 0 := zero_of (by decide) P139_rep 31 (by decide +kernel)
  refine ⟨GaloisField 139 5, inferInstance, inferInstance, this, inferInstance, E, ξ,
    ⟨hE, ZMod.card 139, hc, hd, by norm_num, by norm_num, by decide⟩, hns, ⟨_, Point.some_ne_zero _, hP⟩, ?_⟩
  have h31 : Fact (Nat.Prime 31) := ⟨by norm_num⟩
  have d1 : 31 ∣ Nat.card (EC (0 : ZMod 139) 8).Point := by
    rw [← addOrderOf_eq_prime hP (Point.some_ne_zero _)]; exact addOrderOf_dvd_natCard _
  have d2 := d1.trans (card_dvd_ext (K := GaloisField 139 5) 0 8)
  have h8 : algebraMap (ZMod 139) (GaloisField 139 5) 8 ≠ 0 := by
    rw [_root_.map_ne_zero]; decide
  have h20 : algebraMap (ZMod 139) (GaloisField 139 5) 2 ≠ 0 := by
    rw [_root_.map_ne_zero]; decide
  have hD : 4 * (algebraMap (ZMod 139) (GaloisField 139 5) 0) ^ 3 + 27 * (algebraMap (ZMod 139) (GaloisField 139 5) 8) ^ 2 ≠ 0 := by
    have : 4 * (algebraMap (ZMod 139) (GaloisField 139 5) 0) ^ 3 + 27 * (algebraMap (ZMod 139) (GaloisField 139 5) 8) ^ 2 =
        algebraMap (ZMod 139) (GaloisField 139 5) 60 := by
      rw [show (60 : ZMod 139) = 4 * 0 ^ 3 + 27 * 8 ^ 2 by decide +kernel]
      simp only [map_add, map_mul, map_pow, map_ofNat]
    rw [this, _root_.map_ne_zero]; decide
  have ht := card_twist h2 hD (v := algebraMap (ZMod 139) (GaloisField 139 5) 2) (by
    rintro ⟨s, hs⟩
    exact hns s (by rw [hs, zero_mul, add_zero, pow_two]))
  rw [hc] at ht
  obtain ⟨τ, c, hN, hτ⟩ := hasse_sextic (F := GaloisField 139 5)
    (B := algebraMap (ZMod 139) (GaloisField 139 5) 2 ^ 3 * algebraMap (ZMod 139) (GaloisField 139 5) 8)
    (by rw [hc]; norm_num) (mul_ne_zero (pow_ne_zero _ h20) h8)
  have ho := order139 τ c (by rw [hτ, hc]; norm_num)
  rw [hc] at hN
  rw [map_zero, mul_zero] at ht ⊢
  rw [map_zero] at d2
  generalize Nat.card (EC 0 (algebraMap (ZMod 139) (GaloisField 139 5) 8)).Point = N₁ at *
  generalize Nat.card (EC 0 (algebraMap (ZMod 139) (GaloisField 139 5) 2 ^ 3 *
    algebraMap (ZMod 139) (GaloisField 139 5) 8)).Point = N₂ at *
  refine ⟨N₂ / 31, by omega, fun h => ho ?_⟩
  push_cast at hN
  omega

/-- The routine of type G returns a value for all points of order 31, and it is 1 only at `O`. -/
example {K : Type} [Field K] [DecidableEq K] [Fintype K] [Algebra (ZMod 139) K] {E : Ext (ZMod 139) K} {ξ : K}
    (ht : TypeG E ξ 139 31) [Fact (∀ s : K, s ^ 2 ≠ algebraMap (ZMod 139) K 2 + 0 * s)]
    {p : PairingD.Data (ZMod 139) K} (hi : initG E 139 31 0 8 2 = some p) {n : ℕ}
    (hc : Nat.card (EC (algebraMap (ZMod 139) K 2 ^ 2 * algebraMap (ZMod 139) K 0)
      (algebraMap (ZMod 139) K 2 ^ 3 * algebraMap (ZMod 139) K 8)).Point = n * 31) (hn : ¬ 31 ∣ n)
    {P : (EC (0 : ZMod 139) 8).Point} (hr : 31 • P = 0)
    {Q : (EC (algebraMap (ZMod 139) K 2 ^ 2 * algebraMap (ZMod 139) K 0)
      (algebraMap (ZMod 139) K 2 ^ 3 * algebraMap (ZMod 139) K 8)).Point} (hrQ : 31 • Q = 0)
    {p' : Pt (ZMod 139)} {q' : Pt K} (hp : PtRep p' P) (hq : PtRep q' Q) :=
  C107_typeG ht hi (by decide) (by decide +kernel) hc hn hp hq hr hrQ

end instances

end Pbc.NonDeg
