import Verif.Props.EtaTField
import Verif.Props.NonDegAll
import Verif.Lemmas.NonDegI

/-!
# C103, C107, C114 for type I: order of the curve, non-degeneracy and symmetry

Specification: Mathlib's group of the curve `y² = x³ - x + 1`, `Nat.card`, and the order `3^m + 1 ± 3^((m+1)/2)`
(`Spec.EtaT.order`).
-/

set_option autoImplicit false
set_option linter.unusedSectionVars false

namespace Pbc.EtaT

open Spec
open Pbc.Ternary (E2 E3 trinomial)
open Pbc.Curve (Pt)

private instance : Fact (Nat.Prime 3) := ⟨by decide⟩

private theorem exists_rep {F : Type*} [Field F] [DecidableEq F] (p : (EC (-1 : F) 1).Point) :
    ∃ P : Pt F, PtRep P p := by
  rcases p with _ | ⟨x, y, h⟩
  · exact ⟨⟨true, 0, 0⟩, rfl⟩
  · exact ⟨⟨false, x, y⟩, rfl, rfl, rfl⟩

section

variable {F : Type*} [Field F] [DecidableEq F] [CharP F 3] [Fintype F] {m : ℕ}

/-- **C103**: the curve has exactly `3^m + 1 ± 3^((m+1)/2)` points. -/
theorem C103_card (hF : Fintype.card F = 3 ^ m) (hm : m % 12 = 1 ∨ m % 12 = 5 ∨ m % 12 = 7 ∨ m % 12 = 11) :
    Nat.card (EC (-1 : F) 1).Point = Spec.EtaT.order m := (card_curves F hm hF).1

/-- **C107** for type I: every point of the curve other than `O` has a partner on the curve, a point with which
the pairing is not 1. -/
theorem C107_typeI (hF : Fintype.card F = 3 ^ m) (hm : m % 12 = 1 ∨ m % 12 = 5 ∨ m % 12 = 7 ∨ m % 12 = 11)
    {P : Pt F} {p : (EC (-1 : F) 1).Point} (hP : PtRep P p) (h0 : P.inf = false) :
    ∃ q : (EC (-1 : F) 1).Point, ∀ Q, PtRep Q q → ∃ v, pairing m P Q = some v ∧ v ≠ E3.one := by
  classical
  obtain ⟨K, L, i1, i2, i3, i4, i5, i6, i7, ρ, σ, T, hfin, hc⟩ := exists_tower_card F hm hF
  have := Fintype.ofFinite K
  rw [Nat.card_eq_fintype_card] at hc
  have hk : Spec.EtaT.order m • wmul m • up F K p = 0 := by
    rw [smul_comm, ← map_nsmul, order_smul T.card hm, map_zero, smul_zero]
  have hne : wmul m • up F K p ≠ 0 := by
    rcases p with _ | ⟨x, y, hn⟩
    · rw [show P.inf = true from hP] at h0; cases h0
    · obtain ⟨h1, u1⟩ := up_pt (K := K) (eqn hn)
      obtain ⟨h2, u2⟩ := wmul_pt hm (T.alg_q x) (T.alg_q y) h1
      have ep : pt x y (eqn hn) = WeierstrassCurve.Affine.Point.some x y hn := rfl
      rw [← ep, u1, u2]
      exact WeierstrassCurve.Affine.Point.some_ne_zero _
  obtain ⟨q, hq⟩ := T.exists_tateD hm hc hne hk (C103_card hF hm)
  refine ⟨q, fun Q hQ => ?_⟩
  obtain ⟨v, e, e1, e2⟩ := T.pairing_spec hm hP hQ
  refine ⟨v, e, ?_⟩
  rintro rfl
  rw [T.value_one, one_pow] at e2
  refine hq ?_
  have h1 := T.tateD_pow (T.kills hm) (order_pos hm) hk q
  refine Tower.root_unique (order_pos hm) (c := 3 * 3 ^ ((m + 1) / 2) * 3 ^ ((m - 1) / 2)) ?_ h1 (one_pow _) ?_
  · rw [← pow_succ', ← pow_add]
    exact Nat.Coprime.pow_left _ (order_coprime hm)
  · rw [← e2, one_pow]

/-- **C107** for type I, in the group the library uses: if the order of the curve is `n c` with `n` prime to `c`,
every point other than `O` that `n` kills has a partner that `n` kills. -/
theorem C107_typeI_torsion (hF : Fintype.card F = 3 ^ m)
    (hm : m % 12 = 1 ∨ m % 12 = 5 ∨ m % 12 = 7 ∨ m % 12 = 11) {n c : ℕ} (hn : n * c = Spec.EtaT.order m)
    (hc : n.Coprime c) {P : Pt F} {p : (EC (-1 : F) 1).Point} (hP : PtRep P p) (h0 : P.inf = false) (hp : n • p = 0) :
    ∃ q : (EC (-1 : F) 1).Point, n • q = 0 ∧ ∀ Q, PtRep Q q → ∃ v, pairing m P Q = some v ∧ v ≠ E3.one := by
  obtain ⟨q, hq⟩ := C107_typeI hF hm hP h0
  refine ⟨c • q, ?_, fun Q hQ => ?_⟩
  · rw [smul_smul, hn]
    exact order_smul hF hm q
  · obtain ⟨Q₀, hQ₀⟩ := exists_rep q
    obtain ⟨v, e, hv⟩ := hq Q₀ hQ₀
    obtain ⟨v', e', e2⟩ := C102_scalars hF hm hP hQ₀ 1 c (P' := P) (by rwa [one_smul]) hQ
    obtain ⟨v'', e'', e3⟩ := C102_order hF hm hP hQ₀ n (Or.inl hp)
    rw [e, Option.some.injEq] at e' e''
    subst e'
    subst e''
    rw [one_mul] at e2
    refine ⟨_, e2, fun h1 => hv ?_⟩
    obtain ⟨K, L, i1, i2, i3, i4, i5, i6, i7, ρ, σ, T⟩ := exists_tower F hm hF
    refine T.value_injective hm ?_
    rw [T.value_one]
    have a1 : T.value v ^ c = 1 := by rw [← T.value_npow, h1, T.value_one]
    have a2 : T.value v ^ n = 1 := by rw [← T.value_npow, e3, T.value_one]
    have := pow_gcd_eq_one.2 ⟨a1, a2⟩
    rwa [hc.symm, pow_one] at this

/-- The group the library uses has `n` elements. -/
theorem C103_torsion (hF : Fintype.card F = 3 ^ m)
    (hm : m % 12 = 1 ∨ m % 12 = 5 ∨ m % 12 = 7 ∨ m % 12 = 11) {n c : ℕ} (hn : n * c = Spec.EtaT.order m)
    (hc : n.Coprime c) : Nat.card {p : (EC (-1 : F) 1).Point // n • p = 0} = n := by
  have hcard := C103_card hF hm
  set G := (EC (-1 : F) 1).Point
  have hpos := order_pos hm
  rw [← hn] at hpos hcard
  have ker_dvd : ∀ {a b : ℕ}, a.Coprime b → Nat.card G = b * a →
      Nat.card (nsmulAddMonoidHom a : G →+ G).ker ∣ a := fun {a b} hab hG => by
    refine card_dvd_of_kills (k := b) (fun x => Subtype.ext (AddMonoidHom.mem_ker.1 x.2)) ?_ hab
    rw [← hG]
    exact AddSubgroup.card_addSubgroup_dvd_card _
  have d1 := ker_dvd hc (by rw [hcard, mul_comm])
  have hle : (nsmulAddMonoidHom n : G →+ G).range ≤ (nsmulAddMonoidHom c : G →+ G).ker := by
    rintro _ ⟨x, rfl⟩
    rw [AddMonoidHom.mem_ker]
    change c • n • x = 0
    rw [smul_smul, mul_comm, hn]
    exact order_smul hF hm x
  have d2 : Nat.card (nsmulAddMonoidHom n : G →+ G).range ∣ c :=
    (AddSubgroup.card_dvd_of_le hle).trans (ker_dvd hc.symm hcard)
  have hprod : Nat.card (nsmulAddMonoidHom n : G →+ G).ker * Nat.card (nsmulAddMonoidHom n : G →+ G).range = n * c := by
    rw [← hcard, ← AddSubgroup.card_mul_index (nsmulAddMonoidHom n : G →+ G).ker, AddSubgroup.index_ker]
  have hn0 : 0 < n := Nat.pos_of_ne_zero (left_ne_zero_of_mul hpos)
  have hc0 : 0 < c := Nat.pos_of_ne_zero (right_ne_zero_of_mul hpos)
  have l1 := Nat.le_of_dvd hn0 d1
  have l2 := Nat.le_of_dvd hc0 d2
  change Nat.card (nsmulAddMonoidHom n : G →+ G).ker = n
  by_contra hne
  have l3 := lt_of_le_of_ne l1 hne
  have := Nat.mul_lt_mul_of_lt_of_le l3 l2 hc0
  omega

/-- **C107** for type I, prime group order: the pairing of two points that `r` kills is 1 only if one of them
is `O`. -/
theorem C107_typeI_iff (hF : Fintype.card F = 3 ^ m)
    (hm : m % 12 = 1 ∨ m % 12 = 5 ∨ m % 12 = 7 ∨ m % 12 = 11) {r c : ℕ} (hr : r.Prime)
    (hn : r * c = Spec.EtaT.order m) (hc : ¬ r ∣ c) {P Q : Pt F} {p q : (EC (-1 : F) 1).Point} (hP : PtRep P p)
    (hQ : PtRep Q q) (hp : r • p = 0) (hq : r • q = 0) :
    pairing m P Q = some E3.one ↔ P.inf = true ∨ Q.inf = true := by
  have hcop : r.Coprime c := hr.coprime_iff_not_dvd.2 hc
  constructor
  · intro h
    by_contra hno
    push Not at hno
    obtain ⟨h1, h2⟩ := hno
    simp only [ne_eq, Bool.not_eq_true] at h1 h2
    obtain ⟨s, hs, hs'⟩ := C107_typeI_torsion hF hm hn hcop hP h1 hp
    have hq0 : q ≠ 0 := by
      rintro rfl
      rw [show Q.inf = true from hQ] at h2; cases h2
    have hG := C103_card hF hm
    rw [← hn, mul_comm] at hG
    obtain ⟨i, hi⟩ := AddSubgroup.mem_zmultiples_iff.1
      (Pbc.NonDeg.mem_zmultiples_of_torsion hr hG hc hq0 hq hs)
    obtain ⟨S, hS⟩ := exists_rep s
    obtain ⟨v, e, hv⟩ := hs' S hS
    obtain ⟨a, ha⟩ : ∃ a : ℕ, a • q = s := by
      refine ⟨(i % r).toNat, ?_⟩
      rw [← hi, ← natCast_zsmul, Int.toNat_of_nonneg (Int.emod_nonneg _ (by exact_mod_cast hr.ne_zero)), Int.emod_def,
        sub_smul, mul_smul, smul_comm, natCast_zsmul q r, hq, smul_zero, sub_zero]
    obtain ⟨v', e', e2⟩ := C102_scalars hF hm hP hQ 1 a (P' := P) (Q' := S) (by rwa [one_smul]) (by rwa [ha])
    rw [h, Option.some.injEq] at e'
    subst e'
    rw [e, Option.some.injEq] at e2
    refine hv ?_
    obtain ⟨K, L, i1, i2, i3, i4, i5, i6, i7, ρ, σ, T⟩ := exists_tower F hm hF
    refine T.value_injective hm ?_
    rw [e2, T.value_npow, T.value_one, one_pow]
  · intro h
    rw [pairing]
    rcases h with h | h <;> simp [h]

/-- **C114** for type I: on the points that a prime `r` kills the arguments may be exchanged. -/
theorem C114_typeI (hF : Fintype.card F = 3 ^ m)
    (hm : m % 12 = 1 ∨ m % 12 = 5 ∨ m % 12 = 7 ∨ m % 12 = 11) {r c : ℕ} (hr : r.Prime)
    (hn : r * c = Spec.EtaT.order m) (hc : ¬ r ∣ c) {P Q : Pt F} {p q : (EC (-1 : F) 1).Point} (hP : PtRep P p)
    (hQ : PtRep Q q) (hp : r • p = 0) (hq : r • q = 0) : pairing m P Q = pairing m Q P := by
  by_cases h0 : p = 0
  · subst h0
    have h1 : P.inf = true := hP
    rw [pairing, pairing, h1]; simp
  have hG := C103_card hF hm
  rw [← hn, mul_comm] at hG
  obtain ⟨i, hi⟩ := AddSubgroup.mem_zmultiples_iff.1 (Pbc.NonDeg.mem_zmultiples_of_torsion hr hG hc h0 hp hq)
  obtain ⟨a, ha⟩ : ∃ a : ℕ, a • p = q := by
    refine ⟨(i % r).toNat, ?_⟩
    rw [← hi, ← natCast_zsmul, Int.toNat_of_nonneg (Int.emod_nonneg _ (by exact_mod_cast hr.ne_zero)), Int.emod_def,
      sub_smul, mul_smul, smul_comm, natCast_zsmul p r, hp, smul_zero, sub_zero]
  exact C102_symmetric hF hm p 1 a (by rwa [one_smul]) (by rwa [ha])

end

/-- Over the field of three elements: seven points, `(0, 1)` is one, so every two of them other than `O` pair to a
value other than 1. -/
example : ∃ v, pairing (F := ZMod 3) 1 ⟨false, 0, 1⟩ ⟨false, 0, 2⟩ = some v ∧ v ≠ E3.one := by
  have hp : PtRep (⟨false, 0, 1⟩ : Pt (ZMod 3)) (pt 0 1 (by decide)) := ⟨rfl, rfl, rfl⟩
  have hq : PtRep (⟨false, 0, 2⟩ : Pt (ZMod 3)) (pt 0 2 (by decide)) := ⟨rfl, rfl, rfl⟩
  have h7 : Spec.EtaT.order 1 = 7 := by decide +kernel
  have hF : Fintype.card (ZMod 3) = 3 ^ 1 := by simp [ZMod.card]
  have h := C107_typeI_iff (m := 1) (r := 7) (c := 1) hF (Or.inl rfl) (by norm_num) (by rw [h7])
    (by norm_num) hp hq (by rw [← h7]; exact order_smul hF (Or.inl rfl) _)
    (by rw [← h7]; exact order_smul hF (Or.inl rfl) _)
  obtain ⟨v, e, -⟩ := C102_scalars (m := 1) hF (Or.inl rfl) hp hq 1 1 (P' := ⟨false, 0, 1⟩) (Q' := ⟨false, 0, 2⟩)
    (by rwa [one_smul]) (by rwa [one_smul])
  refine ⟨v, e, fun h1 => ?_⟩
  rw [e, h1] at h
  simp at h

/-! ### The generated parameters -/

/-- Group order and cofactor are coprime in every generated parameter set. -/
theorem C103_coprime (size : ℤ) (p : Params) (h : paramGen size = some p) : p.n.Coprime p.n2 := by
  unfold paramGen at h
  by_cases h150 : size ≤ 150
  · rw [if_pos h150] at h
    exact Option.some.inj h ▸ (by decide +kernel)
  rw [if_neg h150] at h
  by_cases h206 : size ≤ 206
  · rw [if_pos h206] at h
    exact Option.some.inj h ▸ (by decide +kernel)
  rw [if_neg h206] at h
  by_cases h259 : size ≤ 259
  · rw [if_pos h259] at h
    exact Option.some.inj h ▸ (by decide +kernel)
  rw [if_neg h259] at h
  by_cases h316 : size ≤ 316
  · rw [if_pos h316] at h
    exact Option.some.inj h ▸ (by decide +kernel)
  rw [if_neg h316] at h
  by_cases h376 : size ≤ 376
  · rw [if_pos h376] at h
    exact Option.some.inj h ▸ (by decide +kernel)
  rw [if_neg h376] at h
  by_cases h430 : size ≤ 430
  · rw [if_pos h430] at h
    exact Option.some.inj h ▸ (by decide +kernel)
  rw [if_neg h430] at h
  by_cases h484 : size ≤ 484
  · rw [if_pos h484] at h
    exact Option.some.inj h ▸ (by decide +kernel)
  rw [if_neg h484] at h
  by_cases h552 : size ≤ 552
  · rw [if_pos h552] at h
    exact Option.some.inj h ▸ (by decide +kernel)
  rw [if_neg h552] at h
  by_cases h644 : size ≤ 644
  · rw [if_pos h644] at h
    exact Option.some.inj h ▸ (by decide +kernel)
  rw [if_neg h644] at h
  by_cases h696 : size ≤ 696
  · rw [if_pos h696] at h
    exact Option.some.inj h ▸ (by decide +kernel)
  rw [if_neg h696] at h
  by_cases h803 : size ≤ 803
  · rw [if_pos h803] at h
    exact Option.some.inj h ▸ (by decide +kernel)
  rw [if_neg h803] at h
  by_cases h892 : size ≤ 892
  · rw [if_pos h892] at h
    exact Option.some.inj h ▸ (by decide +kernel)
  rw [if_neg h892] at h
  cases h

/-- **C107** for the generated type I parameters: over the field the library builds, the group of the points killed by
the generated group order has that many elements, and each of them other than `O` has a partner in it. -/
theorem C107_typeI_generated (size : ℤ) (p : Params) (h : paramGen size = some p)
    [Fact (Irreducible (trinomial p.m p.t))] [DecidableEq (AdjoinRoot (trinomial p.m p.t))] :
    Nat.card {x : (EC (-1 : AdjoinRoot (trinomial p.m p.t)) 1).Point // p.n • x = 0} = p.n ∧
    ∀ {P : Pt (AdjoinRoot (trinomial p.m p.t))} {x : (EC (-1 : AdjoinRoot (trinomial p.m p.t)) 1).Point},
      PtRep P x → P.inf = false → p.n • x = 0 →
      ∃ y : (EC (-1 : AdjoinRoot (trinomial p.m p.t)) 1).Point, p.n • y = 0 ∧
        ∀ Q, PtRep Q y → ∃ v, pairing p.m P Q = some v ∧ v ≠ E3.one := by
  obtain ⟨hm, hn, -, -, h0, ht, -⟩ := C103_parameters size p h
  have hc := (C104_elements size p h).2
  have hfin : Module.Finite (ZMod 3) (AdjoinRoot (trinomial p.m p.t)) :=
    (Pbc.Ternary.tri_monic h0 ht).finite_adjoinRoot
  have : Finite (AdjoinRoot (trinomial p.m p.t)) := Module.finite_of_finite (ZMod 3)
  have : Fintype (AdjoinRoot (trinomial p.m p.t)) := Fintype.ofFinite _
  have : CharP (AdjoinRoot (trinomial p.m p.t)) 3 :=
    charP_of_injective_algebraMap (algebraMap (ZMod 3) (AdjoinRoot (trinomial p.m p.t))).injective 3
  rw [Nat.card_eq_fintype_card] at hc
  exact ⟨C103_torsion hc hm hn (C103_coprime size p h),
    fun hP hi hx => C107_typeI_torsion hc hm hn (C103_coprime size p h) hP hi hx⟩

/-- The group of the first generated parameter set, of 151 bits. -/
example [Fact (Irreducible (trinomial 97 12))] [DecidableEq (AdjoinRoot (trinomial 97 12))] :
    Nat.card {x : (EC (-1 : AdjoinRoot (trinomial 97 12)) 1).Point //
      2726865189058261010774960798134976187171462721 • x = 0} = 2726865189058261010774960798134976187171462721 :=
  (C107_typeI_generated 100 ⟨97, 12, 2726865189058261010774960798134976187171462721, 7⟩ rfl).1

end Pbc.EtaT
