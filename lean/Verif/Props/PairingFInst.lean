import Verif.Props.PairingF
import Mathlib.FieldTheory.Finite.Extension
import Mathlib.RingTheory.Adjoin.PowerBasis
import Mathlib.GroupTheory.OrderOfElement
import Mathlib.GroupTheory.SpecificGroups.Cyclic
import Mathlib.Tactic.NormNum.Prime
import Mathlib.FieldTheory.IntermediateField.Adjoin.Basic
import Mathlib.FieldTheory.IntermediateField.Adjoin.Algebra

/-! # Parameters of type F exist

`q = 7`, `r = 13`; the curve `Y² = X³ + 3` has 13 points, its twist over the field of 49 elements 52. -/

set_option autoImplicit false
set_option linter.unusedSectionVars false

namespace Pbc.PairingF

open Pbc.Curve (Pt)
open Pbc.PairingD (Ext Ext.Ok)
open WeierstrassCurve WeierstrassCurve.Affine
open Spec (EC PtRep Pairing)

/-- An extension of finite fields with a given generator. -/
theorem exists_ext_gen {K L : Type*} [Field K] [Field L] [Fintype L] [Algebra K L] (ξ : L)
    (htop : Algebra.adjoin K {ξ} = ⊤) : ∃ E : Ext K L, E.Ok ξ ∧ E.d = Module.finrank K L := by
  have : FiniteDimensional K L := Module.Finite.of_finite
  obtain ⟨pb, hg⟩ : ∃ pb : PowerBasis K L, pb.gen = ξ :=
    ⟨PowerBasis.ofAdjoinEqTop (Algebra.IsIntegral.isIntegral ξ) htop, by simp⟩
  refine ⟨⟨pb.dim, fun x i => if h : i < pb.dim then pb.basis.repr x ⟨i, h⟩ else 0,
    fun g => ∑ i ∈ Finset.range pb.dim, algebraMap K L (g i) * ξ ^ i⟩, ⟨?_, fun _ => rfl, ?_⟩,
    pb.finrank.symm⟩
  · dsimp only
    rw [← pb.finrank]
    exact Module.finrank_pos
  · intro x
    dsimp only
    rw [Finset.sum_range]
    conv_rhs => rw [← pb.basis.sum_repr x]
    refine Finset.sum_congr rfl fun i _ => ?_
    rw [dif_pos i.2, pb.basis_eq_pow, Algebra.smul_def, hg]

instance prime7 : Fact (Nat.Prime 7) := ⟨by norm_num⟩
instance fact7 : Fact (∀ s : ZMod 7, s ^ 2 ≠ 3 + 0 * s) := ⟨by decide⟩

/-- The field of 49 elements. -/
abbrev K49 := QuadraticAlgebra (ZMod 7) 3 0

instance fin49 : Fintype K49 := Fintype.ofEquiv (ZMod 7 × ZMod 7) (QuadraticAlgebra.equivProd 3 0).symm

theorem card49 : Fintype.card K49 = 7 ^ 2 := by
  rw [Fintype.ofEquiv_card]; rfl

instance char49 : CharP K49 7 := charP_of_injective_algebraMap (algebraMap (ZMod 7) K49).injective 7

def E49 : Ext (ZMod 7) K49 := ⟨2, fun x i => if i = 0 then x.re else if i = 1 then x.im else 0,
  fun f => ⟨f 0, f 1⟩⟩

theorem ok49 : E49.Ok (⟨0, 1⟩ : K49) where
  pos := by decide
  make g := by
    ext <;> simp [E49, Finset.sum_range_succ]
  item x := by
    ext <;> simp [E49, Finset.sum_range_succ]

/-- `1 + 2 √3` is neither a square nor a cube; in the field of `7^12` elements it is a sixth power, of an
element that generates this field. -/
theorem exists_root {L : Type*} [Field L] [Fintype L] [Algebra K49 L] (hfr : Module.finrank K49 L = 6) :
    ∃ ξ : L, ξ ^ 6 = algebraMap K49 _ ⟨1, 2⟩ ∧ Algebra.adjoin K49 {ξ} = ⊤ := by
  classical
  have hcard : Nat.card L = 7 ^ 12 := by
    rw [Module.natCard_eq_pow_finrank (K := K49), hfr, Nat.card_eq_fintype_card, card49, ← pow_mul]
  set c : L := algebraMap K49 L ⟨1, 2⟩ with hc
  have hpow : ∀ n, c ^ n = algebraMap K49 L ((⟨1, 2⟩ : K49) ^ n) := fun n => by rw [hc, map_pow]
  have hinj := (algebraMap K49 L).injective
  have h48 : c ^ 48 = 1 := by rw [hpow, show ((⟨1, 2⟩ : K49) ^ 48) = 1 by decide +kernel, map_one]
  have h24 : c ^ 24 ≠ 1 := by
    rw [hpow, Ne, map_eq_one_iff _ hinj]; decide +kernel
  have h16 : c ^ 16 ≠ 1 := by
    rw [hpow, Ne, map_eq_one_iff _ hinj]; decide +kernel
  have hc0 : c ≠ 0 := by
    rintro h
    rw [h, zero_pow (by norm_num)] at h48
    exact zero_ne_one h48
  obtain ⟨g, hg⟩ := IsCyclic.exists_ofOrder_eq_natCard (α := Lˣ)
  rw [Nat.card_units, hcard] at hg
  obtain ⟨n, hn⟩ : ∃ n : ℕ, g ^ n = Units.mk0 c hc0 := by
    have : Units.mk0 c hc0 ∈ Subgroup.zpowers g := by
      have : Subgroup.zpowers g = ⊤ := by
        rw [← Subgroup.card_eq_iff_eq_top, Nat.card_zpowers, hg, Nat.card_units, hcard]
      rw [this]; trivial
    obtain ⟨n, hn⟩ := mem_powers_iff_mem_zpowers.2 this
    exact ⟨n, hn⟩
  have hd : orderOf g ∣ n * 48 := by
    refine orderOf_dvd_of_pow_eq_one ?_
    rw [pow_mul, hn]
    ext
    rw [Units.val_pow_eq_pow_val, Units.val_mk0, h48, Units.val_one]
  rw [hg] at hd
  obtain ⟨m, rfl⟩ : 6 ∣ n := by omega
  have hξ : ((g ^ m : Lˣ) : L) ^ 6 = c := by
    rw [← Units.val_pow_eq_pow_val, ← pow_mul, mul_comm, hn, Units.val_mk0]
  set ξ : L := ((g ^ m : Lˣ) : L) with hξd
  have hξ0 : ξ ≠ 0 := Units.ne_zero _
  refine ⟨ξ, hξ, ?_⟩
  have : FiniteDimensional K49 L := Module.Finite.of_finite
  rw [← IntermediateField.adjoin_simple_toSubalgebra_of_isAlgebraic (Algebra.IsAlgebraic.isAlgebraic ξ)]
  have h1 : 0 < Module.finrank K49 (IntermediateField.adjoin K49 {ξ}) := Module.finrank_pos
  have h6 : Module.finrank K49 (IntermediateField.adjoin K49 {ξ}) ≤ 6 := by
    rw [← hfr]; exact Submodule.finrank_le (IntermediateField.adjoin K49 {ξ}).toSubmodule
  have hx : ξ ^ (49 ^ Module.finrank K49 (IntermediateField.adjoin K49 {ξ}) - 1) = 1 := by
    have hcc : Nat.card (IntermediateField.adjoin K49 {ξ}) =
        49 ^ Module.finrank K49 (IntermediateField.adjoin K49 {ξ}) := by
      have := Module.natCard_eq_pow_finrank (K := K49) (V := IntermediateField.adjoin K49 {ξ})
      rw [this, Nat.card_eq_fintype_card, card49]; norm_num
    have hF := Fintype.ofFinite (IntermediateField.adjoin K49 {ξ})
    have := FiniteField.pow_card_sub_one_eq_one (IntermediateField.AdjoinSimple.gen K49 ξ)
      (by rw [Ne, ← map_eq_zero (algebraMap (IntermediateField.adjoin K49 {ξ}) L),
            IntermediateField.AdjoinSimple.algebraMap_gen]; exact hξ0)
    rw [← Nat.card_eq_fintype_card, hcc] at this
    have h := congrArg (algebraMap (IntermediateField.adjoin K49 {ξ}) L) this
    rwa [map_pow, map_one, IntermediateField.AdjoinSimple.algebraMap_gen] at h
  have hx' : ξ ^ 288 = 1 := by rw [show 288 = 6 * 48 from rfl, pow_mul, hξ, h48]
  have key : ∀ k, ξ ^ k = 1 → (Nat.gcd k 288 ∣ 96 ∨ Nat.gcd k 288 ∣ 144) → False := by
    intro k hk hor
    have hgc : ξ ^ Nat.gcd k 288 = 1 := pow_gcd_eq_one.2 ⟨hk, hx'⟩
    rcases hor with ⟨j, hj⟩ | ⟨j, hj⟩
    · exact h16 (by rw [← hξ, ← pow_mul, show 6 * 16 = 96 from rfl, hj, pow_mul, hgc, one_pow])
    · exact h24 (by rw [← hξ, ← pow_mul, show 6 * 24 = 144 from rfl, hj, pow_mul, hgc, one_pow])
  generalize hD : Module.finrank K49 (IntermediateField.adjoin K49 {ξ}) = D at h1 h6 hx
  have hD6 : D = 6 := by
    interval_cases D
    · exact (key _ hx (by decide)).elim
    · exact (key _ hx (by decide)).elim
    · exact (key _ hx (by decide)).elim
    · exact (key _ hx (by decide)).elim
    · exact (key _ hx (by decide)).elim
    · rfl
  rw [hD6] at hD
  have htop : IntermediateField.adjoin K49 {ξ} = ⊤ :=
    IntermediateField.eq_of_le_of_finrank_eq le_top (by rw [hD, IntermediateField.finrank_top', hfr])
  rw [htop, IntermediateField.top_toSubalgebra]

/-! ### Computing in the field of `7^12` elements -/

/-- Coefficients of an element. -/
structure V6 where
  c0 : K49
  c1 : K49
  c2 : K49
  c3 : K49
  c4 : K49
  c5 : K49
deriving DecidableEq

def V6.mul (n : K49) (a b : V6) : V6 where
  c0 := a.c0 * b.c0 + n * (a.c1 * b.c5 + a.c2 * b.c4 + a.c3 * b.c3 + a.c4 * b.c2 + a.c5 * b.c1)
  c1 := a.c0 * b.c1 + a.c1 * b.c0 + n * (a.c2 * b.c5 + a.c3 * b.c4 + a.c4 * b.c3 + a.c5 * b.c2)
  c2 := a.c0 * b.c2 + a.c1 * b.c1 + a.c2 * b.c0 + n * (a.c3 * b.c5 + a.c4 * b.c4 + a.c5 * b.c3)
  c3 := a.c0 * b.c3 + a.c1 * b.c2 + a.c2 * b.c1 + a.c3 * b.c0 + n * (a.c4 * b.c5 + a.c5 * b.c4)
  c4 := a.c0 * b.c4 + a.c1 * b.c3 + a.c2 * b.c2 + a.c3 * b.c1 + a.c4 * b.c0 + n * (a.c5 * b.c5)
  c5 := a.c0 * b.c5 + a.c1 * b.c4 + a.c2 * b.c3 + a.c3 * b.c2 + a.c4 * b.c1 + a.c5 * b.c0

def V6.pow (n : K49) (a : V6) (l : List Bool) : V6 :=
  l.foldl (fun v bit => if bit then (v.mul n v).mul n a else v.mul n v) ⟨1, 0, 0, 0, 0, 0⟩

def V6.step (n Qx Qy : K49) (l : PairingA.Abc (ZMod 7)) (v : V6) : V6 :=
  v.mul n ⟨algebraMap _ _ l.c, 0, 0, algebraMap _ _ l.b * Qy, algebraMap _ _ l.a * Qx, 0⟩

def Q49 : Pt K49 := ⟨false, ⟨3, 4⟩, ⟨3, 2⟩⟩
def P7 : Pt (ZMod 7) := ⟨false, 1, 2⟩
def n49 : K49 := ⟨1, 2⟩

def f49 : Option V6 :=
  PairingD.loop tangent (0 : ZMod 7) 13 P7 (V6.step n49 (Q49.x * n49⁻¹) (Q49.y * n49⁻¹)) (fun v => v.mul n49 v)
    (PairingD.start 13) (PairingA.copy P7) ⟨1, 0, 0, 0, 0, 0⟩

theorem f49_eq : f49 = some ⟨⟨1, 0⟩, ⟨4, 2⟩, ⟨0, 4⟩, ⟨4, 0⟩, ⟨3, 0⟩, ⟨1, 3⟩⟩ := by decide +kernel

theorem e49_eq : (V6.mk ⟨1, 0⟩ ⟨4, 2⟩ ⟨0, 4⟩ ⟨4, 0⟩ ⟨3, 0⟩ ⟨1, 3⟩).pow n49 (Nat.bits ((7 ^ 12 - 1) / 13)).reverse =
    ⟨⟨4, 5⟩, ⟨1, 5⟩, ⟨3, 2⟩, ⟨4, 4⟩, ⟨6, 6⟩, ⟨6, 5⟩⟩ := by decide +kernel

section hom

variable {L : Type*} [Field L] [DecidableEq L] [Fintype L] [Algebra K49 L] {ξ : L}

def V6.toL (ξ : L) (v : V6) : L :=
  algebraMap K49 L v.c0 + algebraMap K49 L v.c1 * ξ + algebraMap K49 L v.c2 * ξ ^ 2 +
    algebraMap K49 L v.c3 * ξ ^ 3 + algebraMap K49 L v.c4 * ξ ^ 4 + algebraMap K49 L v.c5 * ξ ^ 5

theorem V6.toL_mul {n : K49} (h : ξ ^ 6 = algebraMap K49 L n) (a b : V6) :
    (a.mul n b).toL ξ = a.toL ξ * b.toL ξ := by
  simp only [V6.toL, V6.mul, map_add, map_mul]
  generalize algebraMap K49 L a.c0 = a0
  generalize algebraMap K49 L a.c1 = a1
  generalize algebraMap K49 L a.c2 = a2
  generalize algebraMap K49 L a.c3 = a3
  generalize algebraMap K49 L a.c4 = a4
  generalize algebraMap K49 L a.c5 = a5
  generalize algebraMap K49 L b.c0 = b0
  generalize algebraMap K49 L b.c1 = b1
  generalize algebraMap K49 L b.c2 = b2
  generalize algebraMap K49 L b.c3 = b3
  generalize algebraMap K49 L b.c4 = b4
  generalize algebraMap K49 L b.c5 = b5
  linear_combination (-((a1 * b5 + a2 * b4 + a3 * b3 + a4 * b2 + a5 * b1) +
    (a2 * b5 + a3 * b4 + a4 * b3 + a5 * b2) * ξ + (a3 * b5 + a4 * b4 + a5 * b3) * ξ ^ 2 +
    (a4 * b5 + a5 * b4) * ξ ^ 3 + (a5 * b5) * ξ ^ 4)) * h

theorem V6.toL_pow {n : K49} (h : ξ ^ 6 = algebraMap K49 L n) (a : V6) (l : List Bool) :
    (a.pow n l).toL ξ = a.toL ξ ^ (l.foldl (fun m bit => if bit then 2 * m + 1 else 2 * m) 0) := by
  have key : ∀ (l : List Bool) (v : V6) (m : ℕ), v.toL ξ = a.toL ξ ^ m →
      (l.foldl (fun v bit => if bit then (v.mul n v).mul n a else v.mul n v) v).toL ξ =
        a.toL ξ ^ (l.foldl (fun m bit => if bit then 2 * m + 1 else 2 * m) m) := by
    intro l
    induction l with
    | nil => exact fun v m h => h
    | cons bit l ih =>
      intro v m hv
      rw [List.foldl_cons, List.foldl_cons]
      refine ih _ _ ?_
      cases bit
      · rw [if_neg (by decide), if_neg (by decide), V6.toL_mul h, hv, ← pow_add, two_mul]
      · rw [if_pos rfl, if_pos rfl, V6.toL_mul h, V6.toL_mul h, hv, ← pow_add, two_mul, pow_succ]
  exact key l _ 0 (by simp [V6.toL])

theorem loop_map {F V W : Type*} [Field F] [DecidableEq F] (g : V → W) {tan : F → F → PairingA.Abc F} {ca : F}
    {r : ℕ} {P : Pt F} {step : PairingA.Abc F → V → V} {step' : PairingA.Abc F → W → W} {sq : V → V} {sq' : W → W}
    (h1 : ∀ l v, g (step l v) = step' l (g v)) (h2 : ∀ v, g (sq v) = sq' (g v)) :
    ∀ m Z v, PairingD.loop tan ca r P step' sq' m Z (g v) = (PairingD.loop tan ca r P step sq m Z v).map g := by
  intro m
  induction m with
  | zero => intro Z v; simp [PairingD.loop, h1]
  | succ m ih =>
    intro Z v
    unfold PairingD.loop
    dsimp only
    rw [← h1]
    cases PairingD.dbl ca Z with
    | none => rfl
    | some Z1 =>
      dsimp only
      by_cases hb : r.testBit (m + 1)
      · rw [if_pos hb, if_pos hb]
        cases PairingD.add ca Z1 P with
        | none => rfl
        | some Z2 => dsimp only; rw [← h1, ← h2]; exact ih _ _
      · rw [if_neg hb, if_neg hb, ← h2]; exact ih _ _

theorem n49_eq : nalpha (⟨0, 1⟩ : K49) (6 : ZMod 7) 5 = n49 := by decide +kernel

/-- The points of order 13. -/
def pt7 : (EC (0 : ZMod 7) 3).Point := .some 1 2 (by rw [nonsingular_iff, equation_iff]; decide +kernel)

def pt49 : (EC (0 : K49) (nalpha (⟨0, 1⟩ : K49) (6 : ZMod 7) 5 * algebraMap (ZMod 7) K49 3)).Point :=
  .some ⟨3, 4⟩ ⟨3, 2⟩ (by rw [nonsingular_iff, equation_iff]; decide +kernel)

theorem pt7_order : 13 • pt7 = 0 :=
  PairingD.zero_of (by decide) (p := P7) (P := pt7) ⟨rfl, rfl, rfl⟩ 13 (by decide +kernel)

theorem pt49_order : 13 • pt49 = 0 :=
  PairingD.zero_of (by decide) (p := Q49) (P := pt49) ⟨rfl, rfl, rfl⟩ 13 (by decide +kernel)

/-- **C90** and all the theorems that assume `TypeF`: `q = 7`, `r = 13`, with points of order 13 on the
curve and the twist, whose pairing is not 1. -/
theorem exists_typeF : ∃ (L : Type) (_ : Field L) (_ : DecidableEq L) (_ : Fintype L) (_ : Algebra K49 L)
    (E12 : Ext K49 L) (ξ : L) (p : Data (ZMod 7) K49 L) (g : L),
    TypeF E49 E12 ⟨0, 1⟩ ξ 7 13 (6 : ZMod 7) 5 ∧ init E49 E12 7 13 (3 : ZMod 7) 6 5 = some p ∧
    PtRep P7 pt7 ∧ PtRep Q49 pt49 ∧ 13 • pt7 = 0 ∧ 13 • pt49 = 0 ∧
    apply (pairing p) P7 Q49 = some g ∧ g ≠ 1 := by
  classical
  have hfin := Fintype.ofFinite (FiniteField.Extension K49 7 6)
  obtain ⟨ξ, hξ, htop⟩ := exists_root (FiniteField.finrank_extension K49 7 6)
  obtain ⟨E12, hE, hd⟩ := exists_ext_gen ξ htop
  rw [FiniteField.finrank_extension] at hd
  have hT : TypeF E49 E12 ⟨0, 1⟩ ξ 7 13 (6 : ZMod 7) 5 :=
    { ok2 := ok49, d2 := rfl, ok12 := hE, d12 := hd, cardF := ZMod.card 7, cardK := card49
      cardL := by
        rw [← Nat.card_eq_fintype_card, FiniteField.natCard_extension, Nat.card_eq_fintype_card, card49, ← pow_mul]
      six := rfl
      root := by
        rw [hξ, ← map_add, map_eq_zero]; decide +kernel
      prime := by norm_num
      dvd := by decide }
  obtain ⟨p, hp, hc⟩ := init_eq (b := 3) hT
  change ξ ^ 6 = algebraMap K49 _ n49 at hξ
  have hmil : miller p P7 (untwist p Q49).1 (untwist p Q49).2 =
      some (V6.toL ξ ⟨⟨1, 0⟩, ⟨4, 2⟩, ⟨0, 4⟩, ⟨4, 0⟩, ⟨3, 0⟩, ⟨1, 3⟩⟩) := by
    have := loop_map (V6.toL ξ) (tan := tangent) (ca := (0 : ZMod 7)) (r := 13) (P := P7)
      (step := V6.step n49 (Q49.x * n49⁻¹) (Q49.y * n49⁻¹))
      (step' := evalfn E49 E12 n49 (Q49.x * n49⁻¹) (Q49.y * n49⁻¹))
      (sq := fun v => v.mul n49 v) (sq' := fun v => v ^ 2) (fun l v => by
        rw [evalfn_eq ok49 hE hd hξ, V6.step, V6.toL_mul hξ]
        simp [V6.toL]
        left
        ring) (fun v => by rw [V6.toL_mul hξ, sq]) (PairingD.start 13) (PairingA.copy P7) ⟨1, 0, 0, 0, 0, 0⟩
    have h1 : V6.toL ξ ⟨1, 0, 0, 0, 0, 0⟩ = 1 := by simp [V6.toL]
    rw [h1] at this
    unfold miller untwist
    dsimp only
    rw [hc.hE2, hc.hE12, hc.hi, hc.hn, hc.hr, n49_eq, this]
    change f49.map _ = _
    rw [f49_eq]; rfl
  have hval : apply (pairing p) P7 Q49 =
      some (V6.toL ξ ⟨⟨4, 5⟩, ⟨1, 5⟩, ⟨3, 2⟩, ⟨4, 4⟩, ⟨6, 6⟩, ⟨6, 5⟩⟩) := by
    obtain ⟨f, hf, hf0, -⟩ := miller_eq (P := pt7) (Q := pt49) (p' := P7) (q' := Q49) hT hc pt7_order
      (Point.some_ne_zero _) ⟨rfl, rfl, rfl⟩ ⟨rfl, rfl, rfl⟩ (Point.some_ne_zero _)
    rw [hmil, Option.some.injEq] at hf
    rw [apply, if_neg (by decide), if_neg (by decide), pairing, hmil, Option.bind_some,
      C50_typeF hT hp _ (by rw [hf]; exact hf0), ← e49_eq, V6.toL_pow hξ]
    congr 2
  refine ⟨_, _, _, hfin, _, E12, ξ, p, _, hT, hp, ⟨rfl, rfl, rfl⟩, ⟨rfl, rfl, rfl⟩, pt7_order, pt49_order, hval, ?_⟩
  intro h1
  have hcard : Fintype.card (FiniteField.Extension K49 7 6) = Fintype.card K49 ^ E12.d := by
    rw [hT.cardL, card49, hd, ← pow_mul]
  have i1 := item_of_make hE hcard (i := 1) (g := fun i => [(⟨4, 5⟩ : K49), ⟨1, 5⟩, ⟨3, 2⟩, ⟨4, 4⟩, ⟨6, 6⟩, ⟨6, 5⟩].getD i 0)
    (x := V6.toL ξ ⟨⟨4, 5⟩, ⟨1, 5⟩, ⟨3, 2⟩, ⟨4, 4⟩, ⟨6, 6⟩, ⟨6, 5⟩⟩) (by rw [make_six hE hd]; rfl) (by rw [hd]; decide)
  have i2 := item_of_make hE hcard (i := 1) (g := fun i => if i = 0 then 1 else 0)
    (x := 1) (by rw [make_six hE hd]; simp) (by rw [hd]; decide)
  rw [h1, i2] at i1
  exact absurd i1 (by decide)

end hom

end Pbc.PairingF
