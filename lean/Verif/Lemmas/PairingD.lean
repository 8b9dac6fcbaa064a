import Verif.Lemmas.Miller
import Verif.Lemmas.TateAll
import Verif.Lemmas.Lucas
import Verif.Spec.PairingD

/-! # The routines of types D and G -/

set_option autoImplicit false
set_option linter.unusedSectionVars false

namespace Pbc.PairingD

open Pbc.Quad
open Pbc.Curve (Pt)
open Pbc.PairingA (Abc copy lucasLoop trc lucasLoop_top trc_u trc_d)
open WeierstrassCurve WeierstrassCurve.Affine
open Spec (EC PtRep)
open Tate

/-! ### `F_q^k` -/

section fqk

variable {K : Type*} [Field K] [DecidableEq K] {v : K}

theorem alg_mul2 (f g : El K) : alg v (mul2 v f g) = alg v f * alg v g := by
  unfold mul2
  rw [mul_eq]
  simp only [Function.update_self]
  exact alg_mul _ _ _

theorem alg_square2 (f : El K) : alg v (square2 v f) = alg v f ^ 2 := by
  unfold square2
  rw [square_eq, mul_eq, pow_two]
  simp only [Function.update_self]
  exact alg_mul _ _ _

theorem alg_one2 : alg v one2 = 1 := rfl

variable [Fact (∀ r : K, r ^ 2 ≠ v + 0 * r)]

theorem alg_invert2 {f : El K} (h : alg v f ≠ 0) :
    ∃ g, invert2 v f = some g ∧ alg v g = (alg v f)⁻¹ := by
  unfold invert2
  rw [invert_eq, if_neg (nrm_ne f h)]
  refine ⟨_, rfl, ?_⟩
  simp only [Function.update_self]
  exact alg_inv f

theorem pow2_rel : Gen.PowRel (fun (f : Fk v) (z : QuadraticAlgebra K v 0) => alg v f.val = z) where
  one := alg_one2
  mul h1 h2 := by subst h1 h2; exact alg_mul2 _ _
  sqr h := by subst h; rw [← pow_two]; exact alg_square2 _

theorem alg_pow2 (f : El K) (n : ℕ) : ∃ g, pow2 v f n = some g ∧ alg v g = alg v f ^ n := by
  obtain ⟨r, e, h⟩ := Gen.powMpz_rel pow2_rel (a := (⟨f⟩ : Fk v)) rfl n
  exact ⟨r.val, by rw [pow2, e]; rfl, h⟩

/-- The Lucas routine computes odd powers of elements of norm 1 other than `±1`. -/
theorem lucasBody_eq (h2 : (2 : K) ≠ 0) (i : El K) (hz : nrm v i = 1) {c : ℕ} (hc : Odd c)
    (hy : i.y ≠ 0) : ∃ g, lucasBody i c = some g ∧ alg v g = alg v i ^ c := by
  have hz' : nrm v ⟨(alg v i).re, (alg v i).im⟩ = 1 := hz
  have t1 : 2 * i.x = trc (alg v i) 1 := by simp [trc, alg]
  obtain ⟨m, rfl⟩ := hc
  have hcm : 2 * ((2 * m + 1) / 2) = 2 * m := by omega
  have hloop := lucasLoop_top hz' (2 * m + 1)
  rw [hcm] at hloop
  have him : (alg v i).im = i.y := rfl
  have h4 : (4 : K) ≠ 0 := by rw [show (4 : K) = 2 * 2 by norm_num]; exact mul_ne_zero h2 h2
  have hd : 4 * v * (alg v i).im * (alg v i).im ≠ 0 := by
    rw [him]
    exact mul_ne_zero (mul_ne_zero (mul_ne_zero h4 v_ne) hy) hy
  have hu : trc (alg v i) 1 * trc (alg v i) (2 * m + 1) - 2 * trc (alg v i) (2 * m) =
      4 * v * (alg v i).im * (alg v i ^ (2 * m + 1)).im := by
    have e1 := trc_u hz' (2 * m + 1)
    have e2 := PairingA.trc_add hz' 1 (2 * m)
    rw [show 2 * 1 + 2 * m = 2 * m + 1 + 1 by ring, show 1 + 2 * m = 2 * m + 1 by ring] at e2
    linear_combination e1 - 2 * e2
  unfold lucasBody
  dsimp only
  rw [show ((2 : ℤ) : K) = 2 by norm_num, t1, hloop]
  dsimp only
  rw [hu, trc_d hz', inv?, if_neg hd]
  refine ⟨_, rfl, ?_⟩
  have hv := v_ne (v := v)
  rw [him] at hd ⊢
  ext
  · simp only [alg, trc]
    field_simp
  · simp only [alg]
    field_simp

/-- It fails on `±1`. -/
theorem lucasBody_none (i : El K) (hz : nrm v i = 1) (c : ℕ) (hy : i.y = 0) : lucasBody i c = none := by
  have hz' : nrm v ⟨(alg v i).re, (alg v i).im⟩ = 1 := hz
  have t1 : 2 * i.x = trc (alg v i) 1 := by simp [trc, alg]
  have him : (alg v i).im = i.y := rfl
  unfold lucasBody
  dsimp only
  rw [show ((2 : ℤ) : K) = 2 by norm_num, t1, trc_d hz', him, hy]
  simp [inv?]

end fqk

/-! ### Coefficients -/

section ext

variable {F K : Type*} [Field F] [DecidableEq F] [Field K] [DecidableEq K] [Algebra F K] {E : Ext F K} {ξ : K}

local notation "φ" => algebraMap F K

theorem Ext.Ok.make_mul (h : E.Ok ξ) (x : K) (c : F) : E.make (fun i => E.item x i * c) = φ c * x := by
  conv_rhs => rw [← h.item x, h.make, Finset.mul_sum]
  rw [h.make]
  refine Finset.sum_congr rfl fun i _ => ?_
  rw [map_mul]; ring

theorem Ext.Ok.make_update (h : E.Ok ξ) (g : ℕ → F) (c : F) :
    E.make (Function.update g 0 c) = E.make g - φ (g 0) + φ c := by
  obtain ⟨n, hn⟩ := Nat.exists_eq_succ_of_ne_zero h.pos.ne'
  rw [h.make, h.make, hn, Finset.sum_range_succ', Finset.sum_range_succ']
  simp

theorem evalfn_eq (h : E.Ok ξ) (l : Abc F) (Qx Qy : K) :
    evalfn E l Qx Qy = ⟨φ l.a * Qx + φ l.c, φ l.b * Qy⟩ := by
  unfold evalfn
  dsimp only
  rw [h.make_update, h.make_mul, h.make_mul, map_add]
  congr 1
  ring

theorem constMul_eq (h : E.Ok ξ) (a : F) (e : K) : constMul E a e = φ a * e := by
  unfold constMul
  rw [← h.make_mul]
  simp only [mul_comm]

theorem addItem0_eq (h : E.Ok ξ) (e : K) (c : F) : addItem0 E e c = e + φ c := by
  unfold addItem0
  rw [h.make_update, h.item, map_add]; ring

theorem subItem0_eq (h : E.Ok ξ) (e : K) (c : F) : subItem0 E e c = e - φ c := by
  unfold subItem0
  rw [h.make_update, h.item, map_sub]; ring

theorem gen_eq (h : E.Ok ξ) (h1 : 2 ≤ E.d) : gen E = ξ := by
  unfold gen
  rw [h.make, Finset.sum_eq_single 1]
  · simp
  · intro i _ hi; simp [hi]
  · intro hi; exact absurd (Finset.mem_range.2 (by omega)) hi

section frob

variable [Fintype F]

theorem pow_card_sum (h : E.Ok ξ) (x : K) :
    x ^ Fintype.card F = ∑ i ∈ Finset.range E.d, φ (E.item x i) * (ξ ^ Fintype.card F) ^ i := by
  conv_lhs => rw [← h.item x, h.make]
  rw [← FiniteField.frobeniusAlgHom_apply F K, map_sum]
  refine Finset.sum_congr rfl fun i _ => ?_
  rw [map_mul, map_pow, AlgHom.commutes, FiniteField.frobeniusAlgHom_apply]

theorem qpowerD_eq {p : Data F K} (h : p.E.Ok ξ) (hd : p.E.d = 3) (h1 : p.xpowq = ξ ^ Fintype.card F)
    (h2 : p.xpowq2 = (ξ ^ Fintype.card F) ^ 2) (i : El K) :
    qpowerD p true i = ⟨i.x ^ Fintype.card F, i.y ^ Fintype.card F⟩ ∧
    qpowerD p false i = ⟨i.x ^ Fintype.card F, -i.y ^ Fintype.card F⟩ := by
  rw [pow_card_sum h i.x, pow_card_sum h i.y, hd]
  unfold qpowerD
  dsimp only
  simp only [constMul_eq h, addItem0_eq h, subItem0_eq h, h1, h2, Finset.sum_range_succ,
    Finset.sum_range_zero, if_true, Bool.false_eq_true, if_false, El.mk.injEq]
  exact ⟨⟨by ring, by ring⟩, by ring, by ring⟩

theorem qpowerG_eq {p : Data F K} (h : p.E.Ok ξ) (hd : p.E.d = 5) (h1 : p.xpowq = ξ ^ Fintype.card F)
    (h2 : p.xpowq2 = (ξ ^ Fintype.card F) ^ 2) (h3 : p.xpowq3 = (ξ ^ Fintype.card F) ^ 3)
    (h4 : p.xpowq4 = (ξ ^ Fintype.card F) ^ 4) (i : El K) :
    qpowerG p true i = ⟨i.x ^ Fintype.card F, i.y ^ Fintype.card F⟩ ∧
    qpowerG p false i = ⟨i.x ^ Fintype.card F, -i.y ^ Fintype.card F⟩ := by
  rw [pow_card_sum h i.x, pow_card_sum h i.y, hd]
  unfold qpowerG
  dsimp only
  simp only [constMul_eq h, addItem0_eq h, subItem0_eq h, h1, h2, h3, h4, Finset.sum_range_succ,
    Finset.sum_range_zero, if_true, Bool.false_eq_true, if_false, El.mk.injEq]
  exact ⟨⟨by ring, by ring⟩, by ring, by ring⟩

variable [Fintype K] {v : K} [Fact (∀ r : K, r ^ 2 ≠ v + 0 * r)]

theorem ringChar_ne_F (hK : (2 : K) ≠ 0) : ringChar F ≠ 2 := by
  intro h
  have : ((2 : ℕ) : F) = 0 := by rw [← h]; exact ringChar.Nat.cast_ringChar
  exact hK (by simpa [map_ofNat] using congrArg φ this)

/-- The `q`-th power in `F_q^k`. -/
theorem frobq {v0 : F} (hv : φ v0 = v) (x y : K) :
    alg v ⟨x, y⟩ ^ Fintype.card F = alg v ⟨x ^ Fintype.card F, -y ^ Fintype.card F⟩ := by
  have hF := ringChar_ne_F (F := F) (two_ne' v)
  have hv0 : v0 ≠ 0 := fun h => v_ne (v := v) (by rw [← hv, h, map_zero])
  have hvp : v ^ (Fintype.card F / 2) = -1 := by
    rw [← hv, ← map_pow]
    rcases FiniteField.pow_dichotomy hF hv0 with h | h
    · obtain ⟨s, hs⟩ := (FiniteField.isSquare_iff hF hv0).2 h
      exact absurd ⟨φ s, by rw [← hv, hs, map_mul]⟩ (not_sq (v := v))
    · rw [h]; simp
  have hw : (alg v ⟨0, 1⟩ : QuadraticAlgebra K v 0) ^ Fintype.card F = alg v ⟨0, -1⟩ := by
    have h2 : (alg v ⟨0, 1⟩ : QuadraticAlgebra K v 0) ^ 2 = algebraMap K _ v := by
      rw [algebraMap_eq, pow_two, ← alg_mul]; simp
    conv_lhs => rw [← Nat.div_add_mod (Fintype.card F) 2, FiniteField.odd_card_of_char_ne_two hF]
    rw [pow_succ, pow_mul, h2, ← map_pow, hvp, algebraMap_eq, ← alg_mul]; simp
  obtain ⟨p, hp⟩ := CharP.exists F
  have : Fact p.Prime := ⟨CharP.char_is_prime F p⟩
  obtain ⟨n, _, hn⟩ := FiniteField.card F p
  have : CharP K p := charP_of_injective_algebraMap (algebraMap F K).injective p
  have : CharP (QuadraticAlgebra K v 0) p := charP_of_injective_algebraMap
    (algebraMap K (QuadraticAlgebra K v 0)).injective p
  have hd : (alg v ⟨x, y⟩ : QuadraticAlgebra K v 0) =
      algebraMap K _ x + algebraMap K _ y * alg v ⟨0, 1⟩ := by
    rw [algebraMap_eq, algebraMap_eq, ← alg_mul]
    ext <;> simp [alg]
  rw [hd, hn, add_pow_char_pow, mul_pow, ← map_pow, ← map_pow, ← hn, hw, algebraMap_eq, algebraMap_eq,
    ← alg_mul]
  ext <;> simp [alg]

theorem tateFirst_eq {p : Data F K} (hpv : p.nqr = v) {v0 : F} (hv : φ v0 = v)
    {qpower : Bool → El K → El K}
    (hq : ∀ i, qpower true i = ⟨i.x ^ Fintype.card F, i.y ^ Fintype.card F⟩ ∧
      qpower false i = ⟨i.x ^ Fintype.card F, -i.y ^ Fintype.card F⟩) {f : El K} (hf : alg v f ≠ 0) :
    ∃ g, tateFirst p qpower f = some g ∧
      alg v g = alg v f ^ ((Fintype.card K - 1) * (Fintype.card F + 1)) := by
  have hF := FiniteField.odd_card_of_char_ne_two (ringChar_ne_F (F := F) (two_ne' v))
  have hodd : Odd (Fintype.card F) := Nat.odd_iff.2 hF
  have hconj : alg v (⟨f.x, -f.y⟩ : El K) = alg v f ^ Fintype.card K := (frob f.x f.y).symm
  have h1 : alg v (qpower true f) = alg v f ^ (Fintype.card K * Fintype.card F) := by
    rw [(hq f).1, pow_mul, ← hconj, frobq hv, hodd.neg_pow, neg_neg]
  have h0 : alg v (qpower false f) = alg v f ^ Fintype.card F := by
    rw [(hq f).2, ← frobq hv]
  obtain ⟨g, eg, hg⟩ := alg_invert2 (v := v) (f := mul2 v (qpower false f) f) (by
    rw [alg_mul2, h0, ← pow_succ]; exact pow_ne_zero _ hf)
  refine ⟨_, by unfold tateFirst; dsimp only; rw [hpv, eg], ?_⟩
  rw [alg_mul2, hg, alg_mul2, alg_mul2, h0, h1, hconj, ← pow_add, ← pow_succ]
  have e : Fintype.card K * Fintype.card F + Fintype.card K =
      (Fintype.card K - 1) * (Fintype.card F + 1) + (Fintype.card F + 1) := by
    obtain ⟨n, hn⟩ := Nat.exists_eq_succ_of_ne_zero (Fintype.card_pos (α := K)).ne'
    rw [hn]; simp only [Nat.succ_eq_add_one, Nat.add_sub_cancel]; ring
  rw [e, pow_add, mul_assoc, mul_inv_cancel₀ (pow_ne_zero _ hf), mul_one]

/-- After the first step the value has norm 1 and its order divides `(q^d + 1) / (q + 1)`. -/
theorem first_nrm {f g : El K} (hf : alg v f ≠ 0) {m : ℕ}
    (hg : alg v g = alg v f ^ ((Fintype.card K - 1) * m)) : nrm v g = 1 := by
  have h := pow_card_add (alg v g)
  have h' := pow_card_sq _ hf
  rw [hg, ← pow_mul, show (Fintype.card K - 1) * m * (Fintype.card K + 1) =
    (Fintype.card K + 1) * (Fintype.card K - 1) * m by ring, pow_mul, h', one_pow, ← hg] at h
  have h1 : algebraMap K (QuadraticAlgebra K v 0) 1 = algebraMap K _ (nrm v g) := by rw [map_one]; exact h
  exact ((algebraMap K (QuadraticAlgebra K v 0)).injective h1).symm

/-- An element of norm 1 and odd order with zero second coordinate is 1. -/
theorem eq_one_of {g : El K} (hn : nrm v g = 1) (hy : g.y = 0) {m : ℕ} (hm : Odd m)
    (ho : alg v g ^ m = 1) : g = one2 := by
  have hx : g.x ^ 2 = 1 := by simpa [nrm, hy] using hn
  have hg : alg v g = algebraMap K _ g.x := by
    rw [algebraMap_eq]; ext <;> simp [alg, hy]
  rcases (by simpa using hx : g.x = 1 ∨ g.x = -1) with h | h
  · rcases g with ⟨x, y⟩
    simp only at hy h
    rw [hy, h]; rfl
  · rw [hg, h, map_neg, map_one, hm.neg_one_pow] at ho
    have h2 : (2 : QuadraticAlgebra K v 0) ≠ 0 := by
      intro e
      exact two_ne' v ((algebraMap K (QuadraticAlgebra K v 0)).injective (by simpa [map_ofNat] using e))
    exact absurd (by linear_combination -ho) h2

end frob

end ext

end Pbc.PairingD
