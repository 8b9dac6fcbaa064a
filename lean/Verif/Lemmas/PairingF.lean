import Verif.Lemmas.PairingD
import Verif.Model.PairingF
import Mathlib.FieldTheory.Finite.Basic
import Mathlib.FieldTheory.IntermediateField.Basic

/-! # The routines of type F -/

set_option autoImplicit false
set_option linter.unusedSectionVars false

namespace Pbc.PairingF

open Pbc.Quad (inv?)
open Pbc.Curve (Pt)
open Pbc.PairingA (Abc copy)
open Pbc.PairingD (Ext Ext.Ok)

section ext

variable {F K : Type*} [Field F] [Field K] [Algebra F K] {E : Ext F K} {ξ : K}

/-- Coefficients are unique if there are as many elements as coefficient lists. -/
theorem item_of_make [Fintype F] [Fintype K] (h : E.Ok ξ) (hc : Fintype.card K = Fintype.card F ^ E.d)
    {g : ℕ → F} {x : K} (hx : E.make g = x) {i : ℕ} (hi : i < E.d) : E.item x i = g i := by
  classical
  let f : (Fin E.d → F) → K := fun a => ∑ i : Fin E.d, algebraMap F K (a i) * ξ ^ (i : ℕ)
  have hf : ∀ g : ℕ → F, f (fun i => g i) = E.make g := fun g => by
    rw [h.make, Finset.sum_range]
  have hs : Function.Surjective f := fun x => ⟨fun i => E.item x i, by rw [hf, h.item]⟩
  have hb : Function.Bijective f :=
    (Fintype.bijective_iff_surjective_and_card f).2 ⟨hs, by simp [hc]⟩
  have e : f (fun i => E.item x i) = f (fun i => g i) := by rw [hf, hf, h.item, hx]
  exact congrFun (hb.1 e) ⟨i, hi⟩

end ext

variable {F K L : Type*} [Field F] [DecidableEq F] [Field K] [DecidableEq K] [Field L] [DecidableEq L]
  [Algebra F K] [Algebra K L] {E2 : Ext F K} {E12 : Ext K L} {η : K} {ξ : L}

local notation "ψ" => algebraMap K L

theorem make_six (h : E12.Ok ξ) (hd : E12.d = 6) (g : ℕ → K) :
    E12.make g = ψ (g 0) + ψ (g 1) * ξ + ψ (g 2) * ξ ^ 2 + ψ (g 3) * ξ ^ 3 + ψ (g 4) * ξ ^ 4 +
      ψ (g 5) * ξ ^ 5 := by
  rw [h.make, hd]
  simp [Finset.sum_range_succ]

theorem scale_eq (h : E2.Ok η) (e : K) (a : F) : scale E2 e a = algebraMap F K a * e := h.make_mul e a

/-- Multiplying the accumulator by the value of a line. -/
theorem evalfn_eq (h2 : E2.Ok η) (h : E12.Ok ξ) (hd : E12.d = 6) {n : K} (hξ : ξ ^ 6 = ψ n) (Qx Qy : K)
    (l : Abc F) (v : L) :
    evalfn E2 E12 n Qx Qy l v = v * (ψ (algebraMap F K l.a * Qx) * ξ ^ 4 +
      ψ (algebraMap F K l.b * Qy) * ξ ^ 3 + ψ (algebraMap F K l.c)) := by
  have hv := h.item v
  rw [make_six h hd] at hv
  conv_rhs => rw [← hv]
  unfold evalfn doTerm
  dsimp only
  rw [make_six h hd]
  simp only [scale_eq h2, if_pos, if_false, one_ne_zero, OfNat.ofNat_ne_zero, OfNat.ofNat_ne_one,
    reduceCtorEq, OfNat.zero_ne_ofNat, OfNat.one_ne_ofNat, zero_ne_one, map_add, map_mul]
  norm_num
  rw [← hξ]
  ring

theorem qpower_eq (h : E12.Ok ξ) (hd : E12.d = 6) {e : K} (τ : L →ₐ[K] L) (hτ : τ ξ = ψ e * ξ) (out : L) :
    qpower E12 out e = τ out := by
  have hv := h.item out
  rw [make_six h hd] at hv
  conv_rhs => rw [← hv]
  unfold qpower
  dsimp only
  rw [make_six h hd]
  simp only [map_add, map_mul, map_pow, AlgHom.commutes, hτ]
  norm_num
  ring

/-! ### The Frobenius map of `F_q^12` over `F_q^2` -/

section frob

variable [Fintype K]

/-- `x ↦ x^((q²)^j)`. -/
noncomputable def fr (K L : Type*) [Field K] [Fintype K] [Field L] [Algebra K L] (j : ℕ) : L →ₐ[K] L :=
  (FiniteField.frobeniusAlgHom K L) ^ j

theorem fr_apply (j : ℕ) (x : L) : fr K L j x = x ^ (Fintype.card K ^ j) := by
  induction j with
  | zero => simp [fr]
  | succ j ih =>
    have : fr K L (j + 1) x = FiniteField.frobeniusAlgHom K L (fr K L j x) := by
      rw [fr, pow_succ']; rfl
    rw [this, ih, FiniteField.coe_frobeniusAlgHom]
    dsimp only
    rw [← pow_mul, pow_succ]

/-- The elements of `F_q^6`. -/
noncomputable def Mid (K L : Type*) [Field K] [Fintype K] [Field L] [Algebra K L] : IntermediateField K L where
  __ := AlgHom.equalizer (fr K L 3) (AlgHom.id K L)
  inv_mem' x hx := by
    have h : fr K L 3 x = x := hx
    change fr K L 3 x⁻¹ = x⁻¹
    rw [map_inv₀, h]

theorem mem_mid {x : L} : x ∈ Mid K L ↔ x ^ (Fintype.card K ^ 3) = x := by
  rw [← fr_apply]; exact Iff.rfl

end frob

end Pbc.PairingF
