import Verif.Lemmas.TatePair
import Verif.Lemmas.Quadratic
import Verif.Lemmas.PowRel
import Verif.Model.PairingA
import Mathlib.FieldTheory.Finite.Basic
import Mathlib.NumberTheory.LegendreSymbol.QuadraticChar.Basic

/-! # Arithmetic of a quadratic extension of a finite field -/

set_option autoImplicit false
set_option linter.unusedSectionVars false

namespace Pbc.Quad

open QuadraticAlgebra

variable {K : Type*} [Field K] [DecidableEq K] {v : K}

theorem alg_inj {a b : El K} (h : alg v a = alg v b) : a = b := by
  cases a; cases b
  simpa [alg, QuadraticAlgebra.ext_iff] using h

theorem alg_eta (z : QuadraticAlgebra K v 0) : alg v ⟨z.re, z.im⟩ = z := rfl

variable [Fact (∀ r : K, r ^ 2 ≠ v + 0 * r)]

theorem not_sq : ¬ IsSquare v := by
  rintro ⟨r, hr⟩
  exact (Fact.out : ∀ r : K, r ^ 2 ≠ v + 0 * r) r (by rw [hr]; ring)

theorem algebraMap_eq (c : K) : algebraMap K (QuadraticAlgebra K v 0) c = alg v ⟨c, 0⟩ := rfl

theorem v_ne : v ≠ 0 := fun h => not_sq (v := v) (h ▸ ⟨0, by simp⟩)

theorem conj_mul (x y : K) : alg v ⟨x, y⟩ * alg v ⟨x, -y⟩ = algebraMap K _ (nrm v ⟨x, y⟩) := by
  rw [algebraMap_eq, ← alg_mul]
  ext <;> simp [alg, nrm] <;> ring

section finite

variable [Fintype K] (v)

include v

theorem ringChar_ne : ringChar K ≠ 2 :=
  fun h => not_sq (v := v) (FiniteField.isSquare_of_char_two h v)

theorem two_ne' : (2 : K) ≠ 0 := Ring.two_ne_zero (ringChar_ne v)

theorem card_odd : Fintype.card K % 2 = 1 :=
  FiniteField.odd_card_of_char_ne_two (ringChar_ne v)

variable {v}

theorem v_pow : v ^ (Fintype.card K / 2) = -1 := by
  rcases FiniteField.pow_dichotomy (ringChar_ne v) (v_ne (v := v)) with h | h
  · exact absurd ((FiniteField.isSquare_iff (ringChar_ne v) v_ne).2 h) not_sq
  · exact h

/-- The `q`-th power is conjugation. -/
theorem frob (x y : K) : alg v ⟨x, y⟩ ^ Fintype.card K = alg v ⟨x, -y⟩ := by
  have hw : (alg v ⟨0, 1⟩ : QuadraticAlgebra K v 0) ^ Fintype.card K = alg v ⟨0, -1⟩ := by
    have h2 : (alg v ⟨0, 1⟩ : QuadraticAlgebra K v 0) ^ 2 = algebraMap K _ v := by
      rw [algebraMap_eq, pow_two, ← alg_mul]; simp
    conv_lhs => rw [← Nat.div_add_mod (Fintype.card K) 2, card_odd v]
    rw [pow_succ, pow_mul, h2, ← map_pow, v_pow, algebraMap_eq, ← alg_mul]; simp
  obtain ⟨p, hp⟩ := CharP.exists K
  have : Fact p.Prime := ⟨CharP.char_is_prime K p⟩
  obtain ⟨n, _, hn⟩ := FiniteField.card K p
  have : CharP (QuadraticAlgebra K v 0) p := charP_of_injective_algebraMap
    (algebraMap K (QuadraticAlgebra K v 0)).injective p
  have hd : (alg v ⟨x, y⟩ : QuadraticAlgebra K v 0) =
      algebraMap K _ x + algebraMap K _ y * alg v ⟨0, 1⟩ := by
    rw [algebraMap_eq, algebraMap_eq, ← alg_mul]
    ext <;> simp [alg]
  rw [hd, hn, add_pow_char_pow, mul_pow, ← map_pow, ← map_pow, ← hn, FiniteField.pow_card,
    FiniteField.pow_card, hw, algebraMap_eq, algebraMap_eq, ← alg_mul]
  ext <;> simp [alg]

theorem pow_card_add (z : QuadraticAlgebra K v 0) :
    z ^ (Fintype.card K + 1) = algebraMap K _ (nrm v ⟨z.re, z.im⟩) := by
  rw [pow_succ, ← alg_eta z, frob, mul_comm, conj_mul]
  rfl

/-- Fermat in the extension. -/
theorem pow_card_sq (z : QuadraticAlgebra K v 0) (hz : z ≠ 0) :
    z ^ ((Fintype.card K + 1) * (Fintype.card K - 1)) = 1 := by
  rw [pow_mul, pow_card_add, ← map_pow, FiniteField.pow_card_sub_one_eq_one, map_one]
  exact nrm_ne _ hz

/-- The exponent `(q - 1) h` with `q + 1 = h r` removes constants and `r`-th powers. -/
theorem kills {h r : ℕ} (hq : Fintype.card K + 1 = h * r) :
    Tate.Kills K (QuadraticAlgebra K v 0) r ((Fintype.card K - 1) * h) where
  const c hc := by
    rw [← map_pow, pow_mul, FiniteField.pow_card_sub_one_eq_one c hc, one_pow, map_one]
  rpow z hz := by
    rw [← pow_mul, show r * ((Fintype.card K - 1) * h) = (Fintype.card K + 1) * (Fintype.card K - 1) by
      rw [hq]; ring]
    exact pow_card_sq z hz

end finite

end Pbc.Quad

namespace Pbc.PairingA

open Pbc.Quad

variable {K : Type*} [Field K] [DecidableEq K]

theorem alg_mul2 (f g : El K) : alg (-1) (mul2 f g) = alg (-1) f * alg (-1) g := by
  unfold mul2
  rw [fiMul_eq, mul_eq]
  simp only [Function.update_self]
  exact alg_mul _ _ _

theorem alg_square2 (f : El K) : alg (-1) (square2 f) = alg (-1) f ^ 2 := by
  unfold square2
  rw [fiSquare_eq, square_eq, mul_eq, pow_two]
  simp only [Function.update_self]
  exact alg_mul _ _ _

theorem alg_one2 : alg (-1 : K) one2 = 1 := rfl

variable [Fact (∀ r : K, r ^ 2 ≠ -1 + 0 * r)]

theorem alg_invert2 {f : El K} (h : alg (-1) f ≠ 0) :
    ∃ g, invert2 f = some g ∧ alg (-1) g = (alg (-1) f)⁻¹ := by
  unfold invert2
  rw [fiInvert_eq, invert_eq, if_neg (nrm_ne f h)]
  refine ⟨_, rfl, ?_⟩
  simp only [Function.update_self]
  exact alg_inv f

/-- What the generic power routine computes. -/
theorem pow2_rel : Gen.PowRel (fun (f : F2 K) (z : QuadraticAlgebra K (-1) 0) => alg (-1) f.val = z) where
  one := alg_one2
  mul h1 h2 := by subst h1 h2; exact alg_mul2 _ _
  sqr h := by subst h; rw [← pow_two]; exact alg_square2 _

theorem alg_pow2 (f : El K) (n : ℕ) : ∃ g, pow2 f n = some g ∧ alg (-1) g = alg (-1) f ^ n := by
  obtain ⟨r, e, h⟩ := Gen.powMpz_rel pow2_rel (a := (⟨f⟩ : F2 K)) rfl n
  exact ⟨r.val, by rw [pow2, e]; rfl, h⟩

end Pbc.PairingA
