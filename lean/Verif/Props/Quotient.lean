import Verif.Model.PairingD
import Verif.Model.PairingF
import Verif.Props.Curve
import Mathlib.Algebra.Polynomial.Identities
import Mathlib.Data.ZMod.Basic
import Mathlib.Algebra.QuadraticAlgebra.Basic
import Mathlib.Tactic.LinearCombination

/-! # The exponent used to compare points of the twist -/

set_option autoImplicit false

namespace Props

open Pbc Pbc.Curve

theorem quotientD_dvd {q n r : ℤ} {d : ℕ} (hd : 1 ≤ d) (hn : r ∣ n) (hq : r ∣ q ^ d + 1) :
    r ∣ orderExtn q (-(q - n + 1)) d := by
  have key : ((orderExtn q (-(q - n + 1)) d : ℤ) : ZMod r.natAbs) = 0 := by
    have hz : ∀ z : ℤ, r ∣ z → ((z : ℤ) : ZMod r.natAbs) = 0 := fun z hz => by
      rw [ZMod.intCast_zmod_eq_zero_iff_dvd]; simpa using hz
    have hn' := hz _ hn
    have hq' := hz _ hq
    push_cast at hq'
    rw [(C40_trace q (-(q - n + 1)) (-1 : ZMod r.natAbs) (-q) (by push_cast; linear_combination -hn')
      (by ring) d hd).2]
    rcases Nat.even_or_odd d with h | h
    · rw [h.neg_one_pow]; ring
    · rw [h.neg_one_pow, h.neg_pow]; linear_combination 2 * hq'
  have := (ZMod.intCast_zmod_eq_zero_iff_dvd _ _).1 key
  simpa using this

/-- **C92** for types D (`d = k / 2`) and G (`d = 5`): for odd `d` the exponent set for comparing points of the twist
is exactly the order of the twist over the field of `q^d` elements, `(1 + α^d)(1 + β^d)` with `α`, `β` the roots of
`X² - (q + 1 - n) X + q`, divided by `r`. -/
theorem C92_typeD {R : Type*} [CommRing R] {q n r : ℤ} {d : ℕ} {α β : R} (hd : Odd d) (hn : r ∣ n)
    (hq : r ∣ q ^ d + 1) (hs : α + β = q + 1 - n) (hp : α * β = q) :
    (PairingD.quotient q n r d).2 = true ∧
    (((PairingD.quotient q n r d).1 * r : ℤ) : R) = (1 + α ^ d) * (1 + β ^ d) := by
  have h1 : 1 ≤ d := hd.pos
  have hdv := quotientD_dvd h1 hn hq
  unfold PairingD.quotient
  dsimp only
  refine ⟨by rw [decide_eq_true_iff]; exact Int.emod_eq_zero_of_dvd hdv, ?_⟩
  rw [Int.ediv_mul_cancel hdv, (C40_trace q (-(q - n + 1)) (-α) (-β) (by push_cast; linear_combination -hs)
    (by linear_combination hp) d h1).2, hd.neg_pow, hd.neg_pow]
  ring

/-- **C92** for type F: both divisions are exact; the exponent times `r²` is the order `(1 - α^12)(1 - β^12)` of the
curve over the field of `q^12` elements. -/
theorem C92_typeF {R : Type*} [CommRing R] {q r : ℤ} {α β : R} (hr : r ≠ 0) (hq : r ∣ q ^ 4 - q ^ 2 + 1)
    (hs : α + β = q + 1 - r) (hp : α * β = q) :
    (PairingF.quotient q r).2 = true ∧
    (((PairingF.quotient q r).1 * r ^ 2 : ℤ) : R) = (1 - α ^ 12) * (1 - β ^ 12) := by
  have hdv : r * r ∣ orderExtn q (q - r + 1) 12 := by
    obtain ⟨c, hc⟩ := hq
    -- an inverse of `q - 1`
    set s : ℤ := -(q ^ 3 + q ^ 2) with hsd
    have hs1 : s * (q - 1) = 1 - r * c := by rw [← hc, hsd]; ring
    have hz : ∀ z : ℤ, r * r ∣ z → ((z : ℤ) : ZMod (r * r).natAbs) = 0 := fun z hz => by
      rw [ZMod.intCast_zmod_eq_zero_iff_dvd]; simpa using hz
    have e0 := hz _ (dvd_refl _)
    push_cast at e0
    have e1 := congrArg (fun z : ℤ => (z : ZMod (r * r).natAbs)) hs1
    push_cast at e1
    have hcZ := congrArg (fun z : ℤ => (z : ZMod (r * r).natAbs)) hc
    push_cast at hcZ
    have h12 : r ∣ q ^ 12 - 1 := ⟨c * (q ^ 8 + q ^ 6 - q ^ 2 - 1), by rw [← mul_assoc, ← hc]; ring⟩
    obtain ⟨w, hw⟩ := h12
    have hwZ := congrArg (fun z : ℤ => (z : ZMod (r * r).natAbs)) hw
    push_cast at hwZ
    have key : ((orderExtn q (q - r + 1) 12 : ℤ) : ZMod (r * r).natAbs) = 0 := by
      obtain ⟨k1, h1⟩ := Polynomial.powAddExpansion (1 : ZMod (r * r).natAbs) (r * s) 12
      obtain ⟨k2, h2⟩ := Polynomial.powAddExpansion (q : ZMod (r * r).natAbs) (-(r * (1 + s))) 12
      rw [(C40_trace q (q - r + 1) (1 + r * s : ZMod (r * r).natAbs) (q + -(r * (1 + s)))
        (by push_cast; ring) (by linear_combination r * e1 - (s * (1 + s) + c) * e0) 12 (by norm_num)).2, h1, h2]
      push_cast
      set X : ZMod (r * r).natAbs := -(12 * s + k1 * r * s ^ 2) with hX
      set Y : ZMod (r * r).natAbs := 12 * q ^ 11 * (1 + s) - k2 * r * (1 + s) ^ 2 with hY
      have hA : 1 - ((1 : ZMod (r * r).natAbs) ^ 12 + 12 * 1 ^ (12 - 1) * (r * s) + k1 * (r * s) ^ 2) = r * X := by
        rw [hX]; ring
      have hB : 1 - ((q : ZMod (r * r).natAbs) ^ 12 + 12 * q ^ (12 - 1) * -(r * (1 + s)) +
          k2 * (-(r * (1 + s))) ^ 2) = r * (Y - w) := by
        rw [hY]; linear_combination -hwZ
      rw [hA, hB]
      linear_combination X * (Y - w) * e0
    have := (ZMod.intCast_zmod_eq_zero_iff_dvd _ _).1 key
    simpa using this
  have h1 : r ∣ orderExtn q (q - r + 1) 12 := (dvd_mul_right r r).trans hdv
  have h2 : r ∣ orderExtn q (q - r + 1) 12 / r := by
    obtain ⟨c, hc⟩ := hdv
    rw [hc, mul_assoc, Int.mul_ediv_cancel_left _ hr]
    exact dvd_mul_right _ _
  unfold PairingF.quotient
  dsimp only
  refine ⟨by simp [Int.emod_eq_zero_of_dvd h1, Int.emod_eq_zero_of_dvd h2], ?_⟩
  rw [sq, ← mul_assoc, Int.ediv_mul_cancel h2, Int.ediv_mul_cancel h1, (C40_trace q (q - r + 1) α β
    (by push_cast; linear_combination hs) hp 12 (by norm_num)).2]

/-- **C92**, type D: `q = 5`, `n = r = 7`, `d = 3`; the twist over the field of 125 elements has 140 points. -/
example : PairingD.quotient 5 7 7 3 = (20, true) := by decide

example : (PairingD.quotient 5 7 7 3).2 = true :=
  (C92_typeD (R := QuadraticAlgebra ℤ (-5) (-1)) (α := ⟨0, 1⟩) (β := ⟨-1, -1⟩) (by decide) (by decide) (by decide)
    (by decide) (by decide)).1

/-- **C92**, type F: `q = 7`, `r = 13`. -/
example : (PairingF.quotient 7 13).2 = true ∧ (PairingF.quotient 7 13).1 * 13 ^ 2 = Curve.orderExtn 7 (-5) 12 := by
  decide +kernel

example : (PairingF.quotient 7 13).2 = true :=
  (C92_typeF (R := QuadraticAlgebra ℤ (-7) (-5)) (α := ⟨0, 1⟩) (β := ⟨-5, -1⟩) (by decide) (by decide)
    (by decide) (by decide)).1

end Props
