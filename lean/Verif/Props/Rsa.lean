import Verif.Model.Rsa
import Verif.Lemmas.MontFp
import Mathlib.Data.ZMod.Basic
import Mathlib.Data.Int.ModEq
import Mathlib.Tactic.LinearCombination
import Mathlib.Tactic.NormNum.Prime

/-! # C144: both ways of computing RSA powers agree -/

set_option autoImplicit false

namespace Pbc.Rsa

open Pbc.Mont (mpzInvert mpzInvert_spec)

/-- **C144**: Garner's algorithm gives the power modulo `p q`, reduced, for coprime `p` and `q`. -/
theorem C144_garner {p q : ℕ} (hp : 0 < p) (hq : 0 < q) (hc : p.Coprime q) (a d : ℕ) :
    garner p q (mpzInvert p q : ℕ) a d = ((a ^ d % (p * q) : ℕ) : ℤ) := by
  obtain ⟨-, hi⟩ := mpzInvert_spec hq hc
  have hi' : (p : ℤ) * (mpzInvert p q : ℕ) ≡ 1 [ZMOD q] := by exact_mod_cast (Int.natCast_modEq_iff.2 hi)
  have hp' : (0 : ℤ) < p := by exact_mod_cast hp
  have hq' : (0 : ℤ) < q := by exact_mod_cast hq
  set g := garner p q (mpzInvert p q : ℕ) a d with hg
  rw [garner] at hg
  set u := (a : ℤ) ^ d % p
  set v := ((a : ℤ) ^ d % q - u) * (mpzInvert p q : ℕ) % q with hv
  have u0 : 0 ≤ u := Int.emod_nonneg _ hp'.ne'
  have u1 : u < p := Int.emod_lt_of_pos _ hp'
  have v0 : 0 ≤ v := Int.emod_nonneg _ hq'.ne'
  have v1 : v < q := Int.emod_lt_of_pos _ hq'
  have m1 : g ≡ (a : ℤ) ^ d [ZMOD p] := by
    rw [hg]
    calc u + v * p ≡ u + 0 [ZMOD p] := by
          gcongr
          exact (Int.modEq_zero_iff_dvd).2 (dvd_mul_left _ _)
      _ ≡ (a : ℤ) ^ d [ZMOD p] := by rw [add_zero]; exact Int.mod_modEq _ _
  have m2 : g ≡ (a : ℤ) ^ d [ZMOD q] := by
    rw [hg]
    calc u + v * p ≡ u + ((a : ℤ) ^ d % q - u) * (mpzInvert p q : ℕ) * p [ZMOD q] := by
          gcongr
          exact Int.mod_modEq _ _
      _ = u + ((a : ℤ) ^ d % q - u) * (p * (mpzInvert p q : ℕ)) := by ring
      _ ≡ u + ((a : ℤ) ^ d % q - u) * 1 [ZMOD q] := by gcongr
      _ = (a : ℤ) ^ d % q := by ring
      _ ≡ (a : ℤ) ^ d [ZMOD q] := Int.mod_modEq _ _
  have m3 : g ≡ (a : ℤ) ^ d [ZMOD (p * q : ℕ)] := by
    rw [Nat.cast_mul]
    exact (Int.modEq_and_modEq_iff_modEq_mul (by simpa using hc)).1 ⟨m1, m2⟩
  have g0 : 0 ≤ g := by rw [hg]; positivity
  have g1 : g < (p * q : ℕ) := by
    rw [hg]
    push_cast
    nlinarith
  push_cast
  rw [← Int.emod_eq_of_lt g0 g1]
  exact_mod_cast m3

theorem loop_spec {p q : ℕ} (hp : 0 < p) (hq : 0 < q) (hc : p.Coprime q) (draws : List (ℕ × ℕ)) :
    loop (p * q) (mpzInvert p q : ℕ) (p, q) draws =
      draws.map fun x => ((x.1 : ZMod (p * q)) ^ x.2, (x.1 : ZMod (p * q)) ^ x.2) := by
  induction draws with
  | nil => rfl
  | cons x l ih =>
    obtain ⟨a, d⟩ := x
    have e : pass (p * q) (mpzInvert p q : ℕ) (p, q) a d =
        (((p : ℤ), (q : ℤ)), (a : ZMod (p * q)) ^ d, (a : ZMod (p * q)) ^ d) := by
      simp only [pass, sub_add_cancel, C144_garner hp hq hc, Int.cast_natCast, ZMod.natCast_mod, Nat.cast_pow]
    rw [loop, e, ih]
    rfl

/-- **C144**: with two different primes, in every pass both methods give the power. -/
theorem C144_main_partial {p q : ℕ} (hp : p.Prime) (hq : q.Prime) (hpq : p ≠ q) (draws : List (ℕ × ℕ)) :
    main mpzInvert p q draws = draws.map fun x => ((x.1 : ZMod (p * q)) ^ x.2, (x.1 : ZMod (p * q)) ^ x.2) :=
  loop_spec hp.pos hq.pos ((Nat.coprime_primes hp hq).2 hpq) draws

/-- **C144** fails if both primes are the same, which nothing checks: whatever `mpz_invert` leaves (there is no inverse),
the two methods differ for the element `p + 1` and the exponent 1. -/
theorem C144_equal_fails (inv : ℕ → ℕ → ℕ) {p : ℕ} (hp : p.Prime) :
    ∃ x y, main inv p p [(p + 1, 1)] = [(x, y)] ∧ x ≠ y := by
  refine ⟨_, _, rfl, ?_⟩
  have h2 := hp.two_le
  have e : garner ((p : ℤ) - 1 + 1) ((p : ℤ) - 1 + 1) (inv p p : ℕ) (p + 1) 1 = 1 := by
    have : ((p : ℤ) + 1) % p = 1 := by
      rw [Int.add_emod_left]
      exact Int.emod_eq_of_lt (by norm_num) (by exact_mod_cast h2)
    simp [garner, this]
  dsimp only [pass]
  rw [e]
  intro h
  have h' : ((p : ℕ) : ZMod (p * p)) = 0 := by
    push_cast at h
    linear_combination h
  rw [ZMod.natCast_eq_zero_iff] at h'
  have := Nat.le_of_dvd hp.pos h'
  nlinarith

example : main mpzInvert 5 7 [(3, 4), (10, 3)] = [((11 : ZMod 35), 11), (20, 20)] := by
  rw [C144_main_partial (by norm_num) (by norm_num) (by norm_num)]
  decide

end Pbc.Rsa
