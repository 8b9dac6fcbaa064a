import Verif.Model.ParamGen
import Verif.Model.Curve
import Verif.Props.PairingA
import Mathlib.NumberTheory.LegendreSymbol.Basic
import Mathlib.Tactic.IntervalCases

/-! # Generating parameters -/

set_option autoImplicit false

namespace Pbc.ParamGen

/-! ### Specification -/

/-- `r` is a sum of two signed powers of two and a unit, as recorded by the exponents and signs. -/
structure IsSolinas (s : Solinas) : Prop where
  e1 : 1 ≤ s.exp1
  e2 : s.exp1 < s.exp2
  s1 : s.sign1 = 1 ∨ s.sign1 = -1
  s0 : s.sign0 = 1 ∨ s.sign0 = -1
  r : s.r = 2 ^ s.exp2 + s.sign1 * 2 ^ s.exp1 + s.sign0

/-- The order is as long as asked for, but for the Mersenne number one bit shorter. -/
def Length (rbits : ℕ) (r : ℤ) : Prop := 2 ^ (rbits - 1) - 1 ≤ r ∧ r < 2 ^ rbits

/-- A primality test that accepts only primes (and their negatives). -/
def Sound (pp : ℤ → Bool) : Prop := ∀ n, pp n = true → n.natAbs.Prime

/-! ### The loops -/

theorem pow_lt_two {a b : ℕ} (h : a < b) : 2 * (2 : ℤ) ^ a ≤ 2 ^ b := by
  have := pow_le_pow_right₀ (show (1 : ℤ) ≤ 2 by norm_num) (show a + 1 ≤ b from h)
  rw [pow_succ] at this
  linarith

theorem candidate_spec {rbits r1 r2 r3 : ℕ} {s : Solinas} (h : candidate rbits r1 r2 r3 = some s) :
    IsSolinas s ∧ Length rbits s.r ∧ (s.exp2 = if s.sign1 = 1 then rbits - 1 else rbits) := by
  unfold candidate at h
  have key : ∀ e : ℕ, ¬ e ≤ 1 → 1 ≤ r2 % (e - 1) + 1 ∧ r2 % (e - 1) + 1 < e := fun e he => by
    have := Nat.mod_lt r2 (show 0 < e - 1 by omega)
    omega
  by_cases h1 : r1 % 2 ≠ 0
  · simp only [if_pos h1] at h
    by_cases he : rbits - 1 ≤ 1
    · rw [if_pos he] at h; cases h
    rw [if_neg he, if_pos (by norm_num : (1 : ℤ) > 0)] at h
    obtain ⟨k1, k2⟩ := key _ he
    have p1 := pow_lt_two k2
    have p2 := pow_lt_two (show rbits - 1 < rbits by omega)
    have p3 := pow_le_pow_right₀ (show (1 : ℤ) ≤ 2 by norm_num) k1
    have p4 := pow_le_pow_right₀ (show (1 : ℤ) ≤ 2 by norm_num) (show 2 ≤ rbits - 1 by omega)
    by_cases h3 : r3 % 2 ≠ 0
    · rw [if_pos h3] at h
      cases h
      exact ⟨⟨k1, k2, .inl rfl, .inl rfl, by simp⟩, ⟨by dsimp only; linarith, by dsimp only; linarith⟩, by simp⟩
    · rw [if_neg h3] at h
      cases h
      exact ⟨⟨k1, k2, .inl rfl, .inr rfl, by simp; ring⟩,
        ⟨by dsimp only; linarith, by dsimp only; linarith⟩, by simp⟩
  · simp only [if_neg h1] at h
    by_cases he : rbits ≤ 1
    · rw [if_pos he] at h; cases h
    rw [if_neg he, if_neg (by norm_num : ¬ (-1 : ℤ) > 0)] at h
    obtain ⟨k1, k2⟩ := key _ he
    have p1 := pow_lt_two k2
    have p2 : (2 : ℤ) ^ rbits = 2 * 2 ^ (rbits - 1) := by
      rw [← pow_succ', show rbits - 1 + 1 = rbits by omega]
    have p3 := pow_le_pow_right₀ (show (1 : ℤ) ≤ 2 by norm_num) k1
    by_cases h3 : r3 % 2 ≠ 0
    · rw [if_pos h3] at h
      cases h
      exact ⟨⟨k1, k2, .inr rfl, .inl rfl, by dsimp only; ring⟩,
        ⟨by dsimp only; linarith, by dsimp only; linarith⟩, by simp⟩
    · rw [if_neg h3] at h
      cases h
      exact ⟨⟨k1, k2, .inr rfl, .inr rfl, by dsimp only; ring⟩,
        ⟨by dsimp only; linarith, by dsimp only; linarith⟩, by simp⟩

theorem attempts_spec {pp : ℤ → Bool} {t : ℕ → ℤ × ℤ} {hq : ℤ × ℤ} (n c : ℕ)
    (h : (attempts pp t n c).1 = some hq) : pp hq.2 = true ∧ ∃ c', hq = t c' := by
  induction n generalizing c with
  | zero => cases h
  | succ n ih =>
    rw [attempts] at h
    by_cases hp : pp (t c).2 = true
    · rw [if_pos hp] at h
      cases h
      exact ⟨hp, c, rfl⟩
    · rw [if_neg hp] at h
      exact ih _ h

theorem genLoop_spec {pp : ℤ → Bool} {t : ℤ → ℕ → ℤ × ℤ} {rbits : ℕ} {rand : ℕ → ℕ} {res : Result}
    (f k c : ℕ) (h : genLoop pp t rbits rand f k c = some res) :
    IsSolinas res.toSolinas ∧ Length rbits res.r ∧
      (res.exp2 = if res.sign1 = 1 then rbits - 1 else rbits) ∧ pp res.r = true ∧ pp res.q = true ∧
      ∃ c', (res.h, res.q) = t res.r c' := by
  induction f generalizing k c with
  | zero => cases h
  | succ f ih =>
    rw [genLoop] at h
    obtain ⟨s, hs, h⟩ := Option.bind_eq_some_iff.mp h
    by_cases hp : pp s.r = true
    · rw [if_neg (not_not.mpr hp)] at h
      dsimp only at h
      cases ha : (attempts pp (t s.r) 10 c).1 with
      | none =>
        rw [ha] at h
        exact ih _ _ h
      | some hq =>
        rw [ha] at h
        cases h
        obtain ⟨a1, a2⟩ := attempts_spec _ _ ha
        obtain ⟨b1, b2, b3⟩ := candidate_spec hs
        exact ⟨b1, b2, b3, hp, a1, a2⟩
    · rw [if_pos hp] at h
      exact ih _ _ h

/-! ### Types A and E -/

variable {pp : ℤ → Bool} {rand : ℕ → ℕ} {mrand : ℕ → ℕ → ℕ} {fuel rbits : ℕ} {qbits : ℤ} {res : Result}

/-- **C56**, type A: whatever the random choices, parameters that are produced satisfy
`r = 2^exp2 ± 2^exp1 ± 1` with the recorded exponents and signs, `q + 1 = h r` and `12 ∣ h`; `r` has
the length asked for, or is the Mersenne number one bit shorter; both `r` and `q` have passed the
primality test; and the cofactor is positive and bounded by the sizes asked for. -/
theorem C56_typeA (hm : ∀ c l, 0 < l → mrand c l < l) (h1 : pp (-1) = false)
    (h : aGen pp rand mrand fuel rbits qbits = some res) :
    IsSolinas res.toSolinas ∧ Length rbits res.r ∧ res.q + 1 = res.h * res.r ∧ 12 ∣ res.h ∧
      0 < res.h ∧ res.h < 12 * 2 ^ (max (qbits - rbits - 3) 3).toNat ∧
      pp res.r = true ∧ pp res.q = true := by
  obtain ⟨a, b, -, d, e, c', hc⟩ := genLoop_spec _ _ _ h
  have e1 := congrArg Prod.fst hc
  have e2 := congrArg Prod.snd hc
  simp only [aTry] at e1 e2
  rw [show qbits - rbits - 4 + 1 = qbits - rbits - 3 by ring] at e1 e2
  rw [show (if qbits - (rbits : ℤ) - 3 < 3 then 3 else qbits - rbits - 3) = max (qbits - rbits - 3) 3 by
    split <;> omega] at e1 e2
  have hb := hm c' (2 ^ (max (qbits - (rbits : ℤ) - 3) 3).toNat) (by positivity)
  refine ⟨a, b, by rw [e1, e2]; ring, ⟨_, by rw [e1, mul_comm]⟩, ?_, ?_, d, e⟩
  · rw [e1]
    rcases Nat.eq_zero_or_pos (mrand c' (2 ^ (max (qbits - (rbits : ℤ) - 3) 3).toNat)) with hz | hz
    · rw [hz] at e2
      simp at e2
      rw [e2, h1] at e
      cases e
    · have : (0 : ℤ) < mrand c' (2 ^ (max (qbits - (rbits : ℤ) - 3) 3).toNat) := by exact_mod_cast hz
      linarith
  · rw [e1]
    have : (mrand c' (2 ^ (max (qbits - (rbits : ℤ) - 3) 3).toNat) : ℤ) <
      2 ^ (max (qbits - (rbits : ℤ) - 3) 3).toNat := by exact_mod_cast hb
    linarith

/-- **C56**, type E: `q = h r² + 1` with `h` three times a square and `r` as for type A, so that
`4q = (2)² + 3 V²` for some `V`, as complex multiplication by `√-3` with trace 2 needs.  (The comment
in the source speaks of 28 times a square.) -/
theorem C56_typeE (hm : ∀ c l, 0 < l → mrand c l < l) (h1 : pp 1 = false)
    (h : eGen pp rand mrand fuel rbits qbits = some res) :
    IsSolinas res.toSolinas ∧ Length rbits res.r ∧ res.q = res.h * res.r ^ 2 + 1 ∧
      (∃ s : ℕ, 0 < s ∧ res.h = 3 * (s : ℤ) ^ 2 ∧
        (s : ℤ) < 2 ^ (max (Int.tdiv (qbits - 2) 2 - rbits) 3 + 1).toNat ∧
        4 * res.q = 2 ^ 2 + 3 * (2 * s * res.r) ^ 2) ∧
      pp res.r = true ∧ pp res.q = true := by
  obtain ⟨a, b, -, d, e, c', hc⟩ := genLoop_spec _ _ _ h
  have e1 := congrArg Prod.fst hc
  have e2 := congrArg Prod.snd hc
  simp only [eTry] at e1 e2
  rw [show (if Int.tdiv (qbits - 2) 2 - (rbits : ℤ) < 3 then 3 else Int.tdiv (qbits - 2) 2 - rbits) =
    max (Int.tdiv (qbits - 2) 2 - rbits) 3 by split <;> omega] at e1 e2
  have hb := hm c' (2 ^ (max (Int.tdiv (qbits - 2) 2 - (rbits : ℤ)) 3 + 1).toNat) (by positivity)
  refine ⟨a, b, by rw [e1, e2]; ring, ⟨_, ?_, by rw [e1]; ring, by exact_mod_cast hb, by rw [e2]; ring⟩, d, e⟩
  by_contra hz
  rw [show mrand c' (2 ^ (max (Int.tdiv (qbits - 2) 2 - (rbits : ℤ)) 3 + 1).toNat) = 0 by omega] at e2
  simp at e2
  rw [e2, h1] at e
  cases e

/-! ### Type A1 -/

theorem a1Loop_spec {n : ℤ} {out : ℤ × ℕ} (f j : ℕ) (h : a1Loop pp n f (n * j - 1) (4 * j % 2 ^ 32) = some out) :
    pp out.1 = true ∧ ∃ i, j ≤ i ∧ i < j + f ∧ out.1 + 1 = n * i ∧ out.2 = 4 * i % 2 ^ 32 := by
  induction f generalizing j with
  | zero => cases h
  | succ f ih =>
    rw [a1Loop] at h
    by_cases hp : pp (n * j - 1) = true
    · rw [if_pos hp] at h
      cases h
      exact ⟨hp, j, le_rfl, by omega, by ring, rfl⟩
    · rw [if_neg hp, show n * (j : ℤ) - 1 + n = n * ((j + 1 : ℕ) : ℤ) - 1 by push_cast; ring,
        show (4 * j % 2 ^ 32 + 4) % 2 ^ 32 = 4 * (j + 1) % 2 ^ 32 by omega] at h
      obtain ⟨h1, i, h2, h3, h4⟩ := ih (j + 1) h
      exact ⟨h1, i, by omega, by omega, h4⟩

/-- **C56**, type A1: `p + 1` is a multiple `4 i n` of the order, `p` has passed the primality test,
and the recorded cofactor is `l = 4 i` modulo the size of an `unsigned int`.  So `p + 1 = l n` when
fewer than `2^30` candidates were tried. -/
theorem C56_typeA1 {order : ℤ} {out : ℤ × ℕ} (h : a1Gen pp fuel order = some out) :
    pp out.1 = true ∧ (∃ i, 1 ≤ i ∧ i ≤ fuel ∧ out.1 + 1 = 4 * i * order ∧ out.2 = 4 * i % 2 ^ 32) ∧
      (fuel < 2 ^ 30 → out.1 + 1 = out.2 * order ∧ 4 ∣ out.2 ∧ 0 < out.2) := by
  have h' : a1Loop pp (order * 4) fuel (order * 4 * ((1 : ℕ) : ℤ) - 1) (4 * 1 % 2 ^ 32) = some out := by
    rw [Nat.cast_one, mul_one]
    exact h
  obtain ⟨h1, i, h2, h3, h4, h5⟩ := a1Loop_spec fuel 1 h'
  refine ⟨h1, ⟨i, h2, by omega, by rw [h4]; ring, h5⟩, fun hf => ?_⟩
  have : out.2 = 4 * i := by omega
  exact ⟨by rw [h4, this]; push_cast; ring, ⟨i, this⟩, by omega⟩

/-- **C56**, the wrapped cofactor: when the first `2^30 - 1` candidates are rejected and the next one
is accepted, the recorded cofactor is zero and `p + 1 = l n` fails. -/
theorem C56_typeA1_wrap_fails {order : ℤ} (ho : 0 < order)
    (hn : ∀ i : ℕ, 1 ≤ i → i < 2 ^ 30 → pp (4 * i * order - 1) = false)
    (hy : pp (4 * (2 ^ 30 : ℕ) * order - 1) = true) {out : ℤ × ℕ} (h : a1Gen pp fuel order = some out) :
    out.2 = 0 ∧ out.1 + 1 ≠ out.2 * order := by
  have key : ∀ (f j : ℕ), 1 ≤ j → j ≤ 2 ^ 30 →
      a1Loop pp (order * 4) f (order * 4 * j - 1) (4 * j % 2 ^ 32) = some out →
      out = (4 * (2 ^ 30 : ℕ) * order - 1, 0) := by
    intro f
    induction f with
    | zero => intro j _ _ h; cases h
    | succ f ih =>
      intro j h1 h2 h
      rw [a1Loop] at h
      rcases Nat.lt_or_ge j (2 ^ 30) with h3 | h3
      · rw [show order * 4 * (j : ℤ) - 1 = 4 * j * order - 1 by ring, hn j h1 h3,
          if_neg (by decide), show 4 * (j : ℤ) * order - 1 + order * 4 = order * 4 * ((j + 1 : ℕ) : ℤ) - 1 by
            push_cast; ring, show (4 * j % 2 ^ 32 + 4) % 2 ^ 32 = 4 * (j + 1) % 2 ^ 32 by omega] at h
        exact ih (j + 1) (by omega) (by omega) h
      · obtain rfl : j = 2 ^ 30 := by omega
        rw [show order * 4 * ((2 ^ 30 : ℕ) : ℤ) - 1 = 4 * (2 ^ 30 : ℕ) * order - 1 by ring, hy, if_pos rfl] at h
        cases h
        rfl
  have h' : a1Loop pp (order * 4) fuel (order * 4 * ((1 : ℕ) : ℤ) - 1) (4 * 1 % 2 ^ 32) = some out := by
    rw [Nat.cast_one, mul_one]
    exact h
  rw [key fuel 1 le_rfl (by norm_num) h']
  refine ⟨rfl, ?_⟩
  push_cast
  intro h0
  nlinarith

/-! ### The pairings over generated parameters -/

theorem neg_one_nonsquare {q : ℕ} [Fact q.Prime] (h : 4 ∣ q + 1) : ∀ x : ZMod q, x ^ 2 ≠ -1 + 0 * x := by
  intro x hx
  have hs : IsSquare (-1 : ZMod q) := ⟨x, by rw [← sq, hx]; ring⟩
  have := ZMod.exists_sq_eq_neg_one_iff.mp hs
  omega

open PairingA in
/-- **C56**, end to end for type A: with a primality test that accepts only primes and orders of at
least four bits, every generated parameter set gives a field in which `-1` is not a square and a type
A pairing over it, so that the pairing computed from it is bilinear (C80). -/
theorem C56_typeA_pairing (hs : Sound pp) (hm : ∀ c l, 0 < l → mrand c l < l) (hr : 4 ≤ rbits)
    (h : aGen pp rand mrand fuel rbits qbits = some res) :
    ∃ (_ : Fact res.q.toNat.Prime) (_ : Fact (∀ x : ZMod res.q.toNat, x ^ 2 ≠ -1 + 0 * x)),
      ((res.q.toNat : ℤ) = res.q) ∧ ((res.r.toNat : ℤ) = res.r) ∧
      TypeA (ZMod res.q.toNat) ⟨res.exp2, res.exp1, res.sign1, res.h.toNat⟩ res.r.toNat (·⁻¹) ∧
      Spec.Bilinear res.r.toNat (eA (K := ZMod res.q.toNat) res.r.toNat res.h.toNat) := by
  have hn1 : pp (-1) = false := by
    by_contra hc
    exact absurd (hs _ (by simpa using hc)) (by norm_num)
  obtain ⟨a, b, c, ⟨m, d⟩, e, -, f, g⟩ := C56_typeA hm hn1 h
  have p8 := pow_le_pow_right₀ (show (1 : ℤ) ≤ 2 by norm_num) (show 3 ≤ rbits - 1 by omega)
  have hr7 : 7 ≤ res.r := le_trans (by linarith) b.1
  have hq : 0 ≤ res.q := by nlinarith
  have eq : (res.q.toNat : ℤ) = res.q := Int.toNat_of_nonneg hq
  have er : (res.r.toNat : ℤ) = res.r := Int.toNat_of_nonneg (by omega)
  have eh : (res.h.toNat : ℤ) = res.h := Int.toNat_of_nonneg e.le
  have pq : res.q.toNat.Prime := by
    have := hs _ g
    rwa [show res.q.natAbs = res.q.toNat by omega] at this
  have pr : res.r.toNat.Prime := by
    have := hs _ f
    rwa [show res.r.natAbs = res.r.toNat by omega] at this
  have cof : res.q.toNat + 1 = res.h.toNat * res.r.toNat := by
    zify
    rw [eq, er, eh, c]
  have : Fact res.q.toNat.Prime := ⟨pq⟩
  have h4 : 4 ∣ res.q.toNat + 1 := by
    rw [cof]
    exact Dvd.dvd.mul_right (by omega) _
  have fn : Fact (∀ x : ZMod res.q.toNat, x ^ 2 ≠ -1 + 0 * x) := ⟨neg_one_nonsquare h4⟩
  have tA : TypeA (ZMod res.q.toNat) ⟨res.exp2, res.exp1, res.sign1, res.h.toNat⟩ res.r.toNat (·⁻¹) :=
    { valid := ⟨a.e1, a.e2, a.s1, by
        dsimp only
        rw [er, a.r]
        rcases a.s0 with h0 | h0 <;> rw [h0]
        · left; ring
        · right; ring, by omega⟩
      prime := pr
      cof := by rw [ZMod.card]; exact cof
      inv := fun _ _ => rfl }
  exact ⟨⟨pq⟩, fn, eq, er, tA, (C80_typeA tA).1⟩

open PairingA in
/-- **C56**, end to end for type A1: with a primality test that accepts only primes, an odd order of at
least three gives, when fewer than `2^30` candidates are tried, a type A1 pairing. -/
theorem C56_typeA1_pairing (hs : Sound pp) {order : ℕ} (ho : Odd order) (h3 : 3 ≤ order)
    (hf : fuel < 2 ^ 30) {out : ℤ × ℕ} (h : a1Gen pp fuel order = some out) :
    ∃ (_ : Fact out.1.toNat.Prime) (_ : Fact (∀ x : ZMod out.1.toNat, x ^ 2 ≠ -1 + 0 * x)),
      ((out.1.toNat : ℤ) = out.1) ∧ TypeA1 (ZMod out.1.toNat) order out.2 ∧
      Spec.Bilinear order (eA (K := ZMod out.1.toNat) order out.2) := by
  obtain ⟨a, -, b⟩ := C56_typeA1 h
  obtain ⟨b, ⟨m, c⟩, d⟩ := b hf
  have h0 : 0 ≤ out.1 := by
    have : (0 : ℤ) < out.2 * order := by positivity
    omega
  have eq : (out.1.toNat : ℤ) = out.1 := Int.toNat_of_nonneg h0
  have pq : out.1.toNat.Prime := by
    have := hs _ a
    rwa [show out.1.natAbs = out.1.toNat by omega] at this
  have cof : out.1.toNat + 1 = out.2 * order := by
    zify
    rw [eq, b]
  have : Fact out.1.toNat.Prime := ⟨pq⟩
  have fn : Fact (∀ x : ZMod out.1.toNat, x ^ 2 ≠ -1 + 0 * x) :=
    ⟨neg_one_nonsquare (by rw [cof, c, mul_assoc]; exact dvd_mul_right _ _)⟩
  have tA : TypeA1 (ZMod out.1.toNat) order out.2 := ⟨ho, h3, by rw [ZMod.card]; exact cof⟩
  exact ⟨⟨pq⟩, fn, eq, tA, (C81_typeA1_partial tA).1⟩

/-! ### Type F -/

theorem fLoop_spec {out : BN} (f : ℕ) (x : ℤ) (h : fLoop pp f x = some out) :
    pp out.q = true ∧ pp out.r = true ∧ ∃ y, x ≤ y ∧ y < x + f ∧ out.t = 6 * y ^ 2 + 1 ∧
      ∃ e : ℤ, (e = 1 ∨ e = -1) ∧ out.q = 36 * y ^ 4 + e * 36 * y ^ 3 + 24 * y ^ 2 + e * 6 * y + 1 ∧
        out.r = 36 * y ^ 4 + e * 36 * y ^ 3 + 18 * y ^ 2 + e * 6 * y + 1 := by
  induction f generalizing x with
  | zero => cases h
  | succ f ih =>
    rw [fLoop] at h
    dsimp only at h
    split at h
    · rename_i hp
      rw [Bool.and_eq_true] at hp
      cases h
      exact ⟨hp.1, hp.2, x, le_rfl, by omega, by dsimp only; ring, -1, .inr rfl,
        by simp only [tryminusx]; ring, by simp only [tryminusx]; ring⟩
    · split at h
      · rename_i hp
        rw [Bool.and_eq_true] at hp
        cases h
        exact ⟨hp.1, hp.2, x, le_rfl, by omega, by dsimp only; ring, 1, .inl rfl,
          by simp only [tryplusx]; ring, by simp only [tryplusx]; ring⟩
      · obtain ⟨h1, h2, y, h3, h4, h5⟩ := ih (x + 1) h
        exact ⟨h1, h2, y, by omega, by push_cast; linarith, h5⟩

/-- **C56**, type F: the primes are the Barreto–Naehrig polynomials at some `±y` with `y` at least
the starting point; `r = q + 1 - t`; the embedding degree divides 12 (`r ∣ q⁴ - q² + 1`); and
`4q - t²` is three times a square, as complex multiplication by `√-3` needs. -/
theorem C56_typeF {bits : ℤ} {out : BN} (h : fGen pp fuel bits = some out) :
    pp out.q = true ∧ pp out.r = true ∧ out.r = out.q + 1 - out.t ∧ out.r ∣ out.q ^ 4 - out.q ^ 2 + 1 ∧
      (∃ V, 4 * out.q - out.t ^ 2 = 3 * V ^ 2) ∧
      ∃ y e : ℤ, (e = 1 ∨ e = -1) ∧ 2 ^ (Int.tdiv (bits - 6) 4).toNat ≤ y ∧ out.t = 6 * y ^ 2 + 1 ∧
        out.q = 36 * (e * y) ^ 4 + 36 * (e * y) ^ 3 + 24 * (e * y) ^ 2 + 6 * (e * y) + 1 ∧
        out.r = 36 * (e * y) ^ 4 + 36 * (e * y) ^ 3 + 18 * (e * y) ^ 2 + 6 * (e * y) + 1 := by
  unfold fGen at h
  dsimp only at h
  split at h
  · cases h
  obtain ⟨h1, h2, y, h3, -, h5, e, he, h6, h7⟩ := fLoop_spec _ _ h
  have ee : e ^ 2 = 1 := by rcases he with rfl | rfl <;> norm_num
  refine ⟨h1, h2, by rw [h5, h6, h7]; ring, ?_, ⟨6 * y ^ 2 + e * 4 * y + 1, ?_⟩, y, e, he, h3, h5, ?_, ?_⟩
  · rw [h6, h7]
    rcases he with rfl | rfl
    · exact ⟨46656 * y ^ 12 + 139968 * y ^ 11 + 241056 * y ^ 10 + 272160 * y ^ 9 + 225504 * y ^ 8 +
        138672 * y ^ 7 + 65448 * y ^ 6 + 23112 * y ^ 5 + 6264 * y ^ 4 + 1188 * y ^ 3 + 174 * y ^ 2 + 6
        * y ^ 1 + 1 * y ^ 0, by ring⟩
    · exact ⟨46656 * y ^ 12 - 139968 * y ^ 11 + 241056 * y ^ 10 - 272160 * y ^ 9 + 225504 * y ^ 8 -
        138672 * y ^ 7 + 65448 * y ^ 6 - 23112 * y ^ 5 + 6264 * y ^ 4 - 1188 * y ^ 3 + 174 * y ^ 2 - 6
        * y ^ 1 + 1 * y ^ 0, by ring⟩
  · rw [h5, h6]
    linear_combination (-(48 : ℤ) * y ^ 2) * ee
  · rcases he with rfl | rfl <;> rw [h6] <;> ring
  · rcases he with rfl | rfl <;> rw [h7] <;> ring

/-- The order of a curve over the degree-12 extension in terms of its order and trace. -/
theorem order12 (q t : ℤ) : Curve.orderExtn q t 12 =
    (1 + q - t) * ((1 + q + t) * (1 + t ^ 2 + q ^ 2 - 2 * q) * (1 + t ^ 2 + q ^ 2 - q + t * (1 + q)) *
      (1 + t ^ 2 + q ^ 2 - q - t * (1 + q)) * ((1 + q + q ^ 2 + t ^ 2) ^ 2 - 3 * t ^ 2 * (1 + q) ^ 2)) := by
  simp only [Curve.orderExtn, Curve.traceN, Curve.traceLoop]
  ring

/-- **C56**, type F: the division `n_12 / r²` of the twist test (`f_param.c:566-572`), performed by
`mpz_divexact`, is exact. -/
theorem C56_typeF_divexact {bits : ℤ} {out : BN} (h : fGen pp fuel bits = some out) :
    out.r * out.r ∣ Curve.orderExtn out.q out.t 12 := by
  obtain ⟨-, -, h1, ⟨k, h2⟩, -⟩ := C56_typeF h
  rw [order12, show 1 + out.q - out.t = out.r by rw [h1]; ring]
  refine mul_dvd_mul_left _ (Dvd.dvd.mul_left ?_ _)
  have e : out.t = out.q + 1 - out.r := by rw [h1]; ring
  rw [e]
  generalize out.q = q at *
  generalize out.r = r at *
  have : (1 + q + q ^ 2 + (q + 1 - r) ^ 2) ^ 2 - 3 * (q + 1 - r) ^ 2 * (1 + q) ^ 2 =
      (q ^ 4 - q ^ 2 + 1) + r * ((r - 2 * (q + 1)) * (2 * (1 + q + q ^ 2 + (q + 1) ^ 2) + r * (r - 2 * (q + 1))) -
        3 * (1 + q) ^ 2 * (r - 2 * (q + 1))) := by ring
  rw [this, h2]
  exact dvd_add (dvd_mul_right _ _) (dvd_mul_right _ _)

/-! ### Examples -/

/-- A primality test for the examples. -/
def isPrime (n : ℤ) : Bool := decide (n.natAbs.Prime)

theorem isPrime_sound : Sound isPrime := fun _ h => of_decide_eq_true h

/-- A small test by trial division, fast enough to run. -/
def trial (n : ℤ) : Bool :=
  2 ≤ n.natAbs && (List.range n.natAbs).all fun d => d ≤ 1 || n.natAbs % d != 0

theorem trial_sound : Sound trial := by
  intro n h
  rw [trial, Bool.and_eq_true, decide_eq_true_eq, List.all_eq_true] at h
  refine Nat.prime_def.mpr ⟨h.1, fun m hm => ?_⟩
  by_contra hc
  have hpos := Nat.pos_of_dvd_of_pos hm (by omega)
  have hl : m < n.natAbs := lt_of_le_of_ne (Nat.le_of_dvd (by omega) hm) (by tauto)
  have := h.2 m (List.mem_range.mpr hl)
  rw [Bool.or_eq_true, decide_eq_true_eq, bne_iff_ne] at this
  rcases this with h1 | h1
  · exact hc (.inl (by omega))
  · exact h1 (Nat.mod_eq_zero_of_dvd hm)

/-- `r = 2⁴ + 2 + 1 = 19`, `q = 12 · 19 - 1 = 227`. -/
example : (aGen trial (fun i => i * i / 2 + 1) (fun c l => (5 * c + 1) % l) 20 5 8).map
    (fun s => [s.r, s.q, s.h, s.exp2, s.exp1, s.sign1, s.sign0]) = some [19, 227, 12, 4, 1, 1, 1] := by
  decide +kernel

/-- `r = 2³ + 2² + 1 = 13`, `q = 108 · 13² + 1 = 18253`. -/
example : (eGen (fun n => n != 1) (fun i => i * i / 2 + 1) (fun c l => (5 * c + 6) % l) 20 4 8).map
    (fun s => [s.r, s.q, s.h, s.exp2, s.exp1, s.sign1, s.sign0]) = some [13, 18253, 108, 3, 2, 1, 1] := by
  decide +kernel

/-- Order 15 gives `p = 59`, order 11 gives `p = 43`, order 7 needs three attempts. -/
example : a1Gen trial 20 15 = some (59, 4) ∧ a1Gen trial 20 11 = some (43, 4) ∧
    a1Gen trial 20 7 = some (83, 12) := by decide +kernel

/-- `y = 1`: `q = 19`, `r = 13`, `t = 7`. -/
example : (fGen trial 20 6).map (fun s => (s.q, s.r, s.t)) = some (19, 13, 7) := by decide +kernel

/-- The theorems applied to these runs: `r = 19`, `q = 227`; `q = 59` for the order 15; the
Barreto-Naehrig pair 19, 13. -/
example : ∃ res, aGen trial (fun i => i * i / 2 + 1) (fun c l => (5 * c + 1) % l) 20 5 8 = some res ∧
    res.q + 1 = res.h * res.r ∧ 12 ∣ res.h := by
  have h : ∃ res, aGen trial (fun i => i * i / 2 + 1) (fun c l => (5 * c + 1) % l) 20 5 8 = some res :=
    Option.isSome_iff_exists.1 (by decide +kernel)
  obtain ⟨res, h⟩ := h
  have := C56_typeA (fun c l hl => Nat.mod_lt _ hl) (by decide +kernel) h
  exact ⟨res, h, this.2.2.1, this.2.2.2.1⟩

example : ∃ res, eGen trial (fun i => i * i / 2 + 1) (fun c l => (5 * c + 6) % l) 200 4 8 = some res ∧
    res.q = res.h * res.r ^ 2 + 1 := by
  have h : ∃ res, eGen trial (fun i => i * i / 2 + 1) (fun c l => (5 * c + 6) % l) 200 4 8 = some res :=
    Option.isSome_iff_exists.1 (by decide +kernel)
  obtain ⟨res, h⟩ := h
  exact ⟨res, h, (C56_typeE (fun c l hl => Nat.mod_lt _ hl) (by decide +kernel) h).2.2.1⟩

example : ∃ out, a1Gen trial 20 15 = some out ∧ out.1 + 1 = out.2 * 15 := by
  have h : ∃ out, a1Gen trial 20 15 = some out := Option.isSome_iff_exists.1 (by decide +kernel)
  obtain ⟨out, h⟩ := h
  exact ⟨out, h, ((C56_typeA1 h).2.2 (by decide)).1⟩

example : ∃ out, fGen trial 20 6 = some out ∧ out.r = out.q + 1 - out.t ∧
    out.r * out.r ∣ Curve.orderExtn out.q out.t 12 := by
  have h : ∃ out, fGen trial 20 6 = some out := Option.isSome_iff_exists.1 (by decide +kernel)
  obtain ⟨out, h⟩ := h
  exact ⟨out, h, (C56_typeF h).2.2.1, C56_typeF_divexact h⟩

example : ∃ out, ∃ _ : Fact out.1.toNat.Prime, a1Gen trial 20 (15 : ℕ) = some out ∧
    PairingA.TypeA1 (ZMod out.1.toNat) 15 out.2 := by
  have h : ∃ out, a1Gen trial 20 (15 : ℕ) = some out := Option.isSome_iff_exists.1 (by decide +kernel)
  obtain ⟨out, h⟩ := h
  obtain ⟨h1, h2, h3, h4, -⟩ := C56_typeA1_pairing trial_sound (order := 15) (by decide)
    (by decide) (by decide) h
  exact ⟨out, h1, h, h4⟩

example : ∃ res, ∃ _ : Fact res.q.toNat.Prime,
    aGen trial (fun i => i * i / 2 + 1) (fun c l => (5 * c + 1) % l) 20 5 8 = some res ∧
    PairingA.TypeA (ZMod res.q.toNat) ⟨res.exp2, res.exp1, res.sign1, res.h.toNat⟩ res.r.toNat
      (·⁻¹) := by
  have h : ∃ res, aGen trial (fun i => i * i / 2 + 1) (fun c l => (5 * c + 1) % l) 20 5 8 = some res :=
    Option.isSome_iff_exists.1 (by decide +kernel)
  obtain ⟨res, h⟩ := h
  obtain ⟨h1, h2, h3, h4, h5, -⟩ := C56_typeA_pairing trial_sound (fun c l hl => Nat.mod_lt _ hl)
    (by decide) h
  exact ⟨res, h1, h, h5⟩

end Pbc.ParamGen
