import Verif.Model.Tinyfp
import Verif.Lemmas.Bytes
import Mathlib.Data.ZMod.Basic
import Mathlib.Algebra.Field.ZMod
import Mathlib.Tactic.NormNum.Prime
import Mathlib.Tactic.Linarith
import Mathlib.Tactic.Ring

/-!
# Properties of the word-sized prime field

A word holds a value below `W`; the value `a < p` stands for its class in `ZMod p`.
-/

set_option autoImplicit false

namespace Pbc.Tiny

variable {W p a b : ℕ}

theorem cast_mod (p n : ℕ) : ((n % p : ℕ) : ZMod p) = n := by
  simp

/-- **C69.**  Addition, subtraction, negation, integer assignment and (with distinct output) doubling
are right for every modulus that fits a word, including those of full width, and give canonical
values. -/
theorem C69_add (hp : p < W) (ha : a < p) (hb : b < p) :
    (add W p a b < p ∧ (add W p a b : ZMod p) = a + b) ∧
    (sub W p a b < p ∧ (sub W p a b : ZMod p) = a - b) ∧
    (neg p a < p ∧ (neg p a : ZMod p) = -a) ∧
    (double W p false a < p ∧ (double W p false a : ZMod p) = 2 * a) := by
  have hp0 : 0 < p := by omega
  have hadd : ∀ a b, a < p → b < p → add W p a b < p ∧ (add W p a b : ZMod p) = a + b := by
    intro a b ha hb
    have key : ∃ l, add W p a b = l % p ∧ (l = a + b ∨ l + p = a + b) := by
      rw [add]
      by_cases h : a + b < W
      · rw [Nat.mod_eq_of_lt h, if_neg (by omega)]
        exact ⟨_, rfl, Or.inl rfl⟩
      · have h1 : (a + b) % W = a + b - W := by
          rw [Nat.mod_eq_sub_mod (by omega), Nat.mod_eq_of_lt (by omega)]
        rw [h1, if_pos (by omega)]
        refine ⟨_, rfl, Or.inr ?_⟩
        rw [Nat.mod_eq_of_lt (by omega)]
        omega
    obtain ⟨l, h1, h2⟩ := key
    rw [h1]
    refine ⟨Nat.mod_lt _ hp0, ?_⟩
    rw [cast_mod]
    rcases h2 with h2 | h2
    · rw [h2]; push_cast; ring
    · have := congrArg (Nat.cast (R := ZMod p)) h2
      push_cast at this
      rw [← this]; simp
  refine ⟨hadd a b ha hb, ?_, ?_, ?_⟩
  · rw [sub]
    by_cases h : b ≤ a
    · rw [if_pos h]
      exact ⟨by omega, by rw [Nat.cast_sub h]⟩
    · rw [if_neg h]
      have h1 : (p + W - b) % W = p - b := by
        rw [show p + W - b = (p - b) + W by omega, Nat.add_mod_right, Nat.mod_eq_of_lt (by omega)]
      rw [h1, Nat.mod_eq_of_lt (by omega)]
      refine ⟨by omega, ?_⟩
      rw [Nat.cast_add, Nat.cast_sub hb.le]; simp; ring
  · rw [neg]
    split_ifs with h
    · exact ⟨by omega, by rw [Nat.cast_sub ha.le]; simp⟩
    · have : a = 0 := by simpa using h
      subst this
      exact ⟨hp0, by simp⟩
  · have h2 : double W p false a = add W p a a := by
      simp only [double, add, two_mul]
      rfl
    rw [h2]
    have := hadd a a ha ha
    exact ⟨this.1, by rw [this.2]; ring⟩

/-- **C69.**  Inversion, powers and assignment of integers (GMP) are right. -/
theorem C69_invert [Fact p.Prime] (ha : a < p) (h0 : a ≠ 0) (n : ℕ) (z : ℤ) :
    (invert p a < p ∧ (invert p a : ZMod p) = (a : ZMod p)⁻¹) ∧
    (powMpz p a n < p ∧ (powMpz p a n : ZMod p) = (a : ZMod p) ^ n) ∧
    (setMpz p z < p ∧ (setMpz p z : ZMod p) = z) := by
  have hp : 0 < p := (Fact.out : p.Prime).pos
  have hz : ∀ z : ℤ, (z % (p : ℤ)).toNat < p ∧ (((z % (p : ℤ)).toNat : ℕ) : ZMod p) = z := by
    intro z
    have h1 := Int.emod_nonneg z (b := (p : ℤ)) (by omega)
    have h2 := Int.emod_lt_of_pos z (b := (p : ℤ)) (by omega)
    refine ⟨by omega, ?_⟩
    have : (((z % (p : ℤ)).toNat : ℤ) : ZMod p) = z := by
      rw [Int.toNat_of_nonneg h1]; simp
    exact_mod_cast this
  refine ⟨⟨(hz _).1, ?_⟩, ⟨Nat.mod_lt _ hp, by rw [powMpz, cast_mod]; push_cast; rfl⟩, hz z⟩
  rw [invert, (hz _).2]
  have hne : (a : ZMod p) ≠ 0 := by
    intro h
    rw [ZMod.natCast_eq_zero_iff] at h
    exact h0 (Nat.eq_zero_of_dvd_of_lt h ha)
  apply eq_inv_of_mul_eq_one_left
  have hg : Nat.gcd a p = 1 := by
    rw [Nat.gcd_comm]
    exact (Fact.out : p.Prime).coprime_iff_not_dvd.2 fun h => h0 (Nat.eq_zero_of_dvd_of_lt h ha)
  have hb := Nat.gcd_eq_gcd_ab a p
  rw [hg] at hb
  have := congrArg (Int.cast (R := ZMod p)) hb
  push_cast at this
  rw [this]
  simp [mul_comm]

/-- **C69.**  Multiplication is right when the product of the two values fits a word, in particular
for every `p` with `p * p ≤ W`. -/
theorem C69_mul_partial (hp : 0 < p) (h : a * b < W) :
    mul W p a b < p ∧ (mul W p a b : ZMod p) = a * b := by
  rw [mul, Nat.mod_eq_of_lt h]
  exact ⟨Nat.mod_lt _ hp, by rw [cast_mod]; push_cast; rfl⟩

/-- **C69, discrepancy.**  For an odd prime modulus, multiplication is wrong for *all* operands whose
product does not fit a word. -/
theorem C69_mul_fails [Fact p.Prime] {k : ℕ} (hW : W = 2 ^ k) (h2 : p ≠ 2) (hp : p < W) (ha : a < p)
    (hb : b < p) : (mul W p a b : ZMod p) = a * b ↔ a * b < W := by
  have hpp : p.Prime := Fact.out
  have hW0 : 0 < W := by omega
  refine ⟨fun h => ?_, fun h => (C69_mul_partial hpp.pos h).2⟩
  by_contra hc
  rw [mul, cast_mod] at h
  have hdm := Nat.div_add_mod (a * b) W
  have h3 := congrArg (Nat.cast (R := ZMod p)) hdm
  push_cast at h3
  rw [h, add_eq_right] at h3
  have h4 : (W : ZMod p) ≠ 0 := by
    rw [hW]
    push_cast
    refine pow_ne_zero _ ?_
    have := (ZMod.natCast_eq_zero_iff 2 p).not.2 (fun hd =>
      h2 ((Nat.prime_dvd_prime_iff_eq hpp Nat.prime_two).1 hd))
    exact_mod_cast this
  have h5 : ((a * b / W : ℕ) : ZMod p) = 0 := (mul_eq_zero.1 h3).resolve_left h4
  rw [ZMod.natCast_eq_zero_iff] at h5
  have h6 : a * b / W < p := by
    rw [Nat.div_lt_iff_lt_mul hW0]
    have : a * b < p * p := Nat.mul_lt_mul'' ha hb
    nlinarith
  have h7 : 0 < a * b / W := Nat.div_pos (by omega) hW0
  exact absurd (Nat.le_of_dvd h7 h5) (by omega)

/-- **C69, discrepancy.**  Multiplying by a negative `long` is wrong for every nonzero value: with an
odd prime modulus and `a * |op|` at most `W`, the result is never the product. -/
theorem C69_mul_si_fails [Fact p.Prime] {k : ℕ} (hW : W = 2 ^ k) (h2 : p ≠ 2) (n : ℕ)
    (hn : 0 < n) (ha : 0 < a) (h : a * n ≤ W) : (mulSi W p a (-n) : ZMod p) ≠ a * ((-n : ℤ) : ZMod p) := by
  have hpp : p.Prime := Fact.out
  have hW0 : 0 < W := by rw [hW]; positivity
  have han : 0 < a * n := Nat.mul_pos ha hn
  have h4 : (W : ZMod p) ≠ 0 := by
    rw [hW]
    push_cast
    refine pow_ne_zero _ ?_
    have := (ZMod.natCast_eq_zero_iff 2 p).not.2 (fun hd =>
      h2 ((Nat.prime_dvd_prime_iff_eq hpp Nat.prime_two).1 hd))
    exact_mod_cast this
  have h1 : ((a : ℤ) * (-(n : ℤ)) % (W : ℤ)) = (W : ℤ) - (a : ℤ) * n ∨ a * n = W := by
    by_cases he : a * n = W
    · exact Or.inr he
    · left
      have hlt : a * n < W := by omega
      have e : (a : ℤ) * (-(n : ℤ)) = ((W : ℤ) - (a : ℤ) * n) + (W : ℤ) * (-1) := by ring
      rw [e, Int.add_mul_emod_self_left]
      apply Int.emod_eq_of_lt
      · have : ((a * n : ℕ) : ℤ) < W := by exact_mod_cast hlt
        push_cast at this; linarith
      · have : (0 : ℤ) < ((a * n : ℕ) : ℤ) := by exact_mod_cast han
        push_cast at this; linarith
  rw [mulSi, cast_mod]
  intro hc
  rcases h1 with h1 | h1
  · rw [h1] at hc
    have e : ((W : ℤ) - (a : ℤ) * n).toNat = W - a * n := by
      have : ((a * n : ℕ) : ℤ) = (a : ℤ) * n := by push_cast; rfl
      rw [← this]; omega
    rw [e, Nat.cast_sub h] at hc
    push_cast at hc
    apply h4
    linear_combination hc
  · have e0 : ((a : ℤ) * (-(n : ℤ)) % (W : ℤ)) = 0 := by
      rw [← h1]; push_cast
      rw [mul_neg, Int.neg_emod, if_pos (dvd_refl _)]
    rw [e0] at hc
    apply h4
    have := congrArg (Nat.cast (R := ZMod p)) h1
    push_cast at this hc
    rw [← this]
    simp at hc
    rcases hc with hc | hc <;> simp [hc]

/-- **C69.**  `element_set_si`: right and canonical unless the argument is a negative multiple of the
modulus; then the stored value is `p` itself, which the zero test does not recognise.  The smallest
`long` overflows. -/
theorem C69_set_si (hp : 0 < p) (hpW : p < W) (op : ℤ) (hop : op.natAbs < W / 2) :
    ∃ v, setSi W p op = some v ∧ (v : ZMod p) = op ∧ (v < p ↔ ¬ (op < 0 ∧ (p : ℤ) ∣ op)) ∧
      ((op < 0 ∧ (p : ℤ) ∣ op) → v = p) := by
  by_cases h : op < 0
  · have hm := Nat.mod_lt op.natAbs hp
    have e : (p + W - op.natAbs % p) % W = p - op.natAbs % p := by
      rw [show p + W - op.natAbs % p = (p - op.natAbs % p) + W by omega, Nat.add_mod_right,
        Nat.mod_eq_of_lt (by omega)]
    refine ⟨p - op.natAbs % p, by rw [setSi, if_pos h, if_neg (by omega), e], ?_, ?_, ?_⟩
    · rw [Nat.cast_sub hm.le, cast_mod]
      have : op = -(op.natAbs : ℤ) := by omega
      conv_rhs => rw [this]
      push_cast
      simp
    · have hd : (p : ℤ) ∣ op ↔ op.natAbs % p = 0 := by
        rw [← Int.natAbs_dvd_natAbs, Int.natAbs_natCast, Nat.dvd_iff_mod_eq_zero]
      rw [hd]
      constructor
      · rintro h1 ⟨-, h2⟩; omega
      · intro h1
        have : op.natAbs % p ≠ 0 := fun h2 => h1 ⟨h, h2⟩
        omega
    · rintro ⟨-, hd⟩
      rw [← Int.natAbs_dvd_natAbs, Int.natAbs_natCast, Nat.dvd_iff_mod_eq_zero] at hd
      omega
  · refine ⟨op.natAbs % p, by rw [setSi, if_neg h], ?_, ?_, ?_⟩
    · rw [cast_mod]
      have : op = (op.natAbs : ℤ) := by omega
      conv_rhs => rw [this]
      rw [Int.cast_natCast]
    · simp [h, Nat.mod_lt _ hp]
    · rintro ⟨h', -⟩; exact absurd h' h

/-- **C69, discrepancy.**  Doubling in place loses the overflow: when `2 a` does not fit a word the
result is `2 a - W` reduced, wrong for every odd prime modulus. -/
theorem C69_double_alias_fails [Fact p.Prime] {k : ℕ} (hW : W = 2 ^ k) (h2 : p ≠ 2) (hp : p < W)
    (ha : a < p) : (double W p true a : ZMod p) = 2 * a ↔ 2 * a < W := by
  have hpp : p.Prime := Fact.out
  have h4 : (W : ZMod p) ≠ 0 := by
    rw [hW]
    push_cast
    refine pow_ne_zero _ ?_
    have := (ZMod.natCast_eq_zero_iff 2 p).not.2 (fun hd =>
      h2 ((Nat.prime_dvd_prime_iff_eq hpp Nat.prime_two).1 hd))
    exact_mod_cast this
  have e : double W p true a = 2 * a % W % p := by simp [double]
  rw [e, cast_mod]
  constructor
  · intro h
    by_contra hc
    have h1 : 2 * a % W = 2 * a - W := by
      rw [Nat.mod_eq_sub_mod (by omega), Nat.mod_eq_of_lt (by omega)]
    rw [h1, Nat.cast_sub (by omega)] at h
    apply h4
    push_cast at h
    linear_combination -h
  · intro h
    rw [Nat.mod_eq_of_lt h]; push_cast; rfl

theorem lengthLoop_spec (hp : p < 2 ^ 64) (f n : ℕ) (hn : n ≤ 8) (hf : n + f = 9 + 1) : ∃ m,
    lengthLoop (2 ^ 64) p f (256 ^ n - 1) n = some m ∧ m ≤ 8 ∧ p ≤ 256 ^ m := by
  induction f generalizing n with
  | zero => omega
  | succ f ih =>
    rw [lengthLoop]
    by_cases h : 256 ^ n - 1 < p
    · have hn8 : n < 8 := by
        rcases Nat.lt_or_ge n 8 with h8 | h8
        · exact h8
        · obtain rfl : n = 8 := by omega
          norm_num at h
          omega
      have hle : 256 ^ n * 256 ≤ 2 ^ 64 := by
        calc 256 ^ n * 256 = 256 ^ (n + 1) := (pow_succ _ _).symm
          _ ≤ 256 ^ 8 := Nat.pow_le_pow_right (by decide) hn8
          _ = 2 ^ 64 := by norm_num
      have hpos : 0 < 256 ^ n := by positivity
      have e : ((256 ^ n - 1) * 256 % 2 ^ 64 + 255) % 2 ^ 64 = 256 ^ (n + 1) - 1 := by
        rw [pow_succ, Nat.mod_eq_of_lt (by omega), Nat.mod_eq_of_lt (by omega)]
        omega
      rw [if_pos h, e]
      exact ih (n + 1) hn8 (by omega)
    · have : 0 < 256 ^ n := by positivity
      rw [if_neg h]
      exact ⟨n, rfl, hn, by omega⟩

/-- **C69.**  Bytes: the length is enough for every value and the round trip is exact.  Words of
64 bits. -/
theorem C69_bytes (hp : p < 2 ^ 64) : ∃ n, length (2 ^ 64) p = some n ∧ n ≤ 8 ∧
    ∀ a < p, (toBytes n a).length = n ∧ fromBytes (2 ^ 64) (toBytes n a) = a := by
  have hlen : ∃ n, length (2 ^ 64) p = some n ∧ n ≤ 8 ∧ p ≤ 256 ^ n := lengthLoop_spec hp 9 1 (by decide) rfl
  obtain ⟨n, h1, h2, h3⟩ := hlen
  refine ⟨n, h1, h2, fun a ha => ?_⟩
  have hl := toLimbs_limbs (β := 256) (by decide) n a
  refine ⟨by rw [toBytes, List.length_reverse, hl.1], ?_⟩
  have hv : importBE (toBytes n a) = a := by
    rw [importBE_eq_val, toBytes, List.reverse_reverse, val_toLimbs_of_lt (by omega)]
  -- no wrap-around
  have hfold : ∀ (l : List ℕ) (acc : ℕ), (∀ x ∈ l, x < 256) → (acc + 1) * 256 ^ l.length ≤ 2 ^ 64 →
      l.foldl (fun l b => (l * 256 % 2 ^ 64 + b) % 2 ^ 64) acc
        = l.foldl (fun acc b => 256 * acc + b) acc := by
    intro l
    induction l with
    | nil => intro _ _ _; rfl
    | cons x l ih =>
      intro acc hx hacc
      have hx0 := hx x (by simp)
      rw [List.length_cons, pow_succ] at hacc
      have hpos : 0 < 256 ^ l.length := by positivity
      have hb : (acc + 1) * 256 ≤ 2 ^ 64 := by
        nlinarith
      simp only [List.foldl_cons]
      rw [Nat.mod_eq_of_lt (by omega), Nat.mod_eq_of_lt (by omega), mul_comm acc 256]
      apply ih _ (fun y hy => hx y (by simp [hy]))
      calc (256 * acc + x + 1) * 256 ^ l.length ≤ ((acc + 1) * 256) * 256 ^ l.length :=
            Nat.mul_le_mul_right _ (by omega)
        _ = (acc + 1) * (256 ^ l.length * 256) := by ring
        _ ≤ 2 ^ 64 := hacc
  rw [fromBytes, hfold]
  · exact hv
  · intro x hx
    exact hl.2 x (by simpa [toBytes] using hx)
  · rw [toBytes, List.length_reverse, hl.1]
    calc (0 + 1) * 256 ^ n ≤ 256 ^ 8 := by
          rw [zero_add, one_mul]; exact Nat.pow_le_pow_right (by decide) h2
      _ = 2 ^ 64 := by norm_num

instance prime13 : Fact (Nat.Prime 13) := ⟨by norm_num⟩

example : (mul 16 13 5 4 : ZMod 13) ≠ 5 * 4 ∧ (double 16 13 true 9 : ZMod 13) ≠ 2 * 9 ∧
    (mulSi 16 13 1 (-3) : ZMod 13) ≠ 1 * (-3) := by
  have h1 := C69_mul_fails (p := 13) (W := 16) (a := 5) (b := 4) (k := 4) rfl (by decide) (by decide)
    (by decide) (by decide)
  have h2 := C69_double_alias_fails (p := 13) (W := 16) (a := 9) (k := 4) rfl (by decide) (by decide)
    (by decide)
  have h3 := C69_mul_si_fails (p := 13) (W := 16) (a := 1) (k := 4) rfl (by decide) 3 (by decide)
    (by decide) (by decide)
  refine ⟨fun h => absurd (h1.1 (by exact_mod_cast h)) (by decide),
    fun h => absurd (h2.1 (by exact_mod_cast h)) (by decide), fun h => h3 (by simpa using h)⟩

/-- Concrete cases: the modulus 251 and 16-bit words. -/
example : ((add 65536 251 200 100 : ZMod 251) = 200 + 100 ∧ (neg 251 200 : ZMod 251) = -200) ∧
    (invert 251 200 : ZMod 251) = (200 : ZMod 251)⁻¹ ∧ (powMpz 251 200 77 : ZMod 251) = 200 ^ 77 ∧
    (mul 65536 251 200 100 : ZMod 251) = 200 * 100 := by
  have : Fact (Nat.Prime 251) := ⟨by norm_num⟩
  have h1 := C69_add (W := 65536) (p := 251) (a := 200) (b := 100) (by decide) (by decide) (by decide)
  have h2 := C69_invert (p := 251) (a := 200) (by decide) (by decide) 77 0
  have h3 := C69_mul_partial (W := 65536) (p := 251) (a := 200) (b := 100) (by decide) (by decide)
  exact ⟨⟨h1.1.2, h1.2.2.1.2⟩, h2.1.2, h2.2.1.2, h3.2⟩

example : (∃ v, setSi 65536 251 (-1000) = some v ∧ (v : ZMod 251) = -1000 ∧ v < 251) ∧
    ∃ n, length (2 ^ 64) 251 = some n ∧ fromBytes (2 ^ 64) (toBytes n 200) = 200 := by
  obtain ⟨v, h1, h2, h3, -⟩ := C69_set_si (W := 65536) (p := 251) (by decide) (by decide) (-1000)
    (by decide)
  obtain ⟨n, h4, -, h5⟩ := C69_bytes (p := 251) (by decide)
  exact ⟨⟨v, h1, by simpa using h2, h3.2 (by decide)⟩, n, h4, (h5 200 (by decide)).2⟩

end Pbc.Tiny
