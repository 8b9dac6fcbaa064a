import Verif.Lemmas.FieldGeneric2
import Verif.Props.Fp
import Mathlib.Tactic.NormNum.Prime

/-!
# Properties of the generic field routines
-/

set_option autoImplicit false

namespace Props

open Spec Pbc

section hash

/-- **C11** (partial: the full claim is `z < limit`, which `C11_hash_hits_limit` refutes).  Hashing
to an integer ends with `z ≤ limit`, and `z` is the expanded digest shifted right by the least
number of bits that brings it down to the limit. -/
theorem C11_hash_range_partial (limit : ℕ) (data : List ℕ) :
    ∃ k, Gen.fromHash limit data ≤ limit ∧
      Gen.fromHash limit data
        = bytesVal ((List.range ((Gen.bits limit + 7) / 8)).map (hashStream data 0)) / 2 ^ k ∧
      ∀ j < k, limit <
        bytesVal ((List.range ((Gen.bits limit + 7) / 8)).map (hashStream data 0)) / 2 ^ j := by
  have hfill : Gen.hashFill data ((Gen.bits limit + 7) / 8) 0
      = (List.range ((Gen.bits limit + 7) / 8)).map (hashStream data 0) := by
    apply List.ext_getElem?
    intro i
    rcases lt_or_ge i ((Gen.bits limit + 7) / 8) with h | h
    · rw [Gen.hashFill_get _ _ _ _ h (by norm_num)]
      simp [h]
    · rw [List.getElem?_eq_none (by rw [Gen.hashFill_length]; exact h),
        List.getElem?_eq_none (by simpa using h)]
  obtain ⟨k, h1, h2, h3⟩ := Gen.hashShift_spec limit
    (importBE (Gen.hashFill data ((Gen.bits limit + 7) / 8) 0))
  have e : ∀ l, importBE l = bytesVal l := fun _ => rfl
  rw [← hfill, ← e]
  exact ⟨k, by rw [Gen.fromHash, h1]; exact h2, h1, h3⟩

/-- The full statement of C11 is false: for every limit, the digest equal to the encoding of the
limit is mapped to the limit itself. -/
theorem C11_hash_hits_limit (limit : ℕ) (_hl : 0 < limit) :
    ∃ data, data.length = (Gen.bits limit + 7) / 8 ∧ (∀ b ∈ data, b < 256) ∧
      Gen.fromHash limit data = limit := by
  have hlt : limit < 256 ^ ((Gen.bits limit + 7) / 8) := by
    have := Gen.lt_two_pow_bits limit
    refine this.trans_le ?_
    rw [show (256 : ℕ) = 2 ^ 8 by norm_num, ← pow_mul]
    exact Nat.pow_le_pow_right (by norm_num) (by omega)
  obtain ⟨l, _, h2, h3, h4⟩ := outRawN_spec hlt
  refine ⟨l, h2, h3, ?_⟩
  unfold Gen.fromHash
  rw [Gen.hashFill, dif_pos (by omega), ← h2, List.take_length, h4, Gen.hashShift, dif_neg (by omega)]

/-- `fp_from_hash` of the Montgomery backend (`/repo/arith/montfp.c:441-448`). -/
def montFromHash (F : Mont.Field) (c : Mont.El) (data : List ℕ) : Mont.El :=
  Mont.setMpz F c (Gen.fromHash F.p data : ℤ)

/-- `zp_from_hash` of the naive backend (`/repo/arith/naivefp.c:178-180`). -/
def naiveFromHash (p : ℕ) (data : List ℕ) : ℕ := Gen.fromHash p data

/-- **C11** for the Montgomery backend, in full: element_from_hash always gives a canonical
element. -/
theorem C11_mont_from_hash {w p : ℕ} (hw : 1 ≤ w) (hp : 1 < p) (hodd : p % 2 = 1)
    {m : Mont.Mem} {s : FpState p} (h : MontReach w p m s) (c : ℕ)
    (data : List ℕ) :
    ∃ z, z < p ∧ Mont.toMpz (Mont.init w p) (montFromHash (Mont.init w p) (m c) data) = some z ∧
      (z = Gen.fromHash p data ∨ z = 0 ∧ Gen.fromHash p data = p) ∧
      (Mont.is0 (montFromHash (Mont.init w p) (m c) data) = true ↔ z = 0) := by
  have ok := Mont.init_ok hw hp hodd
  have : NeZero p := ⟨by omega⟩
  have hr := Mont.setMpz_rep ok (montReach_rep hw hp hodd h c) (Gen.fromHash p data : ℤ)
  have hm := Mont.toMpz_rep ok hr
  have h0 := Mont.is0_rep ok hr
  have hz : ((Gen.fromHash (Mont.init w p).p data : ℤ) : ZMod (Mont.init w p).p).val
      = Gen.fromHash p data % p := by
    rw [Int.cast_natCast, ZMod.val_natCast]; rfl
  obtain ⟨k, hle, -, -⟩ := C11_hash_range_partial p data
  refine ⟨Gen.fromHash p data % p, Nat.mod_lt _ (by omega), ?_, ?_, ?_⟩
  · rw [← hz]; exact hm
  · rcases Nat.lt_or_eq_of_le hle with h | h
    · exact Or.inl (Nat.mod_eq_of_lt h)
    · right; rw [h]; simp
  · rw [← hz, ZMod.val_eq_zero]; exact h0

/-- C11 fails for the naive backend: there is a digest whose element is congruent to 0 and is not
recognised as 0 and not equal to the element 0. -/
theorem C11_naive_zero_not_zero (p : ℕ) (hp : 0 < p) :
    ∃ data, (∀ b ∈ data, b < 256) ∧ ((naiveFromHash p data : ℕ) : ZMod p) = 0 ∧
      naiveFromHash p data ≠ 0 ∧ Naive.cmp (naiveFromHash p data) 0 ≠ .eq := by
  obtain ⟨l, _, h2, h3⟩ := C11_hash_hits_limit p hp
  refine ⟨l, h2, ?_, ?_, ?_⟩
  · rw [naiveFromHash, h3]; simp
  · rw [naiveFromHash, h3]; omega
  · rw [naiveFromHash, h3, Naive.cmp]
    simp; omega

/-- **C12**: the expansion fills the buffer exactly, with `H ‖ 0 ‖ H ‖ 1 ‖ …`, whatever the
length of the digest. -/
theorem C12_hash_fill (data : List ℕ) (count : ℕ) :
    Gen.hashFill data count 0 = (List.range count).map (hashStream data 0) := by
  apply List.ext_getElem?
  intro i
  rcases lt_or_ge i count with h | h
  · rw [Gen.hashFill_get _ _ _ _ h (by norm_num)]
    simp [h]
  · rw [List.getElem?_eq_none (by rw [Gen.hashFill_length]; exact h),
      List.getElem?_eq_none (by simpa using h)]

example : (List.range 9).map (hashStream [10, 20, 30] 0) = [10, 20, 30, 0, 10, 20, 30, 1, 10] := by
  decide
example : (List.range 3).map (hashStream [] 0) = [0, 1, 2] := by decide

end hash

/-- **C13**: the fixed-width encoding has the width asked for and reads back. -/
theorem C13_out_raw_n (n z : ℕ) (h : z < 256 ^ n) :
    ∃ data, outRawN n z = some data ∧ data.length = n ∧ (∀ b ∈ data, b < 256) ∧
      bytesVal data = z :=
  outRawN_spec h

/-- The bound in C13 is necessary: anything larger is written outside the buffer. -/
theorem C13_out_of_bounds (n z : ℕ) (h : 256 ^ n ≤ z) : outRawN n z = none := outRawN_none h

example : outRawN 3 258 = some [0, 1, 2] := by decide

section text

/-- The base `pbc_mpz_set_str` works in. -/
def effectiveBase (base : ℕ) : ℕ := if base = 0 then 10 else base

/-- **C14**: value and length of the longest prefix of white space and digits. -/
theorem C14_set_str (s : List ℕ) (base : ℕ) (hb : base = 0 ∨ 2 ≤ base ∧ base ≤ 36) :
    Gen.setStr s base = (textValue (effectiveBase base) (numberPrefix (effectiveBase base) s),
      (numberPrefix (effectiveBase base) s).length) := by
  have hb' : effectiveBase base ≤ 36 := by unfold effectiveBase; split <;> omega
  have e : Gen.setStr s base = Gen.setStrLoop (effectiveBase base) s 0 0 := by
    unfold Gen.setStr effectiveBase
    by_cases h : base = 0
    · simp [h]
    · rw [if_neg h, if_neg h, if_neg (by omega)]
  rw [e, Gen.setStrLoop_spec]
  set b := effectiveBase base
  have hchar : ∀ c, Gen.okChar b c = (isSpaceByte c || (digitOf b c).isSome) := by
    intro c
    rw [digitOf_eq' b c hb', ← Gen.isSpace_eq]
    unfold Gen.okChar
    by_cases h0 : c = 0
    · subst h0; simp [Gen.isSpace, Gen.digitVal]
    · simp only [ne_eq, h0, not_false_eq_true, decide_true, Bool.true_and]
      cases Gen.digitVal c with
      | none => simp
      | some j => by_cases hj : j < b <;> simp [Option.filter, hj]
  have hpre : s.takeWhile (Gen.okChar b) = numberPrefix b s := by
    unfold numberPrefix
    congr 1
    funext c
    exact hchar c
  rw [hpre]
  have hfm : (numberPrefix b s).filterMap (fun c => if Gen.isSpace c then none else Gen.digitVal c)
      = (numberPrefix b s).filterMap (digitOf b) := by
    apply List.filterMap_congr
    intro c hc
    have hc := List.all_eq_true.1 List.all_takeWhile c hc
    rw [← hchar, Gen.okChar] at hc
    rw [Gen.digitOf_eq b c hb']
    by_cases hs : Gen.isSpace c = true
    · rw [if_pos hs]
      have : Gen.digitVal c = none := by
        unfold Gen.isSpace at hs
        unfold Gen.digitVal
        simp only [Bool.or_eq_true, decide_eq_true_eq, Bool.and_eq_true] at hs
        split_ifs <;> first | omega | rfl
      simp [this]
    · rw [if_neg hs]
      cases hv : Gen.digitVal c with
      | none => simp
      | some j =>
        rw [hv] at hc
        simp only [hs, Bool.false_or, Bool.and_eq_true, decide_eq_true_eq] at hc
        simp [Option.filter, hc.2]
  rw [hfm]
  rfl
where
  digitOf_eq' (b c : ℕ) (hb : b ≤ 36) := Gen.digitOf_eq b c hb

/-- Bases outside 2..36 read nothing. -/
theorem C14_bad_base (s : List ℕ) (base : ℕ) (h : base = 1 ∨ 36 < base) :
    Gen.setStr s base = (0, 0) := by
  unfold Gen.setStr
  rw [if_neg (by omega), if_pos (by omega)]

/-- The usual numeral of `n` in base `b`. -/
def numeral (b n : ℕ) : List ℕ :=
  if n = 0 then [48] else (Nat.digits b n).reverse.map fun d => ((digitChars[d]?).getD '0').toNat

theorem digitOf_digitChar (b d : ℕ) (hb : b ≤ 36) (hd : d < b) :
    digitOf b ((digitChars[d]?).getD '0').toNat = some d := by
  have : ∀ b < 37, ∀ d < b, digitOf b ((digitChars[d]?).getD '0').toNat = some d := by
    decide +kernel
  exact this b (by omega) d hd

/-- **C14**: printing and parsing gives the number back, whatever follows the numeral, as long as
the next character is not itself white space or a digit. -/
theorem C14_round_trip (base n : ℕ) (hb : 2 ≤ base ∧ base ≤ 36) (junk : List ℕ)
    (hj : ∀ c ∈ junk.head?, isSpaceByte c = false ∧ digitOf base c = none) :
    Gen.setStr (numeral base n ++ junk) base = (n, (numeral base n).length) := by
  have hdig : ∀ c ∈ numeral base n, (digitOf base c).isSome = true := by
    intro c hc
    unfold numeral at hc
    split at hc
    · rw [List.mem_singleton] at hc
      subst hc
      have := digitOf_digitChar base 0 hb.2 (by omega)
      have e : ((digitChars[0]?).getD '0').toNat = 48 := by decide
      rw [e] at this; rw [this]; rfl
    · obtain ⟨d, hd, rfl⟩ := List.mem_map.1 hc
      rw [digitOf_digitChar base d hb.2 (Nat.digits_lt_base (by omega) (List.mem_reverse.1 hd))]
      rfl
  have hpre : numberPrefix base (numeral base n ++ junk) = numeral base n := by
    unfold numberPrefix
    rw [List.takeWhile_append_of_pos (fun c hc => by simp [hdig c hc])]
    cases junk with
    | nil => simp
    | cons c t =>
      have := hj c (by simp)
      rw [List.takeWhile_cons]
      simp [this.1, this.2]
  rw [C14_set_str _ _ (Or.inr hb)]
  have e : effectiveBase base = base := by unfold effectiveBase; rw [if_neg (by omega)]
  rw [e, hpre]
  congr 1
  unfold textValue numeral
  split
  · rename_i h
    have := digitOf_digitChar base 0 hb.2 (by omega)
    have e : ((digitChars[0]?).getD '0').toNat = 48 := by decide
    rw [e] at this
    simp [this, h]
  · have : ((Nat.digits base n).reverse.map
        fun d => ((digitChars[d]?).getD '0').toNat).filterMap (digitOf base)
        = (Nat.digits base n).reverse := by
      rw [List.filterMap_map]
      conv_rhs => rw [← List.filterMap_some (l := (Nat.digits base n).reverse)]
      apply List.filterMap_congr
      intro d hd
      exact digitOf_digitChar base d hb.2 (Nat.digits_lt_base (by omega) (List.mem_reverse.1 hd))
    rw [this, List.foldl_reverse]
    conv_rhs => rw [← Nat.ofDigits_digits base n, Nat.ofDigits_eq_foldr]
    congr 1
    funext x y
    simp only [Nat.cast_id]
    ring

example : Gen.setStr (numeral 16 48879 ++ [44, 32, 49]) 16 = (48879, 4) :=
  C14_round_trip 16 48879 (by norm_num) [44, 32, 49] (by decide)
example : Gen.setStr [32, 49, 32, 50, 93] 10 = (12, 4) := by decide

/-- The digits of `n`, most significant first, padded with zeros to `len` places. -/
def paddedDigits (base len n : ℕ) : List ℕ :=
  List.replicate (len - (Nat.digits base n).length) 0 ++ (Nat.digits base n).reverse

theorem padded_eq (base : ℕ) (hb : 2 ≤ base) : ∀ (len n : ℕ), n < base ^ len →
    Gen.padded base len n = paddedDigits base len n
  | 0, n, h => by
    have : n = 0 := by simpa using h
    subst this; simp [Gen.padded, paddedDigits]
  | len + 1, n, h => by
    rw [Gen.padded, padded_eq base hb len (n / base) (by
      rw [Nat.div_lt_iff_lt_mul (by omega), ← pow_succ]; exact h)]
    by_cases h0 : n = 0
    · subst h0
      simp [paddedDigits, List.replicate_succ']
    · unfold paddedDigits
      rw [Nat.digits_def' (by omega) (Nat.pos_of_ne_zero h0)]
      simp

/-- What GMP promises for `mpz_sizeinbase`: the number of digits (1 for zero), or one more. -/
def SizeInBase (base n len : ℕ) : Prop :=
  len = max 1 (Nat.digits base n).length ∨ len = max 1 (Nat.digits base n).length + 1

theorem SizeInBase.lt {base n len : ℕ} (hb : 2 ≤ base) (h : SizeInBase base n len) :
    1 ≤ len ∧ n < base ^ len := by
  constructor
  · rcases h with h | h <;> omega
  · have := Nat.lt_base_pow_length_digits' (b := base - 2) (m := n)
    rw [show base - 2 + 2 = base by omega] at this
    refine this.trans_le (Nat.pow_le_pow_right (by omega) ?_)
    rcases h with h | h <;> omega

/-- **C15**: the callback receives the digits of `n`, most significant first (after one zero when
GMP's length estimate is one too large), until it returns nonzero, and that value is returned. -/
theorem C15_trickle {σ : Type*} (f : σ → ℕ → σ × ℕ) (base len n : ℕ) (st : σ)
    (hb : base = 0 ∨ 2 ≤ base ∧ base ≤ 10) (hl : SizeInBase (effectiveBase base) n len) :
    Gen.trickle f base len n st
      = some (feed f ((paddedDigits (effectiveBase base) len n).map (48 + ·)) st) := by
  have hb2 : 2 ≤ effectiveBase base ∧ effectiveBase base ≤ 10 := by
    unfold effectiveBase; split <;> omega
  obtain ⟨h1, hlt⟩ := hl.lt hb2.1
  unfold Gen.trickle
  have e : (if base = 0 then 10 else base) = effectiveBase base := rfl
  simp only [e]
  rw [if_neg (by omega), if_pos hlt]
  obtain ⟨l, rfl⟩ : ∃ l, len = l + 1 := ⟨len - 1, by omega⟩
  have hq : effectiveBase base ^ (l + 1) / effectiveBase base = effectiveBase base ^ l := by
    rw [pow_succ]; exact Nat.mul_div_cancel _ (by omega)
  rw [Nat.add_sub_cancel, hq, Gen.trickleLoop_eq f _ hb2.1 _ _ _ hlt, padded_eq _ hb2.1 _ _ hlt]

/-- **C15**: the digits emitted read back as `n`. -/
theorem C15_read_back (base len n : ℕ) :
    Nat.ofDigits base (paddedDigits base len n).reverse = n := by
  unfold paddedDigits
  rw [List.reverse_append, List.reverse_reverse, List.reverse_replicate, Nat.ofDigits_append,
    Nat.ofDigits_replicate_zero, mul_zero, add_zero, Nat.ofDigits_digits]

/-- With an exact length the text is the usual numeral. -/
theorem C15_exact (base n : ℕ) :
    (paddedDigits base (max 1 (Nat.digits base n).length) n) =
      if n = 0 then [0] else (Nat.digits base n).reverse := by
  unfold paddedDigits
  by_cases h : n = 0
  · simp [h]
  · have : 1 ≤ (Nat.digits base n).length := by
      rw [Nat.one_le_iff_ne_zero, ne_eq, List.length_eq_zero_iff, Nat.digits_eq_nil_iff_eq_zero]
      exact h
    rw [if_neg h, max_eq_right this]
    simp

example : Gen.trickle (fun (s : List ℕ) c => (s ++ [c], 0)) 10 3 105 [] = some ([49, 48, 53], 0) := by
  decide
example : Gen.trickle (fun (s : List ℕ) c => (s ++ [c], if c = 48 then 7 else 0)) 10 3 105 []
    = some ([49, 48], 7) := by decide
example : SizeInBase 10 105 3 ∧ SizeInBase 10 105 4 := by unfold SizeInBase; norm_num

end text

/-- **C16**: trial division ends, and the factors reported are a factorisation; all of them are
prime without a limit; with a limit only the last may be composite, and then it has no prime
factor up to the limit. -/
theorem C16_trial_divide {σ : Type*} (f : σ → ℕ → ℕ → σ × Bool) (limit : Option ℕ) (n : ℕ)
    (hn : 0 < n) (fuel : ℕ) (hfuel : 2 * n + 3 ≤ fuel) : ∃ fs, Factored limit 2 n fs ∧
      ∀ st, Gen.trialDivide f limit fuel n st = some (feedFactors f fs st) :=
  Gen.trialLoop_spec f limit n fuel 2 n hn le_rfl Nat.prime_two
    (fun r hr _ => hr.two_le) (by intro; omega) (by omega)

/-- **C16**: without a limit every prime factor is reported, and nothing else. -/
theorem C16_complete {n : ℕ} {fs : List (ℕ × ℕ)} (h : Factored none 2 n fs) (r : ℕ) :
    r ∈ fs.map Prod.fst ↔ r.Prime ∧ r ∣ n := by
  have hprime : ∀ x ∈ fs, x.1.Prime := by
    intro x hx
    rcases h.last x hx with h | ⟨l, h, -⟩
    · exact h
    · simp at h
  constructor
  · intro hr
    obtain ⟨x, hx, rfl⟩ := List.mem_map.1 hr
    refine ⟨hprime x hx, ?_⟩
    rw [← h.prod]
    have hm := h.mult x hx
    exact (dvd_pow_self x.1 (by omega)).trans (List.dvd_prod (List.mem_map.2 ⟨x, hx, rfl⟩))
  · rintro ⟨hr, hd⟩
    rw [← h.prod, hr.prime.dvd_prod_iff] at hd
    obtain ⟨y, hy, hry⟩ := hd
    obtain ⟨x, hx, rfl⟩ := List.mem_map.1 hy
    have := (Nat.prime_dvd_prime_iff_eq hr (hprime x hx)).1 (hr.dvd_of_dvd_pow hry)
    exact List.mem_map.2 ⟨x, hx, this.symm⟩

example : Factored none 2 60 [(2, 2), (3, 1), (5, 1)] := by
  constructor <;> simp <;> norm_num
example : Factored (some 2) 2 60 [(2, 2), (15, 1)] := by
  constructor <;> simp [Nat.prime_two]
  right
  intro r hr h15
  have := hr.two_le
  rcases Nat.lt_or_ge 2 r with h | h
  · exact h
  · obtain rfl : r = 2 := by omega
    norm_num at h15

/-- `pbc_trial_divide` never returns on 0: no number of iterations is enough. -/
theorem C16_zero_hangs {σ : Type*} (f : σ → ℕ → ℕ → σ × Bool) (fuel : ℕ) (st : σ) :
    Gen.trialDivide f none fuel 0 st = none := by
  unfold Gen.trialDivide
  cases fuel with
  | zero => rfl
  | succ fuel =>
    rw [Gen.trialLoop]
    simp [Nat.not_prime_zero, Gen.overLimit, Gen.divOut_zero]

section pow
variable {G : Type*} [Monoid G]

/-- **C17**: generic exponentiation. -/
theorem C17_pow (a : G) (n : ℕ) : Gen.powMpz a n = some (a ^ n) := Gen.powMpz_spec a n

/-- **C17**: for every window size, and without reading outside the table. -/
theorem C17_window (a : G) (n k : ℕ) (hk : 1 ≤ k) :
    Gen.powWind n k (Gen.buildWindow a k) = some (a ^ n) := Gen.powWind_spec a n k hk

example : Gen.powMpz (3 : ZMod 1009) 123456789 = some (3 ^ 123456789) := C17_pow _ _
example : Gen.powMpz (3 : ZMod 101) 77 = some (3 ^ 77) := by decide +kernel

/-- **C18**: simultaneous exponentiation. -/
theorem C18_pow2 {G : Type*} [CommMonoid G] (a1 a2 : G) (n1 n2 : ℕ) :
    Gen.pow2 a1 n1 a2 n2 = a1 ^ n1 * a2 ^ n2 := Gen.pow2_spec a1 n1 a2 n2

/-- **C18** for three bases. -/
theorem C18_pow3 {G : Type*} [CommMonoid G] (a1 a2 a3 : G) (n1 n2 n3 : ℕ) :
    Gen.pow3 a1 n1 a2 n2 a3 n3 = some (a1 ^ n1 * a2 ^ n2 * a3 ^ n3) :=
  Gen.pow3_spec a1 n1 a2 n2 a3 n3

example : Gen.pow2 (3 : ZMod 101) 5 7 100 = 3 ^ 5 * 7 ^ 100 := by decide +kernel

/-- **C19** (partial: the full claim drops the hypothesis; it is false in prime fields, see
`C19_fp_wrong`).  Exponentiation after preprocessing agrees with plain exponentiation when the
exponent is at most the declared order or the declared order annihilates the element (groups). -/
theorem C19_pp_pow_partial (a : G) (order n : ℕ) (ho : order ≠ 0)
    (h : n ≤ order ∨ a ^ order = 1) :
    Gen.powBaseTable (Gen.ppInit a order) order n = Gen.powMpz a n := by
  rw [C17_pow, Gen.powBaseTable_spec a order n (Or.inr ho)]
  split
  · rcases h with h | h
    · omega
    · conv_rhs => rw [← Nat.div_add_mod n order, pow_add, pow_mul, h, one_pow, one_mul]
  · rfl

/-- In every prime field with `p > 2` some exponent gives a wrong result: the exponent is reduced
modulo `p` although the elements have order dividing `p - 1`. -/
theorem C19_fp_wrong (p : ℕ) (hp : p.Prime) (h2 : p ≠ 2) :
    ∃ (a : ZMod p) (n : ℕ), Gen.powBaseTable (Gen.ppInit a p) p n ≠ Gen.powMpz a n := by
  have : Fact p.Prime := ⟨hp⟩
  refine ⟨2, p + 1, ?_⟩
  have hgt := hp.two_le
  rw [C17_pow, Gen.powBaseTable_spec _ _ _ (Or.inr hp.ne_zero), if_pos (by omega)]
  rw [Nat.add_mod_left, Nat.mod_eq_of_lt (by omega), pow_one, pow_succ, ZMod.pow_card]
  intro h
  have h := Option.some.inj h
  have h20 : (2 : ZMod p) ≠ 0 := by
    intro h0
    have : ((2 : ℕ) : ZMod p) = 0 := by exact_mod_cast h0
    rw [ZMod.natCast_eq_zero_iff] at this
    have := Nat.le_of_dvd (by norm_num) this
    omega
  have : (1 : ZMod p) = 2 := mul_left_cancel₀ h20 (by rw [mul_one]; exact h)
  have : (1 : ZMod p) = 0 := by linear_combination -this
  exact one_ne_zero this

/-- In the rings that declare order 0 (`Z`), the routine divides by zero for every positive
exponent. -/
theorem C19_order_zero (a : G) (n : ℕ) (hn : 0 < n) :
    Gen.powBaseTable (Gen.ppInit a 0) 0 n = none := by
  unfold Gen.powBaseTable
  rw [if_neg (by omega), if_pos (by omega)]

example : Gen.powBaseTable (Gen.ppInit (3 : ZMod 101) 101) 101 77 = some (3 ^ 77) := by
  decide +kernel
example : Gen.powBaseTable (Gen.ppInit (3 : ZMod 101) 100) 100 12345 = Gen.powMpz 3 12345 :=
  C19_pp_pow_partial _ _ _ (by norm_num) (Or.inr (by decide +kernel))

end pow

/-- **C20**: square roots.  In every finite field of odd order and for every nonresidue, the root
of a square (0 included) squares to it. -/
theorem C20_sqrt {K : Type*} [Field K] [Fintype K] [DecidableEq K] (hodd : Fintype.card K % 2 = 1)
    (nqr a : K) (hn : ¬ IsSquare nqr) (ha : IsSquare a) :
    Gen.tonelli (Fintype.card K) nqr a ^ 2 = a := by
  have hchar : ringChar K ≠ 2 := by
    intro h; have := FiniteField.even_card_iff_char_two.1 h; omega
  have hcard : 1 < Fintype.card K := Fintype.one_lt_card
  have hn0 : nqr ≠ 0 := by rintro rfl; exact hn ⟨0, by simp⟩
  have hdiv : (Fintype.card K - 1) / 2 = Fintype.card K / 2 := by omega
  by_cases h0 : a = 0
  · subst h0
    rw [Gen.tonelli_zero _ hodd hcard]; simp
  · rw [sq]
    apply Gen.tonelli_sq _ hodd hcard _ _ _ hn0
    · rw [hdiv]; exact (FiniteField.isSquare_iff hchar h0).1 ha
    · rw [hdiv]
      rcases FiniteField.pow_dichotomy hchar hn0 with h | h
      · exact absurd ((FiniteField.isSquare_iff hchar hn0).2 h) hn
      · exact h

instance : Fact (Nat.Prime 17) := ⟨by norm_num⟩
example : Gen.tonelli 17 (3 : ZMod 17) 13 ^ 2 = 13 :=
  C20_sqrt (K := ZMod 17) (by decide) 3 13 (by decide) (by decide)

/-- **C70**: generic subtraction under every aliasing. -/
theorem C70_sub {G : Type*} [AddCommGroup G] (m : ℕ → G) (c a b : ℕ) :
    Gen.sub m c a b = Function.update m c (m a - m b) := Gen.sub_spec m c a b

/-- **C70**: generic division under every aliasing. -/
theorem C70_div {G : Type*} [DivisionCommMonoid G] (m : ℕ → G) (c a b : ℕ) :
    Gen.div m c a b = Function.update m c (m a / m b) := Gen.div_spec m c a b

example : Gen.sub (fun i => (i : ℤ)) 5 5 7 5 = -2 ∧ Gen.sub (fun i => (i : ℤ)) 7 5 7 7 = -2 := by decide

end Props
