import Verif.Model.Z
import Verif.Lemmas.Bytes
import Mathlib.Algebra.Field.Rat
import Mathlib.Data.Rat.Cast.Defs
import Mathlib.Tactic.Ring
import Mathlib.Tactic.Linarith
import Mathlib.Tactic.FieldSimp
import Mathlib.Algebra.Group.Int.Even

/-!
# Properties of the integer ring
-/

set_option autoImplicit false

namespace Pbc.Z

open Spec

/-- The calls the integer ring can answer exactly: no halving, inverses of units, exact divisions. -/
def Exact (s : ℕ → ℚ) : RingOp → Prop
  | .halve _ _ => False
  | .invert _ a => s a = 1 ∨ s a = -1
  | .div _ a b => s b ≠ 0 ∧ ∃ k : ℤ, s a = k * s b
  | _ => True

/-- Every call of a program is exact in the state where it runs. -/
def AllExact : (ℕ → ℚ) → List RingOp → Prop
  | _, [] => True
  | s, o :: rest => Exact s o ∧ AllExact (o.step s) rest

theorem cast_update (s : ℕ → ℤ) (c : ℕ) (z : ℤ) (q : ℚ) (h : (z : ℚ) = q) :
    (fun i => ((Function.update s c z i : ℤ) : ℚ)) =
      Function.update (fun i => (s i : ℚ)) c q := by
  funext i
  by_cases hi : i = c
  · subst hi; simp [h]
  · simp [hi]

theorem step_exact {s : ℕ → ℤ} {o : RingOp} (h : Exact (fun i => (s i : ℚ)) o) :
    ∃ s', step s o = some s' ∧ (fun i => (s' i : ℚ)) = o.step (fun i => (s i : ℚ)) := by
  cases o with
  | halve c a => exact h.elim
  | invert c a =>
    refine ⟨_, rfl, cast_update _ _ _ _ ?_⟩
    simp only [Exact] at h
    have h1 : s a = 1 ∨ s a = -1 := by
      rcases h with h | h
      · left; exact_mod_cast h
      · right; exact_mod_cast h
    rcases h1 with h1 | h1 <;> simp [invert, RingOp.value, h1]
  | div c a b =>
    simp only [Exact] at h
    obtain ⟨hb, k, hk⟩ := h
    have hb' : s b ≠ 0 := by exact_mod_cast hb
    have hk' : s a = k * s b := by exact_mod_cast hk
    have hd : Int.tdiv (s a) (s b) = k := by rw [hk', Int.mul_tdiv_cancel _ hb']
    refine ⟨Function.update s c k, by simp [step, div, hb', hd], cast_update _ _ _ _ ?_⟩
    simp only [RingOp.value]
    rw [eq_div_iff hb, hk]
  | _ =>
    refine ⟨_, rfl, cast_update _ _ _ _ ?_⟩
    simp [RingOp.value]
    try ring

/-- **C22.**  Every program of calls on integer elements, with outputs and inputs overlapping in any
way, computes exactly: the variables hold what rational arithmetic gives, as long as only units are
inverted, only exact divisions are made and `element_halve` is not called (see `C22_halve_fails`). -/
theorem C22_ring_partial (s : ℕ → ℤ) (prog : List RingOp)
    (h : AllExact (fun i => (s i : ℚ)) prog) :
    ∃ s', run s prog = some s' ∧ ∀ i, (s' i : ℚ) = ringRun (fun i => (s i : ℚ)) prog i := by
  induction prog generalizing s with
  | nil => exact ⟨s, rfl, fun _ => rfl⟩
  | cons o rest ih =>
    obtain ⟨s1, h1, h1'⟩ := step_exact h.1
    obtain ⟨s2, h2, h2'⟩ := ih s1 (by rw [h1']; exact h.2)
    refine ⟨s2, by simp [run, h1, h2], fun i => ?_⟩
    rw [h2' i, h1']
    rfl

example : AllExact (fun i => ((fun _ => 6 : ℕ → ℤ) i : ℚ))
    [.mul 0 0 1, .setSi 1 (-1), .invert 2 1, .div 0 0 3] := by
  refine ⟨trivial, trivial, ?_, ⟨?_, 6, ?_⟩, trivial⟩
  · right; simp [RingOp.step, RingOp.dest, RingOp.value]
  · simp [RingOp.step, RingOp.dest, RingOp.value]
  · simp [RingOp.step, RingOp.dest, RingOp.value]

/-- **C22, discrepancy.**  `element_halve` gives zero for every integer that fits in memory: halving
an even number does not divide it by two. -/
theorem C22_halve_fails (a : ℤ) (h : a.natAbs < 2 ^ halveCount) : halve a = 0 := by
  have h2 : ((2 : ℤ) ^ halveCount).natAbs = 2 ^ halveCount := Int.natAbs_pow 2 _
  rw [halve, ← Int.natAbs_eq_zero, Int.natAbs_tdiv, h2]
  exact Nat.div_eq_of_lt h

example : halve 6 = 0 := C22_halve_fails 6 (by
  calc (6 : ℤ).natAbs < 2 ^ 3 := by decide
    _ ≤ 2 ^ halveCount := Nat.pow_le_pow_right (by decide) (by unfold halveCount; decide))

/-- **C22.**  A power by a nonnegative exponent below `2^64` is exact; a negative exponent is taken
by absolute value and a longer one loses its high bits. -/
theorem C22_pow (a : ℤ) (n : ℕ) :
    (n < 2 ^ 64 → powMpz a n = a ^ n) ∧ powMpz a (-n) = powMpz a n ∧
    powMpz a (n + 2 ^ 64) = powMpz a n := by
  refine ⟨fun h => ?_, ?_, ?_⟩
  · simp only [powMpz, Int.natAbs_natCast]; rw [Nat.mod_eq_of_lt h]
  · simp [powMpz]
  · have : ((n : ℤ) + 2 ^ 64).natAbs = n + 2 ^ 64 := by omega
    rw [powMpz, this, Nat.add_mod_right]; simp [powMpz]

/-- **C22.**  `element_is_sqr` accepts every perfect square, and the square root of a perfect square
is its nonnegative root. -/
theorem C22_sqrt (x : ℤ) : isSqr (x * x) ∧ sqrt (x * x) = some |x| := by
  refine ⟨⟨x, 2, by decide, (sq x).symm⟩, ?_⟩
  have : ¬ x * x < 0 := not_lt.2 (mul_self_nonneg x)
  rw [sqrt, if_neg this, Int.natAbs_mul, Nat.sqrt_eq, Int.abs_eq_natAbs]

/-- **C22, discrepancy.**  `element_is_sqr` also accepts every cube: it is not the test for
squares. -/
theorem C22_is_sqr_fails (x : ℤ) : isSqr (x ^ 3) ∧ isSqr (-(2 ^ 3 : ℤ)) ∧ ¬ IsSquare (-(2 ^ 3 : ℤ)) :=
  ⟨⟨x, 3, by decide, rfl⟩, ⟨-2, 3, by decide, by norm_num⟩, by
    rintro ⟨y, hy⟩
    nlinarith [mul_self_nonneg y]⟩

/-- `element_cmp` and `element_sign` follow the order of the integers. -/
theorem C22_cmp (a b : ℤ) : (cmp a b = 0 ↔ a = b) ∧ (0 < cmp a b ↔ b < a) ∧ (cmp a b < 0 ↔ a < b) ∧
    sgn a = cmp a 0 := by
  refine ⟨?_, ?_, ?_, ?_⟩
  · rw [cmp, Int.sign_eq_zero_iff_zero, sub_eq_zero]
  · rw [cmp, Int.sign_pos_iff, sub_pos]
  · rw [cmp, Int.sign_neg_iff, sub_neg]
  · rw [cmp, sub_zero]; rfl

/-! ### Bytes -/

theorem foldl_bytes (f : ℕ → ℕ) (n : ℕ) :
    (List.range n).foldl (fun z i => z + f i * 2 ^ (8 * (n - 1 - i))) 0
      = importBE ((List.range n).map f) := by
  suffices h : ∀ m, m ≤ n →
      (List.range m).foldl (fun z i => z + f i * 2 ^ (8 * (n - 1 - i))) 0
        = importBE ((List.range m).map f) * 2 ^ (8 * (n - m)) by
    simpa using h n le_rfl
  intro m
  induction m with
  | zero => intro _; simp [importBE]
  | succ m ih =>
    intro hm
    rw [List.range_succ, List.foldl_append, ih (by omega), List.map_append, importBE_append]
    have h1 : n - m = (n - (m + 1)) + 1 := by omega
    have h2 : n - 1 - m = n - (m + 1) := by omega
    simp only [List.foldl_cons, List.foldl_nil, List.map_cons, List.map_nil, List.length_cons,
      List.length_nil, importBE, h2]
    rw [h1, Nat.mul_add, pow_add]
    norm_num
    ring

theorem writeAt_out {buf : ℕ → ℕ} {pos : ℕ} {l : List ℕ} {i : ℕ}
    (h : i < pos ∨ pos + l.length ≤ i) : writeAt buf pos l i = buf i := by
  rw [writeAt, if_neg (by omega)]

theorem writeAt_in {buf : ℕ → ℕ} {pos : ℕ} {l : List ℕ} {i : ℕ} (h : i < l.length) :
    writeAt buf pos l (pos + i) = l[i] := by
  rw [writeAt, if_pos (by omega), Nat.add_sub_cancel_left, List.getD_eq_getElem _ _ h]

theorem map_writeAt (buf : ℕ → ℕ) (pos : ℕ) (l : List ℕ) :
    (List.range l.length).map (fun i => writeAt buf pos l (pos + i)) = l := by
  apply List.ext_getElem
  · simp
  · intro i h1 h2
    simp [writeAt_in h2]

theorem exported_spec {z : ℤ} (h : z ≠ 0) :
    (exported z).length = (sizeInBase2 z + 7) / 8 ∧ importBE (exported z) = z.natAbs ∧
      (∀ x ∈ exported z, x < 256) := by
  rw [exported, if_neg h, sizeInBase2, if_neg h]
  have hl := toLimbs_limbs (β := 256) (by decide) ((Nat.size z.natAbs + 7) / 8) z.natAbs
  refine ⟨?_, ?_, ?_⟩
  · rw [exportBE, List.length_reverse, hl.1]
  · rw [importBE_eq_val, exportBE, List.reverse_reverse, val_toLimbs_of_lt (lt_pow_count _)]
  · intro x hx
    exact hl.2 x (by simpa [exportBE] using hx)

/-- The payload written by `z_to_bytes` after the sign bit has been removed. -/
def payload (z : ℤ) : List ℕ := (if sizeInBase2 z % 8 = 0 then [0] else []) ++ exported z

theorem payload_head {z : ℤ} (h : z ≠ 0) : ∃ t rest, payload z = t :: rest ∧ t < 128 := by
  obtain ⟨hl, hv, hb⟩ := exported_spec h
  rw [payload]
  by_cases h8 : sizeInBase2 z % 8 = 0
  · exact ⟨0, exported z, by rw [if_pos h8]; rfl, by decide⟩
  · rw [if_neg h8]
    have hs : sizeInBase2 z = Nat.size z.natAbs := by rw [sizeInBase2, if_neg h]
    have hpos : 0 < sizeInBase2 z := by
      rw [hs]; exact Nat.size_pos.2 (Int.natAbs_pos.2 h)
    match hE : exported z with
    | [] => rw [hE] at hl; simp at hl; omega
    | t :: rest =>
      refine ⟨t, rest, rfl, ?_⟩
      rw [hE, importBE_cons] at hv
      rw [hE] at hl
      have hlt : z.natAbs < 2 ^ sizeInBase2 z := by rw [hs]; exact Nat.lt_size_self _
      have hle : sizeInBase2 z ≤ 8 * rest.length + 7 := by
        simp only [List.length_cons] at hl; omega
      have h3 : 2 ^ sizeInBase2 z ≤ 128 * 256 ^ rest.length := by
        calc 2 ^ sizeInBase2 z ≤ 2 ^ (8 * rest.length + 7) :=
              Nat.pow_le_pow_right (by decide) hle
          _ = 128 * 256 ^ rest.length := by
              rw [pow_add, pow_mul]; norm_num; ring
      by_contra hc
      have h4 : 128 * 256 ^ rest.length ≤ t * 256 ^ rest.length :=
        Nat.mul_le_mul_right _ (not_lt.1 hc)
      have h5 : t * 256 ^ rest.length ≤ z.natAbs := by rw [← hv, mul_comm]; exact Nat.le_add_right _ _
      omega

theorem payload_length {z : ℤ} (h : z ≠ 0) :
    (payload z).length + 4 = (toBytes (fun _ => 0) z).2 := by
  obtain ⟨hl, _, _⟩ := exported_spec h
  simp only [payload, toBytes, List.length_append, hl]
  split_ifs <;> simp <;> omega

theorem toBytes_count (buf : ℕ → ℕ) (z : ℤ) : (toBytes buf z).2 = (toBytes (fun _ => 0) z).2 := rfl

theorem importBE_payload {z : ℤ} (h : z ≠ 0) : importBE (payload z) = z.natAbs := by
  obtain ⟨_, hv, _⟩ := exported_spec h
  rw [payload]
  split_ifs
  · rw [List.singleton_append, importBE_cons, hv]; simp
  · simpa using hv

theorem or_and : ∀ t < 128, (t ||| 128) &&& 127 = t ∧ (t ||| 128) &&& 128 ≠ 0 ∧ t &&& 128 = 0 := by
  decide

/-- The buffer that `z_to_bytes` leaves: length, then the payload with the sign bit. -/
theorem toBytes_buf (buf : ℕ → ℕ) {z : ℤ} (h : z ≠ 0) {t : ℕ} {rest : List ℕ}
    (hp : payload z = t :: rest) :
    (∀ i < rest.length, (toBytes buf z).1 (5 + i) = rest.getD i 0) ∧
    (toBytes buf z).1 4 = (if z < 0 then t ||| 128 else t) ∧
    (let n := (payload z).length
     (toBytes buf z).1 0 = n / 2 ^ 24 % 256 ∧ (toBytes buf z).1 1 = n / 2 ^ 16 % 256 ∧
     (toBytes buf z).1 2 = n / 2 ^ 8 % 256 ∧ (toBytes buf z).1 3 = n % 256) ∧
    (∀ i, (toBytes buf z).2 ≤ i → (toBytes buf z).1 i = buf i) := by
  obtain ⟨hl, _, _⟩ := exported_spec h
  have hn := payload_length h
  -- the two blocks before the length
  have hb2 : ∀ i < (payload z).length,
      writeAt (if sizeInBase2 z % 8 = 0 then writeAt buf 4 [0] else buf)
        (if sizeInBase2 z % 8 = 0 then 5 else 4) (exported z) (4 + i) = (payload z).getD i 0 := by
    intro i hi
    rw [payload] at hi ⊢
    by_cases h8 : sizeInBase2 z % 8 = 0
    · simp only [h8, if_true] at hi ⊢
      cases i with
      | zero =>
        rw [writeAt_out (Or.inl (by omega))]
        rfl
      | succ i =>
        have hi' : i < (exported z).length := by simpa using hi
        rw [show 4 + (i + 1) = 5 + i by omega, writeAt_in hi']
        simp [hi']
    · simp only [h8, if_false, List.nil_append] at hi ⊢
      rw [writeAt_in hi, List.getD_eq_getElem _ _ hi]
  have hout : ∀ i, 4 + (payload z).length ≤ i →
      writeAt (if sizeInBase2 z % 8 = 0 then writeAt buf 4 [0] else buf)
        (if sizeInBase2 z % 8 = 0 then 5 else 4) (exported z) i = buf i := by
    intro i hi
    rw [payload] at hi
    by_cases h8 : sizeInBase2 z % 8 = 0
    · simp only [h8, if_true, List.length_append, List.length_cons, List.length_nil] at hi ⊢
      rw [writeAt_out (Or.inr (by omega)), writeAt_out (Or.inr (by simp; omega))]
    · simp only [h8, if_false, List.nil_append] at hi ⊢
      rw [writeAt_out (Or.inr (by omega))]
  have hlen : (payload z).length = rest.length + 1 := by rw [hp]; rfl
  have hn4 : (if sizeInBase2 z % 8 = 0 then 5 else 4) + (sizeInBase2 z + 7) / 8 - 4
      = (payload z).length := by
    have : (toBytes (fun _ => 0) z).2 =
      (if sizeInBase2 z % 8 = 0 then 5 else 4) + (sizeInBase2 z + 7) / 8 - 4 + 4 := rfl
    omega
  have h4 := hb2 0 (by omega)
  rw [hp] at h4
  refine ⟨?_, ?_, ?_, ?_⟩
  · intro i hi
    have := hb2 (i + 1) (by omega)
    rw [show 4 + (i + 1) = 5 + i by omega, hp, List.getD_cons_succ] at this
    rw [toBytes]
    dsimp only
    rw [writeAt_out (Or.inr (by simp; omega))]
    by_cases hz : z < 0
    · rw [if_pos hz, writeAt_out (Or.inr (by simp))]
      exact this
    · rw [if_neg hz]
      exact this
  · rw [toBytes]
    dsimp only
    rw [writeAt_out (Or.inr (by simp))]
    by_cases hz : z < 0
    · rw [if_pos hz, if_pos hz, writeAt, if_pos (by simp)]
      simp only [Nat.sub_self, List.getD_cons_zero]
      have : ∀ x, x = t → x ||| 128 = t ||| 128 := by rintro x rfl; rfl
      exact this _ (by simpa using h4)
    · rw [if_neg hz, if_neg hz]
      simpa using h4
  · dsimp only
    rw [toBytes]
    dsimp only
    rw [hn4]
    exact ⟨rfl, rfl, rfl, rfl⟩
  · intro i hi
    rw [toBytes_count] at hi
    have := hout i (by omega)
    rw [toBytes]
    dsimp only
    rw [writeAt_out (Or.inr (by simp; omega))]
    by_cases hz : z < 0
    · rw [if_pos hz, writeAt_out (Or.inr (by simp; omega))]
      exact this
    · rw [if_neg hz]
      exact this

/-- **C22.**  `element_to_bytes` followed by `element_from_bytes` gives the integer back, for every
nonzero integer whose encoding fits the 4-byte length, whatever was in the buffer; nothing is written
past the count returned.  (Zero: `C22_zero_fails`; the count that `element_from_bytes` returns:
`C22_from_bytes_count_fails`; the advertised length: `C22_length`.) -/
theorem C22_bytes_partial (buf : ℕ → ℕ) {z : ℤ} (h : z ≠ 0) (hn : (toBytes buf z).2 < 2 ^ 32) :
    (fromBytes (toBytes buf z).1).1 = z ∧
      ∀ i, (toBytes buf z).2 ≤ i → (toBytes buf z).1 i = buf i := by
  obtain ⟨t, rest, hp, ht⟩ := payload_head h
  obtain ⟨h1, h2, h3, h4⟩ := toBytes_buf buf h hp
  refine ⟨?_, h4⟩
  obtain ⟨hor, hor', hor''⟩ := or_and t ht
  have hpl := payload_length h
  rw [toBytes_count] at hn
  have hlen : (payload z).length = rest.length + 1 := by rw [hp]; rfl
  dsimp only at h3
  obtain ⟨h30, h31, h32, h33⟩ := h3
  have hN : (toBytes buf z).1 0 * 2 ^ 24 + (toBytes buf z).1 1 * 2 ^ 16
      + (toBytes buf z).1 2 * 2 ^ 8 + (toBytes buf z).1 3 = (payload z).length := by
    rw [h30, h31, h32, h33]; omega
  rw [fromBytes]
  dsimp only
  rw [hN]
  -- the bytes read
  have hread : ∀ b : ℕ → ℕ, b 4 = t → (∀ i < rest.length, b (5 + i) = rest.getD i 0) →
      (List.range (payload z).length).foldl
        (fun z' i => z' + b (4 + i) * 2 ^ (8 * ((payload z).length - 1 - i))) 0 = z.natAbs := by
    intro b hb4 hb5
    rw [foldl_bytes (fun i => b (4 + i)), ← importBE_payload h]
    congr 1
    apply List.ext_getElem
    · simp
    · intro i hi1 hi2
      simp only [List.getElem_map, List.getElem_range]
      cases i with
      | zero => simp [hb4, hp]
      | succ i =>
        have hi' : i < rest.length := by omega
        rw [show 4 + (i + 1) = 5 + i by omega, hb5 i hi']
        simp [hp, hi']
  by_cases hz : z < 0
  · rw [if_pos hz] at h2
    rw [h2, if_pos hor', if_pos hor', hread]
    · omega
    · rw [writeAt, if_pos (by simp)]
      simpa using hor
    · intro i hi
      rw [writeAt_out (Or.inr (by simp)), h1 i hi]
  · rw [if_neg hz] at h2
    rw [h2, if_neg (by rw [hor'']; simp), if_neg (by rw [hor'']; simp), hread _ h2 h1]
    omega

example : (fromBytes (toBytes (fun _ => 77) (-(2 ^ 15 : ℤ))).1).1 = -(2 ^ 15 : ℤ) :=
  (C22_bytes_partial _ (by norm_num) (by decide +kernel)).1

/-- **C22, discrepancy.**  `element_from_bytes` does not return the number of bytes that
`element_to_bytes` wrote: it leaves out the four bytes of the length. -/
theorem C22_from_bytes_count_fails (buf : ℕ → ℕ) {z : ℤ} (h : z ≠ 0)
    (hn : (toBytes buf z).2 < 2 ^ 32) :
    (fromBytes (toBytes buf z).1).2.2 + 4 = (toBytes buf z).2 := by
  obtain ⟨t, rest, hp, ht⟩ := payload_head h
  obtain ⟨-, -, h3, -⟩ := toBytes_buf buf h hp
  obtain ⟨h30, h31, h32, h33⟩ := h3
  have hpl := payload_length h
  rw [toBytes_count] at hn ⊢
  rw [fromBytes]
  dsimp only
  rw [h30, h31, h32, h33]
  omega

/-- **C22, discrepancy.**  The encoding of zero depends on what the buffer held: `mpz_export` writes
nothing, but one byte is announced.  Reading it back gives the old content of the fifth byte. -/
theorem C22_zero_fails (buf : ℕ → ℕ) (hb : buf 4 < 256) :
    (fromBytes (toBytes buf 0).1).1 =
      if buf 4 < 128 then (buf 4 : ℤ) else -(((buf 4 : ℤ)) - 128) := by
  have h4 : (toBytes buf 0).1 4 = buf 4 := by
    simp [toBytes, sizeInBase2, exported, writeAt]
  have h0 : (toBytes buf 0).1 0 = 0 ∧ (toBytes buf 0).1 1 = 0 ∧ (toBytes buf 0).1 2 = 0 ∧
      (toBytes buf 0).1 3 = 1 := by
    simp [toBytes, sizeInBase2, exported, writeAt]
  obtain ⟨h0, h1, h2, h3⟩ := h0
  rw [fromBytes]
  dsimp only
  rw [h0, h1, h2, h3, h4]
  have hand : ∀ t < 256, (t &&& 128 ≠ 0 ↔ ¬ t < 128) ∧ (¬ t < 128 → t &&& 127 = t - 128) := by
    decide +kernel
  obtain ⟨ha, hb'⟩ := hand _ hb
  by_cases hlt : buf 4 < 128
  · rw [if_neg (by rw [ha]; simpa using hlt), if_neg (by rw [ha]; simpa using hlt), if_pos hlt]
    simp [List.range_succ, h4]
  · rw [if_pos (ha.2 hlt), if_pos (ha.2 hlt), if_neg hlt, hb' hlt]
    simp [List.range_succ, writeAt]
    omega

/-- **C22.**  `element_length_in_bytes` is what `element_to_bytes` writes unless the number of bits is
a multiple of eight; then it is one byte too small. -/
theorem C22_length (buf : ℕ → ℕ) (z : ℤ) :
    (toBytes buf z).2 = lengthInBytes z + (if sizeInBase2 z % 8 = 0 then 1 else 0) := by
  rw [toBytes, lengthInBytes]
  dsimp only
  split_ifs <;> omega

example : (toBytes (fun _ => 0) 200).2 = 6 ∧ lengthInBytes 200 = 5 := by decide +kernel

end Pbc.Z
