import Verif.Model.Random
import Verif.Lemmas.Bytes
import Mathlib.Data.Fintype.Pi
import Mathlib.Data.Fintype.Card
import Mathlib.Data.Fintype.EquivFin
import Mathlib.Logic.Equiv.Basic
import Mathlib.Tactic.Ring
import Mathlib.Tactic.Linarith
import Mathlib.Data.List.OfFn
import Mathlib.Data.Fintype.BigOperators

/-!
# Properties of the random number source
-/

set_option autoImplicit false

namespace Pbc.Random

variable {limit : ℕ}

/-- The stored value, if any. -/
def Result.out : Option Result → Option ℕ
  | some (.value z _) => some z
  | _ => none

theorem loop_range (f : ℕ) (buf file : List ℕ) (hf : file.length < f) :
    (loop limit f buf file = some .warn) ∨
      ∃ z rest, loop limit f buf file = some (.value z rest) ∧ z < limit ∧ rest <:+ file := by
  induction f generalizing buf file with
  | zero => omega
  | succ f ih =>
    rw [loop]
    dsimp only
    split_ifs with h1 h2
    · exact Or.inl rfl
    · exact Or.inr ⟨_, _, rfl, h2, List.drop_suffix _ _⟩
    · have hpos : 0 < byteCount limit ∧ file ≠ [] := by
        constructor
        · by_contra hc
          have : byteCount limit = 0 := by omega
          rw [this] at h1; simp at h1
        · rintro rfl; simp at h1
      have hlen : (file.drop (byteCount limit)).length < f := by
        have := List.length_pos_iff.2 hpos.2
        rw [List.length_drop]; omega
      rcases ih (mask limit (file.take (byteCount limit) ++
        buf.drop (file.take (byteCount limit)).length)) (file.drop (byteCount limit)) hlen with h | h
      · exact Or.inl h
      · obtain ⟨z, rest, e, hz, hr⟩ := h
        exact Or.inr ⟨z, rest, e, hz, hr.trans (List.drop_suffix _ _)⟩

/-- **C68.**  For every limit, every byte source and whatever the fresh buffer holds, the call ends;
if it stores a value, the value is below the limit (and the only other end is the end of the
source). -/
theorem C68_range (limit : ℕ) (junk file : List ℕ) :
    fileRandom limit junk file = some .warn ∨
      ∃ z rest, fileRandom limit junk file = some (.value z rest) ∧ z < limit ∧ rest <:+ file :=
  loop_range _ _ _ (Nat.lt_succ_self _)

/-- The bits of a number below `2 ^ n`, `pbc_mpz_randomb`. -/
theorem C68_randomb (n : ℕ) (junk file : List ℕ) (z : ℕ)
    (h : Result.out (fileRandomb n junk file) = some z) : z < 2 ^ n := by
  rw [fileRandomb] at h
  rcases C68_range (2 ^ n) junk file with h1 | ⟨z', rest, h1, h2, _⟩
  · rw [h1] at h; simp [Result.out] at h
  · rw [h1] at h
    simp only [Result.out, Option.some.injEq] at h
    omega

/-! ### Uniformity -/

/-- A block of bytes. -/
abbrev Block (limit : ℕ) := Fin (byteCount limit) → Fin 256

/-- The bytes of a block. -/
def Block.bytes (b : Block limit) : List ℕ := List.ofFn fun i => (b i : ℕ)

/-- The bytes of a list of blocks. -/
def flat (bs : List (Block limit)) : List ℕ := (bs.map Block.bytes).flatten

theorem Block.length (b : Block limit) : b.bytes.length = byteCount limit := by
  simp [Block.bytes]

theorem Block.lt (b : Block limit) : ∀ x ∈ b.bytes, x < 256 := by
  intro x hx
  obtain ⟨i, rfl⟩ := List.mem_ofFn.1 hx
  exact (b i).2

theorem bits_pos (limit : ℕ) : 0 < bits limit := by
  rw [bits]
  split_ifs with h
  · exact one_pos
  · exact Nat.size_pos.2 (Nat.pos_of_ne_zero h)

theorem importBE_mask {l : List ℕ} (hlen : l.length = byteCount limit) (hl : ∀ x ∈ l, x < 256) :
    importBE (mask limit l) = importBE l % 2 ^ bits limit := by
  have hb := bits_pos limit
  cases l with
  | nil => simp [byteCount] at hlen; omega
  | cons x rest =>
    simp only [List.length_cons, byteCount] at hlen
    have hr := importBE_lt (l := rest) fun y hy => hl y (by simp [hy])
    have h256 : (256 : ℕ) ^ rest.length = 2 ^ (8 * rest.length) := by rw [pow_mul]; norm_num
    have hx := hl x (by simp)
    rw [mask, importBE_cons, importBE_cons]
    by_cases h8 : bits limit % 8 = 0
    · rw [if_neg (by simpa using h8), Nat.mod_eq_of_lt]
      have hbits : bits limit = 8 * (rest.length + 1) := by omega
      rw [hbits, Nat.mul_add, pow_add, ← h256]
      norm_num
      nlinarith
    · rw [if_pos h8]
      have hbits : bits limit = 8 * rest.length + bits limit % 8 := by omega
      generalize hk : bits limit % 8 = k at *
      rw [hbits, pow_add, ← h256]
      generalize 256 ^ rest.length = B at *
      have hB : 0 < B := by omega
      rw [Nat.mod_mul, Nat.mul_add_mod, Nat.mod_eq_of_lt hr, Nat.mul_add_div hB,
        Nat.div_eq_of_lt hr, Nat.add_zero]
      ring

/-- The value of a block before the comparison. -/
def draw (b : Block limit) : ℕ := importBE b.bytes % 2 ^ bits limit

theorem loop_flat (bs : List (Block limit)) (f : ℕ) (buf : List ℕ) (hf : bs.length < f)
    (hbuf : buf.length ≤ byteCount limit) :
    Result.out (loop limit f buf (flat bs)) = (bs.map draw).find? (fun z => decide (z < limit)) := by
  induction bs generalizing f buf with
  | nil =>
    cases f with
    | zero => omega
    | succ f => simp [loop, flat, Result.out]
  | cons b bs ih =>
    cases f with
    | zero => omega
    | succ f =>
      have hpos : 0 < byteCount limit := by
        have := bits_pos limit
        rw [byteCount]; omega
      have htake : (flat (b :: bs)).take (byteCount limit) = b.bytes := by
        rw [flat, List.map_cons, List.flatten_cons, ← b.length, List.take_left]
      have hdrop : (flat (b :: bs)).drop (byteCount limit) = flat bs := by
        rw [flat, List.map_cons, List.flatten_cons, ← b.length, List.drop_left]; rfl
      have hne : b.bytes ≠ [] := by
        intro h; have := b.length; rw [h] at this; simp at this; omega
      rw [loop]
      dsimp only
      rw [htake, hdrop, if_neg hne, b.length, List.drop_eq_nil_of_le hbuf, List.append_nil,
        importBE_mask b.length b.lt]
      rw [List.map_cons]
      by_cases hz : importBE b.bytes % 2 ^ bits limit < limit
      · rw [if_pos hz, List.find?_cons_of_pos (by
          rw [decide_eq_true_iff]; exact hz)]
        rfl
      · rw [if_neg hz, List.find?_cons_of_neg (by
          rw [decide_eq_true_iff]; exact hz)]
        apply ih
        · simp at hf; omega
        · have : ∀ l : List ℕ, (mask limit l).length = l.length := by
            intro l; cases l <;> simp [mask]
          rw [this, b.length]

/-- Blocks are the numbers below `256 ^ byteCount`. -/
noncomputable def blockEquiv (limit : ℕ) : Block limit ≃ Fin (256 ^ byteCount limit) :=
  Equiv.ofBijective (fun b => ⟨importBE b.bytes, by
      have := importBE_lt b.lt; rwa [b.length] at this⟩) (by
    rw [Fintype.bijective_iff_injective_and_card]
    refine ⟨fun b b' h => ?_, by simp⟩
    have h1 : importBE b.bytes = importBE b'.bytes := by simpa using h
    have h2 := importBE_inj (by rw [b.length, b'.length]) b.lt b'.lt h1
    funext i
    have := List.ofFn_injective h2
    exact Fin.ext (congrFun this i))

theorem pow_split (limit : ℕ) :
    256 ^ byteCount limit = 2 ^ (8 * byteCount limit - bits limit) * 2 ^ bits limit := by
  rw [← pow_add, Nat.sub_add_cancel (by rw [byteCount]; omega), pow_mul]
  norm_num

/-- Exchange two values in the low bits of a number. -/
def exch (M v w N : ℕ) : ℕ := N / M * M + Equiv.swap v w (N % M)

theorem swap_lt {M v w n : ℕ} (hv : v < M) (hw : w < M) (hn : n < M) : Equiv.swap v w n < M := by
  rw [Equiv.swap_apply_def]
  split_ifs <;> assumption

theorem exch_mod {M v w N : ℕ} (hM : 0 < M) (hv : v < M) (hw : w < M) :
    exch M v w N % M = Equiv.swap v w (N % M) := by
  rw [exch, mul_comm, Nat.mul_add_mod, Nat.mod_eq_of_lt (swap_lt hv hw (Nat.mod_lt _ hM))]

theorem exch_exch {M v w N : ℕ} (hM : 0 < M) (hv : v < M) (hw : w < M) :
    exch M v w (exch M v w N) = N := by
  have h1 := exch_mod (N := N) hM hv hw
  have h2 : exch M v w N / M = N / M := by
    rw [exch, mul_comm, Nat.mul_add_div hM, Nat.div_eq_of_lt (swap_lt hv hw (Nat.mod_lt _ hM)),
      Nat.add_zero]
  conv_lhs => rw [exch]
  rw [h1, h2, Equiv.swap_apply_self, Nat.div_add_mod']

theorem exch_lt {M A v w N : ℕ} (hM : 0 < M) (hv : v < M) (hw : w < M) (hN : N < A * M) :
    exch M v w N < A * M := by
  have h1 : N / M < A := (Nat.div_lt_iff_lt_mul hM).2 hN
  have h2 := swap_lt hv hw (Nat.mod_lt N hM)
  rw [exch]
  calc N / M * M + _ < N / M * M + M := Nat.add_lt_add_left h2 _
    _ = (N / M + 1) * M := by ring
    _ ≤ A * M := Nat.mul_le_mul_right _ h1

/-- A permutation of the blocks which exchanges the draws `v` and `w`. -/
noncomputable def perm (limit v w : ℕ) (hv : v < 2 ^ bits limit) (hw : w < 2 ^ bits limit) :
    Equiv.Perm (Block limit) :=
  (blockEquiv limit).trans ((Function.Involutive.toPerm
    (fun N : Fin (256 ^ byteCount limit) => (⟨exch (2 ^ bits limit) v w N, by
      have := exch_lt (A := 2 ^ (8 * byteCount limit - bits limit)) (N := N)
        (by positivity) hv hw (by rw [← pow_split]; exact N.2)
      rwa [← pow_split] at this⟩ : Fin (256 ^ byteCount limit)))
    (fun N => Fin.ext (exch_exch (by positivity) hv hw))).trans (blockEquiv limit).symm)

theorem draw_perm {v w : ℕ} (hv : v < 2 ^ bits limit) (hw : w < 2 ^ bits limit) (b : Block limit) :
    draw (perm limit v w hv hw b) = Equiv.swap v w (draw b) := by
  have h : ((blockEquiv limit (perm limit v w hv hw b) : Fin _) : ℕ)
      = exch (2 ^ bits limit) v w (importBE b.bytes) := by
    simp only [perm, Equiv.trans_apply, Equiv.apply_symm_apply]
    rfl
  have h' : importBE (perm limit v w hv hw b).bytes
      = exch (2 ^ bits limit) v w (importBE b.bytes) := h
  rw [draw, h', exch_mod (by positivity) hv hw, draw]

theorem lt_two_pow_bits {v : ℕ} (h : v < limit) : v < 2 ^ bits limit := by
  rw [bits, if_neg (by omega)]
  exact lt_trans h (Nat.lt_size_self _)

/-- The outcome of a call on a source that is a sequence of `k` blocks. -/
def outcome (junk : List ℕ) {k : ℕ} (s : Fin k → Block limit) : Option ℕ :=
  Result.out (fileRandom limit junk (flat (List.ofFn s)))

/-- **C68.**  Uniformity: among all byte sources of `k` blocks (the number of bytes one round reads),
every value below the limit comes out of the same number of sources. -/
theorem C68_uniform (limit k : ℕ) (junk : List ℕ) (hj : junk.length ≤ byteCount limit) {v w : ℕ}
    (hv : v < limit) (hw : w < limit) :
    Fintype.card {s : Fin k → Block limit // outcome junk s = some v} =
      Fintype.card {s : Fin k → Block limit // outcome junk s = some w} := by
  have hv' := lt_two_pow_bits hv
  have hw' := lt_two_pow_bits hw
  have hout : ∀ s : Fin k → Block limit, outcome junk s =
      ((List.ofFn s).map draw).find? (fun z => decide (z < limit)) := by
    intro s
    refine loop_flat _ _ _ ?_ hj
    have hlen : ∀ bs : List (Block limit), bs.length ≤ (flat bs).length := by
      intro bs
      induction bs with
      | nil => simp
      | cons b bs ih =>
        have hpos : 0 < byteCount limit := by
          have := bits_pos limit
          rw [byteCount]; omega
        have : (flat (b :: bs)).length = byteCount limit + (flat bs).length := by
          rw [flat, List.map_cons, List.flatten_cons, List.length_append, b.length]; rfl
        rw [this, List.length_cons]
        omega
    exact Nat.lt_succ_of_le (hlen _)
  have hfind : ∀ l : List ℕ, (l.map (Equiv.swap v w)).find? (fun z => decide (z < limit))
      = (l.find? (fun z => decide (z < limit))).map (Equiv.swap v w) := by
    intro l
    induction l with
    | nil => rfl
    | cons a l ih =>
      have hiff : Equiv.swap v w a < limit ↔ a < limit := by
        constructor
        · intro h
          have := swap_lt hv hw h
          rwa [Equiv.swap_apply_self] at this
        · exact swap_lt hv hw
      rw [List.map_cons]
      by_cases ha : a < limit
      · rw [List.find?_cons_of_pos (by simpa using hiff.2 ha),
          List.find?_cons_of_pos (by simpa using ha)]
        rfl
      · rw [List.find?_cons_of_neg (by simpa using fun h => ha (hiff.1 h)),
          List.find?_cons_of_neg (by simpa using ha), ih]
  let σ := perm limit v w hv' hw'
  have hσ : ∀ s : Fin k → Block limit,
      outcome junk (fun i => σ (s i)) = (outcome junk s).map (Equiv.swap v w) := by
    intro s
    rw [hout, hout, ← hfind]
    congr 1
    apply List.ext_getElem
    · simp
    · intro i h1 h2
      simp [σ, draw_perm]
  refine Fintype.card_congr
    ((Equiv.subtypeEquiv (Equiv.piCongrRight fun _ : Fin k => σ) fun s => ?_))
  have hs : (Equiv.piCongrRight fun _ : Fin k => σ) s = fun i => σ (s i) := rfl
  rw [hs, hσ]
  constructor
  · intro h; rw [h]; simp
  · intro h
    rw [Option.map_eq_some_iff] at h
    obtain ⟨a, ha, h⟩ := h
    rw [ha]
    have h' := congrArg (Equiv.swap v w) h
    rw [Equiv.swap_apply_self, Equiv.swap_apply_right] at h'
    rw [h']

/-- Non-vacuity of uniformity: every value below the limit does come out, at the first round. -/
theorem C68_reachable {v : ℕ} (hv : v < limit) (junk : List ℕ)
    (hj : junk.length ≤ byteCount limit) :
    ∃ b : Block limit, outcome junk (fun _ : Fin 1 => b) = some v := by
  have hv' := lt_two_pow_bits hv
  have hlt : v < 256 ^ byteCount limit := by
    rw [pow_split]
    exact lt_of_lt_of_le hv' (Nat.le_mul_of_pos_left _ (by positivity))
  obtain ⟨b, hb⟩ := (blockEquiv limit).surjective ⟨v, hlt⟩
  refine ⟨b, ?_⟩
  have hb' : importBE b.bytes = v := congrArg Fin.val hb
  have hlen : 0 < (flat [b]).length := by
    have hpos : 0 < byteCount limit := by
      have := bits_pos limit
      rw [byteCount]; omega
    simp [flat, b.length, hpos]
  have := loop_flat [b] ((flat [b]).length + 1) junk (by simp; omega) hj
  have e : outcome junk (fun _ : Fin 1 => b) = Result.out (loop limit ((flat [b]).length + 1) junk
      (flat [b])) := by
    rw [outcome, fileRandom]; simp
  rw [e, this]
  simp [draw, hb', Nat.mod_eq_of_lt hv', hv]

/-- **C68, discrepancy.**  A short read is not noticed: the missing bytes are taken from the
uninitialised buffer.  With one byte left in the source and a two-byte limit, the result is decided by
the buffer's second byte. -/
theorem C68_short_read_fails (b j₀ j₁ : ℕ) (hb : b < 128) (h0 : j₁ < 256) :
    Result.out (fileRandom (2 ^ 15 + 1) [j₀, j₁] [b]) = some (256 * b + j₁) := by
  have hbits : bits (2 ^ 15 + 1) = 16 := by decide +kernel
  have hbc : byteCount (2 ^ 15 + 1) = 2 := by rw [byteCount, hbits]
  have hlt : b * 256 + j₁ < 2 ^ 15 + 1 := by omega
  simp only [fileRandom, loop, hbc, mask, hbits, importBE]
  simp
  rw [if_pos (by omega)]
  rfl

example : Fintype.card {s : Fin 1 → Block 3 // outcome [] s = some 0} =
    Fintype.card {s : Fin 1 → Block 3 // outcome [] s = some 2} :=
  C68_uniform 3 1 [] (by simp) (by decide) (by decide)

/-- Every value below the limit can come out at the first try. -/
example : ∃ b : Block 300, outcome [255] (fun _ : Fin 1 => b) = some 299 :=
  C68_reachable (limit := 300) (v := 299) (by decide) [255] (by decide)

end Pbc.Random
