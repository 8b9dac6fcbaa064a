import Verif.Model.RandomWin
import Verif.Props.Random
import Mathlib.SetTheory.Cardinal.Finite

/-! # C141: random numbers on Windows -/

set_option autoImplicit false

namespace Pbc.RandomWin

open Pbc.Random (byteCount mask Block bits draw outcome)

variable {limit : ℕ}

/-- A system that works: there is a keyset or one can be made, and `CryptGenRandom` delivers these blocks. -/
def Works (s : System) (bs : List (Block limit)) : Prop :=
  (s.open1 = none ∨ s.open1 = some 0x80090016 ∧ s.open2 = none) ∧ s.gen = bs.map fun b => some b.bytes

theorem Works.opened {s : System} {bs : List (Block limit)} (h : Works s bs) : opened s = true := by
  rcases h.1 with h | ⟨h, h'⟩ <;> simp [RandomWin.opened, h]
  simp [h']

/-- **C141.** Whatever the system does, a value that is stored by the loop is below the limit; the only other end is without a
provider, and then the variable keeps its value. -/
theorem C141_range (s : System) (junk : List ℕ) (old z : ℕ) (h : winRandom s limit junk old = some z) :
    z < limit ∨ opened s = false ∧ z = old := by
  rw [winRandom] at h
  split_ifs at h with h1 h2
  · left
    generalize s.gen = cs at h
    induction cs generalizing junk with
    | nil => simp [loop] at h
    | cons c cs ih =>
      rw [loop] at h
      split_ifs at h with h3
      · simp only [Option.some.injEq] at h; omega
      · exact ih _ h
  · right
    simp only [Option.some.injEq] at h
    exact ⟨by simpa using h1, h.symm⟩

theorem loop_blocks (bs : List (Block limit)) (buf : List ℕ) :
    loop limit buf (bs.map fun b => some b.bytes) = (bs.map draw).find? (fun z => decide (z < limit)) := by
  induction bs generalizing buf with
  | nil => rfl
  | cons b bs ih =>
    rw [List.map_cons, List.map_cons, loop]
    simp only [Option.getD_some, Random.importBE_mask b.length b.lt]
    by_cases hz : importBE b.bytes % 2 ^ bits limit < limit
    · rw [if_pos hz, List.find?_cons_of_pos (by rw [decide_eq_true_iff]; exact hz)]; rfl
    · rw [if_neg hz, List.find?_cons_of_neg (by rw [decide_eq_true_iff]; exact hz)]
      exact ih _

/-- **C141.** With a system that works the value is the one that a file with the same bytes gives on other systems (C68),
whatever is in the fresh buffers. -/
theorem C141_same (s : System) {k : ℕ} (b : Fin k → Block limit) (h : Works s (List.ofFn b))
    (hl : byteCount limit ≤ 0xffffffff) (junk junk' : List ℕ) (hj : junk'.length ≤ byteCount limit) (old : ℕ) :
    winRandom s limit junk old = outcome junk' b := by
  rw [winRandom, if_pos h.opened, if_pos hl, h.2, loop_blocks, outcome, Random.fileRandom, Random.loop_flat _ _ _ ?_ hj]
  have hpos : 0 < byteCount limit := by
    have := Random.bits_pos limit
    rw [byteCount]; omega
  have : ∀ bs : List (Block limit), bs.length ≤ (Random.flat bs).length := by
    intro bs
    induction bs with
    | nil => simp
    | cons b bs ih =>
      have : (Random.flat (b :: bs)).length = byteCount limit + (Random.flat bs).length := by
        rw [Random.flat, List.map_cons, List.flatten_cons, List.length_append, b.length]; rfl
      rw [this, List.length_cons]
      omega
  exact Nat.lt_succ_of_le (this _)

/-- **C141.** Uniformity: of all sequences of `k` blocks the system may deliver, equally many lead to each value below the
limit. -/
theorem C141_uniform (sys : List (Block limit) → System) (hs : ∀ bs, Works (sys bs) bs)
    (hl : byteCount limit ≤ 0xffffffff) (k : ℕ) (junk : List ℕ) (old : ℕ) {v w : ℕ} (hv : v < limit) (hw : w < limit) :
    Nat.card {b : Fin k → Block limit // winRandom (sys (List.ofFn b)) limit junk old = some v} =
      Nat.card {b : Fin k → Block limit // winRandom (sys (List.ofFn b)) limit junk old = some w} := by
  have e : ∀ b : Fin k → Block limit, winRandom (sys (List.ofFn b)) limit junk old = outcome [] b := fun b =>
    C141_same _ b (hs _) hl junk [] (Nat.zero_le _) old
  simp only [e]
  rw [Nat.card_eq_fintype_card, Nat.card_eq_fintype_card]
  exact Random.C68_uniform limit k [] (Nat.zero_le _) hv hw

theorem mask_mask (l : List ℕ) : mask limit (mask limit l) = mask limit l := by
  cases l with
  | nil => rfl
  | cons x l => simp only [mask]; split_ifs <;> simp

/-- **C141, discrepancy.** That `CryptGenRandom` failed is not noticed: then the value is what happens to be in the fresh
buffer, without any message, or the call never ends. -/
theorem C141_failure_fails (s : System) (ho : opened s = true) (hl : byteCount limit ≤ 0xffffffff) (n : ℕ)
    (hs : s.gen = List.replicate (n + 1) none) (junk : List ℕ) (old : ℕ) :
    winRandom s limit junk old =
      if importBE (mask limit junk) < limit then some (importBE (mask limit junk)) else none := by
  rw [winRandom, if_pos ho, if_pos hl, hs]
  clear hs
  induction n generalizing junk with
  | zero => simp [loop]
  | succ n ih =>
    rw [List.replicate_succ, loop]
    dsimp only [Option.getD_none]
    rw [ih, mask_mask]
    split_ifs <;> rfl

/-- A fresh keyset, two blocks of which the first is too large. -/
example : winRandom ⟨some 0x80090016, none, [some [7, 255], some [253, 1]]⟩ 1000 [9, 9] 5 = some 257 := by decide +kernel

/-- No provider. -/
example : winRandom ⟨some 5, none, [some [1, 1]]⟩ 1000 [9, 9] 5 = some 5 := by decide +kernel

/-- The contents of the buffer. -/
example : winRandom ⟨none, none, [none]⟩ 1000 [0, 42] 5 = some 42 := by decide +kernel

/-- A system that works. -/
example (bs : List (Block 1000)) : Works ⟨none, none, bs.map fun b => some b.bytes⟩ bs := ⟨.inl rfl, rfl⟩

end Pbc.RandomWin
