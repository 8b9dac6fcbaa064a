import Verif.Model.Memory
import Mathlib.Tactic.Ring
import Mathlib.Tactic.Linarith

/-!
# Lemmas on the allocator

Exact results of the calls on heaps whose blocks have the shape the allocator gives them.
-/

set_option autoImplicit false

namespace Pbc.Memory

theorem bytes_length (c n : ℕ) : (bytes c n).length = c := by
  induction c generalizing n with
  | zero => rfl
  | succ c ih => simp [bytes, ih]

theorem number_bytes (c n : ℕ) : number (bytes c n) = n % 256 ^ c := by
  induction c generalizing n with
  | zero => simp [bytes, number, Nat.mod_one]
  | succ c ih =>
    rw [bytes, number, ih, pow_succ, mul_comm (256 ^ c) 256, Nat.mod_mul]

theorem number_bytes8 {n : ℕ} (h : n < 2 ^ 64) : number (bytes 8 n) = n := by
  rw [number_bytes, Nat.mod_eq_of_lt (by norm_num at h ⊢; exact h)]

/-- How a block of the system holds the bytes `c` of the program. -/
def Blk (safe : Bool) (b c : List ℕ) : Prop :=
  if safe then b = bytes 8 c.length ++ c ∧ c.length + 8 < 2 ^ 64 else b = c

theorem Heap.put_same (H : Heap) (k : ℕ) (b : Option (List ℕ)) : (H.put k b).live k = b := by
  simp [Heap.put]

theorem Heap.put_other (H : Heap) {k j : ℕ} (b : Option (List ℕ)) (h : j ≠ k) :
    (H.put k b).live j = H.live j := by
  simp [Heap.put, h]

theorem Heap.put_put (H : Heap) (k : ℕ) (b b' : Option (List ℕ)) :
    (H.put k b).put k b' = H.put k b' := by
  simp only [Heap.put]
  congr 1
  funext j
  by_cases h : j = k <;> simp [h]

theorem store_val {H : Heap} {k : ℕ} {a m c l : List ℕ} (h : H.live k = some (a ++ m ++ c))
    (hl : l.length = m.length) : store H k a.length l = .val (H.put k (some (a ++ l ++ c))) := by
  rw [store, h]
  simp only [List.length_append]
  rw [if_pos (by omega)]
  congr 4
  · simp [List.take_append]
  · rw [hl, ← List.length_append, List.drop_left]

theorem store_ub {H : Heap} {k o : ℕ} {b l : List ℕ} (h : H.live k = some b)
    (hl : b.length < o + l.length) : store H k o l = .ub := by
  rw [store, h]
  simp only
  rw [if_neg (by omega)]

theorem load_val {H : Heap} {k : ℕ} {a m c : List ℕ} (h : H.live k = some (a ++ m ++ c)) :
    load H k a.length m.length = .val m := by
  rw [load, h]
  simp only [List.length_append]
  rw [if_pos (by omega)]
  simp

/-! ### The calls of the C library -/

/-- What a block contains when it is handed out. -/
def raw (E : Env) (k n : ℕ) : List ℕ := (List.range n).map (E.junk k)

theorem raw_length (E : Env) (k n : ℕ) : (raw E k n).length = n := by simp [raw]

/-- The heap with a new block. -/
def Heap.grow (H : Heap) (b : List ℕ) : Heap := { H.put H.next (some b) with next := H.next + 1 }

theorem Heap.grow_live (H : Heap) (b : List ℕ) (j : ℕ) :
    (H.grow b).live j = if j = H.next then some b else H.live j := rfl

theorem Heap.grow_put (H : Heap) (b b' : List ℕ) : (H.grow b).put H.next (some b') = H.grow b' := by
  simp only [Heap.put, Heap.grow]
  congr 1
  funext j
  by_cases h : j = H.next <;> simp [h]

theorem sysMalloc_ok {E : Env} {H : Heap} {n : ℕ} (h : E.ok H.next n = true) :
    sysMalloc E H n = (some H.next, H.grow (raw E H.next n)) := by
  rw [sysMalloc, if_pos h]
  rfl

theorem sysMalloc_no {E : Env} {H : Heap} {n : ℕ} (h : ¬ E.ok H.next n = true) :
    sysMalloc E H n = (none, H) := by
  rw [sysMalloc, if_neg h]

/-- The heap after a block is given back. -/
def Heap.drop (H : Heap) (k : ℕ) (b : List ℕ) : Heap := { H.put k none with freed := b :: H.freed }

theorem sysFree_val {H : Heap} {k : ℕ} {b : List ℕ} (h : H.live k = some b) :
    sysFree H k = .val (H.drop k b) := by
  rw [sysFree, h]
  rfl

/-! ### With `SAFE_CLEAN` -/

theorem memGetSize_val {H : Heap} {k : ℕ} {b c : List ℕ} (h : H.live k = some b)
    (hb : Blk true b c) : memGetSize H k = .val c.length := by
  obtain ⟨rfl, hc⟩ := hb
  have := load_val (H := H) (k := k) (a := []) (m := bytes 8 c.length) (c := c) (by simpa using h)
  rw [bytes_length] at this
  rw [memGetSize, show (0 : ℕ) = ([] : List ℕ).length from rfl, this]
  simp only [Res.bind]
  rw [number_bytes8 (by omega)]

theorem memFree_val {H : Heap} {k : ℕ} {b c : List ℕ} (h : H.live k = some b) (hb : Blk true b c) :
    memFree H k = .val (H.drop k (List.replicate (c.length + 8) 0)) := by
  have hg := memGetSize_val h hb
  obtain ⟨rfl, hc⟩ := hb
  rw [memFree, hg]
  simp only [Res.bind]
  rw [show sz (c.length + 8) = c.length + 8 from Nat.mod_eq_of_lt hc]
  have := store_val (H := H) (k := k) (a := []) (m := bytes 8 c.length ++ c) (c := [])
    (l := List.replicate (c.length + 8) 0) (by simpa using h) (by simp [bytes_length]; omega)
  rw [List.length_nil] at this
  rw [zero, this]
  simp only [List.nil_append, List.append_nil]
  rw [sysFree_val (b := List.replicate (c.length + 8) 0) (Heap.put_same _ _ _)]
  simp only [Heap.drop, Heap.put_put]
  rfl

theorem memMalloc_val {E : Env} {H : Heap} {n : ℕ} (hn : n + 8 < 2 ^ 64) :
    memMalloc E H n = if E.ok H.next (n + 8) = true then
      .val (some H.next, H.grow (bytes 8 n ++ (raw E H.next (n + 8)).drop 8))
    else .val (none, H) := by
  rw [memMalloc, show sz (n + 8) = n + 8 from Nat.mod_eq_of_lt hn]
  split_ifs with h
  · rw [sysMalloc_ok h]
    simp only
    have := store_val (H := H.grow (raw E H.next (n + 8))) (k := H.next) (a := [])
      (m := (raw E H.next (n + 8)).take 8) (c := (raw E H.next (n + 8)).drop 8) (l := bytes 8 n)
      (by rw [List.nil_append, List.take_append_drop, Heap.grow_live, if_pos rfl])
      (by rw [bytes_length, List.length_take, raw_length]; omega)
    rw [memSetSize, show (0 : ℕ) = ([] : List ℕ).length from rfl, this, Heap.grow_put]
    rfl
  · rw [sysMalloc_no h]

theorem memMalloc_wrap {E : Env} {H : Heap} {n : ℕ} (hn : 2 ^ 64 ≤ n + 8) (hn' : n < 2 ^ 64) :
    memMalloc E H n = if E.ok H.next (sz (n + 8)) = true then .ub else .val (none, H) := by
  rw [memMalloc]
  have h8 : sz (n + 8) < 8 := by
    unfold sz
    omega
  split_ifs with h
  · rw [sysMalloc_ok h]
    simp only
    rw [memSetSize, store_ub (b := raw E H.next (sz (n + 8)))
      (by rw [Heap.grow_live, if_pos rfl]) (by rw [raw_length, bytes_length]; omega)]
    rfl
  · rw [sysMalloc_no h]

/-! ### The calls of the library -/

/-- `pbc_malloc` either ends the process, or runs into the wrap of the size, or adds a block. -/
theorem pbcMalloc_cases (safe : Bool) (E : Env) (H : Heap) {n : ℕ} (hn : n < 2 ^ 64) :
    pbcMalloc safe E H n = .die ∨
    (safe = true ∧ 2 ^ 64 ≤ n + 8 ∧ pbcMalloc safe E H n = .ub) ∨
    ∃ b c, Blk safe b c ∧ c.length = n ∧ pbcMalloc safe E H n = .val (H.next, H.grow b) := by
  cases safe
  · simp only [pbcMalloc, plainMalloc]
    by_cases h : E.ok H.next n = true
    · right; right
      refine ⟨raw E H.next n, raw E H.next n, rfl, raw_length _ _ _, ?_⟩
      rw [sysMalloc_ok h]
      rfl
    · left
      rw [sysMalloc_no h]
      rfl
  · simp only [pbcMalloc, safeMalloc, if_true]
    by_cases hw : n + 8 < 2 ^ 64
    · rw [memMalloc_val hw]
      by_cases h : E.ok H.next (n + 8) = true
      · right; right
        refine ⟨_, (raw E H.next (n + 8)).drop 8, ⟨rfl, ?_⟩, ?_, ?_⟩
        · simp [raw_length]; omega
        · simp [raw_length]
        · rw [if_pos h]
          simp [Res.bind, raw_length]
      · left
        rw [if_neg h]
        rfl
    · rw [memMalloc_wrap (by omega) hn]
      split_ifs with h
      · right; left
        exact ⟨trivial, by omega, rfl⟩
      · left; rfl

theorem pbcFree_val {safe : Bool} {H : Heap} {k : ℕ} {b c : List ℕ} (h : H.live k = some b)
    (hb : Blk safe b c) :
    pbcFree safe H (some k) =
      .val (H.drop k (if safe then List.replicate (c.length + 8) 0 else c)) := by
  cases safe
  · obtain rfl : b = c := by simpa [Blk] using hb
    simpa [pbcFree, plainFree] using sysFree_val h
  · simpa [pbcFree, safeFree] using memFree_val h hb

theorem memGetSize_ub {H : Heap} {k : ℕ} (h : H.live k = none) : memGetSize H k = .ub := by
  simp [memGetSize, load, h, Res.bind]

theorem pbcFree_ub {safe : Bool} {H : Heap} {k : ℕ} (h : H.live k = none) :
    pbcFree safe H (some k) = .ub := by
  cases safe
  · simp [pbcFree, plainFree, sysFree, h]
  · simp [pbcFree, safeFree, memFree, memGetSize_ub h, Res.bind]

/-- Bytes stored through a pointer, inside the block. -/
theorem write_val {safe : Bool} {H : Heap} {k : ℕ} {b x m y l : List ℕ} (h : H.live k = some b)
    (hb : Blk safe b (x ++ m ++ y)) (hl : l.length = m.length) :
    ∃ b', Blk safe b' (x ++ l ++ y) ∧
      store H k (base safe + x.length) l = .val (H.put k (some b')) := by
  cases safe
  · obtain rfl : b = x ++ m ++ y := by simpa [Blk] using hb
    refine ⟨x ++ l ++ y, rfl, ?_⟩
    simpa [base] using store_val h hl
  · obtain ⟨rfl, hc⟩ := hb
    have he : (x ++ l ++ y).length = (x ++ m ++ y).length := by simp [hl]
    refine ⟨bytes 8 (x ++ l ++ y).length ++ (x ++ l ++ y), ⟨rfl, by omega⟩, ?_⟩
    have := store_val (H := H) (k := k) (a := bytes 8 (x ++ m ++ y).length ++ x) (m := m) (c := y)
      (l := l) (by rw [h]; simp) hl
    rw [List.length_append, bytes_length] at this
    rw [show base true = 8 from rfl, this, he]
    simp

/-- Bytes stored past the end of the block. -/
theorem write_ub {safe : Bool} {H : Heap} {k o : ℕ} {b c l : List ℕ} (h : H.live k = some b)
    (hb : Blk safe b c) (hl : c.length < o + l.length) :
    store H k (base safe + o) l = .ub := by
  cases safe
  · obtain rfl : b = c := by simpa [Blk] using hb
    exact store_ub h (by simpa [base] using hl)
  · obtain ⟨rfl, -⟩ := hb
    refine store_ub h ?_
    simp only [List.length_append, bytes_length, base, if_true]
    omega

theorem grow_fresh {H : Heap} (b : List ℕ) {j : ℕ} {x : List ℕ} (hj : H.live j = some x)
    (hf : ∀ k, H.next ≤ k → H.live k = none) : j ≠ H.next ∧ (H.grow b).live j = some x := by
  have hne : j ≠ H.next := by
    rintro rfl
    rw [hf _ le_rfl] at hj
    cases hj
  exact ⟨hne, by rw [Heap.grow_live, if_neg hne, hj]⟩

/-- `pbc_realloc` with `SAFE_CLEAN`, of a live block that is not made smaller. -/
theorem safeRealloc_grow {E : Env} {H : Heap} {j n : ℕ} {b c : List ℕ} (h : H.live j = some b)
    (hb : Blk true b c) (hf : ∀ k, H.next ≤ k → H.live k = none) (hn : n + 8 < 2 ^ 64)
    (hcn : c.length ≤ n) :
    pbcRealloc true E H (some j) n = .die ∨
    ∃ b' t, Blk true b' (c ++ t) ∧ (c ++ t).length = n ∧
      pbcRealloc true E H (some j) n =
        .val (H.next, (H.grow b').drop j (List.replicate (c.length + 8) 0)) := by
  simp only [pbcRealloc, safeRealloc, if_true]
  rw [memMalloc_val hn]
  by_cases hok : E.ok H.next (n + 8) = true
  · right
    rw [if_pos hok]
    set w := (raw E H.next (n + 8)).drop 8 with hw
    have hwl : w.length = n := by simp [hw, raw_length]
    set b0 := bytes 8 n ++ w with hb0
    obtain ⟨hne, hj⟩ := grow_fresh b0 h hf
    have hlive : (H.grow b0).live H.next = some b0 := by rw [Heap.grow_live, if_pos rfl]
    have hB : Blk true b0 ([] ++ w.take c.length ++ w.drop c.length) := by
      rw [List.nil_append, List.take_append_drop]
      exact ⟨by rw [hwl], by omega⟩
    obtain ⟨b', hb', hst⟩ := write_val (l := c) hlive hB (by rw [List.length_take]; omega)
    refine ⟨b', w.drop c.length, by simpa using hb', ?_, ?_⟩
    · simp only [List.length_append, List.length_drop]
      omega
    · simp only [Res.bind]
      rw [memGetSize_val hj hb]
      simp only [Res.bind]
      have hld : load (H.grow b0) j 8 c.length = .val c := by
        have := load_val (H := H.grow b0) (k := j) (a := bytes 8 c.length) (m := c) (c := [])
          (by rw [hj, hb.1]; simp)
        rwa [bytes_length] at this
      rw [memcpy, hld]
      simp only [Res.bind]
      have hst' : store (H.grow b0) H.next 8 c = .val (H.grow b') := by
        rw [Heap.grow_put] at hst
        exact hst
      rw [hst']
      simp only
      rw [memFree_val (c := c) (b := b) (by rw [Heap.grow_live, if_neg hne, h]) hb]
  · left
    rw [if_neg hok]
    rfl

/-- `pbc_realloc` with `SAFE_CLEAN`, of a live block that is made smaller. -/
theorem safeRealloc_shrink {E : Env} {H : Heap} {j n : ℕ} {b c : List ℕ} (h : H.live j = some b)
    (hb : Blk true b c) (hf : ∀ k, H.next ≤ k → H.live k = none) (hcn : n < c.length) :
    pbcRealloc true E H (some j) n =
      if E.ok H.next (n + 8) = true then .ub else .die := by
  have hn : n + 8 < 2 ^ 64 := by
    have := hb.2
    omega
  simp only [pbcRealloc, safeRealloc, if_true]
  rw [memMalloc_val hn]
  by_cases hok : E.ok H.next (n + 8) = true
  · rw [if_pos hok, if_pos hok]
    set w := (raw E H.next (n + 8)).drop 8 with hw
    have hwl : w.length = n := by simp [hw, raw_length]
    set b0 := bytes 8 n ++ w with hb0
    obtain ⟨hne, hj⟩ := grow_fresh b0 h hf
    have hlive : (H.grow b0).live H.next = some b0 := by rw [Heap.grow_live, if_pos rfl]
    simp only [Res.bind]
    rw [memGetSize_val hj hb]
    simp only [Res.bind]
    have hld : load (H.grow b0) j 8 c.length = .val c := by
      have := load_val (H := H.grow b0) (k := j) (a := bytes 8 c.length) (m := c) (c := [])
        (by rw [hj, hb.1]; simp)
      rwa [bytes_length] at this
    rw [memcpy, hld]
    simp only [Res.bind]
    rw [store_ub hlive (by simp [hb0, bytes_length, hwl]; omega)]
  · rw [if_neg hok, if_neg hok]
    rfl

/-- `pbc_realloc` with `SAFE_CLEAN` of a size that wraps. -/
theorem safeRealloc_wrap {E : Env} {H : Heap} {p : Option ℕ} {n : ℕ} (hn : 2 ^ 64 ≤ n + 8)
    (hn' : n < 2 ^ 64) (r : ℕ × Heap) : pbcRealloc true E H p n ≠ .val r := by
  simp only [pbcRealloc, safeRealloc, if_true]
  rw [memMalloc_wrap hn hn']
  split_ifs <;> simp [Res.bind]

/-- `pbc_realloc` without `SAFE_CLEAN`, of a live block. -/
theorem plainRealloc_val {E : Env} {H : Heap} {j n : ℕ} {c : List ℕ} (h : H.live j = some c)
    (hf : ∀ k, H.next ≤ k → H.live k = none) :
    pbcRealloc false E H (some j) n = .die ∨
    ∃ t, (c.take n ++ t).length = n ∧
      pbcRealloc false E H (some j) n = .val (H.next, (H.grow (c.take n ++ t)).drop j c) := by
  simp only [pbcRealloc, plainRealloc, sysRealloc, h, Bool.false_eq_true, if_false]
  by_cases hn : n = 0
  · left
    rw [if_pos hn, sysFree_val h]
    rfl
  · rw [if_neg hn]
    by_cases hok : E.ok H.next n = true
    · right
      rw [sysMalloc_ok hok]
      set w := raw E H.next n with hw
      have hwl : w.length = n := raw_length _ _ _
      obtain ⟨hne, hj⟩ := grow_fresh w h hf
      refine ⟨w.drop (c.take n).length, ?_, ?_⟩
      · simp only [List.length_append, List.length_drop, List.length_take]
        omega
      · have := store_val (H := H.grow w) (k := H.next) (a := []) (m := w.take (c.take n).length)
          (c := w.drop (c.take n).length) (l := c.take n)
          (by rw [List.nil_append, List.take_append_drop, Heap.grow_live, if_pos rfl])
          (by simp only [List.length_take]; omega)
        rw [List.length_nil, Heap.grow_put] at this
        simp only [this]
        simp only [List.nil_append, Res.bind]
        rw [sysFree_val (b := c) (by rw [Heap.grow_live, if_neg hne, h])]
    · left
      rw [sysMalloc_no hok]
      rfl

end Pbc.Memory
