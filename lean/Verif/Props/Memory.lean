import Verif.Lemmas.Memory

/-!
# C124, C125: the allocator

With `SAFE_CLEAN` every block that goes back to the system is filled with zeros, whatever a program
does; and the allocator keeps what a program stores as long as no block is made smaller and no size
wraps.  Making a block smaller writes past the new block.  Without `SAFE_CLEAN` the blocks go back as
they are.
-/

set_option autoImplicit false

namespace Pbc.Memory

open Spec.Memory

/-! ### Running programs -/

/-- A program from a heap on: the heap it leaves. -/
def run (safe : Bool) (E : Env) : Heap → List Op → Res Heap
  | H, [] => .val H
  | H, o :: l => (exec safe E H o).bind fun r => run safe E r.2 l

/-- The blocks have the shape the allocator gives them, and numbers not yet used are free. -/
def Shape (safe : Bool) (H : Heap) : Prop :=
  (∀ k, H.next ≤ k → H.live k = none) ∧ ∀ k b, H.live k = some b → ∃ c, Blk safe b c

theorem shape_grow {safe : Bool} {H : Heap} {b c : List ℕ} (h : Shape safe H) (hb : Blk safe b c) :
    Shape safe (H.grow b) := by
  refine ⟨fun k hk => ?_, fun k x hx => ?_⟩
  · have hk' : H.next + 1 ≤ k := hk
    rw [Heap.grow_live, if_neg (by omega)]
    exact h.1 k (by omega)
  · rw [Heap.grow_live] at hx
    split_ifs at hx with hk
    · cases hx
      exact ⟨c, hb⟩
    · exact h.2 k x hx

theorem shape_put {safe : Bool} {H : Heap} {k : ℕ} {b b' c : List ℕ} (h : Shape safe H)
    (hk : H.live k = some b) (hb : Blk safe b' c) : Shape safe (H.put k (some b')) := by
  refine ⟨fun j hj => ?_, fun j x hx => ?_⟩
  · have hne : j ≠ k := by
      rintro rfl
      rw [h.1 _ hj] at hk
      cases hk
    rw [Heap.put_other _ _ hne]
    exact h.1 j hj
  · by_cases hne : j = k
    · subst hne
      rw [Heap.put_same] at hx
      cases hx
      exact ⟨c, hb⟩
    · rw [Heap.put_other _ _ hne] at hx
      exact h.2 j x hx

theorem shape_drop {safe : Bool} {H : Heap} {k : ℕ} (l : List ℕ) (h : Shape safe H) :
    Shape safe (H.drop k l) := by
  refine ⟨fun j hj => ?_, fun j x hx => ?_⟩
  · show (H.put k none).live j = none
    by_cases hne : j = k
    · rw [hne, Heap.put_same]
    · rw [Heap.put_other _ _ hne]
      exact h.1 j hj
  · have hx' : (H.put k none).live j = some x := hx
    by_cases hne : j = k
    · rw [hne, Heap.put_same] at hx'
      cases hx'
    · rw [Heap.put_other _ _ hne] at hx'
      exact h.2 j x hx'

/-- All blocks given back hold zeros only. -/
def Wiped (H : Heap) : Prop := ∀ b ∈ H.freed, ∀ x ∈ b, x = 0

theorem shape_malloc {safe : Bool} {E : Env} {H : Heap} {n : ℕ} {r : ℕ × Heap} (h : Shape safe H)
    (hn : n < 2 ^ 64) (hr : pbcMalloc safe E H n = .val r) :
    ∃ b c, Blk safe b c ∧ c.length = n ∧ r = (H.next, H.grow b) ∧ Shape safe r.2 ∧
      r.2.freed = H.freed := by
  rcases pbcMalloc_cases safe E H hn with h1 | ⟨-, -, h1⟩ | ⟨b, c, hb, hc, h1⟩
  · rw [h1] at hr; cases hr
  · rw [h1] at hr; cases hr
  · rw [h1] at hr
    cases hr
    exact ⟨b, c, hb, hc, rfl, shape_grow h hb, rfl⟩

theorem store_cases {safe : Bool} {H H' : Heap} {k o : ℕ} {l : List ℕ} (h : Shape safe H)
    (hs : store H k (base safe + o) l = .val H') :
    Shape safe H' ∧ H'.freed = H.freed := by
  rcases hk : H.live k with _ | b
  · simp [store, hk] at hs
  · obtain ⟨c, hb⟩ := h.2 k b hk
    by_cases hl : c.length < o + l.length
    · rw [write_ub hk hb hl] at hs
      cases hs
    · have hb' : Blk safe b (c.take o ++ (c.drop o).take l.length ++ (c.drop o).drop l.length) := by
        rw [List.append_assoc, List.take_append_drop, List.take_append_drop]
        exact hb
      obtain ⟨b', h1, h2⟩ := write_val (l := l) hk hb' (by simp; omega)
      rw [List.length_take, Nat.min_eq_left (by omega), hs] at h2
      cases h2
      exact ⟨shape_put h hk h1, rfl⟩

theorem exec_wiped {E : Env} {H H' : Heap} {o : Op} {r : Option ℕ} (h : Shape true H)
    (hw : Wiped H) (ho : Fits o) (he : exec true E H o = .val (r, H')) :
    Shape true H' ∧ Wiped H' := by
  cases o with
  | malloc n =>
    simp only [exec] at he
    rcases hm : pbcMalloc true E H n with v | _ | _ <;> rw [hm] at he <;> simp [Res.bind] at he
    obtain ⟨b, c, hb, hc, rfl, h1, h2⟩ := shape_malloc h ho hm
    obtain ⟨-, rfl⟩ := he
    exact ⟨h1, hw⟩
  | calloc m n =>
    simp only [exec, pbcCalloc] at he
    rcases hm : pbcMalloc true E H (sz (m * n)) with v | _ | _ <;> rw [hm] at he <;>
      simp [Res.bind] at he
    obtain ⟨b, c, hb, hc, rfl, h1, h2⟩ := shape_malloc h (Nat.mod_lt _ (by norm_num)) hm
    rcases hz : zero (H.grow b) H.next (base true) (sz (m * n)) with H2 | _ | _ <;>
      simp only [hz] at he <;> simp at he
    obtain ⟨-, rfl⟩ := he
    obtain ⟨h3, h4⟩ := store_cases (o := 0) h1 hz
    exact ⟨h3, by unfold Wiped; rw [h4]; exact hw⟩
  | strdup s =>
    simp only [exec, pbcStrdup] at he
    rcases hm : pbcMalloc true E H (sz (s.length + 1)) with v | _ | _ <;> rw [hm] at he <;>
      simp [Res.bind] at he
    obtain ⟨b, c, hb, hc, rfl, h1, h2⟩ := shape_malloc h (Nat.mod_lt _ (by norm_num)) hm
    rcases hz : store (H.grow b) H.next (base true) (s ++ [0]) with H2 | _ | _ <;>
      simp only [hz] at he <;> simp at he
    obtain ⟨-, rfl⟩ := he
    obtain ⟨h3, h4⟩ := store_cases (o := 0) h1 hz
    exact ⟨h3, by unfold Wiped; rw [h4]; exact hw⟩
  | realloc p n =>
    simp only [exec] at he
    rcases hm : pbcRealloc true E H p n with v | _ | _ <;> rw [hm] at he <;> simp [Res.bind] at he
    obtain ⟨-, rfl⟩ := he
    by_cases hwr : n + 8 < 2 ^ 64
    swap
    · exact absurd hm (safeRealloc_wrap (by omega) ho v)
    cases p with
    | none =>
      have : pbcMalloc true E H n = .val v := by
        rw [← hm]
        simp only [pbcMalloc, pbcRealloc, safeMalloc, safeRealloc, if_true]
      obtain ⟨b, c, hb, hc, rfl, h1, h2⟩ := shape_malloc h ho this
      exact ⟨h1, hw⟩
    | some j =>
      rcases hj : H.live j with _ | b
      · simp only [pbcRealloc, safeRealloc, if_true] at hm
        rw [memMalloc_val hwr] at hm
        split_ifs at hm with hok
        · simp only [Res.bind] at hm
          by_cases hjn : j = H.next
          · -- a number the program could not know: the new block is copied onto itself
            subst hjn
            set w := (raw E H.next (n + 8)).drop 8 with hwd
            have hwl : w.length = n := by simp [hwd, raw_length]
            set b0 := bytes 8 n ++ w with hb0
            have hB : Blk true b0 w := ⟨by rw [hwl], by omega⟩
            have hL : (H.grow b0).live H.next = some b0 := by rw [Heap.grow_live, if_pos rfl]
            rw [memGetSize_val hL hB] at hm
            simp only [memcpy] at hm
            have hld : load (H.grow b0) H.next 8 w.length = .val w := by
              have := load_val (H := H.grow b0) (k := H.next) (a := bytes 8 n) (m := w) (c := [])
                (by rw [hL]; simp [hb0])
              rwa [bytes_length] at this
            rw [hld] at hm
            simp only [Res.bind] at hm
            obtain ⟨b', hb', hst⟩ := write_val (x := []) (m := w) (y := []) (l := w) hL
              (by simpa using hB) rfl
            simp only [List.nil_append, List.append_nil, List.length_nil, Heap.grow_put] at hb' hst
            rw [show base true + 0 = 8 from rfl] at hst
            rw [hst] at hm
            simp only at hm
            rw [memFree_val (c := w) (b := b') (by rw [Heap.grow_live, if_pos rfl]) hb'] at hm
            cases hm
            refine ⟨shape_drop _ (shape_grow h hb'), ?_⟩
            intro x hx y hy
            rcases List.mem_cons.1 hx with rfl | hx
            · exact List.eq_of_mem_replicate hy
            · exact hw x hx y hy
          · rw [memGetSize_ub (by rw [Heap.grow_live, if_neg hjn, hj])] at hm
            cases hm
        · cases hm
      · obtain ⟨c, hb⟩ := h.2 j b hj
        by_cases hcn : c.length ≤ n
        · rcases safeRealloc_grow (E := E) hj hb h.1 hwr hcn with h1 | ⟨b', t, h1, h2, h3⟩
          · rw [h1] at hm; cases hm
          · rw [h3] at hm
            cases hm
            refine ⟨shape_drop _ (shape_grow h h1), ?_⟩
            intro x hx y hy
            rcases List.mem_cons.1 hx with rfl | hx
            · exact List.eq_of_mem_replicate hy
            · exact hw x hx y hy
        · rw [safeRealloc_shrink hj hb h.1 (by omega)] at hm
          split_ifs at hm <;> cases hm
  | free p =>
    simp only [exec] at he
    cases p with
    | none =>
      simp [pbcFree, safeFree, Res.bind] at he
      obtain ⟨-, rfl⟩ := he
      exact ⟨h, hw⟩
    | some k =>
      rcases hk : H.live k with _ | b
      · rw [pbcFree_ub hk] at he
        cases he
      · obtain ⟨c, hb⟩ := h.2 k b hk
        rw [pbcFree_val hk hb] at he
        simp [Res.bind] at he
        obtain ⟨-, rfl⟩ := he
        refine ⟨shape_drop _ h, ?_⟩
        intro x hx y hy
        rcases List.mem_cons.1 hx with rfl | hx
        · exact List.eq_of_mem_replicate hy
        · exact hw x hx y hy
  | write k i b =>
    simp only [exec] at he
    rcases hz : store H k (base true + i) [b] with H2 | _ | _ <;> rw [hz] at he <;>
      simp [Res.bind] at he
    obtain ⟨-, rfl⟩ := he
    obtain ⟨h3, h4⟩ := store_cases h hz
    exact ⟨h3, by unfold Wiped; rw [h4]; exact hw⟩

/-- **C124.**  With `SAFE_CLEAN`, whatever a program does, all bytes of all blocks that went back to
the system were zero when they went back. -/
theorem C124_wiped (E : Env) (ops : List Op) (hops : ∀ o ∈ ops, Fits o) (H : Heap)
    (h : run true E Heap.empty ops = .val H) : ∀ b ∈ H.freed, ∀ x ∈ b, x = 0 := by
  suffices ∀ (ops : List Op) (H0 H : Heap), Shape true H0 → Wiped H0 → (∀ o ∈ ops, Fits o) →
      run true E H0 ops = .val H → Wiped H from
    this ops Heap.empty H ⟨fun _ _ => rfl, fun _ _ h => by cases h⟩ (fun _ h => by cases h) hops h
  intro ops
  induction ops with
  | nil =>
    intro H0 H _ hw _ hr
    cases hr
    exact hw
  | cons o l ih =>
    intro H0 H hs hw ho hr
    rw [run] at hr
    rcases he : exec true E H0 o with ⟨r, H1⟩ | _ | _ <;> rw [he] at hr <;> simp [Res.bind] at hr
    obtain ⟨h1, h2⟩ := exec_wiped hs hw (ho o (List.mem_cons_self ..)) he
    exact ih H1 H h1 h2 (fun o' h' => ho o' (List.mem_cons_of_mem _ h')) hr

/-! ### What a program finds in its blocks -/

/-- The heap holds what the program expects. -/
def Rel (safe : Bool) (H : Heap) (s : Store) : Prop :=
  (∀ k, H.next ≤ k → H.live k = none) ∧
  (∀ k, s k = none → H.live k = none) ∧
  ∀ k b, s k = some b → ∃ x c, H.live k = some x ∧ Blk safe x c ∧ Agrees b c

theorem rel_next {safe : Bool} {H : Heap} {s : Store} (h : Rel safe H s) : s H.next = none := by
  by_contra hne
  obtain ⟨b, hb⟩ := Option.ne_none_iff_exists'.1 hne
  obtain ⟨x, c, hx, -⟩ := h.2.2 _ _ hb
  rw [h.1 _ le_rfl] at hx
  cases hx

theorem rel_grow {safe : Bool} {H : Heap} {s : Store} {x c : List ℕ} {b : List (Option ℕ)}
    (h : Rel safe H s) (hb : Blk safe x c) (ha : Agrees b c) :
    Rel safe (H.grow x) (put s H.next (some b)) := by
  refine ⟨fun k hk => ?_, fun k hk => ?_, fun k b' hk => ?_⟩
  · have hk' : H.next + 1 ≤ k := hk
    rw [Heap.grow_live, if_neg (by omega)]
    exact h.1 k (by omega)
  · unfold put at hk
    rw [Heap.grow_live]
    split_ifs at hk with hne
    rw [if_neg hne]
    exact h.2.1 k hk
  · unfold put at hk
    rw [Heap.grow_live]
    split_ifs at hk with hne
    · cases hk
      rw [if_pos hne]
      exact ⟨x, c, rfl, hb, ha⟩
    · rw [if_neg hne]
      exact h.2.2 k b' hk

theorem rel_put {safe : Bool} {H : Heap} {s : Store} {k : ℕ} {x c : List ℕ} {b b0 : List (Option ℕ)}
    (h : Rel safe H s) (hk0 : s k = some b0) (hb : Blk safe x c) (ha : Agrees b c) :
    Rel safe (H.put k (some x)) (put s k (some b)) := by
  have hlt : k < H.next := by
    by_contra hge
    obtain ⟨x, c, hx, -⟩ := h.2.2 _ _ hk0
    rw [h.1 k (by omega)] at hx
    cases hx
  refine ⟨fun j hj => ?_, fun j hj => ?_, fun j b' hj => ?_⟩
  · rw [Heap.put_other _ _ (by have : H.next ≤ j := hj; omega)]
    exact h.1 j hj
  · unfold put at hj
    split_ifs at hj with hne
    rw [Heap.put_other _ _ hne]
    exact h.2.1 j hj
  · unfold put at hj
    split_ifs at hj with hne
    · cases hj
      rw [hne, Heap.put_same]
      exact ⟨x, c, rfl, hb, ha⟩
    · rw [Heap.put_other _ _ hne]
      exact h.2.2 j b' hj

theorem rel_drop {safe : Bool} {H : Heap} {s : Store} {k : ℕ} (l : List ℕ) (h : Rel safe H s) :
    Rel safe (H.drop k l) (put s k none) := by
  have hl : ∀ j, (H.drop k l).live j = if j = k then none else H.live j := fun j => rfl
  refine ⟨fun j hj => ?_, fun j hj => ?_, fun j b hj => ?_⟩
  · rw [hl]
    split_ifs
    · rfl
    · exact h.1 j hj
  · rw [hl]
    unfold put at hj
    split_ifs at hj ⊢
    · rfl
    · exact h.2.1 j hj
  · rw [hl]
    unfold put at hj
    split_ifs at hj ⊢
    exact h.2.2 j b hj

theorem agrees_fresh {c : List ℕ} {n : ℕ} (h : c.length = n) : Agrees (fresh n) c := by
  refine ⟨by simp [fresh, h], fun i v hv => ?_⟩
  rw [fresh, List.getElem?_replicate] at hv
  split_ifs at hv <;> cases hv

theorem agrees_some (c : List ℕ) : Agrees (c.map some) c := by
  refine ⟨by simp, fun i v hv => ?_⟩
  rw [List.getElem?_map] at hv
  rcases hc : c[i]? with _ | y
  · rw [hc] at hv; cases hv
  · rw [hc] at hv
    cases hv
    rfl

theorem agrees_resize {b : List (Option ℕ)} {c t : List ℕ} {n : ℕ} (h : Agrees b c)
    (hl : (c.take n ++ t).length = n) : Agrees (resize b n) (c.take n ++ t) := by
  refine ⟨?_, fun i v hv => ?_⟩
  · rw [hl]
    simp only [resize, fresh, List.length_append, List.length_take, List.length_replicate]
    omega
  · unfold resize fresh at hv
    by_cases hi : i < (b.take n).length
    · rw [List.getElem?_append_left hi] at hv
      rw [List.length_take] at hi
      rw [List.getElem?_take_of_lt (by omega)] at hv
      rw [List.getElem?_append_left (by rw [List.length_take, ← h.1]; omega),
        List.getElem?_take_of_lt (by omega)]
      exact h.2 i v hv
    · rw [List.getElem?_append_right (by omega), List.getElem?_replicate] at hv
      split_ifs at hv <;> cases hv

theorem agrees_set {b : List (Option ℕ)} {c : List ℕ} (h : Agrees b c) (i v : ℕ) :
    Agrees (b.set i (some v)) (c.set i v) := by
  refine ⟨by simpa using h.1, fun j w hj => ?_⟩
  rw [List.getElem?_set] at hj ⊢
  have := h.1
  split_ifs at hj ⊢ with h1 h2 h3
  · simpa using hj
  · omega
  · exact h.2 j w hj

theorem resize_grow {b : List (Option ℕ)} {c t : List ℕ} {n : ℕ} (h : Agrees b c)
    (hn : c.length ≤ n) (hl : (c ++ t).length = n) : Agrees (resize b n) (c ++ t) := by
  have := agrees_resize (t := t) (n := n) h (by rw [List.take_of_length_le hn]; exact hl)
  rwa [List.take_of_length_le hn] at this

/-- One step of a program without mistakes: nothing undefined happens, and the heap again holds what
the program expects. -/
theorem step_refines (safe : Bool) (E : Env) {H : Heap} {s : Store} (h : Rel safe H s) {o : Op}
    (hl : Legal s o) (hz : size o + base safe < 2 ^ 64) (hg : safe = true → Grows s o) :
    exec safe E H o ≠ .ub ∧
    ∀ r H', exec safe E H o = .val (r, H') →
      (∀ k, r = some k → s k = none) ∧ (r.isSome = returns o) ∧ Rel safe H' (after s (r.getD 0) o) := by
  have key : ∀ n : ℕ, n + base safe < 2 ^ 64 → pbcMalloc safe E H n = .die ∨
      ∃ x c, Blk safe x c ∧ c.length = n ∧ pbcMalloc safe E H n = .val (H.next, H.grow x) := by
    intro n hn
    rcases pbcMalloc_cases safe E H (n := n) (by omega) with h1 | ⟨rfl, h2, -⟩ | h1
    · exact Or.inl h1
    · simp only [base, if_true] at hn
      omega
    · exact Or.inr h1
  have hnone := rel_next h
  -- a call that allocates a block and fills it
  have fill : ∀ (x c l : List ℕ), Blk safe x c → c.length = l.length →
      ∃ x', Blk safe x' l ∧ store (H.grow x) H.next (base safe) l = .val (H.grow x') := by
    intro x c l hx hc
    obtain ⟨x', h1, h2⟩ := write_val (H := H.grow x) (k := H.next) (x := []) (m := c) (y := [])
      (l := l) (by rw [Heap.grow_live, if_pos rfl]) (by simpa using hx) hc.symm
    rw [Heap.grow_put] at h2
    exact ⟨x', by simpa using h1, by simpa using h2⟩
  cases o with
  | malloc n =>
    rcases key n hz with h1 | ⟨x, c, hx, hc, h1⟩
    · simp only [exec, h1, Res.bind]
      exact ⟨by simp, fun _ _ h => by cases h⟩
    · simp only [exec, h1, Res.bind]
      refine ⟨by simp, fun r H' hr => ?_⟩
      cases hr
      exact ⟨fun k hk => by cases hk; exact hnone, rfl, rel_grow h hx (agrees_fresh hc)⟩
  | calloc m n =>
    have hsz : sz (m * n) = m * n := Nat.mod_eq_of_lt (lt_of_le_of_lt (Nat.le_add_right _ _) hz)
    rcases key (m * n) hz with h1 | ⟨x, c, hx, hc, h1⟩
    · simp only [exec, pbcCalloc, hsz, h1, Res.bind]
      exact ⟨by simp, fun _ _ h => by cases h⟩
    · obtain ⟨x', hx', hst⟩ := fill x c (List.replicate (m * n) 0) hx (by simpa using hc)
      simp only [exec, pbcCalloc, hsz, h1, Res.bind, zero, hst]
      refine ⟨by simp, fun r H' hr => ?_⟩
      cases hr
      refine ⟨fun k hk => by cases hk; exact hnone, rfl, ?_⟩
      have := rel_grow h hx' (agrees_some _)
      rwa [List.map_replicate] at this
  | strdup t =>
    have hsz : sz (t.length + 1) = t.length + 1 :=
      Nat.mod_eq_of_lt (lt_of_le_of_lt (Nat.le_add_right _ _) hz)
    rcases key (t.length + 1) hz with h1 | ⟨x, c, hx, hc, h1⟩
    · simp only [exec, pbcStrdup, hsz, h1, Res.bind]
      exact ⟨by simp, fun _ _ h => by cases h⟩
    · obtain ⟨x', hx', hst⟩ := fill x c (t ++ [0]) hx (by simpa using hc)
      simp only [exec, pbcStrdup, hsz, h1, Res.bind, hst]
      refine ⟨by simp, fun r H' hr => ?_⟩
      cases hr
      exact ⟨fun k hk => by cases hk; exact hnone, rfl, rel_grow h hx' (agrees_some _)⟩
  | realloc p n =>
    cases p with
    | none =>
      have he : pbcRealloc safe E H none n = pbcMalloc safe E H n := by
        cases safe
        · simp only [pbcRealloc, plainRealloc, sysRealloc, pbcMalloc, plainMalloc, Res.bind,
            Bool.false_eq_true, if_false]
        · simp only [pbcMalloc, pbcRealloc, safeMalloc, safeRealloc, if_true]
      rcases key n hz with h1 | ⟨x, c, hx, hc, h1⟩
      · simp only [exec, he, h1, Res.bind]
        exact ⟨by simp, fun _ _ h => by cases h⟩
      · simp only [exec, he, h1, Res.bind]
        refine ⟨by simp, fun r H' hr => ?_⟩
        cases hr
        exact ⟨fun k hk => by cases hk; exact hnone, rfl, rel_grow h hx (agrees_fresh hc)⟩
    | some j =>
      obtain ⟨b, hb⟩ := Option.ne_none_iff_exists'.1 (show s j ≠ none from hl)
      obtain ⟨x, c, hx, hbl, hag⟩ := h.2.2 j b hb
      have hne : j ≠ H.next := by
        rintro rfl
        rw [hb] at hnone
        cases hnone
      -- the two orders of the changes agree
      have hcomm : ∀ (x' c' l : List ℕ) (b' : List (Option ℕ)), Blk safe x' c' → Agrees b' c' →
          Rel safe ((H.grow x').drop j l) (put (put s j none) H.next (some b')) := by
        intro x' c' l b' h1 h2
        have := rel_drop (k := j) l (rel_grow h h1 h2)
        have he : put (put s H.next (some b')) j none = put (put s j none) H.next (some b') := by
          funext i
          unfold put
          by_cases hi : i = j
          · subst hi
            rw [if_pos rfl, if_neg hne, if_pos rfl]
          · rw [if_neg hi]
            split_ifs <;> rfl
        rwa [he] at this
      cases safe with
      | true =>
        have hcn : c.length ≤ n := by
          rw [← hag.1]
          exact hg rfl b hb
        rcases safeRealloc_grow (E := E) hx hbl h.1 (by simpa [base, size] using hz) hcn with
          h1 | ⟨x', t, h1, h2, h3⟩
        · simp only [exec, h1, Res.bind]
          exact ⟨by simp, fun _ _ h => by cases h⟩
        · simp only [exec, h3, Res.bind]
          refine ⟨by simp, fun r H' hr => ?_⟩
          cases hr
          refine ⟨fun k hk => by cases hk; exact hnone, rfl, ?_⟩
          simp only [after, hb, Option.map_some, Option.getD_some]
          exact hcomm _ _ _ _ h1 (resize_grow hag hcn h2)
      | false =>
        obtain rfl : x = c := by simpa [Blk] using hbl
        rcases plainRealloc_val (E := E) (n := n) hx h.1 with h1 | ⟨t, h2, h3⟩
        · simp only [exec, h1, Res.bind]
          exact ⟨by simp, fun _ _ h => by cases h⟩
        · simp only [exec, h3, Res.bind]
          refine ⟨by simp, fun r H' hr => ?_⟩
          cases hr
          refine ⟨fun k hk => by cases hk; exact hnone, rfl, ?_⟩
          simp only [after, hb, Option.map_some, Option.getD_some]
          exact hcomm _ _ _ _ rfl (agrees_resize hag h2)
  | free p =>
    cases p with
    | none =>
      have he : pbcFree safe H none = .val H := by cases safe <;> rfl
      simp only [exec, he, Res.bind]
      refine ⟨by simp, fun r H' hr => ?_⟩
      cases hr
      exact ⟨fun _ h' => (by cases h'), rfl, h⟩
    | some j =>
      obtain ⟨b, hb⟩ := Option.ne_none_iff_exists'.1 (show s j ≠ none from hl)
      obtain ⟨x, c, hx, hbl, hag⟩ := h.2.2 j b hb
      simp only [exec, pbcFree_val hx hbl, Res.bind]
      refine ⟨by simp, fun r H' hr => ?_⟩
      cases hr
      exact ⟨fun _ h' => (by cases h'), rfl, rel_drop _ h⟩
  | write k i v =>
    obtain ⟨b, hb, hi⟩ := hl
    obtain ⟨x, c, hx, hbl, hag⟩ := h.2.2 k b hb
    have hic : i < c.length := hag.1 ▸ hi
    have hsplit : c.take i ++ [c[i]] ++ c.drop (i + 1) = c := by simp
    have hset : c.take i ++ [v] ++ c.drop (i + 1) = c.set i v := by
      rw [List.set_eq_take_append_cons_drop, if_pos hic]
      simp
    obtain ⟨x', h1, h2⟩ := write_val (x := c.take i) (m := [c[i]]) (y := c.drop (i + 1)) (l := [v]) hx
      (by rw [hsplit]; exact hbl) rfl
    rw [List.length_take, Nat.min_eq_left (by omega)] at h2
    rw [hset] at h1
    simp only [exec, h2, Res.bind]
    refine ⟨by simp, fun r H' hr => ?_⟩
    cases hr
    refine ⟨fun _ h' => (by cases h'), rfl, ?_⟩
    simp only [after, hb, Option.map_some]
    exact rel_put h hb h1 (agrees_set hag i v)

/-- The states a program without mistakes can reach, with what it expects in them; `P` limits the
calls it makes. -/
inductive Reach (safe : Bool) (E : Env) (P : Store → Op → Prop) : Heap → Store → Prop
  | start : Reach safe E P Heap.empty (fun _ => none)
  | step {H H' : Heap} {s : Store} {o : Op} {r : Option ℕ} : Reach safe E P H s → Legal s o → P s o →
      exec safe E H o = .val (r, H') → Reach safe E P H' (after s (r.getD 0) o)

theorem reach_rel {safe : Bool} {E : Env} {P : Store → Op → Prop}
    (hP : ∀ s o, P s o → size o + base safe < 2 ^ 64 ∧ (safe = true → Grows s o)) {H : Heap}
    {s : Store} (h : Reach safe E P H s) : Rel safe H s := by
  induction h with
  | start => exact ⟨fun _ _ => rfl, fun _ _ => rfl, fun _ _ h => by cases h⟩
  | step _ hl hp he ih => exact ((step_refines safe E ih hl (hP _ _ hp).1 (hP _ _ hp).2).2 _ _ he).2.2

/-- What the library lets the program read at `i` of the block with pointer `k`. -/
def peek (safe : Bool) (H : Heap) (k i : ℕ) : Res (List ℕ) := load H k (base safe + i) 1

theorem rel_peek {safe : Bool} {H : Heap} {s : Store} (h : Rel safe H s) {k i : ℕ}
    {b : List (Option ℕ)} (hk : s k = some b) (hi : i < b.length) :
    ∃ x, peek safe H k i = .val [x] ∧ ∀ v, b[i]? = some (some v) → x = v := by
  obtain ⟨x, c, hx, hbl, hag⟩ := h.2.2 k b hk
  have hic : i < c.length := hag.1 ▸ hi
  have hsplit : c.take i ++ [c[i]] ++ c.drop (i + 1) = c := by simp
  refine ⟨c[i], ?_, fun v hv => ?_⟩
  · cases safe
    · obtain rfl : x = c := by simpa [Blk] using hbl
      have := load_val (H := H) (k := k) (a := x.take i) (m := [x[i]]) (c := x.drop (i + 1))
        (by rw [hx, hsplit])
      rw [List.length_take, Nat.min_eq_left (by omega)] at this
      simpa [peek, base] using this
    · obtain ⟨rfl, -⟩ := hbl
      have := load_val (H := H) (k := k) (a := bytes 8 c.length ++ c.take i) (m := [c[i]])
        (c := c.drop (i + 1)) (by rw [hx]; congr 1; rw [List.append_assoc, List.append_assoc,
          ← List.append_assoc (c.take i), hsplit])
      rw [List.length_append, bytes_length, List.length_take, Nat.min_eq_left (by omega)] at this
      simpa [peek, base] using this
  · have := hag.2 i v hv
    rw [List.getElem?_eq_getElem hic] at this
    exact Option.some.inj this

/-- **C125 (partial): the default build.**  In every state a program without mistakes reaches, with
sizes below `2^64`: its next call is never undefined and returns a pointer that is not in use; all
bytes of all its blocks can be read, and those it stored are there.  Missing: with `SAFE_CLEAN` this
needs that no block is made smaller (`C125_safe_partial`, `C125_shrink_fails`); `pbc_calloc` does not
check its product (`C125_calloc_fails`). -/
theorem C125_plain_partial (E : Env) {H : Heap} {s : Store}
    (h : Reach false E (fun _ o => size o < 2 ^ 64) H s) :
    (∀ o, Legal s o → size o < 2 ^ 64 → exec false E H o ≠ .ub ∧
      ∀ k H', exec false E H o = .val (some k, H') → s k = none) ∧
    ∀ k b i, s k = some b → i < b.length →
      ∃ x, peek false H k i = .val [x] ∧ ∀ v, b[i]? = some (some v) → x = v := by
  have hr := reach_rel (fun s o hp => ⟨by simpa [base] using hp, by simp⟩) h
  refine ⟨fun o hl hz => ?_, fun k b i hk hi => rel_peek hr hk hi⟩
  obtain ⟨h1, h2⟩ := step_refines false E hr hl (by simpa [base] using hz) (by simp)
  exact ⟨h1, fun k H' he => (h2 _ _ he).1 k rfl⟩

/-- **C125 (partial): with `SAFE_CLEAN`.**  The same, when no block is made smaller and sizes are below
`2^64 - 8`. -/
theorem C125_safe_partial (E : Env) {H : Heap} {s : Store}
    (h : Reach true E (fun s o => size o + 8 < 2 ^ 64 ∧ Grows s o) H s) :
    (∀ o, Legal s o → size o + 8 < 2 ^ 64 → Grows s o → exec true E H o ≠ .ub ∧
      ∀ k H', exec true E H o = .val (some k, H') → s k = none) ∧
    ∀ k b i, s k = some b → i < b.length →
      ∃ x, peek true H k i = .val [x] ∧ ∀ v, b[i]? = some (some v) → x = v := by
  have hr := reach_rel (fun s o hp => ⟨by simpa [base] using hp.1, fun _ => hp.2⟩) h
  refine ⟨fun o hl hz hg => ?_, fun k b i hk hi => rel_peek hr hk hi⟩
  obtain ⟨h1, h2⟩ := step_refines true E hr hl (by simpa [base] using hz) (fun _ => hg)
  exact ⟨h1, fun k H' he => (h2 _ _ he).1 k rfl⟩

/-! ### Where the allocator does not do what is expected -/

/-- **C125, discrepancy.**  With `SAFE_CLEAN`, in every state: making any block smaller writes past the
end of the new block (unless memory is exhausted and the process ends). -/
theorem C125_shrink_fails (E : Env) {H : Heap} {s : Store}
    (h : Reach true E (fun s o => size o + 8 < 2 ^ 64 ∧ Grows s o) H s) (j n : ℕ)
    (b : List (Option ℕ)) (hj : s j = some b) (hn : n < b.length) :
    exec true E H (.realloc (some j) n) = if E.ok H.next (n + 8) = true then .ub else .die := by
  have hr := reach_rel (fun s o hp => ⟨by simpa [base] using hp.1, fun _ => hp.2⟩) h
  obtain ⟨x, c, hx, hbl, hag⟩ := hr.2.2 j b hj
  simp only [exec]
  rw [safeRealloc_shrink hx hbl hr.1 (hag.1 ▸ hn)]
  split_ifs <;> rfl

/-- **C124, discrepancy.**  In the default build the comment "guarantees zeroing out the memory" does
not hold: in every state, a block goes back with everything the program stored in it. -/
theorem C124_plain_fails (E : Env) {H : Heap} {s : Store}
    (h : Reach false E (fun _ o => size o < 2 ^ 64) H s) (j : ℕ) (b : List (Option ℕ))
    (hj : s j = some b) :
    ∃ c H', exec false E H (.free (some j)) = .val (none, H') ∧ H'.freed = c :: H.freed ∧
      b.length = c.length ∧ ∀ (i v : ℕ), b[i]? = some (some v) → c[i]? = some v := by
  have hr := reach_rel (fun s o hp => ⟨by simpa [base] using hp, by simp⟩) h
  obtain ⟨x, c, hx, hbl, hag⟩ := hr.2.2 j b hj
  refine ⟨c, H.drop j c, ?_, rfl, hag.1, hag.2⟩
  simp only [exec, pbcFree_val hx hbl, Res.bind]
  rfl

/-- **C125, discrepancy.**  `pbc_calloc` does not notice that its product wraps: the block it returns
has `m n mod 2^64` bytes, and storing the first of the `m n` bytes past them is undefined. -/
theorem C125_calloc_fails (E : Env) {H : Heap} {s : Store}
    (h : Reach false E (fun _ o => size o < 2 ^ 64) H s) (m n : ℕ) (hmn : 2 ^ 64 ≤ m * n)
    (k : ℕ) (H' : Heap) (he : exec false E H (.calloc m n) = .val (some k, H')) (v : ℕ) :
    m * n % 2 ^ 64 < m * n ∧ exec false E H' (.write k (m * n % 2 ^ 64) v) = .ub := by
  have hlt : m * n % 2 ^ 64 < 2 ^ 64 := Nat.mod_lt _ (by norm_num)
  refine ⟨by omega, ?_⟩
  have hr := reach_rel (fun s o hp => ⟨by simpa [base] using hp, by simp⟩) h
  have hsame : exec false E H (.calloc (sz (m * n)) 1) = exec false E H (.calloc m n) := by
    simp only [exec, pbcCalloc, mul_one]
    rw [show sz (sz (m * n)) = sz (m * n) from Nat.mod_mod _ _]
  rw [← hsame] at he
  obtain ⟨-, -, h3⟩ := (step_refines false E hr (o := .calloc (sz (m * n)) 1) trivial
    (by simp only [size, mul_one, base]; exact hlt) (by simp)).2 _ _ he
  obtain ⟨x, c, hx, hbl, hag⟩ := h3.2.2 k (List.replicate (sz (m * n) * 1) (some 0))
    (by simp [after, put])
  simp only [exec]
  rw [write_ub hx hbl (by rw [← hag.1]; simp [sz])]
  rfl

/-- **C125, discrepancy.**  With `SAFE_CLEAN` the 8 bytes added to the size wrap: asking for more than
`2^64 - 9` bytes is not refused, the size is stored past the end of a block of less than 8 bytes. -/
theorem C125_wrap_fails (E : Env) (H : Heap) (n : ℕ) (hn : 2 ^ 64 ≤ n + 8) (hn' : n < 2 ^ 64)
    (hok : E.ok H.next (n + 8 - 2 ^ 64) = true) : exec true E H (.malloc n) = .ub := by
  have hs : sz (n + 8) = n + 8 - 2 ^ 64 := by
    unfold sz
    omega
  simp only [exec, pbcMalloc, safeMalloc, if_true]
  rw [memMalloc_wrap hn hn', hs, if_pos hok]
  rfl

/-! ### The functions given to GMP -/

/-- **C124, GMP.**  `gmp_realloc` to a size that is not smaller keeps the bytes of the number and
leaves zeros in the block it gives back; the block it returns has the new size. -/
theorem C124_gmp_grow (E : Env) {H : Heap} {j m n : ℕ} {c : List ℕ} (hj : H.live j = some c)
    (hm : c.length = m) (hf : ∀ k, H.next ≤ k → H.live k = none) (hmn : m ≤ n)
    (hok : E.ok H.next n = true) :
    ∃ t H', gmpRealloc E H (some j) m n = .val (some H.next, H') ∧ t.length = n - m ∧
      H'.live H.next = some (c ++ t) ∧ H'.live j = none ∧
      (∀ i, i ≠ j → i ≠ H.next → H'.live i = H.live i) ∧
      H'.freed = List.replicate m 0 :: H.freed := by
  rw [gmpRealloc, sysMalloc_ok hok]
  set w := raw E H.next n with hw
  have hwl : w.length = n := raw_length _ _ _
  obtain ⟨hne, hj'⟩ := grow_fresh w hj hf
  have hld : load (H.grow w) j 0 m = .val c := by
    have := load_val (H := H.grow w) (k := j) (a := []) (m := c) (c := []) (by rw [hj']; simp)
    rwa [hm] at this
  have hst : store (H.grow w) H.next 0 c = .val (H.grow (c ++ w.drop m)) := by
    have := store_val (H := H.grow w) (k := H.next) (a := []) (m := w.take m) (c := w.drop m)
      (l := c) (by rw [List.nil_append, List.take_append_drop, Heap.grow_live, if_pos rfl])
      (by rw [List.length_take]; omega)
    rwa [Heap.grow_put] at this
  set H2 := H.grow (c ++ w.drop m) with hH2
  have hj2 : H2.live j = some c := by rw [hH2, Heap.grow_live, if_neg hne, hj]
  have hz : zero H2 j 0 m = .val (H2.put j (some (List.replicate m 0))) := by
    have := store_val (H := H2) (k := j) (a := []) (m := c) (c := []) (l := List.replicate m 0)
      (by rw [hj2]; simp) (by simp [hm])
    simpa [zero] using this
  have hfr := sysFree_val (H := H2.put j (some (List.replicate m 0))) (k := j)
    (b := List.replicate m 0) (Heap.put_same _ _ _)
  refine ⟨w.drop m, (H2.put j (some (List.replicate m 0))).drop j (List.replicate m 0),
    ?_, by simp [hwl], ?_, Heap.put_same _ _ _, ?_, rfl⟩
  · simp only [memcpy, hld, Res.bind, hst, gmpFree, hz, hfr]
  · show ((H2.put j _).put j none).live H.next = _
    rw [Heap.put_other _ _ (Ne.symm hne), Heap.put_other _ _ (Ne.symm hne), hH2, Heap.grow_live,
      if_pos rfl]
  · intro i hi hi'
    show ((H2.put j _).put j none).live i = _
    rw [Heap.put_other _ _ hi, Heap.put_other _ _ hi, hH2, Heap.grow_live, if_neg hi']

/-- **C124, GMP.**  `gmp_free` gives back zeros only. -/
theorem C124_gmp_free {H : Heap} {j : ℕ} {c : List ℕ} (hj : H.live j = some c) :
    gmpFree H (some j) c.length = .val (H.drop j (List.replicate c.length 0)) := by
  have hz : zero H j 0 c.length = .val (H.put j (some (List.replicate c.length 0))) := by
    have := store_val (H := H) (k := j) (a := []) (m := c) (c := [])
      (l := List.replicate c.length 0) (by rw [hj]; simp) (by simp)
    simpa [zero] using this
  simp only [gmpFree, hz, Res.bind]
  rw [sysFree_val (b := List.replicate c.length 0) (Heap.put_same _ _ _)]
  simp only [Heap.drop, Heap.put_put]
  rfl

/-- **C125, discrepancy, GMP.**  `gmp_realloc` to a smaller size writes past the end of the new block
for all sizes; GMP makes blocks smaller (`mpz_realloc2`, `mpz_get_str`). -/
theorem C125_gmp_shrink_fails (E : Env) {H : Heap} {j m n : ℕ} {c : List ℕ} (hj : H.live j = some c)
    (hm : c.length = m) (hf : ∀ k, H.next ≤ k → H.live k = none) (hmn : n < m)
    (hok : E.ok H.next n = true) : gmpRealloc E H (some j) m n = .ub := by
  rw [gmpRealloc, sysMalloc_ok hok]
  set w := raw E H.next n with hw
  have hwl : w.length = n := raw_length _ _ _
  obtain ⟨hne, hj'⟩ := grow_fresh w hj hf
  have hld : load (H.grow w) j 0 m = .val c := by
    have := load_val (H := H.grow w) (k := j) (a := []) (m := c) (c := []) (by rw [hj']; simp)
    rwa [hm] at this
  simp only [memcpy, hld, Res.bind]
  rw [store_ub (b := w) (by rw [Heap.grow_live, if_pos rfl]) (by omega)]

/-- An environment with memory for everything, filled with sevens. -/
def env7 : Env := ⟨fun _ _ => true, fun _ _ => 7⟩

/-- A program: a string is copied, enlarged, and given back. -/
example : (run true env7 Heap.empty
    [.strdup [104, 105], .realloc (some 0) 5, .write 1 3 9, .free (some 1)]).bind
      (fun H => .val H.freed) =
    .val [List.replicate 13 0, List.replicate 11 0] := by decide

/-- The same program in the default build. -/
example : (run false env7 Heap.empty
    [.strdup [104, 105], .realloc (some 0) 5, .write 1 3 9, .free (some 1)]).bind
      (fun H => .val H.freed) =
    .val [[104, 105, 0, 9, 7], [104, 105, 0]] := by decide

/-- `darray_copy` of three entries into a new array with room for eight, with `SAFE_CLEAN`: the block
of 64 bytes is made smaller (`/repo/misc/darray.c:42-46`, 113-118). -/
example : ∃ H s, Reach true env7 (fun s o => size o + 8 < 2 ^ 64 ∧ Grows s o) H s ∧
    s 0 = some (fresh 64) ∧ exec true env7 H (.realloc (some 0) 24) = .ub := by
  have h1 : Reach true env7 (fun s o => size o + 8 < 2 ^ 64 ∧ Grows s o) _ _ :=
    Reach.step (o := .malloc 64) (r := some 0)
      (H' := Heap.empty.grow (bytes 8 64 ++ (raw env7 0 72).drop 8)) Reach.start trivial
      ⟨by norm_num [size], trivial⟩ (by
        simp only [exec, pbcMalloc, safeMalloc, if_true]
        rw [memMalloc_val (by norm_num)]
        rfl)
  refine ⟨_, _, h1, rfl, ?_⟩
  have := C125_shrink_fails env7 h1 0 24 (fresh 64) rfl (by simp [fresh])
  rw [this]
  rfl

end Pbc.Memory
