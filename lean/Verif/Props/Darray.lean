import Verif.Model.Darray
import Mathlib.Data.List.Basic
import Mathlib.Data.List.Nodup
import Mathlib.Data.List.Dedup
import Mathlib.Logic.Function.Basic
import Mathlib.Data.List.Induction
import Mathlib.Order.Basic

/-!
# Properties of dynamic arrays and symbol tables
-/

set_option autoImplicit false

namespace Pbc.Darray

variable {α : Type}

/-- The array holds the list `l`: the first `count` cells are its entries, in order. -/
def Holds (a : DA α) (l : List α) : Prop :=
  a.count = l.length ∧ ∃ rest, a.item = l.map some ++ rest

theorem holds_init : Holds (init : DA α) [] := ⟨rfl, _, rfl⟩

theorem holds_clear : Holds (clear : DA α) [] := ⟨rfl, _, rfl⟩

theorem append_spec {a : DA α} {l : List α} (h : Holds a l) (p : α) :
    ∃ a', append a p = some a' ∧ Holds a' (l ++ [p]) := by
  obtain ⟨hc, rest, hi⟩ := h
  have key : ∃ b, (if a.count = a.item.length then
      realloc a.item (if a.item.length = 0 then maxInit else a.item.length * 2)
      else some a.item) = some b ∧ ∃ c rest', b = l.map some ++ c :: rest' := by
    by_cases hcap : a.count = a.item.length
    · rw [if_pos hcap]
      have hlen : a.item.length = l.length := by omega
      have hrest : rest = [] := by
        rw [hi] at hlen; simp at hlen; exact hlen
      subst hrest
      rw [List.append_nil] at hi
      have hm : ∃ m, (if a.item.length = 0 then maxInit else a.item.length * 2)
          = a.item.length + (m + 1) := by
        by_cases h0 : a.item.length = 0
        · exact ⟨7, by rw [if_pos h0, h0]; rfl⟩
        · exact ⟨a.item.length - 1, by rw [if_neg h0]; omega⟩
      obtain ⟨m, hm⟩ := hm
      rw [hm, realloc, if_neg (by omega)]
      refine ⟨_, rfl, none, List.replicate m none, ?_⟩
      rw [List.take_of_length_le (by omega), Nat.add_sub_cancel_left, List.replicate_succ, hi]
    · rw [if_neg hcap]
      refine ⟨_, rfl, ?_⟩
      match rest, hi with
      | [], hi => rw [hi] at hcap; simp at hcap; omega
      | c :: rest', hi => exact ⟨c, rest', hi⟩
  obtain ⟨b, hb, c, rest', hb'⟩ := key
  refine ⟨⟨l.map some ++ some p :: rest', a.count + 1⟩, ?_, ?_, rest', ?_⟩
  · rw [append]
    simp only [hb, Option.bind_some]
    rw [store, if_pos (by rw [hb', hc]; simp), hb', hc]
    simp
  · simp [hc]
  · simp

theorem read_spec {a : DA α} {l : List α} (h : Holds a l) {i : ℕ} (hi : i < l.length) :
    read a i = some l[i] := by
  obtain ⟨hc, rest, he⟩ := h
  rw [read, he, List.getElem?_append_left (by simpa using hi)]
  simp [hi]

theorem removeLast_spec {a : DA α} {l : List α} (h : Holds a l) (hl : l ≠ []) :
    ∃ a', removeLast a = some a' ∧ Holds a' l.dropLast := by
  obtain ⟨hc, rest, he⟩ := h
  have := List.length_pos_iff.2 hl
  refine ⟨_, by rw [removeLast, if_neg (by omega)], by simp [hc], some (l.getLast hl) :: rest, ?_⟩
  simp only [he]
  conv_lhs => rw [← List.dropLast_append_getLast hl]
  simp

theorem memmove_spec {l : List α} {rest : List (Option α)} {n : ℕ} (hn : n < l.length) :
    ∃ b rest', memmove (l.map some ++ rest) n (l.length - 1 - n) = some b ∧
      b = (l.eraseIdx n).map some ++ rest' := by
  refine ⟨_, (l.map some ++ rest).drop (n + (l.length - 1 - n)), by
    rw [memmove, if_pos (by simp; omega)], ?_⟩
  rw [List.eraseIdx_eq_take_drop_succ, List.map_append, List.map_take, List.map_drop]
  congr 2
  · rw [List.take_append_of_le_length (by simp; omega)]
  · rw [List.drop_append_of_le_length (by simp; omega), List.take_append_of_le_length (by simp; omega),
      List.take_of_length_le (by simp; omega)]

theorem removeIndex_spec {a : DA α} {l : List α} (h : Holds a l) {n : ℕ} (hn : n < l.length) :
    ∃ a', removeIndex a n = some a' ∧ Holds a' (l.eraseIdx n) := by
  obtain ⟨hc, rest, he⟩ := h
  obtain ⟨b, rest', h1, h2⟩ := memmove_spec (rest := rest) hn
  refine ⟨⟨b, a.count - 1⟩, ?_, ?_, rest', h2⟩
  · rw [removeIndex, if_pos (by omega), he, hc, h1]; rfl
  · simp [hc, List.length_eraseIdx, hn]

theorem search_spec {a : DA α} {l : List α} (h : Holds a l) (test : α → Bool) (k i : ℕ)
    (hk : i + k = l.length) :
    search test a k i = some (((l.drop i).findIdx? test).map (· + i)) := by
  induction k generalizing i with
  | zero =>
    rw [search, List.drop_eq_nil_of_le (by omega)]
    rfl
  | succ k ih =>
    have hi : i < l.length := by omega
    rw [search, read_spec h hi, Option.bind_some, List.drop_eq_getElem_cons hi, List.findIdx?_cons]
    by_cases ht : test l[i]
    · simp [ht]
    · rw [if_neg ht, if_neg ht, ih (i + 1) (by omega), Option.map_map]
      congr 2
      funext x
      simp
      omega

/-- One of the calls on a family of arrays. -/
inductive Op (α : Type)
  | init (d : ℕ)
  | clear (d : ℕ)
  | removeAll (d : ℕ)
  | append (d : ℕ) (p : α)
  | removeLast (d : ℕ)
  | removeIndex (d n : ℕ)
  | remove (d : ℕ) (p : α)
  | copy (d s : ℕ)

variable [DecidableEq α]

/-- The code. -/
def Op.exec (s : ℕ → DA α) : Op α → Option (ℕ → DA α)
  | .init d => some (Function.update s d Darray.init)
  | .clear d => some (Function.update s d Darray.clear)
  | .removeAll d => some (Function.update s d Darray.init)
  | .append d p => (Darray.append (s d) p).map (Function.update s d)
  | .removeLast d => (Darray.removeLast (s d)).map (Function.update s d)
  | .removeIndex d n => (Darray.removeIndex (s d) n).map (Function.update s d)
  | .remove d p => (Darray.remove (s d) p).map (Function.update s d)
  | .copy d e => (Darray.copy (s d) (s e)).map (Function.update s d)

/-- The same call on lists. -/
def Op.spec (s : ℕ → List α) : Op α → (ℕ → List α)
  | .init d => Function.update s d []
  | .clear d => Function.update s d []
  | .removeAll d => Function.update s d []
  | .append d p => Function.update s d (s d ++ [p])
  | .removeLast d => Function.update s d (s d).dropLast
  | .removeIndex d n => Function.update s d ((s d).eraseIdx n)
  | .remove d p => Function.update s d ((s d).erase p)
  | .copy d e => Function.update s d (s e)

/-- What a caller has to see to. -/
def Op.ok (s : ℕ → List α) : Op α → Prop
  | .removeLast d => s d ≠ []
  | .removeIndex d n => n < (s d).length
  | .copy _ e => s e ≠ []
  | _ => True

def exec (s : ℕ → DA α) : List (Op α) → Option (ℕ → DA α)
  | [] => some s
  | o :: rest => (o.exec s).bind fun s' => exec s' rest

def AllOk (s : ℕ → List α) : List (Op α) → Prop
  | [] => True
  | o :: rest => o.ok s ∧ AllOk (o.spec s) rest

omit [DecidableEq α] in
theorem holds_update {s : ℕ → DA α} {t : ℕ → List α} (h : ∀ d, Holds (s d) (t d)) {d : ℕ} {a : DA α}
    {l : List α} (ha : Holds a l) :
    ∀ e, Holds (Function.update s d a e) (Function.update t d l e) := by
  intro e
  by_cases he : e = d
  · subst he; simpa using ha
  · simpa [he] using h e

theorem op_spec {s : ℕ → DA α} {t : ℕ → List α} (h : ∀ d, Holds (s d) (t d)) (o : Op α)
    (ho : o.ok t) : ∃ s', o.exec s = some s' ∧ ∀ d, Holds (s' d) (o.spec t d) := by
  cases o with
  | init d => exact ⟨_, rfl, holds_update h holds_init⟩
  | clear d => exact ⟨_, rfl, holds_update h holds_clear⟩
  | removeAll d => exact ⟨_, rfl, holds_update h holds_init⟩
  | append d p =>
    obtain ⟨a, h1, h2⟩ := append_spec (h d) p
    exact ⟨_, by rw [Op.exec, h1]; rfl, holds_update h h2⟩
  | removeLast d =>
    obtain ⟨a, h1, h2⟩ := removeLast_spec (h d) ho
    exact ⟨_, by rw [Op.exec, h1]; rfl, holds_update h h2⟩
  | removeIndex d n =>
    obtain ⟨a, h1, h2⟩ := removeIndex_spec (h d) ho
    exact ⟨_, by rw [Op.exec, h1]; rfl, holds_update h h2⟩
  | remove d p =>
    have key : ∃ a, Darray.remove (s d) p = some a ∧ Holds a ((t d).erase p) := by
      have hs := search_spec (h d) (fun x => x = p) (s d).count 0 (by rw [(h d).1]; simp)
      rw [Darray.remove, indexOf, hs]
      simp only [List.drop_zero]
      cases hf : (t d).findIdx? (fun x => decide (x = p)) with
      | none =>
        refine ⟨s d, rfl, ?_⟩
        have : p ∉ t d := by
          intro hp
          rw [List.findIdx?_eq_none_iff] at hf
          have := hf p hp
          simp at this
        rw [List.erase_of_not_mem this]
        exact h d
      | some n =>
        have hidx : n = (t d).findIdx (fun x => decide (x = p)) ∧ n < (t d).length := by
          rw [List.findIdx?_eq_some_iff_findIdx_eq] at hf
          exact ⟨hf.2.symm, hf.1⟩
        obtain ⟨hc, rest, he⟩ := h d
        obtain ⟨b, rest', h1, h2⟩ := memmove_spec (rest := rest) hidx.2
        refine ⟨⟨b, (s d).count - 1⟩, ?_, ?_⟩
        · simp only [Option.map_some, Option.bind_some, Nat.add_zero]
          rw [he, hc, h1]; rfl
        · have e : (t d).erase p = (t d).eraseIdx n := by
            rw [List.erase_eq_eraseIdx_of_idxOf]
            rw [hidx.1, List.idxOf]
            congr 1
          rw [e]
          refine ⟨?_, rest', h2⟩
          simp [hc, List.length_eraseIdx, hidx.2]
    obtain ⟨a, h1, h2⟩ := key
    exact ⟨_, by rw [Op.exec, h1]; rfl, holds_update h h2⟩
  | copy d e =>
    have hpos := List.length_pos_iff.2 ho
    obtain ⟨hc, rest, he⟩ := h e
    have key : ∃ a, Darray.copy (s d) (s e) = some a ∧ Holds a (t e) := by
      rw [Darray.copy, realloc, if_neg (by omega)]
      refine ⟨_, by
        rw [Option.bind_some, if_pos ⟨by simp; omega, by rw [he]; simp [hc]⟩], ?_,
        ((s d).item.take (s e).count ++
          List.replicate ((s e).count - (s d).item.length) none).drop (s e).count, ?_⟩
      · exact hc
      · rw [he, hc, List.take_append_of_le_length (by simp), List.take_of_length_le (by simp)]
    obtain ⟨a, h1, h2⟩ := key
    exact ⟨_, by rw [Op.exec, h1]; rfl, holds_update h h2⟩

/-- **C63.**  Every sequence of calls on any number of arrays — initialise, clear, empty, append,
remove the last entry, remove by index, remove by value, copy — behaves as the same sequence on lists,
and makes no access outside the allocated blocks, provided that nothing is removed where there is
nothing and no empty array is copied. -/
theorem C63_list (s : ℕ → DA α) (t : ℕ → List α) (h : ∀ d, Holds (s d) (t d)) (prog : List (Op α))
    (hok : AllOk t prog) :
    ∃ s', exec s prog = some s' ∧ ∀ d, Holds (s' d) (prog.foldl Op.spec t d) := by
  induction prog generalizing s t with
  | nil => exact ⟨s, rfl, h⟩
  | cons o rest ih =>
    obtain ⟨s1, h1, h2⟩ := op_spec h o hok.1
    obtain ⟨s2, h3, h4⟩ := ih s1 _ h2 hok.2
    exact ⟨s2, by rw [exec, h1, Option.bind_some, h3], h4⟩

example : AllOk (fun _ => ([] : List ℕ))
    [.append 0 5, .append 0 6, .copy 1 0, .removeIndex 1 0, .remove 0 6, .removeLast 0] := by
  simp [AllOk, Op.ok, Op.spec]

/-- **C63.**  What the queries return is what the list says: entries, index of the first equal entry,
first entry that passes a test, visiting order. -/
theorem C63_queries {a : DA α} {l : List α} (h : Holds a l) (p : α) (test : α → Bool) :
    (∀ i (hi : i < l.length), read a i = some l[i]) ∧ a.count = l.length ∧
    indexOf a p = some (l.findIdx? (fun x => x = p)) ∧
    atTest a test = some (l.find? test) ∧
    forall' a = some l := by
  have hs := fun test : α → Bool => search_spec h test a.count 0 (by rw [h.1]; simp)
  refine ⟨fun i hi => read_spec h hi, h.1, ?_, ?_, ?_⟩
  · rw [indexOf, hs]
    simp
  · rw [atTest, hs]
    simp only [List.drop_zero, Nat.add_zero, Option.map_id']
    cases hf : l.findIdx? test with
    | none =>
      have : l.find? test = none := by
        rw [List.find?_eq_none]
        rw [List.findIdx?_eq_none_iff] at hf
        intro x hx; simp [hf x hx]
      rw [this]; rfl
    | some n =>
      rw [List.findIdx?_eq_some_iff_getElem] at hf
      obtain ⟨hn, ht, hlt⟩ := hf
      have : l.find? test = some l[n] := by
        rw [List.find?_eq_some_iff_getElem]
        exact ⟨ht, n, hn, rfl, fun j hj => by simpa using hlt j hj⟩
      rw [this, Option.bind_some]
      simp only [read_spec h hn]
      rfl
  · rw [forall', h.1]
    have : ∀ (k : ℕ), k ≤ l.length → (List.range k).mapM (read a) = some (l.take k) := by
      intro k
      induction k with
      | zero => intro _; simp
      | succ k ih =>
        intro hk
        rw [List.range_succ, List.mapM_append, ih (by omega)]
        have hk' : k < l.length := by omega
        have e : l.take (k + 1) = l.take k ++ [l[k]] := by simp
        rw [e]
        simp [read_spec h hk']
    rw [this _ (Nat.le_refl _), List.take_length]

/-- **C63, discrepancy.**  Copying an empty array ends the process: the block is reallocated to size
zero. -/
theorem C63_copy_empty_fails (dst src : DA α) (h : Holds src []) : copy dst src = none := by
  rw [copy, realloc, if_pos (by simpa using h.1)]
  rfl

/-- **C63, discrepancy.**  `darray_remove_with_test` removes only the first entry that passes the
test, and if some entry does and the block is full it reads past the end of the block. -/
theorem C63_remove_with_test {a : DA α} {l : List α} (h : Holds a l) (test : α → Bool) :
    ((∀ x ∈ l, test x = false) → removeWithTest a test = some a) ∧
    ((∃ x ∈ l, test x = true) → a.item.length = a.count → removeWithTest a test = none) ∧
    ((∃ x ∈ l, test x = true) → a.count < a.item.length →
      ∃ a', removeWithTest a test = some a' ∧ Holds a' (l.eraseP test)) := by
  have hs := search_spec h test a.count 0 (by rw [h.1]; simp)
  obtain ⟨hc, rest, he⟩ := h
  -- the inner loop
  have hshift : ∀ (k i : ℕ) (b : List (Option α)), i + k < b.length →
      shiftLoop b k i = some (b.take i ++ (b.drop (i + 1)).take k ++ b.drop (i + k)) := by
    intro k
    induction k with
    | zero => intro i b _; simp [shiftLoop]
    | succ k ih =>
      intro i b hb
      have h1 : i + 1 < b.length := by omega
      rw [shiftLoop, List.getElem?_eq_getElem h1, Option.bind_some, store, if_pos (by omega),
        Option.bind_some, ih _ _ (by simp; omega)]
      congr 1
      apply List.ext_getElem
      · simp; omega
      · intro j hj1 hj2
        simp only [List.getElem_append, List.getElem_take, List.getElem_drop, List.length_take,
          List.length_append, List.length_drop, List.length_set, List.getElem_set]
        split_ifs <;> first | rfl | omega | (congr 1; omega)
  have hbad : ∀ (k i : ℕ) (b : List (Option α)), 0 < k → i + k = b.length →
      shiftLoop b k i = none := by
    intro k
    induction k with
    | zero => intro i b h0; omega
    | succ k ih =>
      intro i b _ hb
      rw [shiftLoop]
      by_cases h1 : i + 1 < b.length
      · rw [List.getElem?_eq_getElem h1, Option.bind_some, store, if_pos (by omega),
          Option.bind_some]
        exact ih _ _ (by omega) (by simp; omega)
      · rw [List.getElem?_eq_none (by omega)]; rfl
  refine ⟨fun hn => ?_, fun hx hfull => ?_, fun hx hroom => ?_⟩
  · rw [removeWithTest, hs]
    have : l.findIdx? test = none := by
      rw [List.findIdx?_eq_none_iff]; exact hn
    simp [this]
  · obtain ⟨n, hn⟩ : ∃ n, l.findIdx? test = some n := by
      rw [← Option.isSome_iff_exists, List.findIdx?_isSome, List.any_eq_true]
      exact hx
    have hlt : n < l.length := (List.findIdx?_eq_some_iff_getElem.1 hn).1
    rw [removeWithTest, hs]
    simp only [List.drop_zero, hn, Option.map_some, Option.bind_some, Nat.add_zero]
    rw [hbad _ _ _ (by omega) (by omega)]
    rfl
  · obtain ⟨n, hn⟩ : ∃ n, l.findIdx? test = some n := by
      rw [← Option.isSome_iff_exists, List.findIdx?_isSome, List.any_eq_true]
      exact hx
    have hlt : n < l.length := (List.findIdx?_eq_some_iff_getElem.1 hn).1
    rw [removeWithTest, hs]
    simp only [List.drop_zero, hn, Option.map_some, Option.bind_some, Nat.add_zero]
    rw [hshift _ _ _ (by omega)]
    refine ⟨_, rfl, ?_, ?_⟩
    · simp only [hc]
      rw [List.length_eraseP_of_mem (l := l) (a := l[n]) (List.getElem_mem hlt)
        (by simpa using (List.findIdx?_eq_some_iff_getElem.1 hn).2.1)]
    · have e : l.eraseP test = l.eraseIdx n := by
        rw [List.eraseP_eq_eraseIdx, hn]
      rw [e, List.eraseIdx_eq_take_drop_succ]
      have hk : a.count - n = (l.length - 1 - n) + 1 := by omega
      refine ⟨(a.item.drop (n + 1 + (l.length - 1 - n))).take 1 ++ a.item.drop (n + (a.count - n)), ?_⟩
      simp only
      rw [hk, List.take_add, List.map_append, List.map_take, List.map_drop, List.drop_drop]
      simp only [List.append_assoc]
      congr 1
      · rw [he, List.take_append_of_le_length (by simp; omega)]
      · congr 1
        rw [he, List.drop_append_of_le_length (by simp; omega),
          List.take_append_of_le_length (by simp; omega), List.take_of_length_le (by simp; omega)]

/-! ### Symbol tables -/

variable {κ β : Type} [DecidableEq κ]

/-- The map after a sequence of puts: the latest value under each key. -/
def mapOf (puts : List (β × κ)) : κ → Option β :=
  puts.foldl (fun m p => Function.update m p.2 (some p.1)) fun _ => none

/-- The table after a sequence of puts, starting from an empty table. -/
def tableOf (puts : List (β × κ)) : List (κ × β) := puts.foldl (fun t p => put t p.1 p.2) []

theorem at_put (t : List (κ × β)) (v : β) (k j : κ) :
    «at» (put t v k) j = if j = k then some v else «at» t j := by
  induction t with
  | nil => simp [put, «at», eq_comm]
  | cons e t ih =>
    obtain ⟨k', v'⟩ := e
    rw [put]
    by_cases h : k' = k
    · subst h
      simp only [if_true, «at»]
      by_cases hj : k' = j
      · simp [hj]
      · rw [if_neg hj, if_neg hj, if_neg (Ne.symm hj)]
    · rw [if_neg h]
      simp only [«at»]
      by_cases hj : k' = j
      · subst hj; simp [h]
      · rw [if_neg hj, if_neg hj, ih]

theorem has_eq (t : List (κ × β)) (k : κ) : has t k = («at» t k).isSome := by
  induction t with
  | nil => rfl
  | cons e t ih =>
    simp only [has, «at»]
    split_ifs
    · rfl
    · exact ih

theorem keys_put (t : List (κ × β)) (v : β) (k : κ) :
    (put t v k).map Prod.fst = if k ∈ t.map Prod.fst then t.map Prod.fst
      else t.map Prod.fst ++ [k] := by
  induction t with
  | nil => simp [put]
  | cons e t ih =>
    obtain ⟨k', v'⟩ := e
    rw [put]
    by_cases h : k' = k
    · subst h; simp
    · rw [if_neg h, List.map_cons, ih]
      have : k ∈ (k' :: t.map Prod.fst) ↔ k ∈ t.map Prod.fst := by
        simp [Ne.symm h]
      simp only [List.map_cons, this]
      split_ifs <;> rfl

/-- **C62.**  After any sequence of puts, lookups give what a map gives: the latest value put under
the key, or nothing; the membership test agrees. -/
theorem C62_map (puts : List (β × κ)) (k : κ) :
    «at» (tableOf puts) k = mapOf puts k ∧ has (tableOf puts) k = (mapOf puts k).isSome := by
  have h : ∀ (t : List (κ × β)) (m : κ → Option β), (∀ k, «at» t k = m k) →
      ∀ k, «at» (puts.foldl (fun t p => put t p.1 p.2) t) k
        = puts.foldl (fun (m : κ → Option β) p => Function.update m p.2 (some p.1)) m k := by
    induction puts with
    | nil => intro t m h; exact h
    | cons p puts ih =>
      intro t m h
      refine ih _ _ fun k => ?_
      rw [at_put]
      by_cases hk : k = p.2
      · subst hk; simp
      · rw [if_neg hk, h]
        simp [hk]
  have h1 := h [] (fun _ => none) (fun _ => rfl) k
  exact ⟨h1, by rw [has_eq]; exact congrArg Option.isSome h1⟩

/-- **C62.**  Iteration visits each key once, in the order in which the keys were first put, with the
latest value. -/
theorem C62_order (puts : List (β × κ)) :
    ((tableOf puts).map Prod.fst).Nodup ∧
    (tableOf puts).map Prod.fst = ((puts.map Prod.snd).reverse.dedup).reverse ∧
    forallData (tableOf puts) = ((tableOf puts).map Prod.fst).filterMap (mapOf puts) := by
  have hkeys : (tableOf puts).map Prod.fst = ((puts.map Prod.snd).reverse.dedup).reverse := by
    induction puts using List.reverseRecOn with
    | nil => rfl
    | append_singleton puts p ih =>
      have : tableOf (puts ++ [p]) = put (tableOf puts) p.1 p.2 := by simp [tableOf]
      rw [this, keys_put, ih, List.map_append, List.reverse_append, List.map_singleton,
        List.reverse_singleton, List.singleton_append]
      by_cases h : p.2 ∈ (puts.map Prod.snd).reverse
      · rw [List.dedup_cons_of_mem h, if_pos (by simpa using h)]
      · rw [List.dedup_cons_of_notMem h, if_neg (by simpa using h), List.reverse_cons]
  have hnd : ((tableOf puts).map Prod.fst).Nodup := by
    rw [hkeys, List.nodup_reverse]; exact List.nodup_dedup _
  refine ⟨hnd, hkeys, ?_⟩
  have hat : ∀ t : List (κ × β), (t.map Prod.fst).Nodup →
      t.map Prod.snd = (t.map Prod.fst).filterMap («at» t) := by
    intro t
    induction t with
    | nil => intro _; rfl
    | cons e t ih =>
      obtain ⟨k, v⟩ := e
      intro hn
      rw [List.map_cons, List.nodup_cons] at hn
      rw [List.map_cons, List.map_cons, List.filterMap_cons]
      simp only [«at», if_true]
      rw [ih hn.2]
      congr 1
      apply List.filterMap_congr
      intro x hx
      rw [if_neg]
      rintro rfl
      exact hn.1 hx
  rw [forallData, hat _ hnd]
  apply List.filterMap_congr
  intro x _
  exact (C62_map puts x).1

example : «at» (tableOf [(1, "q"), (2, "r"), (3, "q")]) "q" = some 3 ∧
    (tableOf [(1, "q"), (2, "r"), (3, "q")]).map Prod.fst = ["q", "r"] := by decide

/-- The program above from empty arrays: array 0 ends empty, array 1 holds `[6]`. -/
example : ∃ s', exec (fun _ => (init : DA ℕ))
    [.append 0 5, .append 0 6, .copy 1 0, .removeIndex 1 0, .remove 0 6, .removeLast 0] = some s' ∧
    Holds (s' 0) [] ∧ Holds (s' 1) [6] ∧ indexOf (s' 1) 6 = some (some 0) := by
  obtain ⟨s', h1, h2⟩ := C63_list (fun _ => (init : DA ℕ)) (fun _ => []) (fun _ => holds_init)
    [.append 0 5, .append 0 6, .copy 1 0, .removeIndex 1 0, .remove 0 6, .removeLast 0]
    (by simp [AllOk, Op.ok, Op.spec])
  have h6 : Holds (s' 1) [6] := by simpa [Op.spec] using h2 1
  exact ⟨s', h1, by simpa [Op.spec] using h2 0, h6, (C63_queries h6 6 fun _ => true).2.2.1⟩

end Pbc.Darray
