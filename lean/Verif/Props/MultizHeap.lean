import Verif.Lemmas.MultizHeap

/-!
# Elements that are nested lists of integers, in memory (C131, C132)

Nodes are allocated and freed by every call.  The by-value meaning of the calls is
`Spec.MultizHeap.step`; `Owns` says that every element has nodes of its own and that no other nodes
are in use.
-/

set_option autoImplicit false

namespace Pbc.MultizHeap

open Spec.MultizHeap
open Pbc.Multiz (MZ)

/-! ## C131 -/

/-- Every call keeps elements apart, uses no node that was freed, frees none twice and loses none. -/
theorem C131_call {s s' : Store} {op : Op} (hs : step s op = some s') :
    ∃ N, ∀ n, N ≤ n → ∀ σ, Owns σ s → ∃ σ', exec n σ op = .val σ' ∧ Owns σ' s' :=
  ⟨need s op, fun _ hn _ o => exec_spec hs hn o⟩

/-- So does every program. -/
theorem C131_programs (prog : List Op) {s : Store} (hs : steps (fun _ => none) prog = some s) :
    ∃ N, ∀ n, N ≤ n → ∃ σ, run n start prog = .val σ ∧ Owns σ s := by
  obtain ⟨N, h⟩ := run_spec prog hs
  exact ⟨N, fun n hn => h n hn start start_owns⟩

/-- Walking over an element finds the value it should have. -/
theorem C131_values {σ : State} {s : Store} (o : Owns σ s) {i : ℕ} {t : MZ} (hi : s i = some t) :
    ∃ N, ∀ n, N ≤ n → (σ.at i >>= look n σ.heap) = .val t := by
  obtain ⟨a, ha, G, H⟩ := owns_at o hi
  exact ⟨depth t, fun n hn => by rw [ha, bind_val]; exact look_spec n hn H⟩

/-- When every element is cleared or put into a list that is cleared, nothing is left. -/
theorem C131_no_leak {σ : State} {s : Store} (o : Owns σ s) (h : ∀ i, s i = none) (a : ℕ) :
    σ.heap.cells a = none := by
  obtain ⟨F, -, o2, -, o4, -⟩ := o
  by_contra hc
  obtain ⟨i, hi⟩ := (o4 a).1 hc
  rw [o2 i (h i)] at hi
  simp at hi

/-- Two elements never have a node in common. -/
theorem C131_apart {σ : State} {s : Store} (o : Owns σ s) {i j : ℕ} (hij : i ≠ j) {t u : MZ} (hi : s i = some t)
    (hj : s j = some u) : ∃ a b, σ.data i = some a ∧ σ.data j = some b ∧ a ≠ b := by
  obtain ⟨F, o1, -, o3, -⟩ := o
  obtain ⟨a, ha, H⟩ := o1 i t hi
  obtain ⟨b, hb, H'⟩ := o1 j u hj
  have ha' : a ∈ F i := by
    cases t with
    | int z => rw [H.2]; simp
    | arr l => obtain ⟨as, G, -, -, -, e⟩ := H; rw [e]; simp
  have hb' : b ∈ F j := by
    cases u with
    | int z => rw [H'.2]; simp
    | arr l => obtain ⟨as, G, -, -, -, e⟩ := H'; rw [e]; simp
  exact ⟨a, b, ha, hb, fun hh => Finset.disjoint_left.1 (o3 i j hij) ha' (hh ▸ hb')⟩

/-- A product of two lists, with the factors as destinations, then everything cleared. -/
def exProg : List Op :=
  [.init 0, .setZ 0 2, .newList 1 0, .init 2, .setZ 2 3, .append 1 2, .init 3, .set 3 1,
   .mul 1 1 3, .add 3 1 3, .sub 3 3 3, .init 4, .setZ 4 5, .div 1 1 4, .mulZ 3 1 7, .neg 3 3, .random 4]

example : (steps (fun _ => none) exProg).isSome = true := by decide +kernel

example : ∃ N, ∀ n, N ≤ n → ∃ σ, run n start (exProg ++ [.clear 1, .clear 3, .clear 4]) = .val σ ∧
    ∀ a, σ.heap.cells a = none := by
  obtain ⟨s, hs⟩ : ∃ s, steps (fun _ => none) (exProg ++ [.clear 1, .clear 3, .clear 4]) = some s :=
    Option.isSome_iff_exists.1 (by decide +kernel)
  obtain ⟨N, h⟩ := C131_programs _ hs
  refine ⟨N, fun n hn => ?_⟩
  obtain ⟨σ, e, o⟩ := h n hn
  refine ⟨σ, e, C131_no_leak o fun i => ?_⟩
  have hs' : s = _ := (Option.some.inj hs).symm
  rw [hs']
  simp only [Function.update_apply]
  split_ifs <;> rfl

/-- Run on the machine: the product `(2 + 3x)²`. -/
example : (run 9 start [.init 0, .setZ 0 2, .newList 1 0, .init 2, .setZ 2 3, .append 1 2, .mul 1 1 1] >>=
    fun σ => σ.at 1 >>= toMpz 9 σ.heap) = .val 4 := by rfl

/-! ## C132 -/

theorem read_val {h : Heap} {a : ℕ} {c : Cell} (e : read h a = .val c) : h.cells a = some c := by
  unfold read at e
  split at e
  · next c' hc => cases e; exact hc
  · cases e

/-- Freeing brings nothing back. -/
theorem free_dead : (n : ℕ) → {h h' : Heap} → {a : ℕ} → free n h a = .val h' →
    h'.cells a = none ∧ ∀ b, h'.cells b = h.cells b ∨ h'.cells b = none
  | 0, h, h', a, e => by simp [free] at e
  | n + 1, h, h', a, e => by
    have key : ∀ (l : List ℕ) (h h' : Heap), l.foldlM (fun h b => free n h b) h = .val h' →
        ∀ b, h'.cells b = h.cells b ∨ h'.cells b = none := by
      intro l
      induction l with
      | nil => intro h h' e b; cases e; exact Or.inl rfl
      | cons c l ih =>
        intro h h' e b
        rw [List.foldlM_cons] at e
        cases hc : free n h c with
        | bad => rw [hc] at e; cases e
        | more => rw [hc] at e; cases e
        | val h1 =>
          rw [hc] at e
          rcases ih h1 h' e b with hh | hh
          · rw [hh]; exact (free_dead n hc).2 b
          · exact Or.inr hh
    have rel : ∀ h1 h2 : Heap, release h1 a = .val h2 →
        h2.cells a = none ∧ ∀ b, h2.cells b = h1.cells b ∨ h2.cells b = none := by
      intro h1 h2 e
      unfold release at e
      split at e
      · cases e
        refine ⟨by simp, fun b => ?_⟩
        by_cases hb : b = a
        · simp [hb]
        · simp [hb]
      · cases e
    unfold free at e
    cases hr : read h a with
    | bad => rw [hr] at e; cases e
    | more => rw [hr] at e; cases e
    | val c =>
      rw [hr, bind_val] at e
      cases c with
      | int z => exact rel _ _ e
      | arr l =>
        dsimp only at e
        cases hf : l.foldlM (fun h b => free n h b) h with
        | bad => rw [hf] at e; cases e
        | more => rw [hf] at e; cases e
        | val h1 =>
          rw [hf, bind_val] at e
          obtain ⟨r1, r2⟩ := rel _ _ e
          refine ⟨r1, fun b => ?_⟩
          rcases r2 b with hh | hh
          · rw [hh]; exact key l h h1 hf b
          · exact Or.inr hh

theorem free_next : (n : ℕ) → {h h' : Heap} → {a : ℕ} → free n h a = .val h' → h'.next = h.next
  | 0, h, h', a, e => by simp [free] at e
  | n + 1, h, h', a, e => by
    have key : ∀ (l : List ℕ) (h h' : Heap), l.foldlM (fun h b => free n h b) h = .val h' →
        h'.next = h.next := by
      intro l
      induction l with
      | nil => intro h h' e; cases e; rfl
      | cons c l ih =>
        intro h h' e
        rw [List.foldlM_cons] at e
        cases hc : free n h c with
        | bad => rw [hc] at e; cases e
        | more => rw [hc] at e; cases e
        | val h1 =>
          rw [hc] at e
          rw [ih h1 h' e, free_next n hc]
    have rel : ∀ h1 h2 : Heap, release h1 a = .val h2 → h2.next = h1.next := by
      intro h1 h2 e
      unfold release at e
      split at e
      · cases e; rfl
      · cases e
    unfold free at e
    cases hr : read h a with
    | bad => rw [hr] at e; cases e
    | more => rw [hr] at e; cases e
    | val c =>
      rw [hr, bind_val] at e
      cases c with
      | int z => exact rel _ _ e
      | arr l =>
        dsimp only at e
        cases hf : l.foldlM (fun h b => free n h b) h with
        | bad => rw [hf] at e; cases e
        | more => rw [hf] at e; cases e
        | val h1 =>
          rw [hf, bind_val] at e
          rw [rel _ _ e, key l h h1 hf]

/-- A list with an entry that was freed cannot be freed. -/
theorem free_dangling {n : ℕ} {h h' : Heap} {a b : ℕ} {l : List ℕ} (ha : h.cells a = some (.arr l)) (hb : b ∈ l)
    (hd : h.cells b = none) : free n h a ≠ .val h' := by
  intro e
  cases n with
  | zero => cases e
  | succ n =>
    have key : ∀ (l : List ℕ) (h h' : Heap), b ∈ l → h.cells b = none →
        l.foldlM (fun h b => free n h b) h ≠ .val h' := by
      intro l
      induction l with
      | nil => simp
      | cons c l ih =>
        intro h h' hbl hd e
        rw [List.foldlM_cons] at e
        cases hc : free n h c with
        | bad => rw [hc] at e; cases e
        | more => rw [hc] at e; cases e
        | val h1 =>
          rw [hc] at e
          rcases List.mem_cons.1 hbl with rfl | hbl
          · cases n with
            | zero => cases hc
            | succ n => simp [free, read, hd] at hc
          · refine ih h1 h' hbl ?_ e
            rcases (free_dead n hc).2 b with hh | hh
            · rw [hh, hd]
            · exact hh
    simp only [free, read, ha, bind_val] at e
    cases hf : l.foldlM (fun h b => free n h b) h with
    | bad => rw [hf] at e; cases e
    | more => rw [hf] at e; cases e
    | val h1 => exact key l h h1 hb hd hf

/-- Nor walked over. -/
theorem look_dangling {n : ℕ} {h : Heap} {a b : ℕ} {l : List ℕ} {t : MZ} (ha : h.cells a = some (.arr l))
    (hb : b ∈ l) (hd : h.cells b = none) : look n h a ≠ .val t := by
  intro e
  cases n with
  | zero => cases e
  | succ n =>
    have key : ∀ (l : List ℕ) (ts : List MZ), b ∈ l → l.mapM (fun b => look n h b) ≠ .val ts := by
      intro l
      induction l with
      | nil => simp
      | cons c l ih =>
        intro ts hbl e
        rw [List.mapM_cons] at e
        cases hc : look n h c with
        | bad => rw [hc] at e; cases e
        | more => rw [hc] at e; cases e
        | val t =>
          rw [hc, bind_val] at e
          rcases List.mem_cons.1 hbl with rfl | hbl
          · cases n with
            | zero => cases hc
            | succ n => simp [look, read, hd] at hc
          · cases hm : l.mapM (fun b => look n h b) with
            | bad => rw [hm] at e; cases e
            | more => rw [hm] at e; cases e
            | val us => exact ih us hbl hm
    simp only [look, read, ha, bind_val] at e
    cases hf : l.mapM (fun b => look n h b) with
    | bad => rw [hf] at e; cases e
    | more => rw [hf] at e; cases e
    | val us => exact key l us hb hf

/-- Reading a component gives the entry of the list. -/
theorem C132_item_reads_partial {σ : State} {s : Store} (o : Owns σ s) {r e k : ℕ} {l : List MZ} {t : MZ}
    (he : s e = some (.arr l)) (hk : l[k]? = some t) :
    ∃ σ', item σ r e k = .val (some σ') ∧ ∃ N, ∀ n, N ≤ n → (σ'.at r >>= look n σ'.heap) = .val t := by
  obtain ⟨a, ha, G, as, G', h1, h2, -⟩ := owns_at o he
  have A := HoldsL.at h2
  have hlen := HoldsL.length h2
  obtain ⟨hkl, hkt⟩ := List.getElem?_eq_some_iff.1 hk
  have hka : k < as.length := by omega
  obtain ⟨G, hG⟩ : At σ.heap as[k] t := by
    have := (List.forall₂_iff_get.1 A).2 k hka hkl
    simpa [hkt] using this
  refine ⟨⟨σ.heap, Function.update σ.data r (some as[k])⟩, ?_, depth t, fun n hn => ?_⟩
  · simp only [item, ha, bind_val, read, h1]
    rw [List.getElem?_eq_getElem hka]
  · simp only [State.at, Function.update_self, bind_val]
    exact look_spec n hn hG

/-- The component "may be modified", but when it is, the list it came from holds a freed node: it
can neither be walked over nor cleared any more. -/
theorem C132_item_modified_fails {n : ℕ} {σ σ1 σ2 : State} {s : Store} (o : Owns σ s) {r e k : ℕ} {z : ℤ}
    (hre : r ≠ e) (h1 : item σ r e k = .val (some σ1)) (h2 : exec n σ1 (.setZ r z) = .val σ2) :
    (∀ m t, (σ2.at e >>= look m σ2.heap) ≠ .val t) ∧ (∀ m σ', exec m σ2 (.clear e) ≠ .val σ') := by
  obtain ⟨F, -, -, -, -, w⟩ := o
  unfold item at h1
  cases hx : σ.data e with
  | none => simp [State.at, hx] at h1
  | some x =>
  simp only [State.at, hx, bind_val] at h1
  cases hr : read σ.heap x with
  | bad => rw [hr] at h1; cases h1
  | more => rw [hr] at h1; cases h1
  | val c =>
  rw [hr, bind_val] at h1
  have hcx := read_val hr
  cases c with
  | int z => cases h1
  | arr l =>
  dsimp only at h1
  cases hk : l[k]? with
  | none => rw [hk] at h1; cases h1
  | some a =>
  rw [hk] at h1
  simp only [Res.val.injEq, Option.some.injEq] at h1
  subst h1
  have hal : a ∈ l := List.mem_of_getElem? hk
  simp only [exec, State.at, Function.update_self, bind_val] at h2
  cases hf : free n σ.heap a with
  | bad => rw [hf] at h2; cases h2
  | more => rw [hf] at h2; cases h2
  | val h =>
  rw [hf, bind_val] at h2
  cases h2
  obtain ⟨d1, d2⟩ := free_dead n hf
  have hnext : ∀ b, σ.heap.cells b ≠ none → b ≠ h.next := by
    intro b hb hh
    have := free_next n hf
    rw [this] at hh
    exact hb (w b (by omega))
  have hax : σ.heap.cells a ≠ none := by
    cases n with
    | zero => cases hf
    | succ n =>
      intro hh
      simp [free, read, hh] at hf
  have hx' := hnext x (by rw [hcx]; simp)
  have ha' := hnext a hax
  have hat : (⟨(alloc h (.int z)).2, Function.update (Function.update σ.data r (some a)) r (some (alloc h (.int z)).1)⟩ :
      State).at e = .val x := by
    simp [State.at, Function.update_of_ne hre.symm, hx]
  have da : (alloc h (.int z)).2.cells a = none := by
    simp only [alloc]
    rw [Function.update_of_ne ha', d1]
  rw [hat]
  rcases d2 x with hh | hh
  · have hxl : (alloc h (.int z)).2.cells x = some (.arr l) := by
      simp only [alloc]
      rw [Function.update_of_ne hx', hh, hcx]
    refine ⟨fun m t => ?_, fun m σ' e' => ?_⟩
    · rw [bind_val]
      exact look_dangling hxl hal da
    · simp only [exec, hat, bind_val] at e'
      cases hf' : free m (alloc h (.int z)).2 x with
      | bad => rw [hf'] at e'; cases e'
      | more => rw [hf'] at e'; cases e'
      | val h3 => exact free_dangling hxl hal da hf'
  · have hxl : (alloc h (.int z)).2.cells x = none := by
      simp only [alloc]
      rw [Function.update_of_ne hx', hh]
    refine ⟨fun m t => ?_, fun m σ' e' => ?_⟩
    · rw [bind_val]
      cases m with
      | zero => intro hh; cases hh
      | succ m => simp [look, read, hxl]
    · simp only [exec, hat, bind_val] at e'
      cases m with
      | zero => cases e'
      | succ m => simp [free, read, hxl] at e'

/-- An element put into a new list is not copied: once it is cleared, the list can neither be walked
over nor cleared. -/
theorem C132_listed_then_cleared_fails {n m : ℕ} {σ σ1 σ2 : State} {i j : ℕ} (hij : i ≠ j)
    (h1 : exec n σ (.newList i j) = .val σ1) (h2 : exec m σ1 (.clear j) = .val σ2) :
    (∀ m t, (σ2.at i >>= look m σ2.heap) ≠ .val t) ∧ (∀ m σ', exec m σ2 (.clear i) ≠ .val σ') := by
  simp only [exec] at h1
  cases hf : free n (alloc σ.heap (.int 0)).2 (alloc σ.heap (.int 0)).1 with
  | bad => rw [hf] at h1; cases h1
  | more => rw [hf] at h1; cases h1
  | val h =>
  rw [hf, bind_val] at h1
  cases hj : σ.data j with
  | none => simp [State.at, hj] at h1
  | some a =>
  simp only [State.at, hj, bind_val, alloc_fst h] at h1
  rw [push_val (alloc_at h _), bind_val] at h1
  cases h1
  simp only [exec, State.at, Function.update_of_ne hij.symm, hj, bind_val] at h2
  revert h2
  generalize hg : (⟨Function.update (alloc h (.arr [])).2.cells h.next (some (.arr ([] ++ [a]))), (alloc h (.arr [])).2.next⟩ :
    Heap) = g
  intro h2
  cases hf' : free m g a with
  | bad => rw [hf'] at h2; cases h2
  | more => rw [hf'] at h2; cases h2
  | val g' =>
  rw [hf', bind_val] at h2
  cases h2
  obtain ⟨d1, d2⟩ := free_dead m hf'
  have hat : (⟨g', Function.update (Function.update σ.data i (some h.next)) j none⟩ : State).at i
      = .val h.next := by
    simp [State.at, Function.update_of_ne hij]
  have hgl : g.cells h.next = some (.arr [a]) := by rw [← hg]; simp
  rw [hat]
  rcases d2 h.next with hh | hh
  · rw [hgl] at hh
    refine ⟨fun m t => ?_, fun m σ' e' => ?_⟩
    · rw [bind_val]
      exact look_dangling hh (by simp) d1
    · simp only [exec, hat, bind_val] at e'
      cases hf3 : free m g' h.next with
      | bad => rw [hf3] at e'; cases e'
      | more => rw [hf3] at e'; cases e'
      | val h3 => exact free_dangling hh (by simp) d1 hf3
  · refine ⟨fun m t => ?_, fun m σ' e' => ?_⟩
    · rw [bind_val]
      cases m with
      | zero => intro hh; cases hh
      | succ m => simp [look, read, hh]
    · simp only [exec, hat, bind_val] at e'
      cases m with
      | zero => cases e'
      | succ m => simp [free, read, hh] at e'

/-- An element of value `[2, 3]`, its second component, and the component set to `9`. -/
def exItem : Res State := do
  let σ ← run 9 start [.init 0, .setZ 0 2, .newList 1 0, .init 2, .setZ 2 3, .append 1 2]
  match ← item σ 5 1 1 with
  | none => .bad
  | some σ => exec 9 σ (.setZ 5 9)

example : (exItem >>= fun σ => σ.at 5 >>= toMpz 9 σ.heap) = .val 9 := by rfl

example : (exItem >>= fun σ => exec 9 σ (.clear 1) >>= fun _ => Res.val ()) = .bad := by rfl

/-- `[2]` from an element, which is then cleared; then the list. -/
example : (run 9 start [.init 0, .setZ 0 2, .newList 1 0, .clear 0] >>= fun _ => Res.val ()) = .val () ∧
    (run 9 start [.init 0, .setZ 0 2, .newList 1 0, .clear 0, .clear 1] >>= fun _ => Res.val ()) = .bad :=
  ⟨rfl, rfl⟩

/-- The second component of `[2, 3]`. -/
example {σ : State} {s : Store} (o : Owns σ s) (he : s 1 = some (.arr [.int 2, .int 3])) :
    ∃ σ', item σ 5 1 1 = .val (some σ') ∧ ∃ N, ∀ n, N ≤ n → (σ'.at 5 >>= look n σ'.heap) = .val (.int 3) :=
  C132_item_reads_partial o he rfl

end Pbc.MultizHeap
