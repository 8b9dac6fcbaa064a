import Verif.Spec.MultizHeap
import Mathlib.Data.Finset.Lattice.Lemmas
import Mathlib.Data.Finset.Insert
import Mathlib.Data.List.Forall2
import Mathlib.Tactic.Tauto

/-!
# Nested lists in memory: every routine builds exactly the tree it should
-/

set_option autoImplicit false

namespace Pbc.MultizHeap

open Spec.MultizHeap
open Pbc.Multiz (MZ)

@[simp] theorem bind_val {α β : Type} (a : α) (f : α → Res β) : (Res.val a >>= f) = f a := rfl
@[simp] theorem bind_bad {α β : Type} (f : α → Res β) : ((Res.bad : Res α) >>= f) = .bad := rfl
@[simp] theorem pure_eq {α : Type} (a : α) : (pure a : Res α) = .val a := rfl

instance : LawfulMonad Res := LawfulMonad.mk'
  (id_map := fun x => by cases x <;> rfl)
  (pure_bind := fun _ _ => rfl)
  (bind_assoc := fun x _ _ => by cases x <;> rfl)

/-! ## Depth -/

mutual

/-- The nesting needed to walk over the tree. -/
def depth : MZ → ℕ
  | .int _ => 1
  | .arr l => depthL l + 1

/-- The largest depth of an entry. -/
def depthL : List MZ → ℕ
  | [] => 1
  | t :: l => max (depth t) (depthL l)

end

theorem depth_pos (t : MZ) : 1 ≤ depth t := by
  cases t <;> simp [depth]

theorem depthL_pos : (l : List MZ) → 1 ≤ depthL l
  | [] => by simp [depthL]
  | t :: l => by have := depthL_pos l; simp only [depthL]; omega

theorem depth_le_depthL {t : MZ} : {l : List MZ} → t ∈ l → depth t ≤ depthL l
  | u :: l, h => by
    rcases List.mem_cons.1 h with rfl | h
    · simp [depthL]
    · have := depth_le_depthL h; simp only [depthL]; omega

theorem depthL_le {n : ℕ} (hn : 1 ≤ n) : {l : List MZ} → (∀ t ∈ l, depth t ≤ n) → depthL l ≤ n
  | [], _ => by simpa [depthL]
  | t :: l, h => by
    have h1 := h t (by simp)
    have h2 := depthL_le hn (l := l) fun u hu => h u (by simp [hu])
    simp only [depthL]; omega

/-! ## Changes of memory -/

/-- Nothing is in use from `next` on. -/
def Wf (h : Heap) : Prop := ∀ b, h.next ≤ b → h.cells b = none

/-- What is in use in `h` is unchanged in `h'`. -/
def Keeps (h h' : Heap) : Prop := ∀ b, h.cells b ≠ none → h'.cells b = h.cells b

/-- `h'` is `h` with the new nodes `F`. -/
structure Ext (h h' : Heap) (F : Finset ℕ) : Prop where
  same : ∀ b, b ∉ F → h'.cells b = h.cells b
  fresh : ∀ b ∈ F, h.cells b = none
  live : ∀ b ∈ F, h'.cells b ≠ none
  wf : Wf h'

/-- `h'` is `h` without the nodes `F`. -/
structure Less (h h' : Heap) (F : Finset ℕ) : Prop where
  cells : ∀ b, h'.cells b = if b ∈ F then none else h.cells b
  next : h'.next = h.next

theorem Keeps.refl (h : Heap) : Keeps h h := fun _ _ => rfl

theorem Keeps.trans {h h' h'' : Heap} (h1 : Keeps h h') (h2 : Keeps h' h'') : Keeps h h'' := fun b hb => by
  rw [h2 b (by rwa [h1 b hb]), h1 b hb]

theorem Ext.keeps {h h' : Heap} {F : Finset ℕ} (e : Ext h h' F) : Keeps h h' := fun b hb =>
  e.same b fun hF => hb (e.fresh b hF)

theorem Ext.refl {h : Heap} (w : Wf h) : Ext h h ∅ := ⟨fun _ _ => rfl, by simp, by simp, w⟩

theorem Ext.trans {h h' h'' : Heap} {F G : Finset ℕ} (e : Ext h h' F) (e' : Ext h' h'' G) :
    Ext h h'' (F ∪ G) where
  same b hb := by
    rw [Finset.mem_union, not_or] at hb
    rw [e'.same b hb.2, e.same b hb.1]
  fresh b hb := by
    rcases Finset.mem_union.1 hb with hb | hb
    · exact e.fresh b hb
    · have h0 := e'.fresh b hb
      by_cases hF : b ∈ F
      · exact e.fresh b hF
      · rw [← e.same b hF, h0]
  live b hb := by
    by_cases hG : b ∈ G
    · exact e'.live b hG
    · rw [e'.same b hG]
      exact e.live b (by simpa [hG] using hb)
  wf := e'.wf

theorem Ext.disjoint {h h' h'' : Heap} {F G : Finset ℕ} (e : Ext h h' F) (e' : Ext h' h'' G) :
    Disjoint F G :=
  Finset.disjoint_left.2 fun b hF hG => e.live b hF (e'.fresh b hG)

theorem Less.wf {h h' : Heap} {F : Finset ℕ} (l : Less h h' F) (w : Wf h) : Wf h' := fun b hb => by
  rw [l.cells]
  split
  · rfl
  · exact w b (by rwa [← l.next])

/-- Freeing what was added before. -/
theorem Ext.drop {h h1 h2 h3 : Heap} {F G : Finset ℕ} (e : Ext h h1 F) (e' : Ext h1 h2 G)
    (l : Less h2 h3 F) : Ext h h3 G where
  same b hb := by
    rw [l.cells]
    split
    · next hF => exact (e.fresh b hF).symm
    · next hF => rw [e'.same b hb, e.same b hF]
  fresh b hb := by
    by_cases hF : b ∈ F
    · exact e.fresh b hF
    · rw [← e.same b hF, e'.fresh b hb]
  live b hb := by
    rw [l.cells, if_neg fun hF => e.live b hF (e'.fresh b hb)]
    exact e'.live b hb
  wf := l.wf e'.wf

theorem alloc_ext {h : Heap} (w : Wf h) (c : Cell) : Ext h (alloc h c).2 {h.next} where
  same b hb := by
    simp only [alloc]
    exact Function.update_of_ne (by simpa using hb) _ _
  fresh b hb := by
    rw [Finset.mem_singleton.1 hb]
    exact w _ le_rfl
  live b hb := by
    rw [Finset.mem_singleton.1 hb]
    simp [alloc]
  wf b hb := by
    simp only [alloc] at hb ⊢
    rw [Function.update_of_ne (by omega)]
    exact w b (by omega)

@[simp] theorem alloc_fst (h : Heap) (c : Cell) : (alloc h c).1 = h.next := rfl

theorem alloc_at (h : Heap) (c : Cell) : (alloc h c).2.cells h.next = some c := by simp [alloc]

/-! ## Trees in memory -/

mutual

theorem Holds.live {c : ℕ → Option Cell} : (t : MZ) → {a : ℕ} → {F : Finset ℕ} → Holds c t a F →
    ∀ b ∈ F, c b ≠ none
  | .int z, a, F, h => by
    obtain ⟨h1, rfl⟩ := h
    intro b hb
    rw [Finset.mem_singleton.1 hb, h1]
    simp
  | .arr l, a, F, h => by
    obtain ⟨as, G, h1, h2, -, rfl⟩ := h
    intro b hb
    rcases Finset.mem_insert.1 hb with rfl | hb
    · rw [h1]; simp
    · exact HoldsL.live l h2 b hb

theorem HoldsL.live {c : ℕ → Option Cell} : (l : List MZ) → {as : List ℕ} → {F : Finset ℕ} → HoldsL c l as F →
    ∀ b ∈ F, c b ≠ none
  | [], as, F, h => by rw [h.2]; simp
  | t :: l, as, F, h => by
    obtain ⟨a, as', G, G', rfl, h1, h2, -, rfl⟩ := h
    intro b hb
    rcases Finset.mem_union.1 hb with hb | hb
    · exact Holds.live t h1 b hb
    · exact HoldsL.live l h2 b hb

end

mutual

theorem Holds.congr {c c' : ℕ → Option Cell} : (t : MZ) → {a : ℕ} → {F : Finset ℕ} → Holds c t a F →
    (∀ b ∈ F, c' b = c b) → Holds c' t a F
  | .int z, a, F, h, e => by
    obtain ⟨h1, rfl⟩ := h
    exact ⟨by rw [e a (by simp), h1], rfl⟩
  | .arr l, a, F, h, e => by
    obtain ⟨as, G, h1, h2, h3, rfl⟩ := h
    exact ⟨as, G, by rw [e a (by simp), h1],
      HoldsL.congr l h2 fun b hb => e b (Finset.mem_insert_of_mem hb), h3, rfl⟩

theorem HoldsL.congr {c c' : ℕ → Option Cell} : (l : List MZ) → {as : List ℕ} → {F : Finset ℕ} → HoldsL c l as F →
    (∀ b ∈ F, c' b = c b) → HoldsL c' l as F
  | [], as, F, h, _ => h
  | t :: l, as, F, h, e => by
    obtain ⟨a, as', G, G', rfl, h1, h2, h3, rfl⟩ := h
    exact ⟨a, as', G, G', rfl, Holds.congr t h1 fun b hb => e b (Finset.mem_union_left _ hb),
      HoldsL.congr l h2 fun b hb => e b (Finset.mem_union_right _ hb), h3, rfl⟩

end

theorem Holds.keeps {h h' : Heap} {t : MZ} {a : ℕ} {F : Finset ℕ} (H : Holds h.cells t a F)
    (k : Keeps h h') : Holds h'.cells t a F :=
  Holds.congr t H fun b hb => k b (Holds.live t H b hb)

theorem HoldsL.keeps {h h' : Heap} {l : List MZ} {as : List ℕ} {F : Finset ℕ} (H : HoldsL h.cells l as F)
    (k : Keeps h h') : HoldsL h'.cells l as F :=
  HoldsL.congr l H fun b hb => k b (HoldsL.live l H b hb)

theorem HoldsL.length {c : ℕ → Option Cell} : {l : List MZ} → {as : List ℕ} → {F : Finset ℕ} → HoldsL c l as F →
    as.length = l.length
  | [], _, _, h => by rw [h.1]; rfl
  | t :: l, _, _, h => by
    obtain ⟨a, as', G, G', rfl, -, h2, -, -⟩ := h
    simp [HoldsL.length h2]

/-- One more entry. -/
theorem HoldsL.snoc {c : ℕ → Option Cell} {t : MZ} {a : ℕ} {G : Finset ℕ} (ha : Holds c t a G) :
    {l : List MZ} → {as : List ℕ} → {F : Finset ℕ} → HoldsL c l as F → Disjoint F G →
      HoldsL c (l ++ [t]) (as ++ [a]) (F ∪ G)
  | [], _, _, h, _ => by
    obtain ⟨rfl, rfl⟩ := h
    exact ⟨a, [], G, ∅, rfl, ha, ⟨rfl, rfl⟩, by simp, by simp⟩
  | u :: l, _, _, h, d => by
    obtain ⟨b, as', G1, G2, rfl, h1, h2, h3, rfl⟩ := h
    rw [Finset.disjoint_union_left] at d
    exact ⟨b, as' ++ [a], G1, G2 ∪ G, rfl, h1, HoldsL.snoc ha h2 d.2,
      Finset.disjoint_union_right.2 ⟨h3, d.1⟩, by rw [Finset.union_assoc]⟩

/-- The entries one by one. -/
theorem HoldsL.forall₂ {c : ℕ → Option Cell} : {l : List MZ} → {as : List ℕ} → {F : Finset ℕ} → HoldsL c l as F →
    List.Forall₂ (fun a t => ∃ G, G ⊆ F ∧ Holds c t a G) as l
  | [], _, _, h => by rw [h.1]; exact .nil
  | t :: l, _, _, h => by
    obtain ⟨a, as', G, G', rfl, h1, h2, h3, rfl⟩ := h
    refine .cons ⟨G, Finset.subset_union_left, h1⟩ ?_
    refine (HoldsL.forall₂ h2).imp ?_
    rintro a t ⟨H, hH, hh⟩
    exact ⟨H, hH.trans Finset.subset_union_right, hh⟩

/-! ## Routines that make a tree -/

/-- In any memory that still has what `h0` has, the routine adds exactly the tree `t`. -/
def Makes (h0 : Heap) (body : Heap → Res (ℕ × Heap)) (t : MZ) : Prop :=
  ∀ h, Wf h → Keeps h0 h →
    ∃ r F, body h = .val r ∧ Ext h r.2 F ∧ Holds r.2.cells t r.1 F

/-- A list at `x` with the entries `ts` so far, besides what `hb` has. -/
def Building (hb h : Heap) (x : ℕ) (ts : List MZ) : Prop :=
  ∃ as F, Ext hb h (insert x F) ∧ x ∉ F ∧ h.cells x = some (.arr as) ∧ HoldsL h.cells ts as F

theorem Building.start {h : Heap} (w : Wf h) :
    Building h (alloc h (.arr [])).2 (alloc h (.arr [])).1 [] :=
  ⟨[], ∅, alloc_ext w _, by simp, alloc_at h _, rfl, rfl⟩

theorem Building.done {hb h : Heap} {x : ℕ} {ts : List MZ} (b : Building hb h x ts) :
    ∃ F, Ext hb h F ∧ Holds h.cells (.arr ts) x F := by
  obtain ⟨as, F, e, hx, hc, H⟩ := b
  exact ⟨_, e, as, F, hc, H, hx, rfl⟩

theorem push_val {h : Heap} {x c : ℕ} {as : List ℕ} (hx : h.cells x = some (.arr as)) :
    push h x c = .val ⟨Function.update h.cells x (some (.arr (as ++ [c]))), h.next⟩ := by
  unfold push read write
  rw [hx]
  rfl

theorem Building.push {hb h : Heap} {x : ℕ} {ts : List MZ} (b : Building hb h x ts)
    {body : Heap → Res (ℕ × Heap)} {t : MZ} (m : Makes hb body t) :
    ∃ h', (body h >>= fun r => push r.2 x r.1) = .val h' ∧ Building hb h' x (ts ++ [t]) := by
  obtain ⟨as, F, e, hx, hc, H⟩ := b
  obtain ⟨r, G, hr, e', H'⟩ := m h e.wf e.keeps
  have hxG : x ∉ G := fun hG => by
    have := e'.fresh x hG
    rw [hc] at this
    cases this
  have hc' : r.2.cells x = some (.arr as) := by rw [e'.same x hxG, hc]
  refine ⟨_, by rw [hr, bind_val]; exact push_val hc', as ++ [r.1], F ∪ G, ⟨?_, ?_, ?_, ?_⟩, ?_, ?_, ?_⟩
  · intro b hb'
    simp only [Finset.mem_insert, Finset.mem_union, not_or] at hb'
    dsimp only
    rw [Function.update_of_ne hb'.1, e'.same b hb'.2.2, e.same b (by simp [hb'.1, hb'.2.1])]
  · intro b hb'
    exact (e.trans e').fresh b (by
      simp only [Finset.mem_insert, Finset.mem_union] at hb' ⊢; tauto)
  · intro b hb'
    dsimp only
    by_cases hbx : b = x
    · rw [hbx, Function.update_self]; simp
    · rw [Function.update_of_ne hbx]
      exact (e.trans e').live b (by
        simp only [Finset.mem_insert, Finset.mem_union] at hb' ⊢; tauto)
  · intro b hb'
    dsimp only at hb' ⊢
    have : b ≠ x := fun hh => by
      have := e'.wf b hb'
      rw [hh, hc'] at this
      cases this
    rw [Function.update_of_ne this]
    exact e'.wf b hb'
  · simp [hx, hxG]
  · dsimp only
    rw [Function.update_self]
  · have d : Disjoint F G := (Ext.disjoint e e').mono_left (Finset.subset_insert _ _)
    have hF : ∀ b ∈ F, b ≠ x := fun b hb' hh => hx (hh ▸ hb')
    have hG : ∀ b ∈ G, b ≠ x := fun b hb' hh => hxG (hh ▸ hb')
    refine HoldsL.snoc ?_ ?_ d
    · exact Holds.congr _ H' fun b hb' => Function.update_of_ne (hG b hb') _ _
    · refine HoldsL.congr _ (HoldsL.keeps H e'.keeps) fun b hb' => Function.update_of_ne (hF b hb') _ _

/-- The loops: one entry after another. -/
theorem Building.loop {ι : Type} {hb : Heap} {x : ℕ} {body : ι → Heap → Res (ℕ × Heap)} :
    {items : List ι} → {us : List MZ} → List.Forall₂ (fun i t => Makes hb (body i) t) items us →
    {ts : List MZ} → {h : Heap} → Building hb h x ts →
    ∃ h', items.foldlM (fun h i => body i h >>= fun r => MultizHeap.push r.2 x r.1) h = .val h' ∧
      Building hb h' x (ts ++ us)
  | [], _, hf, ts, h, b => by
    cases hf
    exact ⟨h, rfl, by simpa using b⟩
  | i :: items, _, hf, ts, h, b => by
    cases hf with
    | cons h1 h2 =>
      obtain ⟨h', e, b'⟩ := b.push h1
      obtain ⟨h'', e', b''⟩ := Building.loop h2 b'
      refine ⟨h'', ?_, by simpa using b''⟩
      rw [List.foldlM_cons, e]
      exact e'

/-- `multiz_free` removes the tree and nothing else. -/
theorem free_spec : (n : ℕ) → {h : Heap} → {t : MZ} → {a : ℕ} → {F : Finset ℕ} → depth t ≤ n →
    Holds h.cells t a F → ∃ h', free n h a = .val h' ∧ Less h h' F
  | 0, _, t, _, _, hd, _ => absurd hd (by have := depth_pos t; omega)
  | n + 1, h, .int z, a, F, _, H => by
    obtain ⟨h1, rfl⟩ := H
    refine ⟨⟨Function.update h.cells a none, h.next⟩, ?_, ?_, rfl⟩
    · simp [free, read, release, h1]
    · intro b
      by_cases hb : b = a
      · simp [hb]
      · simp [hb]
  | n + 1, h, .arr l, a, F, hd, H => by
    obtain ⟨as, G, h1, h2, h3, rfl⟩ := H
    have key : ∀ (l : List MZ) (as : List ℕ) (G : Finset ℕ) (h : Heap), (∀ t ∈ l, depth t ≤ n) →
        HoldsL h.cells l as G →
        ∃ h', as.foldlM (fun h b => free n h b) h = .val h' ∧ Less h h' G := by
      intro l
      induction l with
      | nil =>
        rintro as G h - ⟨rfl, rfl⟩
        exact ⟨h, rfl, by simp, rfl⟩
      | cons t l ih =>
        rintro as G h hd ⟨a, as', G1, G2, rfl, H1, H2, d, rfl⟩
        obtain ⟨h', e, L⟩ := free_spec n (hd t (by simp)) H1
        have H2' : HoldsL h'.cells l as' G2 := HoldsL.congr l H2 fun b hb => by
          rw [L.cells, if_neg (Finset.disjoint_right.1 d hb)]
        obtain ⟨h'', e', L'⟩ := ih as' G2 h' (fun u hu => hd u (by simp [hu])) H2'
        refine ⟨h'', by rw [List.foldlM_cons, e]; exact e', fun b => ?_, by rw [L'.next, L.next]⟩
        rw [L'.cells, L.cells]
        by_cases hb1 : b ∈ G1 <;> by_cases hb2 : b ∈ G2 <;> simp [hb1, hb2]
    simp only [depth] at hd
    obtain ⟨h', e, L⟩ := key l as G h (fun t ht => by have := depth_le_depthL ht; omega) h2
    have ha : h'.cells a = some (.arr as) := by rw [L.cells, if_neg h3, h1]
    refine ⟨⟨Function.update h'.cells a none, h'.next⟩, ?_, ?_, L.next⟩
    · simp [free, read, release, h1, ha, e]
    · intro b
      dsimp only
      by_cases hb : b = a
      · simp [hb]
      · rw [Function.update_of_ne hb, L.cells]
        simp [hb]

/-- `multiz_new_unary`. -/
theorem newUnary_spec (f : ℤ → ℤ) : (n : ℕ) → {h0 : Heap} → {t : MZ} → {a : ℕ} → {G : Finset ℕ} →
    depth t ≤ n → Holds h0.cells t a G → Makes h0 (fun h => newUnary f n h a) (Multiz.unary f t)
  | 0, _, t, _, _, hd, _ => absurd hd (by have := depth_pos t; omega)
  | n + 1, h0, .int z, a, G, _, H => by
    intro h w k
    have H' := Holds.keeps H k
    refine ⟨alloc h (.int (f z)), {h.next}, ?_, alloc_ext w _, alloc_at h _, rfl⟩
    simp [newUnary, read, H'.1]
  | n + 1, h0, .arr l, a, G, hd, H => by
    intro h w k
    obtain ⟨as, G', h1, h2, h3, rfl⟩ := Holds.keeps H k
    simp only [depth] at hd
    have hf : List.Forall₂ (fun b t => Makes h (fun h => newUnary f n h b) t) as (Multiz.unaryL f l) := by
      have := HoldsL.forall₂ h2
      have hd' : ∀ t ∈ l, depth t ≤ n := fun t ht => by have := depth_le_depthL ht; omega
      clear h1 h2 h3 H hd
      induction this with
      | nil => simp [Multiz.unaryL]
      | cons hh _ ih =>
        obtain ⟨G, -, hG⟩ := hh
        rw [Multiz.unaryL]
        exact .cons (newUnary_spec f n (hd' _ (by simp)) hG) (ih fun t ht => hd' t (by simp [ht]))
    obtain ⟨h', e, b⟩ := Building.loop (body := fun b h => newUnary f n h b) hf (Building.start w)
    obtain ⟨F, hF, HF⟩ := b.done
    refine ⟨((alloc h (.arr [])).1, h'), F, ?_, hF, ?_⟩
    · simp only [newUnary, read, h1, bind_val]
      rw [e]
      rfl
    · simpa [Multiz.unary] using HF

mutual

theorem unary_id : (t : MZ) → Multiz.unary id t = t
  | .int z => rfl
  | .arr l => by rw [Multiz.unary, unaryL_id l]

theorem unaryL_id : (l : List MZ) → Multiz.unaryL id l = l
  | [] => rfl
  | t :: l => by rw [Multiz.unaryL, unary_id t, unaryL_id l]

end

/-- The walk to the first integer. -/
theorem first_spec (f : ℤ → ℤ) : (n : ℕ) → {h : Heap} → {t t' : MZ} → {a : ℕ} → {F : Finset ℕ} → depth t ≤ n →
    Holds h.cells t a F → Multiz.modFirst f t = some t' →
    ∃ z v, first n h a = .val z ∧ h.cells z = some (.int v) ∧ z ∈ F ∧ SetMultiz.toMpz t = some v ∧
      Holds (Function.update h.cells z (some (.int (f v)))) t' a F
  | 0, _, t, _, _, _, hd, _, _ => absurd hd (by have := depth_pos t; omega)
  | n + 1, h, .int z, t', a, F, _, H, hm => by
    obtain ⟨h1, rfl⟩ := H
    rw [Multiz.modFirst] at hm
    cases hm
    exact ⟨a, z, by simp [first, read, h1], h1, by simp, rfl, by simp [Holds]⟩
  | n + 1, h, .arr [], t', a, F, _, H, hm => by simp [Multiz.modFirst] at hm
  | n + 1, h, .arr (u :: l), t', a, F, hd, H, hm => by
    obtain ⟨as, G, h1, h2, h3, rfl⟩ := H
    obtain ⟨b, as', G1, G2, rfl, H1, H2, d, rfl⟩ := h2
    rw [Multiz.modFirst, Option.map_eq_some_iff] at hm
    obtain ⟨u', hu, rfl⟩ := hm
    simp only [depth, depthL] at hd
    obtain ⟨z, v, e1, e2, e3, e4, e5⟩ := first_spec f n (by omega) H1 hu
    simp only [Finset.mem_union, not_or] at h3
    have hza : a ≠ z := fun hh => h3.1 (hh ▸ e3)
    refine ⟨z, v, by simp [first, read, h1, e1], e2, by simp [e3], by simpa [SetMultiz.toMpz] using e4, ?_⟩
    refine ⟨b :: as', G1 ∪ G2, ?_, ⟨b, as', G1, G2, rfl, e5, ?_, d, rfl⟩, by simp [h3], rfl⟩
    · rw [Function.update_of_ne hza, h1]
    · exact HoldsL.congr l H2 fun c hc => Function.update_of_ne
        (fun hh : c = z => Finset.disjoint_left.1 d e3 (hh ▸ hc)) _ _

/-- A copy with the first integer changed. -/
theorem cloneMod_spec (f : ℤ → ℤ) {n : ℕ} {h0 : Heap} {t t' : MZ} {a : ℕ} {G : Finset ℕ} (hd : depth t ≤ n)
    (H : Holds h0.cells t a G) (hm : Multiz.modFirst f t = some t') :
    Makes h0 (fun h => cloneMod f n h a) t' := by
  intro h w k
  obtain ⟨r, F, e, ex, H'⟩ := newUnary_spec id n hd H h w k
  rw [unary_id] at H'
  obtain ⟨z, v, e1, e2, e3, -, e5⟩ := first_spec f n hd H' hm
  refine ⟨(r.1, ⟨Function.update r.2.cells z (some (.int (f v))), r.2.next⟩), F, ?_, ⟨?_, ex.fresh, ?_, ?_⟩, e5⟩
  · dsimp only at e
    simp [cloneMod, e, e1, read, write, e2]
  · intro b hb
    dsimp only
    rw [Function.update_of_ne (fun hh : b = z => hb (hh ▸ e3)), ex.same b hb]
  · intro b hb
    dsimp only
    by_cases hz : b = z
    · simp [hz]
    · rw [Function.update_of_ne hz]
      exact ex.live b hb
  · intro b hb
    dsimp only at hb ⊢
    rw [Function.update_of_ne fun hh => ?_]
    · exact ex.wf b hb
    · have := ex.wf b hb
      rw [hh, e2] at this
      cases this

theorem toMpz_spec : (n : ℕ) → {h : Heap} → {t : MZ} → {a : ℕ} → {F : Finset ℕ} → {v : ℤ} → depth t ≤ n →
    Holds h.cells t a F → SetMultiz.toMpz t = some v →
    ∃ z, first n h a = .val z ∧ h.cells z = some (.int v)
  | 0, _, t, _, _, _, hd, _, _ => absurd hd (by have := depth_pos t; omega)
  | n + 1, h, .int z, a, F, v, _, H, hm => by
    rw [SetMultiz.toMpz] at hm
    cases hm
    exact ⟨a, by simp [first, read, H.1], H.1⟩
  | n + 1, h, .arr [], a, F, v, _, H, hm => by simp [SetMultiz.toMpz] at hm
  | n + 1, h, .arr (u :: l), a, F, v, hd, H, hm => by
    obtain ⟨as, G, h1, h2, h3, rfl⟩ := H
    obtain ⟨b, as', G1, G2, rfl, H1, H2, d, rfl⟩ := h2
    rw [SetMultiz.toMpz] at hm
    simp only [depth, depthL] at hd
    obtain ⟨z, e1, e2⟩ := toMpz_spec n (by omega) H1 hm
    exact ⟨z, by simp [first, read, h1, e1], e2⟩

/-! ## Sums -/

theorem modFirst_depth (f : ℤ → ℤ) : (t : MZ) → {t' : MZ} → Multiz.modFirst f t = some t' → depth t' = depth t
  | .int z, t', h => by
    rw [Multiz.modFirst] at h; cases h; simp [depth]
  | .arr [], t', h => by simp [Multiz.modFirst] at h
  | .arr (u :: l), t', h => by
    rw [Multiz.modFirst, Option.map_eq_some_iff] at h
    obtain ⟨u', hu, rfl⟩ := h
    simp [depth, depthL, modFirst_depth f u hu]

theorem binZR_eq (f : ℤ → ℤ → ℤ) (t : MZ) : Multiz.binZR f 0 t = Multiz.bin f t (.int 0) := by
  cases t <;> simp [Multiz.bin, Multiz.binZR, Multiz.binZL]

theorem mapM_forall₂ {α β : Type} {g : α → Option β} : {l : List α} → {vs : List β} → l.mapM g = some vs →
    List.Forall₂ (fun a v => g a = some v) l vs
  | [], vs, h => by simp at h; subst h; exact .nil
  | a :: l, vs, h => by
    rw [List.mapM_cons] at h
    simp only [Option.pure_def, Option.bind_eq_bind, Option.bind_eq_some_iff, Option.some.injEq] at h
    obtain ⟨v, hv, vs', hvs, rfl⟩ := h
    exact .cons hv (mapM_forall₂ hvs)

/-- The three runs over the entries. -/
theorem binL_split (f : ℤ → ℤ → ℤ) : (l l' : List MZ) → {vs : List MZ} → Multiz.binL f l l' = some vs →
    ∃ v1 v2 v3, vs = v1 ++ v2 ++ v3 ∧
      List.Forall₂ (fun p v => Multiz.bin f p.1 p.2 = some v) (l.zip l') v1 ∧
      List.Forall₂ (fun a v => Multiz.bin f a (.int 0) = some v) (l.drop l'.length) v2 ∧
      List.Forall₂ (fun b v => Multiz.bin f (.int 0) b = some v) (l'.drop l.length) v3
  | [], l', vs, h => by
    rw [Multiz.binL] at h
    refine ⟨[], [], vs, by simp, by simp, by simp, ?_⟩
    refine (mapM_forall₂ h).imp ?_
    intro b v hb
    rw [Multiz.bin, hb]
  | a :: l, [], vs, h => by
    rw [Multiz.binL] at h
    refine ⟨[], vs, [], by simp, by simp, ?_, by simp⟩
    refine (mapM_forall₂ h).imp ?_
    intro b v hb
    rw [← binZR_eq, hb]
  | a :: l, b :: l', vs, h => by
    rw [Multiz.binL, Option.bind_eq_some_iff] at h
    obtain ⟨c, hc, h⟩ := h
    rw [Option.map_eq_some_iff] at h
    obtain ⟨vs', h, rfl⟩ := h
    obtain ⟨v1, v2, v3, rfl, h1, h2, h3⟩ := binL_split f l l' h
    exact ⟨c :: v1, v2, v3, by simp, by simpa [hc] using h1, by simpa using h2, by simpa using h3⟩

theorem Forall₂.mem_right {α β : Type} {R : α → β → Prop} {v : β} : {l : List α} → {vs : List β} →
    List.Forall₂ R l vs → v ∈ vs → ∃ a ∈ l, R a v
  | _, _, .cons h hs, hv => by
    rcases List.mem_cons.1 hv with rfl | hv
    · exact ⟨_, by simp, h⟩
    · obtain ⟨a, ha, hR⟩ := Forall₂.mem_right hs hv
      exact ⟨a, by simp [ha], hR⟩

theorem bin_depth (f : ℤ → ℤ → ℤ) : (n : ℕ) → {t u v : MZ} → depth t ≤ n → depth u ≤ n →
    Multiz.bin f t u = some v → depth v ≤ n
  | 0, t, _, _, hd, _, _ => absurd hd (by have := depth_pos t; omega)
  | n + 1, .int a, .int b, v, _, _, h => by
    simp only [Multiz.bin, Multiz.binZL, Option.some.injEq] at h
    subst h
    simp [depth]
  | n + 1, .int a, .arr l, v, _, hd, h => by
    rw [Multiz.bin, Multiz.binZL] at h
    rw [modFirst_depth _ _ h]; exact hd
  | n + 1, .arr l, .int b, v, hd, _, h => by
    rw [Multiz.bin, Multiz.binZR] at h
    rw [modFirst_depth _ _ h]; exact hd
  | n + 1, .arr l, .arr l', v, hd, hd', h => by
    rw [Multiz.bin, Option.map_eq_some_iff] at h
    obtain ⟨vs, h, rfl⟩ := h
    obtain ⟨v1, v2, v3, rfl, h1, h2, h3⟩ := binL_split f l l' h
    simp only [depth] at hd hd' ⊢
    have hn : 1 ≤ n := by have := depthL_pos l; omega
    have el : ∀ t ∈ l, depth t ≤ n := fun t ht => by have := depth_le_depthL ht; omega
    have el' : ∀ t ∈ l', depth t ≤ n := fun t ht => by have := depth_le_depthL ht; omega
    refine Nat.succ_le_succ (depthL_le hn fun t ht => ?_)
    rcases List.mem_append.1 ht with ht | ht
    · rcases List.mem_append.1 ht with ht | ht
      · obtain ⟨p, hp, hR⟩ := Forall₂.mem_right h1 ht
        exact bin_depth f n (el _ (List.of_mem_zip hp).1) (el' _ (List.of_mem_zip hp).2) hR
      · obtain ⟨p, hp, hR⟩ := Forall₂.mem_right h2 ht
        exact bin_depth f n (el _ (List.mem_of_mem_drop hp)) (by simpa [depth]) hR
    · obtain ⟨p, hp, hR⟩ := Forall₂.mem_right h3 ht
      exact bin_depth f n (by simpa [depth]) (el' _ (List.mem_of_mem_drop hp)) hR

/-- An address that holds the tree, in nodes that are in use. -/
def At (h : Heap) (a : ℕ) (t : MZ) : Prop := ∃ G, Holds h.cells t a G

theorem At.keeps {h h' : Heap} {a : ℕ} {t : MZ} (H : At h a t) (k : Keeps h h') : At h' a t :=
  let ⟨G, hG⟩ := H; ⟨G, Holds.keeps hG k⟩

theorem HoldsL.at {h : Heap} {l : List MZ} {as : List ℕ} {F : Finset ℕ} (H : HoldsL h.cells l as F) :
    List.Forall₂ (At h) as l := (HoldsL.forall₂ H).imp fun _ _ ⟨G, _, hG⟩ => ⟨G, hG⟩

theorem Forall₂.comp {α β γ : Type} {P : α → β → Prop} {Q : β → γ → Prop} {S : α → γ → Prop} :
    {as : List α} → {l : List β} → {vs : List γ} → List.Forall₂ P as l → List.Forall₂ Q l vs →
    (∀ a t v, t ∈ l → P a t → Q t v → S a v) → List.Forall₂ S as vs
  | _, _, _, .nil, .nil, _ => .nil
  | _, _, _, .cons h1 h2, .cons h3 h4, h =>
    .cons (h _ _ _ (by simp) h1 h3) (Forall₂.comp h2 h4 fun a t v ht => h a t v (by simp [ht]))

theorem Forall₂.zip {α β : Type} {P : α → β → Prop} : {as as' : List α} → {l l' : List β} →
    List.Forall₂ P as l → List.Forall₂ P as' l' →
    List.Forall₂ (fun p q => P p.1 q.1 ∧ P p.2 q.2) (as.zip as') (l.zip l')
  | _, _, _, _, .nil, _ => by simp
  | _, _, _, _, .cons _ _, .nil => by simp
  | _, _, _, _, .cons h1 h2, .cons h3 h4 => by simpa [h1, h3] using Forall₂.zip h2 h4

theorem Makes.mono {h0 h1 : Heap} {body : Heap → Res (ℕ × Heap)} {t : MZ} (m : Makes h0 body t)
    (k : Keeps h0 h1) : Makes h1 body t := fun h w k' => m h w (k.trans k')

/-- One more node in the base. -/
def plus (h : Heap) (z : ℕ) (c : Cell) : Heap := ⟨Function.update h.cells z (some c), h.next⟩

theorem plus_keeps {h : Heap} {z : ℕ} {c : Cell} (hz : h.cells z = none) : Keeps h (plus h z c) := fun b hb =>
  Function.update_of_ne (fun hh : b = z => hb (hh ▸ hz)) _ _

theorem Building.rebase {hb h : Heap} {x : ℕ} {ts : List MZ} (b : Building hb h x ts) (c : Cell) :
    hb.cells h.next = none ∧ Building (plus hb h.next c) (alloc h c).2 x ts := by
  obtain ⟨as, F, e, hx, hc, H⟩ := b
  have e' := alloc_ext e.wf c
  have hzn : h.next ∉ insert x F := fun hh => e.live _ hh (e.wf _ le_rfl)
  have hz : hb.cells h.next = none := by rw [← e.same _ hzn]; exact e.wf _ le_rfl
  refine ⟨hz, as, F, ⟨?_, ?_, ?_, e'.wf⟩, hx, ?_, HoldsL.keeps H e'.keeps⟩
  · intro b hb'
    by_cases hbz : b = h.next
    · rw [hbz, alloc_at]; simp [plus]
    · rw [e'.same b (by simpa using hbz), e.same b hb']
      simp [plus, Function.update_of_ne hbz]
  · intro b hb'
    have : b ≠ h.next := fun hh => hzn (hh ▸ hb')
    simp only [plus, Function.update_of_ne this]
    exact e.fresh b hb'
  · intro b hb'
    have : b ≠ h.next := fun hh => hzn (hh ▸ hb')
    rw [e'.same b (by simpa using this)]
    exact e.live b hb'
  · rw [e'.keeps x (by rw [hc]; simp), hc]

theorem Building.unbase {hb h h' : Heap} {x z : ℕ} {c : Cell} {ts : List MZ} (b : Building (plus hb z c) h x ts)
    (hz : hb.cells z = none) (L : Less h h' {z}) : Building hb h' x ts := by
  obtain ⟨as, F, e, hx, hc, H⟩ := b
  have hzn : z ∉ insert x F := fun hh => by
    have := e.fresh z hh
    simp [plus] at this
  have hne : ∀ b ∈ insert x F, b ≠ z := fun b hb' hh => hzn (hh ▸ hb')
  have hcell : ∀ b, b ≠ z → h'.cells b = h.cells b := fun b hb' => by
    rw [L.cells, if_neg (by simpa using hb')]
  refine ⟨as, F, ⟨?_, ?_, ?_, L.wf e.wf⟩, hx, ?_, ?_⟩
  · intro b hb'
    by_cases hbz : b = z
    · rw [L.cells, hbz, if_pos (by simp), hz]
    · rw [hcell b hbz, e.same b hb']
      simp [plus, Function.update_of_ne hbz]
  · intro b hb'
    have := e.fresh b hb'
    simpa only [plus, Function.update_of_ne (hne b hb')] using this
  · intro b hb'
    rw [hcell b (hne b hb')]
    exact e.live b hb'
  · rw [hcell x (hne x (by simp)), hc]
  · exact HoldsL.congr _ H fun b hb' => hcell b (hne b (by simp [hb']))

/-- Freeing the node of the constant. -/
theorem Building.freeZero {n : ℕ} {hb h : Heap} {x z : ℕ} {ts : List MZ}
    (b : Building (plus hb z (.int 0)) h x ts) (hz : hb.cells z = none) (hn : 1 ≤ n) :
    ∃ h', MultizHeap.free n h z = .val h' ∧ Building hb h' x ts := by
  have hc : Holds h.cells (.int 0) z {z} := by
    obtain ⟨as, F, e, -⟩ := b
    refine ⟨?_, rfl⟩
    rw [e.keeps z (by simp [plus])]
    simp [plus]
  obtain ⟨h', e, L⟩ := free_spec n (by simpa [depth]) hc
  exact ⟨h', e, b.unbase hz L⟩

/-- `multiz_new_bin`. -/
theorem newBin_spec (f : ℤ → ℤ → ℤ) : (n : ℕ) → {h0 : Heap} → {t u v : MZ} → {a b : ℕ} →
    depth t ≤ n → depth u ≤ n → At h0 a t → At h0 b u → Multiz.bin f t u = some v →
    Makes h0 (fun h => newBin f n h a b) v
  | 0, _, t, _, _, _, _, hd, _, _, _, _ => absurd hd (by have := depth_pos t; omega)
  | n + 1, h0, .int p, .int q, v, a, b, _, _, ⟨G, H⟩, ⟨G', H'⟩, hv => by
    intro h w k
    simp only [Multiz.bin, Multiz.binZL, Option.some.injEq] at hv
    subst hv
    have h1 := (Holds.keeps H k).1
    have h2 := (Holds.keeps H' k).1
    exact ⟨alloc h (.int (f p q)), {h.next}, by simp [newBin, read, h1, h2], alloc_ext w _, alloc_at h _, rfl⟩
  | n + 1, h0, .int p, .arr l, v, a, b, _, hd, ⟨G, H⟩, ⟨G', H'⟩, hv => by
    intro h w k
    rw [Multiz.bin, Multiz.binZL] at hv
    have h1 := (Holds.keeps H k).1
    obtain ⟨as, _, h2, -⟩ := Holds.keeps H' k
    obtain ⟨r, F, e, hr⟩ := cloneMod_spec _ hd H' hv h w k
    exact ⟨r, F, by simpa [newBin, read, h1, h2] using e, hr⟩
  | n + 1, h0, .arr l, .int p, v, a, b, hd, _, ⟨G, H⟩, ⟨G', H'⟩, hv => by
    intro h w k
    rw [Multiz.bin, Multiz.binZR] at hv
    have h1 := (Holds.keeps H' k).1
    obtain ⟨as, _, h2, -⟩ := Holds.keeps H k
    obtain ⟨r, F, e, hr⟩ := cloneMod_spec _ hd H hv h w k
    exact ⟨r, F, by simpa [newBin, read, h1, h2] using e, hr⟩
  | n + 1, h0, .arr l, .arr l', v, a, b, hd, hd', ⟨G, H⟩, ⟨G', H'⟩, hv => by
    intro h w k
    rw [Multiz.bin, Option.map_eq_some_iff] at hv
    obtain ⟨vs, hv, rfl⟩ := hv
    obtain ⟨v1, v2, v3, rfl, f1, f2, f3⟩ := binL_split f l l' hv
    obtain ⟨as, G1, h1, h2, -⟩ := Holds.keeps H k
    obtain ⟨as', G2, h1', h2', -⟩ := Holds.keeps H' k
    simp only [depth] at hd hd'
    have hn : 1 ≤ n := by have := depthL_pos l; omega
    have el : ∀ t ∈ l, depth t ≤ n := fun t ht => by have := depth_le_depthL ht; omega
    have el' : ∀ t ∈ l', depth t ≤ n := fun t ht => by have := depth_le_depthL ht; omega
    have A := HoldsL.at h2
    have A' := HoldsL.at h2'
    have m1 : List.Forall₂ (fun (p : ℕ × ℕ) v => Makes h (fun h => newBin f n h p.1 p.2) v) (as.zip as') v1 :=
      Forall₂.comp (Forall₂.zip A A') f1 fun p q v hq hp hb =>
        newBin_spec f n (el _ (List.of_mem_zip hq).1) (el' _ (List.of_mem_zip hq).2) hp.1 hp.2 hb
    obtain ⟨h3, e3, b3⟩ := Building.loop (body := fun (p : ℕ × ℕ) h => newBin f n h p.1 p.2) m1 (Building.start w)
    obtain ⟨hz, b4⟩ := b3.rebase (.int 0)
    have kp := plus_keeps (c := .int 0) hz
    have hzero : At (plus h h3.next (.int 0)) h3.next (.int 0) := ⟨_, by simp [plus], rfl⟩
    have m2 : List.Forall₂ (fun a v => Makes (plus h h3.next (.int 0)) (fun h => newBin f n h a h3.next) v)
        (as.drop as'.length) v2 := by
      rw [HoldsL.length h2']
      exact Forall₂.comp (List.forall₂_drop _ A) f2 fun a t v ht ha hb =>
        newBin_spec f n (el _ (List.mem_of_mem_drop ht)) (by simpa [depth]) (ha.keeps kp) hzero hb
    have m3 : List.Forall₂ (fun b v => Makes (plus h h3.next (.int 0)) (fun h => newBin f n h h3.next b) v)
        (as'.drop as.length) v3 := by
      rw [HoldsL.length h2]
      exact Forall₂.comp (List.forall₂_drop _ A') f3 fun a t v ht ha hb =>
        newBin_spec f n (by simpa [depth]) (el' _ (List.mem_of_mem_drop ht)) hzero (ha.keeps kp) hb
    obtain ⟨h5, e5, b5⟩ := Building.loop (body := fun a h => newBin f n h a h3.next) m2 b4
    obtain ⟨h6, e6, b6⟩ := Building.loop (body := fun b h => newBin f n h h3.next b) m3 b5
    obtain ⟨h7, e7, b7⟩ := b6.freeZero hz hn
    obtain ⟨F, hF, HF⟩ := b7.done
    refine ⟨((alloc h (.arr [])).1, h7), F, ?_, hF, by simpa using HF⟩
    simp only [newBin, read, h1, h1', bind_val]
    rw [e3, bind_val, alloc_fst, e5, bind_val, e6, bind_val, e7]
    rfl

/-! ## Products -/

theorem mulRows_getD : (l : List MZ) → (j : ℕ) →
    (Multiz.mulRows l).getD j (fun b => some (Multiz.unary (· * 0) b)) = Multiz.mul (l.getD j (.int 0))
  | [], j => by funext b; simp [Multiz.mulRows, Multiz.mul]
  | a :: l, 0 => by simp [Multiz.mulRows]
  | a :: l, j + 1 => by simpa [Multiz.mulRows] using mulRows_getD l j

mutual

theorem unary_depth (f : ℤ → ℤ) : (t : MZ) → depth (Multiz.unary f t) = depth t
  | .int z => by simp [Multiz.unary, depth]
  | .arr l => by simp [Multiz.unary, depth, unaryL_depth f l]

theorem unaryL_depth (f : ℤ → ℤ) : (l : List MZ) → depthL (Multiz.unaryL f l) = depthL l
  | [] => rfl
  | t :: l => by simp [Multiz.unaryL, depthL, unary_depth f t, unaryL_depth f l]

end

/-- One step of the sum for an entry. -/
def mulStep (l l' : List MZ) (i : ℕ) (z : MZ) (j : ℕ) : Option MZ :=
  (Multiz.mul (l.getD j (.int 0)) (l'.getD (i - j) (.int 0))).bind fun y => Multiz.add z y

theorem mulEntry_eq (l l' : List MZ) (i : ℕ) :
    Multiz.mulEntry (Multiz.mulRows l) l' i = (List.range (i + 1)).foldlM (mulStep l l' i) (.int 0) := by
  unfold Multiz.mulEntry mulStep
  simp only [mulRows_getD]

theorem getD_depth {n : ℕ} (hn : 1 ≤ n) {l : List MZ} (h : ∀ t ∈ l, depth t ≤ n) (j : ℕ) :
    depth (l.getD j (.int 0)) ≤ n := by
  by_cases hj : j < l.length
  · rw [List.getD_eq_getElem _ _ hj]
    exact h _ (List.getElem_mem hj)
  · rw [List.getD_eq_default _ _ (by omega)]
    simpa [depth]

theorem foldlM_depth {n : ℕ} {g : MZ → ℕ → Option MZ} (hg : ∀ z j v, depth z ≤ n → g z j = some v → depth v ≤ n) :
    (js : List ℕ) → {z v : MZ} → depth z ≤ n → js.foldlM g z = some v → depth v ≤ n
  | [], z, v, hz, h => by simp at h; rwa [← h]
  | j :: js, z, v, hz, h => by
    rw [List.foldlM_cons] at h
    simp only [Option.bind_eq_bind, Option.bind_eq_some_iff] at h
    obtain ⟨y, hy, h⟩ := h
    exact foldlM_depth hg js (hg _ _ _ hz hy) h

theorem mul_depth : (n : ℕ) → {t u v : MZ} → depth t ≤ n → depth u ≤ n → Multiz.mul t u = some v → depth v ≤ n
  | 0, t, _, _, hd, _, _ => absurd hd (by have := depth_pos t; omega)
  | n + 1, .int a, u, v, _, hd, h => by
    rw [Multiz.mul] at h; cases h
    rwa [unary_depth]
  | n + 1, .arr l, .int b, v, hd, _, h => by
    rw [Multiz.mul] at h; cases h
    rwa [unary_depth]
  | n + 1, .arr l, .arr l', v, hd, hd', h => by
    rw [Multiz.mul, Option.map_eq_some_iff] at h
    obtain ⟨vs, h, rfl⟩ := h
    simp only [depth] at hd hd' ⊢
    have hn : 1 ≤ n := by have := depthL_pos l; omega
    have el : ∀ t ∈ l, depth t ≤ n := fun t ht => by have := depth_le_depthL ht; omega
    have el' : ∀ t ∈ l', depth t ≤ n := fun t ht => by have := depth_le_depthL ht; omega
    refine Nat.succ_le_succ (depthL_le hn fun t ht => ?_)
    obtain ⟨i, -, hR⟩ := Forall₂.mem_right (mapM_forall₂ h) ht
    rw [mulEntry_eq] at hR
    refine foldlM_depth ?_ _ (by simpa [depth]) hR
    intro z j v hz hv
    rw [mulStep, Option.bind_eq_some_iff] at hv
    obtain ⟨y, hy, hv⟩ := hv
    exact bin_depth _ n hz (mul_depth n (getD_depth hn el j) (getD_depth hn el' _) hy) hv

theorem Forall₂.getD {P : ℕ → MZ → Prop} {z : ℕ} (hz : P z (.int 0)) : {as : List ℕ} → {l : List MZ} →
    List.Forall₂ P as l → (j : ℕ) → P (as.getD j z) (l.getD j (.int 0))
  | _, _, .nil, j => by simpa using hz
  | _, _, .cons h _, 0 => by simpa using h
  | _, _, .cons _ h, j + 1 => by simpa using Forall₂.getD hz h j

/-- `multiz_new_mul`. -/
theorem newMul_spec : (n : ℕ) → {h0 : Heap} → {t u v : MZ} → {a b : ℕ} →
    depth t ≤ n → depth u ≤ n → At h0 a t → At h0 b u → Multiz.mul t u = some v →
    Makes h0 (fun h => newMul n h a b) v
  | 0, _, t, _, _, _, _, hd, _, _, _, _ => absurd hd (by have := depth_pos t; omega)
  | n + 1, h0, .int p, u, v, a, b, _, hd, ⟨G, H⟩, ⟨G', H'⟩, hv => by
    intro h w k
    rw [Multiz.mul] at hv
    cases hv
    have h1 := (Holds.keeps H k).1
    obtain ⟨c, h2⟩ : ∃ c, h.cells b = some c := by
      cases u with
      | int z => exact ⟨_, (Holds.keeps H' k).1⟩
      | arr l => obtain ⟨as, _, h2, -⟩ := Holds.keeps H' k; exact ⟨_, h2⟩
    obtain ⟨r, F, e, hr⟩ := newUnary_spec (· * p) (n + 1) hd H' h w k
    refine ⟨r, F, ?_, hr⟩
    simpa [newMul, read, h1, h2] using e
  | n + 1, h0, .arr l, .int p, v, a, b, hd, _, ⟨G, H⟩, ⟨G', H'⟩, hv => by
    intro h w k
    rw [Multiz.mul] at hv
    cases hv
    have h1 := (Holds.keeps H' k).1
    obtain ⟨as, _, h2, -⟩ := Holds.keeps H k
    obtain ⟨r, F, e, hr⟩ := newUnary_spec (· * p) (n + 1) hd H h w k
    refine ⟨r, F, ?_, hr⟩
    simpa [newMul, read, h1, h2] using e
  | n + 1, h0, .arr l, .arr l', v, a, b, hd, hd', ⟨G, H⟩, ⟨G', H'⟩, hv => by
    intro h w k
    rw [Multiz.mul, Option.map_eq_some_iff] at hv
    obtain ⟨vs, hv, rfl⟩ := hv
    obtain ⟨as, G1, h1, h2, -⟩ := Holds.keeps H k
    obtain ⟨as', G2, h1', h2', -⟩ := Holds.keeps H' k
    simp only [depth] at hd hd'
    have hn : 1 ≤ n := by have := depthL_pos l; omega
    have el : ∀ t ∈ l, depth t ≤ n := fun t ht => by have := depth_le_depthL ht; omega
    have el' : ∀ t ∈ l', depth t ≤ n := fun t ht => by have := depth_le_depthL ht; omega
    obtain ⟨hz, b4⟩ := (Building.start w).rebase (.int 0)
    generalize hh3 : (alloc h (.arr [])).2 = h3 at hz b4
    have kp := plus_keeps (c := .int 0) hz
    have hzero : At (plus h h3.next (.int 0)) h3.next (.int 0) := ⟨_, by simp [plus], rfl⟩
    have A : List.Forall₂ (At (plus h h3.next (.int 0))) as l := (HoldsL.at h2).imp fun _ _ x => x.keeps kp
    have A' : List.Forall₂ (At (plus h h3.next (.int 0))) as' l' := (HoldsL.at h2').imp fun _ _ x => x.keeps kp
    have inner : ∀ (i : ℕ) (js : List ℕ) (z v : MZ) (h4 : Heap) (zh : ℕ × Heap) (F : Finset ℕ), depth z ≤ n → Keeps (plus h h3.next (.int 0)) h4 → Ext h4 zh.2 F →
        Holds zh.2.cells z zh.1 F → js.foldlM (mulStep l l' i) z = some v →
        ∃ r F', js.foldlM (fun (zh : ℕ × Heap) j => (do
            let y ← newMul n zh.2 (as.getD j h3.next) (as'.getD (i - j) h3.next)
            let t ← newBin (· + ·) n y.2 zh.1 y.1
            let h ← free n t.2 y.1
            let h ← free n h zh.1
            .val (t.1, h) : Res (ℕ × Heap))) zh = .val r ∧ Ext h4 r.2 F' ∧ Holds r.2.cells v r.1 F' := by
      intro i js
      induction js with
      | nil =>
        intro z v h4 zh F _ _ e Hz hv
        simp only [List.foldlM_nil, Option.pure_def, Option.some.injEq] at hv
        subst hv
        exact ⟨zh, F, rfl, e, Hz⟩
      | cons j js ih =>
        intro z v h4 zh F hdz kk e Hz hv
        rw [List.foldlM_cons] at hv
        simp only [Option.bind_eq_bind, Option.bind_eq_some_iff] at hv
        obtain ⟨s, hs, hv⟩ := hv
        rw [mulStep, Option.bind_eq_some_iff] at hs
        obtain ⟨y, hy, hs⟩ := hs
        have dy := mul_depth n (getD_depth hn el j) (getD_depth hn el' (i - j)) hy
        have ds := bin_depth _ n hdz dy hs
        obtain ⟨ry, Fy, ey, exy, Hy⟩ := newMul_spec n (getD_depth hn el j) (getD_depth hn el' (i - j))
          (Forall₂.getD hzero A j) (Forall₂.getD hzero A' (i - j)) hy zh.2 e.wf (kk.trans e.keeps)
        obtain ⟨rt, Ft, et, ext, Ht⟩ := newBin_spec (· + ·) n hdz dy ⟨F, Holds.keeps Hz exy.keeps⟩ ⟨Fy, Hy⟩ hs
          ry.2 exy.wf (Keeps.refl _)
        obtain ⟨h5, e5, L5⟩ := free_spec n dy (Holds.keeps Hy ext.keeps)
        have ex5 := exy.drop ext L5
        obtain ⟨h6, e6, L6⟩ := free_spec n hdz (Holds.keeps Hz ex5.keeps)
        have ex6 := e.drop ex5 L6
        have d1 := exy.disjoint ext
        have d2 := e.disjoint ex5
        have Ht' : Holds h6.cells s rt.1 Ft := Holds.congr _ Ht fun b hb => by
          rw [L6.cells, if_neg (Finset.disjoint_right.1 d2 hb), L5.cells, if_neg (Finset.disjoint_right.1 d1 hb)]
        obtain ⟨r, F', er, hr⟩ := ih s v h4 (rt.1, h6) Ft ds kk ex6 Ht' hv
        refine ⟨r, F', ?_, hr⟩
        dsimp only at ey et
        rw [List.foldlM_cons, ey, bind_val, et, bind_val, e5, bind_val, e6, bind_val, bind_val]
        exact er
    have m : List.Forall₂ (fun i v => Makes (plus h h3.next (.int 0)) (fun h4 =>
        (List.range (i + 1)).foldlM (fun (zh : ℕ × Heap) j => (do
            let y ← newMul n zh.2 (as.getD j h3.next) (as'.getD (i - j) h3.next)
            let t ← newBin (· + ·) n y.2 zh.1 y.1
            let h ← free n t.2 y.1
            let h ← free n h zh.1
            .val (t.1, h) : Res (ℕ × Heap))) (alloc h4 (.int 0))) v)
        (List.range (as.length + as'.length - 1)) vs := by
      rw [HoldsL.length h2, HoldsL.length h2']
      refine (mapM_forall₂ hv).imp ?_
      intro i v hi h4 w4 k4
      rw [mulEntry_eq] at hi
      exact inner i _ (.int 0) v h4 (alloc h4 (.int 0)) _ (by simpa [depth]) k4 (alloc_ext w4 _)
        ⟨alloc_at h4 _, rfl⟩ hi
    obtain ⟨h6, e6, b6⟩ := Building.loop m b4
    obtain ⟨h7, e7, b7⟩ := b6.freeZero hz hn
    obtain ⟨F, hF, HF⟩ := b7.done
    refine ⟨((alloc h (.arr [])).1, h7), F, ?_, hF, by simpa using HF⟩
    simp only [newMul, read, h1, h1', bind_val]
    rw [hh3, alloc_fst h3, e6, bind_val, e7]
    rfl

/-! ## Walking over a tree -/

theorem look_spec : (n : ℕ) → {h : Heap} → {t : MZ} → {a : ℕ} → {F : Finset ℕ} → depth t ≤ n →
    Holds h.cells t a F → look n h a = .val t
  | 0, _, t, _, _, hd, _ => absurd hd (by have := depth_pos t; omega)
  | n + 1, h, .int z, a, F, _, H => by simp [look, read, H.1]
  | n + 1, h, .arr l, a, F, hd, H => by
    obtain ⟨as, G, h1, h2, h3, rfl⟩ := H
    simp only [depth] at hd
    have el : ∀ t ∈ l, depth t ≤ n := fun t ht => by have := depth_le_depthL ht; omega
    have key : as.mapM (fun b => look n h b) = .val l := by
      have A := HoldsL.at h2
      clear h1 h2 h3 hd
      induction A with
      | nil => simp
      | cons hh _ ih =>
        obtain ⟨G, hG⟩ := hh
        rw [List.mapM_cons, look_spec n (el _ (by simp)) hG, bind_val, ih fun t ht => el t (by simp [ht])]
        rfl
    simp [look, read, h1, key]

/-! ## Calls -/

/-- `Owns` with the sets of nodes given. -/
def OwnsBy (σ : State) (s : Store) (F : ℕ → Finset ℕ) : Prop :=
  (∀ i t, s i = some t → ∃ a, σ.data i = some a ∧ Holds σ.heap.cells t a (F i)) ∧
  (∀ i, s i = none → F i = ∅) ∧
  (∀ i j, i ≠ j → Disjoint (F i) (F j)) ∧
  (∀ a, σ.heap.cells a ≠ none ↔ ∃ i, a ∈ F i) ∧
  Wf σ.heap

theorem owns_iff (σ : State) (s : Store) : Owns σ s ↔ ∃ F, OwnsBy σ s F := Iff.rfl

/-- Element `i` gets a new value, element `j` is given up, the others stay. -/
theorem OwnsBy.change {σ : State} {s : Store} {F : ℕ → Finset ℕ} (o : OwnsBy σ s F) {i j : ℕ} {h' : Heap}
    {d' : ℕ → Option ℕ} {v : Option MZ} {K : Finset ℕ}
    (hd : ∀ k, k ≠ i → k ≠ j → d' k = σ.data k)
    (hv : ∀ t, v = some t → ∃ a, d' i = some a ∧ Holds h'.cells t a K) (hv0 : v = none → K = ∅)
    (hK : ∀ k, k ≠ i → k ≠ j → Disjoint K (F k))
    (hsame : ∀ k, k ≠ i → k ≠ j → ∀ b ∈ F k, h'.cells b = σ.heap.cells b)
    (hlive : ∀ b, h'.cells b ≠ none ↔ b ∈ K ∨ ∃ k, k ≠ i ∧ k ≠ j ∧ b ∈ F k) (w : Wf h') :
    Owns ⟨h', d'⟩ (Function.update (Function.update s j none) i v) := by
  obtain ⟨o1, o2, o3, o4, o5⟩ := o
  refine ⟨Function.update (Function.update F j ∅) i K, ?_, ?_, ?_, ?_, w⟩
  · intro k t hk
    by_cases hki : k = i
    · subst hki
      rw [Function.update_self] at hk ⊢
      exact hv t hk
    by_cases hkj : k = j
    · subst hkj
      rw [Function.update_of_ne hki, Function.update_self] at hk
      cases hk
    rw [Function.update_of_ne hki, Function.update_of_ne hkj] at hk ⊢
    obtain ⟨a, h1, h2⟩ := o1 k t hk
    exact ⟨a, by dsimp only; rw [hd k hki hkj, h1], Holds.congr t h2 (hsame k hki hkj)⟩
  · intro k hk
    by_cases hki : k = i
    · subst hki
      rw [Function.update_self] at hk ⊢
      exact hv0 hk
    by_cases hkj : k = j
    · subst hkj
      rw [Function.update_of_ne hki, Function.update_self]
    rw [Function.update_of_ne hki, Function.update_of_ne hkj] at hk ⊢
    exact o2 k hk
  · intro k m hkm
    have key : ∀ m, m ≠ i → Disjoint K (Function.update (Function.update F j ∅) i K m) := by
      intro m hmi
      rw [Function.update_of_ne hmi]
      by_cases hmj : m = j
      · subst hmj
        rw [Function.update_self]; simp
      · rw [Function.update_of_ne hmj]
        exact hK m hmi hmj
    by_cases hki : k = i
    · subst hki
      rw [Function.update_self]
      exact key m (Ne.symm hkm)
    by_cases hmi : m = i
    · subst hmi
      rw [Function.update_self]
      exact (key k hkm).symm
    rw [Function.update_of_ne hki, Function.update_of_ne hmi]
    by_cases hkj : k = j
    · subst hkj
      rw [Function.update_self]; simp
    by_cases hmj : m = j
    · subst hmj
      rw [Function.update_self]; simp
    rw [Function.update_of_ne hkj, Function.update_of_ne hmj]
    exact o3 k m hkm
  · intro b
    dsimp only
    rw [hlive b]
    constructor
    · rintro (hb | ⟨k, hki, hkj, hb⟩)
      · exact ⟨i, by rwa [Function.update_self]⟩
      · exact ⟨k, by rwa [Function.update_of_ne hki, Function.update_of_ne hkj]⟩
    · rintro ⟨k, hb⟩
      by_cases hki : k = i
      · subst hki
        rw [Function.update_self] at hb
        exact Or.inl hb
      by_cases hkj : k = j
      · subst hkj
        rw [Function.update_of_ne hki, Function.update_self] at hb
        simp at hb
      rw [Function.update_of_ne hki, Function.update_of_ne hkj] at hb
      exact Or.inr ⟨k, hki, hkj, hb⟩

theorem OwnsBy.live {σ : State} {s : Store} {F : ℕ → Finset ℕ} (o : OwnsBy σ s F) {k b : ℕ} (hb : b ∈ F k) :
    σ.heap.cells b ≠ none := (o.2.2.2.1 b).2 ⟨k, hb⟩

/-- What is left when the nodes of `i` go. -/
theorem OwnsBy.others {σ : State} {s : Store} {F : ℕ → Finset ℕ} (o : OwnsBy σ s F) (i b : ℕ) :
    (b ∉ F i ∧ σ.heap.cells b ≠ none) ↔ ∃ k, k ≠ i ∧ k ≠ i ∧ b ∈ F k := by
  constructor
  · rintro ⟨h1, h2⟩
    obtain ⟨k, hk⟩ := (o.2.2.2.1 b).1 h2
    exact ⟨k, fun hh => h1 (hh ▸ hk), fun hh => h1 (hh ▸ hk), hk⟩
  · rintro ⟨k, hki, -, hk⟩
    exact ⟨Finset.disjoint_left.1 (o.2.2.1 k i hki) hk, o.live hk⟩

/-- New nodes for `i` in place of the old ones. -/
theorem OwnsBy.swap {σ : State} {s : Store} {F : ℕ → Finset ℕ} (o : OwnsBy σ s F) {i : ℕ} {h' : Heap}
    {a : ℕ} {t : MZ} {K : Finset ℕ} (hc : ∀ b, b ∉ K → h'.cells b = if b ∈ F i then none else σ.heap.cells b)
    (hK : ∀ b ∈ K, b ∉ F i → σ.heap.cells b = none) (hl : ∀ b ∈ K, h'.cells b ≠ none) (w : Wf h')
    (H : Holds h'.cells t a K) :
    Owns ⟨h', Function.update σ.data i (some a)⟩ (Function.update s i (some t)) := by
  have hdis : ∀ k, k ≠ i → ∀ b ∈ F k, b ∉ K := fun k hki b hb hbK =>
    o.live hb (hK b hbK (Finset.disjoint_left.1 (o.2.2.1 k i hki) hb))
  have := o.change (i := i) (j := i) (h' := h') (d' := Function.update σ.data i (some a)) (v := some t) (K := K)
    (fun k hk _ => Function.update_of_ne hk _ _)
    (fun t' ht' => ⟨a, Function.update_self .., by cases ht'; exact H⟩) (by simp)
    (fun k hk _ => Finset.disjoint_right.2 fun b hb => hdis k hk b hb)
    (fun k hk _ b hb => by
      rw [hc b (hdis k hk b hb), if_neg (Finset.disjoint_left.1 (o.2.2.1 k i hk) hb)])
    (fun b => by
      rw [← o.others i b]
      by_cases hb : b ∈ K
      · simp [hb, hl b hb]
      · rw [hc b hb]
        by_cases hF : b ∈ F i <;> simp [hb, hF]) w
  rwa [Function.update_idem] at this

/-- `multiz_free(delme)` after the new tree is made. -/
theorem replace_spec {n : ℕ} {σ : State} {s : Store} {i : ℕ} {old t : MZ} {body : Heap → Res (ℕ × Heap)}
    (o : Owns σ s) (hi : s i = some old) (hd : depth old ≤ n) (m : Makes σ.heap body t) :
    ∃ σ', σ.replace n i (body σ.heap) = .val σ' ∧ Owns σ' (Function.update s i (some t)) := by
  obtain ⟨F, o⟩ := (owns_iff _ _).1 o
  obtain ⟨a, ha, H⟩ := o.1 i old hi
  obtain ⟨r, K, e, ex, HK⟩ := m σ.heap o.2.2.2.2 (Keeps.refl _)
  obtain ⟨h', e', L⟩ := free_spec n hd (Holds.keeps H ex.keeps)
  have hKF : ∀ b ∈ K, b ∉ F i := fun b hb hF => o.live hF (ex.fresh b hb)
  refine ⟨⟨h', Function.update σ.data i (some r.1)⟩, by simp [State.replace, State.at, ha, e, e'], ?_⟩
  refine o.swap (K := K) ?_ (fun b hb _ => ex.fresh b hb) ?_ (L.wf ex.wf) ?_
  · intro b hb
    rw [L.cells, ex.same b hb]
  · intro b hb
    rw [L.cells, if_neg (hKF b hb)]
    exact ex.live b hb
  · exact Holds.congr _ HK fun b hb => by rw [L.cells, if_neg (hKF b hb)]

/-- The depth of what an element holds. -/
def odepth : Option MZ → ℕ
  | none => 1
  | some t => depth t

/-- How deep the calls nest. -/
def need (s : Store) : Op → ℕ
  | .init _ => 1
  | .clear i => odepth (s i)
  | .setZ i _ => odepth (s i)
  | .set i j => odepth (s i) + odepth (s j)
  | .neg i j => odepth (s i) + odepth (s j)
  | .add i j k => odepth (s i) + odepth (s j) + odepth (s k)
  | .sub i j k => odepth (s i) + odepth (s j) + odepth (s k)
  | .mul i j k => odepth (s i) + odepth (s j) + odepth (s k)
  | .mulZ i j _ => odepth (s i) + odepth (s j)
  | .div i j k => odepth (s i) + odepth (s j) + odepth (s k)
  | .random i => odepth (s i)
  | .newList _ _ => 1
  | .append _ _ => 1

theorem owns_at {σ : State} {s : Store} {j : ℕ} {t : MZ} (o : Owns σ s) (hj : s j = some t) :
    ∃ a, σ.at j = .val a ∧ At σ.heap a t := by
  obtain ⟨F, o⟩ := (owns_iff _ _).1 o
  obtain ⟨a, ha, H⟩ := o.1 j t hj
  exact ⟨a, by simp [State.at, ha], F j, H⟩

theorem exec_spec {s s' : Store} {op : Op} (hs : step s op = some s') {n : ℕ} (hn : need s op ≤ n) {σ : State}
    (o : Owns σ s) : ∃ σ', exec n σ op = .val σ' ∧ Owns σ' s' := by
  cases op with
  | init i =>
    cases hi : s i with
    | some t => simp [step, hi] at hs
    | none =>
      simp only [step, hi, Option.some.injEq] at hs
      subst hs
      obtain ⟨F, o⟩ := (owns_iff _ _).1 o
      have w := o.2.2.2.2
      refine ⟨_, rfl, o.swap (K := {σ.heap.next}) ?_ ?_ ?_ (alloc_ext w _).wf ⟨alloc_at _ _, rfl⟩⟩
      · intro b hb
        rw [o.2.1 i hi, (alloc_ext w _).same b hb]; simp
      · exact fun b hb _ => (alloc_ext w (.int 0)).fresh b hb
      · exact (alloc_ext w _).live
  | clear i =>
    simp only [step, Option.bind_eq_some_iff, Option.some.injEq] at hs
    obtain ⟨t, hi, rfl⟩ := hs
    obtain ⟨F, o⟩ := (owns_iff _ _).1 o
    obtain ⟨a, ha, H⟩ := o.1 i t hi
    simp only [need, hi, odepth] at hn
    obtain ⟨h', e, L⟩ := free_spec n hn H
    refine ⟨⟨h', Function.update σ.data i none⟩, by simp [exec, State.at, ha, e], ?_⟩
    have := o.change (i := i) (j := i) (h' := h') (d' := Function.update σ.data i none) (v := none) (K := ∅)
      (fun k hk _ => Function.update_of_ne hk _ _) (by simp) (by simp) (by simp)
      (fun k hk _ b hb => by
        rw [L.cells, if_neg (Finset.disjoint_left.1 (o.2.2.1 k i hk) hb)])
      (fun b => by
        rw [← o.others i b, L.cells]
        by_cases hF : b ∈ F i <;> simp [hF]) (L.wf o.2.2.2.2)
    rwa [Function.update_idem] at this
  | setZ i z =>
    simp only [step, Option.bind_eq_some_iff, Option.some.injEq] at hs
    obtain ⟨t, hi, rfl⟩ := hs
    obtain ⟨F, o⟩ := (owns_iff _ _).1 o
    obtain ⟨a, ha, H⟩ := o.1 i t hi
    simp only [need, hi, odepth] at hn
    obtain ⟨h', e, L⟩ := free_spec n hn H
    have w := L.wf o.2.2.2.2
    refine ⟨_, by simp only [exec, State.at, ha, e, bind_val]; rfl,
      o.swap (K := {h'.next}) ?_ ?_ (alloc_ext w _).live (alloc_ext w _).wf ⟨alloc_at _ _, rfl⟩⟩
    · intro b hb
      rw [(alloc_ext w _).same b hb, L.cells]
    · intro b hb hF
      have := (alloc_ext w (.int z)).fresh b hb
      rwa [L.cells, if_neg hF] at this
  | set i j =>
    simp only [step, Option.bind_eq_some_iff, Option.some.injEq] at hs
    obtain ⟨t, hi, u, hj, rfl⟩ := hs
    obtain ⟨a, ha, G, H⟩ := owns_at o hj
    simp only [need, hi, hj, odepth] at hn
    have m := newUnary_spec id n (by omega) H
    rw [unary_id] at m
    obtain ⟨σ', e, o'⟩ := replace_spec o hi (n := n) (by omega) m
    exact ⟨σ', by simp only [exec, ha, bind_val]; exact e, o'⟩
  | neg i j =>
    simp only [step, Option.bind_eq_some_iff, Option.some.injEq] at hs
    obtain ⟨t, hi, u, hj, rfl⟩ := hs
    obtain ⟨a, ha, G, H⟩ := owns_at o hj
    simp only [need, hi, hj, odepth] at hn
    obtain ⟨σ', e, o'⟩ := replace_spec o hi (n := n) (by omega) (newUnary_spec (fun z => -z) n (by omega) H)
    exact ⟨σ', by simp only [exec, ha, bind_val]; exact e, o'⟩
  | mulZ i j z =>
    simp only [step, Option.bind_eq_some_iff, Option.some.injEq] at hs
    obtain ⟨t, hi, u, hj, rfl⟩ := hs
    obtain ⟨a, ha, G, H⟩ := owns_at o hj
    simp only [need, hi, hj, odepth] at hn
    obtain ⟨σ', e, o'⟩ := replace_spec o hi (n := n) (by omega) (newUnary_spec (· * z) n (by omega) H)
    exact ⟨σ', by simp only [exec, ha, bind_val]; exact e, o'⟩
  | add i j k =>
    simp only [step, Option.bind_eq_some_iff, Option.some.injEq] at hs
    obtain ⟨t, hi, u, hj, v, hk, r, hr, rfl⟩ := hs
    obtain ⟨a, ha, H⟩ := owns_at o hj
    obtain ⟨b, hb, H'⟩ := owns_at o hk
    simp only [need, hi, hj, hk, odepth] at hn
    obtain ⟨σ', e, o'⟩ := replace_spec o hi (n := n) (by omega)
      (newBin_spec (· + ·) n (by omega) (by omega) H H' hr)
    exact ⟨σ', by simp only [exec, ha, hb, bind_val]; exact e, o'⟩
  | sub i j k =>
    simp only [step, Option.bind_eq_some_iff, Option.some.injEq] at hs
    obtain ⟨t, hi, u, hj, v, hk, r, hr, rfl⟩ := hs
    obtain ⟨a, ha, H⟩ := owns_at o hj
    obtain ⟨b, hb, H'⟩ := owns_at o hk
    simp only [need, hi, hj, hk, odepth] at hn
    obtain ⟨σ', e, o'⟩ := replace_spec o hi (n := n) (by omega)
      (newBin_spec (· - ·) n (by omega) (by omega) H H' hr)
    exact ⟨σ', by simp only [exec, ha, hb, bind_val]; exact e, o'⟩
  | mul i j k =>
    simp only [step, Option.bind_eq_some_iff, Option.some.injEq] at hs
    obtain ⟨t, hi, u, hj, v, hk, r, hr, rfl⟩ := hs
    obtain ⟨a, ha, H⟩ := owns_at o hj
    obtain ⟨b, hb, H'⟩ := owns_at o hk
    simp only [need, hi, hj, hk, odepth] at hn
    obtain ⟨σ', e, o'⟩ := replace_spec o hi (n := n) (by omega)
      (newMul_spec n (by omega) (by omega) H H' hr)
    exact ⟨σ', by simp only [exec, ha, hb, bind_val]; exact e, o'⟩
  | div i j k =>
    simp only [step, Option.bind_eq_some_iff] at hs
    obtain ⟨t, hi, u, hj, v, hk, d, hd, hs⟩ := hs
    split at hs
    · cases hs
    next hd0 =>
    cases hs
    obtain ⟨a, ha, G, H⟩ := owns_at o hj
    obtain ⟨b, hb, G', H'⟩ := owns_at o hk
    simp only [need, hi, hj, hk, odepth] at hn
    obtain ⟨z, e1, e2⟩ := toMpz_spec n (by omega) H' hd
    obtain ⟨σ', e, o'⟩ := replace_spec o hi (n := n) (by omega)
      (newUnary_spec (fun z => Int.tdiv z d) n (by omega) H)
    exact ⟨σ', by simp only [exec, ha, hb, bind_val, toMpz, e1, read, e2, if_neg hd0]; exact e, o'⟩
  | random i =>
    simp only [step, Option.bind_eq_some_iff, Option.some.injEq] at hs
    obtain ⟨t, hi, rfl⟩ := hs
    simp only [need, hi, odepth] at hn
    have m : Makes σ.heap (fun h => .val (alloc h (.int 0))) (.int 0) := fun h w _ =>
      ⟨_, _, rfl, alloc_ext w _, alloc_at _ _, rfl⟩
    obtain ⟨σ', e, o'⟩ := replace_spec o hi hn m
    exact ⟨σ', e, o'⟩
  | newList i j =>
    cases hi : s i with
    | some t => simp [step, hi] at hs
    | none =>
      simp only [step, hi, Option.bind_eq_some_iff, Option.some.injEq] at hs
      obtain ⟨t, hj, rfl⟩ := hs
      obtain ⟨F, o⟩ := (owns_iff _ _).1 o
      obtain ⟨a, ha, H⟩ := o.1 j t hj
      have w := o.2.2.2.2
      have hij : i ≠ j := fun hh => by rw [hh, hj] at hi; cases hi
      obtain ⟨h1, e1, L1⟩ := free_spec n (h := (alloc σ.heap (.int 0)).2) (t := .int 0) (a := σ.heap.next)
        (F := {σ.heap.next}) (by simpa [depth, need] using hn) ⟨alloc_at _ _, rfl⟩
      have hc1 : ∀ b, h1.cells b = σ.heap.cells b := fun b => by
        rw [L1.cells]
        split
        · next hb => exact ((alloc_ext w (.int 0)).fresh b hb).symm
        · next hb => exact (alloc_ext w (.int 0)).same b hb
      have w1 : Wf h1 := L1.wf (alloc_ext w _).wf
      have ex := alloc_ext w1 (.arr [])
      have hln : σ.heap.cells h1.next = none := by rw [← hc1]; exact w1 _ le_rfl
      have hnot : ∀ k, h1.next ∉ F k := fun k hk => o.live hk hln
      refine ⟨⟨⟨Function.update (alloc h1 (.arr [])).2.cells h1.next (some (.arr ([] ++ [a]))), (alloc h1 (.arr [])).2.next⟩,
        Function.update σ.data i (some h1.next)⟩, ?_, ?_⟩
      · simp only [exec, alloc_fst, e1, bind_val, State.at, ha]
        rw [push_val (alloc_at h1 _)]
        rfl
      have hcell : ∀ b, b ≠ h1.next → Function.update (alloc h1 (.arr [])).2.cells h1.next (some (.arr ([] ++ [a]))) b
          = σ.heap.cells b := fun b hb => by
        rw [Function.update_of_ne hb, ex.same b (by simpa using hb), hc1]
      refine o.change (K := insert h1.next (F j)) ?_ ?_ (by simp) ?_ ?_ ?_ ?_
      · exact fun k hk _ => Function.update_of_ne hk _ _
      · intro t' ht'
        cases ht'
        refine ⟨h1.next, Function.update_self .., [a], F j, ?_, ⟨a, [], F j, ∅, rfl, ?_, ⟨rfl, rfl⟩, by simp, by simp⟩,
          hnot j, rfl⟩
        · simp
        · exact Holds.congr t H fun b hb => hcell b fun hh => hnot j (hh ▸ hb)
      · intro k hki hkj
        rw [Finset.disjoint_insert_left]
        exact ⟨hnot k, o.2.2.1 j k (Ne.symm hkj)⟩
      · exact fun k hki hkj b hb => hcell b fun hh => hnot k (hh ▸ hb)
      · intro b
        dsimp only
        by_cases hb : b = h1.next
        · simp [hb]
        · rw [hcell b hb, o.2.2.2.1 b]
          constructor
          · rintro ⟨k, hk⟩
            by_cases hkj : k = j
            · left; subst hkj; simp [hk]
            · refine Or.inr ⟨k, ?_, hkj, hk⟩
              rintro rfl
              rw [o.2.1 _ hi] at hk
              simp at hk
          · rintro (hk | ⟨k, -, -, hk⟩)
            · exact ⟨j, by simpa [hb] using hk⟩
            · exact ⟨k, hk⟩
      · intro b hb
        dsimp only at hb ⊢
        have : b ≠ h1.next := fun hh => by subst hh; simp [alloc] at hb
        rw [Function.update_of_ne this]
        exact ex.wf b hb
  | append i j =>
    cases hi : s i with
    | none => simp [step, hi] at hs
    | some ti =>
    cases ti with
    | int z => simp [step, hi] at hs
    | arr l =>
    simp only [step, hi] at hs
    split at hs
    · cases hs
    next hij =>
    simp only [Option.bind_eq_some_iff, Option.some.injEq] at hs
    obtain ⟨t, hj, rfl⟩ := hs
    obtain ⟨F, o⟩ := (owns_iff _ _).1 o
    obtain ⟨a, ha, H⟩ := o.1 j t hj
    obtain ⟨x, hx, as, G, h1, h2, h3, h4⟩ := o.1 i _ hi
    have hxi : x ∈ F i := by rw [h4]; simp
    have hnot : ∀ k, k ≠ i → ∀ b ∈ F k, b ≠ x := fun k hk b hb hh =>
      Finset.disjoint_left.1 (o.2.2.1 k i hk) hb (hh ▸ hxi)
    refine ⟨⟨⟨Function.update σ.heap.cells x (some (.arr (as ++ [a]))), σ.heap.next⟩, σ.data⟩, ?_, ?_⟩
    · simp only [exec, State.at, hx, ha, bind_val]
      rw [push_val h1]
      rfl
    refine o.change (K := F i ∪ F j) (fun _ _ _ => rfl) ?_ (by simp) ?_ ?_ ?_ ?_
    · intro t' ht'
      cases ht'
      refine ⟨x, hx, as ++ [a], G ∪ F j, by simp, HoldsL.snoc ?_ ?_ ?_, ?_, ?_⟩
      · exact Holds.congr t H fun b hb => Function.update_of_ne (hnot j (Ne.symm hij) b hb) _ _
      · exact HoldsL.congr l h2 fun b hb => Function.update_of_ne (fun hh : b = x => h3 (hh ▸ hb)) _ _
      · refine (o.2.2.1 i j hij).mono_left ?_
        rw [h4]; exact Finset.subset_insert _ _
      · simp only [Finset.mem_union, not_or]
        exact ⟨h3, fun hb => hnot j (Ne.symm hij) x hb rfl⟩
      · rw [h4, Finset.insert_union]
    · intro k hki hkj
      rw [Finset.disjoint_union_left]
      exact ⟨o.2.2.1 i k (Ne.symm hki), o.2.2.1 j k (Ne.symm hkj)⟩
    · exact fun k hki _ b hb => Function.update_of_ne (hnot k hki b hb) _ _
    · intro b
      dsimp only
      have : Function.update σ.heap.cells x (some (.arr (as ++ [a]))) b ≠ none ↔ σ.heap.cells b ≠ none := by
        by_cases hb : b = x
        · simp [hb, h1]
        · rw [Function.update_of_ne hb]
      rw [this, o.2.2.2.1 b]
      constructor
      · rintro ⟨k, hk⟩
        by_cases hki : k = i
        · subst hki; simp [hk]
        by_cases hkj : k = j
        · subst hkj; simp [hk]
        exact Or.inr ⟨k, hki, hkj, hk⟩
      · rintro (hk | ⟨k, -, -, hk⟩)
        · rcases Finset.mem_union.1 hk with hk | hk
          · exact ⟨i, hk⟩
          · exact ⟨j, hk⟩
        · exact ⟨k, hk⟩
    · intro b hb
      dsimp only at hb ⊢
      have : b ≠ x := fun hh => by
        have := o.2.2.2.2 b hb
        rw [hh, h1] at this
        cases this
      rw [Function.update_of_ne this]
      exact o.2.2.2.2 b hb

theorem run_spec : (prog : List Op) → {s s' : Store} → steps s prog = some s' →
    ∃ N, ∀ n, N ≤ n → ∀ σ, Owns σ s → ∃ σ', run n σ prog = .val σ' ∧ Owns σ' s'
  | [], s, s', h => by
    simp [steps] at h
    subst h
    exact ⟨0, fun n _ σ o => ⟨σ, rfl, o⟩⟩
  | op :: prog, s, s', h => by
    rw [steps, List.foldlM_cons] at h
    simp only [Option.bind_eq_bind, Option.bind_eq_some_iff] at h
    obtain ⟨s1, h1, h2⟩ := h
    obtain ⟨N, hN⟩ := run_spec prog h2
    refine ⟨N + need s op, fun n hn σ o => ?_⟩
    obtain ⟨σ1, e1, o1⟩ := exec_spec h1 (n := n) (by omega) o
    obtain ⟨σ2, e2, o2⟩ := hN n (by omega) σ1 o1
    refine ⟨σ2, ?_, o2⟩
    rw [run, List.foldlM_cons, e1]
    exact e2

theorem start_owns : Owns start fun _ => none :=
  ⟨fun _ => ∅, by simp, by simp, by simp, by simp [start, empty], by simp [start, empty]⟩

end Pbc.MultizHeap
