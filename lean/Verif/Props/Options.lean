import Verif.Spec.Options
import Verif.Props.EllNet

/-! # C108: choosing the method of a pairing -/

set_option autoImplicit false
set_option linter.unusedSectionVars false

namespace Pbc.Options

open Pbc.Curve (Pt)
open Pbc.Quad
open WeierstrassCurve WeierstrassCurve.Affine
open Spec (EC PtRep)
open Spec.Options

variable {X : Type*} {is0 : X → Bool} {w : World X} {i j : ℕ}

/-! ### One operation -/

/-- The operation is done to this pairing. -/
def Op.on (i : ℕ) : Op X → Prop
  | .init j _ => j = i
  | .option j _ _ => j = i
  | .ppInit _ _ _ => False

@[simp] theorem put_pairings (p : Pairing) : (put w i p).pairings = Function.update w.pairings i (some p) := rfl

@[simp] theorem setUp_pairings (ty : Ty) :
    (setUp w i ty).pairings = Function.update w.pairings i (some ⟨ty, firstMap ty, firstPp ty⟩) := by
  cases ty <;> rfl

@[simp] theorem ppInit_pairings (x : X) : (ppInit is0 w j i x).pairings = w.pairings := by
  unfold ppInit
  cases w.pairings i <;> rfl

/-- Setting an option leaves the other pairings' pointers alone. -/
theorem option_other (hij : j ≠ i) (k v : String) : (optionSet w j k v).pairings i = w.pairings i := by
  unfold optionSet
  split
  · rfl
  · split_ifs
    · split <;> simp only [optionA, optionA1, optionD, optionE, optionG] <;> split_ifs <;>
        simp [Function.update_of_ne hij.symm]
    · rfl

theorem step_other {o : Op X} (ho : ¬ o.on i) : (step is0 w o).pairings i = w.pairings i := by
  cases o with
  | init j ty => exact (by simp [step, Function.update_of_ne (Ne.symm ho)])
  | option j k v => exact option_other ho k v
  | ppInit j i x => simp [step]

/-- The pointer of a type and a method. -/
def mapFor : Ty → Method → Map
  | .a, .miller => .aProj
  | .a, .millerAffine => .aAffine
  | .a, .shipseyStange => .aNet
  | .a1, .miller => .a1Proj
  | .a1, .millerAffine => .a1Affine
  | .a1, .shipseyStange => .aNet
  | .d, _ => .dCc
  | .e, .shipseyStange => .eNet
  | .e, _ => .eMiller
  | .g, .shipseyStange => .gNet
  | .g, _ => .gCc
  | .f, _ => .fMap
  | .i, _ => .iMap

/-- The preprocessing routines of a type and a method. -/
def ppFor : Ty → Method → Pp
  | .a, .shipseyStange => .net
  | .a, _ => .a
  | .a1, .shipseyStange => .net
  | .a1, _ => .a1
  | .d, _ => .d
  | .g, _ => .g
  | _, _ => .dflt

/-- A pairing has the pointers of its type and method. -/
structure Fits (s : Ty × Method) (p : Pairing) : Prop where
  ty : p.ty = s.1
  pp : p.pp = ppFor s.1 s.2
  map : s.1 ≠ .g → p.map = mapFor s.1 s.2
  mapG : s.1 = .g → p.map = .gNet ∨ s.2 ≠ .shipseyStange ∧ p.map = .gCc

/-- The same for pairings that may not be set up. -/
def Rel : Option (Ty × Method) → Option Pairing → Prop
  | none, none => True
  | some s, some p => Fits s p
  | _, _ => False

theorem rel_step {s : Option (Ty × Method)} (h : Rel s (w.pairings i)) (o : Op X) :
    Rel (effect i s o) ((step is0 w o).pairings i) := by
  cases o with
  | ppInit j i' x => simpa [step, effect] using h
  | init j ty =>
    by_cases hj : j = i
    · subst hj
      simp only [effect, step, setUp_pairings, Function.update_self, if_true]
      cases ty <;> exact ⟨rfl, rfl, fun _ => rfl, fun _ => (by first | exact .inr ⟨by decide, rfl⟩ | contradiction)⟩
    · rw [step_other (show ¬ (Op.init j ty : Op X).on i from hj)]
      simpa [effect, hj] using h
  | option j k v =>
    by_cases hj : j = i
    swap
    · rw [step_other (show ¬ (Op.option j k v : Op X).on i from hj)]
      simpa [effect, hj] using h
    subst hj
    simp only [effect, true_and, step, optionSet]
    by_cases hk : k = "method"
    swap
    · simp only [hk, if_false]
      split <;> assumption
    simp only [hk, if_true]
    cases hp : w.pairings j with
    | none =>
      rw [hp] at h
      cases s with
      | none => rw [hp]; exact h
      | some s => exact h.elim
    | some p =>
      rw [hp] at h
      cases s with
      | none => exact h.elim
      | some s =>
        obtain ⟨ty, m⟩ := s
        obtain ⟨h1, h2, h3, h4⟩ := h
        simp only at h1 h2 h3 h4
        subst h1
        obtain ⟨ty, map, pp⟩ := p
        simp only at h2 h3 h4
        by_cases v1 : v = "miller"
        · subst v1
          cases ty <;> simp [knows, optionA, optionA1, optionD, optionE, optionG, hp, Rel] <;>
            constructor <;> simp_all [mapFor, ppFor] <;> tauto
        by_cases v2 : v = "miller-affine"
        · subst v2
          cases ty <;> simp [knows, optionA, optionA1, optionD, optionE, optionG, hp, Rel] <;>
            constructor <;> simp_all [mapFor, ppFor] <;> tauto
        by_cases v3 : v = "shipsey-stange"
        · subst v3
          cases ty <;> simp [knows, optionA, optionA1, optionD, optionE, optionG, hp, Rel] <;>
            constructor <;> simp_all [mapFor, ppFor]
        cases ty <;> simp [knows, optionA, optionA1, optionD, optionE, optionG, hp, v1, v2, v3, Rel] <;>
          constructor <;> simp_all [mapFor, ppFor]

/-! ### Whole programs -/

theorem run_snoc (l : List (Op X)) (o : Op X) : run is0 w (l ++ [o]) = step is0 (run is0 w l) o := by
  rw [run, List.foldl_append]; rfl

theorem intended_snoc (l : List (Op X)) (o : Op X) : intended (l ++ [o]) i = effect i (intended l i) o := by
  rw [intended, List.foldl_append]; rfl

theorem rel_run (l : List (Op X)) (i : ℕ) : Rel (intended l i) ((run is0 .empty l).pairings i) := by
  induction l using List.reverseRecOn with
  | nil => trivial
  | append_singleton l o ih =>
    rw [run_snoc, intended_snoc]
    exact rel_step ih o

theorem fits_run {l : List (Op X)} {s : Ty × Method} (h : intended l i = some s) :
    ∃ p, (run is0 .empty l).pairings i = some p ∧ Fits s p := by
  have := rel_run (is0 := is0) l i
  rw [h] at this
  cases hp : (run is0 .empty l).pairings i with
  | none => rw [hp] at this; exact this.elim
  | some p => rw [hp] at this; exact ⟨p, rfl, this⟩

/-- **C108**: for types A, A1, F and I every pairing has a method of its own: after any program the routine
`pairing_apply` runs is that of the method set last for this pairing. -/
theorem C108_own_method {l : List (Op X)} {ty : Ty} {m : Method} (h : intended l i = some (ty, m))
    (ht : ty = .a ∨ ty = .a1 ∨ ty = .f ∨ ty = .i) :
    direct (run is0 .empty l) i = some (routine ty m) := by
  obtain ⟨p, hp, hf⟩ := fits_run (is0 := is0) h
  have hm := hf.map (by rcases ht with rfl | rfl | rfl | rfl <;> simp)
  simp only [direct, hp, Option.map_some, hm]
  rcases ht with rfl | rfl | rfl | rfl <;> cases m <;> rfl

/-- **C108**: an option other than `method`, and a method the type does not have, are ignored without a
message. -/
theorem C108_ignored (w : World X) (i : ℕ) {k v : String}
    (h : k ≠ "method" ∨ ∀ m : Method, v = m.name → ∀ p, w.pairings i = some p → knows p.ty m = false) :
    optionSet w i k v = w := by
  unfold optionSet
  cases hp : w.pairings i with
  | none => rfl
  | some p =>
    dsimp only
    by_cases hk : k = "method"
    swap
    · rw [if_neg hk]
    rw [if_pos hk]
    have h := h.resolve_left (not_not.2 hk)
    have h1 : v = "miller" → knows p.ty .miller = false := fun e => h .miller e p hp
    have h2 : v = "miller-affine" → knows p.ty .millerAffine = false := fun e => h .millerAffine e p hp
    have h3 : v = "shipsey-stange" → knows p.ty .shipseyStange = false := fun e => h .shipseyStange e p hp
    cases ht : p.ty <;> rw [ht] at h1 h2 h3 <;> simp [knows] at h1 h2 h3 <;>
      simp [optionA, optionA1, optionD, optionE, optionG, h1, h2, h3]

/-! ### The shared variables -/

theorem init_mem {l : List (Op X)} {ty : Ty} {m : Method} (h : intended l i = some (ty, m)) :
    Op.init i ty ∈ l := by
  induction l using List.reverseRecOn generalizing m with
  | nil => exact absurd h (by simp [intended])
  | append_singleton l o ih =>
    rw [intended_snoc] at h
    cases o with
    | init j ty' =>
      simp only [effect] at h
      split_ifs at h with hj
      · subst hj
        simp only [Option.some.injEq, Prod.mk.injEq] at h
        rw [h.1]; simp
      · exact List.mem_append_left _ (ih h)
    | option j k v =>
      simp only [effect] at h
      split_ifs at h with hj
      · cases hs : intended l i with
        | none => rw [hs] at h; simp at h
        | some s =>
          obtain ⟨ty', m'⟩ := s
          rw [hs, Option.map_some, Option.some.injEq] at h
          have : ty' = ty := by
            split_ifs at h <;> exact (Prod.mk.inj h).1
          subst this
          exact List.mem_append_left _ (ih hs)
      · exact List.mem_append_left _ (ih h)
    | ppInit j i' x => exact List.mem_append_left _ (ih h)

theorem no_type {l : List (Op X)} {ty : Ty} (h : Op.init j ty ∉ l) {p : Pairing}
    (hp : (run is0 .empty l).pairings j = some p) : p.ty ≠ ty := by
  intro e
  have := rel_run (is0 := is0) l j
  rw [hp] at this
  cases hs : intended l j with
  | none => rw [hs] at this; exact this
  | some s =>
    rw [hs] at this
    obtain ⟨ty', m⟩ := s
    have h1 : p.ty = ty' := this.ty
    rw [← h1, e] at hs
    exact h (init_mem hs)

/-- The variable of a type. -/
def World.fn (w : World X) : Ty → Mil
  | .d => w.dFn
  | .g => w.gFn
  | _ => w.eFn

/-- The types with a shared variable. -/
def shares (ty : Ty) : Prop := ty = .d ∨ ty = .g ∨ ty = .e

/-- Only setting up pairings of the type, and options of pairings of the type, change its variable. -/
theorem fn_step {ty : Ty} (ht : shares ty) (o : Op X)
    (h1 : ∀ j, o ≠ .init j ty) (h2 : ∀ j k v, o = .option j k v → ∀ p, w.pairings j = some p → p.ty ≠ ty) :
    (step is0 w o).fn ty = w.fn ty := by
  cases o with
  | init j ty' =>
    have : ty' ≠ ty := fun e => h1 j (by rw [e])
    rcases ht with rfl | rfl | rfl <;> cases ty' <;> first | rfl | exact absurd rfl this
  | ppInit j i x =>
    simp only [step, ppInit]
    split <;> cases ty <;> rfl
  | option j k v =>
    simp only [step, optionSet]
    cases hp : w.pairings j with
    | none => rfl
    | some p =>
      have := h2 j k v rfl p hp
      by_cases hk : k = "method"
      · simp only [hk, if_true]
        rcases ht with rfl | rfl | rfl <;> cases hty : p.ty <;>
          first
          | exact absurd hty this
          | (simp only [optionA, optionA1, optionD, optionE, optionG]; split_ifs <;> rfl)
          | rfl
      · simp only [hk, if_false]

/-- What setting a method of a pairing of the type does to its variable. -/
theorem fn_option {ty : Ty} (ht : shares ty) {p : Pairing} (hp : w.pairings j = some p) (hty : p.ty = ty)
    (v : String) : (optionSet w j "method" v).fn ty =
      if v = "miller" then .proj else if v = "miller-affine" then .affine else w.fn ty := by
  simp only [optionSet, hp, if_true]
  rcases ht with rfl | rfl | rfl <;> simp only [hty, optionD, optionE, optionG] <;> split_ifs <;> rfl

theorem fn_init {ty : Ty} (ht : shares ty) :
    (setUp w j ty).fn ty = if ty = .e then .proj else .affine := by
  rcases ht with rfl | rfl | rfl <;> rfl

/-- With a single pairing of the type the variable follows its method. -/
theorem fn_run {ty : Ty} (ht : shares ty) {l : List (Op X)} (hl : ∀ j, j ≠ i → Op.init j ty ∉ l) {m : Method}
    (h : intended l i = some (ty, m)) (hs : m ≠ .shipseyStange) :
    (run is0 .empty l).fn ty = if m = .miller then .proj else .affine := by
  induction l using List.reverseRecOn generalizing m with
  | nil => exact absurd h (by simp [intended])
  | append_singleton l o ih =>
    have hl' : ∀ j, j ≠ i → Op.init j ty ∉ l := fun j hj hm => hl j hj (List.mem_append_left _ hm)
    have ih := fun {m} => ih (m := m) hl'
    rw [run_snoc]
    rw [intended_snoc] at h
    cases o with
    | ppInit j i' x =>
      rw [fn_step ht _ (fun j => by simp) (fun j k v e => by simp at e)]
      exact ih h hs
    | init j ty' =>
      by_cases hj : j = i
      · simp only [effect, hj, if_true, Option.some.injEq, Prod.mk.injEq] at h
        obtain ⟨rfl, rfl⟩ := h
        rw [step, fn_init ht]
        rcases ht with rfl | rfl | rfl <;> rfl
      · have hne : ty' ≠ ty := fun e => hl j hj (by rw [e]; simp)
        rw [fn_step ht _ (fun j' => by simp [hne]) (fun j k v e => by simp at e)]
        simp only [effect, hj, if_false] at h
        exact ih h hs
    | option j k v =>
      by_cases hj : j = i
      swap
      · rw [fn_step ht _ (fun j' => by simp) (fun j' k v e p hp => by
          simp only [Op.option.injEq] at e
          obtain ⟨rfl, -, -⟩ := e
          exact no_type (hl' j hj) hp)]
        simp only [effect, hj, false_and, if_false] at h
        exact ih h hs
      subst hj
      by_cases hk : k = "method"
      swap
      · rw [step, C108_ignored _ _ (.inl hk)]
        simp only [effect, hk, and_false, if_false] at h
        exact ih h hs
      subst hk
      simp only [effect, and_self, if_true] at h
      cases hs' : intended l j with
      | none => rw [hs'] at h; exact absurd h (by simp)
      | some s =>
        obtain ⟨ty', m'⟩ := s
        rw [hs', Option.map_some, Option.some.injEq] at h
        have e : ty' = ty := by split_ifs at h <;> exact (Prod.mk.inj h).1
        subst e
        obtain ⟨p, hp, hf⟩ := fits_run (is0 := is0) hs'
        rw [step, fn_option ht hp hf.ty]
        have k1 : knows ty' .miller = true := by rcases ht with rfl | rfl | rfl <;> rfl
        have k2 : knows ty' .millerAffine = true := by rcases ht with rfl | rfl | rfl <;> rfl
        simp only [k1, k2, and_true] at h
        by_cases v1 : v = "miller"
        · simp only [v1, if_true, Prod.mk.injEq, true_and] at h ⊢
          simp [← h]
        simp only [v1, if_false] at h ⊢
        by_cases v2 : v = "miller-affine"
        · simp only [v2, if_true, Prod.mk.injEq, true_and] at h ⊢
          simp [← h]
        simp only [v2, if_false] at h ⊢
        split_ifs at h with h'
        · exact absurd (Prod.mk.inj h).2.symm hs
        · obtain rfl := (Prod.mk.inj h).2
          exact ih hs' hs

theorem intended_knows {l : List (Op X)} {ty : Ty} {m : Method} (h : intended l i = some (ty, m)) :
    knows ty m = true ∨ m = first ty := by
  induction l using List.reverseRecOn generalizing ty m with
  | nil => exact absurd h (by simp [intended])
  | append_singleton l o ih =>
    rw [intended_snoc] at h
    cases o with
    | ppInit j i' x => exact ih h
    | init j ty' =>
      simp only [effect] at h
      split_ifs at h
      · simp only [Option.some.injEq, Prod.mk.injEq] at h
        obtain ⟨rfl, rfl⟩ := h
        exact .inr rfl
      · exact ih h
    | option j k v =>
      simp only [effect] at h
      split_ifs at h
      · cases hs : intended l i with
        | none => rw [hs] at h; exact absurd h (by simp)
        | some s =>
          obtain ⟨ty', m'⟩ := s
          rw [hs, Option.map_some, Option.some.injEq] at h
          split_ifs at h with h1 h2 h3 <;> obtain ⟨rfl, rfl⟩ := Prod.mk.inj h
          · exact .inl h1.2
          · exact .inl h2.2
          · exact .inl h3.2
          · exact ih hs
      · exact ih h

/-- Only `shipsey-stange` makes the map of a pairing the elliptic net routine of type G. -/
theorem not_net_step {o : Op X} (ho : o ≠ .option i "method" "shipsey-stange")
    (h : ∀ p, w.pairings i = some p → p.map ≠ .gNet) :
    ∀ p, (step is0 w o).pairings i = some p → p.map ≠ .gNet := by
  by_cases hon : o.on i
  swap
  · rw [step_other hon]; exact h
  cases o with
  | ppInit j i' x => exact hon.elim
  | init j ty =>
    obtain rfl : j = i := hon
    intro p hp
    simp only [step, setUp_pairings, Function.update_self, Option.some.injEq] at hp
    subst hp
    cases ty <;> simp [firstMap]
  | option j k v =>
    obtain rfl : j = i := hon
    intro p hp
    simp only [step, optionSet] at hp
    cases hq : w.pairings j with
    | none =>
      rw [hq] at hp
      simp only [hq] at hp
      exact absurd hp (by simp)
    | some q =>
      simp only [hq] at hp
      have hk : k = "method" → v ≠ "shipsey-stange" := fun e e' => ho (by rw [e, e'])
      have := h q hq
      by_cases k1 : k = "method"
      · have hk := hk k1
        rw [if_pos k1] at hp
        cases hty : q.ty <;> rw [hty] at hp <;>
          simp only [optionA, optionA1, optionD, optionE, optionG, if_neg hk] at hp <;>
          (try split_ifs at hp) <;> simp [hq] at hp <;> subst hp <;> first | exact this | simp
      · rw [if_neg k1, hq] at hp
        obtain rfl := Option.some.inj hp
        exact this

/-- **C108**, partial, for types D and E: with a single pairing of its type in the program the routine is
that of the method set last.

Missing: programs with several pairings of the type; for these it is false (`C108_shared_fails`). -/
theorem C108_single_partial {l : List (Op X)} {ty : Ty} {m : Method} (h : intended l i = some (ty, m))
    (ht : ty = .d ∨ ty = .e) (hl : ∀ j, j ≠ i → Op.init j ty ∉ l) :
    direct (run is0 .empty l) i = some (routine ty m) := by
  obtain ⟨p, hp, hf⟩ := fits_run (is0 := is0) h
  have hm := hf.map (by rcases ht with rfl | rfl <;> simp)
  have hfn := fn_run (is0 := is0) (ht.elim .inl (.inr ∘ .inr)) hl h
  have hd : ty = .d → m ≠ .shipseyStange := by
    rintro rfl rfl
    rcases intended_knows h with h | h <;> exact absurd h (by decide)
  simp only [direct, hp, Option.map_some, hm]
  rcases ht with rfl | rfl
  · have := hfn (hd rfl)
    simp only [World.fn] at this
    cases m <;> simp_all [mapFor, routine]
  · cases m
    · have := hfn (by decide)
      simp only [World.fn] at this
      simp [mapFor, routine, this]
    · have := hfn (by decide)
      simp only [World.fn] at this
      simp [mapFor, routine, this]
    · rfl

/-- **C108**, partial, for type G: if no other pairing of type G is set up, and this one was never set to
`shipsey-stange`. -/
theorem C108_typeG_single_partial {l : List (Op X)} {m : Method} (h : intended l i = some (.g, m))
    (hl : ∀ j, j ≠ i → Op.init j .g ∉ l) (hs : Op.option i "method" "shipsey-stange" ∉ l) :
    direct (run is0 .empty l) i = some (routine .g m) := by
  obtain ⟨p, hp, hf⟩ := fits_run (is0 := is0) h
  have hn : ∀ p, (run is0 .empty l).pairings i = some p → p.map ≠ .gNet := by
    clear h hl hp
    induction l using List.reverseRecOn with
    | nil => intro p hp; exact absurd hp (by simp [run, World.empty])
    | append_singleton l o ih =>
      rw [run_snoc]
      exact not_net_step (fun e => hs (by rw [e]; simp)) (ih fun hm => hs (List.mem_append_left _ hm))
  obtain ⟨hm, hmap⟩ := (hf.mapG rfl).resolve_left (hn p hp)
  have hfn := fn_run (is0 := is0) (.inr (.inl rfl)) hl h hm
  simp only [World.fn] at hfn
  simp only [direct, hp, Option.map_some, hmap, hfn]
  cases m
  · rfl
  · rfl
  · exact absurd rfl hm

theorem mil_of {m : Mil} (h : ¬ m = .proj) : m = .affine := by
  cases m
  · exact absurd rfl h
  · rfl

/-- **C108 fails** for types D, G and E: setting the method of one pairing of the type sets that of every
other pairing of the type that uses Miller's algorithm, and so does setting up another pairing. -/
theorem C108_shared_fails {ty : Ty} (ht : shares ty) {p : Pairing} (hp : w.pairings j = some p) (hty : p.ty = ty)
    (hij : i ≠ j) (hi : direct w i = some (routine ty .miller) ∨ direct w i = some (routine ty .millerAffine)) :
    direct (optionSet w j "method" "miller") i = some (routine ty .miller) ∧
    direct (optionSet w j "method" "miller-affine") i = some (routine ty .millerAffine) ∧
    direct (setUp w j ty) i = some (routine ty (first ty)) := by
  have hd : ∀ w' : World X, w'.pairings i = w.pairings i →
      direct w' i = some (routine ty (if w'.fn ty = .proj then .miller else .millerAffine)) := by
    intro w' hw
    unfold direct at hi ⊢
    rw [hw]
    cases hq : w.pairings i with
    | none => rw [hq] at hi; simp at hi
    | some q =>
      obtain ⟨qt, qm, qp⟩ := q
      rw [hq] at hi
      rcases ht with rfl | rfl | rfl <;> cases qm <;> simp [routine] at hi <;>
        simp only [Option.map_some, World.fn] <;> split_ifs with hw' <;> simp_all [routine] <;>
        exact mil_of hw'
  refine ⟨?_, ?_, ?_⟩
  · rw [hd _ (option_other hij.symm _ _), fn_option ht hp hty]
    rfl
  · rw [hd _ (option_other hij.symm _ _), fn_option ht hp hty]
    rfl
  · rw [hd _ (by simp [Function.update_of_ne hij]), fn_init ht]
    rcases ht with rfl | rfl | rfl <;> rfl

/-- **C108 fails** for type G in another way: once set to `shipsey-stange` a pairing keeps this method,
whatever is set afterwards. -/
theorem C108_typeG_sticks_fails {p : Pairing} (hp : w.pairings i = some p) (hty : p.ty = .g) {l : List (Op X)}
    (hl : ∀ ty, Op.init i ty ∉ l) :
    direct (run is0 (optionSet w i "method" "shipsey-stange") l) i = some (routine .g .shipseyStange) := by
  have key : ∃ q, (run is0 (optionSet w i "method" "shipsey-stange") l).pairings i = some q ∧
      q.ty = .g ∧ q.map = .gNet := by
    induction l using List.reverseRecOn with
    | nil => exact ⟨{ p with map := .gNet }, by simp [run, optionSet, hp, hty, optionG], hty, rfl⟩
    | append_singleton l o ih =>
      obtain ⟨q, hq, h1, h2⟩ := ih fun ty hm => hl ty (List.mem_append_left _ hm)
      rw [run_snoc]
      by_cases hon : o.on i
      swap
      · rw [step_other hon]; exact ⟨q, hq, h1, h2⟩
      cases o with
      | ppInit j i' x => exact hon.elim
      | init j ty =>
        obtain rfl : j = i := hon
        exact absurd (by simp) (hl ty)
      | option j k v =>
        obtain rfl : j = i := hon
        simp only [step]
        generalize run is0 (optionSet w j "method" "shipsey-stange") l = w' at hq
        simp only [optionSet, hq, h1, optionG]
        split_ifs
        · exact ⟨q, hq, h1, h2⟩
        · exact ⟨q, hq, h1, h2⟩
        · exact ⟨{ q with map := .gNet }, by simp [h1], h1, rfl⟩
        · exact ⟨q, hq, h1, h2⟩
        · exact ⟨q, hq, h1, h2⟩
  obtain ⟨q, hq, -, h2⟩ := key
  simp only [direct, hq, Option.map_some, h2, routine]

/-! ### What is computed: types A and A1 -/

section A

variable {K : Type*} [Field K] [DecidableEq K] [Fact (∀ r : K, r ^ 2 ≠ -1 + 0 * r)] [Fintype K]
variable {p : PairingA.Params} {r l : ℕ} {inv : K → K}

open PairingA (TypeA TypeA1 eA)

/-- **C108** for type A: whatever methods were set for whatever pairings, and in whatever order, a pairing of
type A computes the same function. -/
theorem C108_typeA (h : TypeA K p r inv) {prog : List (Op (Pt K))} {m : Method}
    (hi : intended prog i = some (.a, m)) {P Q : (EC (1 : K) 0).Point} {p' q' : Pt K} (hp : PtRep p' P)
    (hq : PtRep q' Q) (hP : r • P = 0) (hQ : r • Q = 0) :
    ∃ rt g, direct (run (·.inf) .empty prog) i = some rt ∧ alg (-1) g = eA r p.h P Q ∧
      PairingA.pairingApply (mapA inv p r rt) p' q' = some g := by
  obtain ⟨g, hg, e1, e2, -⟩ := (PairingA.C80_typeA h).2 P Q p' q' hp hq hP hQ
  obtain ⟨g', hg', -, e3, -⟩ := EllNet.C55_typeA h hp hq hP hQ
  refine ⟨_, g, C108_own_method hi (.inl rfl), hg, ?_⟩
  cases m
  · exact e1
  · exact e2
  · rw [← alg_inj (hg'.trans hg.symm)]; exact e3

/-- **C108** for type A1, partial: for points of order exactly `n`.

Missing: points of smaller order; for those the methods differ (`C108_typeA1_fails`). -/
theorem C108_typeA1_partial (h : TypeA1 K r l) (hinv : ∀ x : K, x ≠ 0 → inv x = x⁻¹) (h7 : 7 ≤ r)
    {prog : List (Op (Pt K))} {m : Method}
    (hi : intended prog i = some (.a1, m)) {P Q : (EC (1 : K) 0).Point} {p' q' : Pt K} (hp : PtRep p' P)
    (hq : PtRep q' Q) (hP : addOrderOf P = r) (hQ : r • Q = 0) :
    ∃ rt g, direct (run (·.inf) .empty prog) i = some rt ∧ alg (-1) g = eA r l P Q ∧
      PairingA.pairingApply (mapA1 inv r l rt) p' q' = some g := by
  obtain ⟨g, hg, e1, e2, -⟩ := PairingA.C81_full_order h hp hq hP hQ
  obtain ⟨g', hg', -, e3, -⟩ := EllNet.C55_typeA1_partial h hinv h7 hp hq hP hQ
  refine ⟨_, g, C108_own_method hi (.inr (.inl rfl)), hg, ?_⟩
  cases m
  · exact e1
  · exact e2
  · rw [← alg_inj (hg'.trans hg.symm)]; exact e3

/-- The preprocessing routines of a pairing of type A and an object: they stay those that made the object. -/
theorem pp_step {s : Method} {o : Op X} (hw : Rel (some (.a, s)) (w.pairings i)) (hinit : ∀ ty, o ≠ .init i ty)
    (hopt : ∀ m : Method, o = .option i "method" m.name → ppFor .a m = ppFor .a s) :
    ∃ s', Rel (some (.a, s')) ((step is0 w o).pairings i) ∧ ppFor .a s' = ppFor .a s := by
  have hr := rel_step (is0 := is0) hw o
  cases o with
  | ppInit j i' x => exact ⟨s, hr, rfl⟩
  | init j ty =>
    have : j ≠ i := fun e => hinit ty (by rw [e])
    simp only [effect, this, if_false] at hr
    exact ⟨s, hr, rfl⟩
  | option j k v =>
    simp only [effect] at hr
    split_ifs at hr with hj
    · obtain ⟨rfl, rfl⟩ := hj
      simp only [Option.map_some] at hr
      split_ifs at hr with h1 h2 h3
      · exact ⟨_, hr, hopt .miller (by rw [h1.1]; rfl)⟩
      · exact ⟨_, hr, hopt .millerAffine (by rw [h2.1]; rfl)⟩
      · exact ⟨_, hr, hopt .shipseyStange (by rw [h3.1]; rfl)⟩
      · exact ⟨_, hr, rfl⟩
    · exact ⟨s, hr, rfl⟩

theorem pps_step {o : Op X} (h : ∀ i x, o ≠ .ppInit j i x) : (step is0 w o).pps j = w.pps j := by
  cases o with
  | init i ty => cases ty <;> rfl
  | option i k v =>
    simp only [step, optionSet]
    split
    · rfl
    · split_ifs
      · split <;> simp only [optionA, optionA1, optionD, optionE, optionG] <;> split_ifs <;> rfl
      · rfl
  | ppInit j' i x =>
    have : j ≠ j' := fun e => h i x (by rw [e])
    simp only [step, ppInit]
    split
    · rfl
    · exact Function.update_of_ne this _ _

theorem ppFor_congr {m m' : Method} (h : m' = .shipseyStange ↔ m = .shipseyStange) :
    ppFor .a m' = ppFor .a m := by
  cases m' <;> cases m <;> simp_all [ppFor]

/-- **C108**, **C44** for type A, partial: an object preprocessed from `P` gives the pairing with `P`
whatever happens between, including all options of other pairings, as long as its own pairing is not set up
anew and its own method does not change between Miller's algorithm and `shipsey-stange`.

Missing: such changes; for them it is false (`C108_pp_fails`). -/
theorem C108_pp_partial (h : TypeA K p r inv) {prog prog' : List (Op (Pt K))} {m : Method}
    (hi : intended prog i = some (.a, m)) {P Q : (EC (1 : K) 0).Point} {p' q' : Pt K} (hp : PtRep p' P)
    (hq : PtRep q' Q) (hP : r • P = 0) (hQ : r • Q = 0)
    (hinit : ∀ ty, Op.init i ty ∉ prog') (hpp : ∀ i' x, Op.ppInit j i' x ∉ prog')
    (hopt : ∀ m' : Method, Op.option i "method" m'.name ∈ prog' →
      (m' = .shipseyStange ↔ m = .shipseyStange)) :
    ∃ o g, prepared (run (·.inf) .empty (prog ++ .ppInit j i p' :: prog')) j = some o ∧
      alg (-1) g = eA r p.h P Q ∧ ppA inv p r o q' = some g := by
  obtain ⟨g, hg, e1, -, e2⟩ := (PairingA.C80_typeA h).2 P Q p' q' hp hq hP hQ
  obtain ⟨g', hg', -, -, e3⟩ := EllNet.C55_typeA h hp hq hP hQ
  rw [alg_inj (hg'.trans hg.symm)] at e3
  obtain ⟨pr, hpr, hf⟩ := fits_run (is0 := fun x : Pt K => x.inf) hi
  obtain ⟨o, ho⟩ : ∃ o : PpObj (Pt K), o = if p'.inf then ⟨none, .dflt, p'⟩ else ⟨some i, pr.pp, p'⟩ := ⟨_, rfl⟩
  have key : (run (·.inf) .empty (prog ++ .ppInit j i p' :: prog')).pps j = some o ∧
      ∃ s', Rel (some (.a, s')) ((run (·.inf) .empty (prog ++ .ppInit j i p' :: prog')).pairings i) ∧
        ppFor .a s' = ppFor .a m := by
    induction prog' using List.reverseRecOn with
    | nil =>
      rw [run_snoc]
      refine ⟨?_, m, ?_, rfl⟩
      · simp only [step, ppInit, hpr, Function.update_self, ho]
      · rw [step, ppInit_pairings, hpr]; exact hf
    | append_singleton l op ih =>
      obtain ⟨h1, s', h2, h3⟩ := ih (fun ty hm => hinit ty (List.mem_append_left _ hm))
        (fun i' x hm => hpp i' x (List.mem_append_left _ hm)) fun m' hm => hopt m' (List.mem_append_left _ hm)
      have e : prog ++ .ppInit j i p' :: (l ++ [op]) = (prog ++ .ppInit j i p' :: l) ++ [op] := by simp
      rw [e, run_snoc]
      refine ⟨?_, ?_⟩
      · rw [pps_step fun i' x e => hpp i' x (by rw [e]; simp)]; exact h1
      · obtain ⟨s'', h4, h5⟩ := pp_step (is0 := fun x : Pt K => x.inf) (o := op) h2
          (fun ty e => hinit ty (by rw [e]; simp)) (fun m' e => by
            rw [h3]
            exact ppFor_congr (hopt m' (by rw [e]; simp)))
        exact ⟨s'', h4, h5.trans h3⟩
  obtain ⟨h1, s', h2, h3⟩ := key
  refine ⟨o, g, ?_, hg, ?_⟩
  · unfold prepared
    rw [h1]
    dsimp only
    by_cases hinf : p'.inf = true
    · rw [if_pos hinf] at ho; subst ho; rfl
    · rw [if_neg hinf] at ho; subst ho
      dsimp only
      cases hq : (run (·.inf) World.empty (prog ++ Op.ppInit j i p' :: prog')).pairings i with
      | none => rw [hq] at h2; exact h2.elim
      | some q =>
        rw [hq] at h2
        dsimp only
        rw [if_pos]
        rw [h2.pp, hf.pp]
        exact h3
  · by_cases hinf : p'.inf = true
    · rw [if_pos hinf] at ho; subst ho
      rw [ppA, ← e1, PairingA.pairingApply, if_pos hinf]
    · rw [if_neg hinf] at ho; subst ho
      have hm : pr.pp = ppFor .a m := hf.pp
      simp only [ppA, hm]
      cases m
      · exact e2
      · exact e2
      · exact e3

end A

/-- **C108 fails** for preprocessed data: if the method of a pairing of type A or A1 is changed between Miller's
algorithm and `shipsey-stange` while an object made before is still in use, `pairing_pp_apply` (and
`pairing_pp_clear`) read its data as those of the other method. -/
theorem C108_pp_fails {x : X} (hx : is0 x = false) {ty : Ty} (ht : ty = .a ∨ ty = .a1) {m m' : Method}
    {prog : List (Op X)} (hi : intended prog i = some (ty, m))
    (hm : ¬ (m = .shipseyStange ↔ m' = .shipseyStange)) :
    prepared (run is0 .empty (prog ++ [.ppInit j i x, .option i "method" m'.name])) j = none := by
  obtain ⟨pr, hpr, hf⟩ := fits_run (is0 := is0) hi
  have e : prog ++ [.ppInit j i x, .option i "method" m'.name] =
      (prog ++ [.ppInit j i x]) ++ [.option i "method" m'.name] := by simp
  have hi' : intended (prog ++ [.ppInit j i x, .option i "method" m'.name]) i = some (ty, m') := by
    rw [e, intended_snoc, intended_snoc]
    simp only [effect, hi, and_self, if_true, Option.map_some]
    rcases ht with rfl | rfl <;> cases m' <;> rfl
  obtain ⟨q, hq, hf'⟩ := fits_run (is0 := is0) hi'
  have hpps : (run is0 .empty (prog ++ [.ppInit j i x, .option i "method" m'.name])).pps j =
      some ⟨some i, pr.pp, x⟩ := by
    rw [e, run_snoc, pps_step (by simp), run_snoc]
    simp [step, ppInit, hpr, hx]
  unfold prepared
  rw [hpps]
  dsimp only
  rw [hq]
  dsimp only
  rw [if_neg]
  rw [hf'.pp, hf.pp]
  rcases ht with rfl | rfl <;> cases m <;> cases m' <;> simp_all [ppFor]

/-! ### What is computed: types D and G -/

/-- An object made for a pairing of type D or G stays usable whatever methods are set afterwards. -/
theorem prepared_DG {ty : Ty} (ht : ty = .d ∨ ty = .g) {prog prog' : List (Op X)} {m : Method}
    (hi : intended prog i = some (ty, m)) {x : X} (hx : is0 x = false)
    (hinit : ∀ ty, Op.init i ty ∉ prog') (hpp : ∀ i' x, Op.ppInit j i' x ∉ prog') :
    prepared (run is0 .empty (prog ++ .ppInit j i x :: prog')) j = some ⟨some i, ppFor ty m, x⟩ := by
  have key : (run is0 .empty (prog ++ .ppInit j i x :: prog')).pps j = some ⟨some i, ppFor ty m, x⟩ ∧
      ∃ m', intended (prog ++ .ppInit j i x :: prog') i = some (ty, m') := by
    induction prog' using List.reverseRecOn with
    | nil =>
      obtain ⟨pr, hpr, hf⟩ := fits_run (is0 := is0) hi
      rw [run_snoc, intended_snoc]
      have : pr.pp = ppFor ty m := hf.pp
      exact ⟨by simp [step, ppInit, hpr, hx, this], m, hi⟩
    | append_singleton l op ih =>
      obtain ⟨h1, m', h2⟩ := ih (fun ty hm => hinit ty (List.mem_append_left _ hm))
        (fun i' x hm => hpp i' x (List.mem_append_left _ hm))
      have e : prog ++ .ppInit j i x :: (l ++ [op]) = (prog ++ .ppInit j i x :: l) ++ [op] := by simp
      rw [e, run_snoc, intended_snoc, h2]
      refine ⟨?_, ?_⟩
      · rw [pps_step fun i' x e => hpp i' x (by rw [e]; simp)]; exact h1
      · cases op with
        | ppInit j' i' x => exact ⟨_, rfl⟩
        | init j' ty' =>
          have : j' ≠ i := fun e => hinit ty' (by rw [e]; simp)
          simp [effect, this]
        | option j' k v =>
          simp only [effect, Option.map_some]
          split_ifs <;> exact ⟨_, rfl⟩
  obtain ⟨h1, m', h2⟩ := key
  obtain ⟨pr, hpr, hf⟩ := fits_run (is0 := is0) h2
  unfold prepared
  rw [h1]
  dsimp only
  rw [hpr]
  dsimp only
  rw [if_pos]
  rw [hf.pp]
  rcases ht with rfl | rfl <;> rfl

section D

variable {F K : Type*} [Field F] [DecidableEq F] [Fintype F] [Field K] [DecidableEq K] [Fintype K] [Algebra F K]

/-- **C108** for preprocessed data of types D and G: they give the affine routine's value, whatever methods
were and are set for whatever pairings; `final` is the final powering of the type. -/
theorem C108_pp_typeD (p : PairingD.Data F K) (final : PairingD.Data F K → El K → Option (El K)) {ty : Ty}
    (ht : ty = .d ∨ ty = .g) {prog prog' : List (Op (Pt F))} {m : Method} (hi : intended prog i = some (ty, m))
    {P : Pt F} (hP : P.inf = false) (Q : Pt K) {t : List (PairingA.Abc F)} (hppt : PairingD.ppInit p P = some t)
    (hinit : ∀ ty, Op.init i ty ∉ prog') (hpp : ∀ i' x, Op.ppInit j i' x ∉ prog') :
    ∃ o, prepared (run (·.inf) .empty (prog ++ .ppInit j i P :: prog')) j = some o ∧
      ppDG p final o Q = PairingD.apply (PairingD.pairing p PairingD.millerAffine final) P Q := by
  refine ⟨_, prepared_DG ht hi hP hinit hpp, ?_⟩
  have e : PairingD.applyInit (PairingD.ppInit p) P = some (some t) := by
    rw [PairingD.applyInit, if_neg (by simp [hP]), hppt]; rfl
  rw [← PairingD.C44_typeD p final P Q e]
  have h : ppFor ty m = .d ∨ ppFor ty m = .g := by rcases ht with rfl | rfl <;> simp [ppFor]
  unfold ppDG
  dsimp only
  rcases h with h | h <;> rw [h] <;> dsimp only <;> rw [e] <;> rfl

end D

/-- **C108 fails** for type D, seen in the values: pairing 0 was never told to use another method than the
default, pairing 1 was set to `miller`; now pairing 0 computes something that is not the pairing. -/
theorem C108_typeD_fails : ∃ prog : List (Op (Pt (ZMod 43))),
    intended prog 0 = some (.d, .millerAffine) ∧ (∀ k v, Op.option 0 k v ∉ prog) ∧
    direct (run (·.inf) .empty prog) 0 = some (.d .proj) ∧
    PairingD.apply (mapD PairingD.D43 (.d .proj)) ⟨false, 10, 1⟩ ⟨false, 3, 1⟩ = some ⟨18, 21⟩ ∧
    PairingD.apply (mapD PairingD.D43 (routine .d .millerAffine)) ⟨false, 10, 1⟩ ⟨false, 3, 1⟩ =
      some ⟨26, 12⟩ :=
  ⟨[.init 0 .d, .init 1 .d, .option 1 "method" "miller"], by decide, by simp, by decide,
    PairingD.C46_typeD_fails.2.2.2.2.2.1, PairingD.C46_typeD_fails.2.2.2.2.2.2⟩

section G

variable {F K : Type*} [Field F] [DecidableEq F] [Fintype F] [Field K] [DecidableEq K] [Fintype K]
  [Algebra F K] {E : PairingD.Ext F K} {ξ : K} {q r : ℕ} {a b v0 : F}
  [Fact (∀ s : K, s ^ 2 ≠ algebraMap F K v0 + 0 * s)]
  {P : (EC a b).Point} {Q : (EC (algebraMap F K v0 ^ 2 * algebraMap F K a)
    (algebraMap F K v0 ^ 3 * algebraMap F K b)).Point} {p' : Pt F} {q' : Pt K}

/-- **C108** for type G: a pairing set to `shipsey-stange` is out of reach of the shared variable: whatever is
done afterwards it does what Miller's algorithm in affine coordinates does. -/
theorem C108_typeG_net (h : PairingD.TypeG E ξ q r) (h7 : 7 ≤ r) {p : PairingD.Data F K}
    (hi : PairingD.initG E q r a b v0 = some p) (hp : PtRep p' P) (hq : PtRep q' Q) (hr : r • P = 0)
    {w : World (Pt F)} {pr : Pairing} (hpr : w.pairings i = some pr) (hty : pr.ty = .g) {l : List (Op (Pt F))}
    (hl : ∀ ty, Op.init i ty ∉ l) :
    ∃ rt, direct (run (·.inf) (optionSet w i "method" "shipsey-stange") l) i = some rt ∧
      PairingD.apply (mapG p rt) p' q' =
        PairingD.apply (PairingD.pairing p PairingD.millerAffine PairingD.tatepowerG) p' q' :=
  ⟨_, C108_typeG_sticks_fails hpr hty hl, EllNet.C55_typeG h h7 hi hp hq hr⟩

end G

/-! ### What is computed: type E -/

section E

open Spec (TypeE GoodShift)

variable {K : Type*} [Field K] [DecidableEq K] [Fintype K] {q r exp2 exp1 : ℕ} {sign1 sign0 : ℤ} {a b : K}
  {R P Q : (EC a b).Point} {R' p' q' : Pt K}

/-- **C108** for type E, partial: although the Miller routine is shared, every pairing of type E computes the
same function after every program, unless the second argument is the first, its negative or its double.

Missing: those three second arguments; for them the elliptic net method fails (`C55_typeE_fails`). -/
theorem C108_typeE_partial (h : TypeE K q r exp2 exp1 sign1 sign0) (hR : GoodShift r R) (hR' : PtRep R' R)
    {prog : List (Op (Pt K))} {m : Method} (hi : intended prog i = some (.e, m)) (hP : r • P = 0)
    (hQ : r • Q = 0) (hPQ : P ≠ 0 → Q ≠ P ∧ Q ≠ -P ∧ Q ≠ P + P) (hp : PtRep p' P) (hq : PtRep q' Q) :
    ∃ rt, direct (run (·.inf) .empty prog) i = some rt ∧
      PairingF.apply (mapE b r (PairingE.init q r a exp2 exp1 sign1 sign0 R') rt) p' q' =
        some (PairingE.eE q r R P Q) := by
  obtain ⟨pr, hpr, hf⟩ := fits_run (is0 := fun x : Pt K => x.inf) hi
  have hm := hf.map (by simp)
  have hv := (PairingE.C93_typeE h hR hR').2
  have hM : ∀ fn : Mil, PairingF.apply (mapE b r (PairingE.init q r a exp2 exp1 sign1 sign0 R') (.e fn)) p' q' =
      some (PairingE.eE q r R P Q) := by
    intro fn
    cases fn
    · exact hv _ (.inr rfl) P Q p' q' hp hq hP hQ
    · exact hv _ (.inl rfl) P Q p' q' hp hq hP hQ
  simp only [direct, hpr, Option.map_some, hm]
  cases m
  · exact ⟨_, rfl, hM _⟩
  · exact ⟨_, rfl, hM _⟩
  · refine ⟨_, rfl, ?_⟩
    exact (EllNet.C55_typeE_partial h hR hR' (R₁ := R') (.inr rfl) hP hQ hPQ hp hq).trans
      (hv _ (.inr rfl) P Q p' q' hp hq hP hQ)

end E

/-! ### Instances -/

/-- **C108 fails** for type A1 and points of smaller order: the method set decides what comes out.  With the
default the pairing of `5 G` and `G` is not computed at all, with `miller-affine` it is wrong, with
`shipsey-stange` it is right. -/
theorem C108_typeA1_fails : ∃ s : Pt (ZMod 59), PtRep s (5 • PairingA.G59) ∧
    PairingA.pairingApply (mapA1 (·⁻¹) 15 4 (routine .a1 .miller)) s ⟨false, 4, 3⟩ = none ∧
    PairingA.pairingApply (mapA1 (·⁻¹) 15 4 (routine .a1 .millerAffine)) s ⟨false, 4, 3⟩ = some ⟨46, 3⟩ ∧
    PairingA.pairingApply (mapA1 (·⁻¹) 15 4 (routine .a1 .shipseyStange)) s ⟨false, 4, 3⟩ = some ⟨29, 35⟩ ∧
    alg (-1) ⟨29, 35⟩ = PairingA.eA 15 4 (5 • PairingA.G59) PairingA.G59 := by
  have hr : 15 • PairingA.G59 = 0 := PairingA.G59_order ▸ addOrderOf_nsmul_eq_zero PairingA.G59
  obtain ⟨s, e, hs⟩ := Curve.pow_rep (ca := (1 : ZMod 59)) (cb := 0) (by decide) PairingA.G59_rep 5
  have e' : (Gen.powMpz (⟨some ⟨false, 4, 3⟩⟩ : Curve.GPt (ZMod 59) 1) 5).bind (·.val) =
      some ⟨false, 12, 41⟩ := by decide +kernel
  rw [e'] at e
  obtain rfl := Option.some.inj e
  refine ⟨_, hs, by decide +kernel, by decide +kernel, by decide +kernel, ?_⟩
  rw [(PairingA.eA_bilinear PairingA.typeA59.odd PairingA.typeA59.cof).nsmul_left (by decide) hr hr 5, PairingA.eA59]
  obtain ⟨g, eg, hg⟩ := PairingA.alg_pow2 (⟨22, 44⟩ : El (ZMod 59)) 5
  have e2 : PairingA.pow2 (⟨22, 44⟩ : El (ZMod 59)) 5 = some ⟨29, 35⟩ := by decide +kernel
  rw [e2] at eg
  rw [← hg, ← Option.some.inj eg]

example := C108_typeA1_partial (i := 1) PairingA.typeA59 (inv := (·⁻¹)) (fun _ _ => rfl) (by decide)
  (prog := [.init 1 .a1, .init 0 .a, .option 1 "method" "shipsey-stange", .option 0 "method" "miller-affine"])
  (m := .shipseyStange) (by decide) PairingA.G59_rep PairingA.G59_rep PairingA.G59_order
  (PairingA.G59_order ▸ addOrderOf_nsmul_eq_zero _)

example := C108_shared_fails (X := Unit) (i := 0) (j := 1) (ty := .e)
  (w := run (fun _ => false) .empty [.init 0 .e, .init 1 .e, .option 0 "method" "miller-affine"])
  (p := ⟨.e, .eMiller, .dflt⟩) (.inr (.inr rfl)) rfl rfl (by decide) (.inr (by decide))

example := C108_typeG_sticks_fails (X := Unit) (is0 := fun _ => false) (i := 0)
  (w := run (fun _ => false) .empty [.init 0 .g]) (p := ⟨.g, .gCc, .g⟩) rfl rfl
  (l := [.option 0 "method" "miller"]) (by simp)

/-- Preprocessed data of type D while the shared variable points to the projective routine. -/
example := C108_pp_typeD (i := 0) (j := 3) PairingD.D43 PairingD.tatepowerD (ty := .d) (.inl rfl)
  (prog := [.init 0 .d]) (prog' := [.init 1 .d, .option 1 "method" "miller"]) (m := .millerAffine) (by decide)
  (P := ⟨false, 10, 1⟩) rfl ⟨false, 3, 1⟩ (t := _) (Option.eq_some_of_isSome (by decide +kernel)) (by simp) (by simp)

/-- A program with three pairings: the spec sees their own methods. -/
example : intended (X := Unit) [.init 0 .a, .init 1 .a, .init 2 .d, .option 0 "method" "shipsey-stange",
      .option 1 "method" "miller-affine", .option 0 "colour" "red", .option 2 "method" "shipsey-stange"] 0 =
      some (.a, .shipseyStange) ∧
    direct (run (X := Unit) (fun _ => false) .empty [.init 0 .a, .init 1 .a, .init 2 .d,
      .option 0 "method" "shipsey-stange", .option 1 "method" "miller-affine", .option 0 "colour" "red",
      .option 2 "method" "shipsey-stange"]) 0 = some (.map .aNet) := by decide

example := C108_typeA (i := 1) PairingA.typeA43
  (prog := [.init 1 .a, .init 0 .a, .option 1 "method" "shipsey-stange", .option 0 "method" "miller-affine"])
  (m := .shipseyStange) (by decide) PairingA.P43_rep PairingA.Q43_rep PairingA.P43_order PairingA.Q43_order

example := C108_pp_partial (i := 1) (j := 5) PairingA.typeA43
  (prog := [.init 1 .a, .init 0 .a]) (prog' := [.option 0 "method" "shipsey-stange", .option 1 "method" "miller-affine"])
  (m := .miller) (by decide) PairingA.P43_rep PairingA.Q43_rep PairingA.P43_order PairingA.Q43_order
  (by simp) (by simp) (by intro m'; cases m' <;> simp [Method.name])

example : prepared (run (fun x : ℕ => x == 0) .empty
    [.init 0 .a, .ppInit 7 0 3, .option 0 "method" "shipsey-stange"]) 7 = none :=
  C108_pp_fails (m := .miller) (m' := .shipseyStange) (prog := [.init 0 .a]) rfl (.inl rfl) (by decide) (by simp)

example := C108_single_partial (X := Unit) (is0 := fun _ => false) (i := 0) (ty := .d) (m := .miller)
  (l := [.init 0 .d, .init 1 .g, .option 0 "method" "miller", .option 1 "method" "miller-affine"])
  (by decide) (.inl rfl) (by simp)

example := C108_typeG_single_partial (X := Unit) (is0 := fun _ => false) (i := 0) (m := .miller)
  (l := [.init 0 .g, .init 1 .d, .option 0 "method" "miller"]) (by decide) (by simp) (by simp)

/-- Type E, set to `shipsey-stange`. -/
example := C108_typeE_partial (i := 0) EllNet.type127 EllNet.good127 EllNet.R127_rep
  (prog := [.init 0 .e, .option 0 "method" "shipsey-stange", .init 1 .e]) (m := .shipseyStange) (by decide)
  EllNet.P127_order EllNet.Q127_order (EllNet.ne127 EllNet.off127) EllNet.P127_rep EllNet.Q127_rep

/-- Type G: the hypotheses of `C108_typeG_net` on the pairing are those of `C55_typeG`, met in its example;
those on the state are met here. -/
example : ∃ pr, (run (X := Unit) (fun _ => false) .empty [.init 0 .g, .init 1 .g]).pairings 0 = some pr ∧
    pr.ty = .g := ⟨_, rfl, rfl⟩

end Pbc.Options
