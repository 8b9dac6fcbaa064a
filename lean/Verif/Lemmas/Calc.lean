import Verif.Spec.Calc
import Mathlib.Tactic.Linarith

/-!
# Lemmas on the evaluation of calculator programs: values in the heap and values of the specification
-/

set_option autoImplicit false

namespace Pbc.Calc

variable {Fd V : Type*}

/-- The same outcome, with related results. -/
inductive ResRel {α β : Type*} (P : α → β → Prop) : Res Fd V α → Res Fd V β → Prop
  | ok {a : α} {b : β} : P a b → ResRel P (.ok a) (.ok b)
  | halt {o : List (Printed Fd V)} {f : Bool} : ResRel P (.halt o f) (.halt o f)
  | ub : ResRel P .ub .ub
  | deep : ResRel P .deep .deep

theorem ResRel.bind {α β γ δ : Type*} {P : α → β → Prop} {Q : γ → δ → Prop} {r : Res Fd V α} {r' : Res Fd V β}
    {f : α → Res Fd V γ} {f' : β → Res Fd V δ} (h : ResRel P r r') (hf : ∀ a b, P a b → ResRel Q (f a) (f' b)) :
    ResRel Q (r.bind f) (r'.bind f') := by
  cases h with
  | ok h => exact hf _ _ h
  | halt => exact .halt
  | ub => exact .ub
  | deep => exact .deep

theorem ResRel.mono {α β : Type*} {P Q : α → β → Prop} {r : Res Fd V α} {r' : Res Fd V β} (h : ResRel P r r')
    (hPQ : ∀ a b, P a b → Q a b) : ResRel Q r r' := by
  cases h with
  | ok h => exact .ok (hPQ _ _ h)
  | halt => exact .halt
  | ub => exact .ub
  | deep => exact .deep

/-- The state holds the environment. -/
structure Rel (s : State Fd V) (g : Spec.Calc.Env Fd V) : Prop where
  rng : s.rng = g.rng
  out : s.out = g.out
  valid : ∀ x p, s.tab x = some p → p < s.heap.length
  vars : ∀ x, g.vars x = (s.tab x).bind fun p => s.heap[p]?
  clean : ∀ (p : ℕ) f ps b, s.heap[p]? = some (.defn f ps b) → ∀ a ∈ b, Spec.Calc.Clean a

/-- What an evaluation leaves alone. -/
structure Frame (s s' : State Fd V) : Prop where
  len : s.heap.length ≤ s'.heap.length
  old : ∀ p, p < s.heap.length → s'.heap[p]? = s.heap[p]?
  tab : ∀ x p, s'.tab x = some p → p < s.heap.length → ∃ y, s.tab y = some p

theorem Frame.refl (s : State Fd V) : Frame s s := ⟨le_refl _, fun _ _ => rfl, fun x _ h _ => ⟨x, h⟩⟩

theorem Frame.trans {s s' s'' : State Fd V} (h : Frame s s') (h' : Frame s' s'') : Frame s s'' := by
  refine ⟨h.len.trans h'.len, fun p hp => ?_, fun x p hx hp => ?_⟩
  · rw [h'.old p (hp.trans_le h.len), h.old p hp]
  · obtain ⟨y, hy⟩ := h'.tab x p hx (hp.trans_le h.len)
    exact h.tab y p hy hp

/-- The pointer is not used by anything else. -/
def Own (s0 s : State Fd V) (q : ℕ) : Prop := s0.heap.length ≤ q ∧ ∀ x, s.tab x ≠ some q

theorem Own.later {s0 s s' : State Fd V} {q : ℕ} (h : Own s0 s q) (hf : Frame s s') (hq : q < s.heap.length) :
    Own s0 s' q := by
  refine ⟨h.1, fun x hx => ?_⟩
  obtain ⟨y, hy⟩ := hf.tab x q hx hq
  exact h.2 y hy

/-- What holds of the result of an evaluation; `fr`: elements are new. -/
structure Post (s0 : State Fd V) (fr : Prop) (a : State Fd V × Option ℕ) (b : Spec.Calc.Env Fd V × Option (Val Fd V)) :
    Prop where
  rel : Rel a.1 b.1
  frame : Frame s0 a.1
  val : b.2 = a.2.bind fun q => a.1.heap[q]?
  ptr : ∀ q, a.2 = some q → q < a.1.heap.length ∧ (s0.heap.length ≤ q ∨ ∃ y, s0.tab y = some q)
  own : fr → ∀ q v, a.2 = some q → a.1.heap[q]? = some (.elem v) → Own s0 a.1 q

theorem Post.trans {s0 s : State Fd V} {fr : Prop} {a : State Fd V × Option ℕ}
    {b : Spec.Calc.Env Fd V × Option (Val Fd V)} (hf : Frame s0 s) (h : Post s fr a b) : Post s0 fr a b := by
  refine ⟨h.rel, hf.trans h.frame, h.val, fun q hq => ?_, fun hfr q v hq hv => ?_⟩
  · obtain ⟨h1, h2⟩ := h.ptr q hq
    refine ⟨h1, ?_⟩
    rcases h2 with h2 | ⟨y, hy⟩
    · exact .inl (hf.len.trans h2)
    · rcases Nat.lt_or_ge q s0.heap.length with hlt | hge
      · exact .inr (hf.tab y q hy hlt)
      · exact .inl hge
  · obtain ⟨h1, h2⟩ := h.own hfr q v hq hv
    exact ⟨hf.len.trans h1, h2⟩

theorem Rel.alloc {s : State Fd V} {g : Spec.Calc.Env Fd V} (h : Rel s g) (v : Val Fd V)
    (hv : ∀ f ps b, v = .defn f ps b → ∀ a ∈ b, Spec.Calc.Clean a) :
    Rel { s with heap := s.heap ++ [v] } g := by
  refine ⟨h.rng, h.out, fun x p hp => ?_, fun x => ?_, fun p f ps b hp => ?_⟩
  · have := h.valid x p hp
    simp only [List.length_append, List.length_cons, List.length_nil]
    omega
  · rw [h.vars]
    rcases hx : s.tab x with _ | p
    · rfl
    · have := h.valid x p hx
      simp only [Option.bind_some]
      rw [List.getElem?_append_left this]
  · rcases Nat.lt_or_ge p s.heap.length with hlt | hge
    · simp only [List.getElem?_append_left hlt] at hp
      exact h.clean p f ps b hp
    · simp only [List.getElem?_append_right hge] at hp
      rcases hpp : p - s.heap.length with _ | k
      · rw [hpp] at hp
        simp only [List.getElem?_cons_zero, Option.some.injEq] at hp
        exact hv f ps b hp
      · rw [hpp] at hp
        simp at hp

theorem Frame.alloc (s : State Fd V) (v : Val Fd V) : Frame s { s with heap := s.heap ++ [v] } := by
  refine ⟨by simp, fun p hp => ?_, fun x p hx _ => ⟨x, hx⟩⟩
  simp only [List.getElem?_append_left hp]

theorem post_alloc {s0 s : State Fd V} {g : Spec.Calc.Env Fd V} (h : Rel s g) (hf : Frame s0 s) (v : Val Fd V)
    (hv : ∀ f ps b, v = .defn f ps b → ∀ a ∈ b, Spec.Calc.Clean a) (fr : Prop) :
    ResRel (Post s0 fr) (s.alloc v) (.ok (g, some v)) := by
  refine .ok ⟨h.alloc v hv, hf.trans (Frame.alloc s v), ?_, ?_, ?_⟩
  · simp
  · rintro q ⟨⟩
    exact ⟨by simp, .inl hf.len⟩
  · rintro - q w ⟨⟩ -
    refine ⟨hf.len, fun x hx => ?_⟩
    have := h.valid x _ hx
    omega

/-- A change of an element that nothing else uses. -/
theorem post_write {s0 s : State Fd V} {g : Spec.Calc.Env Fd V} (h : Rel s g) (hf : Frame s0 s) {q : ℕ}
    (ho : Own s0 s q) (hq : q < s.heap.length) (z : V) (fr : Prop) :
    Post s0 fr (s.write q (.elem z), some q) (g, some (.elem z)) := by
  have hget : ∀ p, p ≠ q → (s.heap.set q (.elem z))[p]? = s.heap[p]? := by
    intro p hp
    rw [List.getElem?_set_ne (Ne.symm hp)]
  have hself : (s.heap.set q (Val.elem z : Val Fd V))[q]? = some (.elem z) := by
    rw [List.getElem?_set_self hq]
  refine ⟨⟨h.rng, h.out, fun x p hp => ?_, fun x => ?_, fun p f ps b hp => ?_⟩, ⟨?_, fun p hp => ?_, ?_⟩, ?_, ?_, ?_⟩
  · have := h.valid x p hp
    simpa [State.write] using this
  · rw [h.vars]
    rcases hx : s.tab x with _ | p
    · simp [State.write, hx]
    · have : p ≠ q := by
        rintro rfl
        exact ho.2 x hx
      simp only [State.write, hx, Option.bind_some]
      rw [hget p this]
  · by_cases hpq : p = q
    · subst hpq
      simp only [State.write] at hp
      rw [hself] at hp
      simp at hp
    · simp only [State.write] at hp
      rw [hget p hpq] at hp
      exact h.clean p f ps b hp
  · simpa [State.write] using hf.len
  · have : p ≠ q := by
      have := ho.1
      omega
    simp only [State.write]
    rw [hget p this]
    exact hf.old p hp
  · exact hf.tab
  · simp only [State.write, Option.bind_some]
    rw [hself]
  · rintro p ⟨⟩
    exact ⟨by simpa [State.write] using hq, .inl ho.1⟩
  · rintro - p v ⟨⟩ -
    exact ho

theorem Rel.put {s : State Fd V} {g : Spec.Calc.Env Fd V} (h : Rel s g) (x : String) (r : Option ℕ)
    (v : Option (Val Fd V)) (hv : v = r.bind fun q => s.heap[q]?) (hr : ∀ q, r = some q → q < s.heap.length) :
    Rel (s.put x r) (g.set x v) := by
  refine ⟨h.rng, h.out, fun y p hp => ?_, fun y => ?_, h.clean⟩
  · simp only [State.put] at hp ⊢
    split at hp
    · exact hr p hp
    · exact h.valid y p hp
  · simp only [State.put, Spec.Calc.Env.set]
    split
    · exact hv
    · exact h.vars y

theorem Frame.put {s0 s : State Fd V} (h : Frame s0 s) (x : String) (r : Option ℕ)
    (hr : ∀ q, r = some q → s0.heap.length ≤ q ∨ ∃ y, s0.tab y = some q) : Frame s0 (s.put x r) := by
  refine ⟨h.len, h.old, fun y p hp hlt => ?_⟩
  simp only [State.put] at hp
  split at hp
  · rcases hr p hp with h1 | h1
    · omega
    · exact h1
  · exact h.tab y p hp hlt

theorem rel_assignField {s : State Fd V} {g : Spec.Calc.Env Fd V} (h : Rel s g) (f : Fd) (x : String) :
    Rel (s.assignField f x) (g.set x (some (.field f))) := by
  have := (h.alloc (.field f) (by simp)).put x (some s.heap.length) (some (.field f)) (by simp)
    (by rintro q ⟨⟩; simp)
  exact this

theorem frame_assignField (s : State Fd V) (f : Fd) (x : String) : Frame s (s.assignField f x) :=
  (Frame.alloc s (.field f)).put x (some s.heap.length) (by rintro q ⟨⟩; exact .inl (le_refl _))

theorem rel_initPairing (o : Ops Fd V) {s : State Fd V} {g : Spec.Calc.Env Fd V} (h : Rel s g) (t : PType) :
    Rel (s.initPairing o t) (g.setGroups o t) := by
  have := rel_assignField (rel_assignField (rel_assignField (rel_assignField h (o.groups t).1 "G1")
    (o.groups t).2.1 "G2") (o.groups t).2.2.1 "GT") (o.groups t).2.2.2 "Zr"
  exact this

theorem frame_initPairing (o : Ops Fd V) (s : State Fd V) (t : PType) : Frame s (s.initPairing o t) :=
  (frame_assignField s (o.groups t).1 "G1").trans ((frame_assignField _ (o.groups t).2.1 "G2").trans
    ((frame_assignField _ (o.groups t).2.2.1 "GT").trans (frame_assignField _ (o.groups t).2.2.2 "Zr")))

/-! ### Built-in functions -/

/-- A pointer and its value. -/
structure Arg (s0 s : State Fd V) (q : ℕ) (v : Val Fd V) : Prop where
  get : s.heap[q]? = some v
  own : ∀ w, v = .elem w → Own s0 s q
  ptr : s0.heap.length ≤ q ∨ ∃ y, s0.tab y = some q

theorem Arg.lt {s0 s : State Fd V} {q : ℕ} {v : Val Fd V} (h : Arg s0 s q v) : q < s.heap.length := by
  have := h.get
  rw [List.getElem?_eq_some_iff] at this
  exact this.1

theorem Arg.later {s0 s s' : State Fd V} {q : ℕ} {v : Val Fd V} (h : Arg s0 s q v) (hf : Frame s s') : Arg s0 s' q v :=
  ⟨by rw [hf.old q h.lt, h.get], fun w hw => (h.own w hw).later hf h.lt, h.ptr⟩

theorem Arg.post {s0 s : State Fd V} {q : ℕ} {v : Val Fd V} {g : Spec.Calc.Env Fd V} (h : Arg s0 s q v) (hr : Rel s g)
    (hf : Frame s0 s) (fr : Prop) : Post s0 fr (s, some q) (g, some v) := by
  refine ⟨hr, hf, by simp [h.get], ?_, ?_⟩
  · rintro p ⟨⟩
    exact ⟨h.lt, h.ptr⟩
  · rintro - p w ⟨⟩ hw
    rw [h.get] at hw
    exact h.own w (Option.some.inj hw)

theorem Arg.of_post {s0 : State Fd V} {a : State Fd V × Option ℕ} {b : Spec.Calc.Env Fd V × Option (Val Fd V)}
    {q : ℕ} (h : Post s0 True a b) (hq : a.2 = some q) : ∃ v, b.2 = some v ∧ Arg s0 a.1 q v := by
  obtain ⟨hlt, hp⟩ := h.ptr q hq
  refine ⟨a.1.heap[q], ?_, ⟨by rw [List.getElem?_eq_getElem hlt], fun w hw => ?_, hp⟩⟩
  · rw [h.val, hq, Option.bind_some, List.getElem?_eq_getElem hlt]
  · exact h.own trivial q w hq (by rw [List.getElem?_eq_getElem hlt, hw])

theorem Arg.elem {s0 s : State Fd V} {q : ℕ} {w : V} (h : Arg s0 s q (.elem w)) : s.elem q = some w := by
  unfold State.elem
  rw [h.get]

theorem Arg.not_elem {s0 s : State Fd V} {q : ℕ} {v : Val Fd V} (h : Arg s0 s q v) (hv : ∀ w, v ≠ .elem w) :
    s.elem q = none := by
  unfold State.elem
  rw [h.get]
  cases v with
  | elem w => exact absurd rfl (hv w)
  | _ => rfl

theorem Arg.field {s0 s : State Fd V} {q : ℕ} {f : Fd} (h : Arg s0 s q (.field f)) : s.field q = some f := by
  unfold State.field
  rw [h.get]

theorem Arg.not_field {s0 s : State Fd V} {q : ℕ} {v : Val Fd V} (h : Arg s0 s q v) (hv : ∀ f, v ≠ .field f) :
    s.field q = none := by
  unfold State.field
  rw [h.get]
  cases v with
  | field f => exact absurd rfl (hv f)
  | _ => rfl

theorem sim_write {s0 s : State Fd V} {g : Spec.Calc.Env Fd V} (hr : Rel s g) (hf : Frame s0 s) {q : ℕ} {w : V}
    (h : Arg s0 s q (.elem w)) (z : Option V) (fr : Prop) :
    ResRel (Post s0 fr) (orUb z fun z => .ok (s.write q (.elem z), some q)) (Spec.Calc.value g (z.map .elem)) := by
  rcases z with _ | z
  · exact .ub
  · exact .ok (post_write hr hf (h.own w rfl) h.lt z fr)

theorem sim_alloc {α : Type*} {s0 s : State Fd V} {g : Spec.Calc.Env Fd V} (hr : Rel s g) (hf : Frame s0 s)
    (c : α → Val Fd V) (hc : ∀ z f ps b, c z ≠ .defn f ps b) (z : Option α) (fr : Prop) :
    ResRel (Post s0 fr) (orUb z fun z => s.alloc (c z)) (Spec.Calc.value g (z.map c)) := by
  rcases z with _ | z
  · exact .ub
  · exact post_alloc hr hf (c z) (fun f ps b h => absurd h (hc z f ps b)) fr

theorem sim_type {s0 s : State Fd V} {g : Spec.Calc.Env Fd V} (hr : Rel s g) (hf : Frame s0 s)
    {q : ℕ} {v : Val Fd V} (h : Arg s0 s q v) (t : VType) (fr : Prop) :
    Post s0 fr ({ s with out := s.out ++ [.typeName t] }, some q) ({ g with out := g.out ++ [.typeName t] }, some v) := by
  refine Arg.post (s := { s with out := s.out ++ [.typeName t] }) (g := { g with out := g.out ++ [.typeName t] }) ⟨h.get, h.own, h.ptr⟩
    ⟨hr.rng, ?_, hr.valid, hr.vars, hr.clean⟩ ⟨hf.len, hf.old, hf.tab⟩ fr
  simp [hr.out]

theorem sim_random (o : Ops Fd V) {s0 s : State Fd V} {g : Spec.Calc.Env Fd V} (hr : Rel s g) (hf : Frame s0 s) (f : Fd)
    (fr : Prop) : ResRel (Post s0 fr)
      (orUb (o.random f s.rng) fun z => State.alloc { s with rng := s.rng + 1 } (.elem z))
      (Spec.Calc.value { g with rng := g.rng + 1 } ((o.random f g.rng).map .elem)) := by
  rw [← hr.rng]
  exact sim_alloc (s := { s with rng := s.rng + 1 }) (g := { g with rng := s.rng + 1 }) ⟨rfl, hr.out, hr.valid, hr.vars, hr.clean⟩
    ⟨hf.len, hf.old, hf.tab⟩ .elem (by simp) _ fr

theorem sim_run1 (o : Ops Fd V) (p : Prim) {s0 s : State Fd V} {g : Spec.Calc.Env Fd V} (hr : Rel s g) (hf : Frame s0 s)
    {q : ℕ} {v : Val Fd V} (h : Arg s0 s q v) (fr : Prop) :
    ResRel (Post s0 fr) (run o p s [q]) (Spec.Calc.apply o p g [v]) := by
  cases v with
  | elem w =>
    have h1 := h.elem
    have h2 := h.not_field (by simp)
    cases p <;> simp only [run, Spec.Calc.apply, h1, h2, h.get, orUb] <;> first | exact .ub | skip
    · exact sim_write hr hf h _ fr
    · exact sim_write hr hf h _ fr
    · exact sim_write hr hf h _ fr
    · exact sim_write hr hf h _ fr
    · exact .ok (sim_type hr hf h _ fr)
    · exact sim_alloc hr hf .field (by simp) _ fr
    · exact sim_alloc hr hf .field (by simp) _ fr
    · rw [hr.out]; exact .halt
    · split
      · rw [hr.out]; exact .halt
      · exact .ok (h.post hr hf fr)
  | field f =>
    have h1 := h.field
    have h2 := h.not_elem (by simp)
    cases p <;> simp only [run, Spec.Calc.apply, h1, h2, h.get, orUb] <;> first | exact .ub | skip
    · exact sim_random o hr hf f fr
    · exact sim_random o hr hf f fr
    · exact sim_alloc hr hf .elem (by simp) _ fr
    · exact sim_alloc hr hf .elem (by simp) _ fr
    · exact .ok (sim_type hr hf h _ fr)
    · exact sim_alloc hr hf .field (by simp) _ fr
  | _ =>
    have h1 := h.not_field (by simp)
    have h2 := h.not_elem (by simp)
    cases p <;> simp only [run, Spec.Calc.apply, h1, h2, h.get, orUb] <;> first | exact .ub | skip
    all_goals exact .ok (sim_type hr hf h _ fr)

theorem sim_run2 (o : Ops Fd V) (p : Prim) {s0 s : State Fd V} {g : Spec.Calc.Env Fd V} (hr : Rel s g) (hf : Frame s0 s)
    {q q' : ℕ} {v v' : Val Fd V} (h : Arg s0 s q v) (h' : Arg s0 s q' v') (fr : Prop) :
    ResRel (Post s0 fr) (run o p s [q, q']) (Spec.Calc.apply o p g [v, v']) := by
  cases v with
  | elem w =>
    cases v' with
    | elem w' =>
      have h1 := h.elem
      have h2 := h'.elem
      cases p <;> simp only [run, Spec.Calc.apply, h1, h2, orUb] <;> first | exact .ub | skip
      · exact sim_write hr hf h _ fr
      · exact sim_write hr hf h _ fr
      · exact sim_write hr hf h _ fr
      · exact sim_write hr hf h _ fr
      · exact sim_write hr hf h _ fr
      iterate 6
        · rcases hc : o.cmp w w' with _ | i
          · exact .ub
          · exact .ok (post_write hr hf (h.own w rfl) h.lt _ fr)
      · exact sim_alloc hr hf .elem (by simp) _ fr
      · exact sim_alloc hr hf .elem (by simp) _ fr
    | _ =>
      have h1 := h.elem
      have h2 := h'.not_elem (by simp)
      cases p <;> simp only [run, Spec.Calc.apply, h1, h2, orUb] <;> exact .ub
  | _ =>
    have h1 := h.not_elem (by simp)
    cases p <;> simp only [run, Spec.Calc.apply, h1, orUb] <;> exact .ub

theorem sim_run (o : Ops Fd V) (p : Prim) {s0 s : State Fd V} {g : Spec.Calc.Env Fd V} (hr : Rel s g) (hf : Frame s0 s)
    {qs : List ℕ} {vs : List (Val Fd V)} (h : List.Forall₂ (Arg s0 s) qs vs) (fr : Prop) :
    ResRel (Post s0 fr) (run o p s qs) (Spec.Calc.apply o p g vs) := by
  rcases h with _ | ⟨h1, _ | ⟨h2, _ | ⟨h3, h⟩⟩⟩
  · cases p <;> simp only [run, Spec.Calc.apply] <;> first | exact .ub | skip
    refine .ok ⟨rel_initPairing o hr _, hf.trans (frame_initPairing o s _), rfl, by simp, by simp⟩
  · exact sim_run1 o p hr hf h1 fr
  · exact sim_run2 o p hr hf h1 h2 fr
  · cases p <;> simp only [run, Spec.Calc.apply] <;> exact .ub

/-! ### Evaluation -/

/-- One evaluator in step with another. -/
def Sim (ev : Eval Fd V) (ev' : Spec.Calc.Eval Fd V) : Prop :=
  ∀ s g e, Rel s g → Spec.Calc.Clean e → ResRel (Post s (Spec.Calc.NotAssign e)) (ev s e) (ev' g e)

/-- An argument that has been evaluated. -/
theorem Sim.arg {ev : Eval Fd V} {ev' : Spec.Calc.Eval Fd V} (h : Sim ev ev') {s0 s : State Fd V}
    {g : Spec.Calc.Env Fd V} {e : Expr} (hr : Rel s g) (hf : Frame s0 s) (hc : Spec.Calc.Clean e)
    (hn : Spec.Calc.NotAssign e) {α β : Type*} {Q : α → β → Prop} {k : State Fd V × Option ℕ → Res Fd V α}
    {k' : Spec.Calc.Env Fd V × Option (Val Fd V) → Res Fd V β}
    (h0 : ∀ s' g', ResRel Q (k (s', none)) (k' (g', none)))
    (hk : ∀ s' g' q v, Rel s' g' → Frame s s' → Frame s0 s' → Arg s0 s' q v →
      ResRel Q (k (s', some q)) (k' (g', some v))) :
    ResRel Q ((ev s e).bind k) ((ev' g e).bind k') := by
  refine (h s g e hr hc).bind ?_
  rintro ⟨s', r⟩ ⟨g', v⟩ hp
  have hp1 : Post s True (s', r) (g', v) := ⟨hp.rel, hp.frame, hp.val, hp.ptr, fun _ => hp.own hn⟩
  rcases r with _ | q
  · have := hp.val
    simp only [Option.bind_none] at this
    subst this
    exact h0 s' g'
  · obtain ⟨v', hv, ha⟩ := Arg.of_post (Post.trans hf hp1) rfl
    simp only at hv
    subst hv
    exact hk s' g' q v' hp.rel hp.frame (hf.trans hp.frame) ha

theorem sim_args {ev : Eval Fd V} {ev' : Spec.Calc.Eval Fd V} (h : Sim ev ev') (p : Prim) {s0 : State Fd V}
    (es : List Expr) (hes : ∀ a ∈ es, Spec.Calc.Clean a ∧ Spec.Calc.NotAssign a) :
    ∀ (ts : List (Option VType)) (i : ℕ) (s : State Fd V) (g : Spec.Calc.Env Fd V), Rel s g → Frame s0 s →
      ResRel (fun a b => Rel a.1 b.1 ∧ Frame s a.1 ∧
        match a.2, b.2 with
        | .inl qs, .inl vs => List.Forall₂ (Arg s0 a.1) qs vs
        | .inr v, .inr v' => v = v' ∧ ∃ m, v = .err m
        | _, _ => False) (builtinArgs ev p s i ts es) (Spec.Calc.args ev' p g i ts es) := by
  induction es with
  | nil =>
    intro ts i s g hr hf
    rcases ts with _ | ⟨t, ts⟩ <;> exact .ok ⟨hr, Frame.refl s, .nil⟩
  | cons e es ih =>
    intro ts i s g hr hf
    rcases ts with _ | ⟨t, ts⟩
    · exact .ok ⟨hr, Frame.refl s, .nil⟩
    · obtain ⟨hc, hn⟩ := hes e (by simp)
      rw [builtinArgs, Spec.Calc.args]
      refine h.arg hr hf hc hn (fun _ _ => .ub) fun s' g' q v hr' hf' hf0 ha => ?_
      simp only [ha.get, orUb]
      split
      · exact .ok ⟨hr', hf', rfl, _, rfl⟩
      · refine (ih (fun a ha => hes a (by simp [ha])) ts (i + 1) s' g' hr' hf0).bind ?_
        rintro ⟨s2, r⟩ ⟨g2, r'⟩ ⟨h1, h2, h3⟩
        rcases r with qs | v1 <;> rcases r' with vs | v2
        · exact .ok ⟨h1, hf'.trans h2, .cons (ha.later h2) h3⟩
        · exact h3.elim
        · exact h3.elim
        · exact .ok ⟨h1, hf'.trans h2, h3⟩

theorem sim_params {ev : Eval Fd V} {ev' : Spec.Calc.Eval Fd V} (h : Sim ev ev') (es : List Expr)
    (hes : ∀ a ∈ es, Spec.Calc.Clean a) :
    ∀ (xs : List String) (s : State Fd V) (g : Spec.Calc.Env Fd V), Rel s g →
      ResRel (fun a b => Rel a b ∧ Frame s a) (bindParams ev s xs es) (Spec.Calc.params ev' g xs es) := by
  induction es with
  | nil =>
    intro xs s g hr
    rcases xs with _ | ⟨x, xs⟩ <;> exact .ok ⟨hr, Frame.refl s⟩
  | cons e es ih =>
    intro xs s g hr
    rcases xs with _ | ⟨x, xs⟩
    · exact .ok ⟨hr, Frame.refl s⟩
    · rw [bindParams, Spec.Calc.params]
      refine (h s g e hr (hes e (by simp))).bind ?_
      rintro ⟨s', r⟩ ⟨g', v⟩ hp
      have hf : Frame s (s'.put x r) := hp.frame.put x r (fun q hq => (hp.ptr q hq).2)
      exact (ih (fun a ha => hes a (by simp [ha])) xs (s'.put x r) (g'.set x v)
        (hp.rel.put x r v hp.val (fun q hq => (hp.ptr q hq).1))).mono fun a b hab => ⟨hab.1, hf.trans hab.2⟩

theorem sim_body {ev : Eval Fd V} {ev' : Spec.Calc.Eval Fd V} (h : Sim ev ev') (es : List Expr)
    (hes : ∀ a ∈ es, Spec.Calc.Clean a) :
    ∀ (s : State Fd V) (g : Spec.Calc.Env Fd V), Rel s g →
      ResRel (fun a b => Rel a b ∧ Frame s a) (runBody ev s es) (Spec.Calc.body ev' g es) := by
  induction es with
  | nil =>
    intro s g hr
    exact .ok ⟨hr, Frame.refl s⟩
  | cons e es ih =>
    intro s g hr
    rw [runBody, Spec.Calc.body]
    refine (h s g e hr (hes e (by simp))).bind ?_
    rintro ⟨s', r⟩ ⟨g', v⟩ hp
    exact (ih (fun a ha => hes a (by simp [ha])) s' g' hp.rel).mono fun a b hab => ⟨hab.1, hp.frame.trans hab.2⟩

theorem sim_items {ev : Eval Fd V} {ev' : Spec.Calc.Eval Fd V} (h : Sim ev ev') {s0 : State Fd V} (es : List Expr)
    (hes : ∀ a ∈ es, Spec.Calc.Clean a ∧ Spec.Calc.NotAssign a) :
    ∀ (s : State Fd V) (g : Spec.Calc.Env Fd V), Rel s g → Frame s0 s →
      ResRel (fun a b => Rel a.1 b.1 ∧ Frame s0 a.1 ∧
        match a.2, b.2 with
        | .inl vs, .inl vs' => vs = vs'
        | .inr r, .inr v => Post s0 True (a.1, r) (b.1, some v)
        | _, _ => False) (listItems ev s es) (Spec.Calc.items ev' g es) := by
  induction es with
  | nil =>
    intro s g hr hf
    exact .ok ⟨hr, hf, rfl⟩
  | cons e es ih =>
    intro s g hr hf
    obtain ⟨hc, hn⟩ := hes e (by simp)
    rw [listItems, Spec.Calc.items]
    refine h.arg hr hf hc hn (fun _ _ => .ub) fun s' g' q v hr' hf' hf0 ha => ?_
    simp only [ha.get, orUb]
    have herr : ResRel (fun a b => Rel a.1 b.1 ∧ Frame s0 a.1 ∧
        match a.2, b.2 with
        | .inl vs, .inl vs' => vs = vs'
        | .inr r, .inr v => Post s0 True (a.1, r) (b.1, some v)
        | _, _ => False)
        ((s'.alloc (.err "element expected in list")).bind fun a => .ok (a.1, (.inr a.2 : List V ⊕ Option ℕ)))
        (.ok (g', (.inr (.err "element expected in list") : List V ⊕ Val Fd V))) := by
      have := post_alloc hr' hf0 (.err "element expected in list") (by simp) True
      cases this with
      | ok hp => exact .ok ⟨hp.rel, hp.frame, hp⟩
    cases v with
    | elem w =>
      refine (ih (fun a ha => hes a (by simp [ha])) s' g' hr' hf0).bind ?_
      rintro ⟨s2, r⟩ ⟨g2, r'⟩ ⟨h1, h2, h3⟩
      rcases r with qs | v1 <;> rcases r' with vs | v2
      · refine .ok ⟨h1, h2, ?_⟩
        simp only at h3 ⊢
        rw [h3]
      · exact h3.elim
      · exact h3.elim
      · exact .ok ⟨h1, h2, h3⟩
    | err m => exact .ok ⟨hr', hf0, ha.post hr' hf0 True⟩
    | _ => exact herr

theorem sim_castTo (o : Ops Fd V) {ev : Eval Fd V} {ev' : Spec.Calc.Eval Fd V} (h : Sim ev ev') {s0 s : State Fd V}
    {g : Spec.Calc.Env Fd V} (hr : Rel s g) (hf : Frame s0 s) (f : Fd) (es : List Expr)
    (hes : ∀ a ∈ es, Spec.Calc.Clean a ∧ Spec.Calc.NotAssign a) (fr : Prop) :
    ResRel (Post s0 fr) (castTo o ev s f es) (Spec.Calc.cast o ev' g f es) := by
  rcases es with _ | ⟨e, es⟩
  · exact .ub
  · obtain ⟨hc, hn⟩ := hes e (by simp)
    rw [castTo, Spec.Calc.cast]
    refine h.arg hr hf hc hn (fun _ _ => .ub) fun s' g' q v hr' hf' hf0 ha => ?_
    cases v with
    | elem x =>
      simp only [ha.elem, orUb, Spec.Calc.convert]
      split
      · split
        · exact .ok (ha.post hr' hf0 fr)
        · exact sim_write hr' hf0 ha _ fr
      · split
        · exact sim_write hr' hf0 ha _ fr
        · exact .ok (ha.post hr' hf0 fr)
    | _ =>
      simp only [ha.not_elem (by simp), orUb]
      exact .ub

/-- A value that is only looked at. -/
theorem Sim.look {ev : Eval Fd V} {ev' : Spec.Calc.Eval Fd V} (h : Sim ev ev') {s : State Fd V}
    {g : Spec.Calc.Env Fd V} {e : Expr} (hr : Rel s g) (hc : Spec.Calc.Clean e)
    {α β : Type*} {Q : α → β → Prop} {k : State Fd V × Option ℕ → Res Fd V α}
    {k' : Spec.Calc.Env Fd V × Option (Val Fd V) → Res Fd V β}
    (h0 : ∀ s' g', Rel s' g' → ResRel Q (k (s', none)) (k' (g', none)))
    (hk : ∀ s' g' q v, Rel s' g' → Frame s s' → s'.heap[q]? = some v →
      Post s (Spec.Calc.NotAssign e) (s', some q) (g', some v) → ResRel Q (k (s', some q)) (k' (g', some v))) :
    ResRel Q ((ev s e).bind k) ((ev' g e).bind k') := by
  refine (h s g e hr hc).bind ?_
  rintro ⟨s', r⟩ ⟨g', v⟩ hp
  rcases r with _ | q
  · have := hp.val
    simp only [Option.bind_none] at this
    subst this
    exact h0 s' g' hp.rel
  · have hlt := (hp.ptr q rfl).1
    have := hp.val
    simp only [Option.bind_some] at this hlt
    rw [List.getElem?_eq_getElem hlt] at this
    subst this
    exact hk s' g' q _ hp.rel hp.frame (List.getElem?_eq_getElem hlt) hp

/-- An error value is passed on as it is. -/
theorem Post.pass {s : State Fd V} {fr fr' : Prop} {s' : State Fd V} {g' : Spec.Calc.Env Fd V} {q : ℕ} {v : Val Fd V}
    (h : Post s fr (s', some q) (g', some v)) (hv : ∀ w, v ≠ .elem w) : Post s fr' (s', some q) (g', some v) := by
  refine ⟨h.rel, h.frame, h.val, h.ptr, ?_⟩
  rintro - p w ⟨⟩ hw
  have := h.val
  simp only [Option.bind_some] at this hw
  rw [hw] at this
  exact absurd (Option.some.inj this) (hv w)

theorem reserved_ne_defn (o : Ops Fd V) (x f : String) (ps : List String) (b : List Expr) :
    reserved o x ≠ some (.defn f ps b) := by
  have h : ∀ (c : Prop) [Decidable c] (a b r : Option (Val Fd V)), a ≠ r → b ≠ r → (if c then a else b) ≠ r := by
    intro c _ a b r ha hb
    split
    exacts [ha, hb]
  unfold reserved
  repeat refine h _ _ _ _ (by simp) ?_
  simp

theorem sim_step (o : Ops Fd V) {ev : Eval Fd V} {ev' : Spec.Calc.Eval Fd V} (h : Sim ev ev') :
    Sim (step o ev) (Spec.Calc.step o ev') := by
  intro s g e hr hc
  have hs := Frame.refl s
  cases e with
  | num n => exact post_alloc hr hs _ (by simp) _
  | prim p => exact post_alloc hr hs _ (by simp) _
  | id x =>
    simp only [step, Spec.Calc.step]
    rcases hx : reserved o x with _ | v
    · simp only [hr.vars x]
      rcases hp : s.tab x with _ | p
      · exact post_alloc hr hs _ (by simp) _
      · have hlt := hr.valid x p hp
        simp only [Option.bind_some, List.getElem?_eq_getElem hlt, orUb]
        have hh : s.heap[p]? = some s.heap[p] := List.getElem?_eq_getElem hlt
        rcases hv : s.heap[p] with w | f | f | _ | _
        · exact post_alloc hr hs _ (by simp) _
        all_goals
          refine .ok (Arg.post ⟨by rw [hh, hv], by simp, .inr ⟨x, hp⟩⟩ hr hs _)
    · exact post_alloc hr hs _ (fun f ps b hv => absurd hx (by
        subst hv
        exact reserved_ne_defn o x f ps b)) _
  | assign x e =>
    rw [Spec.Calc.Clean] at hc
    simp only [step, Spec.Calc.step]
    refine (h s g e hr hc).bind ?_
    rintro ⟨s', r⟩ ⟨g', v⟩ hp
    rcases hx : reserved o x with _ | w
    · exact .ok ⟨hp.rel.put x r v hp.val (fun q hq => (hp.ptr q hq).1),
        hp.frame.put x r (fun q hq => (hp.ptr q hq).2), hp.val, hp.ptr, fun hf => hf.elim⟩
    · exact post_alloc hp.rel hp.frame _ (by simp) _
  | tern c a b =>
    simp only [step, Spec.Calc.step]
    rw [Spec.Calc.Clean] at hc
    obtain ⟨hc1, hc2, hc3⟩ := hc
    refine h.look hr hc1 (fun _ _ _ => .ub) fun s' g' q v hr' hf' hq hp => ?_
    simp only [orUb, hq]
    cases v with
    | elem v =>
      simp only
      split
      · exact (h s' g' b hr' hc3).mono fun x y hxy =>
          have := hxy.trans hf'
          ⟨this.rel, this.frame, this.val, this.ptr, fun hn => this.own hn.2⟩
      · exact (h s' g' a hr' hc2).mono fun x y hxy =>
          have := hxy.trans hf'
          ⟨this.rel, this.frame, this.val, this.ptr, fun hn => this.own hn.1⟩
    | err m => exact .ok (hp.pass (by simp))
    | _ => exact post_alloc hr' hf' _ (by simp) _
  | call f as =>
    simp only [step, Spec.Calc.step]
    rw [Spec.Calc.Clean] at hc
    obtain ⟨hc1, hc2⟩ := hc
    refine h.look hr hc1 (fun _ _ _ => .ub) fun s' g' q v hr' hf' hq hp => ?_
    simp only [orUb, hq]
    cases v with
    | elem v => exact .ub
    | fn p =>
      simp only [callBuiltin]
      split
      · exact post_alloc hr' hf' _ (by simp) _
      · refine (sim_args h p as hc2 p.sig 0 s' g' hr' hf').bind ?_
        rintro ⟨s2, r⟩ ⟨g2, r'⟩ ⟨h1, h2, h3⟩
        rcases r with qs | v1 <;> rcases r' with vs | v2
        · exact sim_run o p h1 (hf'.trans h2) h3 _
        · exact h3.elim
        · exact h3.elim
        · obtain ⟨h4, m, h5⟩ := h3
          subst h4 h5
          exact post_alloc h1 (hf'.trans h2) _ (by simp) _
    | defn f ps b =>
      simp only [callDef]
      split
      · exact post_alloc hr' hf' _ (by simp) _
      · refine (sim_params h as (fun a ha => (hc2 a ha).1) ps s' g' hr').bind ?_
        intro s2 g2 h2
        refine (sim_body h b (hr'.clean q f ps b hq) s2 g2 h2.1).bind ?_
        intro s3 g3 h3
        exact .ok ⟨h3.1, hf'.trans (h2.2.trans h3.2), rfl, by simp, by simp⟩
    | field f => exact sim_castTo o h hr' hf' f as hc2 _
    | err m => exact .ok (hp.pass (by simp))
  | list es =>
    rw [Spec.Calc.Clean] at hc
    simp only [step, Spec.Calc.step]
    refine (sim_items h es hc s g hr hs).bind ?_
    rintro ⟨s2, r⟩ ⟨g2, r'⟩ ⟨h1, h2, h3⟩
    rcases r with qs | v1 <;> rcases r' with vs | v2
    · simp only at h3
      subst h3
      exact sim_alloc h1 h2 .elem (by simp) _ _
    · exact h3.elim
    · exact h3.elim
    · exact .ok ⟨h3.rel, h3.frame, h3.val, h3.ptr, fun _ => h3.own trivial⟩
  | define f ps b =>
    rw [Spec.Calc.Clean] at hc
    simp only [step, Spec.Calc.step]
    have hv : ∀ f' ps' b', (Val.defn f ps b : Val Fd V) = .defn f' ps' b' → ∀ a ∈ b', Spec.Calc.Clean a := by
      rintro f' ps' b' ⟨⟩
      exact hc
    have hrel := (hr.alloc (.defn f ps b) hv).put f (some s.heap.length) (some (.defn f ps b)) (by simp)
      (by rintro q ⟨⟩; simp)
    refine .ok ⟨hrel, (Frame.alloc s (.defn f ps b)).put f (some s.heap.length)
      (by rintro q ⟨⟩; exact .inl (le_refl _)), by simp, ?_, ?_⟩
    · rintro q ⟨⟩
      exact ⟨by simp, .inl (le_refl _)⟩
    · rintro - q v ⟨⟩ hv
      simp at hv

theorem sim_eval (o : Ops Fd V) (n : ℕ) : Sim (eval o n) (Spec.Calc.eval o n) := by
  induction n with
  | zero =>
    intro s g e _ _
    exact .deep
  | succ n ih => exact sim_step o ih

theorem sim_stmt (o : Ops Fd V) (n : ℕ) {s : State Fd V} {g : Spec.Calc.Env Fd V} {e : Expr} (hr : Rel s g)
    (hc : Spec.Calc.Clean e) : ResRel Rel (evalStmt o n s e) (Spec.Calc.stmt o n g e) := by
  unfold evalStmt Spec.Calc.stmt
  refine (sim_eval o n).look hr hc (fun s' g' hr' => .ok hr') fun s' g' q v hr' hf' hq hp => ?_
  have hout : ∀ t, Rel { s' with out := s'.out ++ [t] } { g' with out := g'.out ++ [t] } := fun t =>
    ⟨hr'.rng, by simp [hr'.out], hr'.valid, hr'.vars, hr'.clean⟩
  simp only [orUb, hq]
  cases v with
  | err m => exact .ok (hout _)
  | _ =>
    cases e <;> first | exact .ok (hout _) | exact .ok hr'

theorem sim_program (o : Ops Fd V) (n : ℕ) (es : List Expr) (hc : ∀ e ∈ es, Spec.Calc.Clean e) :
    ∀ {s : State Fd V} {g : Spec.Calc.Env Fd V}, Rel s g →
      ResRel Rel (evalProgram o n s es) (Spec.Calc.program o n g es) := by
  induction es with
  | nil => exact fun hr => .ok hr
  | cons e es ih =>
    intro s g hr
    exact (sim_stmt o n hr (hc e (by simp))).bind fun s' g' hr' => ih (fun a ha => hc a (by simp [ha])) hr'

theorem rel_start (o : Ops Fd V) : Rel (State.start o) (Spec.Calc.Env.start o) :=
  rel_initPairing o ⟨rfl, rfl, by simp, by simp, by simp⟩ .a

end Pbc.Calc
