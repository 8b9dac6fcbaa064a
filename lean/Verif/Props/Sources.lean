import Verif.Model.Sources
import Verif.Props.Random
import Mathlib.Logic.Function.Basic

/-!
# Properties of the choice of the source of random numbers
-/

set_option autoImplicit false

namespace Pbc.Sources

variable {E : Env}

/-! ## Specification -/

/-- A source that a program can select. -/
inductive Sel
  /-- a function of the program with its data -/
  | user (k a : ℕ)
  /-- GMP's generator -/
  | det
  /-- the file whose name is at the address -/
  | file (a : ℕ)
  deriving DecidableEq

/-- The selection that a call makes, if it makes one. -/
def Op.sel : Op → Option Sel
  | .setFunction k a => some (.user k a)
  | .setDeterministic _ => some .det
  | .setFile a => some (.file a)
  | _ => none

/-- The last selection of a program. -/
def lastSel (prog : List Op) : Option Sel := (prog.filterMap Op.sel).getLast?

/-- The limit of a call that draws a number, and where it is stored. -/
def Op.draw : Op → Option (ℕ × ℕ)
  | .random z limit => some (z, limit)
  | .randomb z bits => some (z, 2 ^ bits)
  | _ => none

/-- The static variables hold a selection. -/
def Holds (s : State E) : Sel → Prop
  | .user k a => s.cur = some (.user k, .addr a)
  | .det => s.cur = some (.det, .null)
  | .file a => s.cur = some (.file, .addr a)

/-- GMP's contract: a number below the limit. -/
def Env.Good (E : Env) : Prop := ∀ g n, 0 < n → (E.urandomm g n).1 < n

/-- The numbers that GMP's generator gives for a list of limits. -/
def Env.sequence (E : Env) : E.G → List ℕ → List ℕ
  | _, [] => []
  | g, n :: rest => (E.urandomm g n).1 :: E.sequence (E.urandomm g n).2 rest

/-! ## Lemmas -/

theorem run_append (s : State E) (p q : List Op) :
    run s (p ++ q) = (run s p).bind fun s => run s q := by
  induction p generalizing s with
  | nil => rfl
  | cons o p ih =>
    simp only [List.cons_append, run]
    cases h : step s o with
    | none => rfl
    | some t => exact ih t

/-- Drawing a number does not change a selection. -/
theorem random_cur {s t : State E} {z limit : ℕ} {c : Fun × Data} (hc : s.cur = some c)
    (h : mpzRandom z limit s = some t) : t.cur = some c := by
  obtain ⟨f, d⟩ := c
  simp only [mpzRandom, hc] at h
  cases f with
  | det =>
    simp only [detRandom] at h
    split at h
    · cases h
    · cases h
      simp only [getRs]
      split <;> exact hc
  | file =>
    simp only [fileRandom, bind, Option.bind] at h
    cases hn : name s d with
    | none => rw [hn] at h; cases h
    | some nm =>
      rw [hn] at h
      dsimp only at h
      split at h
      · cases h; exact hc
      · split at h
        · cases h
        · dsimp only at h
          split at h <;> (cases h; exact hc)
  | user k => cases h; exact hc

theorem step_cur {s t : State E} {o : Op} (ho : o.sel = none) {c : Fun × Data}
    (hc : s.cur = some c) (h : step s o = some t) : t.cur = some c := by
  cases o with
  | setFunction => simp [Op.sel] at ho
  | setDeterministic => simp [Op.sel] at ho
  | setFile => simp [Op.sel] at ho
  | write => cases h; exact hc
  | random z limit => exact random_cur hc h
  | randomb z bits => exact random_cur hc h

theorem step_sel {s t : State E} {o : Op} {x : Sel} (ho : o.sel = some x)
    (h : step s o = some t) : Holds t x := by
  cases o <;> simp only [Op.sel, Option.some.injEq, reduceCtorEq] at ho <;> subst ho <;> cases h <;> rfl

theorem run_holds {s t : State E} {x : Sel} (prog : List Op) (h : run s prog = some t)
    (hx : lastSel prog = some x) : Holds t x := by
  induction prog using List.reverseRecOn generalizing t with
  | nil => simp [lastSel] at hx
  | append_singleton prog o ih =>
    rw [run_append] at h
    cases hr : run s prog with
    | none => rw [hr] at h; cases h
    | some u =>
      rw [hr] at h
      simp only [Option.bind_some, run] at h
      cases hs : step u o with
      | none => rw [hs] at h; cases h
      | some v =>
        rw [hs] at h
        cases h
        cases ho : o.sel with
        | some y =>
          have : lastSel (prog ++ [o]) = some y := by
            simp [lastSel, ho]
          rw [this] at hx
          cases hx
          exact step_sel ho hs
        | none =>
          have : lastSel (prog ++ [o]) = lastSel prog := by
            simp [lastSel, ho]
          rw [this] at hx
          have := ih hr hx
          cases x <;> exact step_cur ho this hs

/-! ## C135 -/

/-- **C135**: after every program, whatever it drew before, a draw calls the function that was
selected last, with its data, once; no file is opened and no other variable changes. -/
theorem C135_function {s t : State E} {prog : List Op} {k a : ℕ} (h : run s prog = some t)
    (hx : lastSel prog = some (.user k a)) {o : Op} {z limit : ℕ} (ho : o.draw = some (z, limit)) :
    ∃ u, step t o = some u ∧ u.vars z = E.user k a t.calls (t.vars z) limit ∧
      (∀ y, y ≠ z → u.vars y = t.vars y) ∧ u.calls = t.calls + 1 ∧ u.opens = t.opens ∧
      u.warned = t.warned := by
  have hc : t.cur = some (.user k, .addr a) := run_holds prog h hx
  have : step t o = mpzRandom z limit t := by
    cases o <;> simp only [Op.draw, Option.some.injEq, reduceCtorEq, Prod.mk.injEq] at ho <;>
      (obtain ⟨rfl, rfl⟩ := ho; rfl)
  rw [this]
  simp only [mpzRandom, hc]
  refine ⟨_, rfl, ?_, ?_, rfl, rfl, rfl⟩
  · simp [userRandom]
  · intro y hy
    simp [userRandom, Function.update_of_ne hy]

/-- The effect of a draw from a file: `left`, `warned` and the variables. -/
structure FromFile (t u : State E) (z : ℕ) (v : Option ℕ) : Prop where
  /-- the number is stored -/
  value : ∀ n, v = some n → u.vars z = n ∧ u.left = t.left ∧ u.warned = t.warned
  /-- without a number the variable keeps its value -/
  nothing : v = none → u.vars z = t.vars z
  /-- other variables keep their values -/
  others : ∀ y, y ≠ z → u.vars y = t.vars y
  /-- one opening -/
  opens : u.opens = t.opens + 1

theorem draw_step (t : State E) {o : Op} {z limit : ℕ} (ho : o.draw = some (z, limit)) :
    step t o = mpzRandom z limit t := by
  cases o <;> simp only [Op.draw, Option.some.injEq, reduceCtorEq, Prod.mk.injEq] at ho <;>
    (obtain ⟨rfl, rfl⟩ := ho; rfl)

theorem flat_length {limit : ℕ} (bs : List (Random.Block limit)) :
    bs.length < (Random.flat bs).length + 1 := by
  have hpos : 0 < Random.byteCount limit := by
    have := Random.bits_pos limit
    rw [Random.byteCount]; omega
  induction bs with
  | nil => simp
  | cons b bs ih =>
    have : (Random.flat (b :: bs)).length = Random.byteCount limit + (Random.flat bs).length := by
      rw [Random.flat, List.map_cons, List.flatten_cons, List.length_append, b.length]; rfl
    rw [this, List.length_cons]
    omega

theorem file_draw {t : State E} {d : Data} {nm : List ℕ} (hn : name t d = some nm)
    {z limit : ℕ} {bs : List (Random.Block limit)}
    (hf : E.files nm t.opens = some (Random.flat bs))
    (hj : (E.junk t.opens).length ≤ Random.byteCount limit) :
    ∃ u, fileRandom z limit d t = some u ∧
      FromFile t u z ((bs.map Random.draw).find? fun n => decide (n < limit)) := by
  have key := Random.loop_flat bs ((Random.flat bs).length + 1) (E.junk t.opens) (flat_length bs) hj
  rw [← Random.fileRandom] at key
  simp only [fileRandom, hn, bind, Option.bind, hf]
  rcases Random.C68_range limit (E.junk t.opens) (Random.flat bs) with h | ⟨v, rest, h, -, -⟩
  · rw [h] at key ⊢
    simp only [Random.Result.out] at key
    rw [← key]
    exact ⟨_, rfl, ⟨fun n hn => (nomatch hn), fun _ => rfl, fun _ _ => rfl, rfl⟩⟩
  · rw [h] at key ⊢
    simp only [Random.Result.out] at key
    rw [← key]
    refine ⟨_, rfl, ⟨fun n hn => ?_, fun h => (nomatch h), fun y hy => ?_, rfl⟩⟩
    · cases hn
      simp
    · simp [Function.update_of_ne hy]

/-- **C135**: after every program, a draw takes its number from the file that was selected last: the
first block of bytes, cut to the bits of the limit, that is below the limit.  (The name is what the
program's memory holds *now*.) -/
theorem C135_file {s t : State E} {prog : List Op} {a : ℕ} (h : run s prog = some t)
    (hx : lastSel prog = some (.file a)) {o : Op} {z limit : ℕ} (ho : o.draw = some (z, limit))
    {bs : List (Random.Block limit)} (hf : E.files (t.mem a) t.opens = some (Random.flat bs))
    (hj : (E.junk t.opens).length ≤ Random.byteCount limit) :
    ∃ u, step t o = some u ∧
      FromFile t u z ((bs.map Random.draw).find? fun n => decide (n < limit)) := by
  have hc : t.cur = some (.file, .addr a) := run_holds prog h hx
  rw [draw_step t ho]
  simp only [mpzRandom, hc]
  exact file_draw rfl hf hj

/-- The numbers that a program sees: the value of its variable after each draw. -/
def outputs (s : State E) : List Op → Option (List ℕ)
  | [] => some []
  | o :: rest => (step s o).bind fun t =>
    match o.draw with
    | some (z, _) => (outputs t rest).map (t.vars z :: ·)
    | none => outputs t rest

/-- The limits of the draws of a program. -/
def limits (prog : List Op) : List ℕ := prog.filterMap fun o => o.draw.map Prod.snd

theorem det_outputs {s : State E} {g : E.G} (hg : s.rs = some g) (hc : s.cur = some (.det, .null))
    (prog : List Op) (hp : ∀ o ∈ prog, o.sel = none) (hl : ∀ n ∈ limits prog, 0 < n) :
    outputs s prog = some (E.sequence g (limits prog)) := by
  induction prog generalizing s g with
  | nil => rfl
  | cons o prog ih =>
    have h1 := hp o (by simp)
    have h2 : ∀ o ∈ prog, o.sel = none := fun o ho => hp o (by simp [ho])
    have h3 : ∀ n ∈ limits prog, 0 < n := by
      intro n hn
      apply hl
      unfold limits at hn ⊢
      rw [List.mem_filterMap] at hn ⊢
      obtain ⟨o', ho', e⟩ := hn
      exact ⟨o', by simp [ho'], e⟩
    have draw : ∀ z limit, o.draw = some (z, limit) →
        outputs s (o :: prog) = some (E.sequence g (limits (o :: prog))) := by
      intro z limit ho
      have hlim : limits (o :: prog) = limit :: limits prog := by
        simp [limits, ho]
      have hpos : 0 < limit := hl limit (by rw [hlim]; simp)
      rw [hlim]
      simp only [outputs, draw_step s ho, mpzRandom, hc, detRandom, if_neg (Nat.ne_of_gt hpos), getRs, hg,
        Option.bind_some, ho]
      refine (congrArg _ (ih (s := ⟨some (E.urandomm g limit).2, some (.det, .null), s.mem,
        Function.update s.vars z (E.urandomm g limit).1, s.opens, s.left, s.calls, s.warned⟩)
        rfl rfl h2 h3)).trans ?_
      simp [Env.sequence]
    cases o with
    | setFunction => simp [Op.sel] at h1
    | setDeterministic => simp [Op.sel] at h1
    | setFile => simp [Op.sel] at h1
    | write a text =>
      have hlim : limits (Op.write a text :: prog) = limits prog := by
        simp [limits, Op.draw]
      rw [hlim]
      simp only [outputs, step, Option.bind_some, Op.draw]
      exact ih hg hc h2 h3
    | random z limit => exact draw z limit rfl
    | randomb z bits => exact draw z (2 ^ bits) rfl

theorem sequence_lt (hE : E.Good) (g : E.G) (l : List ℕ) (hl : ∀ n ∈ l, 0 < n) :
    List.Forall₂ (· < ·) (E.sequence g l) l := by
  induction l generalizing g with
  | nil => exact .nil
  | cons n l ih => exact .cons (hE g n (hl n (by simp))) (ih _ fun m hm => hl m (by simp [hm]))

/-- **C135**: after `pbc_random_set_deterministic` the numbers drawn are determined by the seed and
the limits: whatever two programs did before, and whatever they write in between, they see the same
numbers, each below its limit. -/
theorem C135_deterministic (hE : E.Good) {s s' t t' : State E} {prog prog' : List Op} {seed : ℕ}
    (h : run s (prog ++ [.setDeterministic seed]) = some t)
    (h' : run s' (prog' ++ [.setDeterministic seed]) = some t')
    (q q' : List Op) (hq : ∀ o ∈ q, o.sel = none) (hq' : ∀ o ∈ q', o.sel = none)
    (hl : ∀ n ∈ limits q, 0 < n) (hqq : limits q = limits q') :
    ∃ l, outputs t q = some l ∧ outputs t' q' = some l ∧ List.Forall₂ (· < ·) l (limits q) := by
  have key : ∀ {s t : State E} {prog : List Op},
      run s (prog ++ [.setDeterministic seed]) = some t →
      t.rs = some (E.seeded (seed % 2 ^ 32)) ∧ t.cur = some (.det, .null) := by
    intro s t prog h
    rw [run_append] at h
    cases hr : run s prog with
    | none => rw [hr] at h; cases h
    | some u =>
      rw [hr] at h
      simp only [Option.bind_some, run, step] at h
      cases h
      exact ⟨rfl, rfl⟩
  obtain ⟨a1, a2⟩ := key h
  obtain ⟨b1, b2⟩ := key h'
  refine ⟨_, det_outputs a1 a2 q hq hl, ?_, sequence_lt hE _ _ hl⟩
  rw [hqq]
  exact det_outputs b1 b2 q' hq' (hqq ▸ hl)

/-- Steps of a program that selects nothing and draws nothing. -/
theorem quiet_step {s : State E} {o : Op} (h1 : o.sel = none) (h2 : o.draw = none) :
    ∃ t, step s o = some t ∧ t.rs = s.rs ∧ t.cur = s.cur ∧ t.opens = s.opens := by
  cases o <;> simp only [Op.sel, Op.draw, reduceCtorEq] at h1 h2
  exact ⟨_, rfl, rfl, rfl, rfl⟩

/-- **C135**: a program that selects nothing and cannot open `/dev/urandom` sees the numbers of the
seed 0: the same in all such programs. -/
theorem C135_default_deterministic (hE : E.Good) {s : State E} (hs : s.Fresh)
    (hu : E.files urandom s.opens = none) (q : List Op) (hq : ∀ o ∈ q, o.sel = none)
    (hl : ∀ n ∈ limits q, 0 < n) :
    outputs s q = some (E.sequence (E.seeded 0) (limits q)) ∧
      List.Forall₂ (· < ·) (E.sequence (E.seeded 0) (limits q)) (limits q) := by
  refine ⟨?_, sequence_lt hE _ _ hl⟩
  induction q generalizing s with
  | nil => rfl
  | cons o q ih =>
    cases hd : o.draw with
    | none =>
      obtain ⟨t, e, h1, h2, h3⟩ := quiet_step (s := s) (hq o (by simp)) hd
      have hlim : limits (o :: q) = limits q := by simp [limits, hd]
      rw [hlim] at hl ⊢
      simp only [outputs, e, Option.bind_some, hd]
      exact ih ⟨h1.trans hs.1, h2.trans hs.2⟩ (h3 ▸ hu) (fun o ho => hq o (by simp [ho])) hl
    | some zl =>
      have e : step s o = step (initRandom s) o := by
        rw [draw_step s hd, draw_step _ hd]
        simp only [mpzRandom, hs.2, initRandom, hu, setDeterministic, setFunction]
      have e' : outputs s (o :: q) = outputs (initRandom s) (o :: q) := by
        simp only [outputs, e]
      rw [e']
      refine det_outputs (g := E.seeded 0) ?_ ?_ _ hq hl
      · simp [initRandom, hu, setDeterministic, setFunction]
      · simp [initRandom, hu, setDeterministic, setFunction]

/-- **C135**: if `/dev/urandom` can be opened when the first number is drawn, it is the source of
that number and of all later ones, until the program selects another. -/
theorem C135_default_urandom {s t : State E} (hs : s.Fresh)
    (hu : E.files urandom s.opens ≠ none) (q : List Op) (hq : ∀ o ∈ q, o.sel = none)
    (h : run s q = some t) {o : Op} {z limit : ℕ} (ho : o.draw = some (z, limit))
    {bs : List (Random.Block limit)}
    (hf : ∀ n, t.opens ≤ n → n ≤ t.opens + 1 → E.files urandom n = some (Random.flat bs))
    (hj : ∀ n, (E.junk n).length ≤ Random.byteCount limit) :
    ∃ u, step t o = some u ∧
      let v := (bs.map Random.draw).find? fun n => decide (n < limit)
      (∀ n, v = some n → u.vars z = n) ∧ (v = none → u.vars z = t.vars z) ∧
      (∀ y, y ≠ z → u.vars y = t.vars y) := by
  -- after any such program the source is not chosen, and nothing was opened, or it is the device
  have inv : ∀ (q : List Op) (t : State E), (∀ o ∈ q, o.sel = none) → run s q = some t →
      (t.cur = none ∧ t.opens = s.opens) ∨ t.cur = some (.file, .literal) := by
    intro q
    induction q using List.reverseRecOn with
    | nil => intro t _ h; cases h; exact Or.inl ⟨hs.2, rfl⟩
    | append_singleton q o ih =>
      intro t hq h
      rw [run_append] at h
      cases hr : run s q with
      | none => rw [hr] at h; cases h
      | some u =>
        rw [hr] at h
        simp only [Option.bind_some, run] at h
        cases hst : step u o with
        | none => rw [hst] at h; cases h
        | some v =>
          rw [hst] at h
          cases h
          have ho := hq o (by simp)
          rcases ih u (fun o ho => hq o (by simp [ho])) hr with ⟨h1, h2⟩ | h1
          · cases hd : o.draw with
            | none =>
              obtain ⟨v', e, _, e2, e3⟩ := quiet_step (s := u) ho hd
              rw [e] at hst
              cases hst
              exact Or.inl ⟨e2.trans h1, e3.trans h2⟩
            | some zl =>
              right
              have hi : (initRandom u).cur = some (.file, .literal) := by
                cases hf : E.files urandom s.opens with
                | none => exact absurd hf hu
                | some c => simp [initRandom, h2, hf, setFile, setFunction]
              have e : mpzRandom zl.1 zl.2 u = mpzRandom zl.1 zl.2 (initRandom u) := by
                simp only [mpzRandom, h1, hi]
              rw [draw_step u hd, e] at hst
              exact random_cur hi hst
          · exact Or.inr (step_cur ho h1 hst)
  rw [draw_step t ho]
  rcases inv q t hq h with ⟨h1, h2⟩ | h1
  · have hc : initRandom t = setFile .literal { t with opens := t.opens + 1 } := by
      cases hf : E.files urandom s.opens with
      | none => exact absurd hf hu
      | some c => simp [initRandom, h2, hf]
    have e : mpzRandom z limit t
        = fileRandom z limit .literal (setFile .literal { t with opens := t.opens + 1 }) := by
      simp only [mpzRandom, h1, hc, setFile, setFunction]
    rw [e]
    obtain ⟨u, e1, e2⟩ := file_draw (t := setFile .literal { t with opens := t.opens + 1 })
      (d := .literal) (z := z) (limit := limit) rfl
      (hf (t.opens + 1) (by omega) le_rfl) (hj _)
    exact ⟨u, e1, fun n hn => (e2.value n hn).1, e2.nothing, e2.others⟩
  · simp only [mpzRandom, h1]
    obtain ⟨u, e1, e2⟩ := file_draw (t := t) (d := .literal) (z := z) (limit := limit) rfl
      (hf t.opens le_rfl (by omega)) (hj _)
    exact ⟨u, e1, fun n hn => (e2.value n hn).1, e2.nothing, e2.others⟩

/-! ### Where the code does not meet it -/

/-- **C135, discrepancy.**  `pbc_random_set_file` keeps the address of the name: when the program
reuses that memory, numbers come from another file, or from none. -/
theorem C135_name_fails {s t : State E} {prog : List Op} {a : ℕ} (text : List ℕ)
    (h : run s (prog ++ [.setFile a, .write a text]) = some t) {o : Op} {z limit : ℕ}
    (ho : o.draw = some (z, limit)) {bs : List (Random.Block limit)}
    (hf : E.files text t.opens = some (Random.flat bs))
    (hj : (E.junk t.opens).length ≤ Random.byteCount limit) :
    ∃ u, step t o = some u ∧
      FromFile t u z ((bs.map Random.draw).find? fun n => decide (n < limit)) := by
  have hm : t.mem a = text := by
    rw [run_append] at h
    cases hr : run s prog with
    | none => rw [hr] at h; cases h
    | some u =>
      rw [hr] at h
      simp only [Option.bind_some, run, step] at h
      cases h
      simp
  exact C135_file h (a := a) (by simp [lastSel, Op.sel, List.filterMap_append]; rfl) ho (by rw [hm]; exact hf) hj

/-- **C135, discrepancy.**  If the selected file cannot be opened, every draw returns and leaves the
variable as it was; nothing is reported. -/
theorem C135_missing_fails {s t : State E} {prog : List Op} {a : ℕ} (h : run s prog = some t)
    (hx : lastSel prog = some (.file a)) (hf : ∀ n, E.files (t.mem a) n = none) (ds : List (ℕ × ℕ)) :
    ∃ u, run t (ds.map fun d => .random d.1 d.2) = some u ∧ u.vars = t.vars ∧ u.warned = t.warned := by
  have hc : t.cur = some (.file, .addr a) := run_holds prog h hx
  clear h hx
  induction ds generalizing t with
  | nil => exact ⟨t, rfl, rfl, rfl⟩
  | cons d ds ih =>
    have e : step t (.random d.1 d.2) = some { t with opens := t.opens + 1 } := by
      simp only [step, mpzRandom, hc, fileRandom, name, bind, Option.bind, hf]
    obtain ⟨u, h1, h2, h3⟩ := ih (t := { t with opens := t.opens + 1 }) hf hc
    refine ⟨u, ?_, h2, h3⟩
    simp only [List.map_cons, run, e, Option.bind_some]
    exact h1

/-- **C135, discrepancy.**  The file is opened anew for every number.  If it is an ordinary file
(every opening finds the same bytes), all numbers drawn with the same limit are the same. -/
theorem C135_repeats_fails {s t : State E} {prog : List Op} {a : ℕ} (h : run s prog = some t)
    (hx : lastSel prog = some (.file a)) {limit : ℕ} {bs : List (Random.Block limit)}
    (hf : ∀ n, E.files (t.mem a) n = some (Random.flat bs))
    (hj : ∀ n, (E.junk n).length ≤ Random.byteCount limit)
    {v : ℕ} (hv : (bs.map Random.draw).find? (fun n => decide (n < limit)) = some v) (zs : List ℕ) :
    outputs t (zs.map fun z => .random z limit) = some (zs.map fun _ => v) := by
  have hc : t.cur = some (.file, .addr a) := run_holds prog h hx
  clear h hx
  induction zs generalizing t with
  | nil => rfl
  | cons z zs ih =>
    obtain ⟨u, e1, e2⟩ := file_draw (t := t) (d := .addr a) (z := z) (limit := limit) rfl
      (hf t.opens) (hj _)
    have e : step t (.random z limit) = some u := by
      simp only [step, mpzRandom, hc]
      exact e1
    have hm : u.mem = t.mem := by
      simp only [fileRandom, name, bind, Option.bind, hf] at e1
      split at e1
      · cases e1
      · dsimp only at e1
        split at e1 <;> (cases e1; rfl)
    have := ih (t := u) (by rw [hm]; exact hf) (step_cur (o := .random z limit) rfl hc e)
    simp only [List.map_cons, outputs, e, Option.bind_some, Op.draw, this, Option.map_some,
      (e2.value v hv).1]

/-- **C135, discrepancy.**  Each draw that meets the end of the file leaves a stream open: `n` draws
from an empty file leave `n`, and warn `n` times. -/
theorem C135_streams_fails {s t : State E} {prog : List Op} {a : ℕ} (h : run s prog = some t)
    (hx : lastSel prog = some (.file a)) (hf : ∀ n, E.files (t.mem a) n = some [])
    (ds : List (ℕ × ℕ)) :
    ∃ u, run t (ds.map fun d => .random d.1 d.2) = some u ∧ u.vars = t.vars ∧
      u.left = t.left + ds.length ∧ u.warned = t.warned + ds.length := by
  have hc : t.cur = some (.file, .addr a) := run_holds prog h hx
  clear h hx
  induction ds generalizing t with
  | nil => exact ⟨t, rfl, rfl, rfl, rfl⟩
  | cons d ds ih =>
    have e : step t (.random d.1 d.2) = some { t with
        opens := t.opens + 1, left := t.left + 1, warned := t.warned + 1 } := by
      simp only [step, mpzRandom, hc, fileRandom, name, bind, Option.bind, hf]
      simp [Random.fileRandom, Random.loop]
    obtain ⟨u, h1, h2, h3, h4⟩ := ih (t := { t with
        opens := t.opens + 1, left := t.left + 1, warned := t.warned + 1 }) hf hc
    refine ⟨u, ?_, h2, ?_, ?_⟩
    · simp only [List.map_cons, run, e, Option.bind_some]
      exact h1
    · rw [h3, List.length_cons]
      dsimp only
      omega
    · rw [h4, List.length_cons]
      dsimp only
      omega

/-! ## The hypotheses can be met -/

/-- A toy environment: a congruential generator, `/dev/urandom` with different bytes at each
opening, a file named `f` with the bytes 5, 200, and an empty file named `e`. -/
def toy : Env where
  G := ℕ
  start := 0
  seeded := fun s => s + 1
  urandomm := fun g n => (g % n, (5 * g + 3) % 1024)
  files := fun nm k =>
    if nm = urandom then some [k, k + 1] else if nm = [102] then some [5, 200]
    else if nm = [101] then some [] else none
  junk := fun _ => []
  user := fun k a c old limit => (k + a + c + old) % limit

/-- The same without `/dev/urandom`. -/
def bare : Env := { toy with files := fun _ _ => none }

/-- The start of a program. -/
def begin (E : Env) : State E := ⟨none, none, fun _ => [102], fun _ => 7, 0, 0, 0, 0⟩

theorem toy_good : toy.Good := fun g n h => Nat.mod_lt g h

theorem bare_good : bare.Good := fun g n h => Nat.mod_lt g h

/-- A seed chosen after numbers from other sources. -/
example : outputs (begin toy) [.random 0 100, .setFile 3, .random 1 100, .setDeterministic 8,
    .random 0 100, .write 3 [1], .randomb 2 4] = some [1, 5, 9, 0] := by decide +kernel

example : ∃ l, outputs (setDeterministic 8 (begin toy)) [.random 0 100, .randomb 2 4] = some l ∧
    l = [9, 0] := ⟨_, by decide +kernel, rfl⟩

example (t t' : State toy)
    (h : run (begin toy) ([.random 0 100, .setFile 3] ++ [.setDeterministic 8]) = some t)
    (h' : run (begin toy) ([] ++ [.setDeterministic 8]) = some t') :
    ∃ l, outputs t [.random 0 100] = some l ∧ outputs t' [.write 0 [], .random 5 100] = some l ∧
      List.Forall₂ (· < ·) l [100] :=
  C135_deterministic toy_good h h' _ _ (by simp [Op.sel]) (by simp [Op.sel]) (by simp [limits, Op.draw])
    (by simp [limits, Op.draw])

example : outputs (begin bare) [.random 0 100, .randomb 2 4] = some [1, 8] :=
  (C135_default_deterministic bare_good ⟨rfl, rfl⟩ rfl [.random 0 100, .randomb 2 4]
    (by simp [Op.sel]) (by simp [limits, Op.draw])).1.trans (by decide +kernel)

/-- Blocks of one byte. -/
def one (limit : ℕ) (b : Fin 256) : Random.Block limit := fun _ => b

/-- An ordinary file gives the same number again and again. -/
example : outputs (setFile (.addr 3) (begin toy)) ([0, 1, 2].map fun z => .random z 100)
    = some [5, 5, 5] :=
  C135_repeats_fails (s := begin toy) (prog := [.setFile 3]) (a := 3) (v := 5) rfl rfl
    (bs := [one 100 5, one 100 200]) (fun n => by
      show toy.files [102] n = _
      have h : ([102] : List ℕ) ≠ urandom := by decide
      simp only [toy, if_neg h, if_true]
      decide +kernel) (fun n => by simp [toy])
    (by decide +kernel) _

example : ∃ u, step (setFile (.addr 3) (begin toy)) (.randomb 0 3) = some u ∧
    FromFile (setFile (.addr 3) (begin toy)) u 0
      ((([one 8 5, one 8 200] : List (Random.Block (2 ^ 3))).map Random.draw).find? fun n => decide (n < 2 ^ 3)) :=
  C135_file (s := begin toy) (prog := [.setFile 3]) rfl rfl rfl
    (by decide +kernel) (by simp [toy])

example : ∃ u, run (setFile (.addr 3) (begin bare)) ([(0, 5), (1, 6)].map fun d => .random d.1 d.2)
    = some u ∧ u.vars = (fun _ => 7) ∧ u.warned = 0 :=
  C135_missing_fails (s := begin bare) (prog := [.setFile 3]) rfl rfl (fun _ => rfl) _

example : ∃ u, step (setFunction (.user 2) (.addr 3) (begin toy)) (.random 4 10) = some u ∧
    u.vars 4 = 2 := by
  obtain ⟨u, h1, h2, -⟩ := C135_function (s := begin toy) (prog := [.setFunction 2 3]) (o := .random 4 10)
    rfl rfl rfl
  exact ⟨u, h1, h2⟩

/-- Each of three draws from the empty file leaves its stream open. -/
example : ∃ u, run (setFile (.addr 3) { begin toy with mem := fun _ => [101] })
    ([(0, 5), (1, 6), (0, 9)].map fun d => .random d.1 d.2) = some u ∧ u.vars = (fun _ => 7) ∧
    u.left = 0 + 3 ∧ u.warned = 0 + 3 :=
  C135_streams_fails (s := { begin toy with mem := fun _ => [101] }) (prog := [.setFile 3]) rfl rfl
    (fun _ => rfl) _

/-- The name is overwritten: the number comes from the other file. -/
example (t : State toy) (h : run (begin toy) ([] ++ [.setFile 3, .write 3 urandom]) = some t) :
    ∃ u, step t (.random 0 100) = some u ∧ u.vars 0 = 0 := by
  have ht : t.opens = 0 := by cases h; rfl
  obtain ⟨u, h1, h2⟩ := C135_name_fails urandom h (o := .random 0 100) rfl
    (bs := [one 100 0, one 100 1]) (by rw [ht]; decide +kernel) (by simp [toy])
  exact ⟨u, h1, (h2.value 0 (by decide +kernel)).1⟩

/-- Without a selection, numbers come from the device. -/
def steady : Env := { toy with files := fun _ _ => some [130, 77] }

example : ∃ u, step (begin steady) (.random 0 100) = some u ∧ u.vars 0 = 2 := by
  obtain ⟨u, h1, h2, -⟩ := C135_default_urandom (s := begin steady) (t := begin steady) ⟨rfl, rfl⟩
    (by simp [steady]) [] (by simp) rfl (o := .random 0 100) rfl (bs := [one 100 130, one 100 77])
    (fun n _ _ => by simp only [steady]; decide +kernel) (fun n => by simp [steady, toy])
  exact ⟨u, h1, h2 2 (by decide +kernel)⟩

end Pbc.Sources
