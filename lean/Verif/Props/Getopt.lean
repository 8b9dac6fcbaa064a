import Verif.Model.Getopt
import Mathlib.Data.List.Basic
import Mathlib.Tactic.Common
import Mathlib.Data.Nat.Notation

/-! # C139: the options of a command -/

set_option autoImplicit false

namespace Spec.Getopt

/-- The options: a letter, and whether it takes an argument. -/
abbrev Table := List (Char × Bool)

/-- How a program tells `getopt` its options. -/
def optstring (T : Table) : List Char := T.flatMap fun x => x.1 :: if x.2 then [':'] else []

/-- An option given, with its argument; `'?'` stands for one not in the table or without the argument it takes. -/
abbrev Answer := Char × Option (List Char)

/-- The letters after a dash, the words that follow; the options given, and the words left. -/
inductive Letters (T : Table) : List Char → List (List Char) → List Answer → List (List Char) → Prop
  | nil {ws} : Letters T [] ws [] ws
  | flag {c l ws a ws'} : T.lookup c = some false → Letters T l ws a ws' → Letters T (c :: l) ws ((c, none) :: a) ws'
  | unknown {c l ws a ws'} : T.lookup c = none → Letters T l ws a ws' → Letters T (c :: l) ws (('?', none) :: a) ws'
  | inside {c l ws} : T.lookup c = some true → l ≠ [] → Letters T (c :: l) ws [(c, some l)] ws
  | apart {c w ws} : T.lookup c = some true → Letters T [c] (w :: ws) [(c, some w)] ws
  | missing {c} : T.lookup c = some true → Letters T [c] [] [('?', none)] []

/-- The words of a command after its name; the options given, and the operands: these begin with the first word that does not
begin with a dash, or is only a dash, or after the word of two dashes. -/
inductive Command (T : Table) : List (List Char) → List Answer → List (List Char) → Prop
  | empty : Command T [] [] []
  | operand {w ws} : (w.head? ≠ some '-' ∨ w = ['-']) → Command T (w :: ws) [] (w :: ws)
  | dashes {ws} : Command T (['-', '-'] :: ws) [] ws
  | letters {l ws a ws' a' ops} : l ≠ [] → l ≠ ['-'] → Letters T l ws a ws' → Command T ws' a' ops →
      Command T (('-' :: l) :: ws) (a ++ a') ops

end Spec.Getopt

namespace Pbc.Getopt

open Spec.Getopt

variable {T : Table}

theorem strchr_self (c : Char) (s : List Char) : strchr (c :: s) c = some (c :: s) := by
  simp [strchr]

theorem strchr_skip {c d : Char} (h : d ≠ c) (s : List Char) : strchr (d :: s) c = strchr s c := by
  simp [strchr, List.dropWhile_cons, h]

theorem strchr_none {c : Char} (hc : c ≠ ':') (h : T.lookup c = none) : strchr (optstring T) c = none := by
  induction T with
  | nil => rfl
  | cons x T ih =>
    obtain ⟨d, b⟩ := x
    rw [List.lookup_cons] at h
    split at h
    · exact absurd h (by simp)
    · rename_i hd
      have hd : d ≠ c := fun e => by simp [e] at hd
      have ih := ih h
      cases b
      · exact (strchr_skip hd _).trans ih
      · exact (strchr_skip hd _).trans ((strchr_skip (Ne.symm hc) _).trans ih)

theorem strchr_some {c : Char} {b : Bool} (hT : ∀ x ∈ T, x.1 ≠ ':') (h : T.lookup c = some b) :
    ∃ t, strchr (optstring T) c = some (c :: t) ∧ (t.head? = some ':' ↔ b = true) := by
  induction T with
  | nil => simp at h
  | cons x T ih =>
    obtain ⟨d, b'⟩ := x
    rw [List.lookup_cons] at h
    split at h
    · rename_i hd
      have hd : d = c := (beq_iff_eq.1 hd).symm
      subst hd
      rw [Option.some.injEq] at h
      subst h
      refine ⟨_, strchr_self _ _, ?_⟩
      cases b'
      · simp only [Bool.false_eq_true, if_false, List.nil_append, iff_false]
        cases T with
        | nil => simp
        | cons y T =>
          have := hT y (by simp)
          simpa using this
      · simp
    · rename_i hd
      have hd : d ≠ c := fun e => by simp [e] at hd
      obtain ⟨t, e, ht⟩ := ih (fun x hx => hT x (by simp [hx])) h
      refine ⟨t, ?_, ht⟩
      cases b'
      · exact (strchr_skip hd _).trans e
      · refine (strchr_skip hd _).trans ((strchr_skip ?_ _).trans e)
        rintro rfl
        have : (':', b) ∈ T := by
          clear ih e hT
          induction T with
          | nil => simp at h
          | cons y T ih =>
            rw [List.lookup_cons] at h
            split at h
            · rename_i hy
              rw [Option.some.injEq] at h
              have : ':' = y.1 := by simpa using hy
              rw [this, ← h]
              simp
            · simp [ih h]
        exact hT (':', b) (by simp [this]) rfl

/-- No word is being read. -/
def Idle (nx : Option (List Char)) : Prop := nx = none ∨ nx = some []

theorem getopt_word {argv : List (List Char)} {os : List Char} {i : ℕ} {nx : Option (List Char)} (hi : 0 < i)
    (h : Idle nx) : getopt argv os ⟨i, nx⟩ = word argv os i nx := by
  rcases h with rfl | rfl <;> simp [getopt, show i ≠ 0 by omega]

theorem getopt_one {argv : List (List Char)} {os : List Char} {i : ℕ} {c : Char} {w : List Char} (hi : 0 < i) :
    getopt argv os ⟨i, some (c :: w)⟩ = one argv os i c w := by
  simp [getopt, show i ≠ 0 by omega]

theorem lookup_colon (hT : ∀ x ∈ T, x.1 ≠ ':') : T.lookup ':' = none := by
  rw [List.lookup_eq_none_iff]
  intro x hx
  exact bne_iff_ne.2 (Ne.symm (hT x hx))

variable {argv : List (List Char)}

theorem one_unknown (hT : ∀ x ∈ T, x.1 ≠ ':') {c : Char} (h : T.lookup c = none) (i : ℕ) (l : List Char) :
    one argv (optstring T) i c l = (⟨i, some l⟩, ⟨some '?', none⟩) := by
  rw [one]
  by_cases hc : c = ':'
  · split
    · rfl
    · rw [if_pos hc]
  · rw [strchr_none hc h]

theorem ne_colon (hT : ∀ x ∈ T, x.1 ≠ ':') {c : Char} {b : Bool} (h : T.lookup c = some b) : c ≠ ':' := by
  rintro rfl
  rw [lookup_colon hT] at h
  exact absurd h (by simp)

theorem one_flag (hT : ∀ x ∈ T, x.1 ≠ ':') {c : Char} (h : T.lookup c = some false) (i : ℕ) (l : List Char) :
    one argv (optstring T) i c l = (⟨i, some l⟩, ⟨some c, none⟩) := by
  obtain ⟨t, e, ht⟩ := strchr_some hT h
  rw [one, e]
  dsimp only
  rw [if_neg (ne_colon hT h), if_neg (show ¬ (c :: t).tail.head? = some ':' by simp [ht])]

theorem one_inside (hT : ∀ x ∈ T, x.1 ≠ ':') {c : Char} (h : T.lookup c = some true) (i : ℕ) {l : List Char} (hl : l ≠ []) :
    one argv (optstring T) i c l = (⟨i, none⟩, ⟨some c, some l⟩) := by
  obtain ⟨t, e, ht⟩ := strchr_some hT h
  rw [one, e]
  dsimp only
  rw [if_neg (ne_colon hT h), if_pos (show (c :: t).tail.head? = some ':' by simp [ht]), if_pos hl]

theorem one_apart (hT : ∀ x ∈ T, x.1 ≠ ':') {c : Char} (h : T.lookup c = some true) (i : ℕ) :
    one argv (optstring T) i c [] = match argv[i]? with
      | some w => (⟨i + 1, some []⟩, ⟨some c, some w⟩)
      | none => (⟨i, some []⟩, ⟨some '?', none⟩) := by
  obtain ⟨t, e, ht⟩ := strchr_some hT h
  rw [one, e]
  dsimp only
  rw [if_neg (ne_colon hT h), if_pos (show (c :: t).tail.head? = some ':' by simp [ht]), if_neg (by simp)]
  rfl

theorem get_of_drop {i : ℕ} {w : List Char} {ws : List (List Char)} (h : argv.drop i = w :: ws) :
    argv[i]? = some w ∧ argv.drop (i + 1) = ws := by
  constructor
  · rw [← List.head?_drop, h, List.head?_cons]
  · rw [← List.drop_drop, h]
    rfl

theorem get_of_drop_nil {i : ℕ} (h : argv.drop i = []) : argv[i]? = none := by
  rw [← List.head?_drop, h, List.head?_nil]

theorem run_letters (hT : ∀ x ∈ T, x.1 ≠ ':') {l : List Char} {ws ws' : List (List Char)} {a : List Answer}
    (h : Letters T l ws a ws') : ∀ i, 0 < i → argv.drop i = ws → ∃ i' nx, 0 < i' ∧ argv.drop i' = ws' ∧ Idle nx ∧
      ∀ n, run argv (optstring T) (n + a.length) ⟨i, some l⟩ =
        (run argv (optstring T) n ⟨i', nx⟩).map fun r => (a ++ r.1, r.2) := by
  induction h with
  | nil =>
    intro i hi hd
    refine ⟨i, some [], hi, hd, .inr rfl, fun n => ?_⟩
    simp
  | flag hc _ ih =>
    intro i hi hd
    obtain ⟨i', nx, h0, h1, h2, h3⟩ := ih i hi hd
    refine ⟨i', nx, h0, h1, h2, fun n => ?_⟩
    rw [List.length_cons, ← Nat.add_assoc, run, getopt_one hi, one_flag hT hc]
    dsimp only
    rw [h3, Option.map_map]
    rfl
  | unknown hc _ ih =>
    intro i hi hd
    obtain ⟨i', nx, h0, h1, h2, h3⟩ := ih i hi hd
    refine ⟨i', nx, h0, h1, h2, fun n => ?_⟩
    rw [List.length_cons, ← Nat.add_assoc, run, getopt_one hi, one_unknown hT hc]
    dsimp only
    rw [h3, Option.map_map]
    rfl
  | inside hc hl =>
    intro i hi hd
    refine ⟨i, none, hi, hd, .inl rfl, fun n => ?_⟩
    rw [List.length_singleton, run, getopt_one hi, one_inside hT hc _ hl]
    rfl
  | apart hc =>
    intro i hi hd
    obtain ⟨e1, e2⟩ := get_of_drop hd
    refine ⟨i + 1, some [], by omega, e2, .inr rfl, fun n => ?_⟩
    rw [List.length_singleton, run, getopt_one hi, one_apart hT hc, e1]
    rfl
  | missing hc =>
    intro i hi hd
    refine ⟨i, some [], hi, hd, .inr rfl, fun n => ?_⟩
    rw [List.length_singleton, run, getopt_one hi, one_apart hT hc, get_of_drop_nil hd]
    rfl

theorem Letters.ne_nil {l : List Char} {ws ws' : List (List Char)} {a : List Answer} (h : Letters T l ws a ws')
    (hl : l ≠ []) : a ≠ [] := by
  cases h <;> simp_all

theorem run_command (hT : ∀ x ∈ T, x.1 ≠ ':') {ws ops : List (List Char)} {a : List Answer} (h : Command T ws a ops) :
    ∀ i nx, 0 < i → Idle nx → argv.drop i = ws → ∃ s, argv.drop s.optind = ops ∧
      ∀ n, run argv (optstring T) (n + a.length + 1) ⟨i, nx⟩ = some (a, s, ops.head?) := by
  induction h with
  | empty =>
    intro i nx hi hx hd
    refine ⟨⟨i, nx⟩, hd, fun n => ?_⟩
    rw [run, getopt_word hi hx, word, get_of_drop_nil hd]
    rfl
  | @operand w ws hw =>
    intro i nx hi hx hd
    refine ⟨⟨i, nx⟩, hd, fun n => ?_⟩
    rw [run, getopt_word hi hx, word, (get_of_drop hd).1]
    split
    · rename_i s s' o e
      split at e
      · rename_i c w' e'
        rw [Option.some.injEq] at e'
        subst e'
        simp at hw
      · simp only [Prod.mk.injEq, Ret.mk.injEq] at e
        obtain ⟨rfl, -, rfl⟩ := e
        rfl
    · rename_i s s' o e
      split at e
      · rename_i c w' e'
        rw [Option.some.injEq] at e'
        subst e'
        simp at hw
      · simp at e
  | @dashes ws =>
    intro i nx hi hx hd
    obtain ⟨e1, e2⟩ := get_of_drop hd
    refine ⟨⟨i + 1, nx⟩, e2, fun n => ?_⟩
    rw [run, getopt_word hi hx, word, e1]
    simp only [and_self, if_true]
    rw [← List.head?_drop, e2]
  | @letters l ws a ws' a' ops hl hl' hL _ ih =>
    intro i nx hi hx hd
    obtain ⟨e1, e2⟩ := get_of_drop hd
    obtain ⟨i', nx', h0, h1, h2, h3⟩ := run_letters hT hL (i + 1) (by omega) e2
    obtain ⟨s, hs, h4⟩ := ih i' nx' h0 h2 h1
    refine ⟨s, hs, fun n => ?_⟩
    obtain ⟨c, l, rfl⟩ := List.exists_cons_of_ne_nil hl
    have hw : word argv (optstring T) i nx = one argv (optstring T) (i + 1) c l := by
      rw [word, e1]
      show (if _ then _ else _) = _
      rw [if_neg]
      rintro ⟨rfl, rfl⟩
      exact hl' rfl
    have hrun : ∀ m, run argv (optstring T) (m + 1) ⟨i, nx⟩ = run argv (optstring T) (m + 1) ⟨i + 1, some (c :: l)⟩ := fun m => by
      rw [run, run, getopt_word hi hx, getopt_one (by omega), hw]
    rw [hrun, List.length_append, show n + (a.length + a'.length) + 1 = (n + a'.length + 1) + a.length by omega, h3, h4]
    rfl

theorem letters_total (T : Table) (l : List Char) (ws : List (List Char)) :
    ∃ a ws', Letters T l ws a ws' ∧ a.length ≤ l.length ∧ ws'.length ≤ ws.length ∧
      (ws'.map List.length).sum ≤ (ws.map List.length).sum := by
  induction l with
  | nil => exact ⟨[], ws, .nil, Nat.le_refl _, Nat.le_refl _, Nat.le_refl _⟩
  | cons c l ih =>
    obtain ⟨a, ws', h, h1, h2, h3⟩ := ih
    cases e : T.lookup c with
    | none => exact ⟨_, _, .unknown e h, by simpa using h1, h2, h3⟩
    | some b =>
      cases b with
      | false => exact ⟨_, _, .flag e h, by simpa using h1, h2, h3⟩
      | true =>
        cases l with
        | cons d l => exact ⟨_, _, .inside e (by simp), by simp, Nat.le_refl _, Nat.le_refl _⟩
        | nil =>
          cases ws with
          | nil => exact ⟨_, _, .missing e, by simp, Nat.le_refl _, Nat.le_refl _⟩
          | cons w ws => exact ⟨_, _, .apart e, by simp, by simp, by simp⟩

theorem command_total (T : Table) : ∀ (n : ℕ) (ws : List (List Char)), ws.length ≤ n →
    ∃ a ops, Command T ws a ops ∧ a.length ≤ (ws.map List.length).sum
  | _, [], _ => ⟨[], [], .empty, by simp⟩
  | n + 1, w :: ws, hn => by
    by_cases hw : w.head? ≠ some '-' ∨ w = ['-']
    · exact ⟨[], _, .operand hw, by simp⟩
    · rw [not_or, not_not] at hw
      obtain ⟨l, rfl⟩ : ∃ l, w = '-' :: l := by
        cases w with
        | nil => simp at hw
        | cons c l =>
          simp at hw
          exact ⟨l, by rw [hw.1]⟩
      by_cases hl : l = ['-']
      · rw [hl]
        exact ⟨[], _, .dashes, by simp⟩
      · obtain ⟨a, ws', h, h1, h2, h3⟩ := letters_total T l ws
        obtain ⟨a', ops, h', h4⟩ := command_total T n ws' (by simp at hn; omega)
        refine ⟨_, _, .letters (fun h => hw.2 (by rw [h])) hl h h', ?_⟩
        simp only [List.length_append, List.map_cons, List.sum_cons, List.length_cons]
        omega

/-- **C139.**  However a command is written, calling `getopt` until it returns -1 gives the options in the order and with the
arguments they were given, and leaves `optind` at the first operand and `optarg` pointing to it.  This takes no more calls than the
words have characters, and one; setting `optind` to 0 starts again, whatever was read before. -/
theorem C139_getopt (T : Table) (hT : ∀ x ∈ T, x.1 ≠ ':') (name : List Char) (ws : List (List Char)) :
    ∃ a ops, Command T ws a ops ∧ ∀ (nx : Option (List Char)) (n : ℕ), (ws.map List.length).sum < n →
      ∃ s, run (name :: ws) (optstring T) n ⟨0, nx⟩ = some (a, s, ops.head?) ∧ (name :: ws).drop s.optind = ops := by
  obtain ⟨a, ops, h, hl⟩ := command_total T ws.length ws (Nat.le_refl _)
  refine ⟨a, ops, h, fun nx n hn => ?_⟩
  obtain ⟨s, hs, hr⟩ := run_command (argv := name :: ws) hT h 1 none (by omega) (.inl rfl) rfl
  refine ⟨s, ?_, hs⟩
  have := hr (n - a.length - 1)
  rw [show n - a.length - 1 + a.length + 1 = n by omega] at this
  rw [← this]
  obtain ⟨m, rfl⟩ : ∃ m, n = m + 1 := ⟨n - 1, by omega⟩
  rw [run, run]
  rfl

/-- **C139.**  There is only one way to read a command. -/
theorem C139_unique (T : Table) (hT : ∀ x ∈ T, x.1 ≠ ':') (ws : List (List Char)) {a a' : List Answer}
    {ops ops' : List (List Char)} (h : Command T ws a ops) (h' : Command T ws a' ops') : a = a' ∧ ops = ops' := by
  obtain ⟨s, hs, hr⟩ := run_command (argv := [] :: ws) hT h 1 none (by omega) (.inl rfl) rfl
  obtain ⟨s', hs', hr'⟩ := run_command (argv := [] :: ws) hT h' 1 none (by omega) (.inl rfl) rfl
  have e := hr a'.length
  rw [Nat.add_comm a'.length, hr' a.length] at e
  simp only [Option.some.injEq, Prod.mk.injEq] at e
  exact ⟨e.1.symm, by rw [← hs, ← hs', e.2.1]⟩

/-- Flags together, an argument inside its word and one apart, an unknown letter, and an operand that looks like an option. -/
example : run (["cmd", "-ab", "-ofile", "-o", "-a", "-z", "--", "-b"].map String.toList)
    (optstring [('a', false), ('b', false), ('o', true)]) 22 ⟨0, none⟩ =
    some ([('a', none), ('b', none), ('o', some "file".toList), ('o', some "-a".toList), ('?', none)],
      ⟨7, some []⟩, some "-b".toList) := by
  decide +kernel

example := C139_getopt [('a', false), ('b', false), ('o', true)] (by decide) "cmd".toList
  (["-ab", "-ofile", "-o", "-a", "-z", "--", "-b"].map String.toList)

/-- The letters of words that begin with a dash, up to the first operand. -/
def Spec.letters : List (List Char) → List Char × List (List Char)
  | ('-' :: c :: l) :: ws =>
    if c = '-' ∧ l = [] then ([], ws) else let r := letters ws; (c :: l ++ r.1, r.2)
  | ws => ([], ws)

theorem letters_y (l : List Char) (ws : List (List Char)) :
    Letters [('y', false)] l ws (l.map fun c => (if c = 'y' then 'y' else '?', none)) ws := by
  induction l with
  | nil => exact .nil
  | cons c l ih =>
    rw [List.map_cons]
    by_cases hc : c = 'y'
    · subst hc
      exact .flag rfl ih
    · rw [if_neg hc]
      refine .unknown ?_ ih
      simp [List.lookup_cons, beq_eq_false_iff_ne.2 hc]

theorem command_y : (ws : List (List Char)) →
    Command [('y', false)] ws ((Spec.letters ws).1.map fun c => (if c = 'y' then 'y' else '?', none)) (Spec.letters ws).2
  | [] => .empty
  | w :: ws => by
    rw [Spec.letters.eq_def]
    split
    · rename_i c l ws' e
      rw [List.cons.injEq] at e
      obtain ⟨rfl, rfl⟩ := e
      by_cases h : c = '-' ∧ l = []
      · rw [if_pos h, h.1, h.2]
        exact .dashes
      · rw [if_neg h]
        dsimp only
        rw [List.map_append]
        exact .letters (by simp) (by simpa using h) (letters_y (c :: l) ws) (command_y ws)
    · rename_i hw
      refine .operand ?_
      rcases w with _ | ⟨c, _ | ⟨d, l⟩⟩
      · simp
      · by_cases hc : c = '-'
        · simp [hc]
        · simp [hc]
      · refine .inl fun hc => hw d l ws ?_
        simp only [List.head?_cons, Option.some.injEq] at hc
        rw [hc]

/-- **C139** for the calculator: it is in the mode of `-y` exactly if the letter is among those given before the first operand,
every other letter is reported, and the file read is the first operand. -/
theorem C139_calculator (name : List Char) (ws : List (List Char)) (nx : Option (List Char)) (n : ℕ)
    (hn : (ws.map List.length).sum < n) :
    options (name :: ws) n ⟨0, nx⟩ = some (decide ('y' ∈ (Spec.letters ws).1), (Spec.letters ws).1.countP (· ≠ 'y'),
      (Spec.letters ws).2.head?) := by
  obtain ⟨a, ops, h, hr⟩ := C139_getopt [('y', false)] (by decide) name ws
  obtain ⟨rfl, rfl⟩ := C139_unique _ (by decide) ws h (command_y ws)
  obtain ⟨s, e, hd⟩ := hr nx n hn
  rw [options, show ['y'] = optstring [('y', false)] from rfl, e, Option.map_some, ← List.head?_drop, hd]
  have h1 : ∀ l : List Char, ((l.map fun c => ((if c = 'y' then 'y' else '?', none) : Answer)).any (·.1 = 'y')) = decide ('y' ∈ l) := by
    intro l
    induction l with
    | nil => rfl
    | cons c l ih =>
      rw [List.map_cons, List.any_cons, ih]
      by_cases hc : c = 'y'
      · simp [hc]
      · simp [hc, Ne.symm hc]
  have h2 : ∀ l : List Char, ((l.map fun c => ((if c = 'y' then 'y' else '?', none) : Answer)).countP (·.1 ≠ 'y')) =
      l.countP (· ≠ 'y') := by
    intro l
    rw [List.countP_map]
    refine List.countP_congr fun c _ => ?_
    by_cases hc : c = 'y' <;> simp [hc]
  rw [h1, h2]

example : options (["pbc", "-qy", "prog", "-y"].map String.toList) 12 ⟨0, none⟩ = some (true, 1, some "prog".toList) := by
  rw [List.map_cons, C139_calculator _ _ _ _ (by decide)]
  decide +kernel

end Pbc.Getopt
