import Verif.Spec.Printf
import Mathlib.Data.List.GetD
import Mathlib.Data.List.Forall2
import Mathlib.Tactic.Ring

/-!
# C64: formatted output
-/

set_option autoImplicit false

namespace Props

open Pbc.Printf Spec.Printf

/-- A printer that keeps the contract of `snprintf` for a text. -/
def Conforms (p : Printer) (t : List Char) : Prop := ∀ m pos n, p m pos n = snprintf t m pos n

theorem write_write (m : Mem) (pos n : ℕ) (T t : List Char) (h : T.length < n) :
    write (write m pos (T.take (n - 1) ++ ['\x00'])) (pos + T.length)
      (t.take (n - T.length - 1) ++ ['\x00']) = write m pos ((T ++ t).take (n - 1) ++ ['\x00']) := by
  have hT : T.take (n - 1) = T := List.take_of_length_le (by omega)
  have hTt : (T ++ t).take (n - 1) = T ++ t.take (n - T.length - 1) := by
    rw [List.take_append, hT]; congr 2; omega
  rw [hT, hTt]
  funext i
  simp only [write, List.length_append, List.length_singleton, List.append_assoc]
  generalize t.take (n - T.length - 1) ++ ['\x00'] = u at *
  by_cases h1 : pos + T.length ≤ i ∧ i < pos + T.length + ((t.take (n - T.length - 1)).length + 1)
  · rw [if_pos h1, if_pos (by omega), List.getD_append_right _ _ _ _ (by omega)]
    congr 1; omega
  · rw [if_neg h1]
    by_cases h2 : pos ≤ i ∧ i < pos + (T.length + 1)
    · rw [if_pos h2, if_pos (by omega), List.getD_append _ _ _ _ (by omega),
        List.getD_append _ _ _ _ (by omega)]
    · rw [if_neg h2, if_neg (by omega)]

theorem snprintf_snprintf (m : Mem) (pos n : ℕ) (T t : List Char) :
    snprintf t (snprintf T m pos n).1 (pos + T.length) (if n ≤ T.length then 0 else n - T.length) =
      ((snprintf (T ++ t) m pos n).1, t.length) := by
  rw [snprintf, snprintf, snprintf]
  by_cases hn : n = 0
  · subst hn; simp
  simp only [if_neg hn]
  by_cases h : n ≤ T.length
  · rw [if_pos h, if_pos rfl, List.take_append, Nat.sub_eq_zero_of_le (by omega : n - 1 ≤ T.length)]
    simp
  · rw [if_neg h, if_neg (by omega), write_write m pos n T t (by omega)]

theorem seqFrom_conforms {ps : List Printer} {ts : List (List Char)}
    (h : List.Forall₂ Conforms ps ts) (m : Mem) (pos n : ℕ) (T : List Char) :
    seqFrom (snprintf T m pos n).1 pos n T.length ps = snprintf (T ++ ts.flatten) m pos n := by
  induction h generalizing T with
  | nil => simp [seqFrom, snprintf]
  | cons h1 _ ih =>
    rename_i p t ps ts _
    rw [seqFrom]
    have := h1 (snprintf T m pos n).1 (pos + T.length) (if n ≤ T.length then 0 else n - T.length)
    rw [snprintf_snprintf] at this
    rw [this]
    have e := ih (T ++ t)
    rw [List.length_append] at e
    rw [e]
    simp

/-- The pieces of a nonempty list keep the contract if each does. -/
theorem seq_conforms {p : Printer} {ps : List Printer} {t : List Char} {ts : List (List Char)}
    (h1 : Conforms p t) (h : List.Forall₂ Conforms ps ts) :
    Conforms (seq (p :: ps)) (t ++ ts.flatten) := by
  intro m pos n
  rw [seq, seqFrom]
  have e := h1 m pos n
  have e0 : (if n ≤ 0 then 0 else n - 0) = n := by split_ifs <;> omega
  simp only [Nat.add_zero, Nat.zero_add, e0]
  rw [e]
  exact seqFrom_conforms h m pos n t

theorem conforms_snprintf (t : List Char) : Conforms (snprintf t) t := fun _ _ _ => rfl

theorem conforms_pair {p q : Printer} {t u : List Char} (hp : Conforms p t) (hq : Conforms q u) :
    Conforms (seq [snprintf ['['], p, snprintf [',', ' '], q, snprintf [']']])
      ("[".toList ++ t ++ ", ".toList ++ u ++ "]".toList) := by
  have := seq_conforms (conforms_snprintf ['['])
    (.cons hp (.cons (conforms_snprintf [',', ' ']) (.cons hq (.cons (conforms_snprintf [']']) .nil))))
  have e : "[".toList ++ t ++ ", ".toList ++ u ++ "]".toList =
    ['['] ++ [t, [',', ' '], u, [']']].flatten := by simp
  rw [e]
  exact this

mutual

theorem conforms_snprint : (v : Val) → Printable v → Conforms (snprint v) (text v)
  | .num z, _ => conforms_snprintf _
  | .opaque _, h => (h : False).elim
  | .quad x y, h => conforms_pair (conforms_snprint x h.1) (conforms_snprint y h.2)
  | .inf, _ => conforms_snprintf _
  | .point x y, h => conforms_pair (conforms_snprint x h.1) (conforms_snprint y h.2)
  | .coeffs l, h => by
    obtain ⟨ts, h1, h2⟩ := conforms_snprints true l h
    have := seq_conforms (conforms_snprintf ['[']) (List.rel_append h1 (.cons (conforms_snprintf [']']) .nil))
    have e : text (.coeffs l) = ['['] ++ (ts ++ [[']']]).flatten := by
      rw [text, List.flatten_append, h2]
      simp
    rw [e]
    exact this
  | .gt x, h => conforms_snprint x h

theorem conforms_snprints : (first : Bool) → (l : List Val) → Printables l →
    ∃ ts, List.Forall₂ Conforms (snprintList first l) ts ∧
      ts.flatten = (if first ∨ l = [] then [] else ", ".toList) ++ List.intercalate ", ".toList (texts l)
  | first, [], _ => ⟨[], .nil, by simp [texts]⟩
  | first, v :: l, h => by
    obtain ⟨ts, h1, h2⟩ := conforms_snprints false l h.2
    have hv := conforms_snprint v h.1
    have e : text v ++ ts.flatten = List.intercalate ", ".toList (texts (v :: l)) := by
      rw [h2, texts]
      cases l with
      | nil => simp [texts]
      | cons w l => simp [texts, List.intercalate]
    cases first with
    | true => exact ⟨text v :: ts, .cons hv h1, by simpa using e⟩
    | false =>
      exact ⟨[',', ' '] :: text v :: ts, .cons (conforms_snprintf _) (.cons hv h1), by simpa using e⟩

end

theorem contract_snprintf (m : Mem) (size : ℕ) (T : List Char) :
    Contract m (snprintf T m 0 size).1 size (snprintf T m 0 size).2 T := by
  refine ⟨rfl, fun h => by simp [snprintf, h], fun h => ?_⟩
  rw [snprintf]
  simp only [if_neg h.ne', write, Nat.zero_le, true_and, zero_add, Nat.sub_zero, List.length_append,
    List.length_take, List.length_singleton]
  refine ⟨fun i h1 h2 => ?_, ?_, fun i hi => ?_⟩
  · rw [if_pos (by omega), List.getD_append _ _ _ _ (by simp; omega),
      List.getD_eq_getElem _ _ (by simp; omega), List.getElem_take, List.getD_eq_getElem _ _ h1]
  · rw [if_pos (by omega), List.getD_append_right _ _ _ _ (by simp)]
    simp [min_comm]
  · rw [if_neg (by omega)]

/-- **C64.**  `element_snprint` of any element of a field that has a printing routine keeps the
contract of `snprintf`: nothing is stored past the given size, the result is terminated, and the
length of the full text is returned. -/
theorem C64_snprint (v : Val) (h : Printable v) (m : Mem) (size : ℕ) :
    Contract m (snprint v m 0 size).1 size (snprint v m 0 size).2 (text v) := by
  rw [conforms_snprint v h m 0 size]
  exact contract_snprintf m size (text v)

/-! ### Formats -/

/-- Literal text, with `%%`, before something else. -/
theorem scan_lit (acc t rest : List Char) (h : '%' ∉ t) : scan acc (t ++ rest) = scan (acc ++ t) rest := by
  induction t generalizing acc with
  | nil => simp
  | cons c t ih =>
    have hc : c ≠ '%' := fun e => h (by simp [e])
    have ht : '%' ∉ t := fun e => h (by simp [e])
    rw [List.cons_append, scan, ih (acc ++ [c]) ht]
    · simp
    all_goals intros; simp_all

theorem scan_percent (acc rest : List Char) : scan acc ('%' :: '%' :: rest) = scan (acc ++ ['%', '%']) rest := by
  rw [scan]

theorem scan_conv (acc : List Char) (c : Char) (rest : List Char) (hc : c ≠ '%') :
    scan acc ('%' :: c :: rest) = .conv acc (c :: rest) := by
  rw [scan]
  exact hc

theorem findConv_flags (spec fl rest : List Char)
    (h : ∀ c ∈ fl, c ∉ "diouxXeEfFgGaAcspnmZB%".toList) :
    findConv spec (fl ++ rest) = findConv (spec ++ fl) rest := by
  induction fl generalizing spec with
  | nil => simp
  | cons c fl ih =>
    have hc := h c (by simp)
    have hB : c ≠ 'B' := by rintro rfl; exact hc (by decide)
    have hn : c ∉ convChars := fun e => hc (by
      have : ∀ c ∈ convChars, c ∈ "diouxXeEfFgGaAcspnmZB%".toList := by decide
      exact this c e)
    rw [List.cons_append, findConv, if_neg hB, if_neg hn, ih _ fun x hx => h x (by simp [hx])]
    simp

/-- The events of a list of pieces after some literal text. -/
def events (acc : List Char) : List Piece → List Arg → Option (List Event)
  | [], _ => some [.str acc]
  | .lit t :: ps, args => events (acc ++ t) ps args
  | .percent :: ps, args => events (acc ++ ['%', '%']) ps args
  | .plain fl cv :: ps, .plain g :: args =>
    (events [] ps args).map fun es => .str acc :: .str (g ('%' :: fl ++ cv)) :: es
  | .elem _ :: ps, .elem v :: args => (events [] ps args).map fun es => .str acc :: .elem v :: es
  | _, _ => none

/-- `doPrint` when the scan has already passed some text. -/
def doPrintAcc (f : ℕ) (acc fmt : List Char) (args : List Arg) : Option (List Event) :=
  match scan acc fmt with
  | .last t => some [.str t]
  | .dangling => some []
  | .conv t rest =>
    match findConv ['%'] rest, args with
    | .dangling, _ => some [.str t]
    | .element rest', .elem v :: args' => (doPrint f rest' args').map fun es => .str t :: .elem v :: es
    | .format spec rest', .plain g :: args' =>
      (doPrint f rest' args').map fun es => .str t :: .str (g spec) :: es
    | _, _ => none

theorem doPrint_eq (f : ℕ) (fmt : List Char) (args : List Arg) :
    doPrint (f + 1) fmt args = doPrintAcc f [] fmt args := rfl

theorem plain_conv {cv : List Char}
    (h : (∃ c ∈ "diouxXeEfFgGaAcspnm".toList, cv = [c]) ∨ ∃ d, cv = ['Z', d]) (spec rest : List Char) :
    findConv spec (cv ++ rest) = .format (spec ++ cv) rest := by
  rcases h with ⟨c, hc, rfl⟩ | ⟨d, rfl⟩
  · have h1 : ∀ c ∈ "diouxXeEfFgGaAcspnm".toList, c ≠ 'B' ∧ c ∈ convChars ∧ c ≠ 'Z' := by decide
    obtain ⟨a, b, e⟩ := h1 c hc
    rw [List.singleton_append, findConv, if_neg a, if_pos b, if_neg e]
  · rw [List.cons_append, findConv, if_neg (by decide), if_pos (by decide), if_pos rfl]
    rfl

theorem head_ne {fl cv : List Char} (hfl : ∀ c ∈ fl, c ∉ "diouxXeEfFgGaAcspnmZB%".toList)
    (hcv : ∃ c r, cv = c :: r ∧ c ≠ '%') : ∃ c r, fl ++ cv = c :: r ∧ c ≠ '%' := by
  cases fl with
  | nil => exact hcv
  | cons c fl =>
    refine ⟨c, fl ++ cv, rfl, ?_⟩
    rintro rfl
    exact hfl '%' (by simp) (by decide)

theorem doPrint_events (ps : List Piece) (hok : ∀ p ∈ ps, p.Ok) (f : ℕ) (acc : List Char)
    (args : List Arg) (hf : (render ps).length ≤ f) (es : List Event) (he : events acc ps args = some es) :
    doPrintAcc f acc (render ps) args = some es := by
  induction ps generalizing f acc args es with
  | nil => simpa [doPrintAcc, render, scan, events] using he
  | cons p ps ih =>
    have hps := fun p' hp' => hok p' (List.mem_cons_of_mem _ hp')
    have hp := hok p (by simp)
    cases p with
    | lit t =>
      rw [doPrintAcc, render, scan_lit acc t _ hp]
      rw [render, List.length_append] at hf
      exact ih hps f _ args (by omega) es he
    | percent =>
      rw [doPrintAcc, render, scan_percent]
      rw [render, List.length_cons, List.length_cons] at hf
      exact ih hps f _ args (by omega) es he
    | plain fl cv =>
      cases args with
      | nil => simp [events] at he
      | cons a args =>
        cases a with
        | elem v => simp [events] at he
        | plain g =>
          rw [events, Option.map_eq_some_iff] at he
          obtain ⟨es', h1, rfl⟩ := he
          obtain ⟨c, r, e1, e2⟩ := head_ne hp.1 (cv := cv) (by
            rcases hp.2 with ⟨c, hc, rfl⟩ | ⟨d, rfl⟩
            · exact ⟨c, [], rfl, by rintro rfl; revert hc; decide⟩
            · exact ⟨'Z', [d], rfl, by decide⟩)
          have er : render (.plain fl cv :: ps) = '%' :: c :: (r ++ render ps) := by
            rw [render]; simp [← List.append_assoc, e1]
          have ec : c :: (r ++ render ps) = fl ++ (cv ++ render ps) := by
            rw [← List.append_assoc, e1]; rfl
          rw [doPrintAcc, er, scan_conv _ _ _ e2]
          simp only [ec]
          rw [findConv_flags _ _ _ hp.1, plain_conv hp.2]
          rw [er] at hf
          obtain ⟨f, rfl⟩ : ∃ k, f = k + 1 := ⟨f - 1, by simp at hf; omega⟩
          simp only
          rw [doPrint_eq, ih hps f [] args (by simp at hf; omega) es' h1]
          rfl
    | elem fl =>
      cases args with
      | nil => simp [events] at he
      | cons a args =>
        cases a with
        | plain g => simp [events] at he
        | elem v =>
          rw [events, Option.map_eq_some_iff] at he
          obtain ⟨es', h1, rfl⟩ := he
          obtain ⟨c, r, e1, e2⟩ := head_ne (fl := fl) hp (cv := ['B']) ⟨'B', [], rfl, by decide⟩
          have er : render (.elem fl :: ps) = '%' :: c :: (r ++ render ps) := by
            have : '%' :: fl ++ 'B' :: render ps = '%' :: ((fl ++ ['B']) ++ render ps) := by simp
            rw [render, this, e1]; rfl
          have ec : c :: (r ++ render ps) = fl ++ ('B' :: render ps) := by
            have : fl ++ ('B' :: render ps) = (fl ++ ['B']) ++ render ps := by simp
            rw [this, e1]; rfl
          rw [doPrintAcc, er, scan_conv _ _ _ e2]
          simp only [ec]
          rw [findConv_flags _ _ _ hp, findConv, if_pos rfl]
          rw [er] at hf
          obtain ⟨f, rfl⟩ : ∃ k, f = k + 1 := ⟨f - 1, by simp at hf; omega⟩
          simp only
          rw [doPrint_eq, ih hps f [] args (by simp at hf; omega) es' h1]
          rfl

/-- The text of an event. -/
def eventText : Event → List Char
  | .str t => t
  | .elem v => text v

/-- All element arguments can be printed. -/
def ArgsOk (P : Val → Prop) (args : List Arg) : Prop := ∀ v, Arg.elem v ∈ args → P v

theorem events_text (ps : List Piece) (acc : List Char) (args : List Arg) (T : List Char)
    (he : expand ['%', '%'] ps args = some T) (P : Val → Prop) (ha : ArgsOk P args) :
    ∃ es, events acc ps args = some es ∧ es ≠ [] ∧ (∀ v, Event.elem v ∈ es → P v) ∧
      (es.map eventText).flatten = acc ++ T := by
  induction ps generalizing acc args T with
  | nil =>
    obtain rfl : [] = T := by simpa [expand] using he
    exact ⟨[.str acc], rfl, by simp, by simp, by simp [eventText]⟩
  | cons p ps ih =>
    cases p with
    | lit t =>
      rw [expand, Option.map_eq_some_iff] at he
      obtain ⟨T', h1, rfl⟩ := he
      obtain ⟨es, i1, i2, i3, i4⟩ := ih (acc ++ t) args T' h1 ha
      exact ⟨es, i1, i2, i3, by rw [i4]; simp⟩
    | percent =>
      rw [expand, Option.map_eq_some_iff] at he
      obtain ⟨T', h1, rfl⟩ := he
      obtain ⟨es, i1, i2, i3, i4⟩ := ih (acc ++ ['%', '%']) args T' h1 ha
      exact ⟨es, i1, i2, i3, by rw [i4]; simp⟩
    | plain fl cv =>
      cases args with
      | nil => simp [expand] at he
      | cons a args =>
        cases a with
        | elem v => simp [expand] at he
        | plain g =>
          rw [expand, Option.map_eq_some_iff] at he
          obtain ⟨T', h1, rfl⟩ := he
          obtain ⟨es, i1, i2, i3, i4⟩ := ih [] args T' h1 fun v hv => ha v (by simp [hv])
          refine ⟨.str acc :: .str (g ('%' :: fl ++ cv)) :: es, by rw [events, i1]; rfl, by simp, ?_, ?_⟩
          · intro v hv; exact i3 v (by simpa using hv)
          · rw [List.nil_append] at i4
            simp [eventText, ← i4]
    | elem fl =>
      cases args with
      | nil => simp [expand] at he
      | cons a args =>
        cases a with
        | plain g => simp [expand] at he
        | elem v =>
          rw [expand, Option.map_eq_some_iff] at he
          obtain ⟨T', h1, rfl⟩ := he
          obtain ⟨es, i1, i2, i3, i4⟩ := ih [] args T' h1 fun v hv => ha v (by simp [hv])
          refine ⟨.str acc :: .elem v :: es, by rw [events, i1]; rfl, by simp, ?_, ?_⟩
          · intro w hw
            rcases (by simpa using hw : w = v ∨ Event.elem w ∈ es) with rfl | hw
            · exact ha _ (by simp)
            · exact i3 w hw
          · rw [List.nil_append] at i4
            simp [eventText, ← i4]

/-- **C64.**  For every format made of text, `%%`, conversions and `%B`, every size and all elements
with a printing routine: `element_snprintf` keeps the contract of `snprintf` for the full output, in
which `%%` stands for itself (see `C64_percent_fails`). -/
theorem C64_snprintf_partial (ps : List Piece) (hok : ∀ p ∈ ps, p.Ok) (args : List Arg)
    (ha : ArgsOk Printable args) (T : List Char) (he : expand ['%', '%'] ps args = some T) (m : Mem)
    (size : ℕ) :
    ∃ out result, vsnprintf m size (render ps) args = some (out, result) ∧
      Contract m out size result T := by
  obtain ⟨es, i1, i2, i3, i4⟩ := events_text ps [] args T he Printable ha
  have h1 := doPrint_events ps hok _ [] args le_rfl es i1
  have hc : ∀ es : List Event, (∀ v, Event.elem v ∈ es → Printable v) →
      List.Forall₂ Conforms (es.map printer) (es.map eventText) := by
    intro es
    induction es with
    | nil => intro _; exact .nil
    | cons e es ih =>
      intro h
      refine .cons ?_ (ih fun v hv => h v (by simp [hv]))
      cases e with
      | str t => exact conforms_snprintf t
      | elem v => exact conforms_snprint v (h v (by simp))
  refine ⟨_, _, by rw [vsnprintf, doPrint_eq, h1]; rfl, ?_⟩
  obtain ⟨e, es, rfl⟩ := List.exists_cons_of_ne_nil i2
  have h2 := hc _ i3
  rw [List.map_cons, List.map_cons, List.forall₂_cons] at h2
  have h3 := seq_conforms h2.1 h2.2 m 0 size
  rw [← List.flatten_cons, ← List.map_cons (f := eventText), i4, List.nil_append] at h3
  have h4 := contract_snprintf m size T
  rw [← h3] at h4
  exact h4

/-- **C64.**  Plain text is copied unchanged. -/
theorem C64_plain (t : List Char) (h : '%' ∉ t) (m : Mem) (size : ℕ) :
    ∃ out result, vsnprintf m size t [] = some (out, result) ∧ Contract m out size result t := by
  have := C64_snprintf_partial [.lit t] (by simpa [Piece.Ok] using h) []
    (fun v hv => by simp at hv) t (by simp [expand]) m size
  simpa [render] using this

/-- **C64, discrepancy.**  `%%` is printed as two characters, wherever it stands; `gmp_printf` would
print one. -/
theorem C64_percent_fails (t u : List Char) (ht : '%' ∉ t) (hu : '%' ∉ u) (m : Mem) :
    ∃ out, vsnprintf m (t.length + u.length + 3) (t ++ "%%".toList ++ u) [] =
        some (out, t.length + u.length + 2) ∧
      out t.length = '%' ∧ out (t.length + 1) = '%' ∧
      expand ['%'] [.lit t, .percent, .lit u] [] = some (t ++ '%' :: u) := by
  obtain ⟨out, result, h1, h2, h3, h4⟩ := C64_snprintf_partial [.lit t, .percent, .lit u]
    (by simp [Piece.Ok, ht, hu]) [] (fun v hv => by simp at hv) (t ++ '%' :: '%' :: u)
    (by simp [expand]) m (t.length + u.length + 3)
  have hl : (t ++ '%' :: '%' :: u).length = t.length + u.length + 2 := by simp; omega
  obtain ⟨h5, _⟩ := h4 (by omega)
  refine ⟨out, ?_, ?_, ?_, by simp [expand]⟩
  · have : t ++ "%%".toList ++ u = render [.lit t, .percent, .lit u] := by simp [render]
    rw [this, h1, h2, hl]
  · rw [h5 _ (by omega) (by omega), List.getD_append_right _ _ _ _ (by omega)]; simp
  · rw [h5 _ (by omega) (by omega), List.getD_append_right _ _ _ _ (by omega)]; simp

/-- **C64, discrepancy.**  An element of a field without a printing routine of its own, printed with
room for one byte, leaves the buffer without a terminating NUL. -/
theorem C64_default_fails (z : ℤ) (m : Mem) :
    ∃ out, vsnprintf m 1 "%B".toList [.elem (.opaque z)] = some (out, 1) ∧ out 0 = '0' := by
  refine ⟨_, rfl, ?_⟩
  simp [seq, seqFrom, printer, snprintf, snprint, defaultSnprint, write]

/-- **C64, discrepancy.**  If the format ends in a single `%`, the text before it is lost, and the
buffer is not written at all: it need not be terminated. -/
theorem C64_dangling_fails (t : List Char) (h : '%' ∉ t) (m : Mem) (size : ℕ) :
    vsnprintf m size (t ++ ['%']) [] = some (m, 0) := by
  rw [vsnprintf, doPrint_eq, doPrintAcc, scan_lit [] t ['%'] h]
  rfl

/-- **C64, discrepancy.**  A format that ends in `%Z` makes the library write past its copy of the
format. -/
theorem C64_overrun_fails (t : List Char) (h : '%' ∉ t) (m : Mem) (size : ℕ) (args : List Arg) :
    vsnprintf m size (t ++ ['%', 'Z']) args = none := by
  rw [vsnprintf, doPrint_eq, doPrintAcc, scan_lit [] t ['%', 'Z'] h, scan_conv _ _ _ (by decide)]
  cases args with
  | nil => rfl
  | cons a args => cases a <;> rfl

/-! ### Files -/

mutual

theorem outStr_text : (v : Val) → (outStr v).1 = text v
  | .num _ => rfl
  | .opaque _ => rfl
  | .quad x y => by rw [outStr, text, outStr_text x, outStr_text y]; simp
  | .inf => rfl
  | .point x y => by rw [outStr, text, outStr_text x, outStr_text y]; simp
  | .coeffs l => by rw [outStr, text, outStrs_text true l]; simp
  | .gt x => by rw [outStr, text, outStr_text x]

theorem outStrs_text : (first : Bool) → (l : List Val) →
    (outStrList first l).1 =
      (if first ∨ l = [] then [] else ", ".toList) ++ List.intercalate ", ".toList (texts l)
  | first, [] => by simp [outStrList, texts]
  | first, v :: l => by
    have h2 := outStrs_text false l
    have hv := outStr_text v
    have e : text v ++ (outStrList false l).1 = List.intercalate ", ".toList (texts (v :: l)) := by
      rw [h2, texts]
      cases l with
      | nil => simp [texts]
      | cons w l => simp [texts, List.intercalate]
    rw [outStrList, ← e, hv]
    cases first <;> simp

end

mutual

theorem outStr_count : (v : Val) → NoQuad v → (outStr v).2 = (outStr v).1.length
  | .num _, _ => rfl
  | .opaque _, _ => rfl
  | .quad _ _, h => (h : False).elim
  | .inf, _ => rfl
  | .point x y, h => by
    rw [outStr]
    simp only [outStr_count x h.1, outStr_count y h.2, List.length_append, List.length_cons,
      List.length_nil]
    omega
  | .coeffs l, h => by
    rw [outStr]
    simp only [outStrs_count true l h, List.length_append, List.length_cons, List.length_nil]
    omega
  | .gt x, h => by rw [outStr]; exact outStr_count x h

theorem outStrs_count : (first : Bool) → (l : List Val) → NoQuads l →
    (outStrList first l).2 = (outStrList first l).1.length
  | _, [], _ => rfl
  | first, v :: l, h => by
    rw [outStrList]
    simp only [outStr_count v h.1, outStrs_count false l h.2, List.length_append]
    cases first <;> simp

end

/-- **C64.**  `element_fprintf` writes the full output, the same text as `element_snprintf`, and
returns its length; the length is right as long as no element of a quadratic extension is printed. -/
theorem C64_fprintf_partial (ps : List Piece) (hok : ∀ p ∈ ps, p.Ok) (args : List Arg)
    (T : List Char) (he : expand ['%', '%'] ps args = some T) :
    ∃ result, vfprintf (render ps) args = some (T, result) ∧ (ArgsOk NoQuad args → result = T.length) := by
  obtain ⟨es, i1, i2, i3, i4⟩ := events_text ps [] args T he (fun v => Arg.elem v ∈ args)
    (fun v hv => hv)
  have h1 := doPrint_events ps hok _ [] args le_rfl es i1
  have hT : (es.map fun e => (toFile e).1).flatten = T := by
    rw [List.nil_append] at i4
    rw [← i4]
    congr 1
    apply List.map_congr_left
    intro e _
    cases e with
    | str t => rfl
    | elem v => exact outStr_text v
  refine ⟨_, by rw [vfprintf, doPrint_eq, h1, Option.map_some, hT], fun ha => ?_⟩
  rw [← hT, List.length_flatten, List.map_map]
  congr 1
  apply List.map_congr_left
  intro e hm
  cases e with
  | str t => rfl
  | elem v => exact outStr_count v (ha v (i3 v hm))

/-- **C64, discrepancy.**  The count for an element of a quadratic extension leaves out the brackets
and the separator. -/
theorem C64_quad_count_fails (x y : Val) (hx : NoQuad x) (hy : NoQuad y) :
    ∃ T result, vfprintf "%B".toList [.elem (.quad x y)] = some (T, result) ∧
      T.length = result + 4 := by
  refine ⟨_, _, rfl, ?_⟩
  simp [toFile, outStr, outStr_count x hx, outStr_count y hy]
  omega

/-- A point and a number in a buffer of ten bytes. -/
example : ∃ out, vsnprintf (fun _ => '~') 10 "P=%B n=%#Zx.".toList
      [.elem (.point (.num 12) (.num 7)), .plain fun _ => "0xff".toList] = some (out, 17) ∧
    (List.range 12).map out = "P=[12, 7]".toList ++ ['\x00', '~', '~'] := by
  have h : (vsnprintf (fun _ => '~') 10 "P=%B n=%#Zx.".toList
      [.elem (.point (.num 12) (.num 7)), .plain fun _ => "0xff".toList]).map
      (fun p => (p.2, (List.range 12).map p.1)) =
      some (17, "P=[12, 7]".toList ++ ['\x00', '~', '~']) := by decide +kernel
  rw [Option.map_eq_some_iff] at h
  obtain ⟨⟨out, n⟩, h1, h2⟩ := h
  simp only [Prod.mk.injEq] at h2
  exact ⟨out, by rw [h1, h2.1], h2.2⟩

example : ∀ p ∈ [Piece.lit "P=".toList, .elem [], .lit " n=".toList, .plain ['#'] ['Z', 'x'],
    .lit ".".toList], p.Ok := by
  intro p hp
  simp only [List.mem_cons, List.not_mem_nil, or_false] at hp
  rcases hp with rfl | rfl | rfl | rfl | rfl <;> simp [Piece.Ok]

end Props
