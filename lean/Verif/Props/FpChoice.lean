import Verif.Model.FpChoice
import Verif.Props.Fp
import Verif.Props.FpBugs

/-!
# Properties of the choice of an implementation of prime fields
-/

set_option autoImplicit false

namespace Pbc.FpChoice

open Spec Pbc Pbc.Mont Props

/-! ## Specification -/

/-- The implementation that a name stands for. -/
def named (s : String) : Option Impl :=
  [("naive", Impl.naive), ("fast", .fast), ("faster", .faster), ("mont", .mont)].lookup s

/-- The last name of an implementation that a program gave; Montgomery's if there is none. -/
def lastNamed (prog : List Call) : Impl :=
  ((prog.filterMap fun
    | .tweak s => named s
    | .init _ => none).getLast?).getD .mont

/-- The number of names given that name nothing. -/
def wrongNames (prog : List Call) : ℕ :=
  (prog.filter fun
    | .tweak s => (named s).isNone
    | .init _ => false).length

/-- The moduli of the fields a program makes. -/
def moduli (prog : List Call) : List ℕ := prog.filterMap fun
  | .tweak _ => none
  | .init p => some p

/-- The elements are freshly allocated, with any contents. -/
structure Junk.Ok (w p : ℕ) (j : Junk) : Prop where
  /-- elements -/
  mem : ∀ i, Fresh (init w p) (j.mem i)
  /-- temporaries -/
  temp : Fresh (init w p) j.temp

/-! ## Lemmas -/

theorem tweak_eq (st : State) (s : String) :
    tweak st s = ⟨(named s).getD st.opt, st.errors + if (named s).isNone then 1 else 0⟩ := by
  by_cases h1 : s = "naive"
  · subst h1; rfl
  by_cases h2 : s = "fast"
  · subst h2; rfl
  by_cases h3 : s = "faster"
  · subst h3; rfl
  by_cases h4 : s = "mont"
  · subst h4; rfl
  have e : named s = none := by
    simp [named, List.lookup, beq_false_of_ne h1, beq_false_of_ne h2, beq_false_of_ne h3,
      beq_false_of_ne h4]
  rw [e, tweak, if_neg h1, if_neg h2, if_neg h3, if_neg h4]
  rfl

theorem mem_fields {w : ℕ} {calls : List Call} {p : ℕ} {impl : Impl} {st : State}
    (h : (p, impl) ∈ (fields w st calls).1) : ∃ st', impl = fieldInitFp w st' p := by
  induction calls generalizing st with
  | nil => cases h
  | cons c calls ih =>
    cases c with
    | tweak s => exact ih h
    | init q =>
      simp only [fields, List.mem_cons, Prod.mk.injEq] at h
      rcases h with ⟨rfl, rfl⟩ | h
      · exact ⟨st, rfl⟩
      · exact ih h

theorem fields_append (w : ℕ) (st : State) (a b : List Call) :
    fields w st (a ++ b)
      = ((fields w st a).1 ++ (fields w (fields w st a).2 b).1, (fields w (fields w st a).2 b).2) := by
  induction a generalizing st with
  | nil => rfl
  | cons c a ih =>
    cases c with
    | tweak s => exact ih _
    | init p => simp only [List.cons_append, fields, ih]

theorem fields_end (w : ℕ) (prog : List Call) :
    (fields w State.start prog).2 = ⟨lastNamed prog, wrongNames prog⟩ := by
  induction prog using List.reverseRecOn with
  | nil => rfl
  | append_singleton prog c ih =>
    rw [fields_append, ih]
    cases c with
    | init p => simp [fields, lastNamed, wrongNames]
    | tweak s =>
      simp only [fields, tweak_eq, lastNamed, wrongNames, List.filterMap_append, List.filter_append,
        List.length_append]
      cases hn : named s with
      | none => simp [hn]
      | some x => simp [hn]

/-! ## C136 -/

/-- **C136**: a field whose modulus is odd and does not fit into a word uses the implementation
named last before it was made; names that name nothing are reported, one message each, and change
nothing.  Smaller moduli use `naivefp.c`, even ones `fasterfp.c`, whatever was named. -/
theorem C136_choice (w : ℕ) (before after : List Call) (p : ℕ) :
    ∃ l l', (fields w State.start (before ++ .init p :: after)).1
        = l ++ (p, if p < 2 ^ w then .naive else if Odd p then lastNamed before else .faster) :: l' ∧
      l.map Prod.fst = moduli before ∧ l'.map Prod.fst = moduli after ∧
      (fields w State.start before).2.errors = wrongNames before := by
  have hm : ∀ st prog, (fields w st prog).1.map Prod.fst = moduli prog := by
    intro st prog
    induction prog generalizing st with
    | nil => rfl
    | cons c prog ih =>
      cases c with
      | tweak s => exact ih _
      | init q => simp [fields, moduli, ih]
  rw [fields_append, fields_end]
  refine ⟨_, _, ?_, hm State.start before, hm ⟨lastNamed before, wrongNames before⟩ after, rfl⟩
  simp only [fields, fieldInitFp, Nat.odd_iff]

/-- **C136**: whatever names were given before the field was made, calls on its elements give the
residues of integer arithmetic, for every odd prime of any size: the values do not depend on the
choice.  (Partial: calls on which the implementations are known to differ are excluded, see C01 to C11
and `C136_choice_fails`.) -/
theorem C136_values_partial {w p : ℕ} (hw : 1 ≤ w) (hp : p.Prime) (hodd : Odd p) {j : Junk}
    (hj : j.Ok w p) (calls : List Call) (prog : List FpOp)
    (ha : FpAllowed (FpGuard w (commonSafe w)) (fun _ => (0 : ZMod p)) prog) (i : ℕ) :
    ∀ impl, (p, impl) ∈ (fields w State.start calls).1 →
      result w p j prog i impl = some (fpRun (fun _ => (0 : ZMod p)) prog i).val := by
  have hodd' : p % 2 = 1 := Nat.odd_iff.mp hodd
  intro impl himpl
  have hn := C10_naive hp hodd' prog (allowed_mono naive_of_common prog
    (allowed_mono (Q := commonSafe w) (fun _ _ h => h.1) prog ha)) i
  obtain ⟨st, rfl⟩ := mem_fields himpl
  by_cases hwp : p < 2 ^ w
  · rw [fieldInitFp, if_pos hwp]
    exact congrArg some hn
  · rw [fieldInitFp, if_neg hwp, if_pos hodd']
    obtain ⟨m, e, h⟩ := C10_backends_agree hw hp hodd' (Nat.le_of_not_lt hwp) j.mem j.mem j.temp j.temp
      hj.mem hj.mem hj.temp hj.temp prog ha
    obtain ⟨z, h1, h2, h3, h4⟩ := h i
    rw [← hn, h4]
    cases st.opt with
    | naive => exact congrArg some h4
    | fast => exact congrArg some h3
    | faster => exact congrArg some h2
    | mont =>
      simp only [result, e, Option.bind_some]
      exact h1

/-- **C136, discrepancy.**  The choice can be seen: after `pbc_tweak_use_fp("naive")` or `"fast"`, a
field of the same prime computes `0^0 = 1`, otherwise `0^0` is read as 0. -/
theorem C136_choice_fails {w p : ℕ} (hw : 1 ≤ w) (hp : 1 < p) (hodd : Odd p) (j : Junk)
    (hwp : 2 ^ w ≤ p) (calls : List Call) :
    let prog : List FpOp := [.set0 0, .pow 0 0 0]
    let impl := fun name => fieldInitFp w (fields w State.start (calls ++ [.tweak name])).2 p
    result w p j prog 0 (impl "naive") = some 1 ∧ result w p j prog 0 (impl "fast") = some 1 ∧
    result w p j prog 0 (impl "faster") = some 0 ∧ result w p j prog 0 (impl "mont") = some 0 := by
  have hodd' : p % 2 = 1 := Nat.odd_iff.mp hodd
  have hi : ∀ name x, named name = some x →
      fieldInitFp w (fields w State.start (calls ++ [.tweak name])).2 p = x := by
    intro name x hx
    rw [fieldInitFp, if_neg (Nat.not_lt.mpr hwp), if_pos hodd', fields_end]
    simp [lastNamed, hx]
  have key := C08_zero_pow_zero hw hp hodd' (set0 (j.mem 0)) (set0 (j.mem 0)) rfl
  intro prog impl
  refine ⟨?_, ?_, ?_, ?_⟩
  · rw [show impl "naive" = .naive from hi _ _ rfl]
    exact congrArg some key.2.2.2
  · rw [show impl "fast" = .fast from hi _ _ rfl]
    exact congrArg some key.2.2.1
  · rw [show impl "faster" = .faster from hi _ _ rfl]
    rfl
  · rw [show impl "mont" = .mont from hi _ _ rfl]
    rfl

/-! ## The hypotheses can be met -/

/-- Fresh elements for the modulus 131, words of 4 bits. -/
def exJunk : Junk := ⟨fun _ => ⟨false, List.replicate (init 4 131).t 0⟩, ⟨false, List.replicate (init 4 131).t 0⟩⟩

theorem exJunk_ok : exJunk.Ok 4 131 := ⟨fun _ => exFresh, exFresh⟩

/-- A program that names implementations, one of them wrongly, and makes three fields. -/
def exCalls : List Call :=
  [.init 131, .tweak "fast", .tweak "Faster", .init 131, .init 13, .tweak "naive", .init 134]

example : fields 4 State.start exCalls
    = ([(131, .mont), (131, .fast), (13, .naive), (134, .faster)], ⟨.naive, 1⟩) := by decide +kernel

example : result 4 131 exJunk exProg 3 .fast = some 115 :=
  (C136_values_partial (w := 4) (p := 131) (by norm_num) (by norm_num) (by decide) exJunk_ok exCalls
    exProg (allowed_mono (fun _ _ h => ⟨h, fun _ => top131⟩) _ exProg_allowed) 3 .fast
    (by decide +kernel)).trans (by decide +kernel)

example := C136_choice_fails (w := 4) (p := 131) (by norm_num) (by norm_num) (by decide) exJunk
  (by norm_num) exCalls

end Pbc.FpChoice
