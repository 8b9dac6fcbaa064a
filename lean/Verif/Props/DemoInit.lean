import Verif.Model.DemoInit
import Verif.Props.Shipped
import Verif.Props.ShippedA

/-! # C145: the parameters the example programs run with -/

set_option autoImplicit false

namespace Pbc.DemoInit

open Pbc.Param

/-- **C145**: a file of at most 16384 characters that says what the parameters are gives these parameters, whatever was on the
stack. -/
theorem C145_read_partial {l : List (List Char × List Char)} {s : List Char} (h : Says l s) {p : Par} (hd : Describes l p)
    (hs : Sane p) (hl : s.length ≤ 16384) (stack : List Char) : demoInit stack (some s) = some (some p) := by
  have h1 := (C106_read h hd hs (stack.drop s.length)).2.2.2
  have hne : s.length ≠ 0 := by
    intro h0
    obtain rfl := List.length_eq_zero_iff.1 h0
    have := (C106_read h hd hs []).2.2.2
    have e : pairingInit ([] ++ []) ([] : List Char).length = none := by decide
    rw [e] at this
    cases this
  rw [demoInit, List.take_of_length_le hl]
  simp only [if_neg hne, h1]
  rfl

/-- **C145**: whatever the file holds, nothing outside the buffer is read, and the result does not depend on what the buffer
held before. -/
theorem C145_safe (file : Option (List Char)) {stack stack' : List Char} (h : stack.length = 16384)
    (h' : stack'.length = 16384) : ∃ out, demoInit stack file = some out ∧ demoInit stack' file = some out := by
  cases file with
  | none => exact ⟨_, rfl, rfl⟩
  | some f =>
    by_cases hc : (f.take 16384).length = 0
    · exact ⟨none, by rw [demoInit]; simp only [if_pos hc], by rw [demoInit]; simp only [if_pos hc]⟩
    · obtain ⟨tab, h1, h2⟩ := C60_limit (f.take 16384 ++ stack.drop (f.take 16384).length)
        (stack'.drop (f.take 16384).length) _ hc (by simp)
      rw [List.take_left] at h2
      simp only [demoInit, if_neg hc, pairingInit, initSetBuf, h1, h2, Option.map_some]
      cases setTab tab <;> simp

/-- **C145**: what comes after the first 16384 characters makes no difference. -/
theorem C145_cut (stack s t t' : List Char) (h : s.length = 16384) :
    demoInit stack (some (s ++ t)) = demoInit stack (some (s ++ t')) := by
  rw [demoInit, demoInit, ← h, List.take_left, List.take_left]

theorem sep_blanks (n : ℕ) {s : List Char} (h : Sep s) : Sep (List.replicate n ' ' ++ s) := by
  induction n with
  | zero => exact h
  | succ n ih => exact .ws (by decide) ih

theorem says_blanks (n : ℕ) {l : List (List Char × List Char)} {s : List Char} (h : Says l s) :
    Says l (List.replicate n ' ' ++ s) := by
  cases h with
  | done h1 h2 =>
    rw [← List.append_assoc]
    exact .done (sep_blanks n h1) h2
  | bind h1 h2 h3 h4 h5 h6 h7 =>
    have := Says.bind (sep_blanks n h1) h2 h3 h4 h5 h6 h7
    simpa only [List.append_assoc] using this

/-- **C145** fails for longer files: with 16384 blanks before them, the parameters are the same to `pairing_init_set_buf`, but
the example programs refuse the file. -/
theorem C145_long_fails {l : List (List Char × List Char)} {s : List Char} (h : Says l s) {p : Par} (hd : Describes l p)
    (hs : Sane p) (stack : List Char) : ∃ t, pairingInit (t ++ stack) t.length = some (some (0, some p)) ∧
      demoInit stack (some t) = some none := by
  refine ⟨List.replicate 16384 ' ' ++ s, (C106_read (says_blanks _ h) hd hs stack).2.2.2, ?_⟩
  have hlen : (List.replicate 16384 ' ').length = 16384 := List.length_replicate
  rw [C145_cut stack _ s [] hlen]
  have h0 : Says [] (List.replicate 16384 ' ' ++ []) := says_blanks _ (.done (s := []) (c := []) .nil (.inl rfl))
  have hne : List.replicate 16384 ' ' ≠ [] := fun h => by rw [h] at hlen; cases hlen
  rw [List.append_nil] at h0 ⊢
  have h1 := (C60_read h0 (stack.drop 16384)).2 hne
  rw [demoInit, List.take_of_length_le hlen.le]
  have hz : (List.replicate 16384 ' ').length ≠ 0 := by rw [hlen]; decide
  simp only [if_neg hz]
  rw [hlen] at h1 ⊢
  rw [pairingInit, initSetBuf, h1]
  rfl

theorem of_reads {t : String} {l : List Char} (e : t.toList = l) {p : Par} (h : Shipped.Reads t p)
    (hl : l.length ≤ 16384 ∧ l.length ≠ 0) (stack : List Char) : demoInit stack (some t.toList) = some (some p) := by
  rw [← e] at hl
  have h := (h (stack.drop t.toList.length)).2
  rw [demoInit, List.take_of_length_le hl.1]
  simp only [if_neg hl.2, h]
  rfl

open Shipped in
/-- **C145** for the parameter files that come with the library. -/
theorem C145_shipped (stack : List Char) : ∀ x ∈ [(aText, aPar), (a1Text, a1Par), (eText, ePar), (fText, fPar), (g149Text, g149Par), (iText, iPar), (d159Text, d159Par), (d201Text, d201Par), (d224Text, d224Par), (d105171Text, d105171Par), (d277699Text, d277699Par), (d278027Text, d278027Par)],
    demoInit stack (some x.1.toList) = some (some x.2) := by
  intro x hx
  simp only [List.mem_cons, List.not_mem_nil, or_false] at hx
  rcases hx with rfl | rfl | rfl | rfl | rfl | rfl | rfl | rfl | rfl | rfl | rfl | rfl
  · exact of_reads a_chars a_reads (by decide +kernel) stack
  · exact of_reads a1_chars a1_reads (by decide +kernel) stack
  · exact of_reads e_chars e_reads (by decide +kernel) stack
  · exact of_reads f_chars f_reads (by decide +kernel) stack
  · exact of_reads g149_chars g149_reads (by decide +kernel) stack
  · exact of_reads i_chars i_reads (by decide +kernel) stack
  · exact of_reads d159_chars d159_reads (by decide +kernel) stack
  · exact of_reads d201_chars d201_reads (by decide +kernel) stack
  · exact of_reads d224_chars d224_reads (by decide +kernel) stack
  · exact of_reads d105171_chars d105171_reads (by decide +kernel) stack
  · exact of_reads d277699_chars d277699_reads (by decide +kernel) stack
  · exact of_reads d278027_chars d278027_reads (by decide +kernel) stack

/-- A missing file and an empty one. -/
example (stack : List Char) : demoInit stack none = some none ∧ demoInit stack (some []) = some none := ⟨rfl, rfl⟩

/-- The example meeting the hypotheses: `a.param` again, and a longer file. -/
example (stack : List Char) : ∃ t p, pairingInit (t ++ stack) t.length = some (some (0, some p)) ∧
    demoInit stack (some t) = some none :=
  have h := checkText_sound Shipped.a_check
  have ⟨t, ht⟩ := C145_long_fails h.1 h.2 (by simp [Sane, Shipped.aPar]) stack
  ⟨t, _, ht⟩

end Pbc.DemoInit
