import Verif.Spec.CalcSyntax

/-!
# Lemmas on the scanner of the calculator
-/

set_option autoImplicit false

namespace Pbc.Calc

open Spec.Calc

theorem isDigit_eq (c : Char) : isDigit c = c.isDigit := by
  unfold isDigit Char.isDigit
  simp only [Char.le_def, ge_iff_le]

theorem isAlpha_eq (c : Char) : isAlpha c = (c.isAlpha || c = '_') := by
  unfold isAlpha Char.isAlpha Char.isUpper Char.isLower
  simp only [Char.le_def, ge_iff_le]
  rw [Bool.or_comm (_ && _) (_ && _), Bool.decide_and]

theorem isAlnum_eq (c : Char) : isAlnum c = (c.isAlphanum || c = '_') := by
  unfold isAlnum Char.isAlphanum
  rw [isAlpha_eq, isDigit_eq]
  cases c.isAlpha <;> cases c.isDigit <;> cases decide (c = '_') <;> rfl

theorem skipComment_length (cs : List Char) : (skipComment cs).length ≤ cs.length := by
  induction cs using skipComment.induct with
  | case1 cs => rw [skipComment]; simp only [List.length_cons]; omega
  | case2 c cs h ih =>
    rw [skipComment]
    · simp only [List.length_cons]; omega
    · exact h
  | case3 => simp [skipComment]

theorem symbol_length (easy : Bool) (c : Char) (cs : List Char) :
    (symbol easy (c :: cs)).2.length < (c :: cs).length := by
  rw [symbol.eq_def]
  split <;> simp_all
  all_goals (obtain ⟨rfl, rfl⟩ := ‹_ ∧ _›; try simp)
  all_goals try omega

theorem lexStep_length (easy : Bool) (c : Char) (cs : List Char) :
    (lexStep easy (c :: cs)).2.length < (c :: cs).length := by
  rw [lexStep.eq_def]
  split
  · rename_i u heq
    simp only [List.cons.injEq] at heq
    obtain ⟨rfl, rfl⟩ := heq
    have := skipComment_length u
    simp only [List.length_cons]
    omega
  · rename_i u heq
    simp only [List.cons.injEq] at heq
    obtain ⟨rfl, rfl⟩ := heq
    split
    · have := (List.dropWhile_sublist (l := cs) (· ≠ '\n')).length_le
      simp only [List.length_cons]
      omega
    · simp
  · rename_i d u h1 h2 heq
    simp only [List.cons.injEq] at heq
    obtain ⟨rfl, rfl⟩ := heq
    split
    · simp
    · split
      · have := (List.dropWhile_sublist (l := cs) isDigit).length_le
        simp only [List.length_cons]
        omega
      · split
        · have := (List.dropWhile_sublist (l := cs) isAlnum).length_le
          simp only [List.length_cons]
          omega
        · exact symbol_length easy c cs
  · simp_all

theorem lexLoop_enough (easy : Bool) (n : ℕ) (cs : List Char) (h : cs.length ≤ n) : lexLoop easy n cs = lex easy cs := by
  induction n using Nat.strong_induction_on generalizing cs with
  | _ n ih =>
    rcases cs with _ | ⟨c, cs⟩
    · rcases n with _ | n <;> rfl
    · obtain ⟨m, rfl⟩ : ∃ m, n = m + 1 := ⟨n - 1, by simp only [List.length_cons] at h; omega⟩
      unfold lex
      simp only [List.length_cons] at h ⊢
      rw [lexLoop, lexLoop]
      have hl := lexStep_length easy c cs
      simp only [List.length_cons] at hl
      rcases hs : lexStep easy (c :: cs) with ⟨t, rest⟩
      rw [hs] at hl
      simp only at hl
      have e1 := ih m (by omega) rest (by omega)
      have e2 : lexLoop easy cs.length rest = lex easy rest := by
        rcases Nat.lt_or_ge cs.length (m + 1) with h' | h'
        · exact ih _ h' rest (by omega)
        · omega
      rcases t with _ | t <;> simp only [e1, e2]

theorem lex_cons (easy : Bool) (c : Char) (cs : List Char) :
    lex easy (c :: cs) = match lexStep easy (c :: cs) with
      | (some t, rest) => t :: lex easy rest
      | (none, rest) => lex easy rest := by
  have hl := lexStep_length easy c cs
  unfold lex
  simp only [List.length_cons] at hl ⊢
  rw [lexLoop]
  rcases hs : lexStep easy (c :: cs) with ⟨t, rest⟩
  rw [hs] at hl
  simp only at hl
  have := lexLoop_enough easy cs.length rest (by omega)
  unfold lex at this
  rcases t with _ | t <;> simp only [this]

theorem lex_some {easy : Bool} {cs rest : List Char} {t : Tok} (h : lexStep easy cs = (some t, rest)) (hne : cs ≠ []) :
    lex easy cs = t :: lex easy rest := by
  rcases cs with _ | ⟨c, cs⟩
  · exact absurd rfl hne
  · rw [lex_cons, h]

theorem lex_none {easy : Bool} {cs rest : List Char} (h : lexStep easy cs = (none, rest)) (hne : cs ≠ []) :
    lex easy cs = lex easy rest := by
  rcases cs with _ | ⟨c, cs⟩
  · exact absurd rfl hne
  · rw [lex_cons, h]

/-! ### Space -/

theorem skipComment_block (l cs : List Char) (h : ∀ u v, l ≠ u ++ '*' :: '/' :: v) :
    skipComment (l ++ '*' :: '/' :: cs) = cs := by
  induction l with
  | nil => rw [List.nil_append, skipComment]
  | cons c l ih =>
    rw [List.cons_append, skipComment]
    · exact ih (fun u v e => h (c :: u) v (by rw [e]; rfl))
    · intro v hc he
      rcases l with _ | ⟨d, l⟩
      · simp at he
      · simp only [List.cons_append, List.cons.injEq] at he
        exact h [] l (by rw [hc, he.1]; rfl)

theorem lexStep_hash {easy : Bool} {cs : List Char} : lexStep easy ('#' :: cs) =
    if '\n' ∈ cs then (none, cs.dropWhile (· ≠ '\n')) else (some .unknown, cs) := by
  rw [lexStep]

theorem dropWhile_line (l cs : List Char) (h : '\n' ∉ l) : (l ++ '\n' :: cs).dropWhile (· ≠ '\n') = '\n' :: cs := by
  induction l with
  | nil => simp
  | cons c l ih =>
    simp only [List.mem_cons, not_or] at h
    rw [List.cons_append, List.dropWhile_cons, if_pos (by simpa using fun e => h.1 e.symm)]
    exact ih h.2

theorem lexStep_newline (easy : Bool) (cs : List Char) :
    lexStep easy ('\n' :: cs) = (if easy then some .term else none, cs) := by
  rw [lexStep] <;> simp [isDigit, isAlpha, symbol]

theorem lex_line (easy : Bool) (l cs : List Char) (h : '\n' ∉ l) :
    lex easy ('#' :: l ++ '\n' :: cs) = lex easy ('\n' :: cs) := by
  refine lex_none ?_ (by simp)
  rw [List.cons_append, lexStep_hash, if_pos (by simp), dropWhile_line l cs h]

theorem lex_gap {easy : Bool} {g : List Char} (h : Gap easy g) (cs : List Char) : lex easy (g ++ cs) = lex easy cs := by
  cases h with
  | blank c hc =>
    refine lex_none ?_ (by simp)
    rcases hc with rfl | rfl | rfl <;> (rw [List.cons_append, List.nil_append, lexStep] <;> simp)
  | newline he =>
    subst he
    exact lex_none (lexStep_newline false cs) (by simp)
  | block l hl =>
    refine lex_none ?_ (by simp)
    simp only [List.cons_append, List.append_assoc, List.nil_append]
    rw [lexStep, skipComment_block l cs hl]
  | line l he hl =>
    subst he
    have := lex_line false l cs hl
    simp only [List.cons_append, List.append_assoc, List.nil_append] at this ⊢
    rw [this]
    exact lex_none (lexStep_newline false cs) (by simp)

/-! ### Tokens -/

theorem takeWhile_all {p : Char → Bool} {l cs : List Char} (h : ∀ c ∈ l, p c = true) (h' : ∀ c u, cs = c :: u → p c = false) :
    (l ++ cs).takeWhile p = l ∧ (l ++ cs).dropWhile p = cs := by
  induction l with
  | nil =>
    rcases cs with _ | ⟨c, u⟩
    · simp
    · have := h' c u rfl
      simp [this]
  | cons c l ih =>
    have hc := h c (by simp)
    have := ih (fun d hd => h d (by simp [hd]))
    simp [hc, this.1, this.2]

theorem setStr_digits (l : List Char) (h : ∀ c ∈ l, c.isDigit = true) (z i : ℕ) :
    (Gen.setStrLoop 10 (l.map Char.toNat) z i).1 = Nat.ofDigitChars 10 l z := by
  induction l generalizing z i with
  | nil => rfl
  | cons c l ih =>
    have hc := h c (by simp)
    have h1 : 48 ≤ c.toNat ∧ c.toNat ≤ 57 := by
      unfold Char.isDigit at hc
      simp only [ge_iff_le, Bool.and_eq_true, decide_eq_true_eq, UInt32.le_iff_toNat_le] at hc
      exact hc
    rw [List.map_cons, Gen.setStrLoop, if_neg (by omega), if_neg (by
      unfold Gen.isSpace
      simp
      omega)]
    have hd : Gen.digitVal c.toNat = some (c.toNat - 48) := by
      unfold Gen.digitVal
      split_ifs <;> simp_all <;> omega
    rw [hd]
    simp only
    rw [if_neg (by omega), ih (fun d hd => h d (by simp [hd])), Nat.ofDigitChars_cons]
    congr 1
    rw [Nat.mul_comm]
    rfl

theorem number_digits (n : ℕ) : number (Nat.toDigits 10 n) = .num n := by
  unfold number Gen.setStr
  rw [if_pos rfl, setStr_digits _ (fun c hc => Nat.isDigit_of_mem_toDigits (by omega) (by omega) hc),
    Nat.ofDigitChars_ten_toDigits]

theorem digit_not_blank {c : Char} (h : c.isDigit = true) : ¬ (c = ' ' ∨ c = '\t' ∨ c = '\r') ∧ c ≠ '/' ∧ c ≠ '#' := by
  refine ⟨?_, ?_, ?_⟩
  · rintro (rfl | rfl | rfl) <;> simp at h
  · rintro rfl; simp at h
  · rintro rfl; simp at h

theorem lexStep_num (easy : Bool) (n : ℕ) (cs : List Char) (h : ∀ c u, cs = c :: u → ¬ c.isDigit = true) :
    lexStep easy (Nat.toDigits 10 n ++ cs) = (some (.num n), cs) := by
  have hall : ∀ c ∈ Nat.toDigits 10 n, c.isDigit = true :=
    fun c hc => Nat.isDigit_of_mem_toDigits (by omega) (by omega) hc
  have hnum := number_digits n
  rcases hd : Nat.toDigits 10 n with _ | ⟨d, l⟩
  · exact absurd hd Nat.toDigits_ne_nil
  · rw [hd] at hall hnum
    have hdd := hall d (by simp)
    obtain ⟨h1, h2, h3⟩ := digit_not_blank hdd
    obtain ⟨e1, e2⟩ := takeWhile_all (p := isDigit) (l := l) (cs := cs)
      (fun c hc => by rw [isDigit_eq]; exact hall c (by simp [hc]))
      (fun c u e => by rw [isDigit_eq]; simpa using h c u e)
    rw [List.cons_append, lexStep, if_neg h1, if_pos (by rw [isDigit_eq]; exact hdd), e1, e2, hnum]
    · intro u hu; exact absurd hu h2
    · exact h3

theorem lexStep_word (easy : Bool) (c : Char) (l cs : List Char) (hc : c.isAlpha ∨ c = '_')
    (hl : ∀ d ∈ l, d.isAlphanum ∨ d = '_') (h : ∀ d u, cs = d :: u → ¬ (d.isAlphanum ∨ d = '_')) :
    lexStep easy (c :: l ++ cs) = (some (word (c :: l)), cs) := by
  obtain ⟨e1, e2⟩ := takeWhile_all (p := isAlnum) (l := l) (cs := cs)
    (fun d hd => by rw [isAlnum_eq]; simpa using hl d hd)
    (fun d u e => by rw [isAlnum_eq]; simpa using h d u e)
  have h1 : ¬ (c = ' ' ∨ c = '\t' ∨ c = '\r') := by
    rintro (rfl | rfl | rfl) <;> simp at hc
  have h2 : c ≠ '/' := by rintro rfl; simp at hc
  have h3 : c ≠ '#' := by rintro rfl; simp at hc
  have h4 : ¬ isDigit c = true := by
    rw [isDigit_eq]
    intro hd
    unfold Char.isDigit at hd
    unfold Char.isAlpha Char.isUpper Char.isLower at hc
    simp only [ge_iff_le, Bool.and_eq_true, decide_eq_true_eq, Bool.or_eq_true, UInt32.le_iff_toNat_le] at hd hc
    rcases hc with (hc | hc) | rfl
    · have : 'A'.val.toNat = 65 := rfl
      have : '9'.val.toNat = 57 := rfl
      omega
    · have : 'a'.val.toNat = 97 := rfl
      have : '9'.val.toNat = 57 := rfl
      omega
    · revert hd; decide
  rw [List.cons_append, lexStep, if_neg h1, if_neg h4, if_pos (by rw [isAlpha_eq]; simpa using hc), e1, e2]
  · intro u hu; exact absurd hu h2
  · exact h3

theorem lexStep_symbol (easy : Bool) (c : Char) (cs : List Char) (h1 : ∀ u, c = '/' → cs ≠ '*' :: u) (h2 : c ≠ '#')
    (h3 : ¬ (c = ' ' ∨ c = '\t' ∨ c = '\r')) (h4 : isDigit c = false) (h5 : isAlpha c = false) :
    lexStep easy (c :: cs) = symbol easy (c :: cs) := by
  rw [lexStep, if_neg h3, if_neg (by simp [h4]), if_neg (by simp [h5])]
  · exact h1
  · exact h2

theorem lexStep_tok (easy : Bool) (t : Tok) (cs : List Char) (ht : TokOk t) (h : ∀ c u, cs = c :: u → ¬ Glues t c) :
    lexStep easy (spell t ++ cs) = (some t, cs) := by
  cases t with
  | define => exact lexStep_word easy 'd' "efine".toList cs (by decide) (by decide) h
  | num n => exact lexStep_num easy n cs h
  | id s =>
    obtain ⟨hs, c, l, e, hc, hl⟩ := ht
    have := lexStep_word easy c l cs hc hl h
    rw [spell, e, this, word, if_neg]
    · rw [← e, String.ofList_toList]
    · rw [← e]
      intro e'
      apply hs
      rw [← String.ofList_toList (s := s), e']
  | unknown => exact ht.elim
  | lt =>
    rw [spell, List.cons_append, List.nil_append, lexStep_symbol _ _ _ (by simp) (by decide) (by decide) (by decide) (by decide)]
    rw [symbol]
    exact fun u e => h _ _ e rfl
  | gt =>
    rw [spell, List.cons_append, List.nil_append, lexStep_symbol _ _ _ (by simp) (by decide) (by decide) (by decide) (by decide)]
    rw [symbol]
    exact fun u e => h _ _ e rfl
  | colon =>
    rw [spell, List.cons_append, List.nil_append, lexStep_symbol _ _ _ (by simp) (by decide) (by decide) (by decide) (by decide)]
    rw [symbol]
    exact fun u e => h _ _ e rfl
  | divide =>
    rw [spell, List.cons_append, List.nil_append, lexStep_symbol _ _ _ (fun u _ e => h _ _ e rfl) (by decide) (by decide)
      (by decide) (by decide)]
    rw [symbol]
  | _ =>
    rw [spell]
    simp only [List.cons_append, List.nil_append]
    rw [lexStep_symbol _ _ _ (by simp) (by decide) (by decide) (by decide) (by decide), symbol]

/-- What may follow any token directly. -/
def Apart (cs : List Char) : Prop := ∀ c u, cs = c :: u → (∀ t, ¬ Glues t c) ∧ c ≠ '='

theorem lex_text_append {easy : Bool} {cs : List Char} {ts : List Tok} (h : Text easy cs ts) (rest : List Char)
    (hr : Apart rest) : lex easy (cs ++ rest) = ts ++ lex easy rest := by
  induction h with
  | nil => rfl
  | gap hg _ ih => rw [List.append_assoc, lex_gap hg, ih]
  | tok ht hg _ ih =>
    rename_i cs t ts _
    have hg' : ∀ c u, cs ++ rest = c :: u → ¬ Glues t c := by
      intro c u e
      rcases cs with _ | ⟨d, cs⟩
      · exact (hr c u e).1 t
      · simp only [List.cons_append, List.cons.injEq] at e
        exact hg c cs (by rw [e.1])
    have key := lexStep_tok easy t (cs ++ rest) ht hg'
    rw [List.append_assoc, lex_some key, ih]
    · rfl
    · intro e
      rw [e, lexStep] at key
      simp at key
  | newline he _ ih =>
    subst he
    rw [List.cons_append, lex_some (lexStep_newline true _) (by simp), ih]
    rfl
  | line he hl _ ih =>
    subst he
    rename_i cs l ts _
    have := lex_line true l (cs ++ rest) hl
    simp only [List.cons_append, List.append_assoc] at this ⊢
    rw [this, lex_some (lexStep_newline true _) (by simp), ih]
  | equals he hne _ ih =>
    subst he
    rename_i cs ts _
    have : lexStep true ('=' :: (cs ++ rest)) = (some .assign, cs ++ rest) := by
      rw [lexStep_symbol _ _ _ (by simp) (by decide) (by decide) (by decide) (by decide), symbol]
      · rfl
      · intro u e
        rcases cs with _ | ⟨d, cs⟩
        · exact (hr _ u e).2 rfl
        · simp only [List.cons_append, List.cons.injEq] at e
          exact hne cs (by rw [e.1])
    rw [List.cons_append, lex_some this (by simp), ih]
    rfl

theorem lex_text {easy : Bool} {cs : List Char} {ts : List Tok} (h : Text easy cs ts) : lex easy cs = ts := by
  have := lex_text_append h [] (by rintro c u ⟨⟩)
  simpa [lex, lexLoop] using this

theorem lex_hash (easy : Bool) (l : List Char) (hl : '\n' ∉ l) : lex easy ('#' :: l) = .unknown :: lex easy l := by
  refine lex_some ?_ (by simp)
  rw [lexStep_hash, if_neg hl]

end Pbc.Calc
