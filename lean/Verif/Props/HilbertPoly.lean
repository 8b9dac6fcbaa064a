import Verif.Model.HilbertPoly
import Mathlib.Algebra.Polynomial.Eval.Defs
import Mathlib.Algebra.Polynomial.Monic
import Mathlib.Algebra.Polynomial.BigOperators

/-! # C148: what the program that prints Hilbert polynomials prints -/

set_option autoImplicit false
set_option linter.style.longLine false

namespace Pbc.HilbertPoly

open Polynomial

/-! ## How a reader understands the text -/

/-- The lines of a text. -/
def linesAux (acc : List Char) : List Char → List (List Char)
  | [] => if acc = [] then [] else [acc]
  | c :: t => if c = '\n' then acc :: linesAux [] t else linesAux (acc ++ [c]) t

/-- A power of `X`: nothing, `X`, or `X^` and digits. -/
def readPow : List Char → Option ℕ
  | [] => some 0
  | ['X'] => some 1
  | 'X' :: '^' :: l => if l ≠ [] ∧ l.all Char.isDigit then some (Nat.ofDigitChars 10 l 0) else none
  | _ => none

/-- An unsigned term: digits (1 if there are none) and a power. -/
def readAbs (l : List Char) : Option (ℤ × ℕ) :=
  let ds := l.takeWhile Char.isDigit
  (readPow (l.dropWhile Char.isDigit)).map fun e => (if ds = [] then 1 else (Nat.ofDigitChars 10 ds 0 : ℤ), e)

/-- A term: a sign or a blank, then an unsigned term. -/
def readTerm : List Char → Option (ℤ × ℕ)
  | ' ' :: l => readAbs l
  | '+' :: l => readAbs l
  | '-' :: l => (readAbs l).map fun t => (-t.1, t.2)
  | _ => none

/-- The polynomial that a text stands for: the sum of its lines. -/
noncomputable def meaning (text : List Char) : Option ℤ[X] :=
  ((linesAux [] text).mapM readTerm).map fun ts => (ts.map fun t => C t.1 * X ^ t.2).sum

/-! ## Reading what is printed -/

theorem digits_ok (n : ℕ) : (Nat.toDigits 10 n ≠ []) ∧ ∀ c ∈ Nat.toDigits 10 n, c.isDigit = true :=
  ⟨Nat.toDigits_ne_nil, fun _ hc => Nat.isDigit_of_mem_toDigits (by omega) (by omega) hc⟩

theorem nl_digits (n : ℕ) : '\n' ∉ Nat.toDigits 10 n := fun h => by
  have := (digits_ok n).2 _ h
  simp at this

theorem nl_dec (z : ℤ) : '\n' ∉ dec z := by
  unfold dec
  split_ifs <;> simp [nl_digits]

theorem nl_xpow (z : ℤ) : '\n' ∉ xpow z := by
  unfold xpow
  split_ifs <;> simp [nl_dec]

theorem linesAux_cons (l t acc : List Char) (h : '\n' ∉ l) : linesAux acc (l ++ '\n' :: t) = (acc ++ l) :: linesAux [] t := by
  induction l generalizing acc with
  | nil => simp [linesAux]
  | cons c l ih =>
    rw [List.mem_cons, not_or] at h
    rw [List.cons_append, linesAux, if_neg (fun e => h.1 e.symm), ih _ h.2]
    simp

theorem readPow_xpow (i : ℕ) : readPow (xpow i) = some i := by
  unfold xpow
  split_ifs with h1 h2
  · have : i = 1 := by omega
    rw [this]; rfl
  · have hd : dec i = Nat.toDigits 10 i := by
      rw [dec, if_neg (by omega)]; rfl
    rw [hd]
    obtain ⟨h3, h4⟩ := digits_ok i
    show readPow ('X' :: '^' :: Nat.toDigits 10 i) = some i
    rw [readPow, if_pos ⟨h3, List.all_eq_true.2 h4⟩, Nat.ofDigitChars_ten_toDigits]
  · have : i = 0 := by omega
    rw [this]; rfl

theorem xpow_head (i : ℤ) : ∀ c u, xpow i = c :: u → ¬ c.isDigit = true := by
  intro c u
  unfold xpow
  split_ifs
  · rintro h; obtain ⟨rfl, -⟩ := List.cons.inj h; simp
  · rintro h; obtain ⟨rfl, -⟩ := List.cons.inj h; simp
  · rintro h; simp at h

theorem span_digits (ds t : List Char) (h : ∀ c ∈ ds, c.isDigit = true) (ht : ∀ c u, t = c :: u → ¬ c.isDigit = true) :
    (ds ++ t).takeWhile Char.isDigit = ds ∧ (ds ++ t).dropWhile Char.isDigit = t := by
  induction ds with
  | nil =>
    cases t with
    | nil => simp
    | cons c u =>
      have := ht c u rfl
      simp [List.takeWhile_cons, List.dropWhile_cons, this]
  | cons d ds ih =>
    have hd := h d (by simp)
    have := ih fun c hc => h c (by simp [hc])
    simp [List.takeWhile_cons, List.dropWhile_cons, hd, this]

theorem readAbs_digits (n i : ℕ) : readAbs (Nat.toDigits 10 n ++ xpow i) = some ((n : ℤ), i) := by
  obtain ⟨h3, h4⟩ := digits_ok n
  obtain ⟨e1, e2⟩ := span_digits _ (xpow i) h4 (xpow_head i)
  rw [readAbs, e1, e2, readPow_xpow, if_neg h3, Nat.ofDigitChars_ten_toDigits]; rfl

/-- A line of the loop is read as the term it was printed for. -/
theorem readTerm_line (c : ℤ) (i : ℕ) :
    readTerm ((if 0 ≤ c then ['+'] else []) ++ dec c ++ xpow i) = some (c, i) := by
  by_cases h : 0 ≤ c
  · have : dec c = Nat.toDigits 10 c.natAbs := by rw [dec, if_neg (by omega)]
    rw [if_pos h, this]
    show readTerm ('+' :: (Nat.toDigits 10 c.natAbs ++ xpow i)) = _
    rw [readTerm, readAbs_digits, Int.natAbs_of_nonneg h]
  · have : dec c = '-' :: Nat.toDigits 10 c.natAbs := by rw [dec, if_pos (by omega)]
    rw [if_neg h, this]
    show readTerm ('-' :: (Nat.toDigits 10 c.natAbs ++ xpow i)) = _
    rw [readTerm, readAbs_digits, Option.map_some]
    have : -(c.natAbs : ℤ) = c := by omega
    rw [this]

theorem readTerm_lead (n : ℕ) : readTerm (' ' :: xpow n) = some (1, n) := by
  obtain ⟨e1, e2⟩ := span_digits [] (xpow n) (by simp) (xpow_head n)
  rw [List.nil_append] at e1 e2
  rw [readTerm, readAbs, e1, e2, readPow_xpow]; rfl

/-- The lines of the loop. -/
theorem terms_read (cs : List ℤ) (i : ℕ) (hi : i ≤ cs.length) : ∃ t, terms cs i = some t ∧
    (linesAux [] t).mapM readTerm = some ((List.range i).reverse.map fun j => (cs.getD j 0, j)) := by
  induction i with
  | zero => exact ⟨[], rfl, rfl⟩
  | succ i ih =>
    obtain ⟨t, h1, h2⟩ := ih (by omega)
    have hc : cs[i]? = some (cs.getD i 0) := by
      rw [List.getD_eq_getElem?_getD, List.getElem?_eq_getElem (by omega)]; rfl
    generalize cs.getD i 0 = c at hc
    refine ⟨_, by rw [terms, hc]; dsimp only; rw [h1, Option.map_some], ?_⟩
    rw [List.append_assoc, List.singleton_append, linesAux_cons _ _ _ (by split_ifs <;> simp [nl_dec, nl_xpow]), List.nil_append,
      List.mapM_cons, readTerm_line, h2, List.range_succ, List.reverse_append]
    have hg : cs.getD i 0 = c := by rw [List.getD_eq_getElem?_getD, hc]; rfl
    rw [List.reverse_singleton, List.singleton_append, List.map_cons, hg]; rfl

/-- **C148**: the text printed for a list of coefficients stands for the polynomial with these coefficients, provided that
it is monic: the program does not look at the highest one. -/
theorem C148_meaning (H : ℤ[X]) (hH : H.Monic) :
    ∃ t, poly ((List.range (H.natDegree + 1)).map H.coeff) = some t ∧ meaning t = some H := by
  set cs := (List.range (H.natDegree + 1)).map H.coeff with hcs
  have hlen : cs.length = H.natDegree + 1 := by simp [hcs]
  obtain ⟨t, h1, h2⟩ := terms_read cs H.natDegree (by omega)
  refine ⟨_, by rw [poly, hlen, Nat.add_sub_cancel, h1, Option.map_some], ?_⟩
  have he : ((H.natDegree + 1 : ℕ) : ℤ) - 1 = (H.natDegree : ℕ) := by push_cast; ring
  rw [he, meaning, List.append_assoc, List.append_assoc, List.singleton_append, List.singleton_append, ← List.cons_append,
    linesAux_cons _ _ _ (by simp [nl_xpow]), List.nil_append, List.mapM_cons, readTerm_lead, h2]
  show some (List.sum _) = some H
  rw [Option.some.injEq, List.map_cons, List.sum_cons, List.map_map]
  have hm : (List.range H.natDegree).reverse.map ((fun t : ℤ × ℕ => C t.1 * X ^ t.2) ∘ fun j => (cs.getD j 0, j)) =
      (List.range H.natDegree).reverse.map fun j => C (H.coeff j) * X ^ j := by
    refine List.map_congr_left fun j hj => ?_
    rw [List.mem_reverse, List.mem_range] at hj
    have : cs.getD j 0 = H.coeff j := by
      rw [hcs, List.getD_eq_getElem?_getD, List.getElem?_map, List.getElem?_range (by omega)]; rfl
    simp only [Function.comp_apply, this]
  rw [hm, List.map_reverse, List.sum_reverse]
  conv_rhs => rw [hH.as_sum]
  congr 1
  simp

/-- The discriminants for which something is printed. -/
def shown (lo hi : ℤ) : List ℤ :=
  ((List.range (hi + 1 - lo).toNat).map fun k : ℕ => lo + (k : ℤ)).filter fun D => D % 4 = 0 ∨ D % 4 = 3

theorem blocks_eq (hilbert : ℤ → Option (List ℤ)) (T : ℤ → List Char) (k : ℕ) (D : ℤ)
    (h : ∀ d, D ≤ d → d < D + k → d % 4 = 0 ∨ d % 4 = 3 → ((hilbert d).bind poly) = some (T d)) :
    blocks hilbert D k = some ((((List.range k).map fun j : ℕ => D + (j : ℤ)).filter fun D => D % 4 = 0 ∨ D % 4 = 3).map fun d =>
      ['D', ' ', '=', ' '] ++ dec d ++ ['\n'] ++ T d) := by
  induction k generalizing D with
  | zero => rfl
  | succ k ih =>
    have hi := ih (D + 1) fun d h1 h2 h3 => h d (by omega) (by push_cast; omega) h3
    have hr : ((List.range (k + 1)).map fun j : ℕ => D + (j : ℤ)) = D :: (List.range k).map fun j : ℕ => D + 1 + (j : ℤ) := by
      rw [List.range_succ_eq_map, List.map_cons, List.map_map]
      congr 1
      · simp
      · refine List.map_congr_left fun j _ => ?_
        simp only [Function.comp_apply]; push_cast; ring
    rw [hr, List.filter_cons, blocks]
    by_cases hm : D % 4 = 1 ∨ D % 4 = 2
    · rw [if_pos hm, if_neg (by simp; omega), hi]
    · have h3 : D % 4 = 0 ∨ D % 4 = 3 := by omega
      have hT := h D le_rfl (by push_cast; omega) h3
      obtain ⟨cs, h4, h5⟩ := Option.bind_eq_some_iff.1 hT
      rw [if_neg hm, if_pos (by simpa using h3), h4, Option.bind_some, h5, Option.bind_some, hi, Option.map_some, List.map_cons]

/-- **C148**: if `pbc_hilbert` gives the coefficients of a monic polynomial `H D` for each discriminant in question, the
program prints for each of them, in order and once, a line with the discriminant and a text that stands for `H D`. -/
theorem C148_main (hilbert : ℤ → Option (List ℤ)) (H : ℤ → ℤ[X]) {lo hi : ℤ} (h0 : 0 < lo) (hhi : hi < 2 ^ 31 - 1)
    (hH : ∀ D, lo ≤ D → D ≤ hi → D % 4 = 0 ∨ D % 4 = 3 →
      (H D).Monic ∧ hilbert D = some ((List.range ((H D).natDegree + 1)).map (H D).coeff)) :
    ∃ T : ℤ → List Char, (∀ D ∈ shown lo hi, meaning (T D) = some (H D)) ∧
      main hilbert (some lo) (some hi) = some ((shown lo hi).map fun D => ['D', ' ', '=', ' '] ++ dec D ++ ['\n'] ++ T D).flatten ∧
      (lo = hi → main hilbert (some lo) none = main hilbert (some lo) (some hi)) ∧
      (lo = 3 → hi = 3 → ∀ u, main hilbert none u = main hilbert (some lo) (some hi)) := by
  classical
  have hex : ∀ D, ∃ t, lo ≤ D → D ≤ hi → D % 4 = 0 ∨ D % 4 = 3 → (hilbert D).bind poly = some t ∧ meaning t = some (H D) := by
    intro D
    by_cases h : lo ≤ D ∧ D ≤ hi ∧ (D % 4 = 0 ∨ D % 4 = 3)
    · obtain ⟨hm, he⟩ := hH D h.1 h.2.1 h.2.2
      obtain ⟨t, h1, h2⟩ := C148_meaning (H D) hm
      exact ⟨t, fun _ _ _ => ⟨by rw [he]; exact h1, h2⟩⟩
    · exact ⟨[], fun a b c => absurd ⟨a, b, c⟩ h⟩
  choose T hT using hex
  refine ⟨T, fun D hD => ?_, ?_, ?_, ?_⟩
  · rw [shown, List.mem_filter, List.mem_map] at hD
    obtain ⟨⟨k, hk, rfl⟩, h3⟩ := hD
    rw [List.mem_range] at hk
    exact (hT _ (by omega) (by omega) (by simpa using h3)).2
  · rw [main]
    dsimp only [Option.getD_some, Option.bind_some]
    rw [if_neg (by omega), if_neg (by omega), blocks_eq hilbert T _ lo fun d h1 h2 h3 => (hT d h1 (by omega) h3).1]
    rfl
  · rintro rfl; rfl
  · rintro rfl rfl u; cases u <;> rfl

/-- Distinct discriminants, increasing, all those in the range that are 0 or 3 modulo 4. -/
theorem C148_shown (lo hi D : ℤ) : (D ∈ shown lo hi ↔ lo ≤ D ∧ D ≤ hi ∧ (D % 4 = 0 ∨ D % 4 = 3)) ∧
    (shown lo hi).Pairwise (· < ·) := by
  constructor
  · rw [shown, List.mem_filter, List.mem_map]
    constructor
    · rintro ⟨⟨k, hk, rfl⟩, h3⟩
      rw [List.mem_range] at hk
      exact ⟨by omega, by omega, by simpa using h3⟩
    · rintro ⟨h1, h2, h3⟩
      exact ⟨⟨(D - lo).toNat, List.mem_range.2 (by omega), by omega⟩, by simpa using h3⟩
  · refine List.Pairwise.filter _ (List.pairwise_map.2 ?_)
    exact List.pairwise_lt_range.imp fun h => by omega

/-- `D = 4`: `X - 1728`; `D = 3`: `X`. -/
example : poly [-1728, 1] = some " X\n-1728\n".toList ∧ poly [0, 1] = some " X\n+0\n".toList ∧
    shown 3 12 = [3, 4, 7, 8, 11, 12] := by decide +kernel

/-- The hypotheses of `C148_main` hold for `3 ≤ D ≤ 4` with the polynomials `X` and `X - 1728`. -/
example : ∃ T : ℤ → List Char, (∀ D ∈ shown 3 4, meaning (T D) = some (if D = 3 then X else X - C 1728)) ∧
    main (fun D => if D = 3 then some [0, 1] else some [-1728, 1]) (some 3) (some 4) =
      some ((shown 3 4).map fun D => ['D', ' ', '=', ' '] ++ dec D ++ ['\n'] ++ T D).flatten := by
  obtain ⟨T, h1, h2, -⟩ := C148_main (fun D => if D = 3 then some [0, 1] else some [-1728, 1])
    (fun D => if D = 3 then X else X - C 1728) (lo := 3) (hi := 4) (by norm_num) (by norm_num) (fun D h3 h4 _ => by
      by_cases h : D = 3
      · rw [if_pos h, if_pos h]
        refine ⟨monic_X, ?_⟩
        rw [natDegree_X]
        simp [List.range_succ]
      · rw [if_neg h, if_neg h]
        refine ⟨monic_X_sub_C _, ?_⟩
        rw [natDegree_X_sub_C]
        simp [List.range_succ])
  exact ⟨T, h1, h2⟩

end Pbc.HilbertPoly
