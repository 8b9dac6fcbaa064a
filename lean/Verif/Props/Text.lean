import Verif.Model.Text
import Verif.Spec.Text
import Verif.Props.Generic
import Mathlib.Algebra.Field.ZMod
import Mathlib.Tactic.NormNum.Prime
import Mathlib.Tactic.Ring

/-!
# C96, C97: reading elements from text
-/

set_option autoImplicit false

namespace Props

open Pbc Pbc.Text Spec Spec.Text
open Pbc.Quad (El)
open Pbc.Curve (Pt)
open Spec.Printf (text texts)

/-! ### Characters -/

theorem skip_blank (sp s : List ℕ) (h : Blank sp) : skip (sp ++ s) = skip s := by
  unfold skip
  rw [List.dropWhile_append_of_pos]
  intro c hc
  rw [Gen.isSpace_eq]
  exact h c hc

theorem skip_cons (c : ℕ) (s : List ℕ) (h : isSpaceByte c = false) : skip (c :: s) = c :: s := by
  unfold skip
  rw [List.dropWhile_cons, Gen.isSpace_eq, h]; rfl

theorem digitOf_space (b c : ℕ) (hb : b ≤ 36) (hc : isSpaceByte c = true) : digitOf b c = none := by
  have : ∀ b < 37, ∀ c < 33, isSpaceByte c = true → digitOf b c = none := by decide +kernel
  refine this b (by omega) c ?_ hc
  rw [← Gen.isSpace_eq] at hc
  simp [Gen.isSpace] at hc
  omega

theorem ends_punct (b c : ℕ) (hb : b ≤ 36) (hc : c = 44 ∨ c = 93) (s : List ℕ) : Ends b (c :: s) := by
  have : ∀ b < 37, ∀ c < 94, c = 44 ∨ c = 93 → isSpaceByte c = false ∧ digitOf b c = none := by
    decide +kernel
  intro d hd
  simp only [List.head?_cons, Option.mem_def, Option.some.injEq] at hd
  subst hd
  exact this b (by omega) c (by omega) hc

theorem skip_ends (b : ℕ) (s : List ℕ) (h : Ends b s) : skip s = s := by
  cases s with
  | nil => rfl
  | cons c s => exact skip_cons c s (h c (by simp)).1

/-- A number with white space before it. -/
theorem setStr_blank (base n : ℕ) (hb : 2 ≤ base ∧ base ≤ 36) (sp junk : List ℕ) (hs : Blank sp)
    (hj : Ends base junk) :
    Gen.setStr (sp ++ numText base n ++ junk) base = (n, (sp ++ numText base n).length) := by
  have e : effectiveBase base = base := by unfold effectiveBase; rw [if_neg (by omega)]
  have h1 := C14_round_trip base n hb junk hj
  have hn : numText base n = numeral base n := rfl
  rw [C14_set_str _ _ (Or.inr hb), e] at h1
  rw [C14_set_str _ _ (Or.inr hb), e, hn]
  have hp : numberPrefix base (sp ++ numeral base n ++ junk) = sp ++ numberPrefix base (numeral base n ++ junk) := by
    unfold numberPrefix
    rw [List.append_assoc, List.takeWhile_append_of_pos (fun c hc => by simp [hs c hc])]
  have h2 := congrArg Prod.fst h1
  have h3 := congrArg Prod.snd h1
  dsimp only at h2 h3
  rw [hp]
  refine Prod.ext ?_ (by simp [h3])
  refine Eq.trans ?_ h2
  unfold textValue
  rw [List.filterMap_append]
  have : sp.filterMap (digitOf base) = [] := by
    rw [List.filterMap_eq_nil_iff]
    intro c hc
    exact digitOf_space base c hb.2 (hs c hc)
  rw [this, List.nil_append]

/-! ### C96 -/

/-- **C96.**  Numbers, in every base: whatever stands for the elements of a prime field, as long as setting a
variable to the number of an element gives the element. -/
theorem C96_prime {α : Type*} (order : ℕ) (toZ : α → ℕ) (setZ : ℕ → α) (ok : α → Prop)
    (hlt : ∀ x, ok x → toZ x < order) (hset : ∀ x, ok x → setZ (toZ x) = x) (b : ℕ) (hb : 2 ≤ b ∧ b ≤ 36) :
    RoundTrip b ok (fun x => numText b (toZ x)) (readPrime order setZ) := by
  intro x hx old sp junk hs hj
  unfold readPrime
  dsimp only
  rw [setStr_blank b (toZ x) hb sp junk hs hj]
  dsimp only
  rw [Nat.mod_eq_of_lt (hlt x hx), hset x hx]

/-- **C96.**  The integers, from zero on. -/
theorem C96_integers_partial (b : ℕ) (hb : 2 ≤ b ∧ b ≤ 36) :
    RoundTrip b (fun z : ℤ => 0 ≤ z) (fun z => numText b z.toNat) readZ := by
  intro x hx old sp junk hs hj
  unfold readZ
  dsimp only
  rw [setStr_blank b x.toNat hb sp junk hs hj]
  dsimp only
  rw [Int.toNat_of_nonneg hx]

theorem skip_bracket (sp s : List ℕ) (hs : Blank sp) : skip (sp ++ 91 :: s) = 91 :: s := by
  rw [skip_blank sp _ hs, skip_cons _ _ (by decide)]

theorem adv_append (s t : List ℕ) : adv (s ++ t) s.length = some t := by
  unfold adv
  rw [if_pos (by simp), List.drop_left]

theorem bracketed_two (s t : List ℕ) : bracketed [s, t] = 91 :: (s ++ (44 :: ([32] ++ t ++ [93]))) := by
  simp [bracketed, List.intercalate, List.intersperse]

theorem blank_one : Blank [32] := by intro c hc; simp at hc; subst hc; decide
theorem blank_nil : Blank [] := by intro c hc; simp at hc

/-- **C96.**  Elements of a quadratic extension. -/
theorem C96_quad {α : Type*} (b : ℕ) (hb : b ≤ 36) (zero : α) (ok : α → Prop) (t : α → List ℕ)
    (rd : Reader α) (h : RoundTrip b ok t rd) :
    RoundTrip b (fun e : El α => ok e.x ∧ ok e.y) (fun e => bracketed [t e.x, t e.y]) (readQuad zero rd) := by
  intro e he old sp junk hs hj
  unfold readQuad
  have e1 : sp ++ bracketed [t e.x, t e.y] ++ junk
      = sp ++ 91 :: (t e.x ++ (44 :: ([32] ++ t e.y ++ 93 :: junk))) := by
    rw [bracketed_two]; simp
  have h1 := h e.x he.1 zero [] (44 :: ([32] ++ t e.y ++ 93 :: junk)) blank_nil (ends_punct b 44 hb (.inl rfl) _)
  have h2 := h e.y he.2 zero [32] (93 :: junk) blank_one (ends_punct b 93 hb (.inr rfl) _)
  rw [List.nil_append] at h1
  rw [e1]
  dsimp only
  rw [skip_bracket sp _ hs, if_neg (by simp [hd])]
  rw [List.tail_cons, h1]
  dsimp only
  rw [adv_append]
  dsimp only
  rw [skip_cons 44 _ (by decide), if_neg (by simp [hd]), List.tail_cons, h2]
  dsimp only
  rw [adv_append]
  dsimp only
  rw [if_neg (by simp [hd])]
  refine congrArg some (Prod.ext rfl ?_)
  dsimp only
  rw [bracketed_two]
  simp
  omega

/-- The text of coefficients after the bracket. -/
theorem bracketed_cons (s : List ℕ) (ts : List (List ℕ)) (h : ts ≠ []) (junk : List ℕ) :
    List.intercalate [44, 32] (s :: ts) ++ junk = s ++ (44 :: (32 :: (List.intercalate [44, 32] ts ++ junk))) := by
  cases ts with
  | nil => exact absurd rfl h
  | cons u us => simp [List.intercalate, List.intersperse]

theorem readCoeffs_spec {α : Type*} (b : ℕ) (hb : b ≤ 36) (ok : α → Prop) (t : α → List ℕ)
    (rd : Reader α) (h : RoundTrip b ok t rd) (junk : List ℕ) : ∀ (xs cs : List α), xs.length = cs.length →
    xs ≠ [] → (∀ x ∈ xs, ok x) → ∀ sp, Blank sp →
      readCoeffs rd b cs (sp ++ (List.intercalate [44, 32] (xs.map t) ++ 93 :: junk))
        = some (xs, some (93 :: junk))
  | [], cs, _, hne, _, sp, hs => absurd rfl hne
  | [x], cs, hl, hne, hx, sp, hs => by
    obtain ⟨c, rfl⟩ : ∃ c, cs = [c] := List.length_eq_one_iff.1 (by simpa using hl.symm)
    unfold readCoeffs
    have := h x (hx x (by simp)) c sp (93 :: junk) hs (ends_punct b 93 hb (.inr rfl) _)
    have e : sp ++ (List.intercalate [44, 32] ([x].map t) ++ 93 :: junk) = sp ++ t x ++ 93 :: junk := by
      simp [List.intercalate]
    rw [e, this]
    dsimp only
    rw [adv_append]
    dsimp only
    rw [if_pos (by rfl), skip_cons 93 _ (by decide)]
  | x :: y :: xs, cs, hl, hne, hx, sp, hs => by
    obtain ⟨c, d, cs, rfl⟩ : ∃ c d cs', cs = c :: d :: cs' := by
      match cs, hl with
      | c :: d :: cs, _ => exact ⟨c, d, cs, rfl⟩
    unfold readCoeffs
    have := h x (hx x (by simp)) c sp (44 :: ([32] ++ (List.intercalate [44, 32] ((y :: xs).map t) ++ 93 :: junk)))
      hs (ends_punct b 44 hb (.inl rfl) _)
    have e : sp ++ (List.intercalate [44, 32] ((x :: y :: xs).map t) ++ 93 :: junk)
        = sp ++ t x ++ (44 :: ([32] ++ (List.intercalate [44, 32] ((y :: xs).map t) ++ 93 :: junk))) := by
      rw [List.map_cons, bracketed_cons _ _ (by simp)]
      simp
    rw [e, this]
    dsimp only
    rw [adv_append]
    dsimp only
    rw [if_neg (by simp), skip_cons 44 _ (by decide), if_neg (by simp [hd]), List.tail_cons,
      readCoeffs_spec b hb ok t rd h junk (y :: xs) (d :: cs) (by simpa using hl) (by simp)
        (fun z hz => hx z (by simp at hz ⊢; tauto)) [32] blank_one]
    rfl

/-- **C96.**  Elements of a polynomial extension of positive degree. -/
theorem C96_polymod {α : Type*} (b : ℕ) (hb : b ≤ 36) (n : ℕ) (hn : 0 < n) (zero : α) (ok : α → Prop)
    (t : α → List ℕ) (rd : Reader α) (h : RoundTrip b ok t rd) :
    RoundTrip b (fun e : List α => e.length = n ∧ ∀ x ∈ e, ok x) (fun e => bracketed (e.map t))
      (readPolymod zero rd n) := by
  intro e he old sp junk hs hj
  unfold readPolymod
  have e1 : sp ++ bracketed (e.map t) ++ junk
      = sp ++ 91 :: ([] ++ (List.intercalate [44, 32] (e.map t) ++ 93 :: junk)) := by
    simp [bracketed]
  rw [e1]
  dsimp only
  rw [skip_bracket sp _ hs, if_neg (by simp [hd]), List.tail_cons,
    readCoeffs_spec b hb ok t rd h junk e _ (by simp [he.1])
      (by intro h0; rw [h0] at he; simp at he; omega) he.2 [] blank_nil]
  dsimp only
  rw [if_neg (by simp [hd])]
  refine congrArg some (Prod.ext rfl ?_)
  dsimp only
  simp [bracketed]
  omega

/-- The text of a point. -/
def ptText {α : Type*} (t : α → List ℕ) (p : Pt α) : List ℕ :=
  if p.inf then ['O'.toNat] else bracketed [t p.x, t p.y]

/-- **C96.**  Points of a curve other than `O`. -/
theorem C96_curve {α : Type*} (b : ℕ) (hb : b ≤ 36) (valid : Pt α → Bool) (ok : α → Prop) (t : α → List ℕ)
    (rd : Reader α) (h : RoundTrip b ok t rd) :
    RoundTrip b (fun p : Pt α => p.inf = false ∧ ok p.x ∧ ok p.y ∧ valid p = true) (ptText t)
      (readCurve valid rd) := by
  rintro ⟨inf, x, y⟩ ⟨hi, hx, hy, hv⟩ old sp junk hs hj
  dsimp only at hi hx hy
  subst hi
  unfold readCurve
  have et : ptText t ⟨false, x, y⟩ = bracketed [t x, t y] := by simp [ptText]
  have e1 : sp ++ bracketed [t x, t y] ++ junk
      = sp ++ 91 :: (t x ++ (44 :: ([32] ++ t y ++ 93 :: junk))) := by
    rw [bracketed_two]; simp
  have h1 := h x hx old.x [] (44 :: ([32] ++ t y ++ 93 :: junk)) blank_nil (ends_punct b 44 hb (.inl rfl) _)
  have h2 := h y hy old.y [32] (93 :: junk) blank_one (ends_punct b 93 hb (.inr rfl) _)
  rw [List.nil_append] at h1
  rw [et, e1]
  dsimp only
  rw [skip_bracket sp _ hs, if_neg (by simp [hd]), if_neg (by simp [hd]), List.tail_cons, h1]
  dsimp only
  rw [adv_append]
  dsimp only
  rw [skip_cons 44 _ (by decide), if_neg (by simp [hd]), List.tail_cons, h2]
  dsimp only
  rw [adv_append]
  dsimp only
  rw [if_neg (by simp [hd]), if_neg (by simp [hv])]
  refine congrArg some (Prod.ext rfl ?_)
  dsimp only
  rw [bracketed_two]
  simp
  omega

/-- **C96.**  The text `O` is read as the point `O`. -/
theorem C96_curve_O {α : Type*} (b : ℕ) (valid : Pt α → Bool) (rd : Reader α) (t : α → List ℕ) (p old : Pt α)
    (hp : p.inf = true) (sp junk : List ℕ) (hs : Blank sp) :
    ∃ q, readCurve valid rd b old (sp ++ ptText t p ++ junk) = some (q, (sp ++ ptText t p).length) ∧
      q.inf = true := by
  have e : sp ++ ptText t p ++ junk = sp ++ 79 :: junk := by simp [ptText, hp]
  unfold readCurve
  rw [e]
  dsimp only
  rw [skip_blank sp _ hs, skip_cons 79 _ (by decide), if_pos (by simp [hd])]
  refine ⟨_, congrArg some (Prod.ext rfl ?_), rfl⟩
  simp [ptText, hp]

/-! ### What is printed -/

theorem bytes_natStr (n : ℕ) : bytes (Param.natStr n) = numText 10 n := by
  unfold bytes Param.natStr numText
  by_cases h : n = 0
  · rw [if_pos h, if_pos h]; rfl
  · rw [if_neg h, if_neg h, List.map_map]
    apply List.map_congr_left
    intro d hd
    have hd := Nat.digits_lt_base (by omega) (List.mem_reverse.1 hd)
    have : ∀ d < 10, (Nat.digitChar d).toNat = ((digitChars[d]?).getD '0').toNat := by decide
    exact this d hd

/-- What is printed for a number. -/
theorem bytes_num (n : ℕ) : bytes (text (.num n)) = numText 10 n := by
  rw [← bytes_natStr, text, Param.intStr, if_neg (by omega)]
  rfl

theorem bytes_quad (x y : Printf.Val) :
    bytes (text (.quad x y)) = bracketed [bytes (text x), bytes (text y)] := by
  simp [text, bytes, bracketed, List.intercalate, List.intersperse]

theorem bytes_point (x y : Printf.Val) :
    bytes (text (.point x y)) = bracketed [bytes (text x), bytes (text y)] := by
  simp [text, bytes, bracketed, List.intercalate, List.intersperse]

theorem texts_map : (l : List Printf.Val) → texts l = l.map text
  | [] => by simp [texts]
  | v :: l => by simp [texts, texts_map l]

theorem bytes_coeffs (l : List Printf.Val) :
    bytes (text (.coeffs l)) = bracketed (l.map fun v => bytes (text v)) := by
  simp only [text, texts_map, bytes, bracketed, List.map_append]
  refine congrArg₂ _ (congrArg₂ _ rfl ?_) rfl
  induction l with
  | nil => rfl
  | cons v l ih =>
    cases l with
    | nil => simp [List.intercalate]
    | cons u us =>
      simp only [List.map_cons, List.intercalate, List.intersperse, List.flatten_cons, List.map_append] at ih ⊢
      rw [ih]
      simp

/-- **C96.**  Printing an element of a prime field and reading the text. -/
theorem C96_print_prime {α : Type*} (order : ℕ) (toZ : α → ℕ) (setZ : ℕ → α) (ok : α → Prop)
    (hlt : ∀ x, ok x → toZ x < order) (hset : ∀ x, ok x → setZ (toZ x) = x) :
    RoundTrip 10 ok (fun x => bytes (text (.num (toZ x)))) (readPrime order setZ) := by
  have := C96_prime order toZ setZ ok hlt hset 10 (by norm_num)
  simpa only [bytes_num] using this

/-- **C96.**  The field of `p` elements. -/
theorem C96_print_zmod (p : ℕ) [NeZero p] :
    RoundTrip 10 (fun _ => True) (fun x : ZMod p => bytes (text (.num (x.val : ℕ))))
      (readPrime p (Nat.cast : ℕ → ZMod p)) :=
  C96_print_prime p ZMod.val _ _ (fun x _ => ZMod.val_lt x) (fun x _ => ZMod.natCast_zmod_val x)

/-- **C96.**  Printing an element of a quadratic extension and reading the text. -/
theorem C96_print_quad {α : Type*} (zero : α) (ok : α → Prop) (v : α → Printf.Val) (rd : Reader α)
    (h : RoundTrip 10 ok (fun x => bytes (text (v x))) rd) :
    RoundTrip 10 (fun e : El α => ok e.x ∧ ok e.y) (fun e => bytes (text (.quad (v e.x) (v e.y))))
      (readQuad zero rd) := by
  simpa only [bytes_quad] using C96_quad 10 (by norm_num) zero ok _ rd h

/-- **C96.**  Printing an element of a polynomial extension and reading the text. -/
theorem C96_print_polymod {α : Type*} (n : ℕ) (hn : 0 < n) (zero : α) (ok : α → Prop) (v : α → Printf.Val)
    (rd : Reader α) (h : RoundTrip 10 ok (fun x => bytes (text (v x))) rd) :
    RoundTrip 10 (fun e : List α => e.length = n ∧ ∀ x ∈ e, ok x)
      (fun e => bytes (text (.coeffs (e.map v)))) (readPolymod zero rd n) := by
  simpa only [bytes_coeffs, List.map_map, Function.comp_def] using
    C96_polymod 10 (by norm_num) n hn zero ok _ rd h

/-- How a point is printed. -/
def ptVal {α : Type*} (v : α → Printf.Val) (p : Pt α) : Printf.Val :=
  if p.inf then .inf else .point (v p.x) (v p.y)

theorem bytes_ptVal {α : Type*} (v : α → Printf.Val) (p : Pt α) :
    bytes (text (ptVal v p)) = ptText (fun x => bytes (text (v x))) p := by
  unfold ptVal ptText
  by_cases h : p.inf = true
  · rw [if_pos h, if_pos h]; simp [text, bytes]
  · rw [if_neg h, if_neg h, bytes_point]

/-- **C96.**  Printing a point of the curve `Y² = X³ + a X + b` and reading the text into any variable gives the
same point: the flag is that of the point, and the coordinates are, if they matter. -/
theorem C96_print_curve {K : Type*} [Field K] [DecidableEq K] (a b : K) (ok : K → Prop)
    (v : K → Printf.Val) (rd : Reader K) (h : RoundTrip 10 ok (fun x => bytes (text (v x))) rd) (p old : Pt K)
    (hx : ok p.x) (hy : ok p.y) (hc : OnCurve a b p) (sp junk : List ℕ) (hs : Blank sp) (hj : Ends 10 junk) :
    ∃ q, readCurve (Curve.isValid a b) rd 10 old (sp ++ bytes (text (ptVal v p)) ++ junk)
        = some (q, (sp ++ bytes (text (ptVal v p))).length) ∧
      q.inf = p.inf ∧ (p.inf = false → q = p) := by
  rw [bytes_ptVal]
  by_cases hi : p.inf = true
  · obtain ⟨q, h1, h2⟩ := C96_curve_O 10 (Curve.isValid a b) rd (fun x => bytes (text (v x))) p old hi sp junk hs
    exact ⟨q, h1, by rw [h2, hi], fun h => by rw [hi] at h; cases h⟩
  · rw [Bool.not_eq_true] at hi
    refine ⟨p, C96_curve 10 (by norm_num) (Curve.isValid a b) ok _ rd h p ⟨hi, hx, hy, ?_⟩ old sp junk hs hj,
      rfl, fun _ => rfl⟩
    rcases hc with hc | hc
    · rw [hi] at hc; cases hc
    · unfold Curve.isValid
      rw [if_neg (by simp [hi])]
      simp only [decide_eq_true_eq, hc]
      ring

/-- **C96.**  Base 0 is base 10. -/
theorem C96_base_zero (s : List ℕ) : Gen.setStr s 0 = Gen.setStr s 10 := by
  unfold Gen.setStr
  simp

/-- **C96, discrepancy.**  A negative integer is printed with a sign, which is not read: the result is 0. -/
theorem C96_negative_fails (z old : ℤ) (hz : z < 0) (b : ℕ) :
    readZ b old (bytes (text (.num z))) = some (0, 0) := by
  have e : bytes (text (.num z)) = 45 :: bytes (Param.natStr z.natAbs) := by
    rw [text, Param.intStr, if_pos hz]; rfl
  have hl : ∀ b s, Gen.setStrLoop b (45 :: s) 0 0 = (0, 0) := by
    intro b s
    rw [Gen.setStrLoop]
    simp [Gen.isSpace, Gen.digitVal]
  unfold readZ Gen.setStr
  rw [e, hl, hl]
  simp

/-- **C96, discrepancy.**  A list of integers is printed in brackets, which are not read. -/
theorem C96_multiz_fails (s : List ℕ) (old : Multiz.MZ) (b : ℕ) :
    readMultiz b old (91 :: s) = some (.int 0, 0) := by
  have hl : ∀ b s, Gen.setStrLoop b (91 :: s) 0 0 = (0, 0) := by
    intro b s
    rw [Gen.setStrLoop]
    simp [Gen.isSpace, Gen.digitVal]
  unfold readMultiz Gen.setStr
  rw [hl, hl]
  simp

/-- **C96, discrepancy.**  Fields without a reading routine of their own (polynomial rings among them) read every
text as zero: however elements are written, an element other than zero is not read back. -/
theorem C96_default_fails {α : Type*} (zero x : α) (hx : x ≠ zero) (t : α → List ℕ) (b : ℕ) :
    ¬ RoundTrip b (fun y => y = x) t (readDefault zero) := by
  intro h
  have := h x rfl x [] [] blank_nil (by intro c hc; simp at hc)
  simp only [readDefault, Option.some.injEq, Prod.mk.injEq] at this
  exact hx this.1.symm

/-- **C96, discrepancy.**  Nor is zero read back: the count is never the length of the text written,
unless nothing is written. -/
theorem C96_default_count_fails {α : Type*} (zero x : α) (t : α → List ℕ) (ht : t x ≠ []) (b : ℕ) :
    ¬ RoundTrip b (fun y => y = x) t (readDefault zero) := by
  intro h
  have := h x rfl x [] [] blank_nil (by intro c hc; simp at hc)
  simp only [readDefault, Option.some.injEq, Prod.mk.injEq] at this
  have h2 := this.2
  simp only [List.nil_append, List.length_nil, Nat.zero_add] at h2
  exact ht (List.length_eq_zero_iff.mp h2.symm)

/-- The polynomial ring writes its zero as `[]`. -/
example : ¬ RoundTrip 10 (fun y => y = ([] : List ℤ)) (fun _ => bytes "[]".toList) (readDefault []) :=
  C96_default_count_fails [] [] _ (by decide) 10

/-- A point over a quadratic extension, with white space before it and text after it. -/
example : readCurve (fun _ => true) (readQuad 0 (readPrime 7 (Nat.cast : ℕ → ZMod 7))) 10 ⟨true, ⟨0, 0⟩, ⟨0, 0⟩⟩
    (bytes "  [[1, 6], [13, 0]];".toList) = some (⟨false, ⟨1, 6⟩, ⟨6, 0⟩⟩, 19) := by decide +kernel

example : RoundTrip 10 (fun e : El (ZMod 7) => True ∧ True)
    (fun e => bytes (text (.quad (.num (e.x.val : ℕ)) (.num (e.y.val : ℕ)))))
    (readQuad 0 (readPrime 7 (Nat.cast : ℕ → ZMod 7))) :=
  C96_print_quad 0 _ (fun x : ZMod 7 => .num (x.val : ℕ)) _ (C96_print_zmod 7)

/-! ### C97 -/

theorem takeWhile_len {α : Type*} (p : α → Bool) (s : List α) : (s.takeWhile p).length ≤ s.length :=
  (List.takeWhile_prefix p).length_le

theorem setStr_len (s : List ℕ) (b : ℕ) : (Gen.setStr s b).2 ≤ s.length := by
  by_cases h : b = 0 ∨ 2 ≤ b ∧ b ≤ 36
  · rw [C14_set_str s b h]
    exact takeWhile_len _ s
  · rw [C14_bad_base s b (by omega)]
    omega

/-- **C97.**  Prime fields. -/
theorem C97_prime {α : Type*} (order : ℕ) (setZ : ℕ → α) : Safe (readPrime order setZ) := fun b _ s =>
  ⟨_, _, rfl, setStr_len s b⟩

/-- **C97.**  The integers. -/
theorem C97_integers : Safe readZ := fun b _ s => ⟨_, _, rfl, setStr_len s b⟩

theorem skip_len (s : List ℕ) : (skip s).length ≤ s.length := (List.dropWhile_suffix _).length_le

theorem tail_len (s : List ℕ) (c : ℕ) (hc : 0 < c) (h : hd s = c) : s.tail.length + 1 = s.length := by
  cases s with
  | nil => simp [hd] at h; omega
  | cons d s => simp

theorem adv_some (s : List ℕ) (k : ℕ) (h : k ≤ s.length) :
    ∃ t, adv s k = some t ∧ t.length ≤ s.length := by
  refine ⟨s.drop k, ?_, by simp⟩
  unfold adv
  rw [if_pos h]

/-- **C97.**  Quadratic extensions: no text, however malformed, makes the routine look past its end. -/
theorem C97_quad {α : Type*} (zero : α) (rd : Reader α) (h : Safe rd) : Safe (readQuad zero rd) := by
  intro b old s
  unfold readQuad
  dsimp only
  by_cases h1 : hd (skip s) ≠ 91
  · rw [if_pos h1]; exact ⟨_, _, rfl, by omega⟩
  rw [if_neg h1]
  obtain ⟨x, k, e1, hk⟩ := h b zero (skip s).tail
  obtain ⟨t, e2, ht⟩ := adv_some _ _ hk
  rw [e1]
  dsimp only
  rw [e2]
  dsimp only
  by_cases h2 : hd (skip t) ≠ 44
  · rw [if_pos h2]; exact ⟨_, _, rfl, by omega⟩
  rw [if_neg h2]
  obtain ⟨y, l, e3, hl⟩ := h b zero (skip t).tail
  obtain ⟨u, e4, hu⟩ := adv_some _ _ hl
  rw [e3]
  dsimp only
  rw [e4]
  dsimp only
  by_cases h3 : hd u ≠ 93
  · rw [if_pos h3]; exact ⟨_, _, rfl, by omega⟩
  rw [if_neg h3]
  exact ⟨_, _, rfl, by omega⟩

theorem readCoeffs_safe {α : Type*} (b : ℕ) (rd : Reader α) (h : Safe rd) : ∀ (cs : List α) (cp : List ℕ),
    ∃ xs r, readCoeffs rd b cs cp = some (xs, r) ∧ xs.length = cs.length
  | [], cp => ⟨_, _, rfl, rfl⟩
  | c :: cs, cp => by
    unfold readCoeffs
    obtain ⟨x, k, e1, hk⟩ := h b c cp
    obtain ⟨t, e2, ht⟩ := adv_some _ _ hk
    rw [e1]
    dsimp only
    rw [e2]
    dsimp only
    by_cases h0 : cs.isEmpty = true
    · rw [if_pos h0]
      rw [List.isEmpty_iff] at h0
      subst h0
      exact ⟨_, _, rfl, rfl⟩
    rw [if_neg h0]
    by_cases h1 : hd (skip t) ≠ 44
    · rw [if_pos h1]; exact ⟨_, _, rfl, by simp⟩
    rw [if_neg h1]
    obtain ⟨xs, r, e3, e4⟩ := readCoeffs_safe b rd h cs (skip t).tail
    rw [e3]
    exact ⟨_, _, rfl, by simp [e4]⟩

/-- **C97.**  Polynomial extensions; the result always has all its coefficients. -/
theorem C97_polymod {α : Type*} (zero : α) (rd : Reader α) (h : Safe rd) (n b : ℕ) (old : List α) (s : List ℕ) :
    ∃ x k, readPolymod zero rd n b old s = some (x, k) ∧ k ≤ s.length ∧ x.length = n := by
  unfold readPolymod
  dsimp only
  by_cases h1 : hd (skip s) ≠ 91
  · rw [if_pos h1]; exact ⟨_, _, rfl, by omega, by simp⟩
  rw [if_neg h1]
  obtain ⟨xs, r, e, hx⟩ := readCoeffs_safe b rd h (List.replicate n zero) (skip s).tail
  rw [List.length_replicate] at hx
  rw [e]
  cases r with
  | none => exact ⟨_, _, rfl, by omega, hx⟩
  | some cp =>
    dsimp only
    by_cases h2 : hd cp ≠ 93
    · rw [if_pos h2]; exact ⟨_, _, rfl, by omega, hx⟩
    rw [if_neg h2]
    exact ⟨_, _, rfl, by omega, hx⟩

/-- **C97.**  Points: no text makes the routine look past its end, and if it reports that it read something, then
the variable holds a point of the curve. -/
theorem C97_curve {K : Type*} [Field K] [DecidableEq K] (a b : K) (rd : Reader K) (h : Safe rd) (base : ℕ)
    (old : Pt K) (s : List ℕ) :
    ∃ p k, readCurve (Curve.isValid a b) rd base old s = some (p, k) ∧ k ≤ s.length ∧
      (k ≠ 0 → OnCurve a b p) := by
  unfold readCurve
  dsimp only
  have hsk := skip_len s
  by_cases h0 : hd (skip s) = 79
  · rw [if_pos h0]
    have := tail_len (skip s) 79 (by omega) h0
    exact ⟨_, _, rfl, by omega, fun _ => .inl rfl⟩
  rw [if_neg h0]
  by_cases h1 : hd (skip s) ≠ 91
  · rw [if_pos h1]; exact ⟨_, _, rfl, by omega, fun h => absurd rfl h⟩
  rw [if_neg h1]
  obtain ⟨x, k, e1, hk⟩ := h base old.x (skip s).tail
  obtain ⟨t, e2, ht⟩ := adv_some _ _ hk
  rw [e1]
  dsimp only
  rw [e2]
  dsimp only
  by_cases h2 : hd (skip t) ≠ 44
  · rw [if_pos h2]; exact ⟨_, _, rfl, by omega, fun h => absurd rfl h⟩
  rw [if_neg h2]
  obtain ⟨y, l, e3, hl⟩ := h base old.y (skip t).tail
  obtain ⟨u, e4, hu⟩ := adv_some _ _ hl
  rw [e3]
  dsimp only
  rw [e4]
  dsimp only
  by_cases h3 : hd u ≠ 93
  · rw [if_pos h3]; exact ⟨_, _, rfl, by omega, fun h => absurd rfl h⟩
  rw [if_neg h3]
  by_cases h4 : (!Curve.isValid a b ⟨false, x, y⟩) = true
  · rw [if_pos h4]; exact ⟨_, _, rfl, by omega, fun h => absurd rfl h⟩
  rw [if_neg h4]
  have e5 := tail_len u 93 (by omega) (not_not.1 h3)
  have e6 := tail_len (skip s) 91 (by omega) (not_not.1 h1)
  have e7 := tail_len (skip t) 44 (by omega) (not_not.1 h2)
  have e8 := skip_len t
  refine ⟨_, _, rfl, by omega, fun _ => .inr ?_⟩
  simp only [Bool.not_eq_true', Bool.not_eq_false, Curve.isValid, Bool.false_eq_true, if_false,
    decide_eq_true_eq] at h4
  dsimp only
  rw [← h4]
  ring

/-- **C97, discrepancy.**  A text that starts neither with a bracket nor with `O` is refused with the result 0, but
the flag is cleared: a fresh variable, which held `O`, then holds the pair (0, 0), which is not on the curve unless
`b` is zero. -/
theorem C97_refused_fails {K : Type*} [Field K] [DecidableEq K] (a b : K) (hb : b ≠ 0) (rd : Reader K) (base : ℕ)
    (s : List ℕ) (hs : hd (skip s) ≠ 79 ∧ hd (skip s) ≠ 91) :
    readCurve (Curve.isValid a b) rd base Curve.fresh s = some (⟨false, 0, 0⟩, 0) ∧
      ¬ OnCurve a b (⟨false, 0, 0⟩ : Pt K) := by
  refine ⟨?_, ?_⟩
  · unfold readCurve
    dsimp only
    rw [if_neg hs.1, if_pos hs.2]
    rfl
  · rintro (h | h)
    · cases h
    · exact hb (by simpa using h.symm)

/-- **C97, discrepancy.**  A text cut off before the closing bracket is refused too, but leaves any coordinates
that can be written in the variable, on the curve or not. -/
theorem C97_cut_fails {K : Type*} [Field K] [DecidableEq K] (a b : K) (base : ℕ) (hbase : base ≤ 36)
    (ok : K → Prop) (t : K → List ℕ) (rd : Reader K) (h : RoundTrip base ok t rd) (x y : K) (hx : ok x)
    (hy : ok y) (old : Pt K) :
    readCurve (Curve.isValid a b) rd base old ([91] ++ t x ++ [44] ++ t y) = some (⟨false, x, y⟩, 0) := by
  unfold readCurve
  have e1 : [91] ++ t x ++ [44] ++ t y = [] ++ 91 :: (t x ++ (44 :: ([] ++ t y ++ []))) := by simp
  have h1 := h x hx old.x [] (44 :: ([] ++ t y ++ [])) blank_nil (ends_punct base 44 hbase (.inl rfl) _)
  have h2 := h y hy old.y [] [] blank_nil (by intro c hc; simp at hc)
  rw [List.nil_append] at h1
  rw [e1]
  dsimp only
  rw [skip_bracket [] _ blank_nil, if_neg (by simp [hd]), if_neg (by simp [hd]), List.tail_cons, h1]
  dsimp only
  rw [adv_append]
  dsimp only
  rw [skip_cons 44 _ (by decide), if_neg (by simp [hd]), List.tail_cons, h2]
  dsimp only
  rw [adv_append]
  dsimp only
  rw [if_pos (by simp [hd])]

/-- **C97, discrepancy.**  Missing numbers are not reported: on a curve `Y² = X³ + a X` the text `[,]` is accepted
as the point (0, 0). -/
theorem C97_missing_fails {K : Type*} [Field K] [DecidableEq K] (a : K) (p base : ℕ) (old : Pt K) :
    readCurve (Curve.isValid a 0) (readPrime p (Nat.cast : ℕ → K)) base old (bytes "[,]".toList)
      = some (⟨false, 0, 0⟩, 3) := by
  have hl : ∀ b c s, c = 44 ∨ c = 93 → Gen.setStr (c :: s) b = (0, 0) := by
    intro b c s hc
    have : ∀ b', Gen.setStrLoop b' (c :: s) 0 0 = (0, 0) := by
      intro b'
      rw [Gen.setStrLoop]
      rcases hc with rfl | rfl <;> simp [Gen.isSpace, Gen.digitVal]
    unfold Gen.setStr
    rw [this, this]
    simp
  have e : bytes "[,]".toList = [91, 44, 93] := by decide
  rw [e]
  unfold readCurve
  dsimp only
  rw [skip_cons 91 _ (by decide), if_neg (by simp [hd]), if_neg (by simp [hd]), List.tail_cons]
  unfold readPrime
  dsimp only
  rw [hl _ 44 _ (.inl rfl)]
  simp [adv, skip_cons 44 _ (show isSpaceByte 44 = false by decide), hd, hl _ 93 _ (.inr rfl), Curve.isValid]

private instance fact7 : Fact (Nat.Prime 7) := ⟨by norm_num⟩

/-- The curve `Y² = X³ + 2 X + 3` over the field of 7 elements: a point, a pair that is not on the curve, and a
text cut off. -/
example : readCurve (Curve.isValid (2 : ZMod 7) 3) (readPrime 7 (Nat.cast : ℕ → ZMod 7)) 10 Curve.fresh
      (bytes "[2, 1]".toList) = some (⟨false, 2, 1⟩, 6) ∧
    readCurve (Curve.isValid (2 : ZMod 7) 3) (readPrime 7 (Nat.cast : ℕ → ZMod 7)) 10 Curve.fresh
      (bytes "[2, 2]".toList) = some (⟨true, 2, 2⟩, 0) ∧
    readCurve (Curve.isValid (2 : ZMod 7) 3) (readPrime 7 (Nat.cast : ℕ → ZMod 7)) 10 Curve.fresh
      (bytes "[2, 2".toList) = some (⟨false, 2, 2⟩, 0) := by decide +kernel

/-! ## Concrete cases -/

local instance prime31_text : Fact (Nat.Prime 31) := ⟨by norm_num⟩

/-- The field of 31 elements in base 36, an extension of degree 2 of it, polynomials modulo a cubic,
and points. -/
example : RoundTrip 36 (fun _ : ZMod 31 => True) (fun x => numText 36 x.val)
    (readPrime 31 (Nat.cast : ℕ → ZMod 31)) ∧
    RoundTrip 36 (fun e : El (ZMod 31) => True ∧ True)
      (fun e => bracketed [numText 36 e.x.val, numText 36 e.y.val])
      (readQuad 0 (readPrime 31 (Nat.cast : ℕ → ZMod 31))) ∧
    RoundTrip 36 (fun e : List (ZMod 31) => e.length = 3 ∧ ∀ x ∈ e, True)
      (fun e => bracketed (e.map fun x => numText 36 x.val))
      (readPolymod 0 (readPrime 31 (Nat.cast : ℕ → ZMod 31)) 3) ∧
    RoundTrip 36 (fun p : Pt (ZMod 31) => p.inf = false ∧ True ∧ True ∧
        Curve.isValid (2 : ZMod 31) 3 p = true) (ptText fun x => numText 36 x.val)
      (readCurve (Curve.isValid (2 : ZMod 31) 3) (readPrime 31 (Nat.cast : ℕ → ZMod 31))) := by
  have h := C96_prime 31 (fun x : ZMod 31 => x.val) Nat.cast (fun _ => True)
    (fun x _ => ZMod.val_lt x) (fun x _ => ZMod.natCast_zmod_val x) 36 (by decide)
  exact ⟨h, C96_quad 36 (by decide) 0 _ _ _ h, C96_polymod 36 (by decide) 3 (by decide) 0 _ _ _ h,
    C96_curve 36 (by decide) _ _ _ _ h⟩

/-- The integer 255 in base 16, after two blanks and before a comma. -/
example : readZ 16 (-7) ([32, 32] ++ numText 16 255 ++ [44]) =
    some (255, ([32, 32] ++ numText 16 255).length) := by
  have := C96_integers_partial 16 (by decide)
  simpa [RoundTrip] using this (255 : ℤ) (by decide) (-7) [32, 32] [44]
    (by unfold Blank; decide) (by unfold Ends; decide)

/-- The point at infinity. -/
example : ∃ q, readCurve (Curve.isValid (2 : ZMod 31) 3) (readPrime 31 (Nat.cast : ℕ → ZMod 31)) 10
    ⟨false, 1, 2⟩ ([32] ++ ptText (fun x : ZMod 31 => numText 10 x.val) ⟨true, 0, 0⟩ ++ [59]) =
      some (q, ([32] ++ ptText (fun x : ZMod 31 => numText 10 x.val) ⟨true, 0, 0⟩).length) ∧
    q.inf = true :=
  C96_curve_O 10 _ _ _ ⟨true, 0, 0⟩ _ rfl [32] [59] (by unfold Blank; decide)

/-- What `element_printf` prints can be read back. -/
example : RoundTrip 10 (fun e : List (ZMod 31) => e.length = 3 ∧ ∀ x ∈ e, True)
    (fun e => bytes (text (.coeffs (e.map fun x => .num (x.val : ℕ)))))
    (readPolymod 0 (readPrime 31 (Nat.cast : ℕ → ZMod 31)) 3) :=
  C96_print_polymod 3 (by decide) 0 _ _ _ (C96_print_prime 31 (fun x : ZMod 31 => x.val) Nat.cast
    (fun _ => True) (fun x _ => ZMod.val_lt x) (fun x _ => ZMod.natCast_zmod_val x))

end Props
