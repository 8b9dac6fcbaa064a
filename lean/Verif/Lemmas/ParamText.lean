import Verif.Props.ParamInit

/-! # Checking what a long parameter text says, with decimal numbers that the kernel can evaluate -/

set_option autoImplicit false

namespace Pbc.Param

/-- The digits of a number with at most `f` of them, the last one first. -/
def digs : ℕ → ℕ → List ℕ
  | 0, _ => []
  | f + 1, n => if n = 0 then [] else n % 10 :: digs f (n / 10)

theorem digs_eq (f n : ℕ) (h : n < 10 ^ f) : digs f n = Nat.digits 10 n := by
  induction f generalizing n with
  | zero =>
    obtain rfl : n = 0 := by simpa using h
    rfl
  | succ f ih =>
    rcases Nat.eq_zero_or_pos n with rfl | hn
    · rfl
    · rw [digs, if_neg hn.ne', Nat.digits_def' (by norm_num) hn,
        ih _ (Nat.div_lt_of_lt_mul (by rw [pow_succ] at h; omega))]

/-- `intStr` for numbers of at most 500 digits. -/
def fastStr (z : ℤ) : List Char :=
  if z < 0 then '-' :: (if z.natAbs = 0 then ['0'] else (digs 500 z.natAbs).reverse.map Nat.digitChar)
  else if z.natAbs = 0 then ['0'] else (digs 500 z.natAbs).reverse.map Nat.digitChar

theorem fastStr_eq (z : ℤ) (h : z.natAbs < 10 ^ 500) : fastStr z = intStr z := by
  simp only [fastStr, intStr, natStr, digs_eq _ _ h]

/-- Lines with two words each. -/
def lines (l : List (List Char × List Char)) : List Char := l.flatMap fun x => x.1 ++ ' ' :: x.2 ++ ['\n']

theorem says_lines (l : List (List Char × List Char)) (h : ∀ x ∈ l, IsWord x.1 ∧ IsWord x.2) : Says l (lines l) := by
  induction l with
  | nil => exact .done (s := []) .nil (.inl rfl)
  | cons x l ih =>
    obtain ⟨k, v⟩ := x
    have hx := h (k, v) (by simp)
    have := Says.bind (k := k) (v := v) (s₁ := []) (s₂ := []) (w₁ := ' ') (w₂ := '\n') .nil hx.1 (by decide) .nil hx.2
      (by decide) (ih fun y hy => h y (by simp [hy]))
    simpa [lines] using this

/-- A word. -/
def isWord (w : List Char) : Bool := w ≠ [] && w.all (fun c => ¬ NotInWord c) && w.head? ≠ some '#'

theorem isWord_iff (w : List Char) : isWord w = true ↔ IsWord w := by
  simp [isWord, IsWord, and_assoc]

/-- The text consists of these lines, and they describe these parameters. -/
def checkText (l : List (List Char × List Char)) (s : List Char) (p : Par) : Bool :=
  s = lines l && l.all (fun x => isWord x.1 && isWord x.2) && lastBinding l "type".toList = some (typeName p).toList &&
    (fields p).all (fun kv => kv.2.natAbs < 10 ^ 500 && lastBinding l kv.1.toList = some (fastStr kv.2)) &&
    (coeffs p).zipIdx.all
      fun zi => zi.1.natAbs < 10 ^ 500 && zi.2 < 10 ^ 500 && lastBinding l ("coeff".toList ++ fastStr zi.2) = some (fastStr zi.1)

theorem checkText_sound {l : List (List Char × List Char)} {s : List Char} {p : Par} (h : checkText l s p = true) :
    Says l s ∧ Describes l p := by
  simp only [checkText, Bool.and_eq_true, decide_eq_true_eq, List.all_eq_true] at h
  obtain ⟨⟨⟨⟨rfl, h1⟩, h2⟩, h3⟩, h4⟩ := h
  refine ⟨says_lines l fun x hx => ?_, h2, fun kv hkv => ?_, fun i z hi => ?_⟩
  · exact ⟨(isWord_iff _).1 (h1 x hx).1, (isWord_iff _).1 (h1 x hx).2⟩
  · rw [(h3 kv hkv).2, fastStr_eq _ (h3 kv hkv).1]
  · have := h4 (z, i) (by rw [List.mem_zipIdx_iff_getElem?]; exact hi)
    rw [← fastStr_eq z this.1.1, ← this.2, fastStr_eq _ (by simpa using this.1.2)]
    rw [intStr, if_neg (by simp), Int.natAbs_natCast]

/-- The words of a text. -/
def wordsOf : List Char → List (List Char)
  | [] => []
  | c :: s =>
    if c = ' ' ∨ c = '\n' then [] :: wordsOf s
    else match wordsOf s with
      | [] => [[c]]
      | w :: ws => (c :: w) :: ws

/-- Two by two. -/
def pairUp : List (List Char) → List (List Char × List Char)
  | a :: b :: l => (a, b) :: pairUp l
  | _ => []

end Pbc.Param
