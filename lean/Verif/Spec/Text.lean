import Verif.Spec.Generic
import Verif.Spec.Printf
import Verif.Spec.Curve

/-! # How elements are written and what reading must give back

Stated without reference to the routines that read. -/

set_option autoImplicit false

namespace Spec.Text

/-- The numeral of `n` in base `b`, in bytes. -/
def numText (b n : ℕ) : List ℕ :=
  if n = 0 then ['0'.toNat] else (Nat.digits b n).reverse.map fun d => ((digitChars[d]?).getD '0').toNat

/-- Several texts, in brackets, separated by a comma and a space. -/
def bracketed (ts : List (List ℕ)) : List ℕ :=
  ['['.toNat] ++ List.intercalate [','.toNat, ' '.toNat] ts ++ [']'.toNat]

/-- The bytes of a text. -/
def bytes (t : List Char) : List ℕ := t.map Char.toNat

/-- White space. -/
def Blank (s : List ℕ) : Prop := ∀ c ∈ s, isSpaceByte c = true

/-- A text before which a number certainly ends. -/
def Ends (b : ℕ) (junk : List ℕ) : Prop := ∀ c ∈ junk.head?, isSpaceByte c = false ∧ digitOf b c = none

/-- A routine that reads elements `x` with `ok x` back from their text `t x` in base `b`: white space may come
before the text, and other text after it; whatever the variable held before, it then holds `x`, and the
number of characters read is returned. -/
def RoundTrip {α : Type*} (b : ℕ) (ok : α → Prop) (t : α → List ℕ)
    (rd : ℕ → α → List ℕ → Option (α × ℕ)) : Prop :=
  ∀ x, ok x → ∀ (old : α) (sp junk : List ℕ), Blank sp → Ends b junk →
    rd b old (sp ++ t x ++ junk) = some (x, (sp ++ t x).length)

/-- A routine that never looks past the end of the text, for any text, base and old value. -/
def Safe {α : Type*} (rd : ℕ → α → List ℕ → Option (α × ℕ)) : Prop :=
  ∀ b old s, ∃ x k, rd b old s = some (x, k) ∧ k ≤ s.length

end Spec.Text
