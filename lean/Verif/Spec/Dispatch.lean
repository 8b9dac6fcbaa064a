import Verif.Model.Dispatch

/-!
# Which operations can be called

`Runs fs o`: calling the operation `o` on an element of the first field of the tower `fs` only ever
runs routines of the library and comes to an end as far as dispatch is concerned: the member is
set, and the same holds of every operation that the routine calls in turn, on its own field or on
the field below.  It is independent of how the tables were filled in.
-/

set_option autoImplicit false

namespace Spec.Dispatch
open Pbc.Dispatch

/-- The operation can be called: no unset member is ever read. -/
inductive Runs {γ : Type} : List (Table γ) → Op → Prop
  | returns {t : Table γ} {ts : List (Table γ)} {o : Op} {z : ℤ} :
      jump t o = .returns z → Runs (t :: ts) o
  | runs {t : Table γ} {ts : List (Table γ)} {o : Op} {r : Routine} :
      jump t o = .runs r → (∀ x ∈ r.self, Runs (t :: ts) x) → (∀ x ∈ r.base, Runs ts x) →
      Runs (t :: ts) o

/-- Calling the operation may end in one of the placeholders that ignore their argument. -/
inductive Ignores {γ : Type} : List (Table γ) → Op → Prop
  | here {t : Table γ} {ts : List (Table γ)} {o : Op} {r : Routine} :
      jump t o = .runs r → r.placeholder = true → Ignores (t :: ts) o
  | self {t : Table γ} {ts : List (Table γ)} {o x : Op} {r : Routine} :
      jump t o = .runs r → x ∈ r.self → Ignores (t :: ts) x → Ignores (t :: ts) o
  | base {t : Table γ} {ts : List (Table γ)} {o x : Op} {r : Routine} :
      jump t o = .runs r → x ∈ r.base → Ignores ts x → Ignores (t :: ts) o

/-- The integers modulo a prime, in any of the five implementations. -/
inductive IsPrime : Kind → Prop
  | naive (odd : Bool) (n : ℕ) : IsPrime (.naiveFp odd n)
  | fast (odd : Bool) (n : ℕ) : IsPrime (.fastFp odd n)
  | faster (odd : Bool) (n : ℕ) : IsPrime (.fasterFp odd n)
  | mont (n : ℕ) : IsPrime (.montFp n)
  | tiny (n : ℕ) : IsPrime (.tinyFp n)

/-- The implementations that read and print text (the default one and the reference one). -/
inductive HasText : Kind → Prop
  | naive (odd : Bool) (n : ℕ) : HasText (.naiveFp odd n)
  | mont (n : ℕ) : HasText (.montFp n)

/-- The implementations that do not. -/
inductive NoText : Kind → Prop
  | fast (odd : Bool) (n : ℕ) : NoText (.fastFp odd n)
  | faster (odd : Bool) (n : ℕ) : NoText (.fasterFp odd n)
  | tiny (n : ℕ) : NoText (.tinyFp n)

/-- The fields reached from the kinds `P` by any number of quadratic and polynomial extensions. -/
inductive Ext (P : Kind → Prop) : Kind → Prop
  | base {k : Kind} : P k → Ext P k
  | quadratic {k : Kind} : Ext P k → Ext P (.quadratic k)
  | fi {k : Kind} : Ext P k → Ext P (.fi k)
  | polymod {k : Kind} (n : ℕ) : Ext P k → Ext P (.polymod n k)

end Spec.Dispatch
