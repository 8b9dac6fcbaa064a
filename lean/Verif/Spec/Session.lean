import Mathlib.Algebra.Group.Defs

/-! # What a program relies on that computes with the elements of two groups and their pairing

Stated for operations that may fail to return anything (`none`), on whatever elements a program can make. -/

set_option autoImplicit false

namespace Spec

/-- Operations of a group, as a program can call them. -/
structure Ops (P : Type*) where
  made : P → Prop
  mul : P → P → Option P
  pow : P → ℕ → Option P
  inv : P → Option P

/-- The operations return, and what they return is again an element. -/
structure Ops.Closed {P : Type*} (G : Ops P) : Prop where
  mul : ∀ p p', G.made p → G.made p' → ∃ s, G.mul p p' = some s ∧ G.made s
  pow : ∀ p n, G.made p → ∃ s, G.pow p n = some s ∧ G.made s
  inv : ∀ p, G.made p → ∃ s, G.inv p = some s ∧ G.made s

/-- The pairing `e` returns on all elements, its values are `r`-th roots of unity, and it turns the operations of both groups
into those of the values; `val` reads a value. -/
structure Works {P Q L M : Type*} [Monoid M] (G₁ : Ops P) (G₂ : Ops Q) (e : P → Q → Option L) (val : L → M) (r : ℕ) :
    Prop where
  closed₁ : G₁.Closed
  closed₂ : G₂.Closed
  defined : ∀ p q, G₁.made p → G₂.made q → ∃ g, e p q = some g ∧ val g ^ r = 1
  mul₁ : ∀ p p' q s g g' t, G₁.made p → G₁.made p' → G₂.made q → G₁.mul p p' = some s → e p q = some g →
    e p' q = some g' → e s q = some t → val t = val g * val g'
  mul₂ : ∀ p q q' s g g' t, G₁.made p → G₂.made q → G₂.made q' → G₂.mul q q' = some s → e p q = some g →
    e p q' = some g' → e p s = some t → val t = val g * val g'
  pow₁ : ∀ p q m p' g t, G₁.made p → G₂.made q → G₁.pow p m = some p' → e p q = some g → e p' q = some t → val t = val g ^ m
  pow₂ : ∀ p q n q' g t, G₁.made p → G₂.made q → G₂.pow q n = some q' → e p q = some g → e p q' = some t → val t = val g ^ n
  inv₁ : ∀ p q p' g t, G₁.made p → G₂.made q → G₁.inv p = some p' → e p q = some g → e p' q = some t → val t * val g = 1
  inv₂ : ∀ p q q' g t, G₁.made p → G₂.made q → G₂.inv q = some q' → e p q = some g → e p q' = some t → val t * val g = 1

end Spec
