import Verif.Lemmas.FieldGeneric
import Mathlib.Data.List.Forall2

/-! # The generic power routines respect any relation preserved by `mul`, `square` and `1` -/

namespace Pbc.Gen

/-- A relation between what the code stores and what it means. -/
structure PowRel {G H : Type*} [Mul G] [One G] [Sqr G] [Monoid H] (R : G → H → Prop) : Prop where
  one : R 1 1
  mul : ∀ {a b c d}, R a b → R c d → R (a * c) (b * d)
  sqr : ∀ {a b}, R a b → R (sqr a) (b * b)

variable {G H : Type*} [Mul G] [One G] [Sqr G] [Monoid H] {R : G → H → Prop}

theorem windowFrom_rel (h : PowRel R) {a : G} {b : H} (hab : R a b) :
    ∀ (count : ℕ) {l : G} {l' : H}, R l l' →
      List.Forall₂ R (windowFrom a l count) (windowFrom b l' count)
  | 0, _, _, hl => by simpa [windowFrom] using hl
  | count + 1, _, _, hl => by
    rw [windowFrom, windowFrom]
    exact .cons hl (windowFrom_rel h hab count (h.mul hl hab))

theorem getElem?_rel {l : List G} {l' : List H} (h : List.Forall₂ R l l') (i : ℕ) :
    (l[i]? = none ∧ l'[i]? = none) ∨ ∃ x y, l[i]? = some x ∧ l'[i]? = some y ∧ R x y := by
  induction h generalizing i with
  | nil => left; simp
  | cons hxy _ ih =>
    cases i with
    | zero => right; exact ⟨_, _, by simp, by simp, hxy⟩
    | succ i => simpa using ih i

/-- Related loop states. -/
def StRel (R : G → H → Prop) (s : WindState G) (t : WindState H) : Prop :=
  R s.result t.result ∧ s.inword = t.inword ∧ s.word = t.word ∧ s.wbits = t.wbits

/-- Related optional results. -/
def OptRel {A B : Type*} (R : A → B → Prop) (x : Option A) (y : Option B) : Prop :=
  (x = none ∧ y = none) ∨ ∃ a b, x = some a ∧ y = some b ∧ R a b

theorem windStep_rel (h : PowRel R) (n k s : ℕ) {l : List G} {l' : List H}
    (hl : List.Forall₂ R l l') {st : WindState G} {st' : WindState H} (hst : StRel R st st') :
    OptRel (StRel R) (windStep n k l s st) (windStep n k l' s st') := by
  obtain ⟨h1, h2, h3, h4⟩ := hst
  have hs := h.sqr h1
  unfold windStep
  simp only [h2, h3, h4]
  have look : ∀ i w b : ℕ, OptRel (StRel R)
      (match l[i]? with
        | none => none
        | some e => some ⟨sqr st.result * e, false, w, b⟩)
      (match l'[i]? with
        | none => none
        | some e => some ⟨sqr st'.result * e, false, w, b⟩) := by
    intro i w b
    rcases getElem?_rel hl i with ⟨e1, e2⟩ | ⟨x, y, e1, e2, e3⟩
    · rw [e1, e2]; exact Or.inl ⟨rfl, rfl⟩
    · rw [e1, e2]; exact Or.inr ⟨_, _, rfl, rfl, h.mul hs e3, rfl, rfl, rfl⟩
  split_ifs <;> first
    | exact look _ _ _
    | exact Or.inr ⟨_, _, rfl, rfl, hs, rfl, rfl, rfl⟩

theorem windLoop_rel (h : PowRel R) (n k : ℕ) {l : List G} {l' : List H}
    (hl : List.Forall₂ R l l') : ∀ (s : ℕ) {st : WindState G} {st' : WindState H}, StRel R st st' →
    OptRel (StRel R) (windLoop n k l s st) (windLoop n k l' s st')
  | 0, _, _, hst => Or.inr ⟨_, _, rfl, rfl, hst⟩
  | s + 1, _, _, hst => by
    rw [windLoop, windLoop]
    rcases windStep_rel h n k s hl hst with ⟨e1, e2⟩ | ⟨x, y, e1, e2, e3⟩
    · rw [e1, e2]; exact Or.inl ⟨rfl, rfl⟩
    · rw [e1, e2]; exact windLoop_rel h n k hl s e3

/-- The window method computes powers through any representation. -/
theorem powMpz_rel (h : PowRel R) {a : G} {b : H} (hab : R a b) (n : ℕ) :
    ∃ r, powMpz a n = some r ∧ R r (b ^ n) := by
  have hspec := powMpz_spec b n
  unfold powMpz at hspec ⊢
  by_cases h0 : n = 0
  · subst h0; exact ⟨1, by simp, by simpa using h.one⟩
  · rw [if_neg h0] at hspec ⊢
    simp only [powWind, if_neg h0] at hspec ⊢
    rcases windLoop_rel h n (windowSize n) (windowFrom_rel h hab (2 ^ windowSize n - 1) h.one)
      (bits n) (st := ⟨1, false, 0, 0⟩) (st' := ⟨1, false, 0, 0⟩) ⟨h.one, rfl, rfl, rfl⟩ with
      ⟨_, e2⟩ | ⟨x, y, e1, e2, e3⟩
    · unfold buildWindow at hspec
      rw [e2] at hspec
      simp at hspec
    · unfold buildWindow at hspec ⊢
      rw [e2] at hspec
      simp only [Option.map_some, Option.some.injEq] at hspec
      exact ⟨x.result, by rw [e1]; rfl, by rw [← hspec]; exact e3.1⟩

end Pbc.Gen
