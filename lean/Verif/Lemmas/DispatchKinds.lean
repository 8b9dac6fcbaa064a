import Verif.Lemmas.Dispatch

/-!
# Which operations can be called, kind by kind
-/

set_option autoImplicit false

namespace Pbc.Dispatch
open Spec.Dispatch

/-- Statements on routines only. -/
def noLen : List Stmt → List Stmt
  | [] => []
  | .len _ :: l => noLen l
  | .put o r :: l => .put o r :: noLen l
  | .copy d s :: l => .copy d s :: noLen l

theorem shape_noLen (l : List Stmt) (s : Op → Option Routine) : shape s (noLen l) = shape s l := by
  induction l generalizing s with
  | nil => rfl
  | cons a l ih => cases a <;> exact ih _

theorem noLen_append (l l' : List Stmt) : noLen (l ++ l') = noLen l ++ noLen l' := by
  induction l with
  | nil => rfl
  | cons a l ih => cases a <;> simp [noLen, ih]

theorem built_congr {l l' : List Stmt} (h : noLen l = noLen l') : built l = built l' := by
  unfold built
  rw [← shape_noLen, noLen_append, h, ← noLen_append, shape_noLen]

theorem lenOf_append (l l' : List Stmt) (c : LenCell) : lenOf c (l ++ l') = lenOf (lenOf c l) l' := by
  induction l generalizing c with
  | nil => rfl
  | cons a l ih => cases a <;> exact ih _

/-- The sign class of a length. -/
def LenCell.rep : LenCell → LenCell
  | .stale _ => .stale 0
  | .val z => if 0 ≤ z then .val 0 else .val (-1)

theorem view_rep (s : Op → Option Routine) (c : LenCell) : view s c = view s c.rep := by
  cases c with
  | stale z => exact view_stale s z
  | val z =>
    by_cases h : 0 ≤ z
    · rw [LenCell.rep, if_pos h]; exact view_nonneg s h
    · rw [LenCell.rep, if_neg h]; exact view_neg s (Int.not_le.mp h)

/-- One kind: `l'` is a closed form of its statements and `c` the sign class of its length. -/
theorem runs_kind {γ : Type} {m : Raw γ} {l : List Stmt} (l' : List Stmt) (c : LenCell)
    {ts : List (Table γ)} (b miss : List Op)
    (hc : (lenOf (.stale m.len) l).rep = c) (h : noLen l = noLen l')
    (hb : ∀ o, Runs ts o ↔ o ∉ b)
    (ht : test (view (built l') c) (fun o => !b.contains o) 8 miss = true) (o : Op) :
    Runs (build m l :: ts) o ↔ o ∉ miss :=
  runs_iff _ _ b miss 8 _ (fun o => by rw [build_view, view_rep, hc, built_congr h]) hb ht o

theorem ignores_kind {γ : Type} {m : Raw γ} {l : List Stmt} (l' : List Stmt) (c : LenCell)
    {ts : List (Table γ)} (b miss : List Op)
    (hc : (lenOf (.stale m.len) l).rep = c) (h : noLen l = noLen l')
    (hb : ∀ o, Ignores ts o ↔ o ∈ b)
    (ht : testI (view (built l') c) (fun o => b.contains o) 8 miss = true) (o : Op) :
    Ignores (build m l :: ts) o ↔ o ∈ miss :=
  ignores_iff _ _ b miss 8 _ (fun o => by rw [build_view, view_rep, hc, built_congr h]) hb ht o

theorem rep_nat (n : ℕ) : (LenCell.val n).rep = .val 0 := by
  rw [LenCell.rep, if_pos (Int.natCast_nonneg n)]

/-- The operations that only some groups have. -/
def special : List Op := [.multiDoub, .multiAdd, .cubic]

/-- No field below. -/
theorem runs_nil {γ : Type} (o : Op) : Runs ([] : List (Table γ)) o ↔ o ∉ Op.all :=
  Iff.intro (fun h => by cases h) fun h => absurd (Op.mem_all o) h

theorem ignores_nil {γ : Type} (o : Op) : Ignores ([] : List (Table γ)) o ↔ o ∈ ([] : List Op) :=
  Iff.intro (fun h => by cases h) fun h => by cases h

theorem runs_prime {γ : Type} {k : Kind} (hk : IsPrime k) (old : ℕ → Raw γ) (o : Op) :
    Runs (setUp k old) o ↔ o ∉ special := by
  cases hk with
  | naive odd n =>
    exact runs_kind (l := naiveFp odd n) (naiveFp odd 0) (.val 0) Op.all special (rep_nat n) rfl runs_nil
      (by cases odd <;> decide +kernel) o
  | fast odd n =>
    exact runs_kind (l := fastFp odd n) (fastFp odd 0) (.val 0) Op.all special (rep_nat n) rfl runs_nil
      (by cases odd <;> decide +kernel) o
  | faster odd n =>
    exact runs_kind (l := fasterFp odd n) (fasterFp odd 0) (.val 0) Op.all special (rep_nat n) rfl runs_nil
      (by cases odd <;> decide +kernel) o
  | mont n =>
    exact runs_kind (l := montFp n) (montFp 0) (.val 0) Op.all special (rep_nat n) rfl runs_nil
      (by decide +kernel) o
  | tiny n =>
    exact runs_kind (l := tinyFp n) (tinyFp 0) (.val 0) Op.all special (rep_nat n) rfl runs_nil
      (by decide +kernel) o

theorem len_prime {γ : Type} {k : Kind} (hk : IsPrime k) (old : ℕ → Raw γ) :
    ∃ n : ℕ, topLen (setUp k old) = .val n := by
  cases hk with
  | naive odd n => exact ⟨n, rfl⟩
  | fast odd n => exact ⟨n, rfl⟩
  | faster odd n => exact ⟨n, rfl⟩
  | mont n => exact ⟨n, rfl⟩
  | tiny n => exact ⟨n, rfl⟩

theorem nat_not_neg (n : ℕ) : ¬ (LenCell.val n).get < 0 := Int.not_lt.mpr (Int.natCast_nonneg n)

theorem len_quadratic {γ : Type} (m : Raw γ) (n : ℕ) :
    (build m (quadratic (.val n))).len = .val (2 * n : ℕ) := by
  rw [build, lenOf_eq, lenOf_append, quadratic, if_neg (nat_not_neg n)]
  rfl

theorem len_fi {γ : Type} (m : Raw γ) (n : ℕ) :
    (build m (fi (.val n))).len = .val (2 * n : ℕ) := by
  rw [build, lenOf_eq, lenOf_append, fi, if_neg (nat_not_neg n)]
  rfl

theorem len_polymod {γ : Type} (m : Raw γ) (d n : ℕ) :
    (build m (polymod d (.val n))).len = .val (n * d : ℕ) := by
  rw [build, lenOf_eq, lenOf_append, polymod, if_neg (nat_not_neg n), lenOf_append]
  rw [Int.natCast_mul]
  rfl

theorem len_ext {γ : Type} {P : Kind → Prop} (hP : ∀ k, P k → IsPrime k) {k : Kind}
    (hk : Ext P k) (old : ℕ → Raw γ) : ∃ n : ℕ, topLen (setUp k old) = .val n := by
  induction hk generalizing old with
  | base h => exact len_prime (hP _ h) old
  | quadratic _ ih =>
    obtain ⟨n, hn⟩ := ih fun i => old (i + 1)
    refine ⟨2 * n, ?_⟩
    show (build (old 0) (quadratic (topLen _))).len = _
    rw [hn, len_quadratic]
  | fi _ ih =>
    obtain ⟨n, hn⟩ := ih fun i => old (i + 1)
    refine ⟨2 * n, ?_⟩
    show (build (old 0) (fi (topLen _))).len = _
    rw [hn, len_fi]
  | polymod d _ ih =>
    obtain ⟨n, hn⟩ := ih fun i => old (i + 1)
    refine ⟨n * d, ?_⟩
    show (build (old 0) (polymod d (topLen _))).len = _
    rw [hn, len_polymod]

theorem rep_of {γ : Type} (m : Raw γ) (l : List Stmt) {n : ℕ} (h : (build m l).len = .val n) :
    (lenOf (.stale m.len) l).rep = .val 0 := by
  have : lenOf (.stale m.len) l = .val n := by
    rw [← h, build, lenOf_eq, lenOf_append]; rfl
  rw [this, rep_nat]

theorem noLen_quadratic (n : ℕ) : noLen (quadratic (.val n)) = noLen (quadratic (.val 0)) := by
  rw [quadratic, quadratic, if_neg (nat_not_neg n)]
  rfl

theorem noLen_fi (n : ℕ) : noLen (fi (.val n)) = noLen (fi (.val 0)) := by
  rw [fi, fi, if_neg (nat_not_neg n)]
  rfl

theorem noLen_polymod (d n : ℕ) :
    noLen (polymod d (.val n)) = noLen (polymod (if d = 3 then 3 else if d = 6 then 6 else 0)
      (.val 0)) := by
  rw [polymod, if_neg (nat_not_neg n)]
  by_cases h3 : d = 3
  · subst h3; rfl
  · by_cases h6 : d = 6
    · subst h6; rfl
    · rw [if_neg h3, if_neg h6, if_neg h3, if_neg h6]; rfl

theorem runs_ext {γ : Type} {k : Kind} (hk : Ext IsPrime k) (old : ℕ → Raw γ) (o : Op) :
    Runs (setUp k old) o ↔ o ∉ special := by
  induction hk generalizing old o with
  | base h => exact runs_prime h old o
  | @quadratic k hk ih =>
    obtain ⟨n, hn⟩ := len_ext (fun _ h => h) hk fun i => old (i + 1)
    show Runs (build (old 0) (quadratic (topLen _)) :: _) o ↔ _
    rw [hn]
    exact runs_kind (quadratic (.val 0)) (.val 0) special special
      (rep_of _ _ (len_quadratic (old 0) n)) (noLen_quadratic n) (ih _) (by decide +kernel) o
  | @fi k hk ih =>
    obtain ⟨n, hn⟩ := len_ext (fun _ h => h) hk fun i => old (i + 1)
    show Runs (build (old 0) (fi (topLen _)) :: _) o ↔ _
    rw [hn]
    exact runs_kind (fi (.val 0)) (.val 0) special special
      (rep_of _ _ (len_fi (old 0) n)) (noLen_fi n) (ih _) (by decide +kernel) o
  | @polymod k d hk ih =>
    obtain ⟨n, hn⟩ := len_ext (fun _ h => h) hk fun i => old (i + 1)
    show Runs (build (old 0) (polymod d (topLen _)) :: _) o ↔ _
    rw [hn]
    refine runs_kind _ (.val 0) special special
      (rep_of _ _ (len_polymod (old 0) d n)) (noLen_polymod d n) (ih _) ?_ o
    by_cases h3 : d = 3
    · rw [if_pos h3]; decide +kernel
    · rw [if_neg h3]
      by_cases h6 : d = 6
      · rw [if_pos h6]; decide +kernel
      · rw [if_neg h6]; decide +kernel

theorem len_curve {γ : Type} (m : Raw γ) (odd : Bool) (n : ℕ) :
    (build m (curve odd (.val n))).len = .val (2 * n : ℕ) := by
  rw [build, lenOf_eq, lenOf_append, curve, if_neg (nat_not_neg n)]
  rfl

theorem noLen_curve (odd : Bool) (n : ℕ) :
    noLen (curve odd (.val n)) = noLen (curve odd (.val 0)) := by
  rw [curve, curve, if_neg (nat_not_neg n)]
  rfl

theorem runs_curve {γ : Type} (odd : Bool) {k : Kind} (hk : Ext IsPrime k) (old : ℕ → Raw γ)
    (o : Op) : Runs (setUp (.curve odd k) old) o ↔ o ∉ [Op.sqrt, Op.cubic] := by
  obtain ⟨n, hn⟩ := len_ext (fun _ h => h) hk fun i => old (i + 1)
  show Runs (build (old 0) (curve odd (topLen _)) :: _) o ↔ _
  rw [hn]
  exact runs_kind (curve odd (.val 0)) (.val 0) special _
    (rep_of _ _ (len_curve (old 0) odd n)) (noLen_curve odd n) (runs_ext hk _)
    (by cases odd <;> decide +kernel) o

theorem ignores_curve {γ : Type} (odd : Bool) {k : Kind} (hk : Ext IsPrime k) (b l : List Op)
    (old : ℕ → Raw γ) (hb : ∀ o, Ignores (setUp k fun i => old (i + 1)) o ↔ o ∈ b)
    (h : testI (view (built (curve odd (.val 0))) (.val 0)) (fun o => b.contains o) 8 l = true)
    (o : Op) : Ignores (setUp (.curve odd k) old) o ↔ o ∈ l := by
  obtain ⟨n, hn⟩ := len_ext (fun _ h => h) hk fun i => old (i + 1)
  show Ignores (build (old 0) (curve odd (topLen _)) :: _) o ↔ _
  rw [hn]
  exact ignores_kind (curve odd (.val 0)) (.val 0) b l
    (rep_of _ _ (len_curve (old 0) odd n)) (noLen_curve odd n) hb h o

theorem runs_gt {γ : Type} {k : Kind} (hk : Ext IsPrime k) (old : ℕ → Raw γ) (o : Op) :
    Runs (setUp (.gt k) old) o ↔
      o ∉ [Op.isSqr, Op.sqrt, Op.sign, Op.multiDoub, Op.multiAdd, Op.cubic] := by
  obtain ⟨n, hn⟩ := len_ext (fun _ h => h) hk fun i => old (i + 1)
  show Runs (build (old 0) (gt (topLen _)) :: _) o ↔ _
  rw [hn]
  exact runs_kind (l := gt (.val n)) (gt (.val 0)) (.val 0) special _ (rep_nat n) rfl (runs_ext hk _)
    (by decide +kernel) o

theorem ignores_gt {γ : Type} {k : Kind} (hk : Ext IsPrime k) (b l : List Op)
    (old : ℕ → Raw γ) (hb : ∀ o, Ignores (setUp k fun i => old (i + 1)) o ↔ o ∈ b)
    (h : testI (view (built (gt (.val 0))) (.val 0)) (fun o => b.contains o) 8 l = true)
    (o : Op) : Ignores (setUp (.gt k) old) o ↔ o ∈ l := by
  obtain ⟨n, hn⟩ := len_ext (fun _ h => h) hk fun i => old (i + 1)
  show Ignores (build (old 0) (gt (topLen _)) :: _) o ↔ _
  rw [hn]
  exact ignores_kind (l := gt (.val n)) (gt (.val 0)) (.val 0) b l (rep_nat n) rfl hb h o

/-- The implementations with text never end in a placeholder. -/
theorem ignores_text {γ : Type} {k : Kind} (hk : HasText k) (old : ℕ → Raw γ) (o : Op) :
    Ignores (setUp k old) o ↔ o ∈ ([] : List Op) := by
  cases hk with
  | naive odd n =>
    exact ignores_kind (l := naiveFp odd n) (naiveFp odd 0) (.val 0) [] [] (rep_nat n) rfl
      ignores_nil (by cases odd <;> decide +kernel) o
  | mont n =>
    exact ignores_kind (l := montFp n) (montFp 0) (.val 0) [] [] (rep_nat n) rfl
      ignores_nil (by decide +kernel) o

/-- The implementations without text. -/
theorem ignores_noText {γ : Type} {k : Kind} (hk : NoText k) (old : ℕ → Raw γ) (o : Op) :
    Ignores (setUp k old) o ↔ o ∈ [Op.setStr, Op.snprint] := by
  cases hk with
  | fast odd n =>
    exact ignores_kind (l := fastFp odd n) (fastFp odd 0) (.val 0) [] _ (rep_nat n) rfl
      ignores_nil (by cases odd <;> decide +kernel) o
  | faster odd n =>
    exact ignores_kind (l := fasterFp odd n) (fasterFp odd 0) (.val 0) [] _ (rep_nat n) rfl
      ignores_nil (by cases odd <;> decide +kernel) o
  | tiny n =>
    exact ignores_kind (l := tinyFp n) (tinyFp 0) (.val 0) [] _ (rep_nat n) rfl
      ignores_nil (by decide +kernel) o

/-- Extensions end in the same placeholders as the field at the bottom. -/
theorem ignores_ext {γ : Type} {P : Kind → Prop} (hP : ∀ k, P k → IsPrime k) (l : List Op)
    (hl : l = [] ∨ l = [Op.setStr, Op.snprint])
    (h : ∀ (k : Kind) (old : ℕ → Raw γ) (o : Op), P k → (Ignores (setUp k old) o ↔ o ∈ l))
    {k : Kind} (hk : Ext P k) (old : ℕ → Raw γ) (o : Op) : Ignores (setUp k old) o ↔ o ∈ l := by
  induction hk generalizing old o with
  | base hk => exact h _ old o hk
  | @quadratic k hk ih =>
    obtain ⟨n, hn⟩ := len_ext hP hk fun i => old (i + 1)
    show Ignores (build (old 0) (quadratic (topLen _)) :: _) o ↔ _
    rw [hn]
    exact ignores_kind (quadratic (.val 0)) (.val 0) l l
      (rep_of _ _ (len_quadratic (old 0) n)) (noLen_quadratic n) (ih _)
      (by rcases hl with h | h <;> subst h <;> decide +kernel) o
  | @fi k hk ih =>
    obtain ⟨n, hn⟩ := len_ext hP hk fun i => old (i + 1)
    show Ignores (build (old 0) (fi (topLen _)) :: _) o ↔ _
    rw [hn]
    exact ignores_kind (fi (.val 0)) (.val 0) l l
      (rep_of _ _ (len_fi (old 0) n)) (noLen_fi n) (ih _)
      (by rcases hl with h | h <;> subst h <;> decide +kernel) o
  | @polymod k d hk ih =>
    obtain ⟨n, hn⟩ := len_ext hP hk fun i => old (i + 1)
    show Ignores (build (old 0) (polymod d (topLen _)) :: _) o ↔ _
    rw [hn]
    refine ignores_kind _ (.val 0) l l
      (rep_of _ _ (len_polymod (old 0) d n)) (noLen_polymod d n) (ih _) ?_ o
    by_cases h3 : d = 3
    · rw [if_pos h3]; rcases hl with h | h <;> subst h <;> decide +kernel
    · rw [if_neg h3]
      by_cases h6 : d = 6
      · rw [if_pos h6]; rcases hl with h | h <;> subst h <;> decide +kernel
      · rw [if_neg h6]; rcases hl with h | h <;> subst h <;> decide +kernel

theorem text_prime (k : Kind) (h : HasText k) : IsPrime k := by
  cases h with
  | naive odd n => exact .naive odd n
  | mont n => exact .mont n

theorem noText_prime (k : Kind) (h : NoText k) : IsPrime k := by
  cases h with
  | fast odd n => exact .fast odd n
  | faster odd n => exact .faster odd n
  | tiny n => exact .tiny n

theorem ext_mono {P Q : Kind → Prop} (h : ∀ k, P k → Q k) {k : Kind} (hk : Ext P k) : Ext Q k := by
  induction hk with
  | base hk => exact .base (h _ hk)
  | quadratic _ ih => exact .quadratic ih
  | fi _ ih => exact .fi ih
  | polymod n _ ih => exact .polymod n ih

end Pbc.Dispatch
