import Verif.Spec.Dispatch
import Mathlib.Tactic.Common

/-!
# Deciding which operations can be called
-/

set_option autoImplicit false

namespace Pbc.Dispatch
open Spec.Dispatch

/-- All the operations. -/
def Op.all : List Op :=
  [.fieldClear, .init, .clear, .setMpz, .setMultiz, .set, .set0, .set1, .setStr, .outStr, .add,
   .sub, .mul, .isSqr, .sqrt, .itemCount, .item, .getX, .getY, .setSi, .addUi, .mulMpz, .mulSi,
   .div, .doub, .multiDoub, .multiAdd, .halve, .square, .cubic, .powMpz, .invert, .neg, .random,
   .fromHash, .is1, .is0, .sign, .cmp, .toBytes, .fromBytes, .lengthInBytes, .snprint, .toMpz,
   .outInfo, .ppInit, .ppClear, .ppPow]

theorem Op.mem_all (o : Op) : o ∈ Op.all := by cases o <;> decide +kernel

/-- What a cell holds, forgetting the stale contents. -/
def Cell.view {γ : Type} : Cell γ → Option Routine
  | .stale _ => none
  | .fn r => some r

/-- The effect of statements on the routines. -/
def shape (s : Op → Option Routine) : List Stmt → Op → Option Routine
  | [] => s
  | .put o r :: l => shape (fun x => if x = o then some r else s x) l
  | .copy d c :: l => shape (fun x => if x = d then s c else s x) l
  | .len _ :: l => shape s l

theorem shape_eq {γ : Type} (l : List Stmt) (t : Table γ) (o : Op) :
    ((execAll t l).slot o).view = shape (fun x => (t.slot x).view) l o := by
  induction l generalizing t with
  | nil => rfl
  | cons s l ih =>
    cases s with
    | put p r =>
      show ((execAll _ l).slot o).view = shape _ l o
      rw [ih]
      congr 1
      funext x
      by_cases h : x = p <;> simp [Stmt.exec, h, Cell.view]
    | copy d c =>
      show ((execAll _ l).slot o).view = shape _ l o
      rw [ih]
      congr 1
      funext x
      by_cases h : x = d <;> simp [Stmt.exec, h]
    | len c => exact ih _

/-- The effect of statements on the fixed length. -/
def lenOf (c : LenCell) : List Stmt → LenCell
  | [] => c
  | .put _ _ :: l => lenOf c l
  | .copy _ _ :: l => lenOf c l
  | .len c :: l => lenOf c l

theorem lenOf_eq {γ : Type} (l : List Stmt) (t : Table γ) :
    (execAll t l).len = lenOf t.len l := by
  induction l generalizing t with
  | nil => rfl
  | cons s l ih =>
    cases s with
    | put p r => exact ih _
    | copy d c => exact ih _
    | len c => exact ih _

/-- Lost, returns at once, or runs a routine. -/
def view (s : Op → Option Routine) (c : LenCell) (o : Op) : Option (Option Routine) :=
  if o = .lengthInBytes then
    match c with
    | .stale _ => none
    | .val z => if 0 ≤ z then some none else (s o).map some
  else (s o).map some

/-- The same for a dispatch. -/
def Jump.view {γ : Type} : Jump γ → Option (Option Routine)
  | .returns _ => some none
  | .runs r => some (some r)
  | .lost => none

theorem jump_view {γ : Type} (t : Table γ) (o : Op) :
    (jump t o).view = view (fun x => (t.slot x).view) t.len o := by
  unfold jump view
  cases hl : t.len <;> cases hs : t.slot o <;> simp only [hs, Cell.view] <;> split_ifs <;> rfl

/-- A decision procedure with fuel: `v` is what an operation does, `b` which operations can be
called on the field below. -/
def check (v : Op → Option (Option Routine)) (b : Op → Bool) : ℕ → Op → Bool
  | 0, _ => false
  | n + 1, o =>
    match v o with
    | none => false
    | some none => true
    | some (some r) => r.self.all (check v b n) && r.base.all b

theorem check_sound {γ : Type} (t : Table γ) (ts : List (Table γ)) (b : Op → Bool)
    (hb : ∀ o, b o = true → Runs ts o) :
    ∀ n o, check (fun o => (jump t o).view) b n o = true → Runs (t :: ts) o := by
  intro n
  induction n with
  | zero => intro o h; simp [check] at h
  | succ n ih =>
    intro o h
    cases hj : jump t o with
    | returns z => exact .returns hj
    | lost => simp [check, hj, Jump.view] at h
    | runs r =>
      simp [check, hj, Jump.view] at h
      exact .runs hj (fun x hx => ih x (h.1 x hx)) fun x hx => hb x (h.2 x hx)

theorem check_complete {γ : Type} (t : Table γ) (ts : List (Table γ)) (b : Op → Bool)
    (hb : ∀ o, Runs ts o → b o = true) (n : ℕ)
    (hn : ∀ o, check (fun o => (jump t o).view) b (n + 1) o = check (fun o => (jump t o).view) b n o) :
    ∀ o, Runs (t :: ts) o → check (fun o => (jump t o).view) b n o = true := by
  intro o h
  generalize hl : t :: ts = l at h
  induction h with
  | returns hj => cases hl; rw [← hn]; simp [check, hj, Jump.view]
  | @runs t' ts' o r hj _ hbase ih _ =>
    cases hl
    rw [← hn]
    simp only [check, hj, Jump.view, Bool.and_eq_true, List.all_eq_true]
    exact ⟨fun x hx => ih x hx rfl, fun x hx => hb x (hbase x hx)⟩

/-- May the operation end in a placeholder? -/
def checkI (v : Op → Option (Option Routine)) (b : Op → Bool) : ℕ → Op → Bool
  | 0, _ => false
  | n + 1, o =>
    match v o with
    | some (some r) => r.placeholder || r.self.any (checkI v b n) || r.base.any b
    | _ => false

theorem checkI_sound {γ : Type} (t : Table γ) (ts : List (Table γ)) (b : Op → Bool)
    (hb : ∀ o, b o = true → Ignores ts o) :
    ∀ n o, checkI (fun o => (jump t o).view) b n o = true → Ignores (t :: ts) o := by
  intro n
  induction n with
  | zero => intro o h; simp [checkI] at h
  | succ n ih =>
    intro o h
    cases hj : jump t o with
    | returns z => simp [checkI, hj, Jump.view] at h
    | lost => simp [checkI, hj, Jump.view] at h
    | runs r =>
      simp [checkI, hj, Jump.view] at h
      rcases h with (h | ⟨x, hx, h⟩) | ⟨x, hx, h⟩
      · exact .here hj h
      · exact .self hj hx (ih x h)
      · exact .base hj hx (hb x h)

theorem checkI_complete {γ : Type} (t : Table γ) (ts : List (Table γ)) (b : Op → Bool)
    (hb : ∀ o, Ignores ts o → b o = true) (n : ℕ)
    (hn : ∀ o, checkI (fun o => (jump t o).view) b (n + 1) o =
      checkI (fun o => (jump t o).view) b n o) :
    ∀ o, Ignores (t :: ts) o → checkI (fun o => (jump t o).view) b n o = true := by
  intro o h
  generalize hl : t :: ts = l at h
  induction h with
  | here hj hp => cases hl; rw [← hn]; simp [checkI, hj, Jump.view, hp]
  | @self t' ts' o x r hj hx _ ih =>
    cases hl
    rw [← hn]
    simp only [checkI, hj, Jump.view, Bool.or_eq_true, List.any_eq_true]
    exact .inl (.inr ⟨x, hx, ih rfl⟩)
  | @base t' ts' o x r hj hx hI _ =>
    cases hl
    rw [← hn]
    simp only [checkI, hj, Jump.view, Bool.or_eq_true, List.any_eq_true]
    exact .inr ⟨x, hx, hb x hI⟩

/-- The tests for one kind: the fuel is enough, and the operations found are all but `miss`. -/
def test (v : Op → Option (Option Routine)) (b : Op → Bool) (n : ℕ) (miss : List Op) : Bool :=
  Op.all.all fun o => (check v b (n + 1) o == check v b n o) && (check v b n o == !miss.contains o)

theorem runs_iff {γ : Type} (t : Table γ) (ts : List (Table γ)) (b miss : List Op) (n : ℕ)
    (v : Op → Option (Option Routine)) (hv : ∀ o, (jump t o).view = v o)
    (hb : ∀ o, Runs ts o ↔ o ∉ b) (h : test v (fun o => !b.contains o) n miss = true) (o : Op) :
    Runs (t :: ts) o ↔ o ∉ miss := by
  have hv' : (fun o => (jump t o).view) = v := funext hv
  have hall : ∀ o, check v (fun o => !b.contains o) (n + 1) o = check v (fun o => !b.contains o) n o ∧
      check v (fun o => !b.contains o) n o = !miss.contains o := by
    intro o
    have := List.all_eq_true.mp h o (Op.mem_all o)
    simpa using this
  have key : Runs (t :: ts) o ↔ check v (fun o => !b.contains o) n o = true := by
    rw [← hv']
    refine ⟨check_complete t ts _ (fun o ho => ?_) n (by rw [hv']; exact fun o => (hall o).1) o,
      check_sound t ts _ (fun o ho => ?_) n o⟩
    · simpa using (hb o).mp ho
    · exact (hb o).mpr (by simpa using ho)
  rw [key, (hall o).2]
  simp

/-- The same for placeholders. -/
def testI (v : Op → Option (Option Routine)) (b : Op → Bool) (n : ℕ) (l : List Op) : Bool :=
  Op.all.all fun o => (checkI v b (n + 1) o == checkI v b n o) && (checkI v b n o == l.contains o)

theorem ignores_iff {γ : Type} (t : Table γ) (ts : List (Table γ)) (b l : List Op) (n : ℕ)
    (v : Op → Option (Option Routine)) (hv : ∀ o, (jump t o).view = v o)
    (hb : ∀ o, Ignores ts o ↔ o ∈ b) (h : testI v (fun o => b.contains o) n l = true) (o : Op) :
    Ignores (t :: ts) o ↔ o ∈ l := by
  have hv' : (fun o => (jump t o).view) = v := funext hv
  have hall : ∀ o, checkI v (fun o => b.contains o) (n + 1) o = checkI v (fun o => b.contains o) n o ∧
      checkI v (fun o => b.contains o) n o = l.contains o := by
    intro o
    have := List.all_eq_true.mp h o (Op.mem_all o)
    simpa using this
  have key : Ignores (t :: ts) o ↔ checkI v (fun o => b.contains o) n o = true := by
    rw [← hv']
    refine ⟨checkI_complete t ts _ (fun o ho => ?_) n (by rw [hv']; exact fun o => (hall o).1) o,
      checkI_sound t ts _ (fun o ho => ?_) n o⟩
    · simpa using (hb o).mp ho
    · exact (hb o).mpr (by simpa using ho)
  rw [key, (hall o).2]
  simp

/-- The routines after `field_init` and the statements of a set-up. -/
def built (l : List Stmt) : Op → Option Routine := shape (fun _ => none) (fieldInit ++ l)

theorem view_nonneg (s : Op → Option Routine) {z : ℤ} (h : 0 ≤ z) :
    view s (.val z) = view s (.val 0) := by
  funext o; simp [view, h]

theorem view_neg (s : Op → Option Routine) {z : ℤ} (h : z < 0) :
    view s (.val z) = view s (.val (-1)) := by
  funext o; simp [view, Int.not_le.mpr h]

theorem view_stale (s : Op → Option Routine) (z : ℤ) :
    view s (.stale z) = view s (.stale 0) := by
  funext o; simp [view]

theorem build_view {γ : Type} (m : Raw γ) (l : List Stmt) (o : Op) :
    (jump (build m l) o).view = view (built l) (lenOf (.stale m.len) l) o := by
  rw [jump_view]
  have h : (fun x => ((build m l).slot x).view) = built l := by
    funext x
    rw [build, shape_eq]
    rfl
  rw [h, build, lenOf_eq]
  rfl

end Pbc.Dispatch
