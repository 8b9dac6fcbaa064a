import Verif.Spec.CalcSyntax
import Mathlib.Tactic.Linarith

/-!
# Lemmas on the parser of the calculator: the depth bound is enough, and rules for runs of any depth
-/

set_option autoImplicit false

namespace Pbc.Calc

/-- What is shown of the five functions together. -/
def Adequate (n : ℕ) : Prop :=
  (∀ lev ts e ts', parseE n lev ts = some (e, ts') →
    ts'.length < ts.length ∧ ∀ m, 4 * ts.length + 2 ≤ m → parseE m lev ts = some (e, ts')) ∧
  (∀ ts e ts', parsePrefix n ts = some (e, ts') →
    ts'.length < ts.length ∧ ∀ m, 4 * ts.length + 1 ≤ m → parsePrefix m ts = some (e, ts')) ∧
  (∀ f ts e ts', parseSuffix n f ts = some (e, ts') →
    ts'.length ≤ ts.length ∧ ∀ m, 4 * ts.length + 1 ≤ m → parseSuffix m f ts = some (e, ts')) ∧
  (∀ ts e ts', parseList n ts = some (e, ts') →
    ts'.length < ts.length ∧ ∀ m, 4 * ts.length + 3 ≤ m → parseList m ts = some (e, ts')) ∧
  (∀ lev l ts e ts', parseLoop n lev l ts = some (e, ts') →
    ts'.length ≤ ts.length ∧ ∀ m, 4 * ts.length + 1 ≤ m → parseLoop m lev l ts = some (e, ts'))

theorem adequate (n : ℕ) : Adequate n := by
  induction n with
  | zero =>
    refine ⟨?_, ?_, ?_, ?_, ?_⟩ <;> intros <;> simp_all [parseE, parsePrefix, parseSuffix, parseList, parseLoop]
  | succ n ih =>
    obtain ⟨hE, hP, hS, hL, hO⟩ := ih
    refine ⟨?_, ?_, ?_, ?_, ?_⟩
    · intro lev ts e ts' h
      rw [parseE] at h
      rcases h1 : parsePrefix n ts with _ | ⟨e1, t1⟩
      · rw [h1] at h; simp at h
      · rw [h1] at h
        obtain ⟨l1, m1⟩ := hP _ _ _ h1
        obtain ⟨l2, m2⟩ := hO _ _ _ _ _ h
        refine ⟨by omega, fun m hm => ?_⟩
        obtain ⟨m, rfl⟩ : ∃ k, m = k + 1 := ⟨m - 1, by omega⟩
        rw [parseE, m1 m (by omega)]
        exact m2 m (by omega)
    · intro ts e ts' h
      rw [parsePrefix.eq_def] at h
      split at h
      · simp at h
      · rename_i k x u heq
        obtain rfl : n = k := Nat.succ.inj heq
        split at h
        · rename_i e1 t1 h1
          obtain ⟨l1, m1⟩ := hE _ _ _ _ h1
          simp only [Option.some.injEq, Prod.mk.injEq] at h
          obtain ⟨rfl, rfl⟩ := h
          refine ⟨by simp only [List.length_cons]; omega, fun m hm => ?_⟩
          simp only [List.length_cons] at hm
          obtain ⟨m, rfl⟩ : ∃ k, m = k + 1 := ⟨m - 1, by omega⟩
          rw [parsePrefix, m1 m (by omega)]
        · simp at h
      · rename_i k x u hne heq
        obtain rfl : n = k := Nat.succ.inj heq
        obtain ⟨l1, m1⟩ := hS _ _ _ _ h
        refine ⟨by simp only [List.length_cons]; omega, fun m hm => ?_⟩
        simp only [List.length_cons] at hm
        obtain ⟨m, rfl⟩ : ∃ k, m = k + 1 := ⟨m - 1, by omega⟩
        rw [parsePrefix, m1 m (by omega)]
        exact hne
      · rename_i k u heq
        obtain rfl : n = k := Nat.succ.inj heq
        split at h
        · rename_i e1 t1 h1
          obtain ⟨l1, m1⟩ := hE _ _ _ _ h1
          obtain ⟨l2, m2⟩ := hS _ _ _ _ h
          simp only [List.length_cons] at l1
          refine ⟨by simp only [List.length_cons]; omega, fun m hm => ?_⟩
          simp only [List.length_cons] at hm
          obtain ⟨m, rfl⟩ : ∃ k, m = k + 1 := ⟨m - 1, by omega⟩
          rw [parsePrefix, m1 m (by omega)]
          exact m2 m (by omega)
        · simp at h
      · simp only [Option.some.injEq, Prod.mk.injEq] at h
        obtain ⟨rfl, rfl⟩ := h
        refine ⟨by simp, fun m hm => ?_⟩
        obtain ⟨m, rfl⟩ : ∃ k, m = k + 1 := ⟨m - 1, by omega⟩
        rw [parsePrefix]
      · rename_i k u heq
        obtain rfl : n = k := Nat.succ.inj heq
        split at h
        · rename_i e1 t1 h1
          obtain ⟨l1, m1⟩ := hL _ _ _ h1
          simp only [Option.some.injEq, Prod.mk.injEq] at h
          obtain ⟨rfl, rfl⟩ := h
          simp only [List.length_cons] at l1
          refine ⟨by simp only [List.length_cons]; omega, fun m hm => ?_⟩
          simp only [List.length_cons] at hm
          obtain ⟨m, rfl⟩ : ∃ k, m = k + 1 := ⟨m - 1, by omega⟩
          rw [parsePrefix, m1 m (by omega)]
        · simp at h
      · rename_i k u heq
        obtain rfl : n = k := Nat.succ.inj heq
        split at h
        · rename_i e1 t1 h1
          obtain ⟨l1, m1⟩ := hE _ _ _ _ h1
          simp only [Option.some.injEq, Prod.mk.injEq] at h
          obtain ⟨rfl, rfl⟩ := h
          refine ⟨by simp only [List.length_cons]; omega, fun m hm => ?_⟩
          simp only [List.length_cons] at hm
          obtain ⟨m, rfl⟩ : ∃ k, m = k + 1 := ⟨m - 1, by omega⟩
          rw [parsePrefix, m1 m (by omega)]
        · simp at h
      · simp at h
    · intro f ts e ts' h
      rw [parseSuffix.eq_def] at h
      split at h
      · simp at h
      · rename_i k u heq
        obtain rfl : n = k := Nat.succ.inj heq
        obtain ⟨l1, m1⟩ := hS _ _ _ _ h
        refine ⟨by simp only [List.length_cons]; omega, fun m hm => ?_⟩
        simp only [List.length_cons] at hm
        obtain ⟨m, rfl⟩ : ∃ k, m = k + 1 := ⟨m - 1, by omega⟩
        rw [parseSuffix, m1 m (by omega)]
      · rename_i k u hne heq
        obtain rfl : n = k := Nat.succ.inj heq
        split at h
        · rename_i e1 t1 h1
          obtain ⟨l1, m1⟩ := hL _ _ _ h1
          obtain ⟨l2, m2⟩ := hS _ _ _ _ h
          simp only [List.length_cons] at l1
          refine ⟨by simp only [List.length_cons]; omega, fun m hm => ?_⟩
          simp only [List.length_cons] at hm
          obtain ⟨m, rfl⟩ : ∃ k, m = k + 1 := ⟨m - 1, by omega⟩
          rw [parseSuffix, m1 m (by omega)]
          · exact m2 m (by omega)
          · exact hne
        · simp at h
      · rename_i k u heq
        obtain rfl : n = k := Nat.succ.inj heq
        split at h
        · rename_i e1 t1 h1
          obtain ⟨l1, m1⟩ := hE _ _ _ _ h1
          simp only [Option.some.injEq, Prod.mk.injEq] at h
          obtain ⟨rfl, rfl⟩ := h
          simp only [List.length_cons] at l1
          refine ⟨by simp only [List.length_cons]; omega, fun m hm => ?_⟩
          simp only [List.length_cons] at hm
          obtain ⟨m, rfl⟩ : ∃ k, m = k + 1 := ⟨m - 1, by omega⟩
          rw [parseSuffix, m1 m (by omega)]
        · simp at h
      · rename_i k _ u h1 h2 h3 heq
        simp only [Option.some.injEq, Prod.mk.injEq] at h
        obtain ⟨rfl, rfl⟩ := h
        refine ⟨le_refl _, fun m hm => ?_⟩
        obtain ⟨m, rfl⟩ : ∃ k, m = k + 1 := ⟨m - 1, by omega⟩
        rw [parseSuffix]
        all_goals assumption
    · intro ts e ts' h
      rw [parseList] at h
      split at h
      · rename_i e1 t1 h1
        obtain ⟨l1, m1⟩ := hE _ _ _ _ h1
        split at h
        · rename_i es t2 h2
          obtain ⟨l2, m2⟩ := hL _ _ _ h2
          simp only [Option.some.injEq, Prod.mk.injEq] at h
          obtain ⟨rfl, rfl⟩ := h
          simp only [List.length_cons] at l1
          refine ⟨by omega, fun m hm => ?_⟩
          obtain ⟨m, rfl⟩ : ∃ k, m = k + 1 := ⟨m - 1, by omega⟩
          rw [parseList, m1 m (by omega)]
          simp only
          rw [m2 m (by omega)]
        · simp at h
      · rename_i e1 t1 hne h1
        obtain ⟨l1, m1⟩ := hE _ _ _ _ h1
        simp only [Option.some.injEq, Prod.mk.injEq] at h
        obtain ⟨rfl, rfl⟩ := h
        refine ⟨by omega, fun m hm => ?_⟩
        obtain ⟨m, rfl⟩ : ∃ k, m = k + 1 := ⟨m - 1, by omega⟩
        rw [parseList, m1 m (by omega)]
        split
        · rename_i heq
          simp only [Option.some.injEq, Prod.mk.injEq] at heq
          exact absurd heq.2 (hne _)
        · rename_i heq
          simp only [Option.some.injEq, Prod.mk.injEq] at heq
          obtain ⟨rfl, rfl⟩ := heq
          rfl
        · simp_all
      · simp at h
    · intro lev l ts e ts' h
      rcases ts with _ | ⟨t, ts⟩
      · rw [parseLoop] at h
        simp only [Option.some.injEq, Prod.mk.injEq] at h
        obtain ⟨rfl, rfl⟩ := h
        refine ⟨le_refl _, fun m hm => ?_⟩
        obtain ⟨m, rfl⟩ : ∃ k, m = k + 1 := ⟨m - 1, by omega⟩
        rw [parseLoop]
      · rw [parseLoop] at h
        by_cases ht : t = .question
        · rw [if_pos ht] at h
          by_cases hl : lev ≤ 1
          · rw [if_pos hl] at h
            split at h
            · rename_i a t1 h1
              obtain ⟨l1, m1⟩ := hE _ _ _ _ h1
              split at h
              · rename_i b t2 h2
                obtain ⟨l2, m2⟩ := hE _ _ _ _ h2
                obtain ⟨l3, m3⟩ := hO _ _ _ _ _ h
                simp only [List.length_cons] at l1
                refine ⟨by simp only [List.length_cons]; omega, fun m hm => ?_⟩
                simp only [List.length_cons] at hm
                obtain ⟨m, rfl⟩ : ∃ k, m = k + 1 := ⟨m - 1, by omega⟩
                rw [parseLoop, if_pos ht, if_pos hl, m1 m (by omega)]
                simp only
                rw [m2 m (by omega)]
                exact m3 m (by omega)
              · simp at h
            · simp at h
          · rw [if_neg hl] at h
            simp only [Option.some.injEq, Prod.mk.injEq] at h
            obtain ⟨rfl, rfl⟩ := h
            refine ⟨le_refl _, fun m hm => ?_⟩
            obtain ⟨m, rfl⟩ : ∃ k, m = k + 1 := ⟨m - 1, by omega⟩
            rw [parseLoop, if_pos ht, if_neg hl]
        · rw [if_neg ht] at h
          rcases hi : infix? t with _ | ⟨p, k⟩
          · rw [hi] at h
            simp only [Option.some.injEq, Prod.mk.injEq] at h
            obtain ⟨rfl, rfl⟩ := h
            refine ⟨le_refl _, fun m hm => ?_⟩
            obtain ⟨m, rfl⟩ : ∃ k, m = k + 1 := ⟨m - 1, by omega⟩
            rw [parseLoop, if_neg ht, hi]
          · rw [hi] at h
            simp only at h
            by_cases hl : lev ≤ k
            · rw [if_pos hl] at h
              split at h
              · rename_i r t1 h1
                obtain ⟨l1, m1⟩ := hE _ _ _ _ h1
                obtain ⟨l3, m3⟩ := hO _ _ _ _ _ h
                refine ⟨by simp only [List.length_cons]; omega, fun m hm => ?_⟩
                simp only [List.length_cons] at hm
                obtain ⟨m, rfl⟩ : ∃ k, m = k + 1 := ⟨m - 1, by omega⟩
                rw [parseLoop, if_neg ht, hi]
                simp only
                rw [if_pos hl, m1 m (by omega)]
                exact m3 m (by omega)
              · simp at h
            · rw [if_neg hl] at h
              simp only [Option.some.injEq, Prod.mk.injEq] at h
              obtain ⟨rfl, rfl⟩ := h
              refine ⟨le_refl _, fun m hm => ?_⟩
              obtain ⟨m, rfl⟩ : ∃ k, m = k + 1 := ⟨m - 1, by omega⟩
              rw [parseLoop, if_neg ht, hi]
              simp only
              rw [if_neg hl]

theorem parseParams_length (ts : List Tok) : ∀ xs ts', parseParams ts = some (xs, ts') → ts'.length < ts.length := by
  induction ts using parseParams.induct with
  | case1 x ts =>
    intro xs ts' h
    rw [parseParams] at h
    simp only [Option.some.injEq, Prod.mk.injEq] at h
    obtain ⟨-, rfl⟩ := h
    simp only [List.length_cons]
    omega
  | case2 x ts xs1 ts1 h1 ih =>
    intro xs ts' h
    rw [parseParams, h1] at h
    simp only [Option.some.injEq, Prod.mk.injEq] at h
    obtain ⟨-, rfl⟩ := h
    have := ih _ _ h1
    simp only [List.length_cons]
    omega
  | case3 x ts h1 ih =>
    intro xs ts' h
    rw [parseParams, h1] at h
    simp at h
  | case4 ts h1 h2 =>
    intro xs ts' h
    rw [parseParams] at h
    · simp at h
    · exact h1
    · exact h2

def AdequateStmt (n : ℕ) : Prop :=
  (∀ ts e ts', parseStmt n ts = some (e, ts') →
    ts'.length < ts.length ∧ ∀ m, 4 * ts.length + 4 ≤ m → parseStmt m ts = some (e, ts')) ∧
  (∀ ts b ts', parseBody n ts = some (b, ts') →
    ts'.length < ts.length ∧ ∀ m, 4 * ts.length + 5 ≤ m → parseBody m ts = some (b, ts'))

theorem adequateStmt (n : ℕ) : AdequateStmt n := by
  induction n with
  | zero => constructor <;> intros <;> simp_all [parseStmt, parseBody]
  | succ n ih =>
    obtain ⟨hS, hB⟩ := ih
    constructor
    · intro ts e ts' h
      rw [parseStmt.eq_def] at h
      split at h
      · simp at h
      · rename_i k f u heq
        obtain rfl : n = k := Nat.succ.inj heq
        split at h
        · rename_i b t1 h1
          obtain ⟨l1, m1⟩ := hB _ _ _ h1
          simp only [Option.some.injEq, Prod.mk.injEq] at h
          obtain ⟨rfl, rfl⟩ := h
          refine ⟨by simp only [List.length_cons]; omega, fun m hm => ?_⟩
          simp only [List.length_cons] at hm
          obtain ⟨m, rfl⟩ : ∃ k, m = k + 1 := ⟨m - 1, by omega⟩
          rw [parseStmt, m1 m (by omega)]
        · simp at h
      · rename_i k f u hne heq
        obtain rfl : n = k := Nat.succ.inj heq
        split at h
        · rename_i xs t0 h0
          have l0 := parseParams_length _ _ _ h0
          simp only [List.length_cons] at l0
          split at h
          · rename_i b t1 h1
            obtain ⟨l1, m1⟩ := hB _ _ _ h1
            simp only [Option.some.injEq, Prod.mk.injEq] at h
            obtain ⟨rfl, rfl⟩ := h
            refine ⟨by simp only [List.length_cons]; omega, fun m hm => ?_⟩
            simp only [List.length_cons] at hm
            obtain ⟨m, rfl⟩ : ∃ k, m = k + 1 := ⟨m - 1, by omega⟩
            rw [parseStmt, h0]
            · simp only
              rw [m1 m (by omega)]
            · exact hne
          · simp at h
        · simp at h
      · rename_i k heq h1 h2
        obtain rfl : n = k := Nat.succ.inj heq
        split at h
        · rename_i e1 t1 h3
          obtain ⟨l1, m1⟩ := (adequate n).1 _ _ _ _ h3
          simp only [Option.some.injEq, Prod.mk.injEq] at h
          obtain ⟨rfl, rfl⟩ := h
          simp only [List.length_cons] at l1
          refine ⟨by omega, fun m hm => ?_⟩
          obtain ⟨m, rfl⟩ : ∃ k, m = k + 1 := ⟨m - 1, by omega⟩
          rw [parseStmt, m1 m (by omega)]
          all_goals assumption
        · simp at h
    · intro ts b ts' h
      rw [parseBody.eq_def] at h
      split at h
      · simp at h
      · simp only [Option.some.injEq, Prod.mk.injEq] at h
        obtain ⟨rfl, rfl⟩ := h
        refine ⟨by simp, fun m hm => ?_⟩
        obtain ⟨m, rfl⟩ : ∃ k, m = k + 1 := ⟨m - 1, by omega⟩
        rw [parseBody]
      · rename_i k heq hne
        obtain rfl : n = k := Nat.succ.inj heq
        split at h
        · rename_i e1 t1 h1
          obtain ⟨l1, m1⟩ := hS _ _ _ h1
          split at h
          · rename_i b1 t2 h2
            obtain ⟨l2, m2⟩ := hB _ _ _ h2
            simp only [Option.some.injEq, Prod.mk.injEq] at h
            obtain ⟨rfl, rfl⟩ := h
            refine ⟨by omega, fun m hm => ?_⟩
            obtain ⟨m, rfl⟩ : ∃ k, m = k + 1 := ⟨m - 1, by omega⟩
            rw [parseBody, m1 m (by omega)]
            · simp only
              rw [m2 m (by omega)]
            · exact hne
          · simp at h
        · simp at h

/-! ### Runs of any depth -/

def PE (lev : ℕ) (ts : List Tok) (r : Expr × List Tok) : Prop := ∃ n, parseE n lev ts = some r
def PP (ts : List Tok) (r : Expr × List Tok) : Prop := ∃ n, parsePrefix n ts = some r
def PS (f : Expr) (ts : List Tok) (r : Expr × List Tok) : Prop := ∃ n, parseSuffix n f ts = some r
def PI (ts : List Tok) (r : List Expr × List Tok) : Prop := ∃ n, parseList n ts = some r
def PL (lev : ℕ) (l : Expr) (ts : List Tok) (r : Expr × List Tok) : Prop := ∃ n, parseLoop n lev l ts = some r
def PSt (ts : List Tok) (r : Expr × List Tok) : Prop := ∃ n, parseStmt n ts = some r
def PB (ts : List Tok) (r : List Expr × List Tok) : Prop := ∃ n, parseBody n ts = some r

theorem PE.ge {lev : ℕ} {ts : List Tok} {r : Expr × List Tok} (h : PE lev ts r) :
    ∀ m, 4 * ts.length + 2 ≤ m → parseE m lev ts = some r := by
  obtain ⟨n, hn⟩ := h
  exact ((adequate n).1 _ _ _ _ hn).2

theorem PP.ge {ts : List Tok} {r : Expr × List Tok} (h : PP ts r) :
    ∀ m, 4 * ts.length + 1 ≤ m → parsePrefix m ts = some r := by
  obtain ⟨n, hn⟩ := h
  exact ((adequate n).2.1 _ _ _ hn).2

theorem PS.ge {f : Expr} {ts : List Tok} {r : Expr × List Tok} (h : PS f ts r) :
    ∀ m, 4 * ts.length + 1 ≤ m → parseSuffix m f ts = some r := by
  obtain ⟨n, hn⟩ := h
  exact ((adequate n).2.2.1 _ _ _ _ hn).2

theorem PI.ge {ts : List Tok} {r : List Expr × List Tok} (h : PI ts r) :
    ∀ m, 4 * ts.length + 3 ≤ m → parseList m ts = some r := by
  obtain ⟨n, hn⟩ := h
  exact ((adequate n).2.2.2.1 _ _ _ hn).2

theorem PL.ge {lev : ℕ} {l : Expr} {ts : List Tok} {r : Expr × List Tok} (h : PL lev l ts r) :
    ∀ m, 4 * ts.length + 1 ≤ m → parseLoop m lev l ts = some r := by
  obtain ⟨n, hn⟩ := h
  exact ((adequate n).2.2.2.2 _ _ _ _ _ hn).2

theorem PSt.ge {ts : List Tok} {r : Expr × List Tok} (h : PSt ts r) :
    ∀ m, 4 * ts.length + 4 ≤ m → parseStmt m ts = some r := by
  obtain ⟨n, hn⟩ := h
  exact ((adequateStmt n).1 _ _ _ hn).2

theorem PB.ge {ts : List Tok} {r : List Expr × List Tok} (h : PB ts r) :
    ∀ m, 4 * ts.length + 5 ≤ m → parseBody m ts = some r := by
  obtain ⟨n, hn⟩ := h
  exact ((adequateStmt n).2 _ _ _ hn).2

variable {lev k : ℕ} {ts u v : List Tok} {e f l a b : Expr} {r : Expr × List Tok} {es : List Expr} {x : String}

theorem PE.mk (h : PP ts (e, u)) (h' : PL lev e u r) : PE lev ts r := by
  refine ⟨4 * ts.length + 4 * u.length + 9, ?_⟩
  rw [parseE, h.ge _ (by omega)]
  exact h'.ge _ (by omega)

theorem PP.assign (h : PE 4 ts (e, u)) : PP (.id x :: .assign :: ts) (.assign x e, u) := by
  refine ⟨4 * ts.length + 9, ?_⟩
  rw [parsePrefix, h.ge _ (by omega)]

theorem PP.id (h : PS (.id x) ts r) (hne : ∀ u, ts ≠ .assign :: u) : PP (.id x :: ts) r := by
  refine ⟨4 * ts.length + 9, ?_⟩
  rw [parsePrefix, h.ge _ (by omega)]
  exact hne

theorem PP.par (h : PE 0 ts (e, .rpar :: u)) (h' : PS e u r) : PP (.lpar :: ts) r := by
  refine ⟨4 * ts.length + 4 * u.length + 9, ?_⟩
  rw [parsePrefix, h.ge _ (by omega)]
  exact h'.ge _ (by omega)

theorem PP.num : PP (.num k :: ts) (.num k, ts) := ⟨1, by rw [parsePrefix]⟩

theorem PP.list (h : PI ts (es, .rsqu :: u)) : PP (.lsqu :: ts) (.list es, u) := by
  refine ⟨4 * ts.length + 9, ?_⟩
  rw [parsePrefix, h.ge _ (by omega)]

theorem PP.neg (h : PE 6 ts (e, u)) : PP (.minus :: ts) (.neg e, u) := by
  refine ⟨4 * ts.length + 9, ?_⟩
  rw [parsePrefix, h.ge _ (by omega)]

theorem PS.call0 (h : PS (.call f []) ts r) : PS f (.lpar :: .rpar :: ts) r := by
  refine ⟨4 * ts.length + 9, ?_⟩
  rw [parseSuffix, h.ge _ (by omega)]

theorem PI.head (h : PI ts (es, u)) : ∀ v, ts ≠ .rpar :: v := by
  rintro v rfl
  obtain ⟨n, hn⟩ := h
  rcases n with _ | _ | _ | n <;> simp [parseList, parseE, parsePrefix] at hn

theorem PS.call (h : PI ts (es, .rpar :: u)) (h' : PS (.call f es) u r) : PS f (.lpar :: ts) r := by
  refine ⟨4 * ts.length + 4 * u.length + 9, ?_⟩
  rw [parseSuffix, h.ge _ (by omega)]
  · exact h'.ge _ (by omega)
  · exact h.head

theorem PS.item (h : PE 0 ts (e, .rsqu :: u)) : PS f (.lsqu :: ts) (.bin .item f e, u) := by
  refine ⟨4 * ts.length + 9, ?_⟩
  rw [parseSuffix, h.ge _ (by omega)]

theorem PS.stop (h1 : ∀ u, ts ≠ .lpar :: u) (h2 : ∀ u, ts ≠ .lsqu :: u) : PS f ts (f, ts) := by
  refine ⟨1, ?_⟩
  rw [parseSuffix]
  · intro u; exact h1 _
  · exact h1
  · exact h2

theorem PI.one (h : PE 0 ts (e, u)) (hne : ∀ v, u ≠ .comma :: v) : PI ts ([e], u) := by
  refine ⟨4 * ts.length + 9, ?_⟩
  rw [parseList, h.ge _ (by omega)]
  rcases u with _ | ⟨t, u⟩
  · rfl
  · cases t <;> first | rfl | exact absurd rfl (hne _)

theorem PI.cons (h : PE 0 ts (e, .comma :: u)) (h' : PI u (es, v)) : PI ts (e :: es, v) := by
  refine ⟨4 * ts.length + 4 * u.length + 9, ?_⟩
  rw [parseList, h.ge _ (by omega)]
  simp only
  rw [h'.ge _ (by omega)]

theorem PL.tern (hl : lev ≤ 1) (h : PE 0 ts (a, .colon :: u)) (h' : PE 1 u (b, v)) (h'' : PL lev (.tern l a b) v r) :
    PL lev l (.question :: ts) r := by
  refine ⟨4 * ts.length + 4 * u.length + 4 * v.length + 9, ?_⟩
  rw [parseLoop, if_pos rfl, if_pos hl, h.ge _ (by omega)]
  simp only
  rw [h'.ge _ (by omega)]
  exact h''.ge _ (by omega)

theorem PL.op {t : Tok} {p : Prim} (hi : infix? t = some (p, k)) (hl : lev ≤ k) (h : PE (rightLevel k) ts (b, u))
    (h' : PL lev (.bin p l b) u r) : PL lev l (t :: ts) r := by
  refine ⟨4 * ts.length + 4 * u.length + 9, ?_⟩
  rw [parseLoop, if_neg (by rintro rfl; simp [infix?] at hi), hi]
  simp only
  rw [if_pos hl, h.ge _ (by omega)]
  exact h'.ge _ (by omega)

/-- The next token cannot extend an operand parsed with precedence `k`. -/
def Stop (k : ℕ) (ts : List Tok) : Prop :=
  ∀ t u, ts = t :: u → t ≠ .lpar ∧ t ≠ .lsqu ∧ (t = .question → 2 ≤ k) ∧ t ≠ .assign ∧
    (∀ p j, infix? t = some (p, j) → j < k)

theorem Stop.mono {k k' : ℕ} {ts : List Tok} (h : Stop k ts) (hk : k ≤ k') : Stop k' ts := by
  intro t u e
  obtain ⟨h1, h2, h3, h4, h5⟩ := h t u e
  exact ⟨h1, h2, fun h => (h3 h).trans hk, h4, fun p j hp => (h5 p j hp).trans_le hk⟩

theorem PL.stop (h : Stop lev ts) : PL lev l ts (l, ts) := by
  refine ⟨1, ?_⟩
  rcases ts with _ | ⟨t, u⟩
  · rw [parseLoop]
  · obtain ⟨-, -, h3, -, h5⟩ := h t u rfl
    rw [parseLoop]
    by_cases ht : t = .question
    · rw [if_pos ht, if_neg (by have := h3 ht; omega)]
    · rw [if_neg ht]
      rcases hi : infix? t with _ | ⟨p, j⟩
      · rfl
      · simp only
        rw [if_neg (by have := h5 p j hi; omega)]

theorem Stop.ps {k : ℕ} (h : Stop k ts) : PS f ts (f, ts) :=
  PS.stop (fun u e => (h _ _ e).1 rfl) (fun u e => (h _ _ e).2.1 rfl)

end Pbc.Calc
