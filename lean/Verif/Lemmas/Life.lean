import Verif.Spec.Life
import Mathlib.Data.Nat.Bitwise
import Mathlib.Data.Fintype.EquivFin

/-!
# Checking a routine

A certificate gives the set of variables that own a block before each instruction, as a bit mask; `none` where control
never comes.
-/

set_option autoImplicit false

namespace Pbc.Life

open Spec.Life

/-- The certificate at `l` is `a`. -/
def at? (ann : List (Option ℕ)) (l a : ℕ) : Bool :=
  match ann[l]? with
  | some (some b) => b == a
  | _ => false

/-- One instruction against the certificate; `strict`: all cleared on return. -/
def okAt (strict : Bool) (ann : List (Option ℕ)) (i a : ℕ) : Instr → Bool
  | .init x => !a.testBit x && at? ann (i + 1) (a ^^^ 2 ^ x)
  | .clear x => a.testBit x && at? ann (i + 1) (a ^^^ 2 ^ x)
  | .use x => a.testBit x && at? ann (i + 1) a
  | .goto l => at? ann l a
  | .fork l m => at? ann l a && at? ann m a
  | .ret => !strict || a == 0
  | .halt => true

/-- All instructions from number `i` on. -/
def okFrom (strict : Bool) (ann : List (Option ℕ)) : ℕ → List Instr → List (Option ℕ) → Bool
  | _, [], [] => true
  | i, c :: p, some a :: l => okAt strict ann i a c && okFrom strict ann (i + 1) p l
  | i, _ :: p, none :: l => okFrom strict ann (i + 1) p l
  | _, _, _ => false

/-- The certificate fits. -/
def check (strict : Bool) (p : List Instr) (ann : List (Option ℕ)) : Bool :=
  at? ann 0 0 && okFrom strict ann 0 p ann

theorem at?_eq {ann : List (Option ℕ)} {l a : ℕ} (h : at? ann l a = true) : ann[l]? = some (some a) := by
  unfold at? at h
  split at h
  · rename_i b hb; rw [hb]; simpa using h
  · simp at h

theorem okFrom_get {strict : Bool} {ann : List (Option ℕ)} : ∀ {i : ℕ} {p : List Instr} {l : List (Option ℕ)},
    okFrom strict ann i p l = true → ∀ {j a : ℕ}, l[j]? = some (some a) →
      ∃ c, p[j]? = some c ∧ okAt strict ann (i + j) a c = true
  | _, [], [], _, j, a, hj => by simp at hj
  | i, c :: p, some b :: l, h, 0, a, hj => by
    simp only [okFrom, Bool.and_eq_true] at h
    simp only [List.getElem?_cons_zero, Option.some.injEq] at hj
    subst hj
    exact ⟨c, by simp, by simpa using h.1⟩
  | i, c :: p, some b :: l, h, j + 1, a, hj => by
    simp only [okFrom, Bool.and_eq_true] at h
    obtain ⟨c, h1, h2⟩ := okFrom_get h.2 (j := j) (a := a) (by simpa using hj)
    exact ⟨c, by simpa using h1, by rw [← Nat.add_right_comm] at h2; exact h2⟩
  | i, c :: p, none :: l, h, 0, a, hj => by simp at hj
  | i, c :: p, none :: l, h, j + 1, a, hj => by
    simp only [okFrom] at h
    obtain ⟨c, h1, h2⟩ := okFrom_get h (j := j) (a := a) (by simpa using hj)
    exact ⟨c, by simpa using h1, by rw [← Nat.add_right_comm] at h2; exact h2⟩
  | _, [], _ :: _, h, _, _, _ => by simp [okFrom] at h
  | _, _ :: _, [], _, _, _, hj => by simp at hj

theorem testBit_flip (a x y : ℕ) : (a ^^^ 2 ^ x).testBit y = if y = x then !a.testBit x else a.testBit y := by
  rw [Nat.testBit_xor, Nat.testBit_two_pow]
  by_cases h : y = x
  · subst h; simp
  · simp [h, Ne.symm h]

/-- What holds before each instruction. -/
structure Owns (H : Finset ℕ) (a : ℕ) (s : St) : Prop where
  bits : ∀ x, a.testBit x = (s.env x).isSome
  mem : ∀ x b, s.env x = some b → b ∈ s.heap ∧ b ∉ H
  inj : ∀ x y b, s.env x = some b → s.env y = some b → x = y
  sub : H ⊆ s.heap

theorem Owns.move {H : Finset ℕ} {a : ℕ} {s : St} (h : Owns H a s) (l : ℕ) : Owns H a ⟨l, s.env, s.heap⟩ :=
  ⟨h.bits, h.mem, h.inj, h.sub⟩

theorem Owns.init {H : Finset ℕ} {a : ℕ} {s : St} (h : Owns H a s) {x b : ℕ} (l : ℕ) (hb : b ∉ s.heap)
    (hx : a.testBit x = false) : Owns H (a ^^^ 2 ^ x) ⟨l, s.own x (some b), insert b s.heap⟩ where
  bits y := by
    rw [testBit_flip]
    by_cases e : y = x
    · simp [e, St.own, hx]
    · simp [e, St.own, h.bits]
  mem y c hc := by
    simp only [St.own] at hc
    split at hc
    · cases hc; exact ⟨by simp, fun hh => hb (h.sub hh)⟩
    · exact ⟨by simp [(h.mem y c hc).1], (h.mem y c hc).2⟩
  inj y z c hy hz := by
    simp only [St.own] at hy hz
    split at hy <;> split at hz
    · simp_all
    · cases hy; exact absurd (h.mem z _ hz).1 hb
    · cases hz; exact absurd (h.mem y _ hy).1 hb
    · exact h.inj y z c hy hz
  sub := fun c hc => by simp [h.sub hc]

theorem Owns.clear {H : Finset ℕ} {a : ℕ} {s : St} (h : Owns H a s) {x b : ℕ} (l : ℕ) (hb : s.env x = some b) :
    Owns H (a ^^^ 2 ^ x) ⟨l, s.own x none, s.heap.erase b⟩ where
  bits y := by
    rw [testBit_flip]
    by_cases e : y = x
    · simp [e, St.own, h.bits, hb]
    · simp [e, St.own, h.bits]
  mem y c hc := by
    simp only [St.own] at hc
    split at hc
    · simp at hc
    · rename_i e
      refine ⟨Finset.mem_erase.2 ⟨?_, (h.mem y c hc).1⟩, (h.mem y c hc).2⟩
      rintro rfl
      exact e (h.inj _ _ _ hc hb)
  inj y z c hy hz := by
    simp only [St.own] at hy hz
    split at hy <;> split at hz
    · simp_all
    · simp at hy
    · simp at hz
    · exact h.inj y z c hy hz
  sub := fun c hc => Finset.mem_erase.2 ⟨by rintro rfl; exact (h.mem x _ hb).2 hc, h.sub hc⟩

/-- The invariant of a routine with a certificate. -/
def Inv (ann : List (Option ℕ)) (H : Finset ℕ) (s : St) : Prop :=
  ∃ a, ann[s.pc]? = some (some a) ∧ Owns H a s ∧ ∀ b ∈ s.heap, b ∉ H → ∃ x, s.env x = some b

theorem inv_reach {strict : Bool} {p : List Instr} {ann : List (Option ℕ)} (h : check strict p ann = true) {H : Finset ℕ} {s : St}
    (r : Reach p H s) : Inv ann H s := by
  simp only [check, Bool.and_eq_true] at h
  induction r with
  | refl =>
    exact ⟨0, at?_eq h.1, ⟨by simp [start], by simp [start], by simp [start], by simp [start]⟩, by simp [start]⟩
  | tail _ st ih =>
    obtain ⟨a, ha, o, cov⟩ := ih
    obtain ⟨c, hc, ok⟩ := okFrom_get h.2 ha
    rw [Nat.zero_add] at ok
    cases st with
    | @init x b hi hb =>
      rw [hi, Option.some.injEq] at hc; subst hc
      simp only [okAt, Bool.and_eq_true, Bool.not_eq_true'] at ok
      refine ⟨_, at?_eq ok.2, o.init _ hb ok.1, ?_⟩
      intro c hc hH
      rcases Finset.mem_insert.1 hc with rfl | hc
      · exact ⟨x, by simp [St.own]⟩
      · obtain ⟨y, hy⟩ := cov c hc hH
        refine ⟨y, ?_⟩
        have : y ≠ x := by
          rintro rfl
          have := o.bits y
          rw [ok.1, hy] at this
          simp at this
        simp [St.own, this, hy]
    | @clear x b hi hb =>
      rw [hi, Option.some.injEq] at hc; subst hc
      simp only [okAt, Bool.and_eq_true] at ok
      refine ⟨_, at?_eq ok.2, o.clear _ hb, ?_⟩
      intro c hc hH
      obtain ⟨hcb, hc⟩ := Finset.mem_erase.1 hc
      obtain ⟨y, hy⟩ := cov c hc hH
      refine ⟨y, ?_⟩
      have : y ≠ x := by
        rintro rfl
        rw [hb] at hy
        exact hcb (Option.some.inj hy).symm
      simp [St.own, this, hy]
    | @use x b hi hb =>
      rw [hi, Option.some.injEq] at hc; subst hc
      simp only [okAt, Bool.and_eq_true] at ok
      exact ⟨_, at?_eq ok.2, o.move _, cov⟩
    | @goto l hi =>
      rw [hi, Option.some.injEq] at hc; subst hc
      exact ⟨_, at?_eq ok, o.move _, cov⟩
    | @left l m hi =>
      rw [hi, Option.some.injEq] at hc; subst hc
      simp only [okAt, Bool.and_eq_true] at ok
      exact ⟨_, at?_eq ok.1, o.move _, cov⟩
    | @right l m hi =>
      rw [hi, Option.some.injEq] at hc; subst hc
      simp only [okAt, Bool.and_eq_true] at ok
      exact ⟨_, at?_eq ok.2, o.move _, cov⟩

theorem check_defined {strict : Bool} {p : List Instr} {ann : List (Option ℕ)} (h : check strict p ann = true)
    (H : Finset ℕ) (s : St) (r : Reach p H s) : ¬ Undefined p s := by
  intro u
  obtain ⟨a, ha, o, _⟩ := inv_reach h r
  simp only [check, Bool.and_eq_true] at h
  obtain ⟨c, hc, ok⟩ := okFrom_get h.2 ha
  rw [Undefined, hc] at u
  cases c <;> simp only at u
  all_goals
    simp only [okAt, Bool.and_eq_true] at ok
    have := o.bits _ ▸ ok.1
    rw [u] at this
    simp at this

theorem check_tidy {p : List Instr} {ann : List (Option ℕ)} (h : check true p ann = true) : Tidy p where
  defined := check_defined h
  balanced H s r t := by
    obtain ⟨a, ha, o, cov⟩ := inv_reach h r
    simp only [check, Bool.and_eq_true] at h
    obtain ⟨c, hc, ok⟩ := okFrom_get h.2 ha
    rw [Returns] at t
    rw [t, Option.some.injEq] at hc; subst hc
    simp only [okAt, Bool.not_true, Bool.false_or, beq_iff_eq] at ok
    subst ok
    refine Finset.Subset.antisymm (fun b hb => ?_) o.sub
    by_contra hH
    obtain ⟨x, hx⟩ := cov b hb hH
    have := o.bits x
    rw [hx] at this
    simp at this

/-! ### Leaks -/

/-- Runs a routine along the choices `l`: the number of blocks left on return.  `a` the variables that own a block, `k`
the number of blocks allocated since the call. -/
def leak (p : List Instr) : ℕ → ℕ → ℕ → ℕ → List Bool → Option ℕ
  | 0, _, _, _, _ => none
  | n + 1, i, a, k, l =>
    match p[i]? with
    | some (.init x) => if a.testBit x then none else leak p n (i + 1) (a ^^^ 2 ^ x) (k + 1) l
    | some (.clear x) => if a.testBit x then leak p n (i + 1) (a ^^^ 2 ^ x) (k - 1) l else none
    | some (.use x) => if a.testBit x then leak p n (i + 1) a k l else none
    | some (.goto j) => leak p n j a k l
    | some (.fork j m) =>
      match l with
      | true :: l => leak p n j a k l
      | false :: l => leak p n m a k l
      | [] => none
    | some .ret => some k
    | _ => none

theorem leak_reach {p : List Instr} {H : Finset ℕ} : ∀ {n i a k : ℕ} {l : List Bool} {r : ℕ} {s : St},
    leak p n i a k l = some r → s.pc = i → Owns H a s → s.heap.card = H.card + k → Reach p H s →
      ∃ t, Reach p H t ∧ Returns p t ∧ H ⊆ t.heap ∧ t.heap.card = H.card + r
  | 0, _, _, _, _, _, _, h, _, _, _, _ => by simp [leak] at h
  | n + 1, i, a, k, l, r, s, h, hi, o, hk, re => by
    subst hi
    rw [leak] at h
    split at h
    · rename_i x hx
      split at h
      · simp at h
      · rename_i hn
        obtain ⟨b, hb⟩ := Infinite.exists_notMem_finset s.heap
        refine leak_reach h rfl (o.init _ hb (by simpa using hn)) ?_ (re.tail (.init hx hb))
        rw [Finset.card_insert_of_notMem hb, hk]; omega
    · rename_i x hx
      split at h
      · rename_i hn
        rw [o.bits, Option.isSome_iff_exists] at hn
        obtain ⟨b, hb⟩ := hn
        refine leak_reach h rfl (o.clear _ hb) ?_ (re.tail (.clear hx hb))
        simp only
        rw [Finset.card_erase_of_mem (o.mem x b hb).1, hk]
        have : H.card < s.heap.card := by
          refine Finset.card_lt_card (Finset.ssubset_iff_subset_ne.2 ⟨o.sub, ?_⟩)
          rintro rfl
          exact (o.mem x b hb).2 (o.mem x b hb).1
        omega
      · simp at h
    · rename_i x hx
      split at h
      · rename_i hn
        rw [o.bits, Option.isSome_iff_exists] at hn
        obtain ⟨b, hb⟩ := hn
        exact leak_reach h rfl (o.move (s.pc + 1)) hk (re.tail (.use hx hb))
      · simp at h
    · rename_i j hx
      exact leak_reach h rfl (o.move j) hk (re.tail (.goto hx))
    · rename_i j m hx
      split at h
      · exact leak_reach h rfl (o.move j) hk (re.tail (.left hx))
      · exact leak_reach h rfl (o.move m) hk (re.tail (.right hx))
      · simp at h
    · rename_i hx
      rw [Option.some.injEq] at h; subst h
      exact ⟨s, re, hx, o.sub, hk⟩
    · simp at h

theorem leaks_of {p : List Instr} {n k : ℕ} {l : List Bool} (h : leak p n 0 0 0 l = some k) : Leaks p k := fun H =>
  leak_reach (s := start H) h rfl ⟨by simp [start], by simp [start], by simp [start], by simp [start]⟩ rfl .refl

/-- `n` calls lose `n k` blocks. -/
theorem leaks_calls {p : List Instr} {k : ℕ} (h : Leaks p k) (n : ℕ) (H : Finset ℕ) :
    ∃ H', Calls p n H H' ∧ H ⊆ H' ∧ H'.card = H.card + n * k := by
  induction n with
  | zero => exact ⟨H, .none H, Finset.Subset.refl H, by simp⟩
  | succ n ih =>
    obtain ⟨H', c, hs, hc⟩ := ih
    obtain ⟨s, r, t, hs', hc'⟩ := h H'
    exact ⟨s.heap, .more c r t, hs.trans hs', by rw [hc', hc, Nat.add_mul]; omega⟩

end Pbc.Life
