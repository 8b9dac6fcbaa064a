import Verif.Lemmas.TernaryOps
import Verif.Lemmas.PowRel
import Mathlib.Tactic.FieldSimp
import Mathlib.Tactic.LinearCombination
import Mathlib.Algebra.Polynomial.SpecificDegree
import Mathlib.FieldTheory.Finite.Basic

/-! # Ternary fields -/

set_option autoImplicit false

namespace Pbc.Ternary

open Polynomial

variable {w : ℕ}

/-! ### Setting up the field -/

/-- **C65**: for every trinomial `x^m + x^t + 2` with `0 < t < m` the field is set up correctly. -/
theorem C65_init (hw : 0 < w) {m t : ℕ} (h0 : 0 < t) (ht : t < m) :
    ∃ P : Params w, fieldInit m t = some P ∧ Good m t P := by
  have el : (m + (w - 1) + 1) / w = m / w + 1 := by
    rw [show m + (w - 1) + 1 = m + w by omega, Nat.add_div_right _ hw]
  have hroom : m < (m / w + 1) * w := by
    have := Nat.div_add_mod m w
    have h2 := Nat.mod_lt m hw
    rw [mul_comm] at this
    rw [Nat.add_mul, Nat.one_mul]
    omega
  have hz : (zero (w := w) (m / w + 1)).p1.length = m / w + 1 := by simp [zero]
  obtain ⟨p1, a1, a2, a3⟩ := orBit_spec hw (a := (zero (w := w) (m / w + 1)).p1) (pos := t) (by rw [hz]; omega)
  obtain ⟨p2, b1, b2, b3⟩ := orBit_spec hw (a := p1) (pos := m) (by rw [a2, hz]; omega)
  have hc2 : ∀ i, bit ((zero (w := w) (m / w + 1)).p2.set 0 1) i = decide (i = 0) := fun i => by
    rw [zero]
    dsimp only
    rw [List.replicate_succ, List.set_cons_zero, bit_cons hw, bit_replicate]
    split
    · rw [show (1 : BitVec w).getLsbD i = (1#w).getLsbD i from rfl, BitVec.getLsbD_one]
      simp [hw]
    · simp; omega
  have hc1 : ∀ i, bit p2 i = (decide (i = t) || decide (i = m)) := fun i => by
    rw [b3, a3, zero]
    dsimp only
    rw [bit_replicate, Bool.false_or]
  have hcan : Can (m / w + 1) (⟨p2, (zero (w := w) (m / w + 1)).p2.set 0 1⟩ : El w) :=
    ⟨by rw [b2, a2, hz], by simp [zero], fun i => by
      dsimp only
      rw [hc1, hc2]
      by_cases hi : i = 0
      · subst hi
        simp [show ¬0 = t by omega, show ¬0 = m by omega]
      · simp [hi]⟩
  refine ⟨⟨m / w + 1, m, t, ⟨p2, (zero (w := w) (m / w + 1)).p2.set 0 1⟩⟩, ?_,
    ⟨hw, h0, ht, rfl, rfl, rfl, hcan, ?_⟩⟩
  · rw [fieldInit]
    dsimp only
    rw [el, if_neg (Nat.succ_ne_zero _), a1, Option.bind_some, b1, Option.bind_some]
  · ext i
    rw [poly_coeff hw hcan, coeff, tri_coeff]
    dsimp only
    rw [hc1, hc2]
    by_cases h1 : i = m
    · simp [h1, show m ≠ t by omega, show m ≠ 0 by omega]
    · by_cases h2 : i = t
      · subst h2
        simp [h1, show i ≠ 0 by omega]
      · simp [h1, h2]

/-! ### The operations -/

section ops

variable {m t : ℕ} {P : Params w} {a b : El w} {x y : AdjoinRoot (trinomial m t)}

/-- **C65**: an element is determined by what it stands for, so comparing words compares elements. -/
theorem C65_unique (g : Good m t P) (ha : Reps m t P.len a x) (hb : Reps m t P.len b x) : a = b := by
  refine poly_inj g.word ha.can hb.can ?_
  have hd : trinomial m t ∣ poly a - poly b := by
    rw [← AdjoinRoot.mk_eq_mk, ha.val, hb.val]
  have := eq_zero_of_dvd_of_degree_lt hd (by
    rw [tri_degree g.pos g.lt]
    exact lt_of_le_of_lt (degree_sub_le _ _) (max_lt ha.deg hb.deg))
  exact sub_eq_zero.mp this

theorem any_zip_iff {α : Type*} [DecidableEq α] {l l' : List α} (h : l.length = l'.length) :
    ((List.zip l l').any fun p => p.1 != p.2) = true ↔ l ≠ l' := by
  induction l generalizing l' with
  | nil =>
    cases l' with
    | nil => simp
    | cons _ _ => cases h
  | cons u us ih =>
    cases l' with
    | nil => cases h
    | cons v vs =>
      have := ih (l' := vs) (by simpa using h)
      rw [List.zip_cons_cons, List.any_cons, Bool.or_eq_true, this]
      simp only [ne_eq, List.cons.injEq, bne_iff_ne]
      tauto

/-- **C65**: `element_cmp` is zero exactly on equal field elements. -/
theorem C65_cmp (g : Good m t P) (ha : Reps m t P.len a x) (hb : Reps m t P.len b y) :
    ∃ v, cmp P.len a b = some v ∧ (v = 0 ↔ x = y) := by
  refine ⟨_, by rw [cmp, ha.can.has, hb.can.has]; rfl, ?_⟩
  have key := any_zip_iff (l := a.p1 ++ a.p2) (l' := b.p1 ++ b.p2) (by
    simp [ha.can.l1, ha.can.l2, hb.can.l1, hb.can.l2])
  have e : a.p1 ++ a.p2 = b.p1 ++ b.p2 ↔ x = y := by
    constructor
    · intro h
      obtain ⟨h1, h2⟩ := List.append_inj h (by rw [ha.can.l1, hb.can.l1])
      rw [← ha.val, ← hb.val]
      congr 1
      cases a; cases b; cases h1; cases h2
      rfl
    · rintro rfl
      rw [C65_unique g ha hb]
  by_cases h : a.p1 ++ a.p2 = b.p1 ++ b.p2
  · rw [if_neg (fun h' => key.mp h' h)]
    exact ⟨fun _ => e.mp h, fun _ => rfl⟩
  · rw [if_pos (key.mpr h)]
    exact ⟨fun h' => absurd h' (by decide), fun h' => absurd (e.mpr h') h⟩

theorem C65_zero (m t n : ℕ) : Reps m t n (zero n : El w) 0 :=
  ⟨can_zero n, by rw [poly_zero]; exact WithBot.bot_lt_coe _, by rw [poly_zero, map_zero]⟩

theorem one_spec (hw : 0 < w) {n : ℕ} (hn : 0 < n) :
    ∃ e : El w, one n = some e ∧ Can n e ∧ poly e = 1 := by
  obtain ⟨n, rfl⟩ := Nat.exists_eq_succ_of_ne_zero hn.ne'
  have hb : ∀ i, bit ((zero (w := w) (n + 1)).p1.set 0 1) i = decide (i = 0) := fun i => by
    rw [zero]
    dsimp only
    rw [List.replicate_succ, List.set_cons_zero, bit_cons hw, bit_replicate]
    split
    · rw [show (1 : BitVec w).getLsbD i = (1#w).getLsbD i from rfl, BitVec.getLsbD_one]
      simp [hw]
    · simp; omega
  have hb2 : ∀ i, bit (zero (w := w) (n + 1)).p2 i = false := fun i => bit_replicate _ _
  have hc : Can (n + 1) (⟨(zero (w := w) (n + 1)).p1.set 0 1, (zero (w := w) (n + 1)).p2⟩ : El w) :=
    ⟨by simp [zero], by simp [zero], fun i => by
      dsimp only
      rw [hb2]
      simp⟩
  refine ⟨_, by rw [one, if_neg (by omega)], hc, ?_⟩
  ext i
  rw [poly_coeff hw hc, coeff, coeff_one]
  dsimp only
  rw [hb, hb2]
  simp

theorem C65_one (g : Good m t P) : ∃ e : El w, one P.len = some e ∧ Reps m t P.len e 1 := by
  obtain ⟨e, h1, h2, h3⟩ := one_spec (n := P.len) g.word (by rw [g.len]; exact Nat.succ_pos _)
  refine ⟨e, h1, h2, ?_, by rw [h3, map_one]⟩
  rw [h3, degree_one]
  exact_mod_cast (lt_trans g.pos g.lt)

/-- **C65**: addition. -/
theorem C65_add (g : Good m t P) (ha : Reps m t P.len a x) (hb : Reps m t P.len b y) :
    ∃ e, add P.len a b = some e ∧ Reps m t P.len e (x + y) := by
  obtain ⟨e, h1, h2, h3⟩ := add_spec g.word ha.can hb.can
  refine ⟨e, h1, h2, ?_, by rw [h3, map_add, ha.val, hb.val]⟩
  rw [h3]
  exact lt_of_le_of_lt (degree_add_le _ _) (max_lt ha.deg hb.deg)

/-- **C65**: subtraction. -/
theorem C65_sub (g : Good m t P) (ha : Reps m t P.len a x) (hb : Reps m t P.len b y) :
    ∃ e, sub P.len a b = some e ∧ Reps m t P.len e (x - y) := by
  obtain ⟨e, h1, h2, h3⟩ := sub_spec g.word ha.can hb.can
  refine ⟨e, h1, h2, ?_, by rw [h3, map_sub, ha.val, hb.val]⟩
  rw [h3]
  exact lt_of_le_of_lt (degree_sub_le _ _) (max_lt ha.deg hb.deg)

/-- **C65**: negation, in place or not. -/
theorem C65_neg (g : Good m t P) (ip : Bool) (ha : Reps m t P.len a x) :
    ∃ e, neg ip P.len a = some e ∧ Reps m t P.len e (-x) := by
  obtain ⟨e, h1, h2, h3⟩ := neg_spec g.word ip ha.can
  exact ⟨e, h1, h2, by rw [h3, degree_neg]; exact ha.deg, by rw [h3, map_neg, ha.val]⟩

/-- **C65**: multiplication. -/
theorem C65_mul (g : Good m t P) (ha : Reps m t P.len a x) (hb : Reps m t P.len b y) :
    ∃ e, mult P a b = some e ∧ Reps m t P.len e (x * y) := by
  obtain ⟨e, h1, h2, h3, h4⟩ := mult_spec g ha.can ha.deg hb.can hb.deg
  refine ⟨e, h1, h2, h3, ?_⟩
  rw [← ha.val, ← hb.val, ← map_mul, AdjoinRoot.mk_eq_mk]
  exact h4

/-- **C65**: the cube. -/
theorem C65_cubic (g : Good m t P) (ha : Reps m t P.len a x) :
    ∃ e, cubic P a = some e ∧ Reps m t P.len e (x ^ 3) := by
  obtain ⟨e, h1, h2, h3, h4⟩ := cubic_spec g ha.can ha.deg
  refine ⟨e, h1, h2, h3, ?_⟩
  rw [← ha.val, ← map_pow, AdjoinRoot.mk_eq_mk]
  exact h4

theorem bit_append (hw : 0 < w) (a : Plane w) (k i : ℕ) :
    bit (a ++ List.replicate k (0 : BitVec w)) i = bit a i := by
  induction a generalizing i with
  | nil => rw [List.nil_append, bit_replicate, bit_nil]
  | cons u us ih => rw [List.cons_append, bit_cons hw, bit_cons hw, ih]

theorem widen_spec (hw : 0 < w) {n l : ℕ} (hl : n ≤ l) {e : El w} (h : Can n e) :
    ∃ e', widen n l e = some e' ∧ Can l e' ∧ poly e' = poly e := by
  have hc : Can l (⟨e.p1 ++ List.replicate (l - n) 0, e.p2 ++ List.replicate (l - n) 0⟩ : El w) :=
    ⟨by simp [h.l1]; omega, by simp [h.l2]; omega, fun i => by
      dsimp only
      rw [bit_append hw, bit_append hw]
      exact h.disj i⟩
  refine ⟨_, by rw [widen, h.has]; simp [hl], hc, ?_⟩
  ext i
  rw [poly_coeff hw hc, poly_coeff hw h, coeff, coeff]
  dsimp only
  rw [bit_append hw, bit_append hw]

/-- **C65**: inversion.  Whenever the operand is prime to the trinomial, which does not have to be
irreducible, the algorithm ends with the inverse. -/
theorem C65_invert (g : Good m t P) (ha : Reps m t P.len a x) (hx : IsCoprime (poly a) (trinomial m t)) :
    ∃ e z, invert P a = some e ∧ Reps m t P.len e z ∧ z * x = 1 := by
  have hw := g.word
  have hm : 2 ≤ m := by have := g.pos; have := g.lt; omega
  have hlen : m / w + 1 ≤ (3 * m + w - 1) / w ∧ m + 1 < (3 * m + w - 1) / w * w := by
    have e : (3 * m + w - 1) / w = (3 * m - 1) / w + 1 := by
      rw [show 3 * m + w - 1 = 3 * m - 1 + w by omega, Nat.add_div_right _ hw]
    rw [e]
    refine ⟨Nat.add_le_add_right (Nat.div_le_div_right (by omega)) 1, ?_⟩
    have := Nat.div_add_mod (3 * m - 1) w
    have h2 := Nat.mod_lt (3 * m - 1) hw
    rw [mul_comm] at this
    rw [Nat.add_mul, Nat.one_mul]
    omega
  rw [invert]
  rw [g.hm]
  generalize (3 * m + w - 1) / w = lenS at *
  rw [← g.len] at hlen
  obtain ⟨S, s1, s2, s3⟩ := widen_spec hw hlen.1 g.can
  obtain ⟨R, r1, r2, r3⟩ := widen_spec hw hlen.1 ha.can
  obtain ⟨U, u1, u2, u3⟩ := one_spec (n := P.len) hw (by rw [g.len]; exact Nat.succ_pos _)
  have hinit : Inv m t P.len lenS (poly a) 0 ⟨S, R, U, zero P.len, 0⟩ := by
    refine ⟨s2, r2, u2, can_zero _, ?_, ?_, ?_, ?_, .inl ?_, fun _ h => absurd h (lt_irrefl _), ?_⟩
    · dsimp only
      rw [s3, g.hp]
      exact tri_deg_le g.lt
    · dsimp only
      rw [r3]
      exact ha.deg.le
    · dsimp only
      rw [u3, degree_one]
      exact_mod_cast (by omega : 0 < m)
    · dsimp only
      rw [poly_zero]
      exact WithBot.bot_lt_coe _
    · dsimp only
      rw [s3, g.hp, tri_top g.pos g.lt]
      exact one_ne_zero
    · refine ⟨0, 0, 1, 1, 0, -1, rfl, by decide, ?_, ?_, ?_, ?_, ?_, ?_, ?_, ?_, ?_⟩
      · dsimp only; rw [r3]; ring
      · dsimp only; rw [s3, g.hp]; ring
      · simp
      · simp
      · simp
      · simp
      · rw [C_neg, C_1]; ring
      · dsimp only; rw [u3]; simp
      · dsimp only; rw [poly_zero]; simp
  obtain ⟨s, i1, i2⟩ := invLoop_spec g hlen.2 (m * 2) 0 hinit
  rw [Nat.zero_add] at i2
  obtain ⟨f1, f2⟩ := i2.final g.pos g.lt hx
  obtain ⟨v, v1, v2, v3, v4⟩ := get_spec hw i2.cR (pos := m) (by omega)
  rw [s1, Option.bind_some, r1, Option.bind_some, u1, Option.bind_some, i1, Option.bind_some, v1, Option.bind_some]
  rw [← v3] at f1 f2
  have hmul : ∀ z : (ZMod 3)[X], trinomial m t ∣ z * poly a - 1 → AdjoinRoot.mk (trinomial m t) z * x = 1 :=
    fun z hz => by
      rw [← ha.val, ← map_mul, ← map_one (AdjoinRoot.mk (trinomial m t)), AdjoinRoot.mk_eq_mk]
      exact hz
  by_cases h2 : v = 2
  · rw [if_pos h2]
    obtain ⟨e, n1, n2, n3⟩ := neg_spec hw true i2.cU
    refine ⟨e, _, n1, ⟨n2, by rw [n3, degree_neg]; exact i2.dU, rfl⟩, hmul _ ?_⟩
    rw [h2, show ((2 : ℕ) : ZMod 3) = -1 by decide, C_neg, C_1] at f2
    rw [n3]
    have := (dvd_neg (α := (ZMod 3)[X])).mpr f2
    rwa [show -(poly s.U * poly a - -1) = -poly s.U * poly a - 1 by ring] at this
  · rw [if_neg h2]
    have h1 : v = 1 := by
      have : v ≠ 0 := fun h => f1 (by rw [h]; rfl)
      omega
    refine ⟨s.U, _, rfl, ⟨i2.cU, i2.dU, rfl⟩, hmul _ ?_⟩
    rwa [h1, Nat.cast_one, C_1] at f2

end ops

section field

variable {m t : ℕ} {P : Params w} {a b : El w} [hf : Fact (Irreducible (trinomial m t))]
  {x y : AdjoinRoot (trinomial m t)}

/-- **C65**: in the field, every nonzero element is inverted. -/
theorem C65_invert_field (g : Good m t P) (ha : Reps m t P.len a x) (hx : x ≠ 0) :
    ∃ e, invert P a = some e ∧ Reps m t P.len e x⁻¹ := by
  have hc : IsCoprime (poly a) (trinomial m t) := by
    refine ((Irreducible.coprime_iff_not_dvd hf.out).mpr fun h => hx ?_).symm
    rw [← ha.val, AdjoinRoot.mk_eq_zero]
    exact h
  obtain ⟨e, z, h1, h2, h3⟩ := C65_invert g ha hc
  rw [eq_inv_of_mul_eq_one_left h3] at h2
  exact ⟨e, h1, h2⟩

/-- The calls that do not involve integer constants. -/
def NoConst : Spec.RingOp → Prop
  | .setSi _ z => (3 : ℤ) ∣ z
  | .setMpz _ z => (3 : ℤ) ∣ z
  | .mulSi _ _ z => (3 : ℤ) ∣ z
  | .mulMpz _ _ z => (3 : ℤ) ∣ z
  | .halve _ _ => False
  | _ => True

theorem cast_of_three {z : ℤ} (h : (3 : ℤ) ∣ z) : ((z : ℤ) : AdjoinRoot (trinomial m t)) = 0 := by
  obtain ⟨k, rfl⟩ := h
  have h3 : ((3 : ℤ) : AdjoinRoot (trinomial m t)) = 0 := by
    have : (AdjoinRoot.of (trinomial m t)) ((3 : ℤ) : ZMod 3) = ((3 : ℤ) : AdjoinRoot (trinomial m t)) :=
      map_intCast _ _
    rw [← this, show ((3 : ℤ) : ZMod 3) = 0 by decide, map_zero]
  rw [Int.cast_mul, h3, zero_mul]

theorem step_rep (g : Good m t P) {s : ℕ → El w} {v : ℕ → AdjoinRoot (trinomial m t)}
    (h : ∀ i, Reps m t P.len (s i) (v i)) (o : Spec.RingOp) (ho : o.ok v) (hn : NoConst o) :
    ∃ s', step P s o = some s' ∧ ∀ i, Reps m t P.len (s' i) (o.step v i) := by
  have up : ∀ (c : ℕ) (e : El w) (z : AdjoinRoot (trinomial m t)), Reps m t P.len e z →
      ∀ i, Reps m t P.len (Function.update s c e i) (Function.update v c z i) := by
    intro c e z hz i
    by_cases hi : i = c
    · subst hi; simpa using hz
    · simpa [Function.update_of_ne hi] using h i
  have up' : ∀ (c : ℕ) (f : Option (El w)) (z : AdjoinRoot (trinomial m t)),
      (∃ e, f = some e ∧ Reps m t P.len e z) →
      ∃ s', f.map (Function.update s c) = some s' ∧ ∀ i, Reps m t P.len (s' i) (Function.update v c z i) := by
    rintro c f z ⟨e, rfl, hz⟩
    exact ⟨_, rfl, up c e z hz⟩
  cases o with
  | setSi c z => exact ⟨_, rfl, up c _ _ (by rw [Spec.RingOp.value, cast_of_three hn]; exact C65_zero m t _)⟩
  | setMpz c z => exact ⟨_, rfl, up c _ _ (by rw [Spec.RingOp.value, cast_of_three hn]; exact C65_zero m t _)⟩
  | set0 c => exact ⟨_, rfl, up c _ _ (C65_zero m t _)⟩
  | set1 c => exact up' c _ _ (C65_one g)
  | set c a => exact ⟨_, rfl, up c _ _ (h a)⟩
  | add c a b => exact up' c _ _ (C65_add g (h a) (h b))
  | sub c a b => exact up' c _ _ (C65_sub g (h a) (h b))
  | neg c a => exact up' c _ _ (C65_neg g _ (h a))
  | double c a => exact up' c _ _ (by rw [Spec.RingOp.value, two_mul]; exact C65_add g (h a) (h a))
  | halve c a => exact hn.elim
  | mul c a b => exact up' c _ _ (C65_mul g (h a) (h b))
  | square c a => exact up' c _ _ (by rw [Spec.RingOp.value, sq]; exact C65_mul g (h a) (h a))
  | mulMpz c a z =>
    exact up' c _ _ (by rw [Spec.RingOp.value, cast_of_three hn]; exact C65_mul g (h a) (C65_zero m t _))
  | mulSi c a z =>
    exact up' c _ _ (by rw [Spec.RingOp.value, cast_of_three hn]; exact C65_mul g (h a) (C65_zero m t _))
  | invert c a => exact up' c _ _ (C65_invert_field g (h a) ho)
  | div c a b =>
    obtain ⟨e, h1, h2⟩ := C65_invert_field g (h b) ho
    rw [step, h1, Option.bind_some]
    exact up' c _ _ (by rw [Spec.RingOp.value, div_eq_mul_inv, mul_comm]; exact C65_mul g h2 (h a))

/-- **C65**: every sequence of calls, with any operands shared, computes in `GF(3)[x]/(x^m + x^t + 2)`.
Integer constants are excluded, see `C85_fails`. -/
theorem C65_program (g : Good m t P) (prog : List Spec.RingOp) {s : ℕ → El w}
    {v : ℕ → AdjoinRoot (trinomial m t)} (h : ∀ i, Reps m t P.len (s i) (v i))
    (ho : Spec.RingAllowed v prog) (hn : ∀ o ∈ prog, NoConst o) :
    ∃ s', run P s prog = some s' ∧ ∀ i, Reps m t P.len (s' i) (Spec.ringRun v prog i) := by
  induction prog generalizing s v with
  | nil => exact ⟨s, rfl, h⟩
  | cons o rest ih =>
    obtain ⟨s1, h1, h2⟩ := step_rep g h o ho.1 (hn o (by simp))
    obtain ⟨s2, h3, h4⟩ := ih h2 ho.2 (fun o' ho' => hn o' (by simp [ho']))
    exact ⟨s2, by rw [run, h1, Option.bind_some, h3], h4⟩

end field

/-! ### Integer constants -/

section constants

variable {m t : ℕ} {P : Params w} [hf : Fact (Irreducible (trinomial m t))]

theorem cast_ne_zero {z : ℤ} (h : ¬ (3 : ℤ) ∣ z) : ((z : ℤ) : AdjoinRoot (trinomial m t)) ≠ 0 := by
  have e : (AdjoinRoot.of (trinomial m t)) ((z : ℤ) : ZMod 3) = ((z : ℤ) : AdjoinRoot (trinomial m t)) :=
    map_intCast _ _
  rw [← e]
  intro h0
  rw [map_eq_zero] at h0
  exact h ((ZMod.intCast_zmod_eq_zero_iff_dvd z 3).mp h0)

/-- **C85** fails: after setting an element to an integer that is not a multiple of 3 it holds 0 instead,
and multiplying by such an integer gives 0. -/
theorem C85_fails (g : Good m t P) {s : ℕ → El w} {v : ℕ → AdjoinRoot (trinomial m t)}
    (h : ∀ i, Reps m t P.len (s i) (v i)) (c a : ℕ) {z : ℤ} (hz : ¬ (3 : ℤ) ∣ z) :
    (∃ s', step P s (.setSi c z) = some s' ∧ ∀ y, Reps m t P.len (s' c) y →
      y ≠ (Spec.RingOp.setSi c z).step v c) ∧
    (∃ s', step P s (.setMpz c z) = some s' ∧ ∀ y, Reps m t P.len (s' c) y →
      y ≠ (Spec.RingOp.setMpz c z).step v c) ∧
    (v a ≠ 0 → ∃ s', step P s (.mulSi c a z) = some s' ∧ ∀ y, Reps m t P.len (s' c) y →
      y ≠ (Spec.RingOp.mulSi c a z).step v c) := by
  have key : ∀ (e : El w) (y y' : AdjoinRoot (trinomial m t)), Reps m t P.len e 0 → y' ≠ 0 →
      Reps m t P.len e y → y ≠ y' := by
    intro e y y' h0 hy h1 h2
    rw [← h1.val, h0.val] at h2
    exact hy h2.symm
  refine ⟨⟨_, rfl, fun y => ?_⟩, ⟨_, rfl, fun y => ?_⟩, fun ha => ?_⟩
  · rw [Spec.RingOp.step, Spec.RingOp.dest, Spec.RingOp.value, Function.update_self, Function.update_self]
    exact key _ _ _ (C65_zero m t _) (cast_ne_zero hz)
  · rw [Spec.RingOp.step, Spec.RingOp.dest, Spec.RingOp.value, Function.update_self, Function.update_self]
    exact key _ _ _ (C65_zero m t _) (cast_ne_zero hz)
  · obtain ⟨e, h1, h2⟩ := C65_mul g (h a) (C65_zero m t P.len)
    rw [mul_zero] at h2
    refine ⟨_, by rw [step, setMpz, h1]; rfl, fun y => ?_⟩
    rw [Spec.RingOp.step, Spec.RingOp.dest, Spec.RingOp.value, Function.update_self, Function.update_self]
    exact key _ _ _ h2 (mul_ne_zero ha (cast_ne_zero hz))

end constants

/-! ### Bytes -/

theorem shift_join {w : ℕ} (x : BitVec w) (k : ℕ) (hw : 8 ≤ w) :
    ((x >>> (8 * (k + 1))) <<< 8) + ((x >>> (8 * k)).setWidth 8).setWidth w = x >>> (8 * k) := by
  apply BitVec.eq_of_toNat_eq
  rw [BitVec.toNat_add, BitVec.toNat_shiftLeft, BitVec.toNat_setWidth, BitVec.toNat_setWidth,
    BitVec.toNat_ushiftRight, BitVec.toNat_ushiftRight, Nat.shiftRight_eq_div_pow, Nat.shiftRight_eq_div_pow,
    Nat.shiftLeft_eq, show 8 * (k + 1) = 8 * k + 8 by ring, pow_add, ← Nat.div_div_eq_div_mul]
  have hlt : x.toNat / 2 ^ (8 * k) < 2 ^ w := lt_of_le_of_lt (Nat.div_le_self _ _) x.isLt
  generalize x.toNat / 2 ^ (8 * k) = n at hlt ⊢
  have h8 : (2 : ℕ) ^ 8 ≤ 2 ^ w := Nat.pow_le_pow_right (by decide) hw
  have e := Nat.div_add_mod n (2 ^ 8)
  rw [mul_comm] at e
  have l := Nat.mod_lt n (show 0 < 2 ^ 8 by decide)
  rw [Nat.mod_eq_of_lt (a := n % 2 ^ 8) (lt_of_lt_of_le l h8),
    Nat.mod_eq_of_lt (a := n / 2 ^ 8 * 2 ^ 8) (by omega), e, Nat.mod_eq_of_lt hlt]

theorem pairs_length {α : Type*} (f g : ℕ → α) (n : ℕ) :
    ((List.range n).flatMap fun j => [f j, g j]).length = 2 * n := by
  induction n with
  | zero => rfl
  | succ n ih => rw [List.range_succ, List.flatMap_append, List.length_append, ih]; simp; ring

theorem pairs_get {α : Type*} (f g : ℕ → α) {n k : ℕ} (h : k < n) :
    ((List.range n).flatMap fun j => [f j, g j])[2 * k]? = some (f k) ∧
      ((List.range n).flatMap fun j => [f j, g j])[2 * k + 1]? = some (g k) := by
  induction n with
  | zero => omega
  | succ n ih =>
    rw [List.range_succ, List.flatMap_append]
    by_cases hk : k < n
    · rw [List.getElem?_append_left (by rw [pairs_length]; omega),
        List.getElem?_append_left (by rw [pairs_length]; omega)]
      exact ih hk
    · have : k = n := by omega
      subst this
      rw [List.getElem?_append_right (by rw [pairs_length]),
        List.getElem?_append_right (by rw [pairs_length]; omega), pairs_length]
      simp

theorem bytesWord_spec {nb : ℕ} (hw : w = 8 * nb) (hnb : 0 < nb) (x y : BitVec w) (rest : List (BitVec 8)) :
    ∀ k ≤ nb, bytesWord (wordBytes x y ++ rest) k (x >>> (8 * k)) (y >>> (8 * k)) = some (x, y)
  | 0, _ => by simp [bytesWord]
  | k + 1, hk => by
    have hb : w / 8 = nb := by omega
    have hg := pairs_get (fun j => (x >>> (8 * j)).setWidth 8) (fun j => (y >>> (8 * j)).setWidth 8)
      (n := w / 8) (k := k) (by omega)
    have hl : (wordBytes x y).length = 2 * nb := by rw [wordBytes, pairs_length, hb]
    rw [bytesWord, List.getElem?_append_left (by rw [hl]; omega), List.getElem?_append_left (by rw [hl]; omega),
      wordBytes, hg.1, hg.2, Option.bind_some, Option.bind_some, shift_join _ _ (by omega),
      shift_join _ _ (by omega)]
    exact bytesWord_spec hw hnb x y rest k (by omega)

theorem wordBytes_length {nb : ℕ} (hw : w = 8 * nb) (x y : BitVec w) : (wordBytes x y).length = 2 * nb := by
  rw [wordBytes, pairs_length]; omega

/-- **C67**: writing and reading back gives the same element, and exactly the announced number of bytes,
two per eight bits of `len` words, is written. -/
theorem C67_roundtrip {nb : ℕ} (hw : w = 8 * nb) (hnb : 0 < nb) {n : ℕ} {e : El w} (h : e.has n = true) :
    ∃ d, toBytes n e = some d ∧ d.length = 2 * nb * n ∧ ∀ rest, fromBytes n (d ++ rest) = some e := by
  refine ⟨_, by rw [toBytes, if_pos h], ?_⟩
  obtain ⟨p1, p2⟩ := e
  rw [El.has, Bool.and_eq_true, beq_iff_eq, beq_iff_eq] at h
  obtain ⟨h1, h2⟩ := h
  dsimp only at h1 h2 ⊢
  induction n generalizing p1 p2 with
  | zero =>
    rw [List.length_eq_zero_iff] at h1 h2
    subst h1 h2
    exact ⟨rfl, fun _ => rfl⟩
  | succ n ih =>
    obtain ⟨u, us, rfl⟩ := List.exists_cons_of_length_eq_add_one h1
    obtain ⟨v, vs, rfl⟩ := List.exists_cons_of_length_eq_add_one h2
    obtain ⟨i1, i2⟩ := ih us vs (by simpa using h1) (by simpa using h2)
    rw [List.zip_cons_cons, List.flatMap_cons]
    refine ⟨?_, fun rest => ?_⟩
    · rw [List.length_append, wordBytes_length hw, i1]; ring
    · have h0 : ∀ x : BitVec w, x >>> (8 * nb) = 0 := fun x => by
        apply BitVec.eq_of_getLsbD_eq
        intro i _
        simp only [BitVec.getLsbD_ushiftRight]
        rw [BitVec.getLsbD_of_ge _ _ (by omega)]
        simp
      have hs := bytesWord_spec hw hnb u v ((us.zip vs).flatMap (fun p => wordBytes p.1 p.2) ++ rest) nb le_rfl
      rw [h0, h0] at hs
      rw [fromBytes, List.append_assoc, show w / 8 = nb by omega, hs, Option.bind_some,
        List.drop_append_of_le_length (by rw [wordBytes_length hw]),
        List.drop_of_length_le (by rw [wordBytes_length hw]), List.nil_append, i2]
      rfl

/-- **C67** fails: reading does not check anything.  For every field there are bytes that are accepted and
that stand for no element. -/
theorem C67_check_fails {nb : ℕ} (hw : w = 8 * nb) (hnb : 0 < nb) {m t : ℕ} {P : Params w} (g : Good m t P) :
    ∃ (d : List (BitVec 8)) (e : El w), fromBytes P.len d = some e ∧ ∀ x, ¬ Reps m t P.len e x := by
  obtain ⟨d, -, -, h⟩ := C67_roundtrip hw hnb (n := P.len)
    (e := ⟨List.replicate P.len (~~~0), List.replicate P.len (~~~0)⟩) (by simp [El.has])
  refine ⟨d ++ [], _, h [], fun x hx => ?_⟩
  refine hx.can.disj 0 ?_
  have : bit (List.replicate P.len (~~~(0 : BitVec w))) 0 = true := by
    rw [g.len, List.replicate_succ, bit_cons g.word, if_pos g.word]
    simp [g.word]
  exact ⟨this, this⟩

/-! ### Random elements -/

theorem randomGo_spec (hw : 0 < w) (rand : ℕ → BitVec w) (last : BitVec w) (n k : ℕ) :
    Can (n + 1) (randomGo rand last n k) ∧
      ∀ i, n * w ≤ i → (bit (randomGo rand last n k).p1 i = true ∨ bit (randomGo rand last n k).p2 i = true) →
        last.getLsbD (i - n * w) = true := by
  induction n generalizing k with
  | zero =>
    rw [randomGo]
    have hb : ∀ (v : BitVec w) i, bit [v] i = if i < w then v.getLsbD i else false := fun v i => by
      rw [bit_cons hw, bit_nil]
    refine ⟨⟨rfl, rfl, fun i => ?_⟩, fun i _ => ?_⟩
    · dsimp only
      rw [hb, hb]
      by_cases hi : i < w
      · simp [hi]
        tauto
      · simp [hi]
    · dsimp only
      rw [hb, hb]
      by_cases hi : i < w
      · simp [hi]
        tauto
      · simp [hi]
  | succ n ih =>
    obtain ⟨i1, i2⟩ := ih (k + 2)
    rw [randomGo]
    dsimp only
    refine ⟨⟨by simp [i1.l1], by simp [i1.l2], fun i => ?_⟩, fun i hi => ?_⟩
    · dsimp only
      rw [bit_cons hw, bit_cons hw]
      by_cases hi : i < w
      · simp [hi]
        tauto
      · rw [if_neg hi, if_neg hi]
        exact i1.disj _
    · have e : (n + 1) * w = n * w + w := by ring
      rw [bit_cons hw, bit_cons hw, if_neg (by omega), if_neg (by omega), e,
        show i - (n * w + w) = i - w - n * w by omega]
      exact i2 _ (by omega)

/-- **C86**, when the degree is not a multiple of the word size: a random element is an element. -/
theorem C86_partial {m t : ℕ} {P : Params w} (g : Good m t P) (hm : ¬ w ∣ m) (rand : ℕ → BitVec w) :
    ∃ x, Reps m t P.len (random P rand) x := by
  have hw := g.word
  have hr : m % w ≠ 0 := fun h => hm (Nat.dvd_of_mod_eq_zero h)
  have e : random P rand = randomGo rand (((1 : BitVec w) <<< (m % w)) - 1) (m / w) 0 := by
    rw [random, g.hm, g.len, Nat.add_sub_cancel]
    exact congrArg (fun l => randomGo rand l (m / w) 0) (if_pos hr)
  obtain ⟨h1, h2⟩ := randomGo_spec hw rand (((1 : BitVec w) <<< (m % w)) - 1) (m / w) 0
  rw [e, g.len]
  refine ⟨_, h1, ?_, rfl⟩
  rw [degree_lt_iff_coeff_zero]
  intro i hi
  rw [poly_coeff hw h1]
  have hmw := Nat.div_add_mod m w
  rw [mul_comm] at hmw
  have := h2 i (by omega)
  rw [mask_getLsbD hw (Nat.mod_lt _ hw)] at this
  have hno : ¬ (bit (randomGo rand (((1 : BitVec w) <<< (m % w)) - 1) (m / w) 0).p1 i = true ∨
      bit (randomGo rand (((1 : BitVec w) <<< (m % w)) - 1) (m / w) 0).p2 i = true) := fun h => by
    have := this h
    simp at this
    omega
  rw [not_or, Bool.not_eq_true, Bool.not_eq_true] at hno
  rw [coeff, hno.1, hno.2]
  rfl

/-- **C86** fails otherwise: when the degree is a multiple of the word size, the top word, which must be zero,
is filled with random bits. -/
theorem C86_fails {m t : ℕ} {P : Params w} (g : Good m t P) (hm : w ∣ m) :
    ∃ rand : ℕ → BitVec w, ∀ x, ¬ Reps m t P.len (random P rand) x := by
  have hw := g.word
  refine ⟨fun _ => 1, fun x hx => ?_⟩
  have hr : m % w = 0 := Nat.mod_eq_zero_of_dvd hm
  have e : random P (fun _ => 1) = randomGo (fun _ => 1) (~~~0) (m / w) 0 := by
    rw [random, g.hm, g.len, Nat.add_sub_cancel]
    exact congrArg (fun l => randomGo _ l (m / w) 0) (if_neg (not_not.mpr hr))
  have key : ∀ n k : ℕ, bit (randomGo (fun _ => (1 : BitVec w)) (~~~0) n k).p1 (n * w) = true := by
    intro n
    induction n with
    | zero =>
      intro k
      rw [randomGo]
      dsimp only
      rw [Nat.zero_mul, bit_cons hw, if_pos hw]
      have h1 : (1 : BitVec w).getLsbD 0 = true := by
        rw [show (1 : BitVec w).getLsbD 0 = (1#w).getLsbD 0 from rfl, BitVec.getLsbD_one]
        simp [hw]
      rw [BitVec.getLsbD_and, h1]
      simp [hw]
    | succ n ih =>
      intro k
      rw [randomGo]
      dsimp only
      rw [bit_cons hw, if_neg (by rw [Nat.add_mul]; omega), show (n + 1) * w - w = n * w by
        rw [Nat.add_mul, Nat.one_mul, Nat.add_sub_cancel]]
      exact ih _
  have hd := (degree_lt_iff_coeff_zero _ _).mp hx.deg m le_rfl
  rw [poly_coeff hw hx.can, coeff, e] at hd
  have hk := key (m / w) 0
  rw [Nat.div_mul_cancel hm] at hk
  have hdis := hx.can.disj m
  rw [e, hk] at hdis
  simp only [true_and, Bool.not_eq_true] at hdis
  rw [hk, hdis] at hd
  exact absurd hd (by decide)

/-! ### Tests -/

section tests

variable {m t : ℕ} {P : Params w} {a : El w} {x : AdjoinRoot (trinomial m t)}

theorem any_ne_zero (l : List (BitVec w)) :
    (l.any fun v => v != 0) = true ↔ l ≠ List.replicate l.length 0 := by
  rw [ne_eq, List.eq_replicate_iff, List.any_eq_true]
  simp

/-- **C65**: `element_is0`. -/
theorem C65_is0 (g : Good m t P) (ha : Reps m t P.len a x) :
    ∃ v, is0 P.len a = some v ∧ (v = 1 ↔ x = 0) ∧ (v = 0 ↔ x ≠ 0) := by
  refine ⟨_, by rw [is0, ha.can.has]; rfl, ?_⟩
  have key := any_ne_zero (a.p1 ++ a.p2)
  have e : a.p1 ++ a.p2 = List.replicate (a.p1 ++ a.p2).length 0 ↔ x = 0 := by
    rw [List.length_append, ha.can.l1, ha.can.l2, ← List.replicate_append_replicate]
    constructor
    · intro h
      obtain ⟨h1, h2⟩ := List.append_inj h (by simp [ha.can.l1])
      have : a = zero P.len := by cases a; cases h1; cases h2; rfl
      rw [← ha.val, this, poly_zero, map_zero]
    · rintro rfl
      rw [C65_unique g ha (C65_zero m t P.len)]
      rfl
  by_cases h : a.p1 ++ a.p2 = List.replicate (a.p1 ++ a.p2).length 0
  · rw [if_neg (fun h' => key.mp h' h)]
    simp [e.mp h]
  · rw [if_pos (key.mpr h)]
    have hx : ¬ x = 0 := fun h' => h (e.mpr h')
    simp [hx]

/-- **C65**: `element_is1`. -/
theorem C65_is1 (g : Good m t P) (ha : Reps m t P.len a x) :
    ∃ v, is1 P.len a = some v ∧ (v = 1 ↔ x = 1) ∧ (v = 0 ↔ x ≠ 1) := by
  obtain ⟨e1, h1, h2⟩ := C65_one g
  obtain ⟨p1, p2⟩ := a
  have l1 : p1.length = m / w + 1 := by rw [← g.len]; exact ha.can.l1
  have l2 : p2.length = m / w + 1 := by rw [← g.len]; exact ha.can.l2
  obtain ⟨u, us, rfl⟩ := List.exists_cons_of_length_eq_add_one l1
  have hu : us.length = m / w := by simpa using l1
  have he : e1 = ⟨1 :: List.replicate us.length 0, List.replicate p2.length 0⟩ := by
    rw [one, if_neg (by rw [g.len]; exact Nat.succ_ne_zero _), g.len, zero] at h1
    rw [l2, hu]
    exact (Option.some.inj h1).symm
  refine ⟨_, by rw [is1, ha.can.has]; rfl, ?_⟩
  dsimp only
  rw [List.cons_append, List.drop_one, List.tail_cons]
  have key := any_ne_zero (us ++ p2)
  have e : (u = 1 ∧ us ++ p2 = List.replicate (us ++ p2).length 0) ↔ x = 1 := by
    rw [List.length_append, ← List.replicate_append_replicate]
    constructor
    · rintro ⟨rfl, h⟩
      obtain ⟨h3, h4⟩ := List.append_inj h (by simp)
      rw [← ha.val, ← h2.val, he, ← h3, ← h4]
    · rintro rfl
      have := C65_unique g ha h2
      rw [he] at this
      injection this with h3 h4
      injection h3 with h5 h6
      exact ⟨h5, by rw [← h6, ← h4]⟩
  by_cases hu1 : u = 1
  · rw [if_neg (not_not.mpr hu1)]
    by_cases h : us ++ p2 = List.replicate (us ++ p2).length 0
    · rw [if_neg (fun h' => key.mp h' h)]
      simp [e.mp ⟨hu1, h⟩]
    · rw [if_pos (key.mpr h)]
      have hx : ¬ x = 1 := fun h' => h (e.mpr h').2
      simp [hx]
  · rw [if_pos hu1]
    have hx : ¬ x = 1 := fun h' => hu1 (e.mpr h').1
    simp [hx]

end tests

/-! ### Powers and square roots -/

section powers

variable {m t : ℕ} {P : Params w} {a : El w} {x : AdjoinRoot (trinomial m t)}

/-- What a stored element means. -/
def GRep (m t : ℕ) (P : Params w) (a : GEl P) (x : AdjoinRoot (trinomial m t)) : Prop :=
  ∃ e, a.val = some e ∧ Reps m t P.len e x

theorem grep_powRel (g : Good m t P) : Gen.PowRel (GRep m t P) where
  one := C65_one g
  mul := by
    rintro ⟨_⟩ b ⟨_⟩ d ⟨e, rfl, he⟩ ⟨f, rfl, hf⟩
    exact C65_mul g he hf
  sqr := by
    rintro ⟨_⟩ b ⟨e, rfl, he⟩
    exact C65_mul g he he

/-- **C65**: raising to a power. -/
theorem C65_pow (g : Good m t P) (ha : Reps m t P.len a x) (n : ℕ) :
    ∃ e, powMpz P a n = some e ∧ Reps m t P.len e (x ^ n) := by
  obtain ⟨r, h1, e, h2, h3⟩ := Gen.powMpz_rel (grep_powRel g) (a := ⟨some a⟩) (b := x) ⟨a, rfl, ha⟩ n
  exact ⟨e, by rw [powMpz, h1, Option.bind_some, h2], h3⟩

variable [hf : Fact (Irreducible (trinomial m t))]

theorem pow_order (h0 : 0 < t) (ht : t < m) (hx : x ≠ 0) : x ^ (3 ^ m - 1) = 1 := by
  have : Module.Finite (ZMod 3) (AdjoinRoot (trinomial m t)) :=
    (AdjoinRoot.powerBasis hf.out.ne_zero).finite
  have : Finite (AdjoinRoot (trinomial m t)) := Module.finite_of_finite (ZMod 3)
  have := Fintype.ofFinite (AdjoinRoot (trinomial m t))
  have hc : Fintype.card (AdjoinRoot (trinomial m t)) = 3 ^ m := by
    rw [Module.card_eq_pow_finrank (K := ZMod 3), ZMod.card,
      (AdjoinRoot.powerBasis hf.out.ne_zero).finrank, AdjoinRoot.powerBasis_dim, tri_natDegree h0 ht]
  rw [← hc]
  exact FiniteField.pow_card_sub_one_eq_one x hx

theorem three_pow_odd {m : ℕ} (hm : m % 2 = 1) : 3 ^ m % 4 = 3 := by
  obtain ⟨k, rfl⟩ : ∃ k, m = 2 * k + 1 := ⟨m / 2, by omega⟩
  rw [pow_succ, pow_mul, Nat.mul_mod, Nat.pow_mod]
  norm_num

theorem three_pow_even {m : ℕ} (hm : m % 2 = 0) : 3 ^ m % 4 = 1 := by
  obtain ⟨k, rfl⟩ : ∃ k, m = 2 * k := ⟨m / 2, by omega⟩
  rw [pow_mul, Nat.pow_mod]
  norm_num

/-- **C87** for odd degrees: the square root of a square. -/
theorem C87_partial (g : Good m t P) (hm : m % 2 = 1) (ha : Reps m t P.len a (x ^ 2)) :
    ∃ e y, sqrt P a = some e ∧ Reps m t P.len e y ∧ y ^ 2 = x ^ 2 := by
  obtain ⟨e, h1, h2⟩ := C65_pow g ha ((3 ^ m + 1) / 4)
  refine ⟨e, _, by rw [sqrt, g.hm]; exact h1, h2, ?_⟩
  have h4 := three_pow_odd hm
  have e4 : 2 * ((3 ^ m + 1) / 4 * 2) = 3 ^ m - 1 + 2 := by
    clear hm
    generalize 3 ^ m = q at h4
    omega
  rw [← pow_mul, ← pow_mul, e4, pow_add]
  by_cases hx : x = 0
  · rw [hx]; simp
  · rw [pow_order g.pos g.lt hx, one_mul]

/-- **C87** fails for even degrees: the result squares to 1, whatever the nonzero square given. -/
theorem C87_fails (g : Good m t P) (hm : m % 2 = 0) (ha : Reps m t P.len a (x ^ 2)) (hx : x ≠ 0)
    (h1 : x ^ 2 ≠ 1) : ∃ e y, sqrt P a = some e ∧ Reps m t P.len e y ∧ y ^ 2 = 1 ∧ y ^ 2 ≠ x ^ 2 := by
  obtain ⟨e, e1, e2⟩ := C65_pow g ha ((3 ^ m + 1) / 4)
  have h4 := three_pow_even hm
  have hy : ((x ^ 2) ^ ((3 ^ m + 1) / 4)) ^ 2 = 1 := by
    have e4 : 2 * ((3 ^ m + 1) / 4 * 2) = 3 ^ m - 1 := by
      clear hm
      generalize 3 ^ m = q at h4
      omega
    rw [← pow_mul, ← pow_mul, e4, pow_order g.pos g.lt hx]
  exact ⟨e, _, by rw [sqrt, g.hm]; exact e1, e2, hy, by rw [hy]; exact h1.symm⟩

end powers

/-! ### Towers -/

section tower

variable {K L : Type*} [CommRing K] [CommRing L] (φ : K →+* L)

/-- The element of an extension that contains a square root `i` of -1. -/
def E2.val (i : L) (a : E2 K) : L := φ a.c0 + φ a.c1 * i

/-- The element of an extension that contains a root `ρ` of `x³ - x - 1`. -/
def E3.val (ρ : L) (a : E3 K) : L := φ a.c0 + φ a.c1 * ρ + φ a.c2 * ρ ^ 2

/-- **C66**: the quadratic extension by `i² = -1`. -/
theorem C66_gf32m {i : L} (hi : i ^ 2 = -1) (a b : E2 K) :
    (E2.one (K := K)).val φ i = 1 ∧ (a.add b).val φ i = a.val φ i + b.val φ i ∧
      (a.sub b).val φ i = a.val φ i - b.val φ i ∧ a.neg.val φ i = -a.val φ i ∧
      (a.mul b).val φ i = a.val φ i * b.val φ i := by
  simp only [E2.val, E2.one, E2.add, E2.sub, E2.neg, E2.mul, map_add, map_sub, map_neg, map_mul, map_one, map_zero]
  refine ⟨by ring, by ring, by ring, by ring, ?_⟩
  linear_combination (-(φ a.c1 * φ b.c1)) * hi

/-- **C66**: the cube, in characteristic 3. -/
theorem C66_gf32m_cubic [CharP L 3] {i : L} (hi : i ^ 2 = -1) (a : E2 K) :
    a.cubic.val φ i = a.val φ i ^ 3 := by
  have h3 : (3 : L) = 0 := by exact_mod_cast CharP.cast_eq_zero L 3
  simp only [E2.val, E2.cubic, map_neg, map_pow]
  linear_combination (-(φ a.c1 ^ 3 * i)) * hi
    - (φ a.c0 ^ 2 * φ a.c1 * i + φ a.c0 * φ a.c1 ^ 2 * i ^ 2) * h3

/-- **C66**: the cubic extension by `ρ³ = ρ + 1`. -/
theorem C66_gf33m {ρ : L} (hρ : ρ ^ 3 = ρ + 1) (a b : E3 K) :
    (E3.one (K := K)).val φ ρ = 1 ∧ (a.add b).val φ ρ = a.val φ ρ + b.val φ ρ ∧
      (a.sub b).val φ ρ = a.val φ ρ - b.val φ ρ ∧ (a.mul b).val φ ρ = a.val φ ρ * b.val φ ρ := by
  simp only [E3.val, E3.one, E3.add, E3.sub, E3.mul, map_add, map_sub, map_mul, map_one, map_zero]
  refine ⟨by ring, by ring, by ring, ?_⟩
  linear_combination (-(φ a.c1 * φ b.c2 + φ a.c2 * φ b.c1) - φ a.c2 * φ b.c2 * ρ) * hρ

/-- **C66**: the cube, in characteristic 3. -/
theorem C66_gf33m_cubic [CharP L 3] {ρ : L} (hρ : ρ ^ 3 = ρ + 1) (a : E3 K) :
    a.cubic.val φ ρ = a.val φ ρ ^ 3 := by
  have h3 : (3 : L) = 0 := by exact_mod_cast CharP.cast_eq_zero L 3
  have : Fact (Nat.Prime 3) := ⟨by decide⟩
  simp only [E3.val, E3.cubic, map_add, map_sub, map_pow]
  rw [add_pow_char, add_pow_char, mul_pow, mul_pow, ← pow_mul, show 2 * 3 = 3 * 2 from rfl, pow_mul ρ, hρ]
  linear_combination (-(φ a.c2 ^ 3 * ρ)) * h3

end tower

section towerInv

variable {K L : Type*} [Field K] [CommRing L] (φ : K →+* L)

/-- Without the final multiplication by the inverse of the norm. -/
def E3.adj (a : E3 K) : E3 K :=
  ⟨a.c0 * a.c0 + a.c2 * a.c2 - a.c0 * a.c2 - a.c1 * (a.c1 + a.c2), a.c2 * a.c2 - a.c0 * a.c1,
    a.c1 * a.c1 - a.c0 * a.c2 - a.c2 * a.c2⟩

/-- The norm of an element. -/
def E3.norm (a : E3 K) : K :=
  (a.c0 - a.c2) * (a.c0 * a.c0) + (a.c1 - a.c0) * (a.c1 * a.c1) + (a.c2 - (a.c1 - a.c0)) * (a.c2 * a.c2)

theorem adj_mul [CharP K 3] {ρ : L} (hρ : ρ ^ 3 = ρ + 1) (a : E3 K) :
    a.adj.val φ ρ * a.val φ ρ = φ a.norm := by
  have h3 : (3 : L) = 0 := by
    rw [← map_ofNat φ 3, show (OfNat.ofNat 3 : K) = 0 by exact_mod_cast CharP.cast_eq_zero K 3, map_zero]
  simp only [E3.val, E3.adj, E3.norm, map_add, map_sub, map_mul]
  generalize φ a.c0 = x
  generalize φ a.c1 = y
  generalize φ a.c2 = z
  linear_combination ((y ^ 2 - x * z - z ^ 2) * z * ρ + (z ^ 2 - x * y) * z + (y ^ 2 - x * z - z ^ 2) * y) * hρ
    - (x * y * z + x * z * y * ρ + x * z ^ 2 * ρ ^ 2) * h3

theorem adj_zero (hroot : ∀ u : K, u ^ 3 ≠ u + 1) {a : E3 K} (h0 : a.adj.c0 = 0) (h1 : a.adj.c1 = 0)
    (h2 : a.adj.c2 = 0) : a = ⟨0, 0, 0⟩ := by
  obtain ⟨x, y, z⟩ := a
  simp only [E3.adj] at h0 h1 h2
  by_cases hx : x = 0
  · subst hx
    have hz : z = 0 := by
      have : z * z = 0 := by linear_combination h1
      exact mul_self_eq_zero.mp this
    subst hz
    have hy : y = 0 := by
      have : y * y = 0 := by linear_combination h2
      exact mul_self_eq_zero.mp this
    rw [hy]
  · exfalso
    have hy : y = z * z / x := by field_simp; linear_combination -h1
    by_cases hz : z = 0
    · rw [hz, mul_zero, zero_div] at hy
      rw [hz, hy] at h0
      refine hx (mul_self_eq_zero.mp ?_)
      linear_combination h0
    · refine hroot (z / x) ?_
      rw [hy] at h2
      field_simp at h2 ⊢
      refine mul_left_cancel₀ hz ?_
      linear_combination h2

open Polynomial in
theorem norm_ne_zero [CharP K 3] (hroot : ∀ u : K, u ^ 3 ≠ u + 1) {a : E3 K} (ha : a ≠ ⟨0, 0, 0⟩) :
    a.norm ≠ 0 := by
  intro hn
  have hdeg : (X ^ 3 - X - 1 : K[X]).natDegree = 3 := by compute_degree!
  have hmon : (X ^ 3 - X - 1 : K[X]).Monic := by
    rw [Monic, leadingCoeff, hdeg]
    simp [coeff_X, coeff_one]
  have hirr : Irreducible (X ^ 3 - X - 1 : K[X]) := by
    refine irreducible_of_degree_le_three_of_not_isRoot (by rw [hdeg]; decide) fun u hu => hroot u ?_
    rw [IsRoot, eval_sub, eval_sub, eval_pow, eval_X, eval_one] at hu
    linear_combination hu
  have : Fact (Irreducible (X ^ 3 - X - 1 : K[X])) := ⟨hirr⟩
  have hρ : (AdjoinRoot.root (X ^ 3 - X - 1 : K[X])) ^ 3 = AdjoinRoot.root (X ^ 3 - X - 1 : K[X]) + 1 := by
    have h := AdjoinRoot.mk_self (f := (X ^ 3 - X - 1 : K[X]))
    rw [map_sub, map_sub, map_pow, AdjoinRoot.mk_X, map_one] at h
    linear_combination h
  have inj : ∀ b : E3 K, b.val (AdjoinRoot.of (X ^ 3 - X - 1 : K[X])) (AdjoinRoot.root _) = 0 → b = ⟨0, 0, 0⟩ := by
    rintro ⟨x, y, z⟩ hb
    have hb' : AdjoinRoot.mk (X ^ 3 - X - 1 : K[X]) (C x + C y * X + C z * X ^ 2) = 0 := by
      rw [map_add, map_add, map_mul, map_mul, map_pow, AdjoinRoot.mk_C, AdjoinRoot.mk_C, AdjoinRoot.mk_C,
        AdjoinRoot.mk_X]
      exact hb
    rw [AdjoinRoot.mk_eq_zero] at hb'
    have h0 := eq_zero_of_dvd_of_natDegree_lt hb' (by
      rw [hdeg]
      refine lt_of_le_of_lt (b := 2) ?_ (by decide)
      compute_degree)
    have hc : ∀ i, (C x + C y * X + C z * X ^ 2 : K[X]).coeff i = 0 := fun i => by rw [h0, coeff_zero]
    have c0 := hc 0
    have c1 := hc 1
    have c2 := hc 2
    simp [coeff_X, coeff_one, coeff_C] at c0 c1 c2
    rw [c0, c1, c2]
  have hm := adj_mul (AdjoinRoot.of (X ^ 3 - X - 1 : K[X])) hρ a
  rw [hn, map_zero] at hm
  rcases mul_eq_zero.mp hm with h | h
  · have := inj _ h
    exact ha (adj_zero hroot (by rw [this]) (by rw [this]) (by rw [this]))
  · exact ha (inj _ h)

/-- **C66**: inversion in the cubic extension, whenever the base has no root of `x³ - x - 1`. -/
theorem C66_gf33m_invert [CharP K 3] (hroot : ∀ u : K, u ^ 3 ≠ u + 1) {ρ : L} (hρ : ρ ^ 3 = ρ + 1) {a : E3 K}
    (ha : a ≠ ⟨0, 0, 0⟩) : (a.invert fun x => x⁻¹).val φ ρ * a.val φ ρ = 1 := by
  have h := adj_mul φ hρ a
  have hn : φ a.norm⁻¹ * φ a.norm = 1 := by rw [← map_mul, inv_mul_cancel₀ (norm_ne_zero hroot ha), map_one]
  have e : (a.invert fun x => x⁻¹).val φ ρ = φ a.norm⁻¹ * a.adj.val φ ρ := by
    have e0 : (a.invert fun x => x⁻¹) = ⟨a.adj.c0 * a.norm⁻¹, a.adj.c1 * a.norm⁻¹, a.adj.c2 * a.norm⁻¹⟩ := rfl
    rw [e0]
    simp only [E3.val, map_mul]
    ring
  rw [e, mul_assoc, h, hn]

/-- Over `GF(3^m)` the polynomial `x³ - x - 1` has no root, unless 3 divides `m`. -/
theorem no_root [Fintype K] [CharP K 3] {m : ℕ} (hc : Fintype.card K = 3 ^ m) (hm : ¬ 3 ∣ m) (u : K) :
    u ^ 3 ≠ u + 1 := by
  intro h
  have : Fact (Nat.Prime 3) := ⟨by decide⟩
  have key : ∀ k : ℕ, u ^ 3 ^ k = u + k := by
    intro k
    induction k with
    | zero => simp
    | succ k ih =>
      have hk : ((k : K)) ^ 3 = k := by
        have h := congrArg (ZMod.castHom (dvd_refl 3) K) (ZMod.pow_card (p := 3) (k : ZMod 3))
        rwa [map_pow, map_natCast] at h
      rw [pow_succ, pow_mul, ih, add_pow_char, h, hk]
      push_cast
      ring
  have h1 := key m
  rw [← hc, FiniteField.pow_card] at h1
  have h2 : ((m : ℕ) : K) = 0 := by linear_combination -h1
  exact hm ((CharP.cast_eq_zero_iff K 3 m).mp h2)

/-- **C66**: inversion over `GF(3^m)`, `m` prime to 3. -/
theorem C66_gf33m_invert_finite [Fintype K] [CharP K 3] {m : ℕ} (hc : Fintype.card K = 3 ^ m) (hm : ¬ 3 ∣ m)
    {ρ : L} (hρ : ρ ^ 3 = ρ + 1) {a : E3 K} (ha : a ≠ ⟨0, 0, 0⟩) :
    (a.invert fun x => x⁻¹).val φ ρ * a.val φ ρ = 1 :=
  C66_gf33m_invert φ (no_root hc hm) hρ ha

end towerInv

/-! ### Instances -/

theorem irreducible_3_2 : Irreducible (trinomial 3 2) := by
  refine irreducible_of_degree_le_three_of_not_isRoot
    (by rw [tri_natDegree (by decide) (by decide)]; decide) fun u hu => ?_
  rw [IsRoot, trinomial] at hu
  simp only [eval_add, eval_pow, eval_X, eval_C] at hu
  revert hu u
  decide

theorem irreducible_2_1 : Irreducible (trinomial 2 1) := by
  refine irreducible_of_degree_le_three_of_not_isRoot
    (by rw [tri_natDegree (by decide) (by decide)]; decide) fun u hu => ?_
  rw [IsRoot, trinomial] at hu
  simp only [eval_add, eval_pow, eval_X, eval_C] at hu
  revert hu u
  decide

/-- A field of the size of the distributed parameters. -/
example : ∃ P : Params 64, fieldInit 97 12 = some P ∧ Good 97 12 P :=
  C65_init (by decide) (by decide) (by decide)

/-- Multiplication, cube and inversion in `GF(27)` on words of 8 bits: `x · x² = 2x² + 1`. -/
example : (fieldInit (w := 8) 3 2).map (fun P =>
      [mult P ⟨[2], [0]⟩ ⟨[4], [0]⟩, cubic P ⟨[2], [0]⟩, (invert P ⟨[2], [1]⟩).bind fun e => mult P e ⟨[2], [1]⟩])
    = some [some ⟨[1], [4]⟩, some ⟨[1], [4]⟩, some ⟨[1], [0]⟩] := by decide +kernel

/-- A program in `GF(27)` with shared operands: its start and every call meet the hypotheses. -/
example : ∃ (_ : Fact (Irreducible (trinomial 3 2))) (P : Params 8), Good 3 2 P ∧
    ∃ s', run P (fun _ => zero P.len) [.set1 0, .add 1 0 0, .mul 1 1 1, .sub 2 1 1, .invert 1 1, .div 0 2 1, .neg 1 1]
      = some s' ∧ Reps 3 2 P.len (s' 1) (-(2 * 2)⁻¹) := by
  have hF : Fact (Irreducible (trinomial 3 2)) := ⟨irreducible_3_2⟩
  obtain ⟨P, -, g⟩ := C65_init (w := 8) (m := 3) (t := 2) (by decide) (by decide) (by decide)
  have h2 : ((1 : AdjoinRoot (trinomial 3 2)) + 1) ≠ 0 := by
    have := cast_ne_zero (m := 3) (t := 2) (z := 2) (by decide)
    intro h
    exact this (by rw [← h]; norm_num)
  obtain ⟨s', h, hr⟩ := C65_program g
    [.set1 0, .add 1 0 0, .mul 1 1 1, .sub 2 1 1, .invert 1 1, .div 0 2 1, .neg 1 1]
    (s := fun _ => zero P.len) (v := fun _ => 0) (fun _ => C65_zero 3 2 P.len)
    (by
      simp [Spec.RingAllowed, Spec.RingOp.ok, Spec.RingOp.step, Spec.RingOp.dest, Spec.RingOp.value,
        Function.update_apply, h2])
    (by simp [NoConst])
  refine ⟨hF, P, g, s', h, ?_⟩
  have := hr 1
  simp only [Spec.ringRun, List.foldl, Spec.RingOp.step, Spec.RingOp.dest, Spec.RingOp.value,
    Function.update_apply] at this
  simpa [show (1 : AdjoinRoot (trinomial 3 2)) + 1 = 2 by norm_num] using this

/-- In `GF(9)` the square root of `x²` is not found. -/
example : (fieldInit (w := 8) 2 1).map (fun P =>
      ((mult P ⟨[2], [0]⟩ ⟨[2], [0]⟩).bind fun a => (sqrt P a).bind fun r => mult P r r, mult P ⟨[2], [0]⟩ ⟨[2], [0]⟩))
    = some (some ⟨[1], [0]⟩, some ⟨[1], [2]⟩) := by decide +kernel

/-- Degrees of both kinds. -/
example : ¬ 64 ∣ 97 ∧ 8 ∣ 16 := by decide

/-- A field without root of `x³ - x - 1`, and one extension containing both roots. -/
example : (∀ u : ZMod 3, u ^ 3 ≠ u + 1) ∧ (⟨1, 2, 0⟩ : E3 (ZMod 3)) ≠ ⟨0, 0, 0⟩ :=
  ⟨by decide, fun h => absurd (congrArg E3.c0 h) (by decide)⟩

/-! ## The theorems applied -/

/-- 64-bit words, two of them: `1 + 2x + x^64` to 32 bytes and back. -/
example : ∃ d, toBytes 2 (⟨[1, 1], [2, 0]⟩ : El 64) = some d ∧ d.length = 32 ∧
    fromBytes 2 (d ++ [7]) = some (⟨[1, 1], [2, 0]⟩ : El 64) := by
  obtain ⟨d, h1, h2, h3⟩ := C67_roundtrip (w := 64) (nb := 8) rfl (by decide) (n := 2)
    (e := ⟨[1, 1], [2, 0]⟩) (by decide)
  exact ⟨d, h1, h2, h3 _⟩

/-- The shipped parameters `3^97`. -/
example : ∃ P : Params 64, fieldInit 97 12 = some P ∧ ∃ x, Reps 97 12 P.len (random P fun i => i) x := by
  obtain ⟨P, h, g⟩ := C65_init (w := 64) (m := 97) (t := 12) (by decide) (by decide) (by decide)
  exact ⟨P, h, C86_partial g (by decide) _⟩

section
open Polynomial

/-- The rings `Z/3[X]/(X² + 1)` and `Z/3[X]/(X³ - X - 1)`. -/
theorem cubicRing_charP (f : (ZMod 3)[X]) (hf : f.degree ≠ 0) : CharP (AdjoinRoot f) 3 :=
  have : Fact (Nat.Prime 3) := ⟨Nat.prime_three⟩
  charP_of_injective_algebraMap (R := ZMod 3) (A := AdjoinRoot f)
    (AdjoinRoot.of.injective_of_degree_ne_zero hf) 3

/-- `2 + i`, `i² = -1`: its cube. -/
example : let i := AdjoinRoot.root (X ^ 2 + C 1 : (ZMod 3)[X])
    (E2.mk (2 : ZMod 3) 1).cubic.val (AdjoinRoot.of (X ^ 2 + C 1 : (ZMod 3)[X])) i
      = (E2.mk (2 : ZMod 3) 1).val (AdjoinRoot.of (X ^ 2 + C 1)) i ^ 3 := by
  have : Fact (Nat.Prime 3) := ⟨Nat.prime_three⟩
  have := cubicRing_charP (X ^ 2 + C 1) (by rw [degree_X_pow_add_C (by decide)]; decide)
  have hi : AdjoinRoot.root (X ^ 2 + C 1 : (ZMod 3)[X]) ^ 2 = -1 := by
    have h := AdjoinRoot.eval₂_root (X ^ 2 + C 1 : (ZMod 3)[X])
    simp only [eval₂_add, eval₂_pow, eval₂_X, eval₂_one, map_one] at h
    exact eq_neg_of_add_eq_zero_left h
  exact C66_gf32m_cubic _ hi _

theorem cubicRing_root : AdjoinRoot.root (X ^ 3 - (X + C 1) : (ZMod 3)[X]) ^ 3
    = AdjoinRoot.root (X ^ 3 - (X + C 1) : (ZMod 3)[X]) + 1 := by
  have h := AdjoinRoot.eval₂_root (X ^ 3 - (X + C 1) : (ZMod 3)[X])
  simp only [eval₂_sub, eval₂_add, eval₂_pow, eval₂_X, eval₂_one, map_one] at h
  exact sub_eq_zero.1 h

/-- `1 + 2ρ + ρ²`, `ρ³ = ρ + 1`: its inverse, found either way, and its cube. -/
example : let ρ := AdjoinRoot.root (X ^ 3 - (X + C 1) : (ZMod 3)[X])
    let φ := AdjoinRoot.of (X ^ 3 - (X + C 1) : (ZMod 3)[X])
    ((E3.mk (1 : ZMod 3) 2 1).invert fun x => x⁻¹).val φ ρ * (E3.mk (1 : ZMod 3) 2 1).val φ ρ = 1 ∧
    (E3.mk (1 : ZMod 3) 2 1).cubic.val φ ρ = (E3.mk (1 : ZMod 3) 2 1).val φ ρ ^ 3 := by
  have hu : ∀ u : ZMod 3, u ^ 3 ≠ u + 1 := by decide
  have : Fact (Nat.Prime 3) := ⟨Nat.prime_three⟩
  have hd : (X ^ 3 - (X + C 1) : (ZMod 3)[X]).degree = 3 := by compute_degree!
  have := cubicRing_charP (X ^ 3 - (X + C 1)) (by rw [hd]; decide)
  have hne : (E3.mk (1 : ZMod 3) 2 1) ≠ ⟨0, 0, 0⟩ := fun h => absurd (congrArg E3.c0 h) one_ne_zero
  have h1 := C66_gf33m_invert (AdjoinRoot.of (X ^ 3 - (X + C 1) : (ZMod 3)[X])) hu
    cubicRing_root hne
  have h2 := C66_gf33m_invert_finite (AdjoinRoot.of (X ^ 3 - (X + C 1) : (ZMod 3)[X])) (m := 1)
    (by rw [ZMod.card]; rfl) (by decide) cubicRing_root hne
  exact ⟨h2, C66_gf33m_cubic _ cubicRing_root _⟩

end

end Pbc.Ternary
