import Verif.Props.Fp
import Verif.Lemmas.OtherFpObs

/-!
# The other prime-field backends: encoding, sign, inverse, comparison, squareness

C04, C05, C07, C09, C10 and C21 for `fasterfp.c`, `fastfp.c` and `naivefp.c`; `Verif/Props/Fp.lean`
has them for the Montgomery backend.
-/

set_option autoImplicit false

namespace Props

open Spec Pbc Pbc.Mont

/-- What `fasterfp.c` holds after some sequence of calls meeting their preconditions, next to
what `Z/p` says. -/
def FasterReach (w p : ℕ) (m : Mem) (s : FpState p) : Prop :=
  ∃ (m0 : Mem) (fresh : El) (prog : List FpOp),
    (∀ i, Fresh (init w p) (m0 i)) ∧ Fresh (init w p) fresh ∧
    FpAllowed (fasterSafe w) (fun _ => (0 : ZMod p)) prog ∧
    m = Faster.run (init w p) fresh m0 prog ∧ s = fpRun (fun _ => 0) prog

/-- The same for `fastfp.c`. -/
def FastReach (w p : ℕ) (m : ℕ → List ℕ) (s : FpState p) : Prop :=
  ∃ prog : List FpOp, FpAllowed (fastSafe w) (fun _ => (0 : ZMod p)) prog ∧
    m = Fast.run (init w p) (fun _ => Fast.set0 (init w p)) prog ∧ s = fpRun (fun _ => 0) prog

/-- The same for `naivefp.c`. -/
def NaiveReach (p : ℕ) (m : ℕ → ℕ) (s : FpState p) : Prop :=
  ∃ prog : List FpOp, FpAllowed naiveSafe (fun _ => (0 : ZMod p)) prog ∧
    m = Naive.run p (fun _ => 0) prog ∧ s = fpRun (fun _ => 0) prog

section
variable {w p : ℕ} {s : FpState p}

theorem fasterReach_rep (hw : 1 ≤ w) (hp : p.Prime) (hodd : p % 2 = 1) (hwp : 2 ^ w ≤ p) {m : Mem}
    (h : FasterReach w p m s) (i : ℕ) : Faster.Rep (init w p) (m i) (s i) := by
  obtain ⟨m0, fresh, prog, h0, hf, ha, rfl, rfl⟩ := h
  have ok := init_ok hw hp.one_lt hodd
  exact Faster.run_rep ok hp hwp hf prog (s := fun _ => 0)
    (fun i => fresh_rep ok isUnit_one (h0 i)) ha i

theorem fastReach_rep (hw : 1 ≤ w) (hp : p.Prime) (hodd : p % 2 = 1) (hwp : 2 ^ w ≤ p)
    {m : ℕ → List ℕ} (h : FastReach w p m s) (i : ℕ) : Fast.Rep (init w p) (m i) (s i) := by
  obtain ⟨prog, ha, rfl, rfl⟩ := h
  have ok := init_ok hw hp.one_lt hodd
  exact Fast.run_rep ok hp hwp prog (s := fun _ => 0) (fun i => Fast.zero_rep ok) ha i

theorem naiveReach_rep (hp : p.Prime) (hodd : p % 2 = 1) {m : ℕ → ℕ} (h : NaiveReach p m s)
    (i : ℕ) : Naive.Rep (m i) (s i) := by
  obtain ⟨prog, ha, rfl, rfl⟩ := h
  exact Naive.run_rep hp hodd prog (s := fun _ => 0) (fun _ => ⟨hp.pos, Nat.cast_zero⟩) ha i

/-- What a sign of `Z/p` has to satisfy, given the sign `σ` of `x` and the sign `τ` of `-x`. -/
theorem oddSign_spec (hp : 1 < p) (hodd : p % 2 = 1) (x : ZMod p) :
    oddSign (-x) = -oddSign x ∧ (oddSign x = 0 ↔ x = 0) ∧
      (oddSign x = 1 ∨ oddSign x = 0 ∨ oddSign x = -1) := by
  have : NeZero p := ⟨by omega⟩
  refine ⟨sign_neg hodd x, ?_, ?_⟩ <;> unfold oddSign
  · by_cases h0 : x = 0
    · simp [h0]
    · rw [if_neg h0]
      split <;> simp [h0]
  · split
    · simp
    · split <;> simp

/-! ## C05: encodings -/

/-- **C05** for `fasterfp.c`. -/
theorem C05_faster (hw : 1 ≤ w) (hp : p.Prime) (hodd : p % 2 = 1) (hwp : 2 ^ w ≤ p) {m : Mem}
    (h : FasterReach w p m s) (c a : ℕ) :
    ∃ data, Faster.toBytes (init w p) (m a) = some data ∧ data.length = fpLength p ∧
      (∀ b ∈ data, b < 256) ∧
      Faster.toMpz (init w p) (Faster.fromBytes (init w p) (m c) data) = (s a).val ∧
      ∀ b, Faster.toBytes (init w p) (m b) = some data → s a = s b := by
  have ok := init_ok hw hp.one_lt hodd
  have : NeZero p := ⟨hp.ne_zero⟩
  obtain ⟨l, h1, h2, h3, h4⟩ := Faster.toBytes_rep ok (fasterReach_rep hw hp hodd hwp h a)
  replace h4 : bytesVal l = (s a).val := h4
  refine ⟨l, h1, h2, h3, ?_, fun b hb => ?_⟩
  · have hr := Faster.fromBytes_rep ok (fasterReach_rep hw hp hodd hwp h c) (data := l)
      (by rw [h4]; exact ZMod.val_lt (s a))
    rw [Faster.toMpz_rep ok hr, h4]
    exact congrArg ZMod.val (ZMod.natCast_zmod_val (s a))
  · obtain ⟨l', g1, -, -, g4⟩ := Faster.toBytes_rep ok (fasterReach_rep hw hp hodd hwp h b)
    rw [hb] at g1
    cases g1
    exact ZMod.val_injective p (h4.symm.trans g4)

/-- **C05** for `fastfp.c`. -/
theorem C05_fast (hw : 1 ≤ w) (hp : p.Prime) (hodd : p % 2 = 1) (hwp : 2 ^ w ≤ p)
    {m : ℕ → List ℕ} (h : FastReach w p m s) (a : ℕ) :
    ∃ data, Fast.toBytes (init w p) (m a) = some data ∧ data.length = fpLength p ∧
      (∀ b ∈ data, b < 256) ∧
      Fast.toMpz (init w p) (Fast.fromBytes (init w p) data) = (s a).val ∧
      ∀ b, Fast.toBytes (init w p) (m b) = some data → s a = s b := by
  have ok := init_ok hw hp.one_lt hodd
  have : NeZero p := ⟨hp.ne_zero⟩
  obtain ⟨l, h1, h2, h3, h4⟩ := Fast.toBytes_rep ok (fastReach_rep hw hp hodd hwp h a)
  replace h4 : bytesVal l = (s a).val := h4
  refine ⟨l, h1, h2, h3, ?_, fun b hb => ?_⟩
  · have hr := Fast.setMpz_rep ok (bytesVal l : ℤ)
    have e : Fast.fromBytes (init w p) l = Fast.setMpz (init w p) (bytesVal l : ℤ) := rfl
    rw [e, Fast.toMpz_rep ok hr, h4]
    exact congrArg ZMod.val ((Int.cast_natCast _).trans (ZMod.natCast_zmod_val (s a)))
  · obtain ⟨l', g1, -, -, g4⟩ := Fast.toBytes_rep ok (fastReach_rep hw hp hodd hwp h b)
    rw [hb] at g1
    cases g1
    exact ZMod.val_injective p (h4.symm.trans g4)

/-- **C05** for `naivefp.c`. -/
theorem C05_naive (hp : p.Prime) (hodd : p % 2 = 1) {m : ℕ → ℕ} (h : NaiveReach p m s) (a : ℕ) :
    ∃ data, Naive.toBytes p (m a) = some data ∧ data.length = fpLength p ∧
      (∀ b ∈ data, b < 256) ∧ Naive.fromBytes data = (s a).val ∧
      ∀ b, Naive.toBytes p (m b) = some data → s a = s b := by
  have : NeZero p := ⟨hp.ne_zero⟩
  obtain ⟨l, h1, h2, h3, h4⟩ := Naive.toBytes_rep hp.one_lt (naiveReach_rep hp hodd h a)
  refine ⟨l, h1, h2, h3, h4, fun b hb => ?_⟩
  obtain ⟨l', g1, -, -, g4⟩ := Naive.toBytes_rep hp.one_lt (naiveReach_rep hp hodd h b)
  rw [hb] at g1
  cases g1
  exact ZMod.val_injective p (h4.symm.trans g4)

/-! ## C07: inverses -/

/-- **C07** for `fasterfp.c`. -/
theorem C07_faster (hw : 1 ≤ w) (hp : p.Prime) (hodd : p % 2 = 1) (hwp : 2 ^ w ≤ p) {m : Mem}
    (h : FasterReach w p m s) (c a : ℕ) (ha : s a ≠ 0) :
    ∃ y : ZMod p, Faster.toMpz (init w p) (Faster.invert (init w p) (m c) (m a)) = y.val ∧
      s a * y = 1 := by
  have ok := init_ok hw hp.one_lt hodd
  have : Fact p.Prime := ⟨hp⟩
  have hr := Faster.invert_rep ok hp (m c) (fasterReach_rep hw hp hodd hwp h a) ha
  exact ⟨_, Faster.toMpz_rep ok hr, mul_inv_cancel₀ ha⟩

/-- **C07** for `fastfp.c`. -/
theorem C07_fast (hw : 1 ≤ w) (hp : p.Prime) (hodd : p % 2 = 1) (hwp : 2 ^ w ≤ p)
    {m : ℕ → List ℕ} (h : FastReach w p m s) (a : ℕ) (ha : s a ≠ 0) :
    ∃ y : ZMod p, Fast.toMpz (init w p) (Fast.invert (init w p) (m a)) = y.val ∧
      s a * y = 1 := by
  have ok := init_ok hw hp.one_lt hodd
  have : Fact p.Prime := ⟨hp⟩
  have hr := Fast.exec_rep ok hp hwp (fun i => fastReach_rep hw hp hodd hwp h i) (.invert 0 a) ha
  exact ⟨(s a)⁻¹, Fast.toMpz_rep ok hr, mul_inv_cancel₀ ha⟩

/-- **C07** for `naivefp.c`. -/
theorem C07_naive (hp : p.Prime) (hodd : p % 2 = 1) {m : ℕ → ℕ} (h : NaiveReach p m s) (a : ℕ)
    (ha : s a ≠ 0) : ∃ y : ZMod p, Naive.invert p (m a) = y.val ∧ s a * y = 1 := by
  have : Fact p.Prime := ⟨hp⟩
  have hr := Naive.exec_rep hp hodd (fun i => naiveReach_rep hp hodd h i) (.invert 0 a) ha
  exact ⟨(s a)⁻¹, hr.val_eq, mul_inv_cancel₀ ha⟩

/-! ## C09: signs -/

/-- **C09** for `fasterfp.c`. -/
theorem C09_faster (hw : 1 ≤ w) (hp : p.Prime) (hodd : p % 2 = 1) (hwp : 2 ^ w ≤ p) {m : Mem}
    (h : FasterReach w p m s) (c a : ℕ) :
    ∃ σ : ℤ, Faster.sgn (m a) = σ ∧ Faster.sgn (Faster.neg (init w p) (m c) (m a)) = -σ ∧
      (σ = 0 ↔ s a = 0) ∧ (σ = 1 ∨ σ = 0 ∨ σ = -1) := by
  have ok := init_ok hw hp.one_lt hodd
  have ha := fasterReach_rep hw hp hodd hwp h a
  obtain ⟨h1, h2, h3⟩ := oddSign_spec hp.one_lt hodd (s a)
  refine ⟨_, Faster.sgn_rep ok ha, ?_, h2, h3⟩
  exact (Faster.sgn_rep ok (neg_rep ok isUnit_one (fasterReach_rep hw hp hodd hwp h c) ha)).trans h1

/-- **C09** for `fastfp.c`. -/
theorem C09_fast (hw : 1 ≤ w) (hp : p.Prime) (hodd : p % 2 = 1) (hwp : 2 ^ w ≤ p)
    {m : ℕ → List ℕ} (h : FastReach w p m s) (a : ℕ) :
    ∃ σ : ℤ, Fast.sgn (m a) = σ ∧ Fast.sgn (Fast.neg (init w p) (m a)) = -σ ∧
      (σ = 0 ↔ s a = 0) ∧ (σ = 1 ∨ σ = 0 ∨ σ = -1) := by
  have ok := init_ok hw hp.one_lt hodd
  have ha := fastReach_rep hw hp hodd hwp h a
  obtain ⟨h1, h2, h3⟩ := oddSign_spec hp.one_lt hodd (s a)
  exact ⟨_, Fast.sgn_rep ok ha, (Fast.sgn_rep ok (Fast.neg_rep ok ha)).trans h1, h2, h3⟩

/-- **C09** for `naivefp.c`. -/
theorem C09_naive (hp : p.Prime) (hodd : p % 2 = 1) {m : ℕ → ℕ} (h : NaiveReach p m s) (a : ℕ) :
    ∃ σ : ℤ, Naive.sgnOdd (m a) = σ ∧ Naive.sgnOdd (Naive.neg p (m a)) = -σ ∧
      (σ = 0 ↔ s a = 0) ∧ (σ = 1 ∨ σ = 0 ∨ σ = -1) := by
  have ha := naiveReach_rep hp hodd h a
  obtain ⟨h1, h2, h3⟩ := oddSign_spec hp.one_lt hodd (s a)
  exact ⟨_, Naive.sgn_rep hp.one_lt ha,
    (Naive.sgn_rep hp.one_lt (Naive.neg_rep hp.one_lt ha)).trans h1, h2, h3⟩

/-! ## C04: comparison; C10: tests for 0 and 1 -/

/-- **C04** for `fasterfp.c` (partial, the same exception as for the Montgomery backend, whose
comparison has the same text). -/
theorem C04_faster_partial (hw : 1 ≤ w) (hp : p.Prime) (hodd : p % 2 = 1) (hwp : 2 ^ w ≤ p)
    {m : Mem} (h : FasterReach w p m s) (a b : ℕ) (hs : s a = 0 ∨ s b ≠ 0) :
    Faster.cmp (m a) (m b) = Ordering.eq ↔ s a = s b :=
  Faster.cmp_rep (init_ok hw hp.one_lt hodd) (fasterReach_rep hw hp hodd hwp h a)
    (fasterReach_rep hw hp hodd hwp h b) hs

/-- **C04** for `fastfp.c`, without exception: the comparison is that of the least residues. -/
theorem C04_fast (hw : 1 ≤ w) (hp : p.Prime) (hodd : p % 2 = 1) (hwp : 2 ^ w ≤ p)
    {m : ℕ → List ℕ} (h : FastReach w p m s) (a b : ℕ) :
    Fast.cmp (m a) (m b) = compare (s a).val (s b).val ∧
    (Fast.cmp (m a) (m b) = Ordering.eq ↔ s a = s b) := by
  have : NeZero p := ⟨hp.ne_zero⟩
  have e : Fast.cmp (m a) (m b) = compare (s a).val (s b).val :=
    Fast.cmp_rep (init_ok hw hp.one_lt hodd) (fastReach_rep hw hp hodd hwp h a)
      (fastReach_rep hw hp hodd hwp h b)
  refine ⟨e, ?_⟩
  rw [e, Nat.compare_eq_eq]
  exact ⟨fun h => ZMod.val_injective p h, fun h => by rw [h]⟩

/-- **C04** for `naivefp.c`, without exception. -/
theorem C04_naive (hp : p.Prime) (hodd : p % 2 = 1) {m : ℕ → ℕ} (h : NaiveReach p m s)
    (a b : ℕ) :
    Naive.cmp (m a) (m b) = compare (s a).val (s b).val ∧
    (Naive.cmp (m a) (m b) = Ordering.eq ↔ s a = s b) := by
  have : NeZero p := ⟨hp.ne_zero⟩
  have e : Naive.cmp (m a) (m b) = compare (s a).val (s b).val := by
    rw [Naive.cmp, (naiveReach_rep hp hodd h a).val_eq, (naiveReach_rep hp hodd h b).val_eq]
  refine ⟨e, ?_⟩
  rw [e, Nat.compare_eq_eq]
  exact ⟨fun h => ZMod.val_injective p h, fun h => by rw [h]⟩

/-- **C10**: the tests for 0 and for 1 of the three backends say what `Z/p` says. -/
theorem C10_is0_is1 (hw : 1 ≤ w) (hp : p.Prime) (hodd : p % 2 = 1) (hwp : 2 ^ w ≤ p)
    {m1 : Mem} {m2 : ℕ → List ℕ} {m3 : ℕ → ℕ} (h1 : FasterReach w p m1 s)
    (h2 : FastReach w p m2 s) (h3 : NaiveReach p m3 s) (i : ℕ) :
    (Faster.is0 (m1 i) = true ↔ s i = 0) ∧ (Fast.is0 (m2 i) = true ↔ s i = 0) ∧
    (Naive.is0 (m3 i) = true ↔ s i = 0) ∧
    (Faster.is1 (m1 i) = true ↔ s i = 1) ∧ (Fast.is1 (m2 i) = true ↔ s i = 1) ∧
    (Naive.is1 (m3 i) = true ↔ s i = 1) := by
  have ok := init_ok hw hp.one_lt hodd
  have r1 := fasterReach_rep hw hp hodd hwp h1 i
  have r2 := fastReach_rep hw hp hodd hwp h2 i
  have r3 := (naiveReach_rep hp hodd h3 i).val_eq
  refine ⟨Faster.is0_rep ok r1, Fast.is0_rep ok r2, ?_, Faster.is1_rep ok r1, Fast.is1_rep ok r2, ?_⟩
  · rw [Naive.is0, r3, beq_iff_eq, ZMod.val_eq_zero]
  · rw [Naive.is1, r3, beq_iff_eq, val_eq_one hp.one_lt]

/-! ## C21: squares -/

/-- **C21** for the three backends. -/
theorem C21_backends (hw : 1 ≤ w) (hp : p.Prime) (hodd : p % 2 = 1) (hwp : 2 ^ w ≤ p)
    {m1 : Mem} {m2 : ℕ → List ℕ} {m3 : ℕ → ℕ} (h1 : FasterReach w p m1 s)
    (h2 : FastReach w p m2 s) (h3 : NaiveReach p m3 s) (i : ℕ) :
    (Faster.isSqr (init w p) (m1 i) = true ↔ ∃ y, s i = y * y) ∧
    (Fast.isSqr (init w p) (m2 i) = true ↔ ∃ y, s i = y * y) ∧
    (Naive.isSqr p (m3 i) = true ↔ ∃ y, s i = y * y) := by
  have ok := init_ok hw hp.one_lt hodd
  exact ⟨Faster.isSqr_rep ok hp (fasterReach_rep hw hp hodd hwp h1 i),
    Fast.isSqr_rep ok hp (fastReach_rep hw hp hodd hwp h2 i),
    Naive.isSqr_rep hp (naiveReach_rep hp hodd h3 i)⟩

end

/-! ## The hypotheses can be met -/

theorem exFaster : ∃ m, FasterReach 4 131 m exState :=
  ⟨_, _, _, exProg, fun _ => exFresh, exFresh, allowed_mono (fun _ _ h => h.2) _ exProg_allowed,
    rfl, rfl⟩

theorem exFast : ∃ m, FastReach 4 131 m exState :=
  ⟨_, exProg, allowed_mono fast_of_common _ exProg_allowed, rfl, rfl⟩

theorem exNaive : ∃ m, NaiveReach 131 m exState :=
  ⟨_, exProg, allowed_mono naive_of_common _ exProg_allowed, rfl, rfl⟩

/-- `fasterfp.c`, variables holding 100, 0, 1, 115, 1: encoding of 115 read over 100; its inverse;
its sign; comparisons. -/
example : ∃ m, FasterReach 4 131 m exState ∧
    (∃ data, Faster.toBytes (init 4 131) (m 3) = some data ∧
      Faster.toMpz (init 4 131) (Faster.fromBytes (init 4 131) (m 0) data) = 115) ∧
    (∃ y : ZMod 131, Faster.toMpz (init 4 131) (Faster.invert (init 4 131) (m 0) (m 3)) = y.val ∧
      115 * y = 1) ∧
    Faster.sgn (m 3) ≠ 0 ∧
    Faster.cmp (m 2) (m 4) = Ordering.eq ∧ Faster.cmp (m 0) (m 3) ≠ Ordering.eq := by
  obtain ⟨m, h⟩ := exFaster
  obtain ⟨data, h1, -, -, h2, -⟩ := C05_faster (w := 4) (p := 131) (by norm_num) (by norm_num)
    (by norm_num) (by norm_num) h 0 3
  obtain ⟨y, h3, h4⟩ := C07_faster (w := 4) (p := 131) (by norm_num) (by norm_num) (by norm_num)
    (by norm_num) h 0 3 (by decide +kernel)
  obtain ⟨σ, h5, -, h6, -⟩ := C09_faster (w := 4) (p := 131) (by norm_num) (by norm_num)
    (by norm_num) (by norm_num) h 0 3
  have h7 := C04_faster_partial (w := 4) (p := 131) (by norm_num) (by norm_num) (by norm_num)
    (by norm_num) h
  exact ⟨m, h, ⟨data, h1, h2.trans (by decide +kernel)⟩, ⟨y, h3, exState_3 ▸ h4⟩,
    fun h0 => absurd (h6.1 (h5.symm.trans h0)) (by decide +kernel),
    (h7 2 4 (Or.inr (by decide +kernel))).2 (by decide +kernel),
    fun he => absurd ((h7 0 3 (Or.inr (by decide +kernel))).1 he) (by decide +kernel)⟩

/-- The same for `fastfp.c`; here comparison is that of the integers. -/
example : ∃ m, FastReach 4 131 m exState ∧
    (∃ data, Fast.toBytes (init 4 131) (m 3) = some data ∧
      Fast.toMpz (init 4 131) (Fast.fromBytes (init 4 131) data) = 115) ∧
    (∃ y : ZMod 131, Fast.toMpz (init 4 131) (Fast.invert (init 4 131) (m 3)) = y.val ∧
      115 * y = 1) ∧
    Fast.sgn (m 3) ≠ 0 ∧ Fast.cmp (m 0) (m 3) = Ordering.lt := by
  obtain ⟨m, h⟩ := exFast
  obtain ⟨data, h1, -, -, h2, -⟩ := C05_fast (w := 4) (p := 131) (by norm_num) (by norm_num)
    (by norm_num) (by norm_num) h 3
  obtain ⟨y, h3, h4⟩ := C07_fast (w := 4) (p := 131) (by norm_num) (by norm_num) (by norm_num)
    (by norm_num) h 3 (by decide +kernel)
  obtain ⟨σ, h5, -, h6, -⟩ := C09_fast (w := 4) (p := 131) (by norm_num) (by norm_num)
    (by norm_num) (by norm_num) h 3
  have h7 := C04_fast (w := 4) (p := 131) (by norm_num) (by norm_num) (by norm_num)
    (by norm_num) h 0 3
  exact ⟨m, h, ⟨data, h1, h2.trans (by decide +kernel)⟩, ⟨y, h3, exState_3 ▸ h4⟩,
    fun h0 => absurd (h6.1 (h5.symm.trans h0)) (by decide +kernel), h7.1.trans (by decide +kernel)⟩

/-- The same for `naivefp.c`. -/
example : ∃ m, NaiveReach 131 m exState ∧
    (∃ data, Naive.toBytes 131 (m 3) = some data ∧ Naive.fromBytes data = 115) ∧
    (∃ y : ZMod 131, Naive.invert 131 (m 3) = y.val ∧ 115 * y = 1) ∧
    Naive.sgnOdd (m 3) ≠ 0 ∧ Naive.cmp (m 0) (m 3) = Ordering.lt := by
  obtain ⟨m, h⟩ := exNaive
  obtain ⟨data, h1, -, -, h2, -⟩ := C05_naive (p := 131) (by norm_num) (by norm_num) h 3
  obtain ⟨y, h3, h4⟩ := C07_naive (p := 131) (by norm_num) (by norm_num) h 3 (by decide +kernel)
  obtain ⟨σ, h5, -, h6, -⟩ := C09_naive (p := 131) (by norm_num) (by norm_num) h 3
  have h7 := C04_naive (p := 131) (by norm_num) (by norm_num) h 0 3
  exact ⟨m, h, ⟨data, h1, h2.trans (by decide +kernel)⟩, ⟨y, h3, exState_3 ▸ h4⟩,
    fun h0 => absurd (h6.1 (h5.symm.trans h0)) (by decide +kernel), h7.1.trans (by decide +kernel)⟩

/-- Variable 1 is zero and variable 0, a square, is not 1, for all three. -/
example : ∃ m1 m2 m3, FasterReach 4 131 m1 exState ∧ FastReach 4 131 m2 exState ∧
    NaiveReach 131 m3 exState ∧
    Faster.is0 (m1 1) = true ∧ Fast.is0 (m2 1) = true ∧ Naive.is0 (m3 1) = true ∧
    Faster.isSqr (init 4 131) (m1 0) = true ∧ Fast.isSqr (init 4 131) (m2 0) = true ∧
    Naive.isSqr 131 (m3 0) = true := by
  obtain ⟨m1, h1⟩ := exFaster
  obtain ⟨m2, h2⟩ := exFast
  obtain ⟨m3, h3⟩ := exNaive
  have h4 := C10_is0_is1 (w := 4) (p := 131) (by norm_num) (by norm_num) (by norm_num)
    (by norm_num) h1 h2 h3 1
  have h5 := C21_backends (w := 4) (p := 131) (by norm_num) (by norm_num) (by norm_num)
    (by norm_num) h1 h2 h3 0
  have hs : ∃ y, exState 0 = y * y := ⟨10, by decide +kernel⟩
  have h0 : exState 1 = 0 := by decide
  exact ⟨m1, m2, m3, h1, h2, h3, h4.1.2 h0, h4.2.1.2 h0, h4.2.2.1.2 h0, h5.1.2 hs, h5.2.1.2 hs,
    h5.2.2.2 hs⟩

end Props
