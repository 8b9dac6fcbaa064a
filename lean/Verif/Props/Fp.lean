import Verif.Lemmas.OtherFp
import Mathlib.Tactic.NormNum.Prime

/-!
# Properties of prime-field elements

Each theorem name starts with the identifier of the property in `properties.jsonl`.
-/

set_option autoImplicit false

namespace Props

open Spec Pbc Pbc.Mont

/-- The memory `m` is what the Montgomery backend holds after some sequence of calls on freshly
initialised elements, each call meeting its precondition, and `s` is what `Z/p` says the
variables should be. -/
def MontReach (w p : ℕ) (m : Mem) (s : FpState p) : Prop :=
  ∃ (m0 : Mem) (fresh : El) (prog : List FpOp),
    (∀ i, Fresh (init w p) (m0 i)) ∧ Fresh (init w p) fresh ∧
    FpAllowed (FpGuard w montSafe) (fun _ => (0 : ZMod p)) prog ∧
    run (init w p) fresh m0 prog = some m ∧ s = fpRun (fun _ => 0) prog

theorem topOk_of {w p : ℕ} (h : TopWordFree w p) : TopOk (init w p) := by
  unfold TopWordFree words at h
  unfold TopOk Field.β init
  simp only
  rw [← pow_mul, ← pow_mul]
  omega

theorem montReach_rep {w p : ℕ} (hw : 1 ≤ w) (hp : 1 < p) (hodd : p % 2 = 1)
    {m : Mem} {s : FpState p} (h : MontReach w p m s) (i : ℕ) :
    Mont.Rep (init w p) (m i) (s i) := by
  obtain ⟨m0, fresh, prog, h0, hf, ha, hr, rfl⟩ := h
  have ok := init_ok hw hp hodd
  obtain ⟨m', hm, hm'⟩ := run_rep ok topOk_of hf prog
    (m := m0) (s := fun _ => 0) (fun i => fresh_rep ok (R_unit ok) (h0 i)) ha
  rw [hr] at hm
  cases hm
  exact hm' i

/-- **C01**: any sequence of calls on the Montgomery backend, with any aliasing, runs without
undefined behaviour and gives exactly the residues that the same calls give in `Z/p`; for every
odd modulus, prime or not.  Products are taken only when the top word of the modulus is not all
ones; everything else is covered for every odd modulus. -/
theorem C01_program {w p : ℕ} (hw : 1 ≤ w) (hp : 1 < p) (hodd : p % 2 = 1)
    (m0 : Mem) (fresh : El) (h0 : ∀ i, Fresh (init w p) (m0 i))
    (hf : Fresh (init w p) fresh) (prog : List FpOp)
    (ha : FpAllowed (FpGuard w montSafe) (fun _ => (0 : ZMod p)) prog) :
    ∃ m, run (init w p) fresh m0 prog = some m ∧
      ∀ i, toMpz (init w p) (m i) = some (fpRun (fun _ => (0 : ZMod p)) prog i).val := by
  have ok := init_ok hw hp hodd
  obtain ⟨m', hm, hm'⟩ := run_rep ok topOk_of hf prog
    (m := m0) (s := fun _ => 0) (fun i => fresh_rep ok (R_unit ok) (h0 i)) ha
  exact ⟨m', hm, fun i => toMpz_rep ok (hm' i)⟩

/-- **C01** for prime moduli: here products never need a precondition. -/
theorem C01_program_prime {w p : ℕ} (hw : 1 ≤ w) (hp : p.Prime) (hodd : p % 2 = 1)
    (m0 : Mem) (fresh : El) (h0 : ∀ i, Fresh (init w p) (m0 i))
    (hf : Fresh (init w p) fresh) (prog : List FpOp)
    (ha : FpAllowed (FpGuard w montSafePrime) (fun _ => (0 : ZMod p)) prog) :
    ∃ m, run (init w p) fresh m0 prog = some m ∧
      ∀ i, toMpz (init w p) (m i) = some (fpRun (fun _ => (0 : ZMod p)) prog i).val :=
  C01_program hw hp.one_lt hodd m0 fresh h0 hf prog (allowed_of_prime hp prog ha)

/-- The observers `is0` and `is1` agree with `Z/p` in every reachable state. -/
theorem C01_is0_is1 {w p : ℕ} (hw : 1 ≤ w) (hp : 1 < p) (hodd : p % 2 = 1)
    {m : Mem} {s : FpState p} (h : MontReach w p m s) (i : ℕ) :
    (is0 (m i) = true ↔ s i = 0) ∧ (is1 (init w p) (m i) = true ↔ s i = 1) := by
  have ok := init_ok hw hp hodd
  have hr := montReach_rep hw hp hodd h i
  exact ⟨is0_rep ok hr, is1_rep ok hr⟩

/-- **C02** (partial: the full claim ranges over every odd modulus; it is false when the top word
of the modulus is all ones, see `C02_lost_carry`).  Montgomery multiplication of any `a` and any
reduced `b` gives a reduced number congruent to `a b R⁻¹`. -/
theorem C02_mont_mul_partial {w p : ℕ} (hw : 1 ≤ w) (hp : 1 < p) (hodd : p % 2 = 1)
    (htop : TopWordFree w p) (a b : List ℕ) (ha : Limbs (2 ^ w) (words w p) a)
    (hb : Limbs (2 ^ w) (words w p) b) (hbp : val (2 ^ w) b < p) :
    val (2 ^ w) (montMul (init w p) a b) < p ∧
    val (2 ^ w) (montMul (init w p) a b) * 2 ^ (w * words w p)
      ≡ val (2 ^ w) a * val (2 ^ w) b [MOD p] := by
  have h := montMul_spec (init_ok hw hp hodd) (topOk_of htop) (a := a) (b := b) ha hb hbp
  refine ⟨h.2.1, ?_⟩
  rw [pow_mul]
  exact h.2.2

/-- **C03** (partial: the destination must hold a nonzero element, or `a` be zero; see
`C03_halve_depends_on_destination`).  Halving gives `a/2`. -/
theorem C03_halve_partial {w p : ℕ} (hw : 1 ≤ w) (hp : 1 < p) (hodd : p % 2 = 1)
    {m : Mem} {s : FpState p} (h : MontReach w p m s) (c a : ℕ)
    (hc : s c ≠ 0 ∨ s a = 0) :
    ∃ y : ZMod p, toMpz (init w p) (halve (init w p) (m c) (m a)) = some y.val ∧ 2 * y = s a := by
  have ok := init_ok hw hp hodd
  have hr := halve_rep ok (R_unit ok) (montReach_rep hw hp hodd h c)
    (montReach_rep hw hp hodd h a) hc.symm
  refine ⟨s a * 2⁻¹, toMpz_rep ok hr, ?_⟩
  have h2 : IsUnit (2 : ZMod p) := by exact_mod_cast two_unit ok
  have h3 : (2 : ZMod p) * 2⁻¹ = 1 := ZMod.mul_inv_of_unit _ h2
  calc (2 : ZMod p) * (s a * 2⁻¹) = s a * (2 * 2⁻¹) := by ring
    _ = s a := by rw [h3, mul_one]

/-- **C04** (partial: the first argument must be zero or the second nonzero; see
`C04_cmp_stale`).  `element_cmp` returns 0 exactly for equal residues. -/
theorem C04_cmp_partial {w p : ℕ} (hw : 1 ≤ w) (hp : 1 < p) (hodd : p % 2 = 1)
    {m : Mem} {s : FpState p} (h : MontReach w p m s) (a b : ℕ)
    (hs : s a = 0 ∨ s b ≠ 0) : cmp (m a) (m b) = Ordering.eq ↔ s a = s b :=
  cmp_rep (init_ok hw hp hodd) (montReach_rep hw hp hodd h a)
    (montReach_rep hw hp hodd h b) hs

/-- **C05**: serialising writes exactly `element_length_in_bytes` bytes, parsing them back into
any variable gives the same residue. -/
theorem C05_bytes_round_trip {w p : ℕ} (hw : 1 ≤ w) (hp : 1 < p) (hodd : p % 2 = 1)
    {m : Mem} {s : FpState p} (h : MontReach w p m s) (c a : ℕ) :
    ∃ data, toBytes (init w p) (m a) = some data ∧ data.length = fpLength p ∧
      (∀ b ∈ data, b < 256) ∧
      toMpz (init w p) (fromBytes (init w p) (m c) data) = some (s a).val := by
  have ok := init_ok hw hp hodd
  have : NeZero p := ⟨by omega⟩
  obtain ⟨l, h1, h2, h3, h4⟩ := toBytes_rep ok (montReach_rep hw hp hodd h a)
  refine ⟨l, h1, h2, h3, ?_⟩
  have hz : importBE l = (s a).val := h4
  have hcast : ((importBE l : ℕ) : ZMod p) = s a := by rw [hz, ZMod.natCast_zmod_val]
  have hr := shift_rep ok (montReach_rep hw hp hodd h c) (importBE l) (by
    rcases Nat.eq_zero_or_pos (importBE l) with h0 | h0
    · exact Or.inl h0
    · refine Or.inr fun hd => ?_
      have := Nat.le_of_dvd h0 hd
      have := ZMod.val_lt (s a)
      have : (init w p).p = p := rfl
      omega)
  have e : fromBytes (init w p) (m c) l = (if importBE l ≠ 0 then
      { flag := true, d := toLimbs (init w p).β (init w p).t
          (importBE l * 2 ^ ((init w p).w * (init w p).t) % (init w p).p) }
      else { (m c) with flag := false }) := by
    unfold fromBytes
    by_cases h0 : importBE l = 0 <;> simp [h0]
  rw [e, toMpz_rep ok hr]
  congr 2

/-- **C05**: equal encodings come from equal residues. -/
theorem C05_bytes_injective {w p : ℕ} (hw : 1 ≤ w) (hp : 1 < p) (hodd : p % 2 = 1)
    {m : Mem} {s : FpState p} (h : MontReach w p m s) (a b : ℕ)
    (hab : toBytes (init w p) (m a) = toBytes (init w p) (m b)) : s a = s b := by
  have ok := init_ok hw hp hodd
  have : NeZero p := ⟨by omega⟩
  obtain ⟨l, h1, h2, h3, h4⟩ := toBytes_rep ok (montReach_rep hw hp hodd h a)
  obtain ⟨l', h1', h2', h3', h4'⟩ := toBytes_rep ok (montReach_rep hw hp hodd h b)
  rw [h1, h1'] at hab
  cases hab
  exact ZMod.val_injective p (h4.symm.trans h4')

/-- **C06** (partial: buffers holding a nonzero multiple of the modulus are excluded, see
`C06_from_bytes_multiple`).  Parsing gives the big-endian number modulo `p`. -/
theorem C06_from_bytes_partial {w p : ℕ} (hw : 1 ≤ w) (hp : 1 < p) (hodd : p % 2 = 1)
    {m : Mem} {s : FpState p} (h : MontReach w p m s) (c : ℕ)
    (data : List ℕ) (hd : bytesVal data = 0 ∨ ¬ p ∣ bytesVal data) :
    toMpz (init w p) (fromBytes (init w p) (m c) data) = some (bytesVal data % p) ∧
    (is0 (fromBytes (init w p) (m c) data) = true ↔ bytesVal data = 0) := by
  have ok := init_ok hw hp hodd
  obtain ⟨e, he, hr⟩ := exec_rep ok (fresh := ⟨false, List.replicate _ 0⟩)
    ⟨rfl, limbs_replicate_zero ok _⟩ (fun i => montReach_rep hw hp hodd h i)
    (.fromBytes c data) hd (fun h => h.elim)
  cases he
  constructor
  · rw [toMpz_rep ok hr]
    show some (ZMod.val ((bytesVal data : ℕ) : ZMod p)) = _
    rw [ZMod.val_natCast]
  · rw [is0_rep ok hr]
    show ((bytesVal data : ℕ) : ZMod p) = 0 ↔ _
    rw [ZMod.natCast_eq_zero_iff]
    constructor
    · intro h'; tauto
    · intro h'; rw [h']; exact dvd_zero _

/-- **C07** (partial: the full claim ranges over every odd prime; in this backend it is false for
some primes whose top word is all ones, see `C07_lost_carry`).  Inverting a unit gives its inverse,
in canonical form; for odd prime `p` this covers every nonzero element. -/
theorem C07_invert_partial {w p : ℕ} (hw : 1 ≤ w) (hp : 1 < p) (hodd : p % 2 = 1)
    (htop : TopWordFree w p) {m : Mem} {s : FpState p} (h : MontReach w p m s) (c a : ℕ)
    (ha : IsUnit (s a)) :
    ∃ y : ZMod p, toMpz (init w p) (invert (init w p) (m c) (m a)) = some y.val ∧ s a * y = 1 := by
  have ok := init_ok hw hp hodd
  have hr := invert_rep ok (topOk_of htop) (m c) (montReach_rep hw hp hodd h a) ha
  exact ⟨_, toMpz_rep ok hr, ZMod.mul_inv_of_unit _ ha⟩

/-- **C08** (partial: `0^0` is excluded, the backend gives 0 there, see `C08_zero_pow_zero`). -/
theorem C08_pow_partial {w p : ℕ} (hw : 1 ≤ w) (hp : p.Prime) (hodd : p % 2 = 1)
    {m : Mem} {s : FpState p} (h : MontReach w p m s) (c a n : ℕ)
    (hn : s a ≠ 0 ∨ n ≠ 0) :
    ∃ e, powMpz (init w p) (m c) (m a) n = some e ∧
      toMpz (init w p) e = some (s a ^ n).val := by
  have ok := init_ok hw hp.one_lt hodd
  have : Fact p.Prime := ⟨hp⟩
  obtain ⟨e, he, hr⟩ := powMpz_rep ok (montReach_rep hw hp.one_lt hodd h c)
    (montReach_rep hw hp.one_lt hodd h a) n hn
    (fun h' => eq_zero_of_pow_eq_zero (R := ZMod p) h')
  exact ⟨e, he, toMpz_rep ok hr⟩

theorem sign_neg {p : ℕ} [NeZero p] (hodd : p % 2 = 1) (x : ZMod p) :
    (if -x = 0 then (0 : ℤ) else if (-x).val % 2 = 1 then 1 else -1)
      = -(if x = 0 then 0 else if x.val % 2 = 1 then 1 else -1) := by
  by_cases h0 : x = 0
  · simp [h0]
  · have h1 : -x ≠ 0 := neg_ne_zero.2 h0
    rw [if_neg h0, if_neg h1]
    have : NeZero x := ⟨h0⟩
    have hv : (-x).val = p - x.val := ZMod.val_neg_of_ne_zero x
    have hlt := ZMod.val_lt x
    rw [hv]
    by_cases hpar : x.val % 2 = 1
    · rw [if_pos hpar, if_neg (by omega)]
    · rw [if_neg hpar, if_pos (by omega)]; rfl

/-- **C09**: the sign of an element is 0 exactly for zero, is odd, and is `1`, `0` or `-1`. -/
theorem C09_sign {w p : ℕ} (hw : 1 ≤ w) (hp : 1 < p) (hodd : p % 2 = 1)
    {m : Mem} {s : FpState p} (h : MontReach w p m s) (c a : ℕ) :
    ∃ σ : ℤ, sgn (init w p) (m a) = some σ ∧
      sgn (init w p) (neg (init w p) (m c) (m a)) = some (-σ) ∧
      (σ = 0 ↔ s a = 0) ∧ (σ = 1 ∨ σ = 0 ∨ σ = -1) := by
  have ok := init_ok hw hp hodd
  have : NeZero p := ⟨by omega⟩
  have ha := montReach_rep hw hp hodd h a
  have hn := neg_rep ok (R_unit ok) (montReach_rep hw hp hodd h c) ha
  refine ⟨if s a = 0 then 0 else if (s a).val % 2 = 1 then 1 else -1, sgn_rep ok ha,
    (sgn_rep ok hn).trans (congrArg some (sign_neg hodd (s a))), ?_, ?_⟩
  · by_cases h0 : s a = 0
    · simp [h0]
    · rw [if_neg h0]
      split <;> simp [h0]
  · split
    · simp
    · split <;> simp

/-- **C21**: the squareness test decides squares of `Z/p` (`p` an odd prime). -/
theorem C21_is_sqr {w p : ℕ} (hw : 1 ≤ w) (hp : p.Prime) (hodd : p % 2 = 1)
    {m : Mem} {s : FpState p} (h : MontReach w p m s) (a : ℕ) :
    ∃ b, isSqr (init w p) (m a) = some b ∧ (b = true ↔ ∃ y, s a = y * y) :=
  isSqr_rep (init_ok hw hp.one_lt hodd) hp (montReach_rep hw hp.one_lt hodd h a)

/-! ## The four backends -/

theorem allowed_mono {p : ℕ} {P Q : FpState p → FpOp → Prop} (hPQ : ∀ s o, P s o → Q s o)
    (prog : List FpOp) {s : FpState p} (h : FpAllowed P s prog) : FpAllowed Q s prog := by
  induction prog generalizing s with
  | nil => trivial
  | cons o rest ih => exact ⟨hPQ _ _ h.1, ih h.2⟩

theorem fast_of_common {w p : ℕ} (s : FpState p) (o : FpOp) (h : commonSafe w s o) :
    fastSafe w s o := by
  obtain ⟨h1, h2⟩ := h
  cases o <;> first | exact h2 | trivial

theorem naive_of_common {w p : ℕ} (s : FpState p) (o : FpOp) (h : commonSafe w s o) :
    naiveSafe s o := by
  obtain ⟨h1, h2⟩ := h
  cases o <;> first | exact h2 | trivial

/-- **C10**, `fasterfp.c` alone. -/
theorem C10_faster {w p : ℕ} (hw : 1 ≤ w) (hp : p.Prime) (hodd : p % 2 = 1) (hwp : 2 ^ w ≤ p)
    (m0 : Mem) (fresh : El) (h0 : ∀ i, Fresh (init w p) (m0 i)) (hf : Fresh (init w p) fresh)
    (prog : List FpOp) (ha : FpAllowed (fasterSafe w) (fun _ => (0 : ZMod p)) prog) (i : ℕ) :
    Faster.toMpz (init w p) (Faster.run (init w p) fresh m0 prog i)
      = (fpRun (fun _ => (0 : ZMod p)) prog i).val := by
  have ok := init_ok hw hp.one_lt hodd
  exact Faster.toMpz_rep ok (Faster.run_rep ok hp hwp hf prog (s := fun _ => 0)
    (fun i => fresh_rep ok isUnit_one (h0 i)) ha i)

/-- **C10**, `fastfp.c` alone. -/
theorem C10_fast {w p : ℕ} (hw : 1 ≤ w) (hp : p.Prime) (hodd : p % 2 = 1) (hwp : 2 ^ w ≤ p)
    (prog : List FpOp) (ha : FpAllowed (fastSafe w) (fun _ => (0 : ZMod p)) prog) (i : ℕ) :
    Fast.toMpz (init w p) (Fast.run (init w p) (fun _ => Fast.set0 (init w p)) prog i)
      = (fpRun (fun _ => (0 : ZMod p)) prog i).val := by
  have ok := init_ok hw hp.one_lt hodd
  exact Fast.toMpz_rep ok (Fast.run_rep ok hp hwp prog (s := fun _ => 0)
    (fun i => Fast.zero_rep ok) ha i)

/-- **C10**, `naivefp.c` alone. -/
theorem C10_naive {p : ℕ} (hp : p.Prime) (hodd : p % 2 = 1) (prog : List FpOp)
    (ha : FpAllowed naiveSafe (fun _ => (0 : ZMod p)) prog) (i : ℕ) :
    Naive.run p (fun _ => 0) prog i = (fpRun (fun _ => (0 : ZMod p)) prog i).val :=
  (Naive.run_rep hp hodd prog (s := fun _ => 0) (fun _ => ⟨hp.pos, Nat.cast_zero⟩) ha i).val_eq

/-- **C10**: the four backends, driven by the same calls, give the same integers. -/
theorem C10_backends_agree {w p : ℕ} (hw : 1 ≤ w) (hp : p.Prime) (hodd : p % 2 = 1)
    (hwp : 2 ^ w ≤ p) (m0 m1 : Mem) (fresh fresh' : El) (h0 : ∀ i, Fresh (init w p) (m0 i))
    (h1 : ∀ i, Fresh (init w p) (m1 i))
    (hf : Fresh (init w p) fresh) (hf' : Fresh (init w p) fresh') (prog : List FpOp)
    (ha : FpAllowed (FpGuard w (commonSafe w)) (fun _ => (0 : ZMod p)) prog) :
    ∃ m, run (init w p) fresh m0 prog = some m ∧ ∀ i, ∃ z : ℕ,
      toMpz (init w p) (m i) = some z ∧
      Faster.toMpz (init w p) (Faster.run (init w p) fresh' m1 prog i) = z ∧
      Fast.toMpz (init w p) (Fast.run (init w p) (fun _ => Fast.set0 (init w p)) prog i) = z ∧
      Naive.run p (fun _ => 0) prog i = z := by
  obtain ⟨m, hm, hm'⟩ := C01_program_prime hw hp hodd m0 fresh h0 hf prog
    (allowed_mono (fun _ _ h => ⟨h.1.1, h.2⟩) prog ha)
  replace ha := allowed_mono (Q := commonSafe w) (fun _ _ h => h.1) prog ha
  exact ⟨m, hm, fun i => ⟨_, hm' i,
    C10_faster hw hp hodd hwp m1 fresh' h1 hf' prog (allowed_mono (fun _ _ h => h.2) prog ha) i,
    C10_fast hw hp hodd hwp prog (allowed_mono fast_of_common prog ha) i,
    C10_naive hp hodd prog (allowed_mono naive_of_common prog ha) i⟩⟩

/-! ## The hypotheses can be met -/

/-- A 2-word modulus (words of 4 bits) and a program using most operations. -/
def exProg : List FpOp :=
  [.setMpz 0 1000, .setSi 1 (-3), .add 2 0 1, .mul 2 2 2, .sub 0 2 1,
   .double 3 0, .neg 1 3, .square 1 1, .mulMpz 1 1 77, .mulSi 2 1 (-5), .pow 2 2 13,
   .fromBytes 0 [0, 100], .set 1 0, .set0 1, .set1 2, .random 4 5, .halve 3 3, .invert 4 2,
   .neg 5 4]

theorem exProg_allowed : FpAllowed (commonSafe 4) (fun _ => (0 : ZMod 131)) exProg := by
  unfold exProg
  simp only [FpAllowed, commonSafe, montSafePrime, fasterSafe, FpOp.step, FpOp.dest, FpOp.value,
    bytesVal]
  decide

theorem top131 : TopWordFree 4 131 := by unfold TopWordFree words; decide

/-- Fresh words for the modulus 131. -/
theorem exFresh : Fresh (init 4 131) ⟨false, List.replicate (init 4 131).t 0⟩ :=
  ⟨rfl, limbs_replicate_zero (init_ok (by norm_num) (by norm_num) (by norm_num)) _⟩

theorem exGuard : FpAllowed (FpGuard 4 montSafePrime) (fun _ => (0 : ZMod 131)) exProg :=
  allowed_mono (fun _ _ h => ⟨h.1, fun _ => top131⟩) _ exProg_allowed

/-- The values of the variables after `exProg`: 100, 0, 1, 115, 1, 130, and 0 elsewhere. -/
abbrev exState : FpState 131 := fpRun (fun _ => (0 : ZMod 131)) exProg

theorem exState_3 : exState 3 = 115 := by decide +kernel

theorem exReach : ∃ m, MontReach 4 131 m exState := by
  obtain ⟨m, hm, -⟩ := C01_program_prime (w := 4) (p := 131) (by norm_num) (by norm_num)
    (by norm_num) (fun _ => _) _ (fun _ => exFresh) exFresh exProg exGuard
  exact ⟨m, _, _, exProg, fun _ => exFresh, exFresh, allowed_of_prime (by norm_num) _ exGuard, hm,
    rfl⟩

/-- C01: the Montgomery backend really computes `100 = 0x64` and `115` in these variables. -/
example : ∃ m, run (init 4 131) ⟨false, List.replicate (init 4 131).t 0⟩
    (fun _ => ⟨false, List.replicate (init 4 131).t 0⟩) exProg = some m ∧
    toMpz (init 4 131) (m 0) = some 100 ∧ toMpz (init 4 131) (m 3) = some 115 := by
  obtain ⟨m, hm, h⟩ := C01_program (w := 4) (p := 131) (by norm_num) (by norm_num)
    (by norm_num) (fun _ => _) _ (fun _ => exFresh) exFresh exProg
    (allowed_of_prime (by norm_num) _ exGuard)
  exact ⟨m, hm, (h 0).trans (by decide +kernel), (h 3).trans (by decide +kernel)⟩

example : ∃ m, MontReach 4 131 m exState ∧ is0 (m 1) = true ∧ is1 (init 4 131) (m 2) = true ∧
    is0 (m 0) = false := by
  obtain ⟨m, h⟩ := exReach
  have := C01_is0_is1 (w := 4) (p := 131) (by norm_num) (by norm_num) (by norm_num) h
  exact ⟨m, h, (this 1).1.2 (by decide +kernel), (this 2).2.2 (by decide +kernel),
    Bool.eq_false_iff.2 fun h0 => absurd ((this 0).1.1 h0) (by decide +kernel)⟩

/-- C02: `0x41 · 0x25` with 4-bit words. -/
example : val (2 ^ 4) (montMul (init 4 131) [1, 4] [5, 2]) * 2 ^ 8 ≡ 65 * 37 [MOD 131] :=
  (C02_mont_mul_partial (w := 4) (p := 131) (by norm_num) (by norm_num) (by norm_num) top131
    [1, 4] [5, 2] ⟨by decide, by decide +kernel⟩ ⟨by decide, by decide +kernel⟩ (by decide +kernel)).2

/-- C03: half of 115, stored over 100. -/
example : ∃ m, MontReach 4 131 m exState ∧ ∃ y : ZMod 131,
    toMpz (init 4 131) (halve (init 4 131) (m 0) (m 3)) = some y.val ∧ 2 * y = 115 := by
  obtain ⟨m, h⟩ := exReach
  obtain ⟨y, hy, h2⟩ := C03_halve_partial (w := 4) (p := 131) (by norm_num) (by norm_num)
    (by norm_num) h 0 3 (Or.inl (by decide +kernel))
  exact ⟨m, h, y, hy, h2.trans (by decide +kernel)⟩

/-- C04: variables 2 and 4 are equal (both 1), 0 and 3 are not. -/
example : ∃ m, MontReach 4 131 m exState ∧ cmp (m 2) (m 4) = Ordering.eq ∧
    cmp (m 0) (m 3) ≠ Ordering.eq := by
  obtain ⟨m, h⟩ := exReach
  have := C04_cmp_partial (w := 4) (p := 131) (by norm_num) (by norm_num) (by norm_num) h
  exact ⟨m, h, (this 2 4 (Or.inr (by decide +kernel))).2 (by decide +kernel),
    fun he => absurd ((this 0 3 (Or.inr (by decide +kernel))).1 he) (by decide +kernel)⟩

/-- C05: the encoding of 115 read over 100, and the encodings of 100 and 115 differ. -/
example : ∃ m, MontReach 4 131 m exState ∧
    (∃ data, toBytes (init 4 131) (m 3) = some data ∧
      toMpz (init 4 131) (fromBytes (init 4 131) (m 0) data) = some 115) ∧
    toBytes (init 4 131) (m 0) ≠ toBytes (init 4 131) (m 3) := by
  obtain ⟨m, h⟩ := exReach
  obtain ⟨data, h1, -, -, h2⟩ := C05_bytes_round_trip (w := 4) (p := 131) (by norm_num)
    (by norm_num) (by norm_num) h 0 3
  exact ⟨m, h, ⟨data, h1, h2.trans (by decide +kernel)⟩, fun he => absurd (C05_bytes_injective (w := 4)
    (p := 131) (by norm_num) (by norm_num) (by norm_num) h 0 3 he) (by decide +kernel)⟩

/-- C06: the two bytes `01 02` (258) read into a variable. -/
example : ∃ m, MontReach 4 131 m exState ∧
    toMpz (init 4 131) (fromBytes (init 4 131) (m 0) [1, 2]) = some 127 := by
  obtain ⟨m, h⟩ := exReach
  exact ⟨m, h, (C06_from_bytes_partial (w := 4) (p := 131) (by norm_num) (by norm_num)
    (by norm_num) h 0 [1, 2] (Or.inr (by decide +kernel))).1⟩

/-- C07: the inverse of 115. -/
example : ∃ m, MontReach 4 131 m exState ∧ ∃ y : ZMod 131,
    toMpz (init 4 131) (invert (init 4 131) (m 0) (m 3)) = some y.val ∧ 115 * y = 1 := by
  obtain ⟨m, h⟩ := exReach
  obtain ⟨y, hy, h2⟩ := C07_invert_partial (w := 4) (p := 131) (by norm_num) (by norm_num)
    (by norm_num) top131 h 0 3 (isUnit_iff_exists_inv.2 ⟨(115 : ZMod 131)⁻¹, by decide +kernel⟩)
  exact ⟨m, h, y, hy, exState_3 ▸ h2⟩

/-- C08: `115 ^ 5`. -/
example : ∃ m, MontReach 4 131 m exState ∧ ∃ e,
    powMpz (init 4 131) (m 0) (m 3) 5 = some e ∧ toMpz (init 4 131) e = some (115 ^ 5 % 131) := by
  obtain ⟨m, h⟩ := exReach
  obtain ⟨e, he, h2⟩ := C08_pow_partial (w := 4) (p := 131) (by norm_num) (by norm_num)
    (by norm_num) h 0 3 5 (Or.inr (by decide +kernel))
  exact ⟨m, h, e, he, h2.trans (by decide +kernel)⟩

/-- C09, C21: the sign of 115 is not 0; 100 is a square. -/
example : ∃ m, MontReach 4 131 m exState ∧ (∃ σ : ℤ, sgn (init 4 131) (m 3) = some σ ∧ σ ≠ 0) ∧
    isSqr (init 4 131) (m 0) = some true := by
  obtain ⟨m, h⟩ := exReach
  obtain ⟨σ, h1, -, h2, -⟩ := C09_sign (w := 4) (p := 131) (by norm_num) (by norm_num)
    (by norm_num) h 0 3
  obtain ⟨b, h3, h4⟩ := C21_is_sqr (w := 4) (p := 131) (by norm_num) (by norm_num)
    (by norm_num) h 0
  refine ⟨m, h, ⟨σ, h1, fun h0 => absurd (h2.1 h0) (by decide +kernel)⟩, ?_⟩
  rw [h3, h4.2 ⟨10, by decide +kernel⟩]

/-- C10: variable 3 is 115 for each of the other three backends, and all four agree. -/
example : Faster.toMpz (init 4 131) (Faster.run (init 4 131)
      ⟨false, List.replicate (init 4 131).t 0⟩
      (fun _ => ⟨false, List.replicate (init 4 131).t 0⟩) exProg 3) = 115 ∧
    Fast.toMpz (init 4 131) (Fast.run (init 4 131) (fun _ => Fast.set0 (init 4 131)) exProg 3)
      = 115 ∧
    Naive.run 131 (fun _ => 0) exProg 3 = 115 := by
  refine ⟨?_, ?_, ?_⟩
  · exact (C10_faster (w := 4) (p := 131) (by norm_num) (by norm_num) (by norm_num) (by norm_num)
      (fun _ => _) _ (fun _ => exFresh) exFresh exProg
      (allowed_mono (fun _ _ h => h.2) _ exProg_allowed) 3).trans (by decide +kernel)
  · exact (C10_fast (w := 4) (p := 131) (by norm_num) (by norm_num) (by norm_num) (by norm_num)
      exProg (allowed_mono fast_of_common _ exProg_allowed) 3).trans (by decide +kernel)
  · exact (C10_naive (p := 131) (by norm_num) (by norm_num) exProg
      (allowed_mono naive_of_common _ exProg_allowed) 3).trans (by decide +kernel)

example : ∃ m, run (init 4 131) ⟨false, List.replicate (init 4 131).t 0⟩
    (fun _ => ⟨false, List.replicate (init 4 131).t 0⟩) exProg = some m ∧
    toMpz (init 4 131) (m 3) = some (Naive.run 131 (fun _ => 0) exProg 3) := by
  obtain ⟨m, hm, h⟩ := C10_backends_agree (w := 4) (p := 131) (by norm_num) (by norm_num)
    (by norm_num) (by norm_num) (fun _ => _) (fun _ => _) _ _ (fun _ => exFresh)
    (fun _ => exFresh) exFresh exFresh exProg
    (allowed_mono (fun _ _ h => ⟨h, fun _ => top131⟩) _ exProg_allowed)
  obtain ⟨z, h1, -, -, h2⟩ := h 3
  exact ⟨m, hm, by rw [h1, h2]⟩

/-- A composite modulus (the group order of a type A1 pairing is composite). -/
example : FpAllowed montSafe (fun _ => (0 : ZMod 143))
    [.setMpz 0 10, .setSi 1 (-3), .mul 2 0 1, .invert 3 0, .pow 1 2 5] := by
  simp only [FpAllowed, montSafe, FpOp.step, FpOp.dest, FpOp.value]
  refine ⟨trivial, trivial, by decide, ?_, by decide, trivial⟩
  exact (isUnit_iff_exists_inv).2 ⟨43, by decide +kernel⟩

/-- A modulus whose top word (of 4 bits) is all ones: everything but products is allowed. -/
example : ¬ TopWordFree 4 251 ∧ FpAllowed (FpGuard 4 montSafe) (fun _ => (0 : ZMod 251))
    [.setMpz 0 1000, .setSi 1 (-3), .add 2 0 1, .sub 0 2 1, .double 3 0, .neg 1 3, .halve 2 3,
      .pow 2 2 13, .fromBytes 0 [0, 100]] := by
  refine ⟨by unfold TopWordFree words; decide, ?_⟩
  simp only [FpAllowed, FpGuard, montSafe, FpOp.step, FpOp.dest, FpOp.value, FpOp.multiplies,
    bytesVal, false_imp_iff, and_true, true_and]
  decide +kernel

end Props
