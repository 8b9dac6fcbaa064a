import Verif.Props.Fp
import Mathlib.NumberTheory.LucasPrimality
import Mathlib.Tactic.NormNum.DivMod

/-!
# Where the prime-field code departs from `Z/p`

Each theorem shows that a precondition of `Verif/Props/Fp.lean` cannot be dropped.
-/

set_option autoImplicit false

namespace Props

open Spec Pbc Pbc.Mont

/-! ## C02: the lost carry of `mont_mul` -/

/-- A 128-bit prime whose most significant 64-bit word is all ones. -/
def badP : ℕ := 340282366920938463462147376533309751297

theorem badP_sub : badP - 1 = 2 ^ 51 * 3 ^ 3 * 19 * 59 * 337 * 577 * 877 * 1093 * 1193 * 22453 := by
  unfold badP; norm_num

/-- Powers in `Z/n` from powers modulo `n`. -/
theorem zmod_pow_ne {n a k : ℕ} (h : a ^ k % n ≠ 1 % n) : (a : ZMod n) ^ k ≠ 1 := by
  intro h'
  apply h
  have : ((a ^ k : ℕ) : ZMod n) = ((1 : ℕ) : ZMod n) := by push_cast; exact h'
  exact (ZMod.natCast_eq_natCast_iff _ _ _).1 this

theorem zmod_pow_eq {n a k : ℕ} (h : a ^ k % n = 1 % n) : (a : ZMod n) ^ k = 1 := by
  have : ((a ^ k : ℕ) : ZMod n) = ((1 : ℕ) : ZMod n) := (ZMod.natCast_eq_natCast_iff _ _ _).2 h
  push_cast at this; exact this

/-- Fast modular power, for checking certificates. -/
def powModAux (m : ℕ) : ℕ → ℕ → ℕ → ℕ → ℕ
  | 0, _, _, acc => acc
  | f + 1, b, e, acc => powModAux m f (b * b % m) (e / 2) (if e % 2 = 1 then acc * b % m else acc)

theorem powModAux_eq (m f b e acc : ℕ) (h : e < 2 ^ f) :
    powModAux m f b e acc ≡ acc * b ^ e [MOD m] := by
  induction f generalizing b e acc with
  | zero =>
    have : e = 0 := by simpa using h
    subst this
    simp [powModAux, Nat.ModEq.refl]
  | succ f ih =>
    rw [powModAux]
    refine (ih _ _ _ (by rw [pow_succ] at h; omega)).trans ?_
    have h1 : (b * b % m) ^ (e / 2) ≡ b ^ (2 * (e / 2)) [MOD m] := by
      rw [pow_mul, pow_two]
      exact (Nat.mod_modEq _ _).pow _
    split
    · rename_i hodd
      refine ((Nat.mod_modEq _ _).mul h1).trans ?_
      rw [mul_assoc, ← pow_succ']
      rw [show 2 * (e / 2) + 1 = e by omega]
    · rename_i hev
      refine (Nat.ModEq.mul_left _ h1).trans ?_
      rw [show 2 * (e / 2) = e by omega]

theorem powMod_eq (m f b e : ℕ) (h : e < 2 ^ f) : b ^ e % m = powModAux m f b e 1 % m := by
  have := powModAux_eq m f b e 1 h
  rw [one_mul] at this
  exact this.symm

/-- `badP` is prime (Lucas test with base 5). -/
theorem badP_prime : badP.Prime := by
  refine lucas_primality badP (5 : ℕ) (zmod_pow_eq ?_) ?_
  · rw [powMod_eq _ 130 _ _ (by decide)]; decide +kernel
  · intro q hq hd
    refine zmod_pow_ne ?_
    rw [badP_sub] at hd
    simp only [hq.dvd_mul] at hd
    have key : ∀ {r k : ℕ}, r.Prime → q ∣ r ^ k → q = r := fun hr h =>
      (Nat.prime_dvd_prime_iff_eq hq hr).1 (hq.dvd_of_dvd_pow h)
    have key1 : ∀ {r : ℕ}, r.Prime → q ∣ r → q = r := fun hr h =>
      (Nat.prime_dvd_prime_iff_eq hq hr).1 h
    rcases hd with (((((((((h | h) | h) | h) | h) | h) | h) | h) | h) | h)
    · rw [key (by norm_num) h, powMod_eq _ 130 _ _ (by decide)]; decide +kernel
    · rw [key (by norm_num) h, powMod_eq _ 130 _ _ (by decide)]; decide +kernel
    · rw [key1 (by norm_num) h, powMod_eq _ 130 _ _ (by decide)]; decide +kernel
    · rw [key1 (by norm_num) h, powMod_eq _ 130 _ _ (by decide)]; decide +kernel
    · rw [key1 (by norm_num) h, powMod_eq _ 130 _ _ (by decide)]; decide +kernel
    · rw [key1 (by norm_num) h, powMod_eq _ 130 _ _ (by decide)]; decide +kernel
    · rw [key1 (by norm_num) h, powMod_eq _ 130 _ _ (by decide)]; decide +kernel
    · rw [key1 (by norm_num) h, powMod_eq _ 130 _ _ (by decide)]; decide +kernel
    · rw [key1 (by norm_num) h, powMod_eq _ 130 _ _ (by decide)]; decide +kernel
    · rw [key1 (by norm_num) h, powMod_eq _ 130 _ _ (by decide)]; decide +kernel

theorem mpzInvert_unique {a m b : ℕ} (hm : 1 < m) (hb : b < m) (h : a * b % m = 1) :
    mpzInvert a m = b := by
  have hcop : Nat.Coprime a m := Nat.Coprime.symm <| by
    rw [Nat.coprime_iff_gcd_eq_one]
    have h1 : Nat.gcd m a ∣ a * b % m := by
      rw [Nat.dvd_mod_iff (Nat.gcd_dvd_left m a)]
      exact Dvd.dvd.mul_right (Nat.gcd_dvd_right m a) b
    rw [h] at h1
    exact Nat.dvd_one.1 h1
  obtain ⟨h1, h2⟩ := mpzInvert_spec (by omega) hcop
  have h3 : a * mpzInvert a m ≡ a * b [MOD m] := by
    rw [Nat.ModEq, h2, h, Nat.mod_eq_of_lt hm]
  have h4 := Nat.ModEq.cancel_left_of_coprime (by rw [Nat.gcd_comm]; exact hcop) h3
  exact Nat.ModEq.eq_of_lt_of_lt h4 h1 hb

/-- What `field_init_mont_fp` computes for `badP` on a 64-bit machine. -/
def badF : Field :=
  { w := 64
    p := badP
    t := 2
    P := [17219513175251091457, 18446744073709551615]
    negpinv := 17219513175251091455
    R := toLimbs (2 ^ 64) 2 1227230898458460159
    R3 := toLimbs (2 ^ 64) 2 335770745892227884581279816042179198976 }

theorem init_badP : init 64 badP = badF := by
  have hs : (Nat.size badP + 64 - 1) / 64 = 2 := by decide +kernel
  have hi : mpzInvert badP ((2 ^ 64) ^ 2) = 1506095678131159353145463976765685761 :=
    mpzInvert_unique (by norm_num) (by norm_num) (by unfold badP; norm_num)
  unfold init badF
  simp only [hs, hi]
  congr 1

/-- **C02 is false as stated**: on a 64-bit machine, with the 128-bit *prime* modulus `badP`,
multiplying two elements that were set from reduced integers gives a wrong residue: a carry out
of the `(t+1)`-word accumulator is lost in `mont_mul` (`/repo/arith/montfp.c:344-349`). -/
theorem C02_lost_carry :
    ∃ p : ℕ, p.Prime ∧ p % 2 = 1 ∧ ∃ x y : ℕ, x < p ∧ y < p ∧ ∀ m0 fresh, ∃ m z,
      run (init 64 p) fresh m0 [.setMpz 0 x, .setMpz 1 y, .mul 2 0 1] = some m ∧
      toMpz (init 64 p) (m 2) = some z ∧ z ≠ x * y % p := by
  refine ⟨badP, badP_prime, by decide, 325544241804638304739623732106898399222,
    1506095678131159353140032231450869761, by decide, by decide, fun m0 fresh => ?_⟩
  rw [init_badP]
  have hx : ∀ c, setMpz badF c (325544241804638304739623732106898399222 : ℕ)
      = ⟨true, toLimbs (2 ^ 64) 2 340282366920938463455931085568213716768⟩ := by
    intro c
    unfold setMpz
    rw [if_neg (by norm_num)]
    have : ((((325544241804638304739623732106898399222 : ℕ) : ℤ) * 2 ^ (badF.w * badF.t))
      % (badF.p : ℤ)).toNat = 340282366920938463455931085568213716768 := by decide +kernel
    simp only [this]
    rw [if_neg (by norm_num)]
    rfl
  have hy : ∀ c, setMpz badF c (1506095678131159353140032231450869761 : ℕ)
      = ⟨true, toLimbs (2 ^ 64) 2 340282366920938463462147376533309751296⟩ := by
    intro c
    unfold setMpz
    rw [if_neg (by norm_num)]
    have : ((((1506095678131159353140032231450869761 : ℕ) : ℤ) * 2 ^ (badF.w * badF.t))
      % (badF.p : ℤ)).toNat = 340282366920938463462147376533309751296 := by decide +kernel
    simp only [this]
    rw [if_neg (by norm_num)]
    rfl
  refine ⟨_, 141235384037549891748427898844374546457, rfl, ?_, ?_⟩
  · simp only [FpOp.dest, Function.update_self, Function.update_apply, hx, hy]
    have hm : ∀ c, mul badF c ⟨true, toLimbs (2 ^ 64) 2 340282366920938463455931085568213716768⟩
        ⟨true, toLimbs (2 ^ 64) 2 340282366920938463462147376533309751296⟩
        = ⟨true, toLimbs (2 ^ 64) 2 14738125116300158721296413527952891916⟩ := by
      intro c
      unfold mul
      rw [if_neg (by simp)]
      congr 1
    simp only [reduceIte, zero_ne_one]
    rw [hm]
    decide +kernel
  · decide +kernel

/-! ## C03: halving into a zero element -/

/-- **C03 is false as stated**, for every odd modulus: one of `1/2`, `(-1)/2`, computed into a
freshly initialised (zero) variable, leaves the variable zero. -/
theorem C03_halve_depends_on_destination {w p : ℕ} (hw : 1 ≤ w) (hp : 1 < p) (hodd : p % 2 = 1)
    (m0 : Mem) (fresh : El) (h0 : ∀ i, Fresh (init w p) (m0 i)) :
    (∃ m, run (init w p) fresh m0 [.set1 0, .halve 1 0] = some m ∧ is0 (m 1) = true) ∨
    (∃ m, run (init w p) fresh m0 [.set1 0, .neg 0 0, .halve 1 0] = some m ∧
      is0 (m 1) = true) := by
  have ok := init_ok hw hp hodd
  obtain ⟨t', ht'⟩ : ∃ t', (init w p).t = t' + 1 := ⟨(init w p).t - 1, by have := ok.t1; omega⟩
  have hpar : ∀ {d : List ℕ}, Limbs (init w p).β (init w p).t d →
      d.headD 0 % 2 = val (init w p).β d % 2 := by
    intro d hd
    rw [ht'] at hd
    exact Nat.ModEq.of_dvd ok.βeven (headD_val_mod hd)
  have hhalve : ∀ {e : El}, e.flag = true → e.d.headD 0 % 2 = 1 →
      is0 (halve (init w p) (m0 1) e) = true := by
    intro e he hd
    unfold halve
    rw [if_neg (by simp [he]), if_pos hd]
    simp only [is0, (h0 1).1, Bool.not_false]
  have h1 := set1_rep ok (m0 0)
  have hn := neg_rep ok (R_unit ok) h1 h1
  obtain ⟨a1, a2, a3⟩ := h1.pos rfl
  by_cases hv : val (init w p).β (set1 (init w p) (m0 0)).d % 2 = 1
  · left
    refine ⟨_, rfl, ?_⟩
    exact hhalve (e := set1 (init w p) (m0 0)) rfl (by rw [hpar h1.limbs]; exact hv)
  · right
    refine ⟨_, rfl, ?_⟩
    refine hhalve (e := neg (init w p) (set1 (init w p) (m0 0)) (set1 (init w p) (m0 0))) rfl ?_
    have hl := hn.limbs
    have hvn := mpnSubN_val ok.Pl h1.limbs (c := 0) (by omega)
    have hvlt := val_lt hl
    have hpp : val (init w p).β (init w p).P = p := ok.Pv
    rw [hpp] at hvn
    have hbo := mpnSubN_borrow ok.Pl h1.limbs (c := 0) (by omega)
    have e : (neg (init w p) (set1 (init w p) (m0 0)) (set1 (init w p) (m0 0))).d
        = (mpnSubN (init w p).β (init w p).P (set1 (init w p) (m0 0)).d 0).1 := rfl
    have hl' := hpar hl
    rw [e] at hvlt hl'
    change (mpnSubN (init w p).β (init w p).P (set1 (init w p) (m0 0)).d 0).1.headD 0 % 2 = 1
    rw [hl']
    have hpp2 : (init w p).p = p := rfl
    rw [hpp2] at a2
    have hb0 : (mpnSubN (init w p).β (init w p).P (set1 (init w p) (m0 0)).d 0).2 = 0 := by
      rcases (show (mpnSubN (init w p).β (init w p).P (set1 (init w p) (m0 0)).d 0).2 = 0 ∨
        (mpnSubN (init w p).β (init w p).P (set1 (init w p) (m0 0)).d 0).2 = 1 by omega) with h | h
      · exact h
      · rw [h, mul_one] at hvn; omega
    rw [hb0, mul_zero] at hvn
    omega

/-- ... although neither `1/2` nor `-1/2` is zero. -/
theorem C03_half_ne_zero {p : ℕ} (hp : 1 < p) (y : ZMod p)
    (h : 2 * y = 1 ∨ 2 * y = -1) : y ≠ 0 := by
  have : Fact (1 < p) := ⟨hp⟩
  rintro rfl
  rw [mul_zero] at h
  rcases h with h | h
  · exact zero_ne_one h
  · exact neg_ne_zero.2 one_ne_zero h.symm

/-! ## C04: comparing with a variable that was set to zero -/

/-- **C04 is false as stated**, for every modulus: after `a := 1; b := a; b := 0` the comparison
`element_cmp(a, b)` reports equality. -/
theorem C04_cmp_stale {w p : ℕ} (m0 : Mem) (fresh : El) :
    ∃ m, run (init w p) fresh m0 [.set1 0, .set 1 0, .set0 1] = some m ∧
      is0 (m 0) = false ∧ is0 (m 1) = true ∧ cmp (m 0) (m 1) = Ordering.eq := by
  refine ⟨_, rfl, rfl, rfl, ?_⟩
  show mpnCmp (init w p).R (init w p).R = Ordering.eq
  have : ∀ l : List ℕ, mpnCmp l l = Ordering.eq := by
    intro l
    induction l with
    | nil => rfl
    | cons x xs ih => simp [mpnCmp, ih]
  exact this _

/-! ## C06: parsing the encoding of a multiple of the modulus -/

theorem toMpz_zero_limbs {F : Field} (ok : FieldOk F) {d : List ℕ} (hd : Limbs F.β F.t d)
    (h0 : val F.β d = 0) : toMpz F ⟨true, d⟩ = none := by
  have hl : Limbs F.β (F.t + F.t) (d ++ List.replicate F.t 0) :=
    limbs_append hd (limbs_replicate_zero ok _)
  have hv : val F.β (d ++ List.replicate F.t 0) = 0 := by
    rw [val_append, h0, val_replicate_zero]; simp
  obtain ⟨h1, h2, h3⟩ := montReduce_spec ok hl (by
    rw [hv]; have := ok.p1
    exact Nat.mul_pos (by omega) (pow_pos (β_pos ok) _))
  rw [hv] at h3
  have h4 : F.p ∣ val F.β (montReduce F (d ++ List.replicate F.t 0)) :=
    Nat.Coprime.dvd_of_dvd_mul_right ok.coprime ((Nat.modEq_zero_iff_dvd).1 h3)
  have h5 := Nat.eq_zero_of_dvd_of_lt h4 h2
  unfold toMpz
  rw [if_neg (by simp)]
  simp only
  have h6 : (montReduce F (d ++ List.replicate F.t 0)).all (· == 0) = true :=
    (Fast.is0_iff ok h1).2 h5
  rw [if_pos h6]

/-- **C06 is false as stated**, for every odd modulus: there is a buffer of the right length (the
big-endian encoding of `p`) whose parsed element `element_is0` does not recognise as zero, and on
which `element_to_mpz` reads out of bounds. -/
theorem C06_from_bytes_multiple {w p : ℕ} (hw : 1 ≤ w) (hp : 1 < p) (hodd : p % 2 = 1) (c : El) :
    ∃ data : List ℕ, data.length = fpLength p ∧ (∀ b ∈ data, b < 256) ∧ p ∣ bytesVal data ∧
      is0 (fromBytes (init w p) c data) = false ∧
      toMpz (init w p) (fromBytes (init w p) c data) = none := by
  have ok := init_ok hw hp hodd
  obtain ⟨l, -, h2, h3, h4⟩ := outRawN_spec (n := fpLength p) (z := p) (lt_pow_count p)
  have hb : bytesVal l = p := h4
  have e : fromBytes (init w p) c l = ⟨true, toLimbs (init w p).β (init w p).t 0⟩ := by
    unfold fromBytes
    rw [h4]
    simp only
    rw [if_neg (by omega)]
    have : p * 2 ^ ((init w p).w * (init w p).t) % (init w p).p = 0 := Nat.mul_mod_right _ _
    rw [this]
  refine ⟨l, h2, h3, by rw [hb], by rw [e]; rfl, ?_⟩
  rw [e]
  exact toMpz_zero_limbs ok (toLimbs_limbs (β_pos ok) _ _) (by rw [val_toLimbs]; simp)

/-! ## C08: zero to the power zero -/

/-- **C08 is false as stated**: the Montgomery and `fasterfp.c` backends compute `0^0 = 0`, while
`fastfp.c` and `naivefp.c` compute 1. -/
theorem C08_zero_pow_zero {w p : ℕ} (hw : 1 ≤ w) (hp : 1 < p) (hodd : p % 2 = 1) (c a : El)
    (ha : is0 a = true) :
    powMpz (init w p) c a 0 = some { c with flag := false } ∧
    is0 (Faster.powMpz (init w p) c a 0) = true ∧
    Fast.toMpz (init w p) (Fast.powMpz (init w p) (Fast.set0 (init w p)) 0) = 1 ∧ Naive.powMpz p 0 0 = 1 := by
  have ok := init_ok hw hp hodd
  have hf : a.flag = false := by simpa [is0] using ha
  refine ⟨by unfold powMpz; rw [if_pos hf], by unfold Faster.powMpz; rw [if_pos hf]; rfl, ?_, ?_⟩
  · unfold Fast.powMpz Fast.toMpz
    have h1 : (init w p).p = p := rfl
    rw [pow_zero, h1, Nat.mod_eq_of_lt hp, val_toLimbs_of_lt]
    exact hp.trans ok.plt
  · unfold Naive.powMpz
    rw [pow_zero, Nat.mod_eq_of_lt hp]

/-! ## Composite moduli -/

/-- For every odd composite modulus (type A1 pairings use one for their exponents), multiplying
two zero divisors gives an element that `element_is0` does not recognise as zero and on which
`element_to_mpz` reads out of bounds. -/
theorem C01_composite_zero_product {w u v : ℕ} (hw : 1 ≤ w) (hu : 1 < u) (hv : 1 < v)
    (hodd : (u * v) % 2 = 1) (htop : TopWordFree w (u * v)) (m0 : Mem) (fresh : El)
    (h0 : ∀ i, Fresh (init w (u * v)) (m0 i)) :
    ∃ m, run (init w (u * v)) fresh m0 [.setMpz 0 u, .setMpz 1 v, .mul 2 0 1] = some m ∧
      is0 (m 2) = false ∧ toMpz (init w (u * v)) (m 2) = none := by
  have hp : 1 < u * v := Nat.one_lt_mul_iff.2 ⟨by omega, by omega, Or.inl hu⟩
  have ok := init_ok hw hp hodd
  have hx := setMpz_rep ok (fresh_rep ok (R_unit ok) (h0 0)) (u : ℤ)
  have hy := setMpz_rep ok (fresh_rep ok (R_unit ok) (h0 1)) (v : ℤ)
  rw [Int.cast_natCast] at hx hy
  have hune : ((u : ℕ) : ZMod (u * v)) ≠ 0 := by
    rw [Ne, ZMod.natCast_eq_zero_iff]
    intro h
    have h1 := Nat.le_of_dvd (by omega) h
    have h2 : u * 1 < u * v := Nat.mul_lt_mul_of_pos_left hv (by omega)
    omega
  have hvne : ((v : ℕ) : ZMod (u * v)) ≠ 0 := by
    rw [Ne, ZMod.natCast_eq_zero_iff]
    intro h
    have h1 := Nat.le_of_dvd (by omega) h
    have h2 : 1 * v < u * v := Nat.mul_lt_mul_of_pos_right hu (by omega)
    omega
  have hxf : (setMpz (init w (u * v)) (m0 0) u).flag = true := by
    by_contra h
    exact hune (hx.zero (by simpa using h))
  have hyf : (setMpz (init w (u * v)) (m0 1) v).flag = true := by
    by_contra h
    exact hvne (hy.zero (by simpa using h))
  obtain ⟨a1, a2, a3⟩ := hx.pos hxf
  obtain ⟨b1, b2, b3⟩ := hy.pos hyf
  obtain ⟨m1, m2, m3⟩ := montMul_spec ok (topOk_of htop) hx.limbs hy.limbs b2
  have m4 := (ZMod.natCast_eq_natCast_iff _ _ _).2 m3
  push_cast at m4
  rw [a3, b3] at m4
  have huv : ((u : ℕ) : ZMod (u * v)) * (v : ℕ) = 0 := by
    rw [← Nat.cast_mul, ZMod.natCast_self]
  have m5 : ((val (init w (u * v)).β (montMul (init w (u * v))
      (setMpz (init w (u * v)) (m0 0) u).d (setMpz (init w (u * v)) (m0 1) v).d) : ℕ) :
      ZMod (init w (u * v)).p) = 0 := by
    refine (R_unit ok).mul_right_cancel ?_
    push_cast at m4 ⊢
    rw [m4, zero_mul]
    have : ∀ r : ZMod (u * v), (u : ZMod (u * v)) * r * ((v : ZMod (u * v)) * r) = 0 := by
      intro r
      calc _ = ((u : ZMod (u * v)) * v) * (r * r) := by ring
        _ = 0 := by rw [huv, zero_mul]
    exact this _
  have m6 := Nat.eq_zero_of_dvd_of_lt ((ZMod.natCast_eq_zero_iff _ _).1 m5) m2
  have e : ∀ c, mul (init w (u * v)) c (setMpz (init w (u * v)) (m0 0) u)
      (setMpz (init w (u * v)) (m0 1) v)
      = ⟨true, montMul (init w (u * v)) (setMpz (init w (u * v)) (m0 0) u).d
          (setMpz (init w (u * v)) (m0 1) v).d⟩ := by
    intro c
    unfold mul
    rw [if_neg (by simp [hxf, hyf])]
  refine ⟨_, rfl, ?_, ?_⟩
  · simp only [FpOp.dest, Function.update_self, Function.update_apply]
    simp only [reduceIte, zero_ne_one, one_ne_zero]
    rw [e]; rfl
  · simp only [FpOp.dest, Function.update_self, Function.update_apply]
    simp only [reduceIte, zero_ne_one, one_ne_zero]
    rw [e]
    exact toMpz_zero_limbs ok m1 m6

/-! ## The hypotheses can be met -/

/-- C03: 131, words of 4 bits. -/
example : (∃ m, run (init 4 131) ⟨false, []⟩ (fun _ => ⟨false, List.replicate (init 4 131).t 0⟩)
      [.set1 0, .halve 1 0] = some m ∧ is0 (m 1) = true) ∨
    (∃ m, run (init 4 131) ⟨false, []⟩ (fun _ => ⟨false, List.replicate (init 4 131).t 0⟩)
      [.set1 0, .neg 0 0, .halve 1 0] = some m ∧ is0 (m 1) = true) :=
  C03_halve_depends_on_destination (w := 4) (p := 131) (by norm_num) (by norm_num) (by norm_num)
    _ _ (fun _ => exFresh)

/-- 66 is half of 1 modulo 131. -/
example : (66 : ZMod 131) ≠ 0 := C03_half_ne_zero (p := 131) (by norm_num) 66 (by decide +kernel)

/-- C06: a buffer for 131. -/
example : ∃ data : List ℕ, data.length = fpLength 131 ∧ 131 ∣ bytesVal data ∧
    is0 (fromBytes (init 4 131) ⟨true, [3, 4]⟩ data) = false := by
  obtain ⟨data, h1, -, h2, h3, -⟩ := C06_from_bytes_multiple (w := 4) (p := 131) (by norm_num)
    (by norm_num) (by norm_num) ⟨true, [3, 4]⟩
  exact ⟨data, h1, h2, h3⟩

/-- C08, for 131. -/
example := C08_zero_pow_zero (w := 4) (p := 131) (by norm_num) (by norm_num) (by norm_num)
  ⟨true, [3, 4]⟩ ⟨false, [3, 4]⟩ rfl

/-- C01: `11 * 13`. -/
example : ∃ m, run (init 4 (11 * 13)) ⟨false, []⟩
    (fun _ => ⟨false, List.replicate (init 4 (11 * 13)).t 0⟩)
    [.setMpz 0 (11 : ℕ), .setMpz 1 (13 : ℕ), .mul 2 0 1] = some m ∧ is0 (m 2) = false ∧
    toMpz (init 4 (11 * 13)) (m 2) = none :=
  C01_composite_zero_product (w := 4) (u := 11) (v := 13) (by norm_num) (by norm_num)
    (by norm_num) (by norm_num) (by unfold TopWordFree words; decide) _ _
    (fun _ => ⟨rfl, limbs_replicate_zero (init_ok (by norm_num) (by norm_num) (by norm_num)) _⟩)

end Props
