import Verif.Model.Dlog
import Mathlib.GroupTheory.OrderOfElement
import Mathlib.FieldTheory.Finite.Basic
import Mathlib.Data.ZMod.Units
import Mathlib.Data.Nat.Bitwise
import Mathlib.Tactic.NormNum.Prime
import Mathlib.Tactic.LinearCombination

/-!
# C61: discrete logarithms
-/

set_option autoImplicit false

namespace Props

open Pbc.Dlog

/-! ## Brute force -/

section
variable {G : Type} [Group G] [DecidableEq G]

theorem bruteLoop_spec (g h : G) (x : ℕ) (f k : ℕ) :
    bruteLoop g h f (g ^ k) k = some x ↔
      (k ≤ x ∧ x < k + f ∧ g ^ x = h ∧ ∀ y, k ≤ y → y < x → g ^ y ≠ h) := by
  induction f generalizing k with
  | zero => simp [bruteLoop]; omega
  | succ f ih =>
    rw [bruteLoop]
    by_cases hk : g ^ k = h
    · rw [if_pos hk]
      constructor
      · intro e
        obtain rfl : k = x := by simpa using e
        exact ⟨le_rfl, by omega, hk, fun y h1 h2 => by omega⟩
      · rintro ⟨h1, _, _, h4⟩
        rcases Nat.eq_or_lt_of_le h1 with rfl | h1
        · rfl
        · exact absurd hk (h4 k le_rfl h1)
    · rw [if_neg hk, ← pow_succ, ih]
      constructor
      · rintro ⟨h1, h2, h3, h4⟩
        refine ⟨by omega, by omega, h3, fun y h5 h6 => ?_⟩
        rcases Nat.eq_or_lt_of_le h5 with rfl | h5
        · exact hk
        · exact h4 y h5 h6
      · rintro ⟨h1, h2, h3, h4⟩
        have : k ≠ x := by rintro rfl; exact hk h3
        exact ⟨by omega, by omega, h3, fun y h5 h6 => h4 y (by omega) h6⟩

/-- **C61.**  The brute force search returns `x` exactly if `x` is the least positive exponent with
`g^x = h`. -/
theorem C61_brute (g h : G) (x : ℕ) :
    (∃ fuel, brute fuel g h = some x) ↔ IsLeast {y : ℕ | 1 ≤ y ∧ g ^ y = h} x := by
  have := fun f => bruteLoop_spec g h x f 1
  simp only [pow_one] at this
  simp only [brute, this]
  constructor
  · rintro ⟨f, h1, _, h3, h4⟩
    exact ⟨⟨h1, h3⟩, fun y hy => by
      by_contra hlt
      exact h4 y hy.1 (by omega) hy.2⟩
  · rintro ⟨⟨h1, h2⟩, h3⟩
    exact ⟨x, h1, by omega, h2, fun y h4 h5 h6 => by have := h3 ⟨h4, h6⟩; omega⟩

/-- **C61.**  In a group where `g` has finite order, the brute force search ends exactly if there is a
logarithm; otherwise it never ends. -/
theorem C61_brute_ends (g h : G) (hg : IsOfFinOrder g) :
    (∃ fuel, (brute fuel g h).isSome) ↔ h ∈ Subgroup.zpowers g := by
  constructor
  · rintro ⟨f, hf⟩
    obtain ⟨x, hx⟩ := Option.isSome_iff_exists.1 hf
    have h2 := ((C61_brute g h x).1 ⟨f, hx⟩).1.2
    exact ⟨x, by simpa using h2⟩
  · intro hh
    have hh' : h ∈ Submonoid.powers g := by
      rwa [hg.mem_powers_iff_mem_zpowers]
    obtain ⟨y, hy⟩ := hh'
    have hy' : g ^ y = h := hy
    have hne : {y : ℕ | 1 ≤ y ∧ g ^ y = h}.Nonempty :=
      ⟨y + orderOf g, by have := hg.orderOf_pos; omega, by rw [pow_add, pow_orderOf_eq_one, mul_one, hy']⟩
    classical
    have hl : IsLeast {y : ℕ | 1 ≤ y ∧ g ^ y = h} (Nat.find hne) :=
      ⟨Nat.find_spec hne, fun z hz => Nat.find_min' hne hz⟩
    obtain ⟨f, hf⟩ := (C61_brute g h _).2 hl
    exact ⟨f, by rw [hf]; rfl⟩

end

example : brute 10 (Multiplicative.ofAdd (3 : ZMod 7)) (Multiplicative.ofAdd (5 : ZMod 7)) = some 4 := by
  decide

/-! ## Pollard's rho -/

section
variable {G : Type} [CommGroup G] [DecidableEq G] {r : ℕ}

theorem powZn_natCast (g : G) (hr : g ^ r = 1) (n : ℕ) : powZn g (n : ZMod r) = g ^ n := by
  rw [powZn, ZMod.val_natCast, ← pow_eq_pow_mod n hr]

theorem powZn_add [NeZero r] (g : G) (hr : g ^ r = 1) (a b : ZMod r) :
    powZn g (a + b) = powZn g a * powZn g b := by
  have h : a + b = ((a.val + b.val : ℕ) : ZMod r) := by simp
  rw [h, powZn_natCast g hr, pow_add]; rfl

theorem powZn_mul [NeZero r] (g : G) (hr : g ^ r = 1) (a b : ZMod r) :
    powZn g (a * b) = powZn (powZn g a) b := by
  have h : a * b = ((a.val * b.val : ℕ) : ZMod r) := by simp
  rw [h, powZn_natCast g hr, pow_mul]; rfl

theorem powZn_zero (g : G) : powZn g (0 : ZMod r) = 1 := by
  cases r with
  | zero => simp [powZn]
  | succ n => simp [powZn]

theorem powZn_neg [NeZero r] (g : G) (hr : g ^ r = 1) (a : ZMod r) :
    powZn g (-a) = (powZn g a)⁻¹ := by
  rw [eq_inv_iff_mul_eq_one, ← powZn_add g hr, neg_add_cancel, powZn_zero]

theorem powZn_sub [NeZero r] (g : G) (hr : g ^ r = 1) (a b : ZMod r) :
    powZn g (a - b) = powZn g a * (powZn g b)⁻¹ := by
  rw [sub_eq_add_neg, powZn_add g hr, powZn_neg g hr]

/-- What the search keeps true: the point and every snapshot are `g^a h^b`. -/
def Inv (g h : G) (s : St G r) : Prop :=
  s.snark = combine g h s.asum s.bsum ∧ ∀ ss ∈ s.hole, ss.snark = combine g h ss.a ss.b

theorem inv_record {g h : G} {s : St G r} (hs : Inv g h s) : Inv g h (record s) := by
  refine ⟨hs.1, fun ss hm => ?_⟩
  rcases List.mem_append.1 hm with hm | hm
  · exact hs.2 ss hm
  · obtain rfl := List.mem_singleton.1 hm
    exact hs.1

theorem inv_start (g h : G) (c : Choices r) : Inv g h (start g h c) :=
  inv_record ⟨rfl, by simp⟩

theorem combine_add [NeZero r] {g h : G} (hg : g ^ r = 1) (hh : h ^ r = 1) (a b a' b' : ZMod r) :
    combine g h (a + a') (b + b') = combine g h a b * combine g h a' b' := by
  rw [combine, combine, combine, powZn_add g hg, powZn_add h hh]
  exact mul_mul_mul_comm _ _ _ _

theorem inv_advance [NeZero r] {g h : G} (hg : g ^ r = 1) (hh : h ^ r = 1) (bytes : G → List ℕ)
    (c : Choices r) {s : St G r} (hs : Inv g h s) : Inv g h (advance bytes g h c s) := by
  refine ⟨?_, hs.2⟩
  show _ * _ = _
  have h1 := hs.1
  rw [advance]
  dsimp only
  rw [combine_add hg hh, ← h1]

theorem inv_tick {g h : G} {s : St G r} (hs : Inv g h s) : Inv g h (tick s) := by
  rw [tick]
  dsimp only
  split
  · exact inv_record (s := { s with counter := s.counter + 1 }) hs
  · exact hs

theorem collision [NeZero r] {g h : G} (hg : g ^ r = 1) (hh : h ^ r = 1) {a b a' b' : ZMod r}
    (h1 : combine g h a b = combine g h a' b') : powZn h (b - b') = powZn g (a' - a) := by
  rw [powZn_sub h hh, powZn_sub g hg]
  rw [combine, combine] at h1
  rw [mul_inv_eq_iff_eq_mul, mul_assoc, mul_comm _ (powZn h b'), ← mul_assoc, mul_comm _ (powZn h b'),
    ← h1, mul_inv_cancel_right]

theorem solve_prime {g h : G} (hp : r.Prime) (hg : g ^ r = 1) (hh : h ^ r = 1) {a b : ZMod r}
    (h1 : powZn h b = powZn g a) (hb : b ≠ 0) : g ^ (a * b⁻¹).val = h := by
  have : NeZero r := ⟨hp.ne_zero⟩
  have : Fact r.Prime := ⟨hp⟩
  have e : g ^ (a * b⁻¹).val = powZn g (a * b⁻¹) := rfl
  rw [e, powZn_mul g hg, ← h1, ← powZn_mul h hh, mul_inv_cancel₀ hb]
  have := powZn_natCast h hh 1
  simpa using this

theorem tryLoop_spec {g h : G} (zm d zb : ℕ) :
    (∀ x : ZMod r, tryLoop g h zm d zb = .found x → ∃ k < d, g ^ (zb + k * zm) = h ∧ x = ((zb + k * zm : ℕ) : ZMod r))
    ∧ ((∃ k < d, g ^ (zb + k * zm) = h) → ∃ x : ZMod r, tryLoop g h zm d zb = .found x) := by
  induction d generalizing zb with
  | zero => simp [tryLoop]
  | succ d ih =>
    rw [tryLoop]
    by_cases hz : g ^ zb = h
    · rw [if_pos hz]
      refine ⟨fun x hx => ⟨0, by omega, by simpa using hz, ?_⟩, fun _ => ⟨_, rfl⟩⟩
      have : (zb : ZMod r) = x := by simpa using hx
      simp [this]
    · rw [if_neg hz]
      obtain ⟨i1, i2⟩ := ih (zb + zm)
      have hk : ∀ k, zb + zm + k * zm = zb + (k + 1) * zm := fun k => by ring
      constructor
      · intro x hx
        obtain ⟨k, k1, k2, k3⟩ := i1 x hx
        exact ⟨k + 1, by omega, by rw [← hk]; exact k2, by rw [← hk]; exact k3⟩
      · rintro ⟨k, k1, k2⟩
        apply i2
        cases k with
        | zero => exact absurd (by simpa using k2) hz
        | succ k => exact ⟨k, by omega, by rw [hk]; exact k2⟩

theorem solveComposite_spec [NeZero r] {g h : G} (hg : orderOf g = r)
    (hh : h ∈ Subgroup.zpowers g) {a b : ZMod r} (h1 : powZn h b = powZn g a) :
    ∃ x : ZMod r, solveComposite g h a b = .found x ∧ g ^ x.val = h := by
  have hgr : g ^ r = 1 := by rw [← hg]; exact pow_orderOf_eq_one g
  have hr : 0 < r := Nat.pos_of_ne_zero (NeZero.ne r)
  have hfin : IsOfFinOrder g := orderOf_pos_iff.1 (by omega)
  obtain ⟨x, hx, rfl⟩ : ∃ x < r, g ^ x = h := by
    have : h ∈ Submonoid.powers g := by rwa [hfin.mem_powers_iff_mem_zpowers]
    obtain ⟨y, hy⟩ := this
    refine ⟨y % r, Nat.mod_lt _ hr, ?_⟩
    rw [← pow_eq_pow_mod y hgr]; exact hy
  -- the congruence
  have hcong : x * b.val ≡ a.val [MOD r] := by
    have : g ^ (x * b.val) = g ^ a.val := by rw [pow_mul]; exact h1
    rw [pow_eq_pow_iff_modEq, hg] at this
    exact this
  set d := Nat.gcd b.val r with hd
  have hd0 : 0 < d := Nat.gcd_pos_of_pos_right _ hr
  obtain ⟨b', hb'⟩ : d ∣ b.val := Nat.gcd_dvd_left _ _
  obtain ⟨m, hm⟩ : d ∣ r := Nat.gcd_dvd_right _ _
  have hda : d ∣ a.val := by
    have h2 : x * b.val ≡ a.val [MOD d] := hcong.of_dvd ⟨m, hm⟩
    have h3 : d ∣ x * b.val := Dvd.dvd.mul_left ⟨b', hb'⟩ _
    exact (h2.dvd_iff dvd_rfl).1 h3
  obtain ⟨a', ha'⟩ := hda
  have hm0 : 0 < m := Nat.pos_of_mul_pos_left (by rw [← hm]; exact hr)
  have hcong' : x * b' ≡ a' [MOD m] := by
    rw [ha', hb', hm, show x * (d * b') = d * (x * b') by ring] at hcong
    exact Nat.ModEq.mul_left_cancel' hd0.ne' hcong
  have hcop : Nat.gcd b' m = 1 := by
    have h2 : d * Nat.gcd b' m = d * 1 := by
      rw [← Nat.gcd_mul_left, ← hb', ← hm, mul_one]
    exact Nat.eq_of_mul_eq_mul_left hd0 h2
  -- the inverse
  set w := (Nat.gcdA b' m % (m : ℤ)).toNat with hw
  have hwb : b' * w ≡ 1 [MOD m] := by
    have hbez := Nat.gcd_eq_gcd_ab b' m
    rw [hcop] at hbez
    have hwi : (w : ℤ) = Nat.gcdA b' m % (m : ℤ) :=
      Int.toNat_of_nonneg (Int.emod_nonneg _ (by omega))
    rw [← Int.natCast_modEq_iff]
    push_cast
    rw [hwi]
    refine ((Int.ModEq.refl (b' : ℤ)).mul (Int.mod_modEq _ _)).trans ?_
    rw [Int.modEq_iff_dvd]
    exact ⟨Nat.gcdB b' m, by push_cast at hbez; linarith⟩
  have hxw : x ≡ a' * w [MOD m] := by
    calc x = x * 1 := (mul_one x).symm
      _ ≡ x * (b' * w) [MOD m] := (Nat.ModEq.refl x).mul hwb.symm
      _ = x * b' * w := by ring
      _ ≡ a' * w [MOD m] := hcong'.mul_right w
  have hsol : solveComposite g (g ^ x) a b = tryLoop g (g ^ x) m d (a' * w % m) := by
    have e1 : r / d = m := by rw [hm, Nat.mul_div_cancel_left _ hd0]
    have e2 : b.val / d = b' := by rw [hb', Nat.mul_div_cancel_left _ hd0]
    have e3 : a.val / d = a' := by rw [ha', Nat.mul_div_cancel_left _ hd0]
    rw [solveComposite]
    simp only [← hd, e1, e2, e3]
    rw [if_neg (by rw [not_not]; exact ⟨a', ha'⟩)]
  rw [hsol]
  obtain ⟨i1, i2⟩ := tryLoop_spec (r := r) (g := g) (h := g ^ x) m d (a' * w % m)
  obtain ⟨y, hy⟩ := i2 ⟨x / m, by
      rw [hm, mul_comm] at hx
      exact Nat.div_lt_of_lt_mul hx, by
      have h3 : a' * w % m = x % m := hxw.symm
      rw [h3, mul_comm, Nat.mod_add_div]⟩
  refine ⟨y, hy, ?_⟩
  obtain ⟨k, _, k2, k3⟩ := i1 y hy
  rw [k3]
  have := powZn_natCast g hgr (a' * w % m + k * m)
  rw [powZn] at this
  rw [this, k2]

/-- Every answer of the loop comes from a collision of two equal combinations. -/
theorem rhoLoop_collision [NeZero r] {g h : G} (hg : g ^ r = 1) (hh : h ^ r = 1) (prime : Bool) (inv0 : ZMod r)
    (bytes : G → List ℕ) (c : Choices r) (f : ℕ) (s : St G r) (hs : Inv g h s) (ans : Answer r)
    (he : rhoLoop prime inv0 bytes g h c f s = some ans) :
    ∃ a b : ZMod r, powZn h b = powZn g a ∧
      ans = if prime then .found (a * if b = 0 then inv0 else b⁻¹) else solveComposite g h a b := by
  induction f generalizing s with
  | zero => simp [rhoLoop] at he
  | succ f ih =>
    rw [rhoLoop] at he
    have h1 := inv_advance hg hh bytes c hs
    split at he
    · rename_i ss hf
      have hmem := List.mem_of_find?_eq_some hf
      have heq : (advance bytes g h c s).snark = ss.snark := by simpa using List.find?_some hf
      refine ⟨ss.a - (advance bytes g h c s).asum, (advance bytes g h c s).bsum - ss.b, ?_, ?_⟩
      · apply collision hg hh
        rw [← h1.1, heq, h1.2 ss hmem]
      · rw [Option.some.injEq] at he
        rw [← he]; rfl
    · exact ih _ (inv_tick h1) he

/-- **C61, prime order (partial).**  If the order is prime, any answer of the search is a logarithm,
or it comes from a useless collision: the answer is then zero.  (`C61_rho_useless_fails` shows that this
happens.) -/
theorem C61_rho_prime_partial (hp : r.Prime) {g h : G} (hg : orderOf g = r) (hh : h ^ r = 1)
    (inv0 : ZMod r) (bytes : G → List ℕ) (c : Choices r) (fuel : ℕ) (ans : Answer r)
    (he : rho true inv0 bytes fuel g h c = some ans) :
    ∃ x : ZMod r, ans = .found x ∧ (g ^ x.val = h ∨ x = 0) := by
  have : NeZero r := ⟨hp.ne_zero⟩
  have hg1 : g ^ r = 1 := by rw [← hg]; exact pow_orderOf_eq_one g
  obtain ⟨a, b, h1, h2⟩ := rhoLoop_collision hg1 hh true inv0 bytes c fuel _ (inv_start g h c) ans he
  refine ⟨_, h2, ?_⟩
  by_cases hb : b = 0
  · right
    subst hb
    rw [powZn_zero] at h1
    have h3 : r ∣ a.val := (dvd_of_eq hg.symm).trans (orderOf_dvd_of_pow_eq_one (x := g) (n := a.val) h1.symm)
    have h4 : a.val = 0 := Nat.eq_zero_of_dvd_of_lt h3 (ZMod.val_lt a)
    rw [(ZMod.val_eq_zero a).1 h4, zero_mul]
  · left
    rw [if_neg hb]
    exact solve_prime hp hg1 hh h1 hb

/-- **C61, discrepancy.**  In a group of prime order the search can end with a useless collision and
return zero for an `h` that is not the identity: for every `g` and `h` there are random choices on
which it does so. -/
theorem C61_rho_useless_fails (hp : r.Prime) (g h : G) (hne : h ≠ 1) (inv0 : ZMod r) (bytes : G → List ℕ) :
    ∃ (c : Choices r) (fuel : ℕ), rho true inv0 bytes fuel g h c = some (.found 0) ∧
      g ^ (0 : ZMod r).val ≠ h := by
  have : NeZero r := ⟨hp.ne_zero⟩
  refine ⟨⟨fun _ => 0, fun _ => 0, 0, 0⟩, 1, ?_, ?_⟩
  · simp [rho, rhoLoop, start, record, advance, combine, powZn_zero, solve]
  · simpa using hne.symm

/-- **C61.**  If the order is not prime, every answer of the search is a logarithm of `h`, and one
is always given. -/
theorem C61_rho_composite [NeZero r] {g h : G} (hg : orderOf g = r) (hh : h ∈ Subgroup.zpowers g)
    (inv0 : ZMod r) (bytes : G → List ℕ) (c : Choices r) (fuel : ℕ) (ans : Answer r)
    (he : rho false inv0 bytes fuel g h c = some ans) :
    ∃ x : ZMod r, ans = .found x ∧ g ^ x.val = h := by
  have hg1 : g ^ r = 1 := by rw [← hg]; exact pow_orderOf_eq_one g
  have hh1 : h ^ r = 1 := by
    obtain ⟨k, rfl⟩ := hh
    show (g ^ k) ^ r = 1
    rw [← zpow_natCast, ← zpow_mul, mul_comm, zpow_mul, zpow_natCast, hg1, one_zpow]
  obtain ⟨a, b, h1, h2⟩ := rhoLoop_collision hg1 hh1 false inv0 bytes c fuel _ (inv_start g h c) ans he
  obtain ⟨x, hx1, hx2⟩ := solveComposite_spec hg hh h1
  exact ⟨x, h2.trans hx1, hx2⟩

/-- **C61.**  Only the 20 multipliers that were made are used: nothing outside the tables is read. -/
theorem C61_rho_tables (prime : Bool) (inv0 : ZMod r) (bytes : G → List ℕ) (g h : G) (c c' : Choices r)
    (ha : ∀ i < 20, c.a i = c'.a i) (hb : ∀ i < 20, c.b i = c'.b i) (ha0 : c.a0 = c'.a0) (hb0 : c.b0 = c'.b0) (fuel : ℕ) :
    rho prime inv0 bytes fuel g h c = rho prime inv0 bytes fuel g h c' := by
  have hadv : ∀ s : St G r, advance bytes g h c s = advance bytes g h c' s := fun s => by
    have hi : index bytes s.snark < 20 := Nat.mod_lt _ (by norm_num)
    rw [advance, advance, ha _ hi, hb _ hi]
  have hl : ∀ f (s : St G r), rhoLoop prime inv0 bytes g h c f s = rhoLoop prime inv0 bytes g h c' f s := by
    intro f
    induction f with
    | zero => intro s; rfl
    | succ f ih => intro s; simp only [rhoLoop, hadv, ih]
  rw [rho, rho, start, start, ha0, hb0, hl]

/-! ### Termination -/

/-- The walk. -/
def walk (bytes : G → List ℕ) (g h : G) (c : Choices r) (x : G) : G :=
  x * combine g h (c.a (index bytes x)) (c.b (index bytes x))

/-- The state after `n` rounds without a collision. -/
def Trace (bytes : G → List ℕ) (g h : G) (c : Choices r) (s0 : G) (n : ℕ) (s : St G r) : Prop :=
  s.counter = n ∧ s.snark = (walk bytes g h c)^[n] s0 ∧ 5 ≤ s.interval ∧ n < 2 ^ s.interval ∧
    ∀ j, 5 ≤ j → j < s.interval → ∃ ss ∈ s.hole, ss.snark = (walk bytes g h c)^[2 ^ j] s0

theorem trace_tick {bytes : G → List ℕ} {g h : G} {c : Choices r} {s0 : G} {n : ℕ} {s : St G r}
    (hs : Trace bytes g h c s0 n s) :
    Trace bytes g h c s0 (n + 1) (tick (advance bytes g h c s)) := by
  obtain ⟨h1, h2, h3, h4, h5⟩ := hs
  have hw : (advance bytes g h c s).snark = (walk bytes g h c)^[n + 1] s0 := by
    rw [Function.iterate_succ_apply', ← h2]; rfl
  rw [tick]
  dsimp only
  have hc : (advance bytes g h c s).counter = n := h1
  have hi : (advance bytes g h c s).interval = s.interval := rfl
  rw [hc, hi]
  by_cases hb : (n + 1).testBit s.interval = true
  · rw [if_pos hb]
    have hge : 2 ^ s.interval ≤ n + 1 := Nat.ge_two_pow_of_testBit hb
    have heq : n + 1 = 2 ^ s.interval := by omega
    refine ⟨rfl, hw, by simp [record]; omega, ?_, ?_⟩
    · show n + 1 < 2 ^ (s.interval + 1)
      rw [pow_succ]; omega
    · intro j hj1 hj2
      have hj2' : j < s.interval + 1 := hj2
      by_cases hj : j = s.interval
      · subst hj
        refine ⟨⟨(advance bytes g h c s).asum, (advance bytes g h c s).bsum,
          (advance bytes g h c s).snark⟩, List.mem_append_right _ (List.mem_singleton.2 rfl), ?_⟩
        rw [← heq]
        exact hw
      · obtain ⟨ss, m1, m2⟩ := h5 j hj1 (by omega)
        exact ⟨ss, List.mem_append_left _ m1, m2⟩
  · rw [if_neg hb]
    refine ⟨rfl, hw, h3, ?_, h5⟩
    show n + 1 < 2 ^ s.interval
    rcases Nat.lt_or_ge (n + 1) (2 ^ s.interval) with hlt | hge
    · exact hlt
    · exfalso
      have heq : n + 1 = 2 ^ s.interval := by omega
      rw [heq, Nat.testBit_two_pow_self] at hb
      exact hb rfl

theorem rhoLoop_hit {bytes : G → List ℕ} {g h : G} {c : Choices r} {s0 : G} (prime : Bool) (inv0 : ZMod r)
    {j p : ℕ} (hj : 5 ≤ j) (hp : 0 < p)
    (hcyc : (walk bytes g h c)^[2 ^ j + p] s0 = (walk bytes g h c)^[2 ^ j] s0) (k n : ℕ) (s : St G r)
    (hs : Trace bytes g h c s0 n s) (hk : n + k = 2 ^ j + p) (hk0 : 0 < k) :
    (rhoLoop prime inv0 bytes g h c k s).isSome := by
  induction k generalizing n s with
  | zero => omega
  | succ k ih =>
    rw [rhoLoop]
    split
    · rfl
    · rename_i hnone
      rcases Nat.eq_zero_or_pos k with rfl | hkp
      · exfalso
        obtain ⟨h1, h2, h3, h4, h5⟩ := hs
        have hlt : j < s.interval := by
          by_contra hge
          have : 2 ^ s.interval ≤ 2 ^ j := Nat.pow_le_pow_right (by decide) (by omega)
          omega
        obtain ⟨ss, m1, m2⟩ := h5 j hj hlt
        have := List.find?_eq_none.1 hnone ss m1
        apply this
        have hw : (advance bytes g h c s).snark = (walk bytes g h c)^[n + 1] s0 := by
          rw [Function.iterate_succ_apply', ← h2]; rfl
        rw [decide_eq_true_iff, hw, m2, ← hcyc, ← hk]
      · exact ih _ _ (trace_tick hs) (by omega) hkp

/-- **C61.**  In a finite group the search always ends, whatever the random choices. -/
theorem C61_rho_ends [Finite G] (g h : G) (prime : Bool) (inv0 : ZMod r) (bytes : G → List ℕ) (c : Choices r) :
    ∃ fuel ans, rho prime inv0 bytes fuel g h c = some ans := by
  obtain ⟨m, n, hmn, he⟩ := Finite.exists_ne_map_eq_of_infinite
    (fun n : ℕ => (walk bytes g h c)^[n] (combine g h c.a0 c.b0))
  -- a cycle that starts at `m` with period `p`
  obtain ⟨m, p, hp, he⟩ : ∃ m p, 0 < p ∧ (walk bytes g h c)^[m + p] (combine g h c.a0 c.b0) =
      (walk bytes g h c)^[m] (combine g h c.a0 c.b0) := by
    rcases Nat.lt_or_gt_of_ne hmn with hlt | hlt
    · exact ⟨m, n - m, by omega, by rw [show m + (n - m) = n by omega]; exact he.symm⟩
    · exact ⟨n, m - n, by omega, by rw [show n + (m - n) = m by omega]; exact he⟩
  have hcyc : (walk bytes g h c)^[2 ^ (m + 5) + p] (combine g h c.a0 c.b0) =
      (walk bytes g h c)^[2 ^ (m + 5)] (combine g h c.a0 c.b0) := by
    have hm : m ≤ 2 ^ (m + 5) := (Nat.lt_two_pow_self).le.trans (Nat.pow_le_pow_right (by decide) (by omega))
    obtain ⟨d, hd⟩ := Nat.exists_eq_add_of_le hm
    rw [hd, show m + d + p = d + (m + p) by ring, add_comm m d, Function.iterate_add_apply, he,
      Function.iterate_add_apply]
  have h0 : Trace bytes g h c (combine g h c.a0 c.b0) 0 (start g h c) := by
    refine ⟨rfl, rfl, le_rfl, ?_, ?_⟩
    · show 0 < 2 ^ 5; decide
    · intro j h1 h2
      have h2' : j < 5 := h2
      omega
  have := rhoLoop_hit prime inv0 (by omega) hp hcyc _ 0 _ h0 (zero_add _) (by positivity)
  obtain ⟨ans, ha⟩ := Option.isSome_iff_exists.1 this
  exact ⟨_, ans, ha⟩

end

/-- A group of order six, an element of order six and a walk: the search ends with a logarithm. -/
example : ∃ fuel x, rho (r := 6) false 1 (fun y => [y.toAdd.val]) fuel (Multiplicative.ofAdd (5 : ZMod 6))
    (Multiplicative.ofAdd (2 : ZMod 6)) ⟨fun i => i, fun i => 2 * i + 1, 3, 4⟩ = some (.found x) ∧
    (Multiplicative.ofAdd (5 : ZMod 6)) ^ x.val = Multiplicative.ofAdd (2 : ZMod 6) := by
  have hord : orderOf (Multiplicative.ofAdd (5 : ZMod 6)) = 6 :=
    (orderOf_eq_iff (by decide)).2 (by decide)
  obtain ⟨f, ans, h⟩ := C61_rho_ends (r := 6) (Multiplicative.ofAdd (5 : ZMod 6))
    (Multiplicative.ofAdd (2 : ZMod 6)) false 1 (fun y => [y.toAdd.val]) ⟨fun i => i, fun i => 2 * i + 1, 3, 4⟩
  obtain ⟨x, rfl, hx⟩ := C61_rho_composite hord ⟨4, by decide⟩ _ _ _ f ans h
  exact ⟨f, x, h, hx⟩

/-- A group of order seven and a walk that ends with a useful collision. -/
example : ∃ x, rho (r := 7) true 1 (fun y => [y.toAdd.val]) 10 (Multiplicative.ofAdd (3 : ZMod 7))
    (Multiplicative.ofAdd (5 : ZMod 7)) ⟨fun i => i + 1, fun i => 2 * i + 1, 3, 4⟩ = some (.found x) := by
  have : (rho (r := 7) true 1 (fun y => [y.toAdd.val]) 10 (Multiplicative.ofAdd (3 : ZMod 7))
    (Multiplicative.ofAdd (5 : ZMod 7)) ⟨fun i => i + 1, fun i => 2 * i + 1, 3, 4⟩).isSome := by
    decide +kernel
  obtain ⟨ans, h⟩ := Option.isSome_iff_exists.1 this
  have hord : orderOf (Multiplicative.ofAdd (3 : ZMod 7)) = 7 :=
    (orderOf_eq_iff (by decide)).2 (by decide)
  obtain ⟨x, rfl, _⟩ := C61_rho_prime_partial (by norm_num) hord (by decide) _ _ _ _ _ h
  exact ⟨x, h⟩

end Props
