import Mathlib.NumberTheory.LucasPrimality
import Mathlib.Algebra.QuadraticAlgebra.Basic
import Mathlib.Algebra.CharP.Lemmas
import Mathlib.NumberTheory.LegendreSymbol.Basic
import Mathlib.FieldTheory.Finite.Basic
import Mathlib.Tactic.Ring
import Mathlib.Tactic.LinearCombination

/-! # Certificates of primality

The theorems of Pocklington and Morrison, in a form the kernel can check by computation. -/

set_option autoImplicit false

namespace Pbc.Certify

/-- Powers by squaring with a given multiplication; the first argument bounds the length of the exponent. -/
def powBy {α : Type*} (mul : α → α → α) : ℕ → α → ℕ → α → α
  | 0, _, _, acc => acc
  | f + 1, b, e, acc => powBy mul f (mul b b) (e / 2) (if e % 2 = 1 then mul acc b else acc)

theorem powBy_eq {α M : Type*} [CommMonoid M] (mul : α → α → α) (φ : α → M) (h : ∀ x y, φ (mul x y) = φ x * φ y) (f : ℕ) :
    ∀ (b : α) (e : ℕ) (acc : α), e < 2 ^ f → φ (powBy mul f b e acc) = φ acc * φ b ^ e := by
  induction f with
  | zero =>
    intro b e acc he
    obtain rfl : e = 0 := by simpa using he
    simp [powBy]
  | succ f ih =>
    intro b e acc he
    rw [powBy, ih _ _ _ (by rw [pow_succ] at he; omega), h]
    have e2 : φ b ^ e = (φ b * φ b) ^ (e / 2) * φ b ^ (e % 2) := by
      rw [← pow_two, ← pow_mul, ← pow_add, Nat.div_add_mod]
    rw [e2]
    rcases Nat.mod_two_eq_zero_or_one e with h0 | h0
    · rw [h0, if_neg (by simp), pow_zero, mul_one]
    · rw [h0, if_pos rfl, h, pow_one, mul_comm ((φ b * φ b) ^ _), mul_assoc]

/-- An element whose order divides `M` and not `M / l` for the primes `l` of a divisor `F` of `M` has order divisible by `F`. -/
theorem dvd_orderOf {M : Type*} [Monoid M] {x : M} {m F : ℕ} (hm : 0 < m) (hx : x ^ m = 1) (hF : F ∣ m)
    (h : ∀ l : ℕ, l.Prime → l ∣ F → x ^ (m / l) ≠ 1) : F ∣ orderOf x := by
  obtain ⟨g, hg⟩ := orderOf_dvd_of_pow_eq_one hx
  have hc : F.Coprime g := by
    refine Nat.Coprime.symm (Nat.Coprime.symm ?_)
    refine Nat.coprime_of_dvd fun l hl h1 h2 => ?_
    obtain ⟨g', rfl⟩ := h2
    refine h l hl h1 (orderOf_dvd_iff_pow_eq_one.1 ⟨g', ?_⟩)
    rw [hg]
    exact Nat.div_eq_of_eq_mul_left hl.pos (by ring)
  exact hc.dvd_of_dvd_mul_right (hg ▸ hF)

/-- Pocklington: the prime factors of `N` are 1 modulo the factored part `F` of `N - 1`. -/
theorem pocklington {N a F : ℕ} (hN : 1 < N) (hF : F ∣ N - 1) (ha : a ^ (N - 1) % N = 1)
    (h : ∀ l : ℕ, l.Prime → l ∣ F → Nat.Coprime (a ^ ((N - 1) / l) % N + (N - 1)) N) {p : ℕ} (hp : p.Prime) (hd : p ∣ N) :
    F ∣ p - 1 := by
  have : Fact p.Prime := ⟨hp⟩
  have hm : ∀ n : ℕ, ((n % N : ℕ) : ZMod p) = n := fun n => by
    rw [ZMod.natCast_eq_natCast_iff]
    exact (Nat.mod_modEq n N).of_dvd hd
  have hN0 : ((N - 1 : ℕ) : ZMod p) = -1 := by
    rw [Nat.cast_sub hN.le, Nat.cast_one, (ZMod.natCast_eq_zero_iff N p).2 hd, zero_sub]
  have h1 : (a : ZMod p) ^ (N - 1) = 1 := by
    rw [← Nat.cast_pow, ← hm, ha, Nat.cast_one]
  have h0 : (a : ZMod p) ≠ 0 := fun h0 => by
    rw [h0, zero_pow (by omega)] at h1
    exact zero_ne_one h1
  refine (dvd_orderOf (by omega) h1 hF fun l hl hlF e => ?_).trans (ZMod.orderOf_dvd_card_sub_one h0)
  have hc := h l hl hlF
  refine hp.one_lt.ne' (Nat.dvd_one.1 (hc ▸ Nat.dvd_gcd ?_ hd))
  rw [← ZMod.natCast_eq_zero_iff, Nat.cast_add, hm, Nat.cast_pow, e, hN0, add_neg_cancel]

/-- The primes of a number given by its factorization. -/
theorem mem_of_dvd {fs : List (ℕ × ℕ)} (hfs : ∀ x ∈ fs, x.1.Prime) {l : ℕ} (hl : l.Prime)
    (h : l ∣ (fs.map fun x => x.1 ^ x.2).prod) : ∃ x ∈ fs, x.1 = l := by
  obtain ⟨y, hy, hd⟩ := (Prime.dvd_prod_iff hl.prime).1 h
  obtain ⟨x, hx, rfl⟩ := List.mem_map.1 hy
  exact ⟨x, hx, ((Nat.prime_dvd_prime_iff_eq hl (hfs x hx)).1 (hl.dvd_of_dvd_pow hd)).symm⟩

/-- The conditions of Pocklington's theorem, computed. -/
def checkMinus (N a bits : ℕ) (fs : List (ℕ × ℕ)) : Bool :=
  decide (1 < N) && decide (N < 2 ^ bits) && decide ((N - 1) % (fs.map fun x => x.1 ^ x.2).prod = 0) &&
    decide (powBy (fun x y => x * y % N) bits a (N - 1) 1 % N = 1) &&
    fs.all fun x => decide (Nat.gcd (powBy (fun x y => x * y % N) bits a ((N - 1) / x.1) 1 % N + (N - 1)) N = 1)

theorem powMod_eq {N bits : ℕ} (a e : ℕ) (he : e < 2 ^ bits) :
    powBy (fun x y => x * y % N) bits a e 1 % N = a ^ e % N := by
  have := powBy_eq (M := ZMod N) (fun x y => x * y % N) (fun n : ℕ => (n : ZMod N)) (fun x y => by
    rw [← Nat.cast_mul, ZMod.natCast_eq_natCast_iff]
    exact Nat.mod_modEq _ _) bits a e 1 he
  rw [Nat.cast_one, one_mul, ← Nat.cast_pow, ZMod.natCast_eq_natCast_iff] at this
  exact this

theorem checkMinus_sound {N a bits : ℕ} {fs : List (ℕ × ℕ)} (hfs : ∀ x ∈ fs, x.1.Prime) (h : checkMinus N a bits fs = true)
    {p : ℕ} (hp : p.Prime) (hd : p ∣ N) : (fs.map fun x => x.1 ^ x.2).prod ∣ p - 1 := by
  simp only [checkMinus, Bool.and_eq_true, decide_eq_true_eq, List.all_eq_true] at h
  obtain ⟨⟨⟨⟨h1, h2⟩, h3⟩, h4⟩, h5⟩ := h
  rw [powMod_eq _ _ (by omega)] at h4
  refine pocklington h1 (Nat.dvd_of_mod_eq_zero h3) h4 (fun l hl hlF => ?_) hp hd
  obtain ⟨x, hx, rfl⟩ := mem_of_dvd hfs hl hlF
  have := h5 x hx
  rwa [powMod_eq _ _ (lt_of_le_of_lt (Nat.div_le_self _ _) (by omega))] at this

/-- A number whose prime factors are all greater than its square root is a prime. -/
theorem prime_of_large {N F : ℕ} (hN : 1 < N) (hF : N < F * F) (h : ∀ p : ℕ, p.Prime → p ∣ N → F ≤ p) : N.Prime := by
  by_contra hn
  have h1 := Nat.minFac_prime (n := N) (by omega)
  have h2 := Nat.minFac_sq_le_self (by omega) hn
  have h3 := h _ h1 (Nat.minFac_dvd N)
  have := Nat.mul_le_mul h3 h3
  rw [pow_two] at h2
  omega

/-- Certificate with `F` greater than the square root. -/
theorem prime_minus {N a bits : ℕ} (fs : List (ℕ × ℕ)) (hfs : ∀ x ∈ fs, x.1.Prime) (h : checkMinus N a bits fs = true)
    (hF : N < ((fs.map fun x => x.1 ^ x.2).prod + 1) * ((fs.map fun x => x.1 ^ x.2).prod + 1)) : N.Prime := by
  have hN : 1 < N := by
    simp only [checkMinus, Bool.and_eq_true, decide_eq_true_eq] at h
    exact h.1.1.1.1
  refine prime_of_large hN hF fun p hp hd => ?_
  have := Nat.le_of_dvd (by have := hp.two_le; omega) (checkMinus_sound hfs h hp hd)
  have := hp.two_le
  omega

/-- Certificate with `F` greater than the cube root (Brillhart, Lehmer, Selfridge): `N = (1 + a F) (1 + b F)` gives the sum and
the product of `a` and `b`, and `w` shows that they are not those of two numbers. -/
theorem prime_cube {N a bits : ℕ} (F R w : ℕ) (fs : List (ℕ × ℕ)) (hfs : ∀ x ∈ fs, x.1.Prime)
    (h : checkMinus N a bits fs = true) (hF : F = (fs.map fun x => x.1 ^ x.2).prod) (hN : N = F * R + 1)
    (hR : R / F + 1 < F) (hw : 4 * (R / F) + w * w < R % F * (R % F) ∧ R % F * (R % F) < 4 * (R / F) + (w + 1) * (w + 1)) :
    N.Prime := by
  have hN1 : 1 < N := by
    simp only [checkMinus, Bool.and_eq_true, decide_eq_true_eq] at h
    exact h.1.1.1.1
  by_contra hn
  have hp := Nat.minFac_prime (n := N) (by omega)
  obtain ⟨m, hm⟩ := Nat.minFac_dvd N
  have h1 := checkMinus_sound hfs h hp (Nat.minFac_dvd N)
  rw [← hF] at h1
  obtain ⟨x, hx⟩ := h1
  set p := N.minFac
  have hpx : p = F * x + 1 := by have := hp.two_le; omega
  have hx0 : x ≠ 0 := fun h => by
    rw [h] at hpx
    exact hp.one_lt.ne' (by simpa using hpx)
  have hF0 : 0 < F := by omega
  have hm0 : m ≠ 0 := fun h => by rw [h] at hm; omega
  have hm1 : m ≠ 1 := fun h => by
    rw [h, mul_one] at hm
    exact hn (hm ▸ hp)
  have e : F * R + 1 = (F * x + 1) * m := by rw [← hN, ← hpx, ← hm]
  obtain ⟨y, hy⟩ : F ∣ m - 1 := by
    have e' : m - 1 = F * (R - x * m) := by
      rw [Nat.mul_sub]
      have : F * R + 1 = F * (x * m) + m := by rw [e]; ring
      omega
    exact ⟨_, e'⟩
  have hmy : m = F * y + 1 := by omega
  have hy0 : y ≠ 0 := fun h => by rw [h] at hmy; omega
  have hRxy : R = F * (x * y) + (x + y) := by
    refine Nat.eq_of_mul_eq_mul_left hF0 ?_
    rw [hmy] at e
    have : (F * x + 1) * (F * y + 1) = F * (F * (x * y) + (x + y)) + 1 := by ring
    omega
  have hle : x + y ≤ x * y + 1 := by
    obtain ⟨x, rfl⟩ := Nat.exists_eq_succ_of_ne_zero hx0
    obtain ⟨y, rfl⟩ := Nat.exists_eq_succ_of_ne_zero hy0
    have : (x + 1) * (y + 1) = x * y + (x + y + 1) := by ring
    simp only [Nat.succ_eq_add_one]
    rw [this]
    omega
  have hq : x * y ≤ R / F := by
    rw [Nat.le_div_iff_mul_le hF0, hRxy, mul_comm]
    omega
  have hs : x + y < F := by omega
  have hd : R / F = x * y := by
    rw [hRxy, Nat.mul_add_div hF0, Nat.div_eq_of_lt hs, add_zero]
  have hmod : R % F = x + y := by
    rw [hRxy, Nat.mul_add_mod, Nat.mod_eq_of_lt hs]
  rw [hd, hmod] at hw
  have key : ∀ {x y : ℕ}, x ≤ y → 4 * (x * y) + w * w < (x + y) * (x + y) →
      (x + y) * (x + y) < 4 * (x * y) + (w + 1) * (w + 1) → False := by
    intro x y hxy h1 h2
    obtain ⟨d, rfl⟩ := Nat.exists_eq_add_of_le hxy
    have : (x + (x + d)) * (x + (x + d)) = 4 * (x * (x + d)) + d * d := by ring
    rw [this] at h1 h2
    have h1 : w < d := lt_of_mul_self_lt_mul_self₀ (Nat.zero_le _) (by omega)
    have h2 : d < w + 1 := lt_of_mul_self_lt_mul_self₀ (Nat.zero_le _) (by omega)
    omega
  rcases le_total x y with hxy | hxy
  · exact key hxy hw.1 hw.2
  · exact key hxy (by rw [mul_comm y, add_comm y]; exact hw.1) (by rw [mul_comm y, add_comm y]; exact hw.2)

/-! ### The test with `N + 1` -/

/-- Multiplication of `u + v i` modulo `N`. -/
def mulG (N : ℕ) (x y : ℕ × ℕ) : ℕ × ℕ :=
  ((x.1 * y.1 + (N - x.2 * y.2 % N)) % N, (x.1 * y.2 + x.2 * y.1) % N)

/-- A pair of numbers as an element of the Gaussian integers modulo `p`. -/
def gauss (p : ℕ) (x : ℕ × ℕ) : QuadraticAlgebra (ZMod p) (-1) 0 := ⟨x.1, x.2⟩

theorem gauss_mul {N p : ℕ} (hN : 0 < N) (hd : p ∣ N) (x y : ℕ × ℕ) : gauss p (mulG N x y) = gauss p x * gauss p y := by
  have hm : ∀ n : ℕ, ((n % N : ℕ) : ZMod p) = n := fun n => by
    rw [ZMod.natCast_eq_natCast_iff]
    exact (Nat.mod_modEq n N).of_dvd hd
  have hN0 : (N : ZMod p) = 0 := (ZMod.natCast_eq_zero_iff N p).2 hd
  ext
  · simp only [gauss, mulG, QuadraticAlgebra.re_mul]
    rw [hm, Nat.cast_add, Nat.cast_sub (Nat.mod_lt _ hN).le, hm, hN0]
    push_cast
    ring
  · simp only [gauss, mulG, QuadraticAlgebra.im_mul]
    rw [hm]
    push_cast
    ring

theorem re_one' (p : ℕ) : (1 : QuadraticAlgebra (ZMod p) (-1) 0).re = 1 := rfl

theorem im_one' (p : ℕ) : (1 : QuadraticAlgebra (ZMod p) (-1) 0).im = 0 := rfl

theorem gauss_one (p : ℕ) : gauss p (1, 0) = 1 := by
  ext <;> simp [gauss, re_one', im_one']

/-- An element of norm 1 has order dividing `p - 1` or `p + 1`. -/
theorem gauss_order {p : ℕ} (hp : p.Prime) (h2 : p ≠ 2) (u v : ZMod p) (h : u ^ 2 + v ^ 2 = 1) :
    (⟨u, v⟩ : QuadraticAlgebra (ZMod p) (-1) 0) ^ (p - 1) = 1 ∨ (⟨u, v⟩ : QuadraticAlgebra (ZMod p) (-1) 0) ^ (p + 1) = 1 := by
  have : Fact p.Prime := ⟨hp⟩
  have hc : CharP (QuadraticAlgebra (ZMod p) (-1) 0) p :=
    charP_of_injective_algebraMap (R := ZMod p) (A := QuadraticAlgebra (ZMod p) (-1) 0) (fun a b hab => by
      have := congrArg QuadraticAlgebra.re hab
      simpa using this) p
  set x : QuadraticAlgebra (ZMod p) (-1) 0 := ⟨u, v⟩
  set y : QuadraticAlgebra (ZMod p) (-1) 0 := ⟨u, -v⟩
  have hxy : x * y = 1 := by
    ext
    · rw [QuadraticAlgebra.re_mul, re_one']
      simp only [x, y]
      linear_combination h
    · rw [QuadraticAlgebra.im_mul, im_one']
      simp only [x, y]
      ring
  let i : QuadraticAlgebra (ZMod p) (-1) 0 := ⟨0, 1⟩
  have hii : i ^ 2 = -1 := by
    ext <;> simp [i, pow_two, re_one', im_one']
  have hx : x = algebraMap _ _ u + algebraMap _ _ v * i := by
    ext <;> simp [x, i]
  have hy : y = algebraMap _ _ u - algebraMap _ _ v * i := by
    ext <;> simp [y, i]
  have hpow : x ^ p = algebraMap _ _ u + algebraMap _ _ v * i ^ p := by
    rw [hx, add_pow_char, mul_pow, ← map_pow, ← map_pow, ZMod.pow_card, ZMod.pow_card]
  obtain ⟨k, hk⟩ := hp.odd_of_ne_two h2
  have hip : i ^ p = (-1) ^ k * i := by
    have : i ^ p = i ^ (2 * k + 1) := congrArg (i ^ ·) hk
    rw [this, pow_succ, pow_mul, hii]
  rcases neg_one_pow_eq_or (QuadraticAlgebra (ZMod p) (-1) 0) k with e | e
  · left
    rw [hip, e, one_mul, ← hx] at hpow
    have : x ^ (p - 1) * x * y = x * y := by
      rw [← pow_succ, Nat.sub_add_cancel hp.one_le, hpow]
    rwa [mul_assoc, hxy, mul_one] at this
  · right
    rw [hip, e, neg_one_mul, mul_neg, ← sub_eq_add_neg, ← hy] at hpow
    rw [pow_succ, hpow, mul_comm, hxy]

/-- The conditions of Morrison's theorem, computed: `x` has norm 1. -/
def checkPlus (N bits : ℕ) (x : ℕ × ℕ) (fs : List (ℕ × ℕ)) : Bool :=
  decide (1 < N) && decide (N % 2 = 1) && decide (N + 1 < 2 ^ bits) && decide ((x.1 ^ 2 + x.2 ^ 2) % N = 1) &&
    decide ((N + 1) % (fs.map fun x => x.1 ^ x.2).prod = 0) &&
    decide (powBy (mulG N) bits x (N + 1) (1, 0) = (1, 0)) &&
    fs.all fun l =>
      let y := powBy (mulG N) bits x ((N + 1) / l.1) (1, 0)
      decide (Nat.gcd (Nat.gcd (y.1 + (N - 1)) y.2) N = 1)

theorem checkPlus_sound {N bits : ℕ} {x : ℕ × ℕ} {fs : List (ℕ × ℕ)} (hfs : ∀ x ∈ fs, x.1.Prime)
    (h : checkPlus N bits x fs = true) {p : ℕ} (hp : p.Prime) (hd : p ∣ N) :
    (fs.map fun x => x.1 ^ x.2).prod ∣ p - 1 ∨ (fs.map fun x => x.1 ^ x.2).prod ∣ p + 1 := by
  simp only [checkPlus, Bool.and_eq_true, decide_eq_true_eq, List.all_eq_true] at h
  obtain ⟨⟨⟨⟨⟨⟨h1, h0⟩, h2⟩, h3⟩, h4⟩, h5⟩, h6⟩ := h
  have : Fact p.Prime := ⟨hp⟩
  have hp2 : p ≠ 2 := fun e => by
    rw [e] at hd
    omega
  have hpw : ∀ e, e < 2 ^ bits → gauss p (powBy (mulG N) bits x e (1, 0)) = gauss p x ^ e := fun e he => by
    rw [powBy_eq (mulG N) (gauss p) (gauss_mul (by omega) hd) bits x e (1, 0) he, gauss_one, one_mul]
  have hnorm : ((x.1 : ZMod p)) ^ 2 + (x.2 : ZMod p) ^ 2 = 1 := by
    have : ((x.1 ^ 2 + x.2 ^ 2 : ℕ) : ZMod p) = 1 := by
      rw [← Nat.cast_one, ZMod.natCast_eq_natCast_iff]
      refine Nat.ModEq.of_dvd hd ?_
      rw [Nat.ModEq, h3, Nat.mod_eq_of_lt h1]
    exact_mod_cast this
  have hord : (fs.map fun x => x.1 ^ x.2).prod ∣ orderOf (gauss p x) := by
    refine dvd_orderOf (m := N + 1) (by omega) ?_ (Nat.dvd_of_mod_eq_zero h4) fun l hl hlF e => ?_
    · rw [← hpw _ h2, h5, gauss_one]
    · obtain ⟨y, hy, rfl⟩ := mem_of_dvd hfs hl hlF
      have h7 := h6 y hy
      rw [← hpw _ (lt_of_le_of_lt (Nat.div_le_self _ _) h2)] at e
      have e1 := congrArg QuadraticAlgebra.im e
      have e2 := congrArg QuadraticAlgebra.re e
      simp only [gauss, im_one'] at e1
      simp only [gauss, re_one'] at e2
      rw [ZMod.natCast_eq_zero_iff] at e1
      refine hp.one_lt.ne' (Nat.dvd_one.1 (h7 ▸ Nat.dvd_gcd (Nat.dvd_gcd ?_ e1) hd))
      rw [← ZMod.natCast_eq_zero_iff, Nat.cast_add, e2, Nat.cast_sub h1.le, (ZMod.natCast_eq_zero_iff N p).2 hd,
        Nat.cast_one, zero_sub, add_neg_cancel]
  rcases gauss_order hp hp2 _ _ hnorm with e | e
  · exact .inl (hord.trans (orderOf_dvd_of_pow_eq_one e))
  · exact .inr (hord.trans (orderOf_dvd_of_pow_eq_one e))

/-- Certificate with `F` close to the square root: no number `k F ± 1` with `0 < k ≤ B` divides `N`. -/
theorem prime_plus {N bits : ℕ} (F B : ℕ) (x : ℕ × ℕ) (fs : List (ℕ × ℕ)) (hfs : ∀ x ∈ fs, x.1.Prime)
    (h : checkPlus N bits x fs = true) (hF : F = (fs.map fun x => x.1 ^ x.2).prod) (hF2 : 2 < F)
    (hB : ∀ k < B, N % ((k + 1) * F + 1) ≠ 0 ∧ N % ((k + 1) * F - 1) ≠ 0)
    (hN : N < ((B + 1) * F - 1) * ((B + 1) * F - 1)) : N.Prime := by
  have hN1 : 1 < N := by
    simp only [checkPlus, Bool.and_eq_true, decide_eq_true_eq] at h
    exact h.1.1.1.1.1.1
  refine prime_of_large hN1 hN fun p hp hd => ?_
  have hp1 := hp.two_le
  by_contra hlt
  rw [not_le] at hlt
  rcases checkPlus_sound hfs h hp hd with ⟨k, hk⟩ | ⟨k, hk⟩
  · rw [← hF] at hk
    obtain ⟨k, rfl⟩ : ∃ j, k = j + 1 := ⟨k - 1, by
      rcases Nat.eq_zero_or_pos k with h0 | h0
      · rw [h0] at hk; omega
      · omega⟩
    have hkB : k < B := by
      by_contra hk'
      have := Nat.mul_le_mul_left F (show B + 1 ≤ k + 1 by omega)
      rw [mul_comm F (B + 1)] at this
      omega
    refine (hB k hkB).1 (Nat.mod_eq_zero_of_dvd ?_)
    rwa [mul_comm, ← hk, Nat.sub_add_cancel (by omega)]
  · rw [← hF] at hk
    obtain ⟨k, rfl⟩ : ∃ j, k = j + 1 := ⟨k - 1, by
      rcases Nat.eq_zero_or_pos k with h0 | h0
      · rw [h0] at hk; omega
      · omega⟩
    have hkB : k < B := by
      by_contra hk'
      have := Nat.mul_le_mul_left F (show B + 1 ≤ k + 1 by omega)
      rw [mul_comm F (B + 1)] at this
      omega
    refine (hB k hkB).2 (Nat.mod_eq_zero_of_dvd ?_)
    rwa [mul_comm, ← hk, Nat.add_sub_cancel]

end Pbc.Certify
