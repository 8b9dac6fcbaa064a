import Verif.Lemmas.Weil
import Verif.Props.Quotient
import Verif.Props.CmGen
import Verif.Props.NonDegAll
import Verif.Props.TwistOrder

/-!
# The orders the library computes are numbers of points
-/

set_option autoImplicit false
set_option linter.unusedSectionVars false

namespace Props

open Pbc Pbc.Curve Pbc.CmGen WeierstrassCurve WeierstrassCurve.Affine
open Spec (EC PtRep toPoly)

section extension

variable {F K : Type*} [Field F] [Fintype F] [DecidableEq F] [Field K] [Fintype K] [DecidableEq K] [Algebra F K] {a b : F}

local notation "φ" => algebraMap F K

/-- **C40**: what `pbc_mpz_curve_order_extn` computes from the number of points over the field of `q` elements is the number
of points over the field of `q^k` elements. -/
theorem C40_points (h2 : (2 : F) ≠ 0) (hD : 4 * a ^ 3 + 27 * b ^ 2 ≠ 0) {k : ℕ} (hk : 1 ≤ k)
    (hK : Fintype.card K = Fintype.card F ^ k) {t : ℤ} (ht : t = Fintype.card F + 1 - Nat.card (EC a b).Point) :
    orderExtn (Fintype.card F) t k = Nat.card (EC (φ a) (φ b)).Point := by
  rw [ht]
  exact (Hasse.card_extn h2 hD hk hK).symm

theorem trace_neg (q t : ℤ) : ∀ k : ℕ, (TraceDiv.frob q (-t) ^ k).trace = (-1) ^ k * (TraceDiv.frob q t ^ k).trace ∧
    (TraceDiv.frob q (-t) ^ (k + 1)).trace = (-1) ^ (k + 1) * (TraceDiv.frob q t ^ (k + 1)).trace := by
  intro k
  induction k with
  | zero => simp [TraceDiv.frob, Matrix.trace_fin_two]
  | succ k ih =>
    refine ⟨ih.2, ?_⟩
    rw [TraceDiv.trace_step, TraceDiv.trace_step, ih.1, ih.2]
    ring

theorem orderExtn_neg (q t : ℤ) {d : ℕ} (hd : Odd d) : orderExtn q (-t) d = 2 * q ^ d + 2 - orderExtn q t d := by
  rw [orderExtn, orderExtn, TraceDiv.traceN_eq _ _ _ hd.pos, TraceDiv.traceN_eq _ _ _ hd.pos, (trace_neg q t d).1,
    hd.neg_one_pow]
  ring

theorem nonsq_iff {v : K} : (¬ IsSquare v) ↔ ∀ s : K, s ^ 2 ≠ v + 0 * s := by
  constructor
  · rintro h s hs
    exact h ⟨s, by rw [← pow_two, hs]; ring⟩
  · rintro h ⟨s, hs⟩
    exact h s (by rw [hs]; ring)

/-- **C92** for types D (`d = 3`) and G (`d = 5`): the exponent set for comparing points of the twist, times `r`, is the number
of points of the twist over the field of `q^d` elements, and the division was exact. -/
theorem C92_typeD_points (hD : 4 * a ^ 3 + 27 * b ^ 2 ≠ 0) {v : F} (hv : ¬ IsSquare (φ v)) {q n r d : ℕ} (hd : Odd d)
    (hF : Fintype.card F = q) (hK : Fintype.card K = q ^ d) (hN : Nat.card (EC a b).Point = n) (hr : r ∣ n)
    (hq : r ∣ q ^ d + 1) :
    (PairingD.quotient q n r d).2 = true ∧
      Nat.card (EC (φ v ^ 2 * φ a) (φ v ^ 3 * φ b)).Point = (PairingD.quotient q n r d).1.natAbs * r := by
  subst hF
  have hfact : Fact (∀ s : K, s ^ 2 ≠ φ v + 0 * s) := ⟨nonsq_iff.1 hv⟩
  have h2 : (2 : F) ≠ 0 := PairingD.two_F (K := K) v
  have h1 := Hasse.card_extn (K := K) h2 hD hd.pos hK
  have h3 := Tate.card_twist (Hasse.two_up h2) (Hasse.disc_up hD) hv
  have hdv : (r : ℤ) ∣ orderExtn (Fintype.card F) (-(Fintype.card F - n + 1)) d :=
    quotientD_dvd hd.pos (by exact_mod_cast hr) (by exact_mod_cast hq)
  have e : (Nat.card (EC (φ v ^ 2 * φ a) (φ v ^ 3 * φ b)).Point : ℤ) =
      orderExtn (Fintype.card F) (-(Fintype.card F - n + 1)) d := by
    rw [orderExtn_neg _ _ hd, ← hN, show (Fintype.card F : ℤ) - Nat.card (EC a b).Point + 1 =
      Fintype.card F + 1 - Nat.card (EC a b).Point by ring, ← h1]
    rw [hK] at h3
    have h4 := congrArg (fun z : ℕ => (z : ℤ)) h3
    push_cast at h4
    linarith
  unfold PairingD.quotient
  dsimp only
  refine ⟨by rw [decide_eq_true_iff]; exact Int.emod_eq_zero_of_dvd hdv, ?_⟩
  rw [← Int.natCast_inj, e]
  push_cast
  rw [abs_of_nonneg (Int.ediv_nonneg (by rw [← e]; positivity) (by positivity)), Int.ediv_mul_cancel hdv]

/-- **C92** for type F: the exponent, times `r²`, is the number of points over the field of `q^12` elements. -/
theorem C92_typeF_points (h2 : (2 : F) ≠ 0) (h3 : (3 : F) ≠ 0) (hb : b ≠ 0) {q r : ℕ} (hF : Fintype.card F = q)
    (hK : Fintype.card K = q ^ 12) (hN : Nat.card (EC 0 b).Point = r) (hq : (r : ℤ) ∣ q ^ 4 - q ^ 2 + 1) :
    (PairingF.quotient q r).2 = true ∧
      (PairingF.quotient q r).1 * (r : ℤ) ^ 2 = Nat.card (EC (0 : K) (φ b)).Point := by
  subst hF
  have hr : (r : ℤ) ≠ 0 := by
    rw [← hN]
    exact_mod_cast Nat.card_pos.ne'
  have hD : 4 * (0 : F) ^ 3 + 27 * b ^ 2 ≠ 0 := by
    rw [show 4 * (0 : F) ^ 3 + 27 * b ^ 2 = 3 ^ 3 * b ^ 2 by ring]
    exact mul_ne_zero (pow_ne_zero _ h3) (pow_ne_zero _ hb)
  have h1 := Hasse.card_extn (K := K) h2 hD (by norm_num) hK
  rw [map_zero] at h1
  have hpt := C92_typeF (R := QuadraticAlgebra ℤ (-(Fintype.card F : ℤ)) (Fintype.card F + 1 - r)) (α := ⟨0, 1⟩)
    (β := ⟨Fintype.card F + 1 - r, -1⟩) hr hq (by ext <;> simp <;> rfl) (by ext <;> simp)
  refine ⟨hpt.1, ?_⟩
  have h4 := (C40_trace (R := QuadraticAlgebra ℤ (-(Fintype.card F : ℤ)) (Fintype.card F + 1 - r)) (Fintype.card F)
    (Fintype.card F + 1 - r) ⟨0, 1⟩ ⟨Fintype.card F + 1 - r, -1⟩ (by ext <;> simp <;> rfl) (by ext <;> simp) 12 (by norm_num)).2
  rw [h1, hN]
  have h5 := hpt.2.trans h4.symm
  exact congrArg QuadraticAlgebra.re h5

/-- **C111**, the orders that are recorded: when the curve has `n` points, `nk` is the number of its points over the field of
`q^k` elements. -/
theorem C111_nk_points (h2 : (2 : F) ≠ 0) (hD : 4 * a ^ 3 + 27 * b ^ 2 ≠ 0) {k : ℕ} (hk : 1 ≤ k)
    (hK : Fintype.card K = Fintype.card F ^ k) {n : ℕ} (hN : Nat.card (EC a b).Point = n) (r : ℤ) :
    (cmOrders (Fintype.card F) n r k).1 = Nat.card (EC (φ a) (φ b)).Point := by
  rw [Hasse.card_extn h2 hD hk hK, hN]
  simp only [cmOrders, orderExtn]
  rw [show (Fintype.card F : ℤ) - n + 1 = Fintype.card F + 1 - n by ring]
  ring

end extension

section typeD

open PairingD NonDeg

variable {F K : Type*} [Field F] [Fintype F] [DecidableEq F] [Field K] [Fintype K] [DecidableEq K] [Algebra F K]
  {E : Ext F K} {ξ : K} {q k r : ℕ} {a b v0 : F} [Fact (∀ s : K, s ^ 2 ≠ algebraMap F K v0 + 0 * s)]

local notation "φ" => algebraMap F K

/-- **C89**, **C107** for type D with the exponent that `d_init_pairing` sets: if the curve has `n` points, elements of G2 are
equal for `element_cmp` exactly if they have the same pairing with some, or any, `P ≠ O` of G1. -/
theorem C89_typeD_code (ht : TypeD E ξ q k r) (hodd : Odd E.d) {p : Data F K} (hi : initD E q k r a b v0 = some p)
    (h3 : (3 : F) ≠ 0) (hD : 4 * a ^ 3 + 27 * b ^ 2 ≠ 0) (hQ : 61 < q ^ E.d) {n : ℕ}
    (hN : Nat.card (EC a b).Point = n) (hr : r ∣ n) (hcop : ¬ r ∣ (quotient q n r E.d).1.natAbs)
    {m : Curve.Mem K} {i j : ℕ} {Q₁ Q₂ : (EC (φ v0 ^ 2 * φ a) (φ v0 ^ 3 * φ b)).Point}
    (h₁ : PtRep (m i) Q₁) (h₂ : PtRep (m j) Q₂) {p' : Pt F} {P : (EC a b).Point} (hp : PtRep p' P) (hP : P ≠ 0)
    (hrP : r • P = 0) :
    apply (pairing p millerAffine tatepowerD) p' (m i) = apply (pairing p millerAffine tatepowerD) p' (m j) ↔
    Curve.cmp (φ v0 ^ 2 * φ a) (some (quotient q n r E.d).1.natAbs) m i j = some false := by
  have hc := (C92_typeD_points (a := a) (b := b) (v := v0) hD (nonsq_iff.2 Fact.out) hodd ht.cardF ht.cardK hN hr
    (by rw [← ht.cardK]; exact Dvd.intro_left _ ht.cof.symm)).2
  exact C107_cmp ht hi h3 hD hQ hc ((Nat.Prime.coprime_iff_not_dvd ht.prime).2 hcop).symm h₁ h₂ hp hP hrP

end typeD

section checks

variable {F : Type*} [Field F] [Fintype F] [DecidableEq F] {a b : F}

/-- **C123**: the number of points of a curve differs from `q + 1` by at most `2 √q`. -/
theorem C123_interval (h2 : (2 : F) ≠ 0) (hD : 4 * a ^ 3 + 27 * b ^ 2 ≠ 0) :
    ((Nat.card (EC a b).Point : ℤ) - (Fintype.card F + 1)) ^ 2 ≤ 4 * Fintype.card F := by
  have h := Hasse.hasse h2 hD
  rw [Hasse.tr] at h
  nlinarith

/-- Two numbers in the interval that have a common divisor `r > 4 √q` are equal. -/
theorem interval_unique {q N n r : ℤ} (hq : 0 ≤ q) (hr : 16 * q < r ^ 2) (h1 : (N - (q + 1)) ^ 2 ≤ 4 * q)
    (h2 : (n - (q + 1)) ^ 2 ≤ 4 * q) (d1 : r ∣ N) (d2 : r ∣ n) : N = n := by
  obtain ⟨c, hc⟩ := dvd_sub d1 d2
  by_contra hne
  have hc0 : c ≠ 0 := by
    rintro rfl
    rw [mul_zero] at hc
    exact hne (sub_eq_zero.1 hc)
  have hsq : r ^ 2 ≤ (N - n) ^ 2 := by
    rw [hc, mul_pow]
    have : 1 ≤ c ^ 2 := by
      have := sq_nonneg c
      have : c ^ 2 ≠ 0 := pow_ne_zero 2 hc0
      omega
    nlinarith [sq_nonneg r]
  have : (N - n) ^ 2 ≤ 16 * q := by
    nlinarith [sq_nonneg ((N - (q + 1)) + (n - (q + 1)))]
  omega

theorem dvd_card_of_point {G : Type*} [AddGroup G] {r h : ℕ} (hr : r.Prime) {P : G} (h1 : (h * r) • P = 0)
    (h0 : h • P ≠ 0) : r ∣ Nat.card G := by
  have hf : Fact r.Prime := ⟨hr⟩
  have e : addOrderOf (h • P) = r := addOrderOf_eq_prime (by rw [← mul_nsmul]; exact h1) h0
  rw [← e]
  exact addOrderOf_dvd_natCard _

/-- **C123**: a single point can prove the order of the curve.  If `n = h r` is within `2 √q` of `q + 1`, `r` is a prime greater
than `4 √q`, and for some point the library finds that `n` times it is `O` but `h` times it is not, then the curve has `n`
points. -/
theorem C123_certificate (h2 : (2 : F) ≠ 0) (hD : 4 * a ^ 3 + 27 * b ^ 2 ≠ 0) {h r : ℕ} (hr : r.Prime)
    (hbig : 16 * Fintype.card F < r ^ 2)
    (hint : ((h * r : ℕ) - (Fintype.card F + 1) : ℤ) ^ 2 ≤ 4 * Fintype.card F) {p p₁ p₂ : Pt F}
    {P : (EC a b).Point} (hp : PtRep p P) (e₁ : scalar a p (h * r) = some p₁) (e₂ : scalar a p h = some p₂)
    (i₁ : p₁.inf = true) (i₂ : p₂.inf = false) : Nat.card (EC a b).Point = h * r := by
  obtain ⟨p₁', f₁, g₁⟩ := scalar_spec h2 hp (h * r)
  obtain ⟨p₂', f₂, g₂⟩ := scalar_spec h2 hp h
  rw [e₁, Option.some.injEq] at f₁
  rw [e₂, Option.some.injEq] at f₂
  subst f₁ f₂
  have z₁ := (rep_inf g₁).1 i₁
  have z₂ : h • P ≠ 0 := fun z => by rw [(rep_inf g₂).2 z] at i₂; cases i₂
  have hd := dvd_card_of_point hr z₁ z₂
  have := interval_unique (r := r) (Int.natCast_nonneg _) (by exact_mod_cast hbig) (C123_interval h2 hD) hint
    (by exact_mod_cast hd) (by push_cast; exact dvd_mul_left _ _)
  exact_mod_cast this

theorem curveJ_coeffs {j a b : F} (h : curveJ j = some (a, b)) : 2 * a = 3 * b := by
  unfold curveJ at h
  dsimp only at h
  split at h
  · cases h
  · cases h
    push_cast
    ring

/-- **C111**, the order.  If the class polynomial belongs to the order wanted (`hCM`, as in `C111_order_partial`), `n = h r` with
a prime `r > 4 √q` is within `2 √q` of `q + 1`, and `h` times the point drawn for the test is not `O`, then the curve returned has
exactly `n` points.  If the curve was not twisted, this holds whatever the class polynomial is. -/
theorem C111_order_large_partial (h2 : (2 : F) ≠ 0) (h3 : (3 : F) ≠ 0) {coeffs : List ℤ} {d : ℕ} (hd : 2 ≤ d)
    (hc : Polymod.Modulus d coeffs) (hroot : ∃ j : F, Polynomial.aeval j (toPoly coeffs) = 0)
    (h0 : Polynomial.aeval (0 : F) (toPoly coeffs) ≠ 0) {isSqr : F → Bool} (hs : ∀ a, isSqr a = true ↔ IsSquare a)
    {sq : F → F} (hsq : ∀ a, IsSquare a → sq a ^ 2 = a) {vs : List F} {nqr : F} (hv : genNqr isSqr vs = some nqr)
    {h r : ℕ} {rnd draws : List F} {x : ℕ} {a b : F} (hr : r.Prime) (hbig : 16 * Fintype.card F < r ^ 2)
    (hint : ((h * r : ℕ) - (Fintype.card F + 1) : ℤ) ^ 2 ≤ 4 * Fintype.card F)
    (draw : ∀ (j a b : F) (p : Pt F), classRoot (Fintype.card F) coeffs rnd = some j → curveJ j = some (a, b) →
      randomPoint isSqr sq a b draws x = some p → ∀ p', scalar a p h = some p' → p'.inf = false)
    (hg : cmCurve isSqr sq nqr (Fintype.card F) (h * r) coeffs rnd draws x = some (a, b)) :
    ((∀ (a b : F) (_ : (EC a b).IsElliptic), Polynomial.aeval (EC a b).j (toPoly coeffs) = 0 →
        Nat.card (EC a b).Point = h * r ∨ Nat.card (EC a b).Point + h * r = 2 * Fintype.card F + 2) →
      Nat.card (EC a b).Point = h * r) ∧
    ((∃ j, classRoot (Fintype.card F) coeffs rnd = some j ∧ curveJ j = some (a, b)) → Nat.card (EC a b).Point = h * r) := by
  obtain ⟨j₀, a₀, b₀, -, hcr, hcj, ⟨i1, -⟩, ht⟩ := cmCurve_start h2 h3 hd hc hroot h0 hg
  have key : ∀ (j a b : F) (p : Pt F) (P : (EC a b).Point), classRoot (Fintype.card F) coeffs rnd = some j →
      curveJ j = some (a, b) → randomPoint isSqr sq a b draws x = some p → PtRep p P → (h * r) • P = 0 →
      Nat.card (EC a b).Point = h * r := by
    intro j a b p P hj hab hp hP h0
    have eab : (a, b) = (a₀, b₀) := by
      rw [hcr, Option.some.injEq] at hj
      subst hj
      rw [hcj, Option.some.injEq] at hab
      exact hab.symm
    obtain ⟨rfl, rfl⟩ := Prod.mk.inj eab
    obtain ⟨p₁, f₁, g₁⟩ := scalar_spec h2 hP (h * r)
    obtain ⟨p₂, f₂, g₂⟩ := scalar_spec h2 hP h
    exact C123_certificate h2 ((disc_iff h2).1 i1) hr hbig hint hP f₁ f₂ ((rep_inf g₁).2 h0) (draw j a b p hj hab hp p₂ f₂)
  refine ⟨fun hCM => C111_order_partial h2 h3 hd hc hroot h0 hs hsq hv hCM key hg, ?_⟩
  rintro ⟨j, hj, hab⟩
  have eab : (a, b) = (a₀, b₀) := by
    rw [hcr, Option.some.injEq] at hj
    subst hj
    rw [hcj, Option.some.injEq] at hab
    exact hab.symm
  obtain ⟨rfl, rfl⟩ := Prod.mk.inj eab
  obtain ⟨p, P, hp, hP, e⟩ := twistTest_spec h2 ((disc_iff h2).1 i1) hs hsq ht
  refine key j a b p P hj hab hp hP ?_
  by_contra hn
  rw [if_neg hn] at e
  have hns := genNqr_spec hs vs nqr hv
  have hv0 : nqr ≠ 0 := by rintro rfl; exact hns IsSquare.zero
  have ea : a = nqr ^ 2 * a := (congrArg Prod.fst e).trans (by simp only [twist]; ring)
  have eb : b = nqr ^ 3 * b := (congrArg Prod.snd e).trans (by simp only [twist]; ring)
  -- a curve with both coefficients other than 0 is not its own twist
  have hb0 : b ≠ 0 := by
    rintro rfl
    refine (disc_iff h2).1 i1 ?_
    have := curveJ_coeffs hab
    rw [mul_zero] at this
    rw [(mul_eq_zero.1 this).resolve_left h2]
    ring
  have h1 : nqr ^ 3 = 1 := mul_right_cancel₀ hb0 (by rw [← eb, one_mul])
  exact hns ⟨nqr ^ 2, by linear_combination -nqr * h1⟩

end checks

section examples

local instance : Fact (Nat.Prime 19) := ⟨by norm_num⟩
local instance : Fact (Nat.Prime 79) := ⟨by norm_num⟩

theorem point19 : ((EC (2 : ZMod 19) 9)).Nonsingular 0 3 :=
  Hasse.nonsing_of_disc (by decide) (by decide) _ _ (by decide)

/-- **C123**: `Y² = X³ + 2 X + 9` over the field of 19 elements has 23 points, for 23 times `(0, 3)` is `O`. -/
example : Nat.card (EC (2 : ZMod 19) 9).Point = 1 * 23 :=
  C123_certificate (p := ⟨false, 0, 3⟩) (p₁ := ⟨true, 0, 0⟩) (p₂ := ⟨false, 0, 3⟩) (P := .some 0 3 point19) (by decide)
    (by decide) (by norm_num) (by rw [ZMod.card]; norm_num) (by rw [ZMod.card]; norm_num) ⟨rfl, rfl, rfl⟩ (by decide +kernel)
    (by decide +kernel) rfl rfl

/-- Over the field of `19³` elements it has 6716 points. -/
example {K : Type} [Field K] [Fintype K] [DecidableEq K] [Algebra (ZMod 19) K] (hK : Fintype.card K = 19 ^ 3) 
    (hN : Nat.card (EC (2 : ZMod 19) 9).Point = 23) :
    Nat.card (EC (algebraMap (ZMod 19) K 2) (algebraMap (ZMod 19) K 9)).Point = 6716 := by
  have h := C40_points (K := K) (a := (2 : ZMod 19)) (b := 9) (k := 3) (t := -3) (by decide) (by decide) (by norm_num)
    (by rw [hK, ZMod.card]) (by rw [hN, ZMod.card]; norm_num)
  rw [ZMod.card] at h
  have h' : (6716 : ℤ) = Nat.card (EC (algebraMap (ZMod 19) K 2) (algebraMap (ZMod 19) K 9)).Point := by
    rw [← h]; decide
  exact_mod_cast h'.symm

theorem curve79 : Nat.card (EC (1 : ZMod 79) 23).Point = 90 := by
  rw [Tate.card_eq (Tate.nonsingular_of_disc (by decide) (by decide))]
  decide +kernel

example := C92_typeD_points (K := ZMod 79) (a := (1 : ZMod 79)) (b := 23) (v := 3) (q := 79) (n := 90) (r := 5) (d := 1) (by decide)
  (by simp only [Algebra.algebraMap_self, RingHom.id_apply]; decide +kernel) (by decide) (ZMod.card 79) (ZMod.card 79) curve79
  (by decide) (by decide)

local instance : Fact (∀ s : ZMod 79, s ^ 2 ≠ algebraMap (ZMod 79) (ZMod 79) 3 + 0 * s) :=
  ⟨by simp only [Algebra.algebraMap_self, RingHom.id_apply]; decide +kernel⟩

open NonDeg in
example {p : PairingD.Data (ZMod 79) (ZMod 79)} (hi : PairingD.initD E79 79 2 5 1 23 3 = some p) {m : Curve.Mem (ZMod 79)}
    (h₁ : PtRep (m 0) Q79) (h₂ : PtRep (m 1) (2 • Q79)) :=
  C89_typeD_code (n := 90) (P := P79) (p' := ⟨false, 57, 52⟩) type79 (by decide) hi (by decide) (by decide +kernel) (by decide)
    curve79 (by decide) (by decide +kernel) h₁ h₂ P79_rep (Point.some_ne_zero _) P79_order

/-- Type F: `q = 19`, `r = 13`. -/
example {K : Type} [Field K] [Fintype K] [DecidableEq K] [Algebra (ZMod 19) K] (hK : Fintype.card K = 19 ^ 12) :=
  C92_typeF_points (K := K) (b := (2 : ZMod 19)) (q := 19) (r := 13) (by decide) (by decide) (by decide) (ZMod.card 19) hK
    (by rw [Tate.card_eq (Tate.nonsingular_of_disc (by decide) (by decide))]; decide +kernel) (by decide)

example {K : Type} [Field K] [Fintype K] [DecidableEq K] [Algebra (ZMod 79) K] (hK : Fintype.card K = 79 ^ 6) :=
  C111_nk_points (K := K) (a := (1 : ZMod 79)) (b := 23) (k := 6) (by decide) (by decide) (by norm_num) (by rw [hK, ZMod.card])
    curve79 5

/-- Square roots modulo 79. -/
def root79 (a : ZMod 79) : ZMod 79 :=
  (((List.range 79).map fun i : ℕ => (i : ZMod 79)).find? fun y => decide (y ^ 2 = a)).getD 0

/-- Discriminant -35, class polynomial `x² + 117964800 x - 134217728000`, in the field of 79 elements
(`4 · 79 = 1 + 35 · 3²`): a curve with 79 points is found. -/
example : cmCurve (fun a : ZMod 79 => decide (IsSquare a)) root79 3 79 79 [-134217728000, 117964800, 1] [20, 1, 2, 3] [0, 1, 2, 3] 3 =
    some (4, 29) := by decide +kernel

/-- It is certain that it has 79 points. -/
example : Nat.card (EC (4 : ZMod 79) 29).Point = 1 * 79 := by
  have hcr : classRoot 79 ([-134217728000, 117964800, 1] : List ℤ) ([20, 1, 2, 3] : List (ZMod 79)) = some 62 := by decide +kernel
  have hcj : curveJ (62 : ZMod 79) = some (4, 29) := by decide +kernel
  have hrp : randomPoint (fun a : ZMod 79 => decide (IsSquare a)) root79 4 29 [0, 1, 2, 3] 3 = some ⟨false, 8, 39⟩ := by decide +kernel
  refine (C111_order_large_partial (F := ZMod 79) (coeffs := [-134217728000, 117964800, 1]) (d := 2) (h := 1) (r := 79)
    (isSqr := fun a => decide (IsSquare a)) (sq := root79) (vs := [1, 3]) (nqr := 3) (rnd := [20, 1, 2, 3]) (draws := [0, 1, 2, 3]) (x := 3)
    (by decide) (by decide) le_rfl ⟨by norm_num, rfl, rfl⟩ ?_ ?_ (fun a => by simp) (by decide +kernel) (by decide +kernel)
    (by norm_num) (by rw [ZMod.card]; norm_num) (by rw [ZMod.card]; norm_num) ?_ (by rw [ZMod.card]; decide +kernel)).2
    ⟨62, by rw [ZMod.card]; exact hcr, hcj⟩
  · refine ⟨62, ?_⟩
    rw [← toPoly_classPoly]; simp [classPoly, Poly.toPoly_cons, Poly.toPoly_nil]; decide
  · rw [← toPoly_classPoly]; simp [classPoly, Poly.toPoly_cons, Poly.toPoly_nil]; decide
  · intro j a b p hj hab hp p' hp'
    rw [ZMod.card, hcr] at hj
    cases hj
    rw [hcj] at hab
    cases hab
    rw [hrp] at hp
    cases hp
    revert hp'
    revert p'
    decide +kernel

end examples

end Props
