import Verif.Lemmas.EtaTPlace
import Verif.Props.Ternary

/-! # The type I pairing: arithmetic in the field of `3^(6m)` elements -/

set_option autoImplicit false
set_option linter.unusedSectionVars false

namespace Pbc.EtaT

open Spec Tate
open Pbc.Ternary (E2 E3)

private instance : Fact (Nat.Prime 3) := ⟨by decide⟩

variable {F : Type*} [Field F] [DecidableEq F]
  {K : Type*} [Field K] {L : Type*} [Field L] [Algebra F K] [Algebra K L] {m : ℕ} {ρ : K} {σ : L}

/-- The value of an element of the quadratic extension. -/
def val2 (ψ : F →+* L) (hσ : σ ^ 2 = -1) : E2 F →+* L where
  toFun a := a.val ψ σ
  map_zero' := by show E2.val ψ σ ⟨0, 0⟩ = 0; simp [E2.val]
  map_one' := (Pbc.Ternary.C66_gf32m ψ hσ 0 0).1
  map_add' a b := (Pbc.Ternary.C66_gf32m ψ hσ a b).2.1
  map_mul' a b := (Pbc.Ternary.C66_gf32m ψ hσ a b).2.2.2.2

section value

variable (ψ : F →+* L) (hσ : σ ^ 2 = -1) {r : L}

/-- The value of an element of the field of `3^(6m)` elements: `E3.val` over `E2.val`. -/
def value (r : L) (u : E3 (E2 F)) : L := u.val (val2 ψ hσ) r

theorem value_eq (u : E3 (E2 F)) :
    value ψ hσ r u = (ψ u.c0.c0 + ψ u.c0.c1 * σ) + (ψ u.c1.c0 + ψ u.c1.c1 * σ) * r +
      (ψ u.c2.c0 + ψ u.c2.c1 * σ) * r ^ 2 := by
  simp [value, E3.val, val2, E2.val]

theorem value_one : value ψ hσ r E3.one = 1 := by
  rw [value, E3.val, E3.one]
  simp

theorem value_mul (hr : r ^ 3 = r + 1) (u v : E3 (E2 F)) :
    value ψ hσ r (u.mul v) = value ψ hσ r u * value ψ hσ r v :=
  (Pbc.Ternary.C66_gf33m (val2 ψ hσ) hr u v).2.2.2

theorem value_cubic [CharP L 3] (hr : r ^ 3 = r + 1) (u : E3 (E2 F)) :
    value ψ hσ r (cubic u) = value ψ hσ r u ^ 3 := by
  have h3 : (3 : L) = 0 := three (F := L)
  rw [value_eq, value_eq]
  have e : ∀ a b c : L, (a + b + c) ^ 3 = a ^ 3 + b ^ 3 + c ^ 3 := fun a b c => by
    rw [add_pow_char, add_pow_char]
  have e2 : ∀ a b : L, (a + b) ^ 3 = a ^ 3 + b ^ 3 := fun a b => add_pow_char a b 3
  have hs : σ ^ 3 = -σ := by rw [pow_succ, hσ]; ring
  have hr2 : (r ^ 2) ^ 3 = r ^ 2 + 2 * r + 1 := by rw [← pow_mul, mul_comm, pow_mul, hr]; ring
  rw [e, mul_pow, mul_pow, e2, e2, e2, mul_pow, mul_pow, mul_pow, hs, hr2, hr]
  have c0 : (cubic u).c0 = ⟨u.c0.c0 ^ 3 + u.c1.c0 ^ 3 + u.c2.c0 ^ 3, -u.c0.c1 ^ 3 + -u.c1.c1 ^ 3 + -u.c2.c1 ^ 3⟩ :=
    rfl
  have c1 : (cubic u).c1 = ⟨u.c1.c0 ^ 3 - u.c2.c0 ^ 3, -u.c1.c1 ^ 3 - -u.c2.c1 ^ 3⟩ := rfl
  have c2 : (cubic u).c2 = ⟨u.c2.c0 ^ 3, -u.c2.c1 ^ 3⟩ := rfl
  rw [c0, c1, c2]
  simp only [map_add, map_sub, map_neg, map_pow]
  linear_combination (-(ψ u.c2.c0 ^ 3 - ψ u.c2.c1 ^ 3 * σ) * r) * h3

theorem value_quadratic [CharP L 3] (t u : F) : value ψ hσ r (quadratic t u) = ψ u * σ - (ψ t - r) ^ 2 := by
  have h3 : (3 : L) = 0 := three (F := L)
  rw [value_eq]
  simp only [quadratic, map_neg, map_mul, map_zero, map_one]
  linear_combination (-ψ t * r) * h3

omit [DecidableEq F] in
theorem e2_ops (a b : E2 F) : (a * b).c0 = a.c0 * b.c0 - a.c1 * b.c1 ∧
    (a * b).c1 = (a.c1 + a.c0) * (b.c1 + b.c0) - a.c1 * b.c1 - a.c0 * b.c0 ∧
    (a + b).c0 = a.c0 + b.c0 ∧ (a + b).c1 = a.c1 + b.c1 ∧ (a - b).c0 = a.c0 - b.c0 ∧
    (a - b).c1 = a.c1 - b.c1 := ⟨rfl, rfl, rfl, rfl, rfl, rfl⟩

omit [DecidableEq F] in
theorem ext2 {a b : E2 F} (h0 : a.c0 = b.c0) (h1 : a.c1 = b.c1) : a = b := by
  cases a; cases b; simp_all

omit [DecidableEq F] in
theorem ext6 {a b : E3 (E2 F)} (h00 : a.c0.c0 = b.c0.c0) (h01 : a.c0.c1 = b.c0.c1) (h10 : a.c1.c0 = b.c1.c0)
    (h11 : a.c1.c1 = b.c1.c1) (h20 : a.c2.c0 = b.c2.c0) (h21 : a.c2.c1 = b.c2.c1) : a = b := by
  have e0 := ext2 h00 h01
  have e1 := ext2 h10 h11
  have e2 := ext2 h20 h21
  cases a; cases b; simp_all

/-- The sparse cube of `algorithm4a` is the cube of the sparse element. -/
theorem alg4a_eq (t u : F) : alg4a t u = cubic (quadratic t u) := by
  refine ext6 ?_ ?_ ?_ ?_ ?_ ?_
  · show -(t ^ 3 * t ^ 3) - t ^ 3 - 1 = (t * -t) ^ 3 + (-t) ^ 3 + (-1) ^ 3; ring
  · show -u ^ 3 = -u ^ 3 + -0 ^ 3 + -0 ^ 3; ring
  · show 1 - t ^ 3 = (-t) ^ 3 - (-1) ^ 3; ring
  · show (0 : F) = -0 ^ 3 - -0 ^ 3; ring
  · show (-1 : F) = (-1) ^ 3; ring
  · show (0 : F) = -0 ^ 3; ring

end value

/-! ### Two extensions -/

/-- The part without `σ`, and the factor of `σ`. -/
def re (u : E3 (E2 F)) : E3 F := ⟨u.c0.c0, u.c1.c0, u.c2.c0⟩
def im (u : E3 (E2 F)) : E3 F := ⟨u.c0.c1, u.c1.c1, u.c2.c1⟩

/-- The value in the cubic extension. -/
def val3 (ρ : K) (a : E3 F) : K := a.val (algebraMap F K) ρ

variable [CharP F 3] [Fintype F] [DecidableEq K] [CharP K 3] [CharP L 3]

/-- The value in the tower. -/
def Tower.value (T : Tower F K L m ρ σ) (u : E3 (E2 F)) : L :=
  EtaT.value ((algebraMap K L).comp (algebraMap F K)) T.hσ (algebraMap K L ρ) u

namespace Tower

variable (T : Tower F K L m ρ σ)

include T

theorem hρL : algebraMap K L ρ ^ 3 = algebraMap K L ρ + 1 := by
  rw [← map_pow, T.hρ, map_add, map_one]

theorem value_reim (u : E3 (E2 F)) :
    T.value u = algebraMap K L (val3 ρ (re u)) + σ * algebraMap K L (val3 ρ (im u)) := by
  rw [value, value_eq]
  simp only [val3, E3.val, re, im, map_add, map_mul, map_pow, RingHom.comp_apply]
  ring

theorem val3_eq_zero (hg : Good m) {a : E3 F} (h : val3 ρ a = 0) : a = ⟨0, 0, 0⟩ := by
  by_contra ha
  have hn := Pbc.Ternary.norm_ne_zero (Pbc.Ternary.no_root T.card (by unfold Good at hg; omega)) ha
  have e := Pbc.Ternary.adj_mul (algebraMap F K) T.hρ a
  have h' : a.val (algebraMap F K) ρ = 0 := h
  rw [h', mul_zero] at e
  exact hn (by simpa using e.symm)

theorem sq_add_sq {a b : K} (h : a ^ 2 + b ^ 2 = 0) : a = 0 ∧ b = 0 := by
  have hb : b = 0 := by
    by_contra hb
    have e : (algebraMap K L (a / b)) ^ 2 = σ ^ 2 := by
      rw [T.hσ, ← map_pow, div_pow, show a ^ 2 = -b ^ 2 by linear_combination h, neg_div,
        div_self (pow_ne_zero 2 hb), map_neg, map_one]
    rcases sq_eq_sq_iff_eq_or_eq_neg.1 e with e | e
    · exact T.irr _ e.symm
    · exact T.irr (-(a / b)) (by rw [map_neg, e, neg_neg])
  subst hb
  exact ⟨by simpa using h, rfl⟩

theorem reim_zero {a b : K} (h : algebraMap K L a + σ * algebraMap K L b = 0) : a = 0 ∧ b = 0 := by
  refine T.sq_add_sq ?_
  have e : algebraMap K L (a ^ 2 + b ^ 2) = 0 := by
    rw [map_add, map_pow, map_pow]
    linear_combination (algebraMap K L a - σ * algebraMap K L b) * h + algebraMap K L b ^ 2 * T.hσ
  exact (map_eq_zero _).1 e

theorem value_eq_zero (hg : Good m) {u : E3 (E2 F)} (h : T.value u = 0) : u = ⟨0, 0, 0⟩ := by
  rw [value_reim] at h
  obtain ⟨h1, h2⟩ := T.reim_zero h
  have e1 := T.val3_eq_zero hg h1
  have e2 := T.val3_eq_zero hg h2
  simp only [re, im, E3.mk.injEq] at e1 e2
  exact ext6 e1.1 e2.1 e1.2.1 e2.2.1 e1.2.2 e2.2.2

theorem value_sub (u v : E3 (E2 F)) : T.value (u.sub v) = T.value u - T.value v :=
  (Pbc.Ternary.C66_gf33m (val2 _ T.hσ) T.hρL u v).2.2.1

theorem value_injective (hg : Good m) : Function.Injective T.value := by
  intro u v h
  have := T.value_eq_zero hg (u := u.sub v) (by rw [value_sub, h, sub_self])
  simp only [E3.sub, E3.mk.injEq, sub_eq_zero] at this
  cases u; cases v; simp_all

theorem value_mul (u v : E3 (E2 F)) : T.value (u.mul v) = T.value u * T.value v :=
  EtaT.value_mul _ T.hσ T.hρL u v

theorem value_one : T.value E3.one = 1 := EtaT.value_one _ T.hσ

theorem value_cubic (u : E3 (E2 F)) : T.value (cubic u) = T.value u ^ 3 :=
  EtaT.value_cubic _ T.hσ T.hρL u

theorem value_cubic_iter (u : E3 (E2 F)) (n : ℕ) : T.value (cubic^[n] u) = T.value u ^ 3 ^ n := by
  induction n with
  | zero => simp
  | succ n ih => rw [Function.iterate_succ_apply', value_cubic, ih, ← pow_mul, pow_succ]

/-! ### Powers of the Frobenius map -/

theorem frob3 (hg : Good m) (a b : K) :
    (algebraMap K L a + σ * algebraMap K L b) ^ 3 ^ (3 * m) = algebraMap K L a - σ * algebraMap K L b := by
  rw [add_pow, mul_pow, ← map_pow, ← map_pow, T.frobK, T.frobK, sigma_pow T.hσ,
    Odd.neg_one_pow (Nat.odd_iff.2 (by have := hg.odd; omega))]
  ring

/-- Conjugation. -/
def conj (u : E3 (E2 F)) : E3 (E2 F) :=
  ⟨⟨u.c0.c0, -u.c0.c1⟩, ⟨u.c1.c0, -u.c1.c1⟩, ⟨u.c2.c0, -u.c2.c1⟩⟩

theorem value_conj (hg : Good m) (u : E3 (E2 F)) : T.value (conj u) = T.value u ^ 3 ^ (3 * m) := by
  rw [T.value_reim u, T.frob3 hg, value_reim]
  have e1 : re (conj u) = re u := rfl
  have e2 : val3 ρ (im (conj u)) = -val3 ρ (im u) := by
    simp only [im, conj, val3, E3.val, map_neg]; ring
  rw [e1, e2, map_neg]
  ring

/-- The `q`-th power. -/
def frq (M : F) (u : E3 (E2 F)) : E3 (E2 F) :=
  ⟨⟨u.c0.c0 + M * u.c1.c0 + u.c2.c0, -(u.c0.c1 + M * u.c1.c1 + u.c2.c1)⟩,
    ⟨u.c1.c0 + 2 * M * u.c2.c0, -(u.c1.c1 + 2 * M * u.c2.c1)⟩, ⟨u.c2.c0, -u.c2.c1⟩⟩

theorem value_frq (hg : Good m) (u : E3 (E2 F)) : T.value (frq (m : F) u) = T.value u ^ 3 ^ m := by
  have hM : (m : L) ^ 2 = 1 := by
    have : ((m * m : ℕ) : L) = (1 : ℕ) := (CharP.natCast_eq_natCast L 3).2 (by
      have : m % 3 = 1 ∨ m % 3 = 2 := by unfold Good at hg; omega
      rcases this with h | h <;> rw [Nat.ModEq, Nat.mul_mod, h])
    push_cast at this
    rw [sq, this]
  have hψ : ∀ a : F, ((algebraMap K L).comp (algebraMap F K) a) ^ 3 ^ m =
      (algebraMap K L).comp (algebraMap F K) a := fun a => by rw [← map_pow, pow_q T.card]
  have hr : algebraMap K L ρ ^ 3 ^ m = algebraMap K L ρ + m := by
    rw [← map_pow, rho_pow T.hρ, map_add, map_natCast]
  have hs := sigma_pow T.hσ m
  rw [Odd.neg_one_pow (Nat.odd_iff.2 hg.odd), neg_one_mul] at hs
  have hr2 : (algebraMap K L ρ ^ 2) ^ 3 ^ m = (algebraMap K L ρ + m) ^ 2 := by
    rw [← pow_mul, mul_comm, pow_mul, hr]
  rw [value, value, value_eq, value_eq, add_pow, add_pow, mul_pow, mul_pow, add_pow, add_pow, add_pow, mul_pow,
    mul_pow, mul_pow, hψ, hψ, hψ, hψ, hψ, hψ, hs, hr2, hr]
  simp only [frq, map_add, map_mul, map_neg, map_natCast, map_ofNat]
  linear_combination (-((algebraMap K L).comp (algebraMap F K) u.c2.c0) +
    ((algebraMap K L).comp (algebraMap F K) u.c2.c1) * σ) * hM

/-! ### The final powering -/

/-- Elements of norm 1 over the cubic extension. -/
def Unit1 (ρ : K) (u : E3 (E2 F)) : Prop := val3 ρ (re u) ^ 2 + val3 ρ (im u) ^ 2 = 1

theorem unit1_iff (hg : Good m) (u : E3 (E2 F)) : Unit1 ρ u ↔ T.value u * T.value u ^ 3 ^ (3 * m) = 1 := by
  rw [T.value_reim u, T.frob3 hg]
  have e : (algebraMap K L (val3 ρ (re u)) + σ * algebraMap K L (val3 ρ (im u))) *
      (algebraMap K L (val3 ρ (re u)) - σ * algebraMap K L (val3 ρ (im u))) =
      algebraMap K L (val3 ρ (re u) ^ 2 + val3 ρ (im u) ^ 2) := by
    rw [map_add, map_pow, map_pow]
    linear_combination (-algebraMap K L (val3 ρ (im u)) ^ 2) * T.hσ
  rw [e, Unit1]
  constructor
  · intro h; rw [h, map_one]
  · intro h; exact (algebraMap K L).injective (by rw [h, map_one])

theorem val3_mul (a b : E3 F) : val3 ρ (a.mul b) = val3 ρ a * val3 ρ b :=
  (Pbc.Ternary.C66_gf33m (algebraMap F K) T.hρ a b).2.2.2

theorem val3_add (a b : E3 F) : val3 ρ (a.add b) = val3 ρ a + val3 ρ b :=
  (Pbc.Ternary.C66_gf33m (algebraMap F K) T.hρ a b).2.1

theorem val3_sub (a b : E3 F) : val3 ρ (a.sub b) = val3 ρ a - val3 ρ b :=
  (Pbc.Ternary.C66_gf33m (algebraMap F K) T.hρ a b).2.2.1

/-- `algorithm6` is the power `q³ - 1`, and its result has norm 1. -/
theorem alg6_spec (hg : Good m) {u : E3 (E2 F)} (hu : u ≠ ⟨0, 0, 0⟩) :
    ∃ v, alg6 u = some v ∧ T.value v = T.value u ^ (3 ^ (3 * m) - 1) ∧ Unit1 ρ v := by
  have h0 : T.value u ≠ 0 := fun h => hu (T.value_eq_zero hg h)
  have hs : val3 ρ (re u) ^ 2 + val3 ρ (im u) ^ 2 ≠ 0 := by
    intro h
    obtain ⟨h1, h2⟩ := T.sq_add_sq h
    exact h0 (by rw [value_reim, h1, h2]; simp)
  have ea : val3 ρ (((re u).mul (re u)).add ((im u).mul (im u))) = val3 ρ (re u) ^ 2 + val3 ρ (im u) ^ 2 := by
    rw [T.val3_add, T.val3_mul, T.val3_mul, sq, sq]
  have hne : ((re u).mul (re u)).add ((im u).mul (im u)) ≠ ⟨0, 0, 0⟩ := by
    intro h
    rw [h] at ea
    exact hs (by rw [← ea]; simp [val3, E3.val])
  have hi := Pbc.Ternary.C66_gf33m_invert (algebraMap F K)
    (Pbc.Ternary.no_root T.card (by unfold Good at hg; omega)) T.hρ hne
  change val3 ρ _ * val3 ρ _ = 1 at hi
  rw [ea] at hi
  have hc : ¬((((re u).mul (re u)).add ((im u).mul (im u))).c0 = 0 ∧
      (((re u).mul (re u)).add ((im u).mul (im u))).c1 = 0 ∧
      (((re u).mul (re u)).add ((im u).mul (im u))).c2 = 0) := by
    rintro ⟨a, b, c⟩
    generalize ((re u).mul (re u)).add ((im u).mul (im u)) = w at *
    cases w
    simp_all
  generalize hw : (((re u).mul (re u)).add ((im u).mul (im u))).invert (fun x => x⁻¹) = w at hi
  refine ⟨⟨⟨((((re u).mul (re u)).sub ((im u).mul (im u))).mul w).c0, (((re u).mul (im u)).mul w).c0⟩,
    ⟨((((re u).mul (re u)).sub ((im u).mul (im u))).mul w).c1, (((re u).mul (im u)).mul w).c1⟩,
    ⟨((((re u).mul (re u)).sub ((im u).mul (im u))).mul w).c2, (((re u).mul (im u)).mul w).c2⟩⟩, ?_, ?_⟩
  · rw [alg6]
    show (if (((re u).mul (re u)).add ((im u).mul (im u))).c0 = 0 ∧
      (((re u).mul (re u)).add ((im u).mul (im u))).c1 = 0 ∧
      (((re u).mul (re u)).add ((im u).mul (im u))).c2 = 0 then none else _) = _
    rw [if_neg hc]
    rw [← hw]
    rfl
  · generalize hv : (⟨⟨((((re u).mul (re u)).sub ((im u).mul (im u))).mul w).c0, (((re u).mul (im u)).mul w).c0⟩,
      ⟨((((re u).mul (re u)).sub ((im u).mul (im u))).mul w).c1, (((re u).mul (im u)).mul w).c1⟩,
      ⟨((((re u).mul (re u)).sub ((im u).mul (im u))).mul w).c2, (((re u).mul (im u)).mul w).c2⟩⟩ :
        E3 (E2 F)) = v
    have e1 : re v = ((((re u).mul (re u)).sub ((im u).mul (im u))).mul w) := by rw [← hv]; rfl
    have e2 : im v = (((re u).mul (im u)).mul w) := by rw [← hv]; rfl
    have key : T.value v * T.value u = T.value u ^ 3 ^ (3 * m) := by
      rw [T.value_reim u, T.frob3 hg, value_reim, e1, e2]
      rw [T.val3_mul, T.val3_sub, T.val3_mul, T.val3_mul, T.val3_mul, T.val3_mul]
      have hi' := congrArg (algebraMap K L) hi
      have h3 : (3 : L) = 0 := three (F := L)
      have hσ := T.hσ
      simp only [map_mul, map_add, map_sub, map_pow, map_one] at hi' ⊢
      generalize algebraMap K L (val3 ρ (re u)) = A at *
      generalize algebraMap K L (val3 ρ (im u)) = B at *
      generalize algebraMap K L (val3 ρ w) = i at *
      linear_combination (A - σ * B) * hi' + (i * A * B ^ 2) * hσ + (-i * A * B ^ 2 + i * σ * A ^ 2 * B) * h3
    have h1 : 1 ≤ 3 ^ (3 * m) := Nat.one_le_pow _ _ (by decide)
    have e3 : T.value v = T.value u ^ (3 ^ (3 * m) - 1) := by
      refine mul_right_cancel₀ h0 ?_
      rw [key, ← pow_succ, Nat.sub_add_cancel h1]
    refine ⟨e3, (T.unit1_iff hg v).2 ?_⟩
    have h6 := T.frobL (T.value u)
    have e6 : (T.value u ^ 3 ^ (3 * m)) ^ 3 ^ (3 * m) = T.value u := by
      rw [← pow_mul, ← Nat.pow_add, ← two_mul, ← mul_assoc]
      exact h6
    have hne6 : T.value u ^ 3 ^ (3 * m) ≠ 0 := pow_ne_zero _ h0
    have k2 : T.value v ^ 3 ^ (3 * m) * T.value u ^ 3 ^ (3 * m) = T.value u := by
      rw [← mul_pow, key, e6]
    refine mul_right_cancel₀ (mul_ne_zero h0 hne6) ?_
    calc T.value v * T.value v ^ 3 ^ (3 * m) * (T.value u * T.value u ^ 3 ^ (3 * m))
        = (T.value v * T.value u) * (T.value v ^ 3 ^ (3 * m) * T.value u ^ 3 ^ (3 * m)) := by ring
      _ = 1 * (T.value u * T.value u ^ 3 ^ (3 * m)) := by rw [key, k2]; ring

theorem alg6_zero : alg6 (⟨0, 0, 0⟩ : E3 (E2 F)) = none := by
  rw [alg6]
  have z0 : (0 : E2 F).c0 = 0 := rfl
  have z1 : (0 : E2 F).c1 = 0 := rfl
  exact if_pos ⟨by simp [E3.mul, E3.add, z0, z1], by simp [E3.mul, E3.add, z0, z1], by simp [E3.mul, E3.add, z0, z1]⟩

theorem unit1_coords (hg : Good m) {u : E3 (E2 F)} (h : Unit1 ρ u) :
    u.c0.c0 ^ 2 + u.c0.c1 ^ 2 + 2 * (u.c1.c0 * u.c2.c0 + u.c1.c1 * u.c2.c1) - 1 = 0 ∧
    2 * (u.c0.c0 * u.c1.c0 + u.c0.c1 * u.c1.c1) + 2 * (u.c1.c0 * u.c2.c0 + u.c1.c1 * u.c2.c1) +
      u.c2.c0 ^ 2 + u.c2.c1 ^ 2 = 0 ∧
    u.c1.c0 ^ 2 + u.c1.c1 ^ 2 + 2 * (u.c0.c0 * u.c2.c0 + u.c0.c1 * u.c2.c1) + u.c2.c0 ^ 2 + u.c2.c1 ^ 2 = 0 := by
  have hv : val3 ρ (⟨u.c0.c0 ^ 2 + u.c0.c1 ^ 2 + 2 * (u.c1.c0 * u.c2.c0 + u.c1.c1 * u.c2.c1) - 1,
      2 * (u.c0.c0 * u.c1.c0 + u.c0.c1 * u.c1.c1) + 2 * (u.c1.c0 * u.c2.c0 + u.c1.c1 * u.c2.c1) +
        u.c2.c0 ^ 2 + u.c2.c1 ^ 2,
      u.c1.c0 ^ 2 + u.c1.c1 ^ 2 + 2 * (u.c0.c0 * u.c2.c0 + u.c0.c1 * u.c2.c1) + u.c2.c0 ^ 2 + u.c2.c1 ^ 2⟩ :
        E3 F) = 0 := by
    have hρ := T.hρ
    simp only [Unit1, val3, E3.val, re, im, map_add, map_sub, map_mul, map_pow, map_one, map_ofNat] at h ⊢
    linear_combination h - (2 * (algebraMap F K u.c1.c0 * algebraMap F K u.c2.c0 +
      algebraMap F K u.c1.c1 * algebraMap F K u.c2.c1) + (algebraMap F K u.c2.c0 ^ 2 +
      algebraMap F K u.c2.c1 ^ 2) * ρ) * hρ
  have := T.val3_eq_zero hg hv
  simpa only [E3.mk.injEq] using this

/-- `algorithm7` is the power `q + 1` on elements of norm 1. -/
theorem alg7_spec (hg : Good m) {u : E3 (E2 F)} (hu : Unit1 ρ u) :
    T.value (alg7 m u) = T.value u ^ (3 ^ m + 1) := by
  obtain ⟨n0, n1, n2⟩ := T.unit1_coords hg hu
  have h3 := three (F := F)
  have e : alg7 m u = u.mul (frq (m : F) u) := by
    obtain ⟨⟨u0, u1⟩, ⟨u2, u3⟩, ⟨u4, u5⟩⟩ := u
    dsimp only at n0 n1 n2
    have key : ∀ b : ℕ, m % 3 = b % 3 → (m : F) = b := fun b h => cast_mod h
    by_cases h6 : m % 6 = 1
    · rw [key 1 (by omega), Nat.cast_one, alg7]
      simp only [if_pos h6]
      refine ext6 ?_ ?_ ?_ ?_ ?_ ?_
      all_goals simp only [E3.mul, frq, fun a b : E2 F => (e2_ops a b).1, fun a b : E2 F => (e2_ops a b).2.1,
        fun a b : E2 F => (e2_ops a b).2.2.1, fun a b : E2 F => (e2_ops a b).2.2.2.1,
        fun a b : E2 F => (e2_ops a b).2.2.2.2.1, fun a b : E2 F => (e2_ops a b).2.2.2.2.2]
      · linear_combination (-1) * n0 + (1) * n1 + ((-1) * u2 * u4 + (-1) * u3 * u5 + (-1) * u0 * u2 + (-1) * u1 * u3 + (-1) * u4 ^ 2 + (-1) * u5 ^ 2) * h3
      · linear_combination (0) * h3
      · linear_combination (1) * n1 + (-1) * n2 + ((-2) * u2 * u4 + (-2) * u3 * u5 + (-1) * u0 * u2 + (-1) * u1 * u3 + (-1) * u4 ^ 2 + (-1) * u5 ^ 2) * h3
      · linear_combination ((1) * u0 * u5 + (-1) * u1 * u4) * h3
      · linear_combination (-1) * n1 + (-1) * n2 + ((1) * u0 * u2 + (1) * u1 * u3) * h3
      · linear_combination (0) * h3
    · rw [key 2 (by unfold Good at hg; omega), show ((2 : ℕ) : F) = -1 by push_cast; linear_combination h3, alg7]
      simp only [if_neg h6]
      refine ext6 ?_ ?_ ?_ ?_ ?_ ?_
      all_goals simp only [E3.mul, frq, fun a b : E2 F => (e2_ops a b).1, fun a b : E2 F => (e2_ops a b).2.1,
        fun a b : E2 F => (e2_ops a b).2.2.1, fun a b : E2 F => (e2_ops a b).2.2.2.1,
        fun a b : E2 F => (e2_ops a b).2.2.2.2.1, fun a b : E2 F => (e2_ops a b).2.2.2.2.2]
      · linear_combination (-1) * n0 + (-1) * n1 + ((1) * u2 * u4 + (1) * u3 * u5 + (1) * u0 * u2 + (1) * u1 * u3 + (1) * u4 ^ 2 + (1) * u5 ^ 2) * h3
      · linear_combination (0) * h3
      · linear_combination (1) * n2 + ((-1) * u0 * u2 + (-1) * u1 * u3 + (-1) * u2 * u4 + (-1) * u3 * u5) * h3
      · linear_combination ((-1) * u0 * u5 + (1) * u1 * u4) * h3
      · linear_combination (-1) * n1 + (-1) * n2 + ((1) * u0 * u2 + (1) * u1 * u3 + (2) * u2 * u4 + (2) * u3 * u5) * h3
      · linear_combination (0) * h3
  rw [e, value_mul, T.value_frq hg, pow_succ, mul_comm]

theorem alg7_unit (hg : Good m) {u : E3 (E2 F)} (hu : Unit1 ρ u) : Unit1 ρ (alg7 m u) := by
  have hu' := (T.unit1_iff hg u).1 hu
  rw [T.unit1_iff hg, T.alg7_spec hg hu, ← pow_mul, mul_comm (3 ^ m + 1), pow_mul, ← mul_pow, hu', one_pow]

/-- `algorithm8` is the final powering. -/
theorem alg8_spec (hg : Good m) {u : E3 (E2 F)} (hu : u ≠ ⟨0, 0, 0⟩) :
    ∃ v, alg8 m u = some v ∧ T.value v = T.value u ^ Spec.EtaT.expo m := by
  obtain ⟨v, e1, e2, h1⟩ := T.alg6_spec hg hu
  have e3 := T.alg7_spec hg h1
  have h3 := T.alg7_unit hg h1
  have e4 := T.alg7_spec hg h3
  have h4 := (T.unit1_iff hg _).1 h3
  have ew := T.value_cubic_iter (alg7 m v) ((m + 1) / 2)
  refine ⟨_, by rw [alg8, e1], ?_⟩
  have hc := conj_cast hg
  rw [Spec.EtaT.expo, pow_mul, pow_mul, ← e2, ← e3, value_mul, e4]
  generalize T.value (alg7 m v) = y at *
  by_cases hs : m % 12 = 1 ∨ m % 12 = 11
  · have ec : conjIf m (cubic^[(m + 1) / 2] (alg7 m v)) = conj (cubic^[(m + 1) / 2] (alg7 m v)) := by
      rw [conjIf, if_pos hs]; rfl
    rw [ec, T.value_conj hg, ew]
    have hmu : mu m = 1 := by rw [mu, if_pos hs]
    rw [hmu, one_mul] at hc
    have hn : ((3 : ℤ) ^ m + 1 - Spec.EtaT.trace m).toNat + 3 ^ ((m + 1) / 2) = 3 ^ m + 1 := by
      have : (((((3 : ℤ) ^ m + 1 - Spec.EtaT.trace m).toNat + 3 ^ ((m + 1) / 2) : ℕ)) : ℤ) = ((3 ^ m + 1 : ℕ) : ℤ) := by
        push_cast; rw [hc]; ring
      exact_mod_cast this
    rw [← hn, pow_add, mul_assoc, ← pow_mul, Nat.mul_comm (3 ^ ((m + 1) / 2)), pow_mul, ← mul_pow, h4, one_pow,
      mul_one]
  · have ec : conjIf m (cubic^[(m + 1) / 2] (alg7 m v)) = cubic^[(m + 1) / 2] (alg7 m v) := by
      rw [conjIf, if_neg hs]
    have hmu : mu m = -1 := by rw [mu, if_neg hs]
    rw [hmu] at hc
    have hn : ((3 : ℤ) ^ m + 1 - Spec.EtaT.trace m).toNat = 3 ^ m + 1 + 3 ^ ((m + 1) / 2) := by
      have : ((((3 : ℤ) ^ m + 1 - Spec.EtaT.trace m).toNat : ℕ) : ℤ) = ((3 ^ m + 1 + 3 ^ ((m + 1) / 2) : ℕ) : ℤ) := by
        push_cast; rw [hc]; ring
      exact_mod_cast this
    rw [ec, ew, hn, pow_add y (3 ^ m + 1)]

theorem alg8_zero : alg8 m (⟨0, 0, 0⟩ : E3 (E2 F)) = none := by rw [alg8, T.alg6_zero]

end Tower

end Pbc.EtaT
