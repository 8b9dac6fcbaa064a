import Verif.Props.NonDegAll
import Verif.Props.PairingF
import Verif.Lemmas.SexticHom

/-! # C107: the pairing of type F is not degenerate -/

set_option autoImplicit false
set_option linter.unusedSectionVars false

namespace Pbc.NonDeg

open Pbc.Curve (Pt)
open Pbc.PairingD (Ext incl_ne incl_torsion four_ne inf_of)
open Pbc.PairingF (TypeF eF twF nalpha init apply pairing two_F two_K C90_typeF eF_pairing C89_typeF C89_typeF_converse
  Mid fr fr_apply make_six)
open WeierstrassCurve WeierstrassCurve.Affine
open Spec (EC PtRep Pairing)
open Tate

section arith

/-- A prime divisor of `q⁴ - q² + 1` other than 3 does not divide `q² + 1`, nor `q`. -/
theorem not_dvd_of_dvd {q r : ℤ} (hr : Prime r) (h3 : ¬ r ∣ 3) (h : r ∣ q ^ 4 - q ^ 2 + 1) :
    ¬ r ∣ q ∧ ¬ r ∣ q ^ 2 + 1 := by
  have h1 : ¬ r ∣ q := fun hq => hr.not_unit (isUnit_of_dvd_one (by
    have : (1 : ℤ) = (q ^ 4 - q ^ 2 + 1) - q * (q ^ 3 - q) := by ring
    rw [this]
    exact dvd_sub h (hq.mul_right _)))
  refine ⟨h1, fun h2 => ?_⟩
  have : r ∣ 3 * q ^ 2 := by
    have : 3 * q ^ 2 = (q ^ 2 + 1) * (q ^ 2 + 1) - (q ^ 4 - q ^ 2 + 1) := by ring
    rw [this]
    exact dvd_sub (h2.mul_right _) h
  rcases hr.dvd_or_dvd this with h' | h'
  · exact h3 h'
  · exact h1 (hr.dvd_of_dvd_pow h')

end arith

variable {F K L : Type*} [Field F] [DecidableEq F] [Fintype F] [Field K] [DecidableEq K] [Fintype K]
  [Field L] [DecidableEq L] [Fintype L] [Algebra F K] [Algebra K L]
  {E2 : Ext F K} {E12 : Ext K L} {η : K} {ξ : L} {q r : ℕ} {b alpha0 alpha1 : F}

local notation "φ" => algebraMap F K
local notation "ψ" => algebraMap K L

section fields

variable (h : TypeF E2 E12 η ξ q r alpha0 alpha1)

include h

theorem gen_not_fixed : ξ ^ (q ^ 4) ≠ ξ := fun h4 => by
  have hall : ∀ x : L, x ^ (q ^ 4) = x := fun x => by
    have e1 : fr K L 2 x = x := by
      conv_lhs => rw [← h.ok12.item x, make_six h.ok12 h.d12]
      conv_rhs => rw [← h.ok12.item x, make_six h.ok12 h.d12]
      have e2 : fr K L 2 ξ = ξ := by rw [fr_apply, h.cardK, ← pow_mul]; exact h4
      simp only [map_add, map_mul, map_pow, AlgHom.commutes, e2]
    rwa [fr_apply, h.cardK, ← pow_mul] at e1
  have hpos : 1 < q ^ 4 := Nat.one_lt_pow (by norm_num) h.q_pos
  obtain ⟨g, hg⟩ := IsCyclic.exists_ofOrder_eq_natCard (α := Lˣ)
  rw [Nat.card_eq_fintype_card, Fintype.card_units, h.cardL] at hg
  have h1 : g ^ (q ^ 4 - 1) = 1 := by
    have := hall g
    rw [← Nat.sub_add_cancel hpos.le, pow_succ] at this
    refine Units.ext ?_
    rw [Units.val_pow_eq_pow_val, Units.val_one]
    exact mul_right_cancel₀ g.ne_zero (by rw [this, one_mul])
  have := Nat.le_of_dvd (by omega) (orderOf_dvd_of_pow_eq_one h1)
  rw [hg] at this
  have h2 : q ^ 4 < q ^ 12 := Nat.pow_lt_pow_right h.q_pos (by norm_num)
  omega

/-- The cube root of unity by which the Frobenius map multiplies `ξ²`. -/
theorem gen_sq : ∃ ζ : K, ζ ^ 2 + ζ + 1 = 0 ∧ (ξ ^ 2) ^ (q ^ 2) = ψ ζ * ξ ^ 2 := by
  set c := nalpha η alpha0 alpha1 ^ ((q ^ 2 - 1) / 6) with hc
  have h2 : ξ ^ (q ^ 2) = ψ c * ξ := h.gen_pow 2
  have c6 : c ^ 6 = 1 := by
    rw [hc, ← pow_mul, Nat.div_mul_cancel (h.six_dvd 2), ← h.cardK]
    exact FiniteField.pow_card_sub_one_eq_one _ h.nalpha_ne
  refine ⟨c ^ 2, ?_, by rw [← pow_mul, mul_comm, pow_mul, h2, mul_pow, ← map_pow]⟩
  have : (c ^ 2 - 1) * ((c ^ 2) ^ 2 + c ^ 2 + 1) = 0 := by linear_combination c6
  refine (mul_eq_zero.1 this).resolve_left fun h1 => gen_not_fixed h ?_
  have h1' : c ^ 2 = 1 := sub_eq_zero.1 h1
  have hcq : c ^ (q ^ 2) = c := by rw [← h.cardK]; exact FiniteField.pow_card c
  rw [show q ^ 4 = q ^ 2 * q ^ 2 by ring, pow_mul, h2, mul_pow, ← map_pow, hcq, h2, ← mul_assoc, ← map_mul, ← pow_two, h1',
    map_one, one_mul]

theorem card_mid [Fintype (Mid K L)] : Fintype.card (Mid K L) = q ^ 6 := by
  have hq := h.q_pos
  have h1 : 1 ≤ q ^ 6 := Nat.one_le_pow _ _ (by omega)
  have h2 : 1 ≤ q ^ 12 := Nat.one_le_pow _ _ (by omega)
  have hk := IsCyclic.card_powMonoidHom_ker Lˣ (q ^ 6 - 1)
  have hd : q ^ 6 - 1 ∣ q ^ 12 - 1 := ⟨q ^ 6 + 1, by zify [h1, h2]; ring⟩
  rw [Nat.card_eq_fintype_card, Nat.card_eq_fintype_card, Fintype.card_units, h.cardL, Nat.gcd_eq_right hd] at hk
  have e : Fintype.card (Mid K L)ˣ = Fintype.card (powMonoidHom (q ^ 6 - 1) : Lˣ →* Lˣ).ker := by
    refine Fintype.card_of_bijective (f := fun c => ⟨Units.map (algebraMap (Mid K L) L).toMonoidHom c, ?_⟩) ⟨?_, ?_⟩
    · rw [MonoidHom.mem_ker, powMonoidHom_apply]
      refine Units.ext ?_
      have hm := h.mem.1 (c : Mid K L).2
      rw [← Nat.sub_add_cancel h1, pow_succ] at hm
      exact mul_right_cancel₀ (fun e => c.ne_zero (Subtype.ext e)) (hm.trans (one_mul _).symm)
    · intro c d hcd
      have := congrArg (fun x => ((x.1 : Lˣ) : L)) hcd
      exact Units.ext (Subtype.ext this)
    · rintro ⟨z, hz⟩
      rw [MonoidHom.mem_ker, powMonoidHom_apply] at hz
      have hz' : (z : L) ^ (q ^ 6) = z := by
        rw [← Nat.sub_add_cancel h1, pow_succ, ← Units.val_pow_eq_pow_val, hz, Units.val_one, one_mul]
      have hm : (z : L) ∈ Mid K L := h.mem.2 hz'
      refine ⟨Units.mk0 ⟨z, hm⟩ fun e => z.ne_zero (congrArg Subtype.val e), ?_⟩
      exact Subtype.ext (Units.ext rfl)
  rw [hk, Fintype.card_units] at e
  have : 0 < Fintype.card (Mid K L) := Fintype.card_pos
  omega

theorem nalpha_not_sq (c : K) : c ^ 2 ≠ nalpha η alpha0 alpha1 := fun hc => by
  have h1 : (ξ ^ 3 - ψ c) * (ξ ^ 3 + ψ c) = 0 := by
    have := h.root'
    rw [← hc, map_pow] at this
    linear_combination this
  have hcq : ψ c ^ (q ^ 6) = ψ c := by
    rw [← map_pow, show q ^ 6 = Fintype.card K ^ 3 by rw [h.cardK, ← pow_mul], FiniteField.pow_card_pow]
  have key : ∀ d : L, d ^ (q ^ 6) = d → ξ ^ 3 = d → False := fun d hd e => by
    rw [← e, ← pow_mul, mul_comm, pow_mul, h.conj] at hd
    exact mul_ne_zero h.two_ne (pow_ne_zero 3 h.ξ_ne) (by linear_combination -hd)
  rcases mul_eq_zero.1 h1 with h2 | h2
  · exact key _ hcq (sub_eq_zero.1 h2)
  · refine key (-ψ c) ?_ (eq_neg_of_add_eq_zero_left h2)
    rw [← map_neg, ← map_pow, show q ^ 6 = Fintype.card K ^ 3 by rw [h.cardK, ← pow_mul], FiniteField.pow_card_pow]

theorem nalpha_not_cube (c : K) : c ^ 3 ≠ nalpha η alpha0 alpha1 := fun hc => by
  obtain ⟨ζ, hζ, e⟩ := gen_sq h
  have hc0 : ψ c ≠ 0 := (map_ne_zero _).2 fun h0 => h.nalpha_ne (by rw [← hc, h0, zero_pow (by norm_num)])
  have hr := h.root'
  rw [← hc, map_pow] at hr
  have h1 : (ξ ^ 2 - ψ c) * ((ξ ^ 2 - ψ (ζ * c)) * (ξ ^ 2 - ψ (ζ ^ 2 * c))) = 0 := by
    have hζ' := congrArg ψ hζ
    simp only [map_add, map_pow, map_one, map_zero] at hζ'
    simp only [map_mul, map_pow]
    linear_combination hr + (-(ξ ^ 2) ^ 2 * ψ c + (ξ ^ 2) * ψ c ^ 2 * ψ ζ  - ψ c ^ 3 * (ψ ζ - 1)) * hζ'
  have key : ∀ d : K, ξ ^ 2 ≠ ψ d := fun d hd => by
    rw [hd, ← map_pow, ← h.cardK, FiniteField.pow_card, ← map_mul] at e
    have e' := (ψ).injective e
    have hd0 : d ≠ 0 := fun h0 => h.ξ_ne (by rw [h0, map_zero] at hd; exact pow_eq_zero_iff (by norm_num) |>.1 hd)
    have : ζ = 1 := mul_right_cancel₀ hd0 (by rw [← e', one_mul])
    rw [this] at hζ
    have h3 : (3 : K) = 0 := by linear_combination hζ
    have h6 := h.six
    have hcK := FiniteField.cast_card_eq_zero K
    rw [h.cardK, ← Nat.mod_add_div q 6, h6] at hcK
    push_cast at hcK
    have : (1 : K) = 0 := by linear_combination hcK - (4 * ((q / 6 : ℕ) : K) + 12 * ((q / 6 : ℕ) : K) ^ 2) * h3
    exact one_ne_zero this
  rcases mul_eq_zero.1 h1 with h2 | h2
  · exact key _ (sub_eq_zero.1 h2)
  rcases mul_eq_zero.1 h2 with h2 | h2
  · exact key _ (sub_eq_zero.1 h2)
  · exact key _ (sub_eq_zero.1 h2)

end fields


section pairing

variable [Algebra F L] [IsScalarTower F K L]
variable {x : ℤ} {P : (EC (0 : F) b).Point}

/-- The parameters of the family: `q` and `r` are the values of the two polynomials at `x`, the curve has `r` points, and
`r` divides the number of points of the twist. -/
structure Family (x : ℤ) (q r : ℕ) (b : F) (bt : K) : Prop where
  hx : x ≠ 0
  hq : (q : ℤ) = bnQ x
  hr : (r : ℤ) = bnR x
  hb : b ≠ 0
  card : Nat.card (EC 0 b).Point = r
  twist : r ∣ Nat.card (EC 0 bt).Point

theorem ne_three {r : ℕ} (hr : (r : ℤ) = bnR x) : ¬ 3 ∣ r := fun h3 => by
  have : (3 : ℤ) ∣ bnR x := by rw [← hr]; exact_mod_cast h3
  rw [bnR] at this
  omega

/-- Orders of the twists. -/
theorem Family.orders (h : TypeF E2 E12 η ξ q r alpha0 alpha1)
    (hf : Family x q r b (nalpha η alpha0 alpha1 * φ b)) :
    Nat.card (EC 0 (nalpha η alpha0 alpha1 * φ b)).Point = (2 * q - r) * r ∧ ¬ r ∣ 2 * q - r ∧
    r.Coprime (Nat.card (EC 0 (nalpha η alpha0 alpha1 ^ 2 * (nalpha η alpha0 alpha1 * φ b))).Point) ∧
    r.Coprime (Nat.card (EC 0 (nalpha η alpha0 alpha1 ^ 4 * (nalpha η alpha0 alpha1 * φ b))).Point) := by
  set g := nalpha η alpha0 alpha1 with hg
  have hq : (Fintype.card F : ℤ) = bnQ x := by rw [h.cardF, hf.hq]
  have hK : Fintype.card K = Fintype.card F ^ 2 := by rw [h.cardK, h.cardF]
  have h2 := card_bn_two (K := K) hf.hx hq hf.hr h.prime hf.hb hf.card hK
  have h6 := card_bn_twist (K := K) hf.hx hq hf.hr h.prime hf.hb hf.card hK h.nalpha_ne (nalpha_not_sq h)
    (nalpha_not_cube h)
  rw [← hg] at h6
  have hrp : Prime (r : ℤ) := Nat.prime_iff_prime_int.1 h.prime
  have h3 : ¬ (r : ℤ) ∣ 3 := fun hd => by
    have : r ∣ 3 := by exact_mod_cast hd
    rw [Nat.prime_dvd_prime_iff_eq h.prime Nat.prime_three] at this
    exact ne_three hf.hr (by rw [this])
  have hdv : (r : ℤ) ∣ (q : ℤ) ^ 4 - (q : ℤ) ^ 2 + 1 := by
    have h1 : q ^ 2 ≤ q ^ 4 := Nat.pow_le_pow_right (by have := h.q_pos; omega) (by norm_num)
    have := h.dvd
    zify [h1] at this
    exact this
  obtain ⟨n1, n2⟩ := not_dvd_of_dvd hrp h3 hdv
  have n0 : ¬ (r : ℤ) ∣ 2 := fun hd => by
    have : r ∣ 2 := by exact_mod_cast hd
    have h3 := h.three
    have := Nat.le_of_dvd (by norm_num) this
    omega
  have hle : r ≤ 2 * q := by
    have : (r : ℤ) ≤ 2 * q := by
      rw [hf.hq, hf.hr, bnQ, bnR]
      nlinarith [sq_nonneg (6 * x ^ 2 + 3 * x), sq_nonneg (x + 1), sq_nonneg x]
    exact_mod_cast this
  have hdT : (r : ℤ) ∣ Nat.card (EC 0 (g * φ b)).Point := by exact_mod_cast hf.twist
  have hcases : (Nat.card (EC 0 (g * φ b)).Point : ℤ) = bnR x * (2 * bnQ x - bnR x) ∧
      (Nat.card (EC 0 (g ^ 5 * φ b)).Point : ℤ) = bnQ x ^ 2 + 1 + 2 * bnR x := by
    refine h6.resolve_right fun h' => n2 ?_
    rw [h'.1, ← hf.hq, ← hf.hr] at hdT
    exact (dvd_add_left (Dvd.intro_left _ rfl)).1 hdT
  refine ⟨?_, ?_, ?_, ?_⟩
  · have := hcases.1
    rw [← hf.hq, ← hf.hr] at this
    zify [hle]
    rw [this]; ring
  · intro hd
    have hd' : (r : ℤ) ∣ 2 * q := by
      have : r ∣ 2 * q - r + r := dvd_add hd dvd_rfl
      rw [Nat.sub_add_cancel hle] at this
      exact_mod_cast this
    rcases hrp.dvd_or_dvd hd' with h' | h'
    · exact n0 h'
    · exact n1 h'
  · rw [Nat.Prime.coprime_iff_not_dvd h.prime]
    intro hd
    have c2 : (2 : K) ≠ 0 := two_K h
    have c3 : (3 : K) ≠ 0 := by
      have := (map_ne_zero φ).2 (three_ne_of (bn_six hq))
      rwa [map_ofNat] at this
    have hD : 4 * (0 : K) ^ 3 + 27 * (φ b) ^ 2 ≠ 0 := by
      rw [show 4 * (0 : K) ^ 3 + 27 * (φ b) ^ 2 = 3 ^ 3 * (φ b) ^ 2 by ring]
      exact mul_ne_zero (pow_ne_zero _ c3) (pow_ne_zero _ ((map_ne_zero _).2 hf.hb))
    have htw := card_twist c2 hD (v := g) fun ⟨c, hc⟩ => nalpha_not_sq h c (by rw [pow_two, ← hc])
    rw [mul_zero, ← show g ^ 2 * (g * φ b) = g ^ 3 * φ b by ring] at htw
    have hz : (Nat.card (EC 0 (φ b)).Point : ℤ) + Nat.card (EC 0 (g ^ 2 * (g * φ b))).Point =
        2 * (q : ℤ) ^ 2 + 2 := by
      have := congrArg (Nat.cast : ℕ → ℤ) htw
      push_cast at this
      rw [h.cardK] at this
      push_cast at this
      exact this
    have hd' : (r : ℤ) ∣ 2 * ((q : ℤ) ^ 2 + 1) := by
      rw [show 2 * ((q : ℤ) ^ 2 + 1) = 2 * (q : ℤ) ^ 2 + 2 by ring, ← hz, h2, ← hf.hr]
      exact dvd_add (dvd_mul_right _ _) (by exact_mod_cast hd)
    rcases hrp.dvd_or_dvd hd' with h' | h'
    · exact n0 h'
    · exact n2 h'
  · rw [Nat.Prime.coprime_iff_not_dvd h.prime, ← mul_assoc, ← pow_succ]
    intro hd
    have hd' : (r : ℤ) ∣ Nat.card (EC 0 (g ^ 5 * φ b)).Point := by exact_mod_cast hd
    rw [hcases.2, ← hf.hq, ← hf.hr] at hd'
    exact n2 ((dvd_add_left (Dvd.intro_left _ rfl)).1 hd')

/-- The pairing of type F: every `P ≠ O` has a partner on the twist. -/
theorem exists_eF (h : TypeF E2 E12 η ξ q r alpha0 alpha1)
    (hf : Family x q r b (nalpha η alpha0 alpha1 * φ b)) (hP : P ≠ 0) : ∃ Q, eF h P Q ≠ 1 := by
  classical
  have hfin : Fintype (Mid K L) := Fintype.ofFinite _
  obtain ⟨hT, hn, h₁, h₂⟩ := hf.orders h
  have hq6 := card_mid h
  have hqF : (Fintype.card F : ℤ) = bnQ x := by rw [h.cardF, hf.hq]
  have hr : r • P = 0 := by rw [← hf.card]; exact card_nsmul_eq_zero'
  have c2 : (2 : K) ≠ 0 := two_K h
  have c3 : (3 : K) ≠ 0 := by
    have := (map_ne_zero φ).2 (three_ne_of (bn_six hqF))
    rwa [map_ofNat] at this
  have hq19 : 19 ≤ q := by
    have := bnQ_ge hf.hx
    rw [← hf.hq] at this
    exact_mod_cast this
  obtain ⟨ζ, hζ, hνq⟩ := gen_sq h
  have hm : ξ ^ 2 ∈ Mid K L := by
    have := (Mid K L).inv_mem h.sq_mem
    rwa [inv_inv] at this
  have hfr : Fact r.Prime := ⟨h.prime⟩
  obtain ⟨S, hS⟩ := exists_prime_addOrderOf_dvd_card' (G := (EC 0 (nalpha η alpha0 alpha1 * φ b)).Point) r hf.twist
  have hS0 : S ≠ 0 := by
    rintro rfl
    rw [addOrderOf_zero] at hS
    exact h.prime.one_lt.ne hS
  have hrS : r • S = 0 := hS ▸ addOrderOf_nsmul_eq_zero S
  have hpos : 1 ≤ q ^ 6 := Nat.one_le_pow _ _ (by omega)
  have hexp : (q ^ 12 - 1) / r = (Fintype.card (Mid K L) - 1) * ((q ^ 2 + 1) * ((q ^ 4 - q ^ 2 + 1) / r)) := by
    rw [h.exp, hq6, mul_assoc]
  have hcard : Fintype.card (Mid K L) + 1 = (q ^ 2 + 1) * ((q ^ 4 - q ^ 2 + 1) / r) * r := by
    rw [mul_assoc, Nat.div_mul_cancel h.dvd, hq6]
    have h1 : q ^ 2 ≤ q ^ 4 := Nat.pow_le_pow_right (by omega) (by norm_num)
    zify [h1]; ring
  have hk := h.kills
  rw [hexp] at hk
  have hex := exists_ne_cubic (twF h b) (g := nalpha η alpha0 alpha1) (ζ := ζ) (ν := ⟨ξ ^ 2, hm⟩)
    (by rw [hq6, h.cardK, ← pow_mul]) hζ
    (Subtype.ext (by
      change (ξ ^ 2) ^ 3 = ψ _
      rw [← pow_mul, h.root']))
    (fun e => pow_ne_zero 2 h.ξ_ne (congrArg Subtype.val e))
    (Subtype.ext (by
      change (ξ ^ 2) ^ Fintype.card K = ψ ζ * ξ ^ 2
      rw [h.cardK, hνq]))
    (mul_ne_zero h.nalpha_ne ((map_ne_zero _).2 hf.hb)) c2 c3
    (by rw [hq6]; exact lt_of_lt_of_le (by norm_num) (Nat.pow_le_pow_left hq19 6)) h.odd
    ((Nat.coprime_primes h.prime Nat.prime_three).2 fun e => ne_three hf.hr (by rw [e])) hcard h₁ h₂
    (four_ne h.odd hrS hS0) (incl_ne hP) (incl_torsion (two_F h) hr) hk
  rw [← hexp] at hex
  exact hex

variable {p' : Pt F}

/-- **C107** for type F: the pairing of a point `P` of the curve and a point `Q` of the twist of order dividing `r` is 1
only if one of them is `O`. -/
theorem C107_typeF (h : TypeF E2 E12 η ξ q r alpha0 alpha1) {p : PairingF.Data F K L}
    (hi : init E2 E12 q r b alpha0 alpha1 = some p) (hf : Family x q r b (nalpha η alpha0 alpha1 * φ b))
    {Q : (EC 0 (nalpha η alpha0 alpha1 * φ b)).Point} {q' : Pt K} (hp : PtRep p' P) (hq : PtRep q' Q) (hrQ : r • Q = 0) :
    apply (pairing p) p' q' = some 1 ↔ p'.inf = true ∨ q'.inf = true := by
  obtain ⟨p₀, e₀, -, -, hb, hval⟩ := C90_typeF (b := b) h
  rw [e₀, Option.some.injEq] at hi
  subst hi
  have hr : r • P = 0 := by rw [← hf.card]; exact card_nsmul_eq_zero'
  obtain ⟨hT, hn, -, -⟩ := hf.orders h
  rcases inf_of hp with ⟨hi, rfl⟩ | ⟨hi, h0⟩
  · simp [apply, hi]
  rcases inf_of hq with ⟨hj, rfl⟩ | ⟨hj, h0'⟩
  · simp [apply, hj]
  simp only [hi, hj, Bool.false_eq_true, or_self, iff_false]
  rw [hval P Q p' q' hp hq hr, Option.some.injEq]
  exact ne_of_partner hb h.prime hT hn hr (exists_eF h hf h0) h0' hrQ

/-- The number with which points of the twist are compared: the divisions are exact, it is a multiple of the cofactor
of the twist, and `r` does not divide it. -/
theorem C89_quotientF (h : TypeF E2 E12 η ξ q r alpha0 alpha1) (hx : x ≠ 0) (hq : (q : ℤ) = bnQ x) (hr : (r : ℤ) = bnR x) :
    (PairingF.quotient q r).2 = true ∧ (2 * q - r : ℤ) ∣ (PairingF.quotient q r).1 ∧ ¬ (r : ℤ) ∣ (PairingF.quotient q r).1 := by
  have hrp : Prime (r : ℤ) := Nat.prime_iff_prime_int.1 h.prime
  have h3 : ¬ (r : ℤ) ∣ 3 := fun hd => by
    have : r ∣ 3 := by exact_mod_cast hd
    rw [Nat.prime_dvd_prime_iff_eq h.prime Nat.prime_three] at this
    exact ne_three hr (by rw [this])
  have hdv : (r : ℤ) ∣ (q : ℤ) ^ 4 - (q : ℤ) ^ 2 + 1 := by
    have h1 : q ^ 2 ≤ q ^ 4 := Nat.pow_le_pow_right (by have := h.q_pos; omega) (by norm_num)
    have := h.dvd
    zify [h1] at this
    exact this
  obtain ⟨n1, n2⟩ := not_dvd_of_dvd hrp h3 hdv
  have n0 : ¬ (r : ℤ) ∣ 2 := fun hd => by
    have : r ∣ 2 := by exact_mod_cast hd
    have h3 := h.three
    have := Nat.le_of_dvd (by norm_num) this
    omega
  have ht : (q : ℤ) - r + 1 = bnT x := by rw [hq, hr, bnQ_eq]; ring
  have ho := bn_order12' x
  have nt := bn_not_dvd hx
  have htr : bnT x = q + 1 - r := by rw [← ht]; ring
  rw [← hq, ← hr] at ho
  rw [← hr] at nt
  have hr0 : (r : ℤ) ≠ 0 := hrp.ne_zero
  simp only [PairingF.quotient, ht]
  rw [ho, mul_assoc (r : ℤ) r, Int.mul_ediv_cancel_left _ hr0, Int.mul_ediv_cancel_left _ hr0, Int.mul_emod_right,
    Int.mul_emod_right]
  refine ⟨rfl, ?_, ?_⟩
  · exact (dvd_mul_left _ _).mul_left _
  · intro hd
    obtain ⟨c, hc⟩ := hdv
    rw [htr] at hd nt
    rcases hrp.dvd_or_dvd hd with hd | hd
    · exact n2 ((dvd_add_left (dvd_mul_left _ _)).1 hd)
    rcases hrp.dvd_or_dvd hd with hd | hd
    · rcases hrp.dvd_or_dvd hd with hd | hd
      · rcases hrp.dvd_or_dvd hd with hd | hd
        · refine nt ?_
          have : 2 * ((q : ℤ) + 1 - r) = q + 1 + (q + 1 - r) - r := by ring
          rw [this]
          exact dvd_sub hd dvd_rfl
        · have : (r : ℤ) ∣ 2 * ((q : ℤ) ^ 2 + 1) := by
            have e : 2 * ((q : ℤ) ^ 2 + 1) = 1 + (((q : ℤ) + 1 - r) ^ 2 - 2 * q) + q ^ 2 + r * (2 * (q + 1) - r) := by ring
            rw [e]
            exact dvd_add hd (dvd_mul_right _ _)
          exact (hrp.dvd_or_dvd this).elim n0 n2
      · have : (r : ℤ) ∣ 2 * (((q : ℤ) ^ 2 + 1) * ((q : ℤ) ^ 2 + 1)) := by
          have e : 2 * (((q : ℤ) ^ 2 + 1) * ((q : ℤ) ^ 2 + 1)) =
              (((q : ℤ) ^ 2) ^ 2 + (q : ℤ) ^ 2 * (((q : ℤ) + 1 - r) ^ 2 - 2 * q) + (((q : ℤ) + 1 - r) ^ 2 - 2 * q) ^ 2 -
                (q : ℤ) ^ 2 + (((q : ℤ) + 1 - r) ^ 2 - 2 * q) + 1) +
              r * (2 * ((q : ℤ) + 1) - r) * (q ^ 2 + (q ^ 2 + 1) + (((q : ℤ) + 1 - r) ^ 2 - 2 * q) + 1) -
              ((q : ℤ) ^ 4 - q ^ 2 + 1) := by ring
          rw [e]
          exact dvd_sub (dvd_add hd ((dvd_mul_right _ _).mul_right _)) ⟨c, hc⟩
        exact (hrp.dvd_or_dvd this).elim n0 fun h' => (hrp.dvd_or_dvd h').elim n2 n2
    · have hd' : (r : ℤ) ∣ 2 * q := by
        rw [← sub_add_cancel (2 * (q : ℤ)) r]
        exact dvd_add hd dvd_rfl
      exact (hrp.dvd_or_dvd hd').elim n0 n1

/-- **C89**, **C107** for type F: comparison in G2, with the number set when the pairing is initialised, is equality of
the pairings with any `P ≠ O`. -/
theorem C107_typeF_cmp (h : TypeF E2 E12 η ξ q r alpha0 alpha1) {p : PairingF.Data F K L}
    (hi : init E2 E12 q r b alpha0 alpha1 = some p) (hf : Family x q r b (nalpha η alpha0 alpha1 * φ b))
    {m : Curve.Mem K} {i j : ℕ} {Q₁ Q₂ : (EC 0 (nalpha η alpha0 alpha1 * φ b)).Point}
    (h₁ : PtRep (m i) Q₁) (h₂ : PtRep (m j) Q₂) (hp : PtRep p' P) (hP : P ≠ 0) :
    apply (pairing p) p' (m i) = apply (pairing p) p' (m j) ↔
    Curve.cmp 0 (some (PairingF.quotient q r).1.natAbs) m i j = some false := by
  have hr : r • P = 0 := by rw [← hf.card]; exact card_nsmul_eq_zero'
  obtain ⟨hT, hn, -, -⟩ := hf.orders h
  obtain ⟨-, hd, hnd⟩ := C89_quotientF h hf.hx hf.hq hf.hr
  have hn0 : 0 < 2 * q - r := Nat.pos_of_ne_zero fun h0 => by
    rw [h0] at hn; exact hn (dvd_zero _)
  constructor
  · refine C89_typeF_converse h hi hn0 ?_ hT h₁ h₂ hp hr (exists_eF h hf hP)
    rw [← Int.natCast_dvd, Nat.cast_sub (by omega)]
    exact_mod_cast hd
  · intro hc
    obtain ⟨g, e₁, e₂⟩ := C89_typeF h hi (Nat.coprime_comm.1 ((Nat.Prime.coprime_iff_not_dvd h.prime).2 (by
      rwa [← Int.natCast_dvd]))) h₁ h₂ hc hp hr
    rw [e₁, e₂]

end pairing

end Pbc.NonDeg
