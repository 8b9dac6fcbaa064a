import Verif.Lemmas.PairingF
import Verif.Spec.PairingF
import Verif.Props.PairingD
import Verif.Lemmas.FourTorsion

/-! # The pairing of type F

`F`, `K` and `L` are the fields of `q`, `q²` and `q^12` elements.  G1 is `Y² = X³ + b` over `F`, G2 the
twist `Y² = X³ - alpha b` over `K`. -/

set_option autoImplicit false
set_option linter.unusedSectionVars false

namespace Pbc.PairingF

open Pbc.Quad (inv?)
open Pbc.Curve (Pt)
open Pbc.PairingA (Abc copy)
open Pbc.PairingD (Ext Ext.Ok incl start lines ppApplyLoop)
open WeierstrassCurve WeierstrassCurve.Affine
open Spec (EC PtRep Pairing)
open Tate

variable {F K L : Type*} [Field F] [DecidableEq F] [Fintype F] [Field K] [DecidableEq K] [Fintype K]
  [Field L] [DecidableEq L] [Fintype L] [Algebra F K] [Algebra K L]
  {E2 : Ext F K} {E12 : Ext K L} {η : K} {ξ : L} {q r : ℕ} {b alpha0 alpha1 : F}

local notation "φ" => algebraMap F K
local notation "ψ" => algebraMap K L

/-- `-alpha`. -/
def nalpha (η : K) (alpha0 alpha1 : F) : K := -(algebraMap F K alpha0 + algebraMap F K alpha1 * η)

section setup

variable (h : TypeF E2 E12 η ξ q r alpha0 alpha1)

include h

theorem TypeF.root' : ξ ^ 6 = ψ (nalpha η alpha0 alpha1) := by
  rw [nalpha, map_neg]
  exact eq_neg_of_add_eq_zero_left h.root

theorem TypeF.q_pos : 1 < q := by
  rw [← h.cardF]; exact Fintype.one_lt_card

theorem TypeF.odd : Odd r := by
  have hd := h.dvd
  have hq : Odd (q ^ 4 - q ^ 2 + 1) := by
    refine Even.add_one ?_
    have : q ^ 4 - q ^ 2 = q ^ 2 * (q ^ 2 - 1) := by
      rw [Nat.mul_sub, mul_one, ← pow_add]
    rw [this]
    exact Nat.even_mul_pred_self (q ^ 2)
  exact hq.of_dvd_nat hd

theorem TypeF.three : 3 ≤ r := by
  have h1 := h.prime.two_le
  have h2 := h.odd
  rcases Nat.lt_or_ge r 3 with h3 | h3
  · interval_cases r
    exact absurd h2 (by decide)
  · exact h3

theorem TypeF.ξ_ne : ξ ≠ 0 := by
  rintro h0
  have hall : ∀ x : L, ∃ c : K, x = ψ c := fun x => ⟨E12.item x 0, by
    conv_lhs => rw [← h.ok12.item x, make_six h.ok12 h.d12]
    simp [h0]⟩
  have : Fintype.card L ≤ Fintype.card K :=
    Fintype.card_le_of_surjective _ fun x => by obtain ⟨c, hc⟩ := hall x; exact ⟨c, hc.symm⟩
  rw [h.cardL, h.cardK] at this
  have := (Nat.pow_le_pow_iff_right h.q_pos).1 this
  omega

theorem TypeF.nalpha_ne : nalpha η alpha0 alpha1 ≠ 0 := fun h0 => by
  have := h.root'
  rw [h0, map_zero] at this
  exact h.ξ_ne (pow_eq_zero_iff (by norm_num) |>.1 this)

theorem TypeF.six_dvd (n : ℕ) : 6 ∣ q ^ n - 1 := by
  have : (q ^ n) % 6 = 1 := by rw [Nat.pow_mod, h.six]; simp
  omega

/-- `x ↦ x^(q^n)` multiplies the generator by an element of `F_q^2`. -/
theorem TypeF.gen_pow (n : ℕ) : ξ ^ (q ^ n) = ψ (nalpha η alpha0 alpha1 ^ ((q ^ n - 1) / 6)) * ξ := by
  rw [map_pow, ← h.root', ← pow_mul, Nat.mul_div_cancel' (h.six_dvd n), ← pow_succ,
    Nat.sub_add_cancel (Nat.one_le_pow _ _ (by have := h.q_pos; omega))]

theorem powTimes_eq (n : ℕ) (x : L) : powTimes q n x = some (x ^ (q ^ n)) := by
  induction n generalizing x with
  | zero => simp [powTimes]
  | succ n ih =>
    rw [powTimes, Gen.powMpz_spec]
    dsimp only
    rw [ih, ← pow_mul, pow_succ']

/-- What setting up gives. -/
structure Common (p : Data F K L) (E2 : Ext F K) (E12 : Ext K L) (η : K) (q r : ℕ) (b alpha0 alpha1 : F) :
    Prop where
  hE2 : p.E2 = E2
  hE12 : p.E12 = E12
  hr : p.r = r
  hb : p.b = b
  hbt : p.bt = nalpha η alpha0 alpha1 * algebraMap F K b
  hn : p.negalpha = nalpha η alpha0 alpha1
  hi : p.negalphainv = (nalpha η alpha0 alpha1)⁻¹
  ht : p.tateexp = (q ^ 4 - q ^ 2 + 1) / r
  h2 : p.xpowq2 = nalpha η alpha0 alpha1 ^ ((q ^ 2 - 1) / 6)
  h6 : p.xpowq6 = nalpha η alpha0 alpha1 ^ ((q ^ 6 - 1) / 6)
  h8 : p.xpowq8 = nalpha η alpha0 alpha1 ^ ((q ^ 8 - 1) / 6)

theorem make_two (g : ℕ → F) : E2.make g = φ (g 0) + φ (g 1) * η := by
  rw [h.ok2.make, h.d2]
  simp [Finset.sum_range_succ]

theorem item_gen (n : ℕ) : E12.item (ξ ^ (q ^ n)) 1 = nalpha η alpha0 alpha1 ^ ((q ^ n - 1) / 6) := by
  have := item_of_make h.ok12 (by rw [h.cardL, h.cardK, h.d12, ← pow_mul])
    (g := fun i => if i = 1 then nalpha η alpha0 alpha1 ^ ((q ^ n - 1) / 6) else 0) (x := ξ ^ (q ^ n)) (by
      rw [make_six h.ok12 h.d12, h.gen_pow n]; simp) (i := 1) (by rw [h.d12]; norm_num)
  simpa using this

theorem init_eq : ∃ p, init E2 E12 q r b alpha0 alpha1 = some p ∧
    Common p E2 E12 η q r b alpha0 alpha1 := by
  have hneg : -E2.make (fun i => if i = 0 then alpha0 else alpha1) = nalpha η alpha0 alpha1 := by
    rw [make_two h]; simp [nalpha]
  have hg : E12.make (fun i => if i = 1 then 1 else 0) = ξ := by
    rw [make_six h.ok12 h.d12]; simp
  unfold init
  dsimp only
  rw [hneg, PairingD.inv?_eq h.nalpha_ne, hg]
  dsimp only
  rw [powTimes_eq h]
  dsimp only
  rw [powTimes_eq h, ← pow_mul, ← pow_add]
  dsimp only
  rw [powTimes_eq h, ← pow_mul, ← pow_add]
  dsimp only
  refine ⟨_, rfl, rfl, rfl, rfl, rfl, ?_, rfl, rfl, ?_, item_gen h _, item_gen h _, item_gen h _⟩
  · dsimp only
    rw [make_two h]
    simp [nalpha]; ring
  · dsimp only
    congr 2
    rw [mul_assoc, ← pow_two, Nat.sub_mul, one_mul, ← pow_add]

end setup

/-! ### Multiplication by a line, final powering -/

/-- **C51**: the sparse multiplication of Miller's loop multiplies `v` by
`a Qx ξ⁴ + b Qy ξ³ + c`, for every element `v` of `F_q^12` and every line. -/
theorem C51_typeF (h : TypeF E2 E12 η ξ q r alpha0 alpha1) {p : Data F K L}
    (hp : init E2 E12 q r b alpha0 alpha1 = some p) (Qx Qy : K) (l : Abc F) (v : L) :
    evalfn p.E2 p.E12 p.negalpha Qx Qy l v =
      v * (ψ (φ l.a * Qx) * ξ ^ 4 + ψ (φ l.b * Qy) * ξ ^ 3 + ψ (φ l.c)) := by
  obtain ⟨p', e, hc⟩ := init_eq (b := b) h
  rw [e, Option.some.injEq] at hp
  subst hp
  rw [hc.hE2, hc.hE12, hc.hn]
  exact evalfn_eq h.ok2 h.ok12 h.d12 h.root' Qx Qy l v

theorem TypeF.qpower (h : TypeF E2 E12 η ξ q r alpha0 alpha1) (j : ℕ) (out : L) :
    qpower E12 out (nalpha η alpha0 alpha1 ^ ((q ^ (2 * j) - 1) / 6)) = out ^ (q ^ (2 * j)) := by
  rw [qpower_eq h.ok12 h.d12 (fr K L j) (by rw [fr_apply, h.cardK, ← pow_mul, h.gen_pow]), fr_apply, h.cardK,
    ← pow_mul]

theorem TypeF.exp (h : TypeF E2 E12 η ξ q r alpha0 alpha1) :
    (q ^ 12 - 1) / r = (q ^ 6 - 1) * (q ^ 2 + 1) * ((q ^ 4 - q ^ 2 + 1) / r) := by
  obtain ⟨c, hc⟩ := h.dvd
  have hq := h.q_pos
  have h1 : 1 ≤ q ^ 6 := Nat.one_le_pow _ _ (by omega)
  have h2 : 1 ≤ q ^ 12 := Nat.one_le_pow _ _ (by omega)
  have h3 : q ^ 2 ≤ q ^ 4 := Nat.pow_le_pow_right (by omega) (by norm_num)
  have e : q ^ 12 - 1 = (q ^ 6 - 1) * (q ^ 2 + 1) * (q ^ 4 - q ^ 2 + 1) := by
    zify [h1, h2, h3]; ring
  rw [e, hc, Nat.mul_div_cancel_left c h.prime.pos, mul_comm r c, ← mul_assoc,
    Nat.mul_div_cancel _ h.prime.pos]

/-- **C50** for type F: the final powering of a nonzero element of `F_q^12` succeeds and raises to
`(q^12 - 1) / r`. -/
theorem C50_typeF (h : TypeF E2 E12 η ξ q r alpha0 alpha1) {p : Data F K L}
    (hp : init E2 E12 q r b alpha0 alpha1 = some p) (f : L) (hf : f ≠ 0) :
    tatepower p f = some (f ^ ((q ^ 12 - 1) / r)) := by
  obtain ⟨p', e, hc⟩ := init_eq (b := b) h
  rw [e, Option.some.injEq] at hp
  subst hp
  unfold tatepower
  dsimp only
  rw [hc.hE12, hc.h2, hc.h6, hc.h8, h.qpower 1, h.qpower 3, h.qpower 4,
    PairingD.inv?_eq (mul_ne_zero (pow_ne_zero _ hf) hf)]
  dsimp only
  rw [Gen.powMpz_spec, hc.ht, h.exp, pow_mul f ((q ^ 6 - 1) * (q ^ 2 + 1))]
  congr 2
  rw [← div_eq_mul_inv, div_eq_iff (mul_ne_zero (pow_ne_zero _ hf) hf), ← pow_succ, ← pow_add, ← pow_add]
  congr 1
  have h1 : 1 ≤ q ^ 6 := Nat.one_le_pow _ _ (by have := h.q_pos; omega)
  zify [h1]; ring

/-- **C50** for type F: 0 is refused (`element_invert` of 0). -/
theorem C50_typeF_zero (p : Data F K L) : tatepower p 0 = none := by
  unfold tatepower
  simp [inv?]

/-! ### The pairing -/

section fields

variable (h : TypeF E2 E12 η ξ q r alpha0 alpha1)

include h

/-- The generator is not in `F_q^6`; its negative is its conjugate. -/
theorem TypeF.conj : ξ ^ (q ^ 6) = -ξ := by
  set ζ := nalpha η alpha0 alpha1 ^ ((q ^ 6 - 1) / 6) with hζ
  have h6 : ξ ^ (q ^ 6) = ψ ζ * ξ := h.gen_pow 6
  have hζ6 : ψ ζ ^ (q ^ 6) = ψ ζ := by
    rw [← map_pow, show q ^ 6 = Fintype.card K ^ 3 by rw [h.cardK, ← pow_mul], FiniteField.pow_card_pow]
  have h12 : ψ ζ ^ 2 = 1 := by
    have : ξ ^ (q ^ 12) = ξ := by rw [← h.cardL]; exact FiniteField.pow_card ξ
    rw [show q ^ 12 = q ^ 6 * q ^ 6 by ring, pow_mul, h6, mul_pow, hζ6, h6, ← mul_assoc, ← pow_two] at this
    exact mul_right_cancel₀ h.ξ_ne (by rw [this, one_mul])
  rcases mul_self_eq_one_iff.1 ((pow_two _).symm.trans h12) with h1 | h1
  · exfalso
    rw [h1, one_mul] at h6
    have hall : ∀ x : L, x ^ (q ^ 6) = x := fun x => by
      have e1 : fr K L 3 x = x := by
        conv_lhs => rw [← h.ok12.item x, make_six h.ok12 h.d12]
        conv_rhs => rw [← h.ok12.item x, make_six h.ok12 h.d12]
        have e2 : fr K L 3 ξ = ξ := by rw [fr_apply, h.cardK, ← pow_mul]; exact h6
        simp only [map_add, map_mul, map_pow, AlgHom.commutes, e2]
      rwa [fr_apply, h.cardK, ← pow_mul] at e1
    have hpos : 1 < q ^ 6 := Nat.one_lt_pow (by norm_num) h.q_pos
    obtain ⟨g, hg⟩ := IsCyclic.exists_ofOrder_eq_natCard (α := Lˣ)
    rw [Nat.card_eq_fintype_card, Fintype.card_units, h.cardL] at hg
    have h1 : g ^ (q ^ 6 - 1) = 1 := by
      refine Units.ext ?_
      rw [Units.val_pow_eq_pow_val, Units.val_one]
      have := hall g
      rw [← Nat.sub_add_cancel hpos.le, pow_succ] at this
      exact mul_right_cancel₀ g.ne_zero (by rw [this, one_mul])
    have := Nat.le_of_dvd (by omega) (orderOf_dvd_of_pow_eq_one h1)
    rw [hg] at this
    have h2 : q ^ 6 < q ^ 12 := Nat.pow_lt_pow_right h.q_pos (by norm_num)
    omega
  · rw [h6, h1, neg_one_mul]

theorem TypeF.mem {x : L} : x ∈ Mid K L ↔ x ^ (q ^ 6) = x := by
  rw [mem_mid, h.cardK, ← pow_mul]

theorem TypeF.sq_mem : (ξ ^ 2)⁻¹ ∈ Mid K L := by
  rw [h.mem, inv_pow, ← pow_mul, mul_comm, pow_mul, h.conj, neg_sq]

theorem TypeF.two_ne : (2 : L) ≠ 0 := by
  intro h2
  have : ringChar L = 2 := by
    have h3 : ((2 : ℕ) : L) = 0 := by exact_mod_cast h2
    rcases (Nat.dvd_prime Nat.prime_two).1 (ringChar.dvd h3) with h4 | h4
    · exact absurd h4 (CharP.ringChar_ne_one)
    · exact h4
  have h1 := FiniteField.even_card_of_char_two this
  rw [h.cardL, Nat.pow_mod] at h1
  have h6 := h.six
  have : q % 2 = 1 := by omega
  rw [this] at h1
  simp at h1

theorem TypeF.kills : Kills (Mid K L) L r ((q ^ 12 - 1) / r) where
  const c hc := by
    have hm := h.mem.1 c.2
    have hc' : (c : L) ≠ 0 := fun e => hc (Subtype.ext e)
    have hpos : 1 ≤ q ^ 6 := Nat.one_le_pow _ _ (by have := h.q_pos; omega)
    have h1 : (c : L) ^ (q ^ 6 - 1) = 1 := by
      rw [← Nat.sub_add_cancel hpos, pow_succ] at hm
      exact mul_right_cancel₀ hc' (by rw [hm, one_mul])
    change (c : L) ^ _ = 1
    rw [h.exp, mul_assoc, pow_mul, h1, one_pow]
  rpow z hz := by
    have hd : r ∣ q ^ 12 - 1 := by
      have hq := h.q_pos
      have h1 : 1 ≤ q ^ 6 := Nat.one_le_pow _ _ (by omega)
      have h2 : 1 ≤ q ^ 12 := Nat.one_le_pow _ _ (by omega)
      have h3 : q ^ 2 ≤ q ^ 4 := Nat.pow_le_pow_right (by omega) (by norm_num)
      have e : q ^ 12 - 1 = (q ^ 6 - 1) * (q ^ 2 + 1) * (q ^ 4 - q ^ 2 + 1) := by
        zify [h1, h2, h3]; ring
      rw [e]
      exact h.dvd.mul_left _
    rw [← pow_mul, Nat.mul_div_cancel' hd, ← h.cardL]
    exact FiniteField.pow_card_sub_one_eq_one z hz

end fields

section pairing

variable [Algebra F L] [IsScalarTower F K L]

/-- `(x, y) ↦ (x / ξ², y / ξ³)` maps the twist to the curve. -/
theorem twF (h : TypeF E2 E12 η ξ q r alpha0 alpha1) (b : F) :
    Twist (algebraMap F (Mid K L) 0) (algebraMap F (Mid K L) b) (0 : K) (nalpha η alpha0 alpha1 * φ b)
      (⟨(ξ ^ 2)⁻¹, h.sq_mem⟩ : Mid K L) (ξ ^ 3)⁻¹ where
  ha := by simp
  hb := by
    refine Subtype.ext ?_
    change algebraMap F L b = ((ξ ^ 2)⁻¹) ^ 3 * ψ (nalpha η alpha0 alpha1 * φ b)
    rw [map_mul, ← h.root', inv_pow, ← pow_mul, ← mul_assoc, inv_mul_cancel₀ (pow_ne_zero _ h.ξ_ne), one_mul]
    exact IsScalarTower.algebraMap_apply F K L b
  hw := by
    change _ = ((ξ ^ 2)⁻¹) ^ 3
    rw [inv_pow, inv_pow, ← pow_mul, ← pow_mul]
  hu e := inv_ne_zero (pow_ne_zero 2 h.ξ_ne) (congrArg Subtype.val e)
  irr y e := by
    have hy := h.mem.1 y.2
    have e' : (ξ ^ 3)⁻¹ = (y : L) := e
    rw [← e', inv_pow, ← pow_mul, mul_comm, pow_mul, h.conj, inv_inj] at hy
    have : (2 : L) * ξ ^ 3 = 0 := by linear_combination -hy
    exact (mul_ne_zero h.two_ne (pow_ne_zero _ h.ξ_ne)) this

/-- The reduced Tate pairing of a point of the curve over `F` and a point of the twist over `K`. -/
noncomputable def eF (h : TypeF E2 E12 η ξ q r alpha0 alpha1) (P : (EC (0 : F) b).Point)
    (Q : (EC (0 : K) (nalpha η alpha0 alpha1 * φ b)).Point) : L :=
  tateT (twF h b) r ((q ^ 12 - 1) / r) (incl (K := Mid K L) P) Q

theorem two_F (h : TypeF E2 E12 η ξ q r alpha0 alpha1) : (2 : F) ≠ 0 := fun e =>
  h.two_ne (by simpa [map_ofNat] using congrArg (algebraMap F L) e)

theorem two_K (h : TypeF E2 E12 η ξ q r alpha0 alpha1) : (2 : K) ≠ 0 := fun e =>
  h.two_ne (by simpa [map_ofNat] using congrArg (algebraMap K L) e)

theorem three_K (h : TypeF E2 E12 η ξ q r alpha0 alpha1) : (3 : K) ≠ 0 := fun e => by
  have hc := FiniteField.cast_card_eq_zero K
  rw [h.cardK] at hc
  have hq : q = 3 * (q / 3) + 1 := by
    have := h.six
    omega
  rw [hq] at hc
  push_cast at hc
  rw [e] at hc
  simp at hc

/-- The pairing is bilinear, with values in the `r`-th roots of unity; the second argument is any point
of the twist. -/
theorem eF_pairing (h : TypeF E2 E12 η ξ q r alpha0 alpha1) :
    Pairing r (fun (P : (EC (0 : F) b).Point) Q => eF h P Q) where
  add_left P₁ P₂ Q h₁ h₂ := by
    have h2 := two_F h
    unfold eF
    rw [PairingD.incl_add h2]
    exact tateT_add_left (twF h b) h.kills h.odd.pos.ne' (PairingD.incl_torsion h2 h₁)
      (PairingD.incl_torsion h2 h₂) Q
  add_right P Q₁ Q₂ hP :=
    tateT_add_right_all (twF h b) (two_K h) h.kills h.odd (PairingD.incl_torsion (two_F h) hP)
      (exists_four (two_K h) (three_K h) (by
        rw [h.cardK]
        have h7 : 7 ≤ q := by
          have h1 := h.six
          have h2 := h.q_pos
          omega
        nlinarith)).choose_spec Q₁ Q₂
  root P Q hP :=
    tateT_pow (twF h b) h.kills h.odd.pos.ne' (PairingD.incl_torsion (two_F h) hP) Q

theorem tangent_eq (x y : F) : tangent x y = PairingD.tangent 0 x y := by
  simp [tangent, PairingD.tangent]

variable {P : (EC (0 : F) b).Point}
  {Q : (EC (0 : K) (nalpha η alpha0 alpha1 * algebraMap F K b)).Point} {p' : Pt F} {q' : Pt K}

theorem nalpha_inv (h : TypeF E2 E12 η ξ q r alpha0 alpha1) :
    ψ (nalpha η alpha0 alpha1)⁻¹ = (ξ ^ 6)⁻¹ := by
  rw [map_inv₀, h.root']

/-- The value of Miller's loop. -/
theorem miller_eq (h : TypeF E2 E12 η ξ q r alpha0 alpha1) {p : Data F K L}
    (hc : Common p E2 E12 η q r b alpha0 alpha1) (hP : r • P = 0) (h0 : P ≠ 0) (hp : PtRep p' P)
    (hq : PtRep q' Q) (hQ : Q ≠ 0) :
    ∃ f, miller p p' (untwist p q').1 (untwist p q').2 = some f ∧ f ≠ 0 ∧
      f ^ ((q ^ 12 - 1) / r) = eF h P Q := by
  have hodd := h.odd
  have h2 := two_F h
  have h3 := h.three
  have hξ := h.ξ_ne
  obtain ⟨ls, Fm, hls, hgl, hF, hrun⟩ := PairingD.miller_spec (K := Mid K L) (L := L)
    (V := L) h2 h3 hodd hP h0 (PairingD.chain_of_order h3 hodd (PairingD.order_prime h.prime h0 hP)) hp
  obtain ⟨hn, hQe, hinf⟩ := rep_some hq hQ
  have hu : untwist p q' = (q'.x * (nalpha η alpha0 alpha1)⁻¹, q'.y * (nalpha η alpha0 alpha1)⁻¹) := by
    unfold untwist; dsimp only; rw [hc.hi]
  have ht : (tangent : F → F → Abc F) = PairingD.tangent 0 := by
    funext x y; exact tangent_eq x y
  unfold miller
  rw [PairingD.loop_eq _ _ _ _ [], hc.hr, ht, hls, hu, hc.hE2, hc.hE12, hc.hn, Option.bind_some,
    List.nil_append, List.length_nil]
  dsimp only
  set n := nalpha η alpha0 alpha1 with hn'
  have hval : ∀ (l : Abc F) (v : L), evalfn E2 E12 n (q'.x * n⁻¹) (q'.y * n⁻¹) l v =
      v * (algebraMap F L l.a * ((ξ ^ 2)⁻¹ * ψ q'.x) + algebraMap F L l.b * ((ξ ^ 3)⁻¹ * ψ q'.y) +
        algebraMap F L l.c) := fun l v => by
    rw [evalfn_eq h.ok2 h.ok12 h.d12 h.root', map_mul, map_mul, map_mul, map_mul, nalpha_inv h,
      IsScalarTower.algebraMap_apply F K L, IsScalarTower.algebraMap_apply F K L,
      IsScalarTower.algebraMap_apply F K L]
    field_simp
  by_cases hy : q'.y = 0
  · set u : Mid K L := ⟨(ξ ^ 2)⁻¹, h.sq_mem⟩ with hu'
    have hI := PairingD.ppApplyLoop_inv (r := r) (t := ls)
      (step := evalfn E2 E12 n (q'.x * n⁻¹) (q'.y * n⁻¹)) (sq := fun v => v ^ 2)
      (I := fun f : L => ∃ m : Mid K L, m ≠ 0 ∧ f = m) (by
        rintro l hl v ⟨m, hm, rfl⟩
        have hne := (hgl l hl).ne (t := u * algebraMap K (Mid K L) q'.x) (by
          have h1 := eqn_of hn
          rw [hy] at h1
          have h2 := (twF h b).hb
          rw [map_zero, h2, mul_pow, ← map_pow, zero_mul, add_zero, ← mul_add, ← map_add]
          rw [show q'.x ^ 3 + nalpha η alpha0 alpha1 * φ b = 0 by linear_combination -h1, map_zero,
            mul_zero])
        refine ⟨_, mul_ne_zero hm hne, ?_⟩
        rw [hval, hy]
        simp only [map_zero, mul_zero, add_zero]
        rfl) (by
        rintro v ⟨m, hm, rfl⟩
        exact ⟨m ^ 2, pow_ne_zero _ hm, rfl⟩)
    obtain ⟨f, hf⟩ := PairingD.ppApplyLoop_total (r := r)
      (evalfn E2 E12 n (q'.x * n⁻¹) (q'.y * n⁻¹)) (fun v => v ^ 2) ls (start r) 0 (1 : L)
      (by rw [PairingD.lines_length _ _ _ hls, zero_add])
    obtain ⟨m, hm, rfl⟩ := hI _ _ _ f ⟨1, one_ne_zero, rfl⟩ hf
    refine ⟨m, hf, fun e => hm (Subtype.ext e), ?_⟩
    rw [eF, hQe, tateT, dif_pos hy]
    exact h.kills.const m hm
  · obtain ⟨f, hf, hv⟩ := hrun ((twF h b).place q'.x q'.y (eqn_of hn) hy) id
      (evalfn E2 E12 n (q'.x * n⁻¹) (q'.y * n⁻¹)) (fun v => v ^ 2)
      (fun l v => by rw [id, hval]; rfl) (fun v => rfl) 1 rfl
    refine ⟨f, hf, fun e => hF.ne_zero _ (by rw [← hv, e]; rfl), ?_⟩
    rw [hQe, eF, tateT_some (twF h b) _ hn hy, tate_eq h.kills (PairingD.incl_ne h0) hF, ← hv]
    rfl

/-- **C90**: setting up succeeds; for points `P` of the curve over `F` with `r P = O` and arbitrary
points `Q` of the twist the pairing succeeds and computes `eF`, a bilinear pairing. -/
theorem C90_typeF (h : TypeF E2 E12 η ξ q r alpha0 alpha1) :
    ∃ p, init E2 E12 q r b alpha0 alpha1 = some p ∧ p.b = b ∧ p.bt = nalpha η alpha0 alpha1 * φ b ∧
    Pairing r (fun (P : (EC (0 : F) b).Point) Q => eF h P Q) ∧
    ∀ (P : (EC (0 : F) b).Point) (Q : (EC (0 : K) (nalpha η alpha0 alpha1 * φ b)).Point) (p' : Pt F)
      (q' : Pt K), PtRep p' P → PtRep q' Q → r • P = 0 →
      apply (pairing p) p' q' = some (eF h P Q) := by
  obtain ⟨p, hp, hc⟩ := init_eq (b := b) h
  refine ⟨p, hp, hc.hb, hc.hbt, eF_pairing h, fun P Q p' q' hP hQ hr => ?_⟩
  rcases PairingD.inf_of hP with ⟨hi, rfl⟩ | ⟨hi, h0⟩
  · rw [apply, if_pos hi, eF, PairingD.incl_zero, tateT_zero_left]
  rcases PairingD.inf_of hQ with ⟨hj, rfl⟩ | ⟨hj, h1⟩
  · rw [apply, if_neg (by simp [hi]), if_pos hj, eF, tateT_zero_right]
  obtain ⟨f, hf, hf0, hfe⟩ := miller_eq h hc hr h0 hP hQ h1
  rw [apply, if_neg (by simp [hi]), if_neg (by simp [hj]), pairing, hf, Option.bind_some, C50_typeF h hp f hf0, hfe]

/-- Bilinearity in terms of the routine: scalars come out as exponents. -/
theorem C90_typeF_scalars (h : TypeF E2 E12 η ξ q r alpha0 alpha1) {p : Data F K L}
    (hi : init E2 E12 q r b alpha0 alpha1 = some p)
    (hr : r • P = 0) (x y : ℤ) {p₁ : Pt F} {q₁ : Pt K} (hp : PtRep p' P) (hq : PtRep q' Q)
    (hp₁ : PtRep p₁ (x • P)) (hq₁ : PtRep q₁ (y • Q)) :
    ∃ g, g ^ r = 1 ∧ apply (pairing p) p' q' = some g ∧
      apply (pairing p) p₁ q₁ = some (g ^ (x * y)) := by
  obtain ⟨p₀, e₀, -, -, hb, hval⟩ := C90_typeF (b := b) h
  rw [e₀, Option.some.injEq] at hi
  subst hi
  refine ⟨_, hb.root P Q hr, hval P Q p' q' hp hq hr, ?_⟩
  rw [hval _ _ p₁ q₁ hp₁ hq₁ (by rw [smul_comm, hr, smul_zero])]
  exact congrArg some (hb.smul_smul h.prime.ne_zero Q hr x y)

/-! ### Identity, preprocessing, products, tests -/

/-- **C43** for type F. -/
theorem C43_typeF (map : Pt F → Pt K → Option L) (P : Pt F) (Q : Pt K) (h : P.inf = true ∨ Q.inf = true)
    (m m' : ℕ → Pt F) (i : ℕ) (hm : m i = P) :
    apply map P Q = some 1 ∧ ppApply map m' (ppInit m i) Q = some 1 := by
  subst hm
  constructor
  · unfold apply
    rcases h with h | h <;> simp [h]
  · unfold ppInit
    by_cases hi : (m i).inf = true
    · rw [if_pos hi]; rfl
    · rw [if_neg hi, ppApply, if_pos (h.resolve_left hi)]

/-- **C44** for type F (and E): as long as the element given to `pairing_pp_init` keeps its value,
`pairing_pp_apply` returns what `pairing_apply` does.  For later changes of this element see C91
(`C91_typeF_fails`). -/
theorem C44_typeF (map : Pt F → Pt K → Option L) (m m' : ℕ → Pt F) (i : ℕ) (hm : m' i = m i)
    (Q : Pt K) : ppApply map m' (ppInit m i) Q = apply map (m i) Q := by
  unfold ppInit apply
  by_cases hi : (m i).inf = true
  · rw [if_pos hi, if_pos hi]; rfl
  · rw [if_neg hi, if_neg hi, ppApply, hm]

/-- **C91**, partial: for type F what is done with other elements afterwards does not matter.  Missing:
changes of the element itself, for which see `C91_typeF_fails`. -/
theorem C91_typeF_partial (map : Pt F → Pt K → Option L) (m : ℕ → Pt F) (i : ℕ) (l : List (ℕ × Pt F))
    (hl : ∀ u ∈ l, u.1 ≠ i) (Q : Pt K) :
    ppApply map (l.foldl (fun m u => Function.update m u.1 u.2) m) (ppInit m i) Q = apply map (m i) Q := by
  refine C44_typeF map m _ i ?_ Q
  induction l generalizing m with
  | nil => rfl
  | cons u l ih =>
    rw [List.foldl_cons, ih _ fun v hv => hl v (List.mem_cons_of_mem _ hv),
      Function.update_of_ne (hl u List.mem_cons_self).symm]

/-- **C91 fails for type F**: if the element given to `pairing_pp_init` is changed afterwards, what
`pairing_pp_apply` returns is the pairing of the new value; with `P₂ = 2 P₁` this is the square of what
it should be, and differs from it unless the pairing is 1. -/
theorem C91_typeF_fails (h : TypeF E2 E12 η ξ q r alpha0 alpha1) {p : Data F K L}
    (hi : init E2 E12 q r b alpha0 alpha1 = some p)
    (hr : r • P = 0) (h0 : P ≠ 0) (hQ : Q ≠ 0) {m m' : ℕ → Pt F} {i : ℕ} (hp : PtRep (m i) P)
    (hp' : PtRep (m' i) (2 • P)) (hq : PtRep q' Q) :
    ∃ g, apply (pairing p) (m i) q' = some g ∧
      ppApply (pairing p) m' (ppInit m i) q' = some (g ^ 2) ∧ (g ≠ 1 → g ^ 2 ≠ g) := by
  obtain ⟨p₀, e₀, -, -, hb, hval⟩ := C90_typeF (b := b) h
  rw [e₀, Option.some.injEq] at hi
  subst hi
  have h20 : 2 • P ≠ 0 := by
    have := PairingD.two_smul_ne h.odd hr (n := 1) (by rwa [one_smul])
    rwa [one_smul] at this
  refine ⟨_, hval P Q _ q' hp hq hr, ?_, fun h1 h2 => ?_⟩
  · have hv := hval (2 • P) Q _ q' hp' hq (by rw [smul_comm, hr, smul_zero])
    rw [apply, if_neg (by simp [(rep_some hp' h20).choose_spec.2]),
      if_neg (by simp [(rep_some hq hQ).choose_spec.2])] at hv
    rw [ppInit, if_neg (by simp [(rep_some hp h0).choose_spec.2]), ppApply,
      if_neg (by simp [(rep_some hq hQ).choose_spec.2]), hv]
    exact congrArg some (hb.nsmul_left h.prime.ne_zero Q hr 2)
  · have hne : eF h P Q ≠ 0 := hb.ne_zero h.prime.ne_zero Q hr
    rw [pow_two] at h2
    exact h1 (mul_left_cancel₀ hne (by rw [h2, mul_one]))

/-- The product routine multiplies the single values. -/
theorem genericProd_eq {map : Pt F → Pt K → Option L} {p' : ℕ → Pt F} {q' : ℕ → Pt K} {g : ℕ → L} :
    ∀ n, (∀ j < n + 1, map (p' j) (q' j) = some (g j)) →
      genericProd map p' q' (n + 1) = some (∏ j ∈ Finset.range (n + 1), g j)
  | 0, h => by rw [genericProd, h 0 (by omega)]; simp
  | n + 1, h => by
    rw [genericProd, genericProd_eq n (fun j hj => h j (by omega)), h (n + 1) (by omega)]
    dsimp only
    rw [Finset.prod_range_succ _ (n + 1)]

/-- **C45** for type F: for arrays of any length `N ≥ 1` of nonzero points the product routine returns
the product of the single pairings. -/
theorem C45_typeF (h : TypeF E2 E12 η ξ q r alpha0 alpha1) {p : Data F K L}
    (hi : init E2 E12 q r b alpha0 alpha1 = some p) {N : ℕ} (hN : 1 ≤ N)
    {P : ℕ → (EC (0 : F) b).Point}
    {Q : ℕ → (EC (0 : K) (nalpha η alpha0 alpha1 * algebraMap F K b)).Point}
    {p' : ℕ → Pt F} {q' : ℕ → Pt K} (hp : ∀ j < N, PtRep (p' j) (P j))
    (hq : ∀ j < N, PtRep (q' j) (Q j)) (hP : ∀ j < N, r • P j = 0) (hP0 : ∀ j < N, P j ≠ 0)
    (hQ0 : ∀ j < N, Q j ≠ 0) :
    prodPairing (genericProd (pairing p)) p' q' N = some (∏ j ∈ Finset.range N, eF h (P j) (Q j)) ∧
      ∀ j < N, apply (pairing p) (p' j) (q' j) = some (eF h (P j) (Q j)) := by
  obtain ⟨p₀, e₀, -, -, -, hval⟩ := C90_typeF (b := b) h
  rw [e₀, Option.some.injEq] at hi
  subst hi
  have hs := fun j (hj : j < N) => hval (P j) (Q j) (p' j) (q' j) (hp j hj) (hq j hj) (hP j hj)
  have hpi : ∀ j < N, (p' j).inf = false := fun j hj => (rep_some (hp j hj) (hP0 j hj)).choose_spec.2
  have hqi : ∀ j < N, (q' j).inf = false := fun j hj => (rep_some (hq j hj) (hQ0 j hj)).choose_spec.2
  refine ⟨?_, hs⟩
  have hany : ¬ PairingD.anyZero p' q' N = true := by
    rw [PairingD.anyZero_iff]
    rintro ⟨j, hj, h | h⟩
    · rw [hpi j hj] at h; exact absurd h (by decide)
    · rw [hqi j hj] at h; exact absurd h (by decide)
  rw [prodPairing, if_neg hany]
  obtain ⟨n, rfl⟩ : ∃ n, N = n + 1 := ⟨N - 1, by omega⟩
  refine genericProd_eq n fun j hj => ?_
  have := hs j hj
  rwa [apply, if_neg (by simp [hpi j hj]), if_neg (by simp [hqi j hj])] at this

/-- **C48** for type F: the final powering — which also produces the random and hashed elements of GT —
takes every nonzero element to an `r`-th root of unity. -/
theorem C48_typeF (h : TypeF E2 E12 η ξ q r alpha0 alpha1) {p : Data F K L}
    (hi : init E2 E12 q r b alpha0 alpha1 = some p) {f : L} (hf : f ≠ 0) :
    ∃ g, tatepower p f = some g ∧ g ^ r = 1 := by
  refine ⟨_, C50_typeF h hi f hf, ?_⟩
  rw [← pow_mul, mul_comm, pow_mul]
  exact h.kills.rpow f hf

/-- **C53** for types E and F (`generic_is_almost_coddh`): for `g`, `x g`, `h`, `y h` with
`e(g, h) ≠ 1` — any of `x g`, `y h` may be `O` — the test answers yes exactly for `y = ±x` modulo `r`. -/
theorem C53_typeF (h : TypeF E2 E12 η ξ q r alpha0 alpha1) {p : Data F K L}
    (hi : init E2 E12 q r b alpha0 alpha1 = some p)
    (hr : r • P = 0) (hne : eF h P Q ≠ 1) {x y : ℤ}
    {p₁ p₂ : Pt F} {q₁ q₂ : Pt K} (hp₁ : PtRep p₁ P) (hp₂ : PtRep p₂ (x • P)) (hq₁ : PtRep q₁ Q)
    (hq₂ : PtRep q₂ (y • Q)) :
    ∃ ans, almostCoddh (pairing p) p₁ p₂ q₁ q₂ = some ans ∧
      (ans = true ↔ (r : ℤ) ∣ y - x ∨ (r : ℤ) ∣ y + x) := by
  obtain ⟨p₀, e₀, -, -, hb, hval⟩ := C90_typeF (b := b) h
  rw [e₀, Option.some.injEq] at hi
  subst hi
  set t := eF h P Q with htd
  have htr : t ^ r = 1 := hb.root P Q hr
  have ht0 : t ≠ 0 := hb.ne_zero h.prime.ne_zero Q hr
  have hord : orderOf t = r := by
    have : Fact r.Prime := ⟨h.prime⟩
    exact orderOf_eq_prime htr hne
  have hz : ∀ n : ℤ, t ^ n = 1 ↔ (r : ℤ) ∣ n := fun n => by
    rw [← hord]
    have := orderOf_dvd_iff_zpow_eq_one (x := Units.mk0 t ht0) (i := n)
    rw [← orderOf_units, Units.val_mk0] at this
    rw [this, ← Units.val_inj]
    simp
  have e0 := hval P (y • Q) p₁ q₂ hp₁ hq₂ hr
  have e1 := hval (x • P) Q p₂ q₁ hp₂ hq₁ (by rw [smul_comm, hr, smul_zero])
  have v0 : eF h P (y • Q) = t ^ y := hb.zsmul_right h.prime.ne_zero _ hr y
  have v1 : eF h (x • P) Q = t ^ x := hb.zsmul_left h.prime.ne_zero _ hr x
  rw [v0] at e0
  rw [v1] at e1
  unfold almostCoddh
  rw [e0, e1]
  dsimp only
  have hA : t ^ y = t ^ x ↔ (r : ℤ) ∣ y - x := by
    rw [← hz, zpow_sub₀ ht0, div_eq_one_iff_eq (zpow_ne_zero _ ht0)]
  by_cases h1 : t ^ y = t ^ x
  · rw [if_pos h1]
    exact ⟨true, rfl, by simp [hA.1 h1]⟩
  · rw [if_neg h1]
    refine ⟨_, rfl, ?_⟩
    rw [decide_eq_true_iff, ← zpow_add₀ ht0, hz]
    exact ⟨.inr, fun h => h.resolve_left fun h' => h1 (hA.2 h')⟩

/-- **C89** for type F: elements of G2 that `element_cmp` calls equal — their difference is killed by
the quotient `n`, prime to `r`, that was set — have the same pairing with every element of G1. -/
theorem C89_typeF (h : TypeF E2 E12 η ξ q r alpha0 alpha1) {p : Data F K L}
    (hi : init E2 E12 q r b alpha0 alpha1 = some p)
    {n : ℕ} (hn : n.Coprime r) {m : Curve.Mem K} {i j : ℕ}
    {Q₁ Q₂ : (EC (0 : K) (nalpha η alpha0 alpha1 * algebraMap F K b)).Point}
    (h₁ : PtRep (m i) Q₁) (h₂ : PtRep (m j) Q₂)
    (hcmp : Curve.cmp 0 (some n) m i j = some false) (hp : PtRep p' P) (hr : r • P = 0) :
    ∃ g, apply (pairing p) p' (m i) = some g ∧ apply (pairing p) p' (m j) = some g := by
  obtain ⟨p₀, e₀, -, -, hb, hval⟩ := C90_typeF (b := b) h
  rw [e₀, Option.some.injEq] at hi
  subst hi
  obtain ⟨ans, e, hans⟩ := (Props.C33_tests (two_K h) h₁ h₂).2.2.1 n
  rw [hcmp, Option.some.injEq] at e
  refine ⟨_, hval P Q₁ p' (m i) hp h₁ hr, ?_⟩
  rw [hval P Q₂ p' (m j) hp h₂ hr]
  exact congrArg some (hb.congr_right h.prime.ne_zero hr hn (hans.1 e.symm)).symm

/-- **C89**, the converse: if the twist has `c r` points, `c` divides the quotient `n`, and `P` pairs
with some point to a value other than 1, then elements of G2 that have the same pairing with `P` are
equal for `element_cmp`. -/
theorem C89_typeF_converse (h : TypeF E2 E12 η ξ q r alpha0 alpha1) {p : Data F K L}
    (hi : init E2 E12 q r b alpha0 alpha1 = some p)
    {c n : ℕ} (hc : 0 < c) (hcn : c ∣ n)
    (hcard : Nat.card (EC (0 : K) (nalpha η alpha0 alpha1 * algebraMap F K b)).Point = c * r)
    {m : Curve.Mem K} {i j : ℕ}
    {Q₁ Q₂ : (EC (0 : K) (nalpha η alpha0 alpha1 * algebraMap F K b)).Point}
    (h₁ : PtRep (m i) Q₁) (h₂ : PtRep (m j) Q₂) (hp : PtRep p' P) (hr : r • P = 0)
    (hnd : ∃ S, eF h P S ≠ 1)
    (he : apply (pairing p) p' (m i) = apply (pairing p) p' (m j)) :
    Curve.cmp 0 (some n) m i j = some false := by
  obtain ⟨p₀, e₀, -, -, hb, hval⟩ := C90_typeF (b := b) h
  rw [e₀, Option.some.injEq] at hi
  subst hi
  obtain ⟨ans, e, hans⟩ := (Props.C33_tests (two_K h) h₁ h₂).2.2.1 n
  rw [hval P Q₁ p' (m i) hp h₁ hr, hval P Q₂ p' (m j) hp h₂ hr, Option.some.injEq] at he
  rw [e, hans.2]
  obtain ⟨d, rfl⟩ := hcn
  have := hb.smul_of_eq h.prime hr hc hcard hnd he
  rw [mul_comm c d, mul_smul, this, smul_zero]

end pairing

end Pbc.PairingF
