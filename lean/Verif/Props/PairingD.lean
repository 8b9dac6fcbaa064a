import Verif.Lemmas.PairingDProd
import Verif.Spec.Pairing
import Verif.Props.Curve
import Mathlib.FieldTheory.Finite.GaloisField
import Mathlib.FieldTheory.PrimitiveElement
import Mathlib.Tactic.NormNum.Prime

/-! # Pairings of types D and G

`F` is the field of `q` elements, `K` its extension of degree `d`, `v` a nonsquare of `K` that lies in
`F`, and GT lives in `K(√v) = QuadraticAlgebra K v 0`.  G1 is `Y² = X³ + a X + b` over `F`, G2 its
twist `Y² = X³ + v² a X + v³ b` over `K`. -/

set_option autoImplicit false
set_option linter.unusedSectionVars false

namespace Pbc.PairingD

open Pbc.Quad
open Pbc.Curve (Pt)
open Pbc.PairingA (Abc copy)
open WeierstrassCurve WeierstrassCurve.Affine
open Spec (EC PtRep Pairing)
open Tate

variable {F K : Type*} [Field F] [DecidableEq F] [Fintype F] [Field K] [DecidableEq K] [Fintype K]
  [Algebra F K] {E : Ext F K} {ξ : K} {q k r : ℕ} {a b v0 : F}

local notation "φ" => algebraMap F K

/-- `k = 2 d`, the fields have `q` and `q^d` elements, `r` is an odd prime that divides `q² - q + 1` if
`k = 6` and `q^d + 1` in any case. -/
structure TypeD (E : Ext F K) (ξ : K) (q k r : ℕ) : Prop where
  ok : E.Ok ξ
  cardF : Fintype.card F = q
  cardK : Fintype.card K = q ^ E.d
  hk : k = 2 * E.d
  prime : r.Prime
  three : 3 ≤ r
  six : k = 6 → r ∣ q ^ 2 - q + 1
  dvd : r ∣ q ^ E.d + 1

/-- `k = 10`, the fields have `q` and `q^5` elements, `r` is an odd prime that divides
`q⁴ - q³ + q² - q + 1`. -/
structure TypeG (E : Ext F K) (ξ : K) (q r : ℕ) : Prop where
  ok : E.Ok ξ
  cardF : Fintype.card F = q
  cardK : Fintype.card K = q ^ 5
  deg : E.d = 5
  prime : r.Prime
  three : 3 ≤ r
  dvd : (r : ℤ) ∣ (q : ℤ) ^ 4 - q ^ 3 + q ^ 2 - q + 1

/-! ### Parameters -/

theorem inv?_eq {x : K} (h : x ≠ 0) : inv? x = some x⁻¹ := by rw [inv?, if_neg h]

theorem make_const (h : E.Ok ξ) (c : F) : E.make (fun i => if i = 0 then c else 0) = φ c := by
  rw [h.make, Finset.sum_eq_single 0]
  · simp
  · intro i _ hi; simp [hi]
  · intro hi; exact absurd (Finset.mem_range.2 h.pos) hi

/-- What both kinds of data have in common. -/
structure Common (p : Data F K) (E : Ext F K) (r : ℕ) (a b v0 : F) : Prop where
  hE : p.E = E
  ha : p.a = a
  hr : p.r = r
  hv : p.nqr = algebraMap F K v0
  hv1 : p.nqrinv = (algebraMap F K v0)⁻¹
  hv2 : p.nqrinv2 = (algebraMap F K v0)⁻¹ ^ 2

theorem initD_eq (h : TypeD E ξ q k r) (hv : φ v0 ≠ 0) :
    ∃ p, initD E q k r a b v0 = some p ∧ Common p E r a b v0 ∧ p.k = k ∧
      (k = 6 → p.xpowq = ξ ^ q ∧ p.xpowq2 = (ξ ^ q) ^ 2 ∧ p.phikonr = (q ^ 2 - q + 1) / r) ∧
      (k ≠ 6 → p.tateexp = (q ^ k - 1) / r) := by
  unfold initD
  dsimp only
  rw [make_const h.ok, inv?_eq hv]
  dsimp only
  by_cases h6 : k = 6
  · have hd : E.d = 3 := by have := h.hk; omega
    rw [if_pos h6, gen_eq h.ok (by omega)]
    have hp := Gen.powMpz_spec ξ q
    rw [hp]
    exact ⟨_, rfl, ⟨rfl, rfl, rfl, rfl, rfl, rfl⟩, rfl, fun _ => ⟨rfl, rfl, by dsimp only; rw [pow_two q]⟩,
      fun h => absurd h6 h⟩
  · rw [if_neg h6]
    exact ⟨_, rfl, ⟨rfl, rfl, rfl, rfl, rfl, rfl⟩, rfl, fun h => absurd h h6, fun _ => rfl⟩

theorem initG_eq (h : TypeG E ξ q r) (hv : φ v0 ≠ 0) :
    ∃ p, initG E q r a b v0 = some p ∧ Common p E r a b v0 ∧ p.xpowq = ξ ^ q ∧
      p.xpowq2 = (ξ ^ q) ^ 2 ∧ p.xpowq3 = (ξ ^ q) ^ 3 ∧ p.xpowq4 = (ξ ^ q) ^ 4 ∧
      p.phikonr = ((q : ℤ) ^ 4 - q ^ 3 + q ^ 2 - q + 1).toNat / r := by
  unfold initG
  dsimp only
  rw [make_const h.ok, inv?_eq hv]
  dsimp only
  rw [gen_eq h.ok (by have := h.deg; omega), Gen.powMpz_spec ξ q]
  refine ⟨_, rfl, ⟨rfl, rfl, rfl, rfl, rfl, rfl⟩, rfl, rfl, ?_, ?_, ?_⟩
  · dsimp only; ring
  · dsimp only; ring
  · dsimp only; congr 2; ring

/-! ### The final powering -/

section final

variable [Fact (∀ s : K, s ^ 2 ≠ algebraMap F K v0 + 0 * s)]

theorem TypeD.odd (h : TypeD E ξ q k r) : Odd r := h.prime.odd_of_ne_two (by have := h.three; omega)

theorem TypeG.odd (h : TypeG E ξ q r) : Odd r := h.prime.odd_of_ne_two (by have := h.three; omega)

theorem exp_eq {n h : ℕ} (hh : n + 1 = h * r) (hr : 0 < r) : (n ^ 2 - 1) / r = (n - 1) * h := by
  have : n ^ 2 - 1 = (n - 1) * h * r := by
    rw [mul_assoc, ← hh]
    obtain _ | n := n
    · rfl
    · simp only [Nat.add_sub_cancel]
      rw [Nat.sub_eq_iff_eq_add (Nat.one_le_pow _ _ (by omega))]; ring
  rw [this, Nat.mul_div_cancel _ hr]

theorem six_eq (q : ℕ) : q ^ 3 + 1 = (q + 1) * (q ^ 2 - q + 1) := by
  have : q ≤ q ^ 2 := Nat.le_self_pow (by norm_num) q
  zify [this]; ring

theorem six_odd (q : ℕ) : Odd (q ^ 2 - q + 1) := by
  refine Even.add_one ?_
  rw [pow_two, ← Nat.mul_sub_one]
  exact Nat.even_mul_pred_self q

/-- **C50** for type D: the final powering of a nonzero element of `F_q^k` succeeds and raises to
`(q^k - 1) / r`. -/
theorem C50_typeD (h : TypeD E ξ q k r) {p : Data F K} (hp : initD E q k r a b v0 = some p) (f : El K)
    (hf : alg (φ v0) f ≠ 0) :
    ∃ g, tatepowerD p f = some g ∧ alg (φ v0) g = alg (φ v0) f ^ ((q ^ k - 1) / r) := by
  obtain ⟨p', e, hc, hk, h6, h6'⟩ := initD_eq (a := a) (b := b) (v0 := v0) h (v_ne (v := φ v0))
  rw [e, Option.some.injEq] at hp
  subst hp
  unfold tatepowerD
  by_cases hk6 : k = 6
  · obtain ⟨hx1, hx2, hphi⟩ := h6 hk6
    have hd : E.d = 3 := by have := h.hk; omega
    obtain ⟨c, hcr⟩ := h.six hk6
    have hc' : (q ^ 2 - q + 1) / r = c := by rw [hcr]; exact Nat.mul_div_cancel_left c h.prime.pos
    rw [hc'] at hphi
    have hcodd : Odd c := by
      have := six_odd q
      rw [hcr] at this
      exact (Nat.odd_mul.1 this).2
    have hexp : (q ^ k - 1) / r = (Fintype.card K - 1) * (Fintype.card F + 1) * c := by
      rw [h.cardK, hd, h.cardF, hk6, show q ^ 6 = (q ^ 3) ^ 2 by ring,
        exp_eq (h := (q + 1) * c) (by rw [six_eq, hcr]; ring) h.prime.pos, mul_assoc]
    obtain ⟨e3, he3, hv3⟩ := tateFirst_eq (v := φ v0) (p := p') hc.hv rfl
      (qpowerD_eq (p := p') (by rw [hc.hE]; exact h.ok) (by rw [hc.hE]; exact hd)
        (by rw [h.cardF]; exact hx1) (by rw [h.cardF]; exact hx2)) hf
    rw [if_pos (hk.trans hk6), he3, Option.bind_some, hphi, hexp, pow_mul, ← hv3]
    have hn := first_nrm hf hv3
    unfold lucasEven
    by_cases h1 : Quad.is1 e3
    · rw [if_pos h1]
      refine ⟨e3, rfl, ?_⟩
      have : e3 = one2 := by
        rcases e3 with ⟨x, y⟩
        simp only [Quad.is1, Bool.and_eq_true, decide_eq_true_eq] at h1
        rw [h1.1, h1.2]; rfl
      rw [this, alg_one2, one_pow]
    · rw [if_neg h1]
      refine lucasBody_eq (two_ne' (φ v0)) e3 hn hcodd fun hy => h1 ?_
      have hord : alg (φ v0) e3 ^ (q ^ 2 - q + 1) = 1 := by
        rw [hv3, ← pow_mul, mul_assoc, h.cardF, ← six_eq, ← hd, ← h.cardK, mul_comm]
        exact pow_card_sq _ hf
      rw [eq_one_of hn hy (six_odd q) hord]
      simp [Quad.is1, one2]
  · rw [if_neg (by rw [hk]; exact hk6), hc.hv, h6' hk6]
    exact alg_pow2 _ _

theorem ten_eq (q : ℕ) : ((q : ℤ) ^ 5 + 1) = (q + 1) * ((q : ℤ) ^ 4 - q ^ 3 + q ^ 2 - q + 1) := by ring

theorem ten_pos (q : ℕ) : 0 ≤ (q : ℤ) ^ 4 - q ^ 3 + q ^ 2 - q + 1 := by
  rcases q with _ | n
  · norm_num
  · have : ((n + 1 : ℕ) : ℤ) ^ 4 - ((n + 1 : ℕ) : ℤ) ^ 3 + ((n + 1 : ℕ) : ℤ) ^ 2 - ((n + 1 : ℕ) : ℤ) + 1 =
        (n + 1) * n * ((n + 1) ^ 2 + 1) + 1 := by push_cast; ring
    rw [this]; positivity

theorem ten_odd (q : ℕ) : Odd ((q : ℤ) ^ 4 - q ^ 3 + q ^ 2 - q + 1).toNat := by
  rw [← Int.odd_coe_nat, Int.toNat_of_nonneg (ten_pos q)]
  refine Even.add_one ?_
  have : (q : ℤ) ^ 4 - q ^ 3 + q ^ 2 - q = q * (q - 1) * (q ^ 2 + 1) := by ring
  rw [this]
  exact (Int.even_mul_pred_self q).mul_right _

/-- **C50** for type G: the final powering of a nonzero element of `F_q^10` raises to `(q^10 - 1) / r`,
except that it fails (division by zero, `pbc_die`) on the elements whose `(q^5 - 1)(q + 1)`-th power
is 1. -/
theorem C50_typeG_partial (h : TypeG E ξ q r) {p : Data F K} (hp : initG E q r a b v0 = some p) (f : El K)
    (hf : alg (φ v0) f ≠ 0) :
    (alg (φ v0) f ^ ((q ^ 5 - 1) * (q + 1)) ≠ 1 →
      ∃ g, tatepowerG p f = some g ∧ alg (φ v0) g = alg (φ v0) f ^ ((q ^ 10 - 1) / r)) ∧
    (alg (φ v0) f ^ ((q ^ 5 - 1) * (q + 1)) = 1 → tatepowerG p f = none) := by
  obtain ⟨p', e, hc, hx1, hx2, hx3, hx4, hphi⟩ :=
    initG_eq (a := a) (b := b) (v0 := v0) h (v_ne (v := φ v0))
  rw [e, Option.some.injEq] at hp
  subst hp
  set N := ((q : ℤ) ^ 4 - q ^ 3 + q ^ 2 - q + 1).toNat with hN
  have hNz : (N : ℤ) = (q : ℤ) ^ 4 - q ^ 3 + q ^ 2 - q + 1 := Int.toNat_of_nonneg (ten_pos q)
  have h5 : q ^ 5 + 1 = (q + 1) * N := by
    have := ten_eq q
    rw [← hNz] at this
    exact_mod_cast this
  obtain ⟨c, hcr⟩ : r ∣ N := by have := h.dvd; rw [← hNz] at this; exact_mod_cast this
  have hc' : N / r = c := by rw [hcr]; exact Nat.mul_div_cancel_left c h.prime.pos
  rw [hc'] at hphi
  have hNodd : Odd N := ten_odd q
  have hcodd : Odd c := by
    rw [hcr] at hNodd
    exact (Nat.odd_mul.1 hNodd).2
  have hexp : (q ^ 10 - 1) / r = (Fintype.card K - 1) * (Fintype.card F + 1) * c := by
    rw [h.cardK, h.cardF, show q ^ 10 = (q ^ 5) ^ 2 by ring,
      exp_eq (h := (q + 1) * c) (by rw [h5, hcr]; ring) h.prime.pos, mul_assoc]
  obtain ⟨e3, he3, hv3⟩ := tateFirst_eq (v := φ v0) (p := p') hc.hv rfl
    (qpowerG_eq (p := p') (by rw [hc.hE]; exact h.ok) (by rw [hc.hE]; exact h.deg)
      (by rw [h.cardF]; exact hx1) (by rw [h.cardF]; exact hx2) (by rw [h.cardF]; exact hx3)
      (by rw [h.cardF]; exact hx4)) hf
  have hn := first_nrm hf hv3
  have hv3' : alg (φ v0) e3 = alg (φ v0) f ^ ((q ^ 5 - 1) * (q + 1)) := by
    rw [hv3, h.cardK, h.cardF]
  unfold tatepowerG
  rw [he3, Option.bind_some, hphi, hexp, pow_mul _ _ c, ← hv3, ← hv3']
  constructor
  · intro h1
    refine lucasBody_eq (two_ne' (φ v0)) e3 hn hcodd fun hy => h1 ?_
    have hord : alg (φ v0) e3 ^ N = 1 := by
      rw [hv3', ← pow_mul, mul_assoc, ← h5, ← h.cardK, mul_comm]
      exact pow_card_sq _ hf
    rw [eq_one_of hn hy hNodd hord, alg_one2]
  · intro h1
    refine lucasBody_none e3 hn c ?_
    exact congrArg QuadraticAlgebra.im h1

/-! ### The pairing -/

/-- `(x, y) ↦ (x / v, y √v / v²)` maps the twist to the curve. -/
theorem twD : Twist (φ a) (φ b) (φ v0 ^ 2 * φ a) (φ v0 ^ 3 * φ b) (φ v0)⁻¹
    (alg (φ v0) ⟨0, (φ v0)⁻¹ ^ 2⟩ : QuadraticAlgebra K (φ v0) 0) where
  ha := by
    have := v_ne (v := φ v0)
    simp only [Algebra.algebraMap_self, RingHom.id_apply]
    field_simp
  hb := by
    have := v_ne (v := φ v0)
    simp only [Algebra.algebraMap_self, RingHom.id_apply]
    field_simp
  hw := by
    have := v_ne (v := φ v0)
    rw [algebraMap_eq, pow_two, ← alg_mul]
    ext <;> simp [alg]
    field_simp
  hu := inv_ne_zero (v_ne (v := φ v0))
  irr y h := by
    rw [algebraMap_eq] at h
    exact pow_ne_zero 2 (inv_ne_zero (v_ne (v := φ v0))) (congrArg QuadraticAlgebra.im h)

/-- The reduced Tate pairing of a point of the curve over `F` and a point of the twist over `K`. -/
noncomputable def eD (v0 : F) [Fact (∀ s : K, s ^ 2 ≠ algebraMap F K v0 + 0 * s)] (r h : ℕ)
    (P : (EC a b).Point) (Q : (EC (φ v0 ^ 2 * φ a) (φ v0 ^ 3 * φ b)).Point) :
    QuadraticAlgebra K (φ v0) 0 :=
  tateT twD r ((Fintype.card K - 1) * h) (incl (K := K) P) Q

variable {h : ℕ} {P : (EC a b).Point}
  {Q : (EC (algebraMap F K v0 ^ 2 * algebraMap F K a) (algebraMap F K v0 ^ 3 * algebraMap F K b)).Point}
  {p' : Pt F} {q' : Pt K}

theorem two_F (v0 : F) [Fact (∀ s : K, s ^ 2 ≠ algebraMap F K v0 + 0 * s)] : (2 : F) ≠ 0 := fun h =>
  two_ne' (φ v0) (by simpa [map_ofNat] using congrArg φ h)

/-- The pairing is bilinear, with values in the `r`-th roots of unity; the second argument is any point
of the twist. -/
theorem eD_pairing (hodd : Odd r) (hh : Fintype.card K + 1 = h * r)
    {S : (EC (φ v0 ^ 2 * φ a) (φ v0 ^ 3 * φ b)).Point} (hS : 4 • S ≠ 0) :
    Pairing r (fun (P : (EC a b).Point) Q => eD (K := K) v0 r h P Q) where
  add_left P₁ P₂ Q h₁ h₂ := by
    have h2 := two_F (K := K) v0
    unfold eD
    rw [incl_add h2]
    exact tateT_add_left twD (kills hh) hodd.pos.ne' (incl_torsion h2 h₁) (incl_torsion h2 h₂) Q
  add_right P Q₁ Q₂ hP :=
    tateT_add_right_all twD (two_ne' (φ v0)) (kills hh) hodd (incl_torsion (two_F (K := K) v0) hP) hS Q₁ Q₂
  root P Q hP :=
    tateT_pow twD (kills hh) hodd.pos.ne' (incl_torsion (two_F (K := K) v0) hP) Q

theorem order_prime {A : Type*} [AddCommGroup A] {P : A} (hr : r.Prime) (h0 : P ≠ 0) (h : r • P = 0) :
    addOrderOf P = r := by
  have : Fact r.Prime := ⟨hr⟩
  exact addOrderOf_eq_prime h h0

/-- What evaluating the lines of `P` gives. -/
theorem eval_lines {p : Data F K} (hok : E.Ok ξ) (hc : Common p E r a b v0) (h3 : 3 ≤ r) (hr : r.Prime)
    (hh : Fintype.card K + 1 = h * r) (hP : r • P = 0) (h0 : P ≠ 0) (hp : PtRep p' P) :
    ∃ ls, lines (tangent a) a r p' (start r) (copy p') = some ls ∧
      ∀ (Q : (EC (φ v0 ^ 2 * φ a) (φ v0 ^ 3 * φ b)).Point) (q' : Pt K), PtRep q' Q → Q ≠ 0 →
      ∃ f, ppApplyLoop r (fun l v => mul2 p.nqr v (evalfn p.E l (untwist p q').1 (untwist p q').2))
          (square2 p.nqr) ls (start r) 0 one2 = some f ∧ alg (φ v0) f ≠ 0 ∧
        alg (φ v0) f ^ ((Fintype.card K - 1) * h) = eD v0 r h P Q := by
  have hodd : Odd r := hr.odd_of_ne_two (by omega)
  have h2 := two_F (K := K) v0
  obtain ⟨ls, Fm, hls, hgl, hF, hrun⟩ := miller_spec (K := K) (L := QuadraticAlgebra K (φ v0) 0)
    (V := El K) h2 h3 hodd hP h0 (chain_of_order h3 hodd (order_prime hr h0 hP)) hp
  refine ⟨ls, hls, fun Q q' hq hQ => ?_⟩
  obtain ⟨hn, hQe, hinf⟩ := rep_some hq hQ
  have hu : untwist p q' = (q'.x * (φ v0)⁻¹, q'.y * (φ v0)⁻¹ ^ 2) := by
    unfold untwist; dsimp only; rw [hc.hv1, hc.hv2]
  rw [hu, hc.hv, hc.hE]
  by_cases hy : q'.y = 0
  · have hI := ppApplyLoop_inv (r := r) (t := ls)
      (step := fun l v => mul2 (φ v0) v (evalfn E l (q'.x * (φ v0)⁻¹) (q'.y * (φ v0)⁻¹ ^ 2)))
      (sq := square2 (φ v0)) (I := fun f => f.y = 0 ∧ f.x ≠ 0) (by
        rintro l hl v ⟨hvy, hvx⟩
        have hne := (hgl l hl).ne (t := q'.x * (φ v0)⁻¹) (by
          have := eqn_of hn
          rw [hy] at this
          have hv := v_ne (v := φ v0)
          field_simp
          linear_combination -this)
        rw [evalfn_eq hok, mul2, Quad.mul_eq]
        simp [hvy, hy, hvx, hne]) (by
        rintro v ⟨hvy, hvx⟩
        rw [square2, Quad.square_eq, Quad.mul_eq]
        simp [hvy, hvx])
    obtain ⟨f, hf⟩ := ppApplyLoop_total (r := r)
      (fun l v => mul2 (φ v0) v (evalfn E l (q'.x * (φ v0)⁻¹) (q'.y * (φ v0)⁻¹ ^ 2)))
      (square2 (φ v0)) ls (start r) 0 (one2 : El K)
      (by rw [lines_length _ _ _ hls, zero_add])
    obtain ⟨hfy, hfx⟩ := hI _ _ _ f ⟨rfl, one_ne_zero⟩ hf
    have hfe : alg (φ v0) f = algebraMap K _ f.x := by
      rw [algebraMap_eq]; ext <;> simp [alg, hfy]
    refine ⟨f, hf, by rw [hfe]; simpa using hfx, ?_⟩
    rw [hfe, (kills hh).const _ hfx, eD, hQe, tateT, dif_pos hy]
  · obtain ⟨f, hf, hv⟩ := hrun (twD.place q'.x q'.y (eqn_of hn) hy) (alg (φ v0))
      (fun l v => mul2 (φ v0) v (evalfn E l (q'.x * (φ v0)⁻¹) (q'.y * (φ v0)⁻¹ ^ 2))) (square2 (φ v0))
      (fun l v => by
        rw [alg_mul2, evalfn_eq hok]
        congr 1
        simp only [lval, Twist.place, Algebra.algebraMap_self, RingHom.id_apply, algebraMap_eq, ← alg_mul]
        ext <;> simp [alg, mul_comm]) (fun v => alg_square2 v) one2 alg_one2
    refine ⟨f, hf, by rw [hv]; exact hF.ne_zero _, ?_⟩
    rw [hv, hQe, eD, tateT_some twD _ hn hy, tate_eq (kills hh) (incl_ne h0) hF]

theorem affine_eq (p : Data F K) (p' : Pt F) (q' : Pt K) :
    millerAffine p p' (untwist p q').1 (untwist p q').2 =
      (lines (tangent p.a) p.a p.r p' (start p.r) (copy p')).bind (fun ls =>
        ppApplyLoop p.r (fun l v => mul2 p.nqr v (evalfn p.E l (untwist p q').1 (untwist p q').2))
          (square2 p.nqr) ls (start p.r) 0 one2) := by
  rw [millerAffine, loop_eq _ _ _ _ []]
  rfl

/-- The value of Miller's loop. -/
theorem miller_eq {p : Data F K} (hok : E.Ok ξ) (hc : Common p E r a b v0) (h3 : 3 ≤ r) (hr : r.Prime)
    (hh : Fintype.card K + 1 = h * r) (hP : r • P = 0) (h0 : P ≠ 0) (hp : PtRep p' P) (hq : PtRep q' Q)
    (hQ : Q ≠ 0) :
    ∃ f, millerAffine p p' (untwist p q').1 (untwist p q').2 = some f ∧ alg (φ v0) f ≠ 0 ∧
        alg (φ v0) f ^ ((Fintype.card K - 1) * h) = eD v0 r h P Q := by
  obtain ⟨ls, hls, hev⟩ := eval_lines hok hc h3 hr hh hP h0 hp
  obtain ⟨f, hf, hf0, hfe⟩ := hev Q q' hq hQ
  refine ⟨f, ?_, hf0, hfe⟩
  rw [affine_eq, hc.ha, hc.hr, hls, Option.bind_some, ← hc.hr]
  rw [← hc.hr] at hf
  exact hf

theorem inf_of {k : Type*} [Field k] [DecidableEq k] {a b : k} {Q : (EC a b).Point} {q' : Pt k}
    (h : PtRep q' Q) : q'.inf = true ∧ Q = 0 ∨ q'.inf = false ∧ Q ≠ 0 := by
  rcases Q with _ | ⟨x, y, hn⟩
  · exact .inl ⟨h, rfl⟩
  · exact .inr ⟨h.1, Point.some_ne_zero hn⟩

/-- The identity tests in front of a pairing routine. -/
theorem apply_of {map : Pt F → Pt K → Option (El K)} (hp : PtRep p' P) (hq : PtRep q' Q)
    (hm : P ≠ 0 → Q ≠ 0 → ∃ g, map p' q' = some g ∧ alg (φ v0) g = eD v0 r h P Q) :
    ∃ g, apply map p' q' = some g ∧ alg (φ v0) g = eD v0 r h P Q := by
  rcases inf_of hp with ⟨hi, rfl⟩ | ⟨hi, h0⟩
  · refine ⟨one2, by rw [apply, if_pos hi], ?_⟩
    rw [eD, incl_zero, tateT_zero_left]; rfl
  rcases inf_of hq with ⟨hj, rfl⟩ | ⟨hj, h1⟩
  · refine ⟨one2, by rw [apply, if_neg (by simp [hi]), if_pos hj], ?_⟩
    rw [eD, tateT_zero_right]; rfl
  · obtain ⟨g, e, hg⟩ := hm h0 h1
    exact ⟨g, by rw [apply, if_neg (by simp [hi]), if_neg (by simp [hj])]; exact e, hg⟩

theorem four_ne {A : Type*} [AddCommGroup A] {S : A} (hodd : Odd r) (hS : r • S = 0) (h0 : S ≠ 0) :
    4 • S ≠ 0 := by
  intro h4
  have hg := addOrderOf_dvd_of_nsmul_eq_zero hS
  have hg4 := addOrderOf_dvd_of_nsmul_eq_zero h4
  have : (4 : ℕ).Coprime r := by
    rw [show (4 : ℕ) = 2 ^ 2 by norm_num]
    exact Nat.Coprime.pow_left 2 (Nat.coprime_two_left.2 hodd)
  have h1 := Nat.eq_one_of_dvd_coprimes this hg4 hg
  exact h0 (AddMonoid.addOrderOf_eq_one_iff.1 h1)

theorem TypeD.cof (h : TypeD E ξ q k r) : Fintype.card K + 1 = (q ^ E.d + 1) / r * r := by
  rw [h.cardK, Nat.div_mul_cancel h.dvd]

theorem TypeD.exp (h : TypeD E ξ q k r) :
    (q ^ k - 1) / r = (Fintype.card K - 1) * ((q ^ E.d + 1) / r) := by
  rw [← exp_eq h.cof h.prime.pos, h.cardK, ← pow_mul, mul_comm, h.hk]

theorem TypeG.dvd' (h : TypeG E ξ q r) : r ∣ q ^ 5 + 1 := by
  have : (r : ℤ) ∣ ((q ^ 5 + 1 : ℕ) : ℤ) := by
    push_cast
    rw [ten_eq]
    exact Dvd.dvd.mul_left h.dvd _
  exact_mod_cast this

theorem TypeG.cof (h : TypeG E ξ q r) : Fintype.card K + 1 = (q ^ 5 + 1) / r * r := by
  rw [h.cardK, Nat.div_mul_cancel h.dvd']

theorem TypeG.exp (h : TypeG E ξ q r) :
    (q ^ 10 - 1) / r = (Fintype.card K - 1) * ((q ^ 5 + 1) / r) := by
  rw [← exp_eq h.cof h.prime.pos, h.cardK, ← pow_mul]

/-- **C88** for type D: setting up succeeds; for points `P` of the curve over `F` with `r P = O` and
arbitrary points `Q` of the twist the pairing succeeds and computes `eD`, a bilinear pairing (provided
the twist has a point of order `r`). -/
theorem C88_typeD (h : TypeD E ξ q k r) :
    ∃ p, initD E q k r a b v0 = some p ∧
    ((∃ S : (EC (φ v0 ^ 2 * φ a) (φ v0 ^ 3 * φ b)).Point, S ≠ 0 ∧ r • S = 0) →
      Pairing r (fun (P : (EC a b).Point) Q => eD (K := K) v0 r ((q ^ E.d + 1) / r) P Q)) ∧
    ∀ (P : (EC a b).Point) (Q : (EC (φ v0 ^ 2 * φ a) (φ v0 ^ 3 * φ b)).Point) (p' : Pt F) (q' : Pt K),
      PtRep p' P → PtRep q' Q → r • P = 0 →
      ∃ g, apply (pairing p millerAffine tatepowerD) p' q' = some g ∧
        alg (φ v0) g = eD v0 r ((q ^ E.d + 1) / r) P Q := by
  obtain ⟨p, hp, hc, -⟩ := initD_eq (a := a) (b := b) (v0 := v0) h (v_ne (v := φ v0))
  refine ⟨p, hp, fun ⟨S, hS, hrS⟩ => eD_pairing h.odd h.cof (four_ne h.odd hrS hS),
    fun P Q p' q' hP hQ hr => apply_of hP hQ fun h0 h1 => ?_⟩
  obtain ⟨f, hf, hf0, hfe⟩ := miller_eq h.ok hc h.three h.prime h.cof hr h0 hP hQ h1
  obtain ⟨g, hg, hge⟩ := C50_typeD h hp f hf0
  refine ⟨g, ?_, ?_⟩
  · rw [pairing]
    rw [hf, Option.bind_some, hg]
  · rw [hge, h.exp, hfe]

/-- **C88** for type G: what the pairing returns is `eD`, and it returns something unless `eD` is 1.
Missing: it need not return anything when `eD` is 1 (`C88_typeG_fails`). -/
theorem C88_typeG_partial (h : TypeG E ξ q r) :
    ∃ p, initG E q r a b v0 = some p ∧
    ((∃ S : (EC (φ v0 ^ 2 * φ a) (φ v0 ^ 3 * φ b)).Point, S ≠ 0 ∧ r • S = 0) →
      Pairing r (fun (P : (EC a b).Point) Q => eD (K := K) v0 r ((q ^ 5 + 1) / r) P Q)) ∧
    ∀ (P : (EC a b).Point) (Q : (EC (φ v0 ^ 2 * φ a) (φ v0 ^ 3 * φ b)).Point) (p' : Pt F) (q' : Pt K),
      PtRep p' P → PtRep q' Q → r • P = 0 →
      (∀ g, apply (pairing p millerAffine tatepowerG) p' q' = some g →
        alg (φ v0) g = eD v0 r ((q ^ 5 + 1) / r) P Q) ∧
      (P = 0 ∨ Q = 0 ∨ eD v0 r ((q ^ 5 + 1) / r) P Q ≠ 1 →
        (apply (pairing p millerAffine tatepowerG) p' q').isSome) := by
  obtain ⟨p, hp, hc, -⟩ := initG_eq (a := a) (b := b) (v0 := v0) h (v_ne (v := φ v0))
  refine ⟨p, hp, fun ⟨S, hS, hrS⟩ => eD_pairing h.odd h.cof (four_ne h.odd hrS hS),
    fun P Q p' q' hP hQ hr => ?_⟩
  by_cases h0 : P = 0
  · obtain ⟨g, hg, hge⟩ := apply_of (r := r) (h := (q ^ 5 + 1) / r)
      (map := pairing p millerAffine tatepowerG) hP hQ (fun h => absurd h0 h)
    rw [hg]
    exact ⟨fun g' e => by rw [← Option.some.inj e]; exact hge, fun _ => rfl⟩
  by_cases h1 : Q = 0
  · obtain ⟨g, hg, hge⟩ := apply_of (r := r) (h := (q ^ 5 + 1) / r)
      (map := pairing p millerAffine tatepowerG) hP hQ (fun _ h => absurd h1 h)
    rw [hg]
    exact ⟨fun g' e => by rw [← Option.some.inj e]; exact hge, fun _ => rfl⟩
  obtain ⟨f, hf, hf0, hfe⟩ := miller_eq h.ok hc h.three h.prime h.cof hr h0 hP hQ h1
  have ea : apply (pairing p millerAffine tatepowerG) p' q' = tatepowerG p f := by
    rw [apply, if_neg (by simp [(rep_some hP h0).choose_spec.2]),
      if_neg (by simp [(rep_some hQ h1).choose_spec.2]), pairing]
    rw [hf, Option.bind_some]
  obtain ⟨hA, hB⟩ := C50_typeG_partial h hp f hf0
  rw [ea]
  by_cases h1' : alg (φ v0) f ^ ((q ^ 5 - 1) * (q + 1)) = 1
  · rw [hB h1']
    refine ⟨fun g e => absurd e (by simp), ?_⟩
    rintro (hx | hx | hx)
    · exact absurd hx h0
    · exact absurd hx h1
    · refine absurd ?_ hx
      rw [← hfe, ← TypeG.exp h]
      obtain ⟨c, hcr⟩ : r ∣ ((q : ℤ) ^ 4 - q ^ 3 + q ^ 2 - q + 1).toNat := by
        have := TypeG.dvd h
        rw [← Int.toNat_of_nonneg (ten_pos q)] at this
        exact_mod_cast this
      have h5 : q ^ 5 + 1 = (q + 1) * ((q : ℤ) ^ 4 - q ^ 3 + q ^ 2 - q + 1).toNat := by
        have := ten_eq q
        rw [← Int.toNat_of_nonneg (ten_pos q)] at this
        exact_mod_cast this
      rw [show q ^ 10 = (q ^ 5) ^ 2 by ring, exp_eq (h := (q + 1) * c) (by rw [h5, hcr]; ring)
        (TypeG.prime h).pos, ← mul_assoc, pow_mul _ _ c, h1', one_pow]
  · obtain ⟨g, hg, hge⟩ := hA h1'
    rw [hg]
    refine ⟨fun g' e => ?_, fun _ => rfl⟩
    rw [← Option.some.inj e, hge, h.exp, hfe]

/-- **C88 fails for type G**: on a point of order two of the twist the pairing does not return
anything, though its value is 1. -/
theorem C88_typeG_fails (h : TypeG E ξ q r) {p : Data F K} (hp : initG E q r a b v0 = some p)
    (hP : PtRep p' P) (hQ : PtRep q' Q) (hr : r • P = 0) (h0 : P ≠ 0) (h1 : Q ≠ 0) (h2 : 2 • Q = 0) :
    apply (pairing p millerAffine tatepowerG) p' q' = none ∧
      eD v0 r ((q ^ 5 + 1) / r) P Q = 1 := by
  obtain ⟨p₀, e₀, hc, -⟩ := initG_eq (a := a) (b := b) (v0 := v0) h (v_ne (v := φ v0))
  rw [e₀, Option.some.injEq] at hp
  subst hp
  obtain ⟨hn, hQe, hinf⟩ := rep_some hQ h1
  have hy : q'.y = 0 := by
    by_contra hy
    have h2' : (2 : K) ≠ 0 := two_ne' (φ v0)
    have hne : q'.y ≠ (EC (φ v0 ^ 2 * φ a) (φ v0 ^ 3 * φ b)).negY q'.x q'.y := by
      intro e
      simp only [EC, negY, zero_mul, sub_zero] at e
      exact hy ((mul_eq_zero.1 (by linear_combination e : (2 : K) * q'.y = 0)).resolve_left h2')
    rw [two_smul, hQe, Point.add_self_of_Y_ne hne] at h2
    exact Point.some_ne_zero _ h2
  obtain ⟨f, hf, hf0, hfy⟩ : ∃ f, millerAffine p₀ p' (untwist p₀ q').1 (untwist p₀ q').2 = some f ∧
      alg (φ v0) f ≠ 0 ∧ f.y = 0 := by
    obtain ⟨ls, hls, hev⟩ := eval_lines h.ok hc h.three h.prime h.cof hr h0 hP
    obtain ⟨f, hf, hf0, _⟩ := hev Q q' hQ h1
    refine ⟨f, ?_, hf0, ?_⟩
    · rw [affine_eq, hc.ha, hc.hr, hls, Option.bind_some]
      exact hf
    · refine ppApplyLoop_inv (fun f => f.y = 0) ?_ ?_ _ _ _ f rfl hf
      · intro l _ v hv
        have : (untwist p₀ q').2 = 0 := by simp [untwist, hy]
        rw [hc.hE, evalfn_eq h.ok, this, mul2, Quad.mul_eq]
        simp [hv]
      · intro v hv
        rw [square2, Quad.square_eq, Quad.mul_eq]
        simp [hv]
  have hfe : alg (φ v0) f = algebraMap K _ f.x := by
    rw [algebraMap_eq]; ext <;> simp [alg, hfy]
  have hfx : f.x ≠ 0 := fun hx => hf0 (by rw [hfe, hx, map_zero])
  constructor
  · rw [apply, if_neg (by simp [(rep_some hP h0).choose_spec.2]), if_neg (by simp [hinf]), pairing, hf,
      Option.bind_some]
    refine (C50_typeG_partial h e₀ f hf0).2 ?_
    rw [hfe, ← map_pow, ← h.cardK, pow_mul, FiniteField.pow_card_sub_one_eq_one _ hfx, one_pow, map_one]
  · rw [eD, hQe, tateT, dif_pos hy]

/-! ### Identity, preprocessing, products -/

/-- **C43** for types D and G. -/
theorem C43_typeD (p : Data F K) (miller : Data F K → Pt F → K → K → Option (El K))
    (final : Data F K → El K → Option (El K)) (P : Pt F) (Q : Pt K) (h : P.inf = true ∨ Q.inf = true) :
    apply (pairing p miller final) P Q = some one2 ∧
    ∀ t, applyInit (ppInit p) P = some t → applyPp (ppApply p final) t Q = some one2 := by
  constructor
  · unfold apply
    rcases h with h | h <;> simp [h]
  · intro t ht
    unfold applyInit at ht
    rcases h with h | h
    · rw [if_pos h] at ht
      obtain rfl : t = none := by simpa using ht.symm
      rfl
    · rcases t with _ | t
      · rfl
      · simp [applyPp, h]

/-- **C44** for types D and G: whenever preprocessing goes through — for any points of the plane — the
preprocessed pairing is the direct one. -/
theorem C44_typeD (p : Data F K) (final : Data F K → El K → Option (El K)) (P : Pt F) (Q : Pt K)
    {t : Option (List (Abc F))} (ht : applyInit (ppInit p) P = some t) :
    applyPp (ppApply p final) t Q = apply (pairing p millerAffine final) P Q := by
  unfold applyInit at ht
  unfold apply
  by_cases hi : P.inf = true
  · rw [if_pos hi] at ht ⊢
    rw [← Option.some.inj ht]; rfl
  rw [if_neg hi] at ht ⊢
  obtain ⟨ls, hls, rfl⟩ := Option.map_eq_some_iff.1 ht
  rw [applyPp]
  by_cases hj : Q.inf = true
  · rw [if_pos hj, if_pos hj]
  rw [if_neg hj, if_neg hj, pairing, affine_eq, ppApply]
  rw [ppInit, ppLoop_eq, Option.bind_eq_some_iff] at hls
  obtain ⟨ls', hls', e⟩ := hls
  split_ifs at e
  rw [hls', Option.bind_some, ← Option.some.inj e]
  rfl

/-! ### The table -/

theorem popcount_succ (r n : ℕ) : ((List.range (n + 1)).filter (r.testBit ·)).length =
    ((List.range n).filter (r.testBit ·)).length + (r.testBit n).toNat := by
  rw [List.range_succ, List.filter_append, List.length_append]
  congr 1
  rcases h : r.testBit n <;> simp [h]

theorem count_eq (r : ℕ) : ∀ m, count r m + (r.testBit 0).toNat =
    m + 1 + ((List.range (m + 1)).filter (r.testBit ·)).length
  | 0 => by rw [popcount_succ]; simp [count]
  | m + 1 => by
    have := count_eq r m
    rw [popcount_succ, count]
    rcases hb : r.testBit (m + 1)
    · rw [if_neg (by decide), Bool.toNat_false]; omega
    · rw [if_pos rfl, Bool.toNat_true]; omega

theorem start_bits {r : ℕ} (h3 : 3 ≤ r) : Gen.bits r = start r + 2 := by
  have h0 : r ≠ 0 := by omega
  have hs : Gen.bits r = Nat.size r := by rw [Gen.bits, if_neg h0]
  have hb : 2 ≤ Nat.size r := Nat.lt_size.2 (by omega)
  unfold start; dsimp only
  rw [hs]
  split_ifs <;> omega

theorem top_bit {r : ℕ} (h3 : 3 ≤ r) : r.testBit (start r + 1) = true := by
  rw [Nat.testBit, start_shift h3]; rfl

theorem clear_eq {r : ℕ} (h3 : 3 ≤ r) (hodd : Odd r) : clearCount r = count r (start r) := by
  have h1 := count_eq r (start r)
  have hb : r.testBit 0 = true := by
    rw [Nat.testBit_zero]; simpa using Nat.odd_iff.1 hodd
  rw [hb, Bool.toNat_true] at h1
  unfold clearCount
  dsimp only
  rw [start_bits h3, popcount_succ, top_bit h3, Bool.toNat_true]
  have : 1 ≤ count r (start r) := by cases start r <;> simp [count]; split_ifs <;> omega
  split_ifs <;> omega

theorem count_le (r : ℕ) : ∀ m, count r m ≤ 2 * m + 1 ∧
    (count r m = 2 * m + 1 ↔ ∀ i, 1 ≤ i → i ≤ m → r.testBit i = true)
  | 0 => ⟨by simp [count], by simp [count]; omega⟩
  | m + 1 => by
    obtain ⟨h1, h2⟩ := count_le r m
    rw [count]
    rcases hb : r.testBit (m + 1) with _ | _
    · refine ⟨by simp; omega, ⟨fun h => ?_, fun h => ?_⟩⟩
      · simp at h; omega
      · rw [h (m + 1) (by omega) le_rfl] at hb
        exact absurd hb (by decide)
    · refine ⟨by simp; omega, ⟨fun h => ?_, fun h => ?_⟩⟩
      · intro i hi hi'
        rcases Nat.lt_or_ge m i with hl | hl
        · rw [show i = m + 1 by omega]; exact hb
        · exact h2.1 (by simp at h; omega) i hi hl
      · have := h2.2 fun i hi hi' => h i hi (by omega)
        simp; omega

theorem ones_iff {r : ℕ} (h3 : 3 ≤ r) (hodd : Odd r) :
    (∀ i, 1 ≤ i → i ≤ start r → r.testBit i = true) ↔ ∃ n, r + 1 = 2 ^ n := by
  have hb0 : r.testBit 0 = true := by
    rw [Nat.testBit_zero]; simpa using Nat.odd_iff.1 hodd
  have hlt : r < 2 ^ (start r + 2) := by
    rw [← start_bits h3, Gen.bits, if_neg (by omega)]; exact Nat.lt_size_self r
  constructor
  · intro h
    refine ⟨start r + 2, ?_⟩
    have : r = 2 ^ (start r + 2) - 1 := by
      refine Nat.eq_of_testBit_eq fun i => ?_
      rw [Nat.testBit_two_pow_sub_one]
      rcases Nat.lt_or_ge i (start r + 2) with hi | hi
      · rw [decide_eq_true hi]
        rcases Nat.eq_zero_or_pos i with rfl | hp
        · exact hb0
        rcases Nat.lt_or_ge (start r) i with hl | hl
        · rw [show i = start r + 1 by omega]; exact top_bit h3
        · exact h i hp hl
      · rw [decide_eq_false (by omega)]
        exact Nat.testBit_lt_two_pow (lt_of_lt_of_le hlt (Nat.pow_le_pow_right (by norm_num) hi))
    have : 1 ≤ 2 ^ (start r + 2) := Nat.one_le_two_pow
    omega
  · rintro ⟨n, hn⟩ i _ hi
    have e : r = 2 ^ n - 1 := by omega
    have htop := top_bit h3
    rw [e, Nat.testBit_two_pow_sub_one, decide_eq_true_eq, ← e] at htop
    rw [e, Nat.testBit_two_pow_sub_one, decide_eq_true_eq]
    omega

/-- **C54** for types D and G, every odd `r ≥ 3` that is not one less than a power of two: for every
point of the plane whose multiples the loop can compute, preprocessing stays within the table and
`pairing_pp_clear` clears exactly the entries stored.  Missing: `C54_fails`. -/
theorem C54_partial (p : Data F K) (h3 : 3 ≤ p.r) (hodd : Odd p.r) (hn : ∀ n, p.r + 1 ≠ 2 ^ n) (P : Pt F)
    {ls : List (Abc F)} (hls : lines (tangent p.a) p.a p.r P (start p.r) (copy P) = some ls) :
    ppInit p P = some ls ∧ ls.length = clearCount p.r ∧ ls.length ≤ 2 * start p.r := by
  have hl := lines_length _ _ _ hls
  obtain ⟨h1, h2⟩ := count_le p.r (start p.r)
  have h3' : ¬ count p.r (start p.r) = 2 * start p.r + 1 := fun h => by
    obtain ⟨n, e⟩ := (ones_iff h3 hodd).1 (h2.1 h)
    exact hn n e
  refine ⟨?_, by rw [hl, clear_eq h3 hodd], by omega⟩
  rw [ppInit, ppLoop_eq, hls, Option.bind_some, if_pos (by simp; omega)]
  rfl

/-- **C54 fails** when `r` is one less than a power of two: preprocessing any point writes past the
end of the table. -/
theorem C54_fails (p : Data F K) (h3 : 3 ≤ p.r) {n : ℕ} (hn : p.r + 1 = 2 ^ n) (P : Pt F) :
    ppInit p P = none := by
  have hodd : Odd p.r := by
    rcases n with _ | n
    · omega
    · exact ⟨2 ^ n - 1, by have := Nat.one_le_two_pow (n := n); rw [pow_succ] at hn; omega⟩
  have h := (count_le p.r (start p.r)).2.2 ((ones_iff h3 hodd).2 ⟨n, hn⟩)
  rw [ppInit, ppLoop_eq, Option.bind_eq_none_iff]
  intro ls hls
  rw [if_neg]
  rw [lines_length _ _ _ hls, h]
  simp

/-- **C54**, **C44**: for points of order `r` preprocessing itself succeeds exactly when `r + 1` is not
a power of two. -/
theorem C54_iff {p : Data F K} (hok : E.Ok ξ) (hc : Common p E r a b v0) (h3 : 3 ≤ r) (hr : r.Prime)
    (hh : Fintype.card K + 1 = h * r) (hP : r • P = 0) (h0 : P ≠ 0) (hp : PtRep p' P) :
    (ppInit p p').isSome ↔ ∀ n, r + 1 ≠ 2 ^ n := by
  constructor
  · intro hs n hn
    rw [C54_fails p (by rw [hc.hr]; exact h3) (n := n) (by rw [hc.hr]; exact hn)] at hs
    exact absurd hs (by simp)
  · intro hn
    obtain ⟨ls, hls, -⟩ := eval_lines hok hc h3 hr hh hP h0 hp
    rw [(C54_partial p (by rw [hc.hr]; exact h3) (by rw [hc.hr]; exact hr.odd_of_ne_two (by omega))
      (by rw [hc.hr]; exact hn) p' (by rw [hc.hr, hc.ha]; exact hls)).1]
    rfl

/-! ### Products -/

theorem anyZero_iff (P : ℕ → Pt F) (Q : ℕ → Pt K) :
    ∀ N, anyZero P Q N = true ↔ ∃ j < N, (P j).inf = true ∨ (Q j).inf = true
  | 0 => by simp [anyZero]
  | N + 1 => by
    rw [anyZero, Bool.or_eq_true, Bool.or_eq_true, anyZero_iff P Q N]
    constructor
    · rintro ((⟨j, hj, h⟩ | h) | h)
      · exact ⟨j, by omega, h⟩
      · exact ⟨N, by omega, .inl h⟩
      · exact ⟨N, by omega, .inr h⟩
    · rintro ⟨j, hj, h⟩
      rcases Nat.lt_succ_iff_lt_or_eq.1 hj with h1 | rfl
      · exact .inl (.inl ⟨j, h1, h⟩)
      · rcases h with h | h
        · exact .inl (.inr h)
        · exact .inr h

/-- **C45** for type D: for arrays of any length `N ≥ 1` of nonzero points the product routine returns
the product of the single pairings. -/
theorem C45_typeD (ht : TypeD E ξ q k r) {p : Data F K} (hi : initD E q k r a b v0 = some p) {N : ℕ}
    (hN : 1 ≤ N) {P : ℕ → (EC a b).Point}
    {Q : ℕ → (EC (algebraMap F K v0 ^ 2 * algebraMap F K a) (algebraMap F K v0 ^ 3 * algebraMap F K b)).Point}
    {p' : ℕ → Pt F} {q' : ℕ → Pt K} (hp : ∀ j < N, PtRep (p' j) (P j))
    (hq : ∀ j < N, PtRep (q' j) (Q j)) (hP : ∀ j < N, r • P j = 0) (hP0 : ∀ j < N, P j ≠ 0)
    (hQ0 : ∀ j < N, Q j ≠ 0) :
    ∃ (g : El K) (gs : ℕ → El K), prodPairing (prodPairings p) p' q' N = some g ∧
      (∀ j < N, apply (pairing p millerAffine tatepowerD) (p' j) (q' j) = some (gs j)) ∧
      alg (φ v0) g = ∏ j ∈ Finset.range N, alg (φ v0) (gs j) ∧
      alg (φ v0) g = ∏ j ∈ Finset.range N, eD v0 r ((q ^ E.d + 1) / r) (P j) (Q j) := by
  obtain ⟨p₀, e₀, hc, -⟩ := initD_eq (a := a) (b := b) (v0 := v0) ht (v_ne (v := φ v0))
  rw [e₀, Option.some.injEq] at hi
  subst hi
  obtain ⟨p₁, e₁, -, single⟩ := C88_typeD (a := a) (b := b) (v0 := v0) ht
  rw [e₀, Option.some.injEq] at e₁
  subst e₁
  have : Nonempty (El K) := ⟨one2⟩
  choose! fs hfs hf0 hfe using fun j (hj : j < N) =>
    miller_eq ht.ok hc ht.three ht.prime ht.cof (hP j hj) (hP0 j hj) (hp j hj) (hq j hj) (hQ0 j hj)
  choose! gs hgs hge using fun j (hj : j < N) =>
    single (P j) (Q j) (p' j) (q' j) (hp j hj) (hq j hj) (hP j hj)
  obtain ⟨f, hf, hfp⟩ := prodMiller_eq (p := p₀) (a := a) (b := b) (two_F (K := K) v0) hN
    (by rw [hc.hr]; exact ht.three) hc.ha hP0 (fun j hj => by
      rw [hc.hr]
      exact chain_of_order ht.three ht.odd (order_prime ht.prime (hP0 j hj) (hP j hj))) hp
    (fun j => untwist p₀ (q' j)) hfs
  rw [hc.hv] at hfp
  have hfne : alg (φ v0) f ≠ 0 := by
    rw [hfp]
    exact Finset.prod_ne_zero_iff.2 fun j hj => hf0 j (Finset.mem_range.1 hj)
  obtain ⟨g, hg, hge'⟩ := C50_typeD ht e₀ f hfne
  have hval : alg (φ v0) g = ∏ j ∈ Finset.range N, eD v0 r ((q ^ E.d + 1) / r) (P j) (Q j) := by
    rw [hge', ht.exp, hfp, ← Finset.prod_pow]
    exact Finset.prod_congr rfl fun j hj => hfe j (Finset.mem_range.1 hj)
  refine ⟨g, gs, ?_, hgs, ?_, hval⟩
  · have hany : ¬ anyZero p' q' N = true := by
      rw [anyZero_iff]
      rintro ⟨j, hj, h | h⟩
      · rw [(rep_some (hp j hj) (hP0 j hj)).choose_spec.2] at h; exact absurd h (by decide)
      · rw [(rep_some (hq j hj) (hQ0 j hj)).choose_spec.2] at h; exact absurd h (by decide)
    rw [prodPairing, if_neg hany, prodPairings, hf, Option.bind_some, hg]
  · rw [hval]
    exact Finset.prod_congr rfl fun j hj => (hge j (Finset.mem_range.1 hj)).symm

theorem genericProd_eq {v : K} {map : Pt F → Pt K → Option (El K)} {p' : ℕ → Pt F} {q' : ℕ → Pt K} :
    ∀ n out, genericProd v map p' q' (n + 1) = some out ↔ ∃ g : ℕ → El K,
      (∀ j < n + 1, map (p' j) (q' j) = some (g j)) ∧ alg v out = ∏ j ∈ Finset.range (n + 1), alg v (g j)
  | 0, out => by
    rw [genericProd]
    constructor
    · exact fun h => ⟨fun _ => out, fun j hj => by rw [show j = 0 by omega, h], by simp⟩
    · rintro ⟨g, hg, he⟩
      have e := alg_inj (v := v) (a := out) (b := g 0) (by simpa using he)
      rw [hg 0 (by omega), e]
  | n + 1, out => by
    rw [genericProd]
    constructor
    · intro h
      cases h1 : genericProd v map p' q' (n + 1) with
      | none => rw [h1] at h; exact absurd h (by simp)
      | some x =>
        cases h2 : map (p' (n + 1)) (q' (n + 1)) with
        | none => rw [h1, h2] at h; exact absurd h (by simp)
        | some y =>
          rw [h1, h2] at h
          obtain ⟨g, hg, he⟩ := (genericProd_eq n x).1 h1
          refine ⟨fun j => if j = n + 1 then y else g j, fun j hj => ?_, ?_⟩
          · by_cases hj' : j = n + 1
            · dsimp only; rw [if_pos hj', hj', h2]
            · dsimp only; rw [if_neg hj', hg j (by omega)]
          · rw [Finset.prod_range_succ]
            dsimp only
            rw [if_pos rfl, ← Option.some.inj h, alg_mul2, he]
            congr 1
            refine Finset.prod_congr rfl fun j hj => ?_
            rw [if_neg (by have := Finset.mem_range.1 hj; omega)]
    · rintro ⟨g, hg, he⟩
      obtain ⟨x, hx⟩ : ∃ x : El K, alg v x = ∏ j ∈ Finset.range (n + 1), alg v (g j) :=
        ⟨⟨(∏ j ∈ Finset.range (n + 1), alg v (g j)).re, (∏ j ∈ Finset.range (n + 1), alg v (g j)).im⟩, rfl⟩
      rw [(genericProd_eq n x).2 ⟨g, fun j hj => hg j (by omega), hx⟩, hg (n + 1) (by omega)]
      dsimp only
      rw [Option.some.injEq]
      refine alg_inj (v := v) ?_
      rw [alg_mul2, he, Finset.prod_range_succ, hx]

/-- **C45** for type G (and every type with the generic routine): for arrays of any length `N ≥ 1` without `O`, the
product routine returns exactly when every single pairing does, and then the product of their values. -/
theorem C45_generic {v : K} {map : Pt F → Pt K → Option (El K)} {p' : ℕ → Pt F} {q' : ℕ → Pt K} {N : ℕ}
    (hN : 1 ≤ N) (hp : ∀ j < N, (p' j).inf = false) (hq : ∀ j < N, (q' j).inf = false) (out : El K) :
    prodPairing (genericProd v map) p' q' N = some out ↔ ∃ g : ℕ → El K,
      (∀ j < N, apply map (p' j) (q' j) = some (g j)) ∧ alg v out = ∏ j ∈ Finset.range N, alg v (g j) := by
  have hany : ¬ anyZero p' q' N = true := by
    rw [anyZero_iff]
    rintro ⟨j, hj, h | h⟩
    · rw [hp j hj] at h; exact absurd h (by decide)
    · rw [hq j hj] at h; exact absurd h (by decide)
  have ha : ∀ j < N, apply map (p' j) (q' j) = map (p' j) (q' j) := fun j hj => by
    rw [apply, if_neg (by simp [hp j hj]), if_neg (by simp [hq j hj])]
  obtain ⟨n, rfl⟩ : ∃ n, N = n + 1 := ⟨N - 1, by omega⟩
  rw [prodPairing, if_neg hany, genericProd_eq]
  refine exists_congr fun g => and_congr_left fun _ => forall_congr' fun j => forall_congr' fun hj => ?_
  rw [ha j hj]

/-! ### Roots of unity, the Lucas ladder -/

/-- **C48** for type D: the final powering — which also produces the random and hashed elements of GT —
takes every nonzero element to an `r`-th root of unity. -/
theorem C48_typeD (ht : TypeD E ξ q k r) {p : Data F K} (hi : initD E q k r a b v0 = some p) {f : El K}
    (hf : alg (φ v0) f ≠ 0) : ∃ g, tatepowerD p f = some g ∧ alg (φ v0) g ^ r = 1 := by
  obtain ⟨g, hg, hge⟩ := C50_typeD ht hi f hf
  refine ⟨g, hg, ?_⟩
  rw [hge, ht.exp, ← pow_mul, mul_comm, pow_mul]
  exact (kills ht.cof).rpow _ hf

/-- **C48** for type G: what the final powering returns is an `r`-th root of unity. -/
theorem C48_typeG (ht : TypeG E ξ q r) {p : Data F K} (hi : initG E q r a b v0 = some p) {f g : El K}
    (hf : alg (φ v0) f ≠ 0) (hg : tatepowerG p f = some g) : alg (φ v0) g ^ r = 1 := by
  obtain ⟨hA, hB⟩ := C50_typeG_partial ht hi f hf
  by_cases h1 : alg (φ v0) f ^ ((q ^ 5 - 1) * (q + 1)) = 1
  · rw [hB h1] at hg; exact absurd hg (by simp)
  · obtain ⟨g', hg', hge⟩ := hA h1
    rw [hg] at hg'
    rw [Option.some.inj hg', hge, ht.exp, ← pow_mul, mul_comm, pow_mul]
    exact (kills ht.cof).rpow _ hf

/-! ### The almost-co-DDH test, comparison in G2 -/

theorem is1_iff (v : K) (f : El K) : Quad.is1 f = true ↔ alg v f = 1 := by
  simp only [Quad.is1, Bool.and_eq_true, decide_eq_true_eq]
  exact ⟨fun h => QuadraticAlgebra.ext h.1 h.2,
    fun h => ⟨congrArg QuadraticAlgebra.re h, congrArg QuadraticAlgebra.im h⟩⟩

/-- **C53** for type D: given `g`, `x g`, `h`, `y h`, none of them `O`, with `e(g, h) ≠ 1`, the test
answers yes exactly for `y = ±x` modulo `r`. -/
theorem C53_typeD (ht : TypeD E ξ q k r) {p : Data F K} (hi : initD E q k r a b v0 = some p)
    (hS : ∃ S : (EC (algebraMap F K v0 ^ 2 * algebraMap F K a) (algebraMap F K v0 ^ 3 * algebraMap F K b)).Point,
      S ≠ 0 ∧ r • S = 0)
    (hr : r • P = 0) (hne : eD v0 r ((q ^ E.d + 1) / r) P Q ≠ 1) {x y : ℤ} (hx : x • P ≠ 0) (hy : y • Q ≠ 0)
    {p₁ p₂ : Pt F} {q₁ q₂ : Pt K} (hp₁ : PtRep p₁ P) (hp₂ : PtRep p₂ (x • P)) (hq₁ : PtRep q₁ Q)
    (hq₂ : PtRep q₂ (y • Q)) :
    ∃ ans, almostCoddh p millerAffine tatepowerD p₁ p₂ q₁ q₂ = some ans ∧
      (ans = true ↔ (r : ℤ) ∣ y - x ∨ (r : ℤ) ∣ y + x) := by
  obtain ⟨p₀, e₀, hb, hval⟩ := C88_typeD (a := a) (b := b) (v0 := v0) ht
  rw [e₀, Option.some.injEq] at hi
  subst hi
  have hb := hb hS
  have hP0 : P ≠ 0 := fun h => hx (by rw [h, smul_zero])
  have hQ0 : Q ≠ 0 := fun h => hy (by rw [h, smul_zero])
  set t := eD v0 r ((q ^ E.d + 1) / r) P Q with htd
  have htr : t ^ r = 1 := hb.root P Q hr
  have ht0 : t ≠ 0 := hb.ne_zero ht.prime.ne_zero Q hr
  have hord : orderOf t = r := by
    have : Fact r.Prime := ⟨ht.prime⟩
    exact orderOf_eq_prime htr hne
  have hz : ∀ n : ℤ, t ^ n = 1 ↔ (r : ℤ) ∣ n := fun n => by
    rw [← hord]
    have := orderOf_dvd_iff_zpow_eq_one (x := Units.mk0 t ht0) (i := n)
    rw [← orderOf_units, Units.val_mk0] at this
    rw [this, ← Units.val_inj]
    simp
  have run : ∀ {P : (EC a b).Point} {Q : (EC (φ v0 ^ 2 * φ a) (φ v0 ^ 3 * φ b)).Point} {p' : Pt F}
      {q' : Pt K}, PtRep p' P → PtRep q' Q → r • P = 0 → P ≠ 0 → Q ≠ 0 →
      ∃ g, pairing p₀ millerAffine tatepowerD p' q' = some g ∧
        alg (φ v0) g = eD v0 r ((q ^ E.d + 1) / r) P Q := fun {P Q p' q'} h1 h2 h3 h4 h5 => by
    obtain ⟨g, hg, hge⟩ := hval P Q p' q' h1 h2 h3
    rw [apply, if_neg (by simp [(rep_some h1 h4).choose_spec.2]),
      if_neg (by simp [(rep_some h2 h5).choose_spec.2])] at hg
    exact ⟨g, hg, hge⟩
  obtain ⟨t0, e0, ht0'⟩ := run hp₁ hq₂ hr hP0 hy
  obtain ⟨t1, e1, ht1'⟩ := run hp₂ hq₁ (by rw [smul_comm, hr, smul_zero]) hx hQ0
  rw [hb.zsmul_right ht.prime.ne_zero _ hr] at ht0'
  rw [hb.zsmul_left ht.prime.ne_zero _ hr] at ht1'
  rw [← htd] at ht0' ht1'
  obtain ⟨p₁', e₁', hc, -⟩ := initD_eq (a := a) (b := b) (v0 := v0) ht (v_ne (v := φ v0))
  rw [e₀, Option.some.injEq] at e₁'
  subst e₁'
  unfold almostCoddh
  rw [e0, e1]
  dsimp only
  rw [hc.hv]
  have hA : Quad.is1 (mul2 (φ v0) t0 t1) = true ↔ (r : ℤ) ∣ y + x := by
    rw [is1_iff (φ v0), alg_mul2, ht0', ht1', ← zpow_add₀ ht0, hz]
  by_cases h1 : Quad.is1 (mul2 (φ v0) t0 t1) = true
  · rw [if_pos h1]
    exact ⟨true, rfl, by simp [hA.1 h1]⟩
  · rw [if_neg h1]
    obtain ⟨t2, e2, ht2⟩ := alg_invert2 (v := φ v0) (f := t1) (by rw [ht1']; exact zpow_ne_zero _ ht0)
    rw [e2]
    refine ⟨_, rfl, ?_⟩
    rw [is1_iff (φ v0), alg_mul2, ht0', ht2, ht1', ← zpow_neg, ← zpow_add₀ ht0, hz, ← sub_eq_add_neg]
    exact ⟨.inl, fun h => h.resolve_right fun h' => h1 (hA.2 h')⟩

/-- **C89** for type D: elements of G2 that `element_cmp` calls equal — their difference is killed by
the cofactor `n` of the twist, and `n` is prime to `r` — have the same pairing with every element
of G1. -/
theorem C89_typeD (ht : TypeD E ξ q k r) {p : Data F K} (hi : initD E q k r a b v0 = some p)
    (hS : ∃ S : (EC (algebraMap F K v0 ^ 2 * algebraMap F K a) (algebraMap F K v0 ^ 3 * algebraMap F K b)).Point,
      S ≠ 0 ∧ r • S = 0)
    {n : ℕ} (hn : n.Coprime r) {m : Curve.Mem K} {i j : ℕ}
    {Q₁ Q₂ : (EC (algebraMap F K v0 ^ 2 * algebraMap F K a) (algebraMap F K v0 ^ 3 * algebraMap F K b)).Point}
    (h₁ : PtRep (m i) Q₁) (h₂ : PtRep (m j) Q₂)
    (hcmp : Curve.cmp (φ v0 ^ 2 * φ a) (some n) m i j = some false) (hp : PtRep p' P) (hr : r • P = 0) :
    ∃ g, apply (pairing p millerAffine tatepowerD) p' (m i) = some g ∧
      apply (pairing p millerAffine tatepowerD) p' (m j) = some g := by
  obtain ⟨p₀, e₀, hb, hval⟩ := C88_typeD (a := a) (b := b) (v0 := v0) ht
  rw [e₀, Option.some.injEq] at hi
  subst hi
  obtain ⟨ans, e, hans⟩ := (Props.C33_tests (two_ne' (φ v0)) h₁ h₂).2.2.1 n
  rw [hcmp, Option.some.injEq] at e
  obtain ⟨g₁, e₁, hg₁⟩ := hval P Q₁ p' (m i) hp h₁ hr
  obtain ⟨g₂, e₂, hg₂⟩ := hval P Q₂ p' (m j) hp h₂ hr
  refine ⟨g₁, e₁, ?_⟩
  rw [e₂, alg_inj (v := φ v0) (hg₂.trans (Eq.trans ?_ hg₁.symm))]
  exact ((hb hS).congr_right ht.prime.ne_zero hr hn (hans.1 e.symm)).symm

/-- **C89**, the converse: if the twist has `n r` points and `P` pairs with some point to a value other
than 1, then elements of G2 that have the same pairing with `P` are equal for `element_cmp`. -/
theorem C89_typeD_converse (ht : TypeD E ξ q k r) {p : Data F K} (hi : initD E q k r a b v0 = some p)
    (hS : ∃ S : (EC (algebraMap F K v0 ^ 2 * algebraMap F K a) (algebraMap F K v0 ^ 3 * algebraMap F K b)).Point,
      S ≠ 0 ∧ r • S = 0)
    {n : ℕ} (hn : 0 < n)
    (hcard : Nat.card (EC (algebraMap F K v0 ^ 2 * algebraMap F K a)
      (algebraMap F K v0 ^ 3 * algebraMap F K b)).Point = n * r)
    {m : Curve.Mem K} {i j : ℕ}
    {Q₁ Q₂ : (EC (algebraMap F K v0 ^ 2 * algebraMap F K a) (algebraMap F K v0 ^ 3 * algebraMap F K b)).Point}
    (h₁ : PtRep (m i) Q₁) (h₂ : PtRep (m j) Q₂) (hp : PtRep p' P) (hr : r • P = 0)
    (hnd : ∃ S, eD (K := K) v0 r ((q ^ E.d + 1) / r) P S ≠ 1)
    (he : apply (pairing p millerAffine tatepowerD) p' (m i) =
      apply (pairing p millerAffine tatepowerD) p' (m j)) :
    Curve.cmp (φ v0 ^ 2 * φ a) (some n) m i j = some false := by
  obtain ⟨p₀, e₀, hb, hval⟩ := C88_typeD (a := a) (b := b) (v0 := v0) ht
  rw [e₀, Option.some.injEq] at hi
  subst hi
  obtain ⟨ans, e, hans⟩ := (Props.C33_tests (two_ne' (φ v0)) h₁ h₂).2.2.1 n
  obtain ⟨g₁, e₁, hg₁⟩ := hval P Q₁ p' (m i) hp h₁ hr
  obtain ⟨g₂, e₂, hg₂⟩ := hval P Q₂ p' (m j) hp h₂ hr
  rw [e₁, e₂, Option.some.injEq] at he
  rw [e, hans.2]
  refine (hb hS).smul_of_eq ht.prime hr hn hcard hnd ?_
  rw [← hg₁, ← hg₂, he]

end final

/-- **C49** for `lucas_even`: for every nonsquare `v`, every unitary element other than `-1` and every
odd cofactor type D's ladder returns the power; type G's, which has no test for 1, needs an element
other than `±1`. -/
theorem C49_lucas_even {v : K} [Fact (∀ s : K, s ^ 2 ≠ v + 0 * s)] {i : El K}
    (hi : i.x ^ 2 - v * i.y ^ 2 = 1) {c : ℕ} (hc : Odd c) :
    (alg v i ≠ -1 → ∃ g, lucasEven i c = some g ∧ alg v g = alg v i ^ c) ∧
    (alg v i ≠ 1 → alg v i ≠ -1 → ∃ g, lucasBody i c = some g ∧ alg v g = alg v i ^ c) := by
  have hn : nrm v i = 1 := by rw [nrm]; linear_combination hi
  have hy : alg v i ≠ 1 → alg v i ≠ -1 → i.y ≠ 0 := fun h1 h2 hy => by
    rw [hy] at hi
    have hx : i.x ^ 2 = 1 := by linear_combination hi
    rcases (by simpa using hx : i.x = 1 ∨ i.x = -1) with h | h
    · exact h1 (QuadraticAlgebra.ext h hy)
    · exact h2 (QuadraticAlgebra.ext h (hy.trans neg_zero.symm))
  refine ⟨fun h2 => ?_, fun h1 h2 => lucasBody_eq (two_ne' v) i hn hc (hy h1 h2)⟩
  unfold lucasEven
  by_cases h1 : Quad.is1 i
  · rw [if_pos h1]
    refine ⟨i, rfl, ?_⟩
    have : i = one2 := by
      rcases i with ⟨x, y⟩
      simp only [Quad.is1, Bool.and_eq_true, decide_eq_true_eq] at h1
      rw [h1.1, h1.2]; rfl
    rw [this, alg_one2, one_pow]
  · rw [if_neg h1]
    refine lucasBody_eq (two_ne' v) i hn hc (hy (fun h => h1 ?_) h2)
    have hx : i.x = 1 := congrArg QuadraticAlgebra.re h
    have hy : i.y = 0 := congrArg QuadraticAlgebra.im h
    simp [Quad.is1, hx, hy]

/-- **C49 fails** for `lucas_even` at `-1` (type D) and at `±1` (type G): it divides by zero. -/
theorem C49_lucas_even_fails {v : K} [Fact (∀ s : K, s ^ 2 ≠ v + 0 * s)] (c : ℕ) :
    lucasEven (⟨-1, 0⟩ : El K) c = none ∧ lucasBody (⟨-1, 0⟩ : El K) c = none ∧
      lucasBody (⟨1, 0⟩ : El K) c = none := by
  have h1 : lucasBody (⟨-1, 0⟩ : El K) c = none := lucasBody_none (v := v) _ (by simp [nrm]) c rfl
  refine ⟨?_, h1, lucasBody_none (v := v) _ (by simp [nrm]) c rfl⟩
  rw [lucasEven, if_neg, h1]
  simp only [Quad.is1, Bool.and_eq_true, decide_eq_true_eq, not_and]
  intro h
  exact absurd (by linear_combination -h : (2 : K) = 0) (two_ne' v)

/-! ### Instances -/

section instances

instance prime43 : Fact (Nat.Prime 43) := ⟨by norm_num⟩

/-- `F_43` over itself: `k = 2`, `d = 1`. -/
def E43 : Ext (ZMod 43) (ZMod 43) := ⟨1, fun x i => if i = 0 then x else 0, fun f => f 0⟩

theorem ok43 : E43.Ok 0 where
  pos := by decide
  make g := by simp [E43]
  item x := by simp [E43]

instance fact43 : Fact (∀ s : ZMod 43, s ^ 2 ≠ algebraMap (ZMod 43) (ZMod 43) 2 + 0 * s) :=
  ⟨by simp only [Algebra.algebraMap_self, RingHom.id_apply]; decide⟩

theorem type43 : TypeD E43 0 43 2 11 where
  ok := ok43
  cardF := ZMod.card 43
  cardK := ZMod.card 43
  hk := rfl
  prime := by norm_num
  three := by norm_num
  six := by decide
  dvd := by decide

theorem zero_of {k : Type*} [Field k] [DecidableEq k] {a b : k} (h2 : (2 : k) ≠ 0) {P : (EC a b).Point}
    {p : Pt k} (hp : PtRep p P) (n : ℕ)
    (h : ((Gen.powMpz (⟨some p⟩ : Curve.GPt k a) n).bind (·.val)).map (·.inf) = some true) : n • P = 0 := by
  obtain ⟨r, e, hr⟩ := Curve.pow_rep (ca := a) (cb := b) h2 hp n
  rw [e] at h
  have hi : r.inf = true := by simpa using h
  rcases hQ : n • P with _ | ⟨x, y, hn⟩
  · rfl
  · rw [hQ] at hr
    rw [hr.1] at hi
    exact absurd hi (by decide)

/-- A point of order 11 of `Y² = X³ + 3 X + 3`, which has 33 points. -/
def P43 : (EC (3 : ZMod 43) 3).Point := .some 10 1 (by
  rw [nonsingular_iff, equation_iff]; decide +kernel)

/-- A point of order 11 of the twist, which has 55 points. -/
def Q43 : (EC (algebraMap (ZMod 43) (ZMod 43) 2 ^ 2 * algebraMap (ZMod 43) (ZMod 43) 3)
    (algebraMap (ZMod 43) (ZMod 43) 2 ^ 3 * algebraMap (ZMod 43) (ZMod 43) 3)).Point := .some 3 1 (by
  rw [nonsingular_iff, equation_iff]
  simp only [Algebra.algebraMap_self, RingHom.id_apply]
  decide +kernel)

/-- A point of order 55 of the twist. -/
def R43 : (EC (algebraMap (ZMod 43) (ZMod 43) 2 ^ 2 * algebraMap (ZMod 43) (ZMod 43) 3)
    (algebraMap (ZMod 43) (ZMod 43) 2 ^ 3 * algebraMap (ZMod 43) (ZMod 43) 3)).Point := .some 0 14 (by
  rw [nonsingular_iff, equation_iff]
  simp only [Algebra.algebraMap_self, RingHom.id_apply]
  decide +kernel)

theorem P43_rep : PtRep (⟨false, 10, 1⟩ : Pt (ZMod 43)) P43 := ⟨rfl, rfl, rfl⟩
theorem Q43_rep : PtRep (⟨false, 3, 1⟩ : Pt (ZMod 43)) Q43 := ⟨rfl, rfl, rfl⟩
theorem R43_rep : PtRep (⟨false, 0, 14⟩ : Pt (ZMod 43)) R43 := ⟨rfl, rfl, rfl⟩

theorem P43_order : 11 • P43 = 0 := zero_of (by decide) P43_rep 11 (by decide +kernel)
theorem Q43_order : 11 • Q43 = 0 := zero_of (by decide) Q43_rep 11 (by
  simp only [Algebra.algebraMap_self, RingHom.id_apply]
  decide +kernel)

theorem P43_ne : P43 ≠ 0 := Point.some_ne_zero _
theorem Q43_ne : Q43 ≠ 0 := Point.some_ne_zero _
theorem R43_ne : R43 ≠ 0 := Point.some_ne_zero _

/-- The data of the instance. -/
def D43 : Data (ZMod 43) (ZMod 43) :=
  ⟨E43, 3, 3, 2, 22, 11, 2, 11, 0, 0, 0, 0, 0, 168⟩

theorem init43 : initD E43 43 2 11 3 3 2 = some D43 := by
  have hi : Quad.inv? (2 : ZMod 43) = some 22 := by decide +kernel
  have hm : E43.make (fun i => if i = 0 then 2 else 0) = 2 := rfl
  unfold initD
  dsimp only
  rw [hm, hi]
  dsimp only
  rw [if_neg (by decide)]
  rw [D43]
  congr 2

/-- **C88**, **C50**: the value is `26 + 12 √2`, not 1; a point of order 55 is accepted too. -/
theorem value43 : apply (pairing D43 millerAffine tatepowerD) ⟨false, 10, 1⟩ ⟨false, 3, 1⟩ = some ⟨26, 12⟩ ∧
    apply (pairing D43 millerAffine tatepowerD) ⟨false, 10, 1⟩ ⟨false, 0, 14⟩ = some ⟨11, 24⟩ := by
  decide +kernel

/-- **C45** for the generic routine: two of these values multiplied. -/
example : prodPairing (genericProd 2 (pairing D43 millerAffine tatepowerD)) (fun _ => ⟨false, 10, 1⟩)
    (fun j => if j = 0 then ⟨false, 3, 1⟩ else ⟨false, 0, 14⟩) 2 = some (mul2 2 ⟨26, 12⟩ ⟨11, 24⟩) := by
  decide +kernel

/-- So the pairing is not degenerate there. -/
theorem eD43 : eD (K := ZMod 43) 2 11 4 P43 Q43 = alg _ ⟨26, 12⟩ := by
  obtain ⟨p, hp, -, h⟩ := C88_typeD (a := 3) (b := 3) (v0 := 2) type43
  rw [init43, Option.some.injEq] at hp
  subst hp
  obtain ⟨g, e, hg⟩ := h P43 Q43 _ _ P43_rep Q43_rep P43_order
  rw [value43.1, Option.some.injEq] at e
  subst e
  exact hg.symm

example := (C88_typeD (a := 3) (b := 3) (v0 := 2) type43).choose_spec.2.1 ⟨Q43, Q43_ne, Q43_order⟩

/-- **C46 fails** for types D and G: both `Zx` and `Zy` name the first coordinate, so the projective
method computes something else. -/
theorem C46_typeD_fails :
    initD E43 43 2 11 3 3 2 = some D43 ∧ 11 • P43 = 0 ∧ 11 • Q43 = 0 ∧
    PtRep (⟨false, 10, 1⟩ : Pt (ZMod 43)) P43 ∧ PtRep (⟨false, 3, 1⟩ : Pt (ZMod 43)) Q43 ∧
    apply (pairing D43 millerProj tatepowerD) ⟨false, 10, 1⟩ ⟨false, 3, 1⟩ = some ⟨18, 21⟩ ∧
    apply (pairing D43 millerAffine tatepowerD) ⟨false, 10, 1⟩ ⟨false, 3, 1⟩ = some ⟨26, 12⟩ :=
  ⟨init43, P43_order, Q43_order, P43_rep, Q43_rep, by decide +kernel, value43.1⟩

/-- **C53 fails** for type D when `O` is among the arguments, as in `(g, 0 g, h, 0 h)`: the test is not
preceded by identity tests and ends in a division by zero. -/
theorem C53_typeD_identity_fails :
    almostCoddh D43 millerAffine tatepowerD ⟨false, 10, 1⟩ ⟨true, 0, 0⟩ ⟨false, 3, 1⟩ ⟨true, 0, 0⟩ = none := by
  decide +kernel

/-- **C53**, an instance: `x = 3`, `y = -3`. -/
example : almostCoddh D43 millerAffine tatepowerD ⟨false, 10, 1⟩ ⟨false, 10, 1⟩ ⟨false, 3, 1⟩ ⟨false, 3, 1⟩ =
    some true := by decide +kernel

example : ∃ ans, almostCoddh D43 millerAffine tatepowerD ⟨false, 10, 1⟩ ⟨false, 10, 1⟩ ⟨false, 3, 1⟩
    ⟨false, 3, 1⟩ = some ans ∧ (ans = true ↔ ((11 : ℕ) : ℤ) ∣ 1 - 1 ∨ ((11 : ℕ) : ℤ) ∣ 1 + 1) :=
  C53_typeD (P := P43) (Q := Q43) (x := 1) (y := 1) type43 init43 ⟨Q43, Q43_ne, Q43_order⟩ P43_order
    (by
      rw [show (43 ^ E43.d + 1) / 11 = 4 from rfl, eD43]
      exact fun h => absurd (congrArg QuadraticAlgebra.im h) (by decide))
    (by rw [one_smul]; exact P43_ne) (by rw [one_smul]; exact Q43_ne) P43_rep
    (by rw [one_smul]; exact P43_rep) Q43_rep (by rw [one_smul]; exact Q43_rep)

/-- **C44**, **C54**: an instance; `11 + 1` is not a power of two. -/
example : (ppInit D43 (⟨false, 10, 1⟩ : Pt (ZMod 43))).isSome := by decide +kernel
example : (ppInit { D43 with r := 7 } (⟨false, 10, 1⟩ : Pt (ZMod 43))) = none :=
  C54_fails _ (by decide) (n := 3) rfl _

/-- **C45**: an instance with two pairs. -/
example : ∃ g, prodPairing (prodPairings D43) (fun _ => (⟨false, 10, 1⟩ : Pt (ZMod 43)))
      (fun j => if j = 0 then ⟨false, 3, 1⟩ else ⟨false, 0, 14⟩) 2 = some g ∧
    alg _ g = eD (K := ZMod 43) 2 11 4 P43 Q43 * eD (K := ZMod 43) 2 11 4 P43 R43 := by
  obtain ⟨g, _, e, _, _, h⟩ := C45_typeD (N := 2) (P := fun _ => P43)
    (Q := fun j => if j = 0 then Q43 else R43) (p' := fun _ => (⟨false, 10, 1⟩ : Pt (ZMod 43)))
    (q' := fun j => if j = 0 then ⟨false, 3, 1⟩ else ⟨false, 0, 14⟩) type43 init43 (by decide)
    (fun _ _ => P43_rep) (fun j _ => by split_ifs; exacts [Q43_rep, R43_rep])
    (fun _ _ => P43_order) (fun _ _ => P43_ne) (fun j _ => by split_ifs; exacts [Q43_ne, R43_ne])
  rw [show (43 ^ E43.d + 1) / 11 = 4 from rfl] at h
  exact ⟨g, e, by simpa [Finset.prod_range_succ] using h⟩

/-- **C89**: an instance; `R + 11 R = 12 R` differs from `R` by a point of order 5, the cofactor. -/
example : (Curve.cmp (12 : ZMod 43) (some 5)
    (fun i => if i = 0 then ⟨false, 0, 14⟩ else
      (((Gen.powMpz (⟨some ⟨false, 0, 14⟩⟩ : Curve.GPt (ZMod 43) 12) 12).bind (·.val)).getD ⟨true, 0, 0⟩))
    0 1) = some false := by decide +kernel

/-- **C49**: an instance. -/
example : ∃ g, lucasEven (⟨26, 12⟩ : El (ZMod 43)) 3 = some g ∧ alg 2 g = alg 2 ⟨26, 12⟩ ^ 3 := by
  have : Fact (∀ s : ZMod 43, s ^ 2 ≠ 2 + 0 * s) := ⟨by decide⟩
  exact (C49_lucas_even (v := 2) (i := ⟨26, 12⟩) (by decide) (by decide)).1
    (fun h => absurd (congrArg QuadraticAlgebra.im h) (by decide))

/-! Fields for `k = 6` and `k = 10` exist. -/

/-- Every finite extension has a basis of powers. -/
theorem exists_ext (F K : Type*) [Field F] [Fintype F] [Field K] [Fintype K] [Algebra F K] :
    ∃ (E : Ext F K) (ξ : K), E.Ok ξ ∧ E.d = Module.finrank F K := by
  have : FiniteDimensional F K := Module.Finite.of_finite
  let pb := Field.powerBasisOfFiniteOfSeparable F K
  refine ⟨⟨pb.dim, fun x i => if h : i < pb.dim then pb.basis.repr x ⟨i, h⟩ else 0,
    fun g => ∑ i ∈ Finset.range pb.dim, algebraMap F K (g i) * pb.gen ^ i⟩, pb.gen, ⟨?_, fun _ => rfl, ?_⟩,
    pb.finrank.symm⟩
  · dsimp only
    rw [← pb.finrank]
    exact Module.finrank_pos
  · intro x
    dsimp only
    rw [Finset.sum_range]
    conv_rhs => rw [← pb.basis.sum_repr x]
    refine Finset.sum_congr rfl fun i _ => ?_
    rw [dif_pos i.2, pb.basis_eq_pow, Algebra.smul_def]

theorem nonsquare_up {F K : Type*} [Field F] [Fintype F] [Field K] [Fintype K] [Algebra F K] {v0 : F}
    (h2 : (2 : K) ≠ 0) (hv : algebraMap F K (v0 ^ (Fintype.card K / 2)) ≠ 1) (h0 : v0 ≠ 0) (s : K) :
    s ^ 2 ≠ algebraMap F K v0 + 0 * s := by
  intro h
  rw [zero_mul, add_zero] at h
  have hs : s ≠ 0 := by
    rintro rfl
    rw [zero_pow two_ne_zero] at h
    exact h0 ((map_eq_zero _).1 h.symm)
  apply hv
  rw [map_pow, ← h, ← pow_mul, Nat.two_mul_odd_div_two, FiniteField.pow_card_sub_one_eq_one _ hs]
  exact FiniteField.odd_card_of_char_ne_two fun hc => h2 (by
    have := (ringChar.spec K 2).2 (by rw [hc])
    exact_mod_cast this)

instance prime5 : Fact (Nat.Prime 5) := ⟨by norm_num⟩
instance prime13 : Fact (Nat.Prime 13) := ⟨by norm_num⟩

/-- Type D with `k = 6`, `q = 5`, `r = 7`; the curve `Y² = X³ + 2 X + 1` has 7 points. -/
theorem exists_typeD : ∃ (K : Type) (_ : Field K) (_ : DecidableEq K) (_ : Fintype K)
    (_ : Algebra (ZMod 5) K) (E : Ext (ZMod 5) K) (ξ : K), TypeD E ξ 5 6 7 ∧
    (∀ s : K, s ^ 2 ≠ algebraMap (ZMod 5) K 2 + 0 * s) ∧
    ∃ P : (EC (2 : ZMod 5) 1).Point, P ≠ 0 ∧ 7 • P = 0 := by
  classical
  have := Fintype.ofFinite (GaloisField 5 3)
  have hc : Fintype.card (GaloisField 5 3) = 5 ^ 3 := by
    rw [← Nat.card_eq_fintype_card]; exact GaloisField.card 5 3 (by norm_num)
  obtain ⟨E, ξ, hE, hd⟩ := exists_ext (ZMod 5) (GaloisField 5 3)
  rw [GaloisField.finrank 5 (by norm_num)] at hd
  refine ⟨GaloisField 5 3, inferInstance, inferInstance, this, inferInstance, E, ξ,
    ⟨hE, ZMod.card 5, by rw [hc, hd], by rw [hd], by norm_num, by norm_num, by decide, by rw [hd]; decide⟩,
    nonsquare_up ?_ ?_ (by decide), .some 0 1 (by rw [nonsingular_iff, equation_iff]; decide +kernel),
    Point.some_ne_zero _, ?_⟩
  · intro h
    have := (CharP.cast_eq_zero_iff (GaloisField 5 3) 5 2).1 (by exact_mod_cast h)
    exact absurd this (by decide)
  · rw [hc, show ((2 : ZMod 5) ^ (5 ^ 3 / 2)) = -1 by decide +kernel, map_neg, map_one]
    intro h
    have h2 : ((2 : ℕ) : GaloisField 5 3) = 0 := by push_cast; linear_combination -h
    exact absurd ((CharP.cast_eq_zero_iff (GaloisField 5 3) 5 2).1 h2) (by decide)
  · refine zero_of (by decide) (p := ⟨false, 0, 1⟩) ?_ 7 (by decide +kernel)
    exact ⟨rfl, rfl, rfl⟩

/-- Type G with `q = 13`, `r = 11`. -/
theorem exists_typeG : ∃ (K : Type) (_ : Field K) (_ : DecidableEq K) (_ : Fintype K)
    (_ : Algebra (ZMod 13) K) (E : Ext (ZMod 13) K) (ξ : K), TypeG E ξ 13 11 ∧
    (∀ s : K, s ^ 2 ≠ algebraMap (ZMod 13) K 2 + 0 * s) ∧
    ∃ P : (EC (7 : ZMod 13) 6).Point, P ≠ 0 ∧ 11 • P = 0 := by
  classical
  have := Fintype.ofFinite (GaloisField 13 5)
  have hc : Fintype.card (GaloisField 13 5) = 13 ^ 5 := by
    rw [← Nat.card_eq_fintype_card]; exact GaloisField.card 13 5 (by norm_num)
  obtain ⟨E, ξ, hE, hd⟩ := exists_ext (ZMod 13) (GaloisField 13 5)
  rw [GaloisField.finrank 13 (by norm_num)] at hd
  refine ⟨GaloisField 13 5, inferInstance, inferInstance, this, inferInstance, E, ξ,
    ⟨hE, ZMod.card 13, hc, hd, by norm_num, by norm_num, by decide⟩,
    nonsquare_up ?_ ?_ (by decide), .some 1 1 (by rw [nonsingular_iff, equation_iff]; decide +kernel),
    Point.some_ne_zero _, ?_⟩
  · intro h
    have := (CharP.cast_eq_zero_iff (GaloisField 13 5) 13 2).1 (by exact_mod_cast h)
    exact absurd this (by decide)
  · rw [hc, show ((2 : ZMod 13) ^ (13 ^ 5 / 2)) = -1 by
      rw [show 13 ^ 5 / 2 = 12 * 15470 + 6 by norm_num, pow_add, pow_mul,
        show (2 : ZMod 13) ^ 12 = 1 by decide +kernel, one_pow]; decide +kernel, map_neg, map_one]
    intro h
    have h2 : ((2 : ℕ) : GaloisField 13 5) = 0 := by push_cast; linear_combination -h
    exact absurd ((CharP.cast_eq_zero_iff (GaloisField 13 5) 13 2).1 h2) (by decide)
  · refine zero_of (by decide) (p := ⟨false, 1, 1⟩) ?_ 11 (by decide +kernel)
    exact ⟨rfl, rfl, rfl⟩

end instances

end Pbc.PairingD
