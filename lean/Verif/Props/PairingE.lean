import Verif.Lemmas.PairingE
import Verif.Spec.PairingE
import Verif.Props.PairingF

/-! # The pairing of type E

`K` is the field of `q` elements, G1 = G2 the points of `Y² = X³ + a X + b` killed by `r`, and GT a subgroup
of the nonzero elements of `K`.  `R` is the point drawn at random when the pairing is set up. -/

set_option autoImplicit false
set_option linter.unusedSectionVars false

namespace Pbc.PairingE

open Pbc.Curve (Pt)
open Pbc.PairingA (order_prime)
open Pbc.PairingF (apply prodPairing genericProd almostCoddh ppInit ppApply)
open WeierstrassCurve WeierstrassCurve.Affine
open Spec (EC PtRep Bilinear TypeE tors mem_tors GoodShift)
open Tate (rep_some)
open TateK

variable {K : Type*} [Field K] [DecidableEq K] [Fintype K] {q r exp2 exp1 : ℕ} {sign1 sign0 : ℤ} {a b : K}

/-- The pairing: `(f(Q + R) / f(R))^((q - 1) / r)` for a function `f` with divisor `r (P) - r (O)`. -/
noncomputable def eE (q r : ℕ) (R P Q : (EC a b).Point) : K := tateK (H := tors r) r ((q - 1) / r) R P Q

section setup

variable (h : TypeE K q r exp2 exp1 sign1 sign0)

include h

theorem _root_.Spec.TypeE.kills : KillsK K r ((q - 1) / r) := fun z hz => by
  rw [← pow_mul, Nat.mul_div_cancel' h.dvd, ← h.card]
  exact FiniteField.pow_card_sub_one_eq_one z hz

theorem _root_.Spec.TypeE.valid (R : Pt K) : ValidE (init q r a exp2 exp1 sign1 sign0 R) r :=
  ⟨h.pos, h.lt, h.s1, h.s0, h.hr, h.big⟩

end setup

theorem GoodShift.one {R : (EC a b).Point} (hR : GoodShift r R) : R ∉ tors (A := (EC a b).Point) r :=
  fun h => hR (by rw [smul_add, mem_tors.1 h, add_zero])

theorem GoodShift.two {R : (EC a b).Point} (hR : GoodShift r R) : R + R ∉ tors (A := (EC a b).Point) r := hR

/-- `pairing_apply` with either routine. -/
def Routine (miller : Data K → Pt K → Pt K → Pt K → Option K) : Prop :=
  miller = millerAffine ∨ miller = millerProj

theorem miller_eq {miller : Data K → Pt K → Pt K → Pt K → Option K} (hm : Routine miller)
    (h : TypeE K q r exp2 exp1 sign1 sign0) {R' p' num : Pt K} {P : (EC a b).Point}
    {N D : Off (tors (A := (EC a b).Point) r)} (hN : At num N) (hD : At R' D) (hP : r • P = 0) (h0 : P ≠ 0)
    (hp : PtRep p' P) : ∃ f, FullK (tors r) P r f ∧
      miller (init q r a exp2 exp1 sign1 sign0 R') p' num R' = some (f N / f D) := by
  have hord := order_prime h.prime h0 hP
  rcases hm with rfl | rfl
  · exact millerAffine_spec h.two rfl hN hD (mem_tors.2 hP) (h.valid R') hord hp
  · exact millerProj_spec h.two rfl hN hD (mem_tors.2 hP) (h.valid R') hord hp

/-- **C93**: with either routine `pairing_apply` computes, for all points killed by `r`, a bilinear map to
the `r`-th roots of unity. -/
theorem C93_typeE (h : TypeE K q r exp2 exp1 sign1 sign0) {R : (EC a b).Point} (hR : GoodShift r R)
    {R' : Pt K} (hR' : PtRep R' R) :
    Bilinear r (fun P Q : (EC a b).Point => eE q r R P Q) ∧
    ∀ miller, Routine miller → ∀ (P Q : (EC a b).Point) (p' q' : Pt K), PtRep p' P → PtRep q' Q →
      r • P = 0 → r • Q = 0 →
      apply (pairing miller (init q r a exp2 exp1 sign1 sign0 R')) p' q' = some (eE q r R P Q) := by
  have hk := h.kills
  have hr0 := h.prime.ne_zero
  have h1 := GoodShift.one hR
  have h2 := GoodShift.two hR
  refine ⟨⟨fun P₁ P₂ Q e₁ e₂ eQ => ?_, fun P Q₁ Q₂ e e₁ e₂ => ?_, fun P Q e eQ => ?_⟩,
    fun miller hm P Q p' q' hp hq hP hQ => ?_⟩
  · exact tateK_add_left hk hr0 h1 (mem_tors.2 e₁) (mem_tors.2 e₂) e₁ e₂ (mem_tors.2 eQ)
  · exact tateK_add_right hk hr0 h1 h2 (mem_tors.2 e) e (mem_tors.2 e₁) (mem_tors.2 e₂)
  · exact tateK_pow hk hr0 h1 (mem_tors.2 e) e (mem_tors.2 eQ)
  rcases PairingD.inf_of hp with ⟨hi, rfl⟩ | ⟨hi, h0⟩
  · rw [apply, if_pos hi, eE, tateK_zero_left]
  rcases PairingD.inf_of hq with ⟨hj, rfl⟩ | ⟨hj, -⟩
  · rw [apply, if_neg (by simp [hi]), if_pos hj, eE, tateK_zero_right h1]
  rw [apply, if_neg (by simp [hi]), if_neg (by simp [hj])]
  obtain ⟨num, e, hnum⟩ := Curve.addV_rep h.two hq hR'
  obtain ⟨N, hN⟩ := exists_off (notMem_add h1 (mem_tors.2 hQ))
  obtain ⟨D, hD⟩ := exists_off h1
  have aN : At num N := by
    rw [← hN] at hnum
    exact ⟨hnum.2.1, hnum.2.2⟩
  have aD : At R' D := by
    rw [← hD] at hR'
    exact ⟨hR'.2.1, hR'.2.2⟩
  obtain ⟨f, hf, e'⟩ := miller_eq hm h aN aD hP h0 hp
  unfold pairing
  rw [show (init q r a exp2 exp1 sign1 sign0 R').a = a from rfl,
    show (init q r a exp2 exp1 sign1 sign0 R').R = R' from rfl, e]
  dsimp only
  rw [e']
  dsimp only
  rw [Gen.powMpz_spec, eE, tateK_eq h0 hf hN hD]
  rfl

variable {R P Q : (EC a b).Point} {R' p' q' : Pt K} {miller : Data K → Pt K → Pt K → Pt K → Option K}

/-- Bilinearity in terms of the routine: scalars come out as exponents. -/
theorem C93_typeE_scalars (h : TypeE K q r exp2 exp1 sign1 sign0) (hR : GoodShift r R) (hR' : PtRep R' R)
    (hm : Routine miller) (hP : r • P = 0) (hQ : r • Q = 0) (x y : ℤ) {p₁ q₁ : Pt K} (hp : PtRep p' P)
    (hq : PtRep q' Q) (hp₁ : PtRep p₁ (x • P)) (hq₁ : PtRep q₁ (y • Q)) :
    ∃ g, g ^ r = 1 ∧ apply (pairing miller (init q r a exp2 exp1 sign1 sign0 R')) p' q' = some g ∧
      apply (pairing miller (init q r a exp2 exp1 sign1 sign0 R')) p₁ q₁ = some (g ^ (x * y)) := by
  obtain ⟨hb, hval⟩ := C93_typeE h hR hR'
  refine ⟨_, hb.root P Q hP hQ, hval _ hm P Q p' q' hp hq hP hQ, ?_⟩
  rw [hval _ hm _ _ p₁ q₁ hp₁ hq₁ (by rw [smul_comm, hP, smul_zero]) (by rw [smul_comm, hQ, smul_zero])]
  exact congrArg some (hb.smul_smul h.prime.ne_zero hP hQ x y)

/-- **C94**: the value does not depend on the point drawn at random: two pairings set up from the same
parameters, each with its own `R`, compute the same function. -/
theorem C94_typeE (h : TypeE K q r exp2 exp1 sign1 sign0) {R₁ R₂ : (EC a b).Point} {R₁' R₂' : Pt K}
    (hR₁ : GoodShift r R₁) (hR₁' : PtRep R₁' R₁) (hR₂ : GoodShift r R₂) (hR₂' : PtRep R₂' R₂)
    {miller' : Data K → Pt K → Pt K → Pt K → Option K} (hm : Routine miller) (hm' : Routine miller')
    (hP : r • P = 0) (hQ : r • Q = 0) (hp : PtRep p' P) (hq : PtRep q' Q) :
    apply (pairing miller (init q r a exp2 exp1 sign1 sign0 R₁')) p' q' =
      apply (pairing miller' (init q r a exp2 exp1 sign1 sign0 R₂')) p' q' := by
  rw [(C93_typeE h hR₁ hR₁').2 _ hm P Q p' q' hp hq hP hQ,
    (C93_typeE h hR₂ hR₂').2 _ hm' P Q p' q' hp hq hP hQ, eE, eE,
    tateK_shift h.kills h.prime.ne_zero (GoodShift.one hR₁) (GoodShift.two hR₁) (GoodShift.one hR₂)
      (mem_tors.2 hP) hP (mem_tors.2 hQ)]

/-- **C46** for type E: the routines for weighted projective and for affine coordinates compute the same. -/
theorem C46_typeE (h : TypeE K q r exp2 exp1 sign1 sign0) (hR : GoodShift r R) (hR' : PtRep R' R)
    (hP : r • P = 0) (hQ : r • Q = 0) (hp : PtRep p' P) (hq : PtRep q' Q) :
    ∃ g, apply (pairing millerProj (init q r a exp2 exp1 sign1 sign0 R')) p' q' = some g ∧
      apply (pairing millerAffine (init q r a exp2 exp1 sign1 sign0 R')) p' q' = some g :=
  ⟨_, (C93_typeE h hR hR').2 _ (.inr rfl) P Q p' q' hp hq hP hQ,
    (C93_typeE h hR hR').2 _ (.inl rfl) P Q p' q' hp hq hP hQ⟩

/-- **C48** for type E: the final powering, which also produces the random and hashed elements of GT,
takes every nonzero element to an `r`-th root of unity. -/
theorem C48_typeE (h : TypeE K q r exp2 exp1 sign1 sign0) {f : K} (hf : f ≠ 0) :
    ∃ g, finalpow (init q r a exp2 exp1 sign1 sign0 R') f = some g ∧ g ^ r = 1 := by
  refine ⟨_, Gen.powMpz_spec _ _, ?_⟩
  rw [← pow_mul, mul_comm, pow_mul]
  exact h.kills f hf

/-- **C45** for type E: the product routine returns the product of the single pairings. -/
theorem C45_typeE (h : TypeE K q r exp2 exp1 sign1 sign0) (hR : GoodShift r R) (hR' : PtRep R' R)
    (hm : Routine miller) {N : ℕ} (hN : 1 ≤ N) {P Q : ℕ → (EC a b).Point} {p' q' : ℕ → Pt K}
    (hp : ∀ j < N, PtRep (p' j) (P j)) (hq : ∀ j < N, PtRep (q' j) (Q j)) (hP : ∀ j < N, r • P j = 0)
    (hQ : ∀ j < N, r • Q j = 0) (hP0 : ∀ j < N, P j ≠ 0) (hQ0 : ∀ j < N, Q j ≠ 0) :
    prodPairing (genericProd (pairing miller (init q r a exp2 exp1 sign1 sign0 R'))) p' q' N =
        some (∏ j ∈ Finset.range N, eE q r R (P j) (Q j)) ∧
      ∀ j < N, apply (pairing miller (init q r a exp2 exp1 sign1 sign0 R')) (p' j) (q' j) =
        some (eE q r R (P j) (Q j)) := by
  have hs := fun j (hj : j < N) =>
    (C93_typeE h hR hR').2 _ hm (P j) (Q j) (p' j) (q' j) (hp j hj) (hq j hj) (hP j hj) (hQ j hj)
  have hpi : ∀ j < N, (p' j).inf = false := fun j hj => (rep_some (hp j hj) (hP0 j hj)).choose_spec.2
  have hqi : ∀ j < N, (q' j).inf = false := fun j hj => (rep_some (hq j hj) (hQ0 j hj)).choose_spec.2
  refine ⟨?_, hs⟩
  have hany : ¬ PairingD.anyZero p' q' N = true := by
    rw [PairingD.anyZero_iff]
    rintro ⟨j, hj, h | h⟩
    · rw [hpi j hj] at h; exact absurd h (by decide)
    · rw [hqi j hj] at h; exact absurd h (by decide)
  rw [prodPairing, if_neg hany]
  obtain ⟨n, rfl⟩ : ∃ n, N = n + 1 := ⟨N - 1, by omega⟩
  refine PairingF.genericProd_eq n fun j hj => ?_
  have := hs j hj
  rwa [apply, if_neg (by simp [hpi j hj]), if_neg (by simp [hqi j hj])] at this

/-- **C53** for type E: for `g`, `x g`, `h`, `y h` with `e(g, h) ≠ 1` the test answers yes exactly for
`y = ±x` modulo `r`. -/
theorem C53_typeE (h : TypeE K q r exp2 exp1 sign1 sign0) (hR : GoodShift r R) (hR' : PtRep R' R)
    (hm : Routine miller) (hP : r • P = 0) (hQ : r • Q = 0) (hne : eE q r R P Q ≠ 1) {x y : ℤ}
    {p₁ p₂ q₁ q₂ : Pt K} (hp₁ : PtRep p₁ P) (hp₂ : PtRep p₂ (x • P)) (hq₁ : PtRep q₁ Q)
    (hq₂ : PtRep q₂ (y • Q)) :
    ∃ ans, almostCoddh (pairing miller (init q r a exp2 exp1 sign1 sign0 R')) p₁ p₂ q₁ q₂ = some ans ∧
      (ans = true ↔ (r : ℤ) ∣ y - x ∨ (r : ℤ) ∣ y + x) := by
  obtain ⟨hb, hval⟩ := C93_typeE h hR hR'
  set t := eE q r R P Q with htd
  have htr : t ^ r = 1 := hb.root P Q hP hQ
  have ht0 : t ≠ 0 := hb.ne_zero h.prime.ne_zero hP hQ
  have hord : orderOf t = r := by
    have : Fact r.Prime := ⟨h.prime⟩
    exact orderOf_eq_prime htr hne
  have hz : ∀ n : ℤ, t ^ n = 1 ↔ (r : ℤ) ∣ n := fun n => by
    rw [← hord]
    have := orderOf_dvd_iff_zpow_eq_one (x := Units.mk0 t ht0) (i := n)
    rw [← orderOf_units, Units.val_mk0] at this
    rw [this, ← Units.val_inj]
    simp
  have e0 := hval _ hm P (y • Q) p₁ q₂ hp₁ hq₂ hP (by rw [smul_comm, hQ, smul_zero])
  have e1 := hval _ hm (x • P) Q p₂ q₁ hp₂ hq₁ (by rw [smul_comm, hP, smul_zero]) hQ
  have v0 : eE q r R P (y • Q) = t ^ y := hb.zsmul_right h.prime.ne_zero hP hQ y
  have v1 : eE q r R (x • P) Q = t ^ x := hb.zsmul_left h.prime.ne_zero hP hQ x
  rw [v0] at e0
  rw [v1] at e1
  unfold almostCoddh
  rw [e0, e1]
  dsimp only
  have hA : t ^ y = t ^ x ↔ (r : ℤ) ∣ y - x := by
    rw [← hz, zpow_sub₀ ht0, div_eq_one_iff_eq (zpow_ne_zero _ ht0)]
  by_cases h1 : t ^ y = t ^ x
  · rw [if_pos h1]
    exact ⟨true, rfl, by simp [hA.1 h1]⟩
  · rw [if_neg h1]
    refine ⟨_, rfl, ?_⟩
    rw [decide_eq_true_iff, ← zpow_add₀ ht0, hz]
    exact ⟨.inr, fun h => h.resolve_left fun h' => h1 (hA.2 h')⟩

/-- **C91 fails** for type E as for type F: the preprocessed data refer to the element itself. -/
theorem C91_typeE_fails (h : TypeE K q r exp2 exp1 sign1 sign0) (hR : GoodShift r R) (hR' : PtRep R' R)
    (hm : Routine miller) (hP : r • P = 0) (hQ : r • Q = 0) (h0 : P ≠ 0) (hQ0 : Q ≠ 0) {m m' : ℕ → Pt K}
    {i : ℕ} (hp : PtRep (m i) P) (hp' : PtRep (m' i) (2 • P)) (hq : PtRep q' Q) :
    ∃ g, apply (pairing miller (init q r a exp2 exp1 sign1 sign0 R')) (m i) q' = some g ∧
      ppApply (pairing miller (init q r a exp2 exp1 sign1 sign0 R')) m' (ppInit m i) q' = some (g ^ 2) ∧
      (g ≠ 1 → g ^ 2 ≠ g) := by
  obtain ⟨hb, hval⟩ := C93_typeE h hR hR'
  have h20 : 2 • P ≠ 0 := by
    have := PairingD.two_smul_ne (h.prime.odd_of_ne_two (by have := h.big; omega)) hP (n := 1)
      (by rwa [one_smul])
    rwa [one_smul] at this
  refine ⟨_, hval _ hm P Q _ q' hp hq hP hQ, ?_, fun h1 h2 => ?_⟩
  · have hv := hval _ hm (2 • P) Q _ q' hp' hq (by rw [smul_comm, hP, smul_zero]) hQ
    rw [apply, if_neg (by simp [(rep_some hp' h20).choose_spec.2]),
      if_neg (by simp [(rep_some hq hQ0).choose_spec.2])] at hv
    rw [ppInit, if_neg (by simp [(rep_some hp h0).choose_spec.2]), ppApply,
      if_neg (by simp [(rep_some hq hQ0).choose_spec.2]), hv]
    exact congrArg some (hb.nsmul_left h.prime.ne_zero hP hQ 2)
  · have hne : eE q r R P Q ≠ 0 := hb.ne_zero h.prime.ne_zero hP hQ
    rw [pow_two] at h2
    exact h1 (mul_left_cancel₀ hne (by rw [h2, mul_one]))

/-! ### The shared method variable -/

theorem run_ellnet (g : Globals) {i : ℕ} (l : List Op) (hl : ∀ o ∈ l, o.target ≠ i) :
    (l.foldl Op.run g).ellnet i = g.ellnet i := by
  induction l generalizing g with
  | nil => rfl
  | cons o l ih =>
    rw [List.foldl_cons, ih _ fun o h => hl o (List.mem_cons_of_mem _ h)]
    have ho : i ≠ o.target := (hl o List.mem_cons_self).symm
    rcases o with ⟨j, m⟩ | j
    · cases m <;> simp [Op.run, optionSet, Function.update_of_ne (show i ≠ j from ho)]
    · simp [Op.run, initGlobals, Function.update_of_ne (show i ≠ j from ho)]

theorem routine_millerOf (f : MillerFn) : Routine (millerOf f : Data K → _) := by
  cases f
  · exact .inr rfl
  · exact .inl rfl

/-- **C95**: although all pairings of type E share one method variable, setting methods of other
pairings, or setting up further pairings, never changes what a pairing computes. -/
theorem C95_typeE (h : TypeE K q r exp2 exp1 sign1 sign0) (hR : GoodShift r R) (hR' : PtRep R' R)
    (ellnet : Data K → Pt K → Pt K → Option K) (g : Globals) (i : ℕ) (l : List Op)
    (hl : ∀ o ∈ l, o.target ≠ i) (hP : r • P = 0) (hQ : r • Q = 0) (hp : PtRep p' P) (hq : PtRep q' Q) :
    apply (mapOf ellnet (l.foldl Op.run g) i (init q r a exp2 exp1 sign1 sign0 R')) p' q' =
      apply (mapOf ellnet g i (init q r a exp2 exp1 sign1 sign0 R')) p' q' := by
  unfold mapOf
  rw [run_ellnet g l hl]
  by_cases he : g.ellnet i = true
  · rw [if_pos he, if_pos he]
  · rw [if_neg he, if_neg he]
    exact C94_typeE h hR hR' hR hR' (routine_millerOf _) (routine_millerOf _) hP hQ hp hq

/-! ### An unlucky shift -/

theorem line_vd_zero {l : PairingA.Abc K} {num denom : Pt K} {e : Acc K} (h : e.vd = 0) :
    (e.line l num denom).vd = 0 := by simp [Acc.line, h]

theorem vertInv_vd_zero {num denom : Pt K} {z2 Ax : K} {e : Acc K} (h : e.vd = 0) :
    (e.vertInv num denom z2 Ax).vd = 0 := by simp [Acc.vertInv, Acc.vert, Acc.swap, h]

theorem affineLoop_vd_zero {ca : K} {num denom : Pt K} : ∀ (n : ℕ) (Z : Pt K) (e : Acc K), e.vd = 0 →
    ∀ w, affineLoop ca num denom n Z e = some w → w.2.vd = 0
  | 0, Z, e, h, w, hw => by
    rw [affineLoop, Option.some.injEq] at hw
    rw [← hw]; exact h
  | n + 1, Z, e, h, w, hw => by
    rw [affineLoop] at hw
    cases hd : PairingD.dbl ca Z with
    | none => rw [hd] at hw; exact absurd hw (by simp)
    | some Z' =>
      rw [hd] at hw
      exact affineLoop_vd_zero n _ _ (vertInv_vd_zero (line_vd_zero (by simp [Acc.sq, h]))) w hw

theorem projLoop_vd_zero {ca : K} {num denom : Pt K} : ∀ (n : ℕ) (Z : Proj K) (e : Acc K), e.vd = 0 →
    (projLoop ca num denom n Z e).2.vd = 0
  | 0, _, _, h => h
  | n + 1, Z, e, h => by
    rw [projLoop]
    exact projLoop_vd_zero n _ _ (vertInv_vd_zero (line_vd_zero (by simp [Acc.sq, h])))

theorem finish_vd_zero {p : Data K} {P num denom Z1 Z : Pt K} {e1 e : Acc K} (h : e.vd = 0) :
    finish p P num denom Z1 e1 Z e = none := by
  unfold finish
  dsimp only
  cases PairingD.add p.a Z Z1 with
  | none => rfl
  | some Z' =>
    dsimp only
    have hv : (Acc.vertInv num denom 1 Z'.x
        (Acc.line (line Z Z1) num denom ⟨e.v * e1.v, e.vd * e1.vd⟩)).vd = 0 :=
      vertInv_vd_zero (line_vd_zero (by simp [h]))
    by_cases hs : p.sign0 > 0
    · rw [if_pos hs]
      simp [Acc.vert, hv, Quad.inv?]
    · rw [if_neg hs, hv]
      simp [Quad.inv?]

/-- **C93 fails** without the condition on `R`: if the point drawn at random is the first argument
itself, both routines end in a division by zero, for every second argument other than `O`. -/
theorem C93_typeE_fails (p : Data K) (h1 : 1 ≤ p.exp1) (hm : Routine miller) (hP : p.R.inf = false)
    (hQ : q'.inf = false) : apply (pairing miller p) p.R q' = none := by
  rw [apply, if_neg (by simp [hP]), if_neg (by simp [hQ])]
  unfold pairing
  cases Curve.addV p.a q' p.R with
  | none => rfl
  | some num =>
    obtain ⟨n, hn⟩ : ∃ n, p.exp1 = n + 1 := ⟨p.exp1 - 1, by omega⟩
    have hcx : (PairingA.copy p.R).x = p.R.x := by
      simp [PairingA.copy, Curve.set, hP, Curve.wX, Curve.wY, Curve.wInf]
    have hcy : (PairingA.copy p.R).y = p.R.y := by
      simp [PairingA.copy, Curve.set, hP, Curve.wX, Curve.wY, Curve.wInf]
    have key : miller p p.R num p.R = none := by
      rcases hm with rfl | rfl
      · unfold millerAffine
        have hl : ((Acc.one : Acc K).sq.line
            (PairingD.tangent p.a (PairingA.copy p.R).x (PairingA.copy p.R).y) num p.R).vd = 0 := by
          simp only [Acc.one, Acc.sq, Acc.line, PairingD.tangent, hcx, hcy]
          ring
        cases hA : affineLoop p.a num p.R p.exp1 (PairingA.copy p.R) Acc.one with
        | none => rfl
        | some w =>
          obtain ⟨Z, e⟩ := w
          have he : e.vd = 0 := by
            rw [hn, affineLoop] at hA
            cases hd : PairingD.dbl p.a (PairingA.copy p.R) with
            | none => rw [hd] at hA; exact absurd hA (by simp)
            | some Z' =>
              rw [hd] at hA
              exact affineLoop_vd_zero n _ _ (vertInv_vd_zero hl) _ hA
          dsimp only
          cases hB : affineLoop p.a num p.R (p.exp2 - p.exp1) Z e with
          | none => rfl
          | some w =>
            obtain ⟨Z2, e2⟩ := w
            exact finish_vd_zero (affineLoop_vd_zero _ _ _ he _ hB)
      · unfold millerProj
        have hl : ((Acc.one : Acc K).sq.line
            (tangentProj p.a ⟨(PairingA.copy p.R).x, (PairingA.copy p.R).y, 1, 1⟩) num p.R).vd = 0 := by
          simp only [Acc.one, Acc.sq, Acc.line, tangentProj, hcx, hcy]
          ring
        have he : (projLoop p.a num p.R p.exp1 ⟨(PairingA.copy p.R).x, (PairingA.copy p.R).y, 1, 1⟩
            Acc.one).2.vd = 0 := by
          rw [hn, projLoop]
          exact projLoop_vd_zero n _ _ (vertInv_vd_zero hl)
        dsimp only
        cases toAffine (projLoop p.a num p.R p.exp1 ⟨(PairingA.copy p.R).x, (PairingA.copy p.R).y, 1, 1⟩
            Acc.one).1 with
        | none => rfl
        | some Z =>
          dsimp only
          cases toAffine (projLoop p.a num p.R (p.exp2 - p.exp1) ⟨Z.x, Z.y, 1, 1⟩
            (projLoop p.a num p.R p.exp1 ⟨(PairingA.copy p.R).x, (PairingA.copy p.R).y, 1, 1⟩
              Acc.one).2).1 with
          | none => rfl
          | some Z' => exact finish_vd_zero (projLoop_vd_zero _ _ _ he)
    dsimp only
    rw [key]

/-! ### An instance

`q = 29`, `r = 7 = 2³ - 2 + 1`, and the curve `Y² = X³ + X + 7` of 35 points. -/

instance : Fact (Nat.Prime 29) := ⟨by norm_num⟩

theorem type29 : TypeE (ZMod 29) 29 7 3 1 (-1) 1 where
  card := ZMod.card 29
  two := by decide
  prime := by norm_num
  dvd := by decide
  pos := by decide
  lt := by decide
  s1 := .inr rfl
  s0 := .inl rfl
  hr := by norm_num
  big := by norm_num

/-- A point of order 7. -/
def P29 : (EC (1 : ZMod 29) 7).Point := .some 0 6 (by
  rw [nonsingular_iff, equation_iff]; decide +kernel)

/-- The shift. -/
def R29 : (EC (1 : ZMod 29) 7).Point := .some 1 3 (by
  rw [nonsingular_iff, equation_iff]; decide +kernel)

/-- Another shift. -/
def S29 : (EC (1 : ZMod 29) 7).Point := .some 7 3 (by
  rw [nonsingular_iff, equation_iff]; decide +kernel)

theorem P29_rep : PtRep (⟨false, 0, 6⟩ : Pt (ZMod 29)) P29 := ⟨rfl, rfl, rfl⟩
theorem R29_rep : PtRep (⟨false, 1, 3⟩ : Pt (ZMod 29)) R29 := ⟨rfl, rfl, rfl⟩
theorem S29_rep : PtRep (⟨false, 7, 3⟩ : Pt (ZMod 29)) S29 := ⟨rfl, rfl, rfl⟩

theorem P29_order : 7 • P29 = 0 := PairingD.zero_of (by decide) P29_rep 7 (by decide +kernel)

theorem ne_of {k : Type*} [Field k] [DecidableEq k] {a b : k} (h2 : (2 : k) ≠ 0) {P : (EC a b).Point}
    {p : Pt k} (hp : PtRep p P) (n : ℕ)
    (h : ((Gen.powMpz (⟨some p⟩ : Curve.GPt k a) n).bind (·.val)).map (·.inf) = some false) : n • P ≠ 0 := by
  obtain ⟨r, e, hr⟩ := Curve.pow_rep (ca := a) (cb := b) h2 hp n
  rw [e] at h
  have hi : r.inf = false := by simpa using h
  intro h0
  rw [h0] at hr
  have : r.inf = true := hr
  rw [this] at hi
  exact absurd hi (by decide)

theorem good29 : GoodShift 7 R29 := by
  have := ne_of (by decide) R29_rep 14 (by decide +kernel)
  rwa [GoodShift, ← two_smul ℕ, smul_smul]

theorem goodS29 : GoodShift 7 S29 := by
  have := ne_of (by decide) S29_rep 14 (by decide +kernel)
  rwa [GoodShift, ← two_smul ℕ, smul_smul]

/-- The value is not 1. -/
theorem value29 : apply (pairing millerProj (init 29 7 (1 : ZMod 29) 3 1 (-1) 1 ⟨false, 1, 3⟩))
    ⟨false, 0, 6⟩ ⟨false, 0, 6⟩ = some 7 := by decide +kernel

theorem eE29 : eE 29 7 R29 P29 P29 = 7 := by
  have := (C93_typeE type29 good29 R29_rep).2 _ (.inr rfl) P29 P29 _ _ P29_rep P29_rep P29_order P29_order
  rw [value29, Option.some.injEq] at this
  exact this.symm

/-- Another `R`, the other routine, the same value. -/
example : apply (pairing millerAffine (init 29 7 (1 : ZMod 29) 3 1 (-1) 1 ⟨false, 7, 3⟩))
    ⟨false, 0, 6⟩ ⟨false, 0, 6⟩ = some 7 := by
  rw [← value29]
  exact (C94_typeE type29 good29 R29_rep goodS29 S29_rep (.inr rfl) (.inl rfl) P29_order P29_order P29_rep
    P29_rep).symm

example : ∃ g, g ^ 7 = 1 ∧ apply (pairing millerProj (init 29 7 (1 : ZMod 29) 3 1 (-1) 1 ⟨false, 1, 3⟩))
    ⟨false, 0, 6⟩ ⟨false, 0, 6⟩ = some g ∧
    apply (pairing millerProj (init 29 7 (1 : ZMod 29) 3 1 (-1) 1 ⟨false, 1, 3⟩))
      ⟨false, 0, 6⟩ ⟨false, 0, 6⟩ = some (g ^ ((1 : ℤ) * 1)) :=
  C93_typeE_scalars (P := P29) (Q := P29) type29 good29 R29_rep (.inr rfl) P29_order P29_order 1 1 P29_rep
    P29_rep (by rw [one_smul]; exact P29_rep) (by rw [one_smul]; exact P29_rep)

example : apply (pairing millerAffine (init 29 7 (1 : ZMod 29) 3 1 (-1) 1 ⟨false, 0, 6⟩))
    ⟨false, 0, 6⟩ ⟨false, 1, 3⟩ = none :=
  C93_typeE_fails (init 29 7 (1 : ZMod 29) 3 1 (-1) 1 ⟨false, 0, 6⟩) (by decide) (.inl rfl) rfl rfl

example : ∃ ans, almostCoddh (pairing millerProj (init 29 7 (1 : ZMod 29) 3 1 (-1) 1 ⟨false, 1, 3⟩))
    ⟨false, 0, 6⟩ ⟨false, 0, 6⟩ ⟨false, 0, 6⟩ ⟨false, 0, 6⟩ = some ans ∧
    (ans = true ↔ ((7 : ℕ) : ℤ) ∣ 1 - 1 ∨ ((7 : ℕ) : ℤ) ∣ 1 + 1) :=
  C53_typeE (P := P29) (Q := P29) type29 good29 R29_rep (.inr rfl) P29_order P29_order
    (by rw [eE29]; decide) P29_rep (by rw [one_smul]; exact P29_rep) P29_rep
    (by rw [one_smul]; exact P29_rep)

example : prodPairing (genericProd (pairing millerProj (init 29 7 (1 : ZMod 29) 3 1 (-1) 1 ⟨false, 1, 3⟩)))
    (fun _ => ⟨false, 0, 6⟩) (fun _ => ⟨false, 0, 6⟩) 3 = some (7 ^ 3) := by
  have := (C45_typeE type29 good29 R29_rep (.inr rfl) (N := 3) (by decide) (P := fun _ => P29)
    (Q := fun _ => P29) (fun _ _ => P29_rep) (fun _ _ => P29_rep) (fun _ _ => P29_order)
    (fun _ _ => P29_order) (fun _ _ => Point.some_ne_zero _) (fun _ _ => Point.some_ne_zero _)).1
  rw [this, Finset.prod_const, eE29, Finset.card_range]

/-- The variable is really shared: setting the method of pairing 1 changes the routine pairing 0 calls. -/
example : ([Op.option 1 .millerAffine].foldl Op.run ⟨.proj, fun _ => false⟩).fn = .affine := rfl

example : apply (mapOf (fun _ _ _ => none) ([Op.option 1 .millerAffine, .init 2, .option 3 .shipseyStange].foldl
      Op.run ⟨.proj, fun _ => false⟩) 0 (init 29 7 (1 : ZMod 29) 3 1 (-1) 1 ⟨false, 1, 3⟩))
    ⟨false, 0, 6⟩ ⟨false, 0, 6⟩ = some 7 := by
  rw [C95_typeE type29 good29 R29_rep _ _ _ _ (by decide) P29_order P29_order P29_rep P29_rep]
  exact value29

end Pbc.PairingE
