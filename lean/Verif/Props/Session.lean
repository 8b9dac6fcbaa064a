import Verif.Model.Session
import Verif.Props.Setup
import Verif.Props.ParamInit
import Verif.Props.Generic

/-! # C121: from generating parameters to computing pairings -/

set_option autoImplicit false
set_option linter.unusedSectionVars false

namespace Pbc.Session

open Pbc.Curve (Pt addV fresh)
open Pbc.CmGen (scalar genNqr)
open Pbc.Setup (Sampled Base Complete Sound)
open Props (scalar_spec rep_inf)
open WeierstrassCurve WeierstrassCurve.Affine
open Spec (EC PtRep Works)

/-! ### Any two groups -/

section general

variable {K : Type*} [Field K] [DecidableEq K] {b : K}

theorem addV_spec (h2 : (2 : K) ≠ 0) {a : K} {p q : Pt K} {P Q : (EC a b).Point} (hp : PtRep p P) (hq : PtRep q Q) :
    ∃ s, addV a p q = some s ∧ PtRep s (P + Q) := by
  obtain ⟨m', e, h, -⟩ := Curve.add_rep h2 (m := fun i => if i = 1 then p else if i = 2 then q else fresh) (a := 1) (b := 2)
    (P := P) (Q := Q) (by simpa using hp) (by simpa using hq) 0
  exact ⟨m' 0, by rw [addV, e]; rfl, h⟩

theorem invertV_spec {a : K} {p : Pt K} {P : (EC a b).Point} (hp : PtRep p P) : PtRep (invertV p) (-P) :=
  (Curve.invert_rep (m := fun i => if i = 1 then p else fresh) (a := 1) (by simpa using hp) 0).1

/-- Elements that are made lie in every subgroup that contains those drawn and hashed. -/
theorem made_mem (h2 : (2 : K) ≠ 0) {S : Pt K → Prop} {a : K} (H : AddSubgroup (EC a b).Point)
    (hs : ∀ p, S p → ∃ P ∈ H, PtRep p P) {p : Pt K} (hp : Made S a p) : ∃ P ∈ H, PtRep p P := by
  induction hp with
  | sampled p h => exact hs p h
  | mul p q s _ _ h ih ih' =>
    obtain ⟨P, hP, hp⟩ := ih
    obtain ⟨Q, hQ, hq⟩ := ih'
    obtain ⟨s', e, hs'⟩ := addV_spec h2 hp hq
    obtain rfl := Option.some.inj (h.symm.trans e)
    exact ⟨_, H.add_mem hP hQ, hs'⟩
  | pow p s n _ h ih =>
    obtain ⟨P, hP, hp⟩ := ih
    obtain ⟨s', e, hs'⟩ := scalar_spec h2 hp n
    obtain rfl := Option.some.inj (h.symm.trans e)
    exact ⟨_, H.nsmul_mem hP n, hs'⟩
  | inv p _ ih =>
    obtain ⟨P, hP, hp⟩ := ih
    exact ⟨_, H.neg_mem hP, invertV_spec hp⟩

theorem made_mem' {a a' : K} (ha : a' = a) (h2 : (2 : K) ≠ 0) {S : Pt K → Prop} (H : AddSubgroup (EC a b).Point)
    (hs : ∀ p, S p → ∃ P ∈ H, PtRep p P) {p : Pt K} (hp : Made S a' p) : ∃ P ∈ H, PtRep p P := by
  subst ha
  exact made_mem h2 H hs hp

theorem ops_closed (h2 : (2 : K) ≠ 0) {S : Pt K → Prop} {a : K} (H : AddSubgroup (EC a b).Point)
    (hs : ∀ p, S p → ∃ P ∈ H, PtRep p P) : (ops S a).Closed where
  mul p q hp hq := by
    obtain ⟨P, hP, hp'⟩ := made_mem h2 H hs hp
    obtain ⟨Q, hQ, hq'⟩ := made_mem h2 H hs hq
    obtain ⟨s, e, -⟩ := addV_spec h2 hp' hq'
    exact ⟨s, e, .mul p q s hp hq e⟩
  pow p n hp := by
    obtain ⟨P, hP, hp'⟩ := made_mem h2 H hs hp
    obtain ⟨s, e, -⟩ := scalar_spec h2 hp' n
    exact ⟨s, e, .pow p s n hp e⟩
  inv p hp := ⟨_, rfl, .inv p hp⟩

end general

section two

variable {K₁ K₂ : Type*} [Field K₁] [DecidableEq K₁] [Field K₂] [DecidableEq K₂]
  {S₁ : Pt K₁ → Prop} {b₁ : K₁} {S₂ : Pt K₂ → Prop} {b₂ : K₂}
  {L M : Type*} [Field M] {e : Pt K₁ → Pt K₂ → Option L} {val : L → M} {r : ℕ}

/-- A routine that computes a map of points, additive on two subgroups, works on the elements that are made. -/
theorem works_of {a₁ c₁ : K₁} {a₂ c₂ : K₂} (ha₁ : c₁ = a₁) (ha₂ : c₂ = a₂) (h₁ : (2 : K₁) ≠ 0) (h₂ : (2 : K₂) ≠ 0) (H₁ : AddSubgroup (EC a₁ b₁).Point)
    (H₂ : AddSubgroup (EC a₂ b₂).Point) (s₁ : ∀ p, S₁ p → ∃ P ∈ H₁, PtRep p P)
    (s₂ : ∀ p, S₂ p → ∃ P ∈ H₂, PtRep p P) (E : (EC a₁ b₁).Point → (EC a₂ b₂).Point → M)
    (hr : r ≠ 0) (root : ∀ P ∈ H₁, ∀ Q ∈ H₂, E P Q ^ r = 1)
    (add₁ : ∀ P ∈ H₁, ∀ P' ∈ H₁, ∀ Q ∈ H₂, E (P + P') Q = E P Q * E P' Q)
    (add₂ : ∀ P ∈ H₁, ∀ Q ∈ H₂, ∀ Q' ∈ H₂, E P (Q + Q') = E P Q * E P Q')
    (hv : ∀ P ∈ H₁, ∀ Q ∈ H₂, ∀ p q, PtRep p P → PtRep q Q → ∃ g, e p q = some g ∧ val g = E P Q) :
    Works (ops S₁ c₁) (ops S₂ c₂) e val r := by
  subst ha₁ ha₂
  have m₁ := fun p (hp : Made S₁ c₁ p) => made_mem h₁ H₁ s₁ hp
  have m₂ := fun p (hp : Made S₂ c₂ p) => made_mem h₂ H₂ s₂ hp
  have ne : ∀ P ∈ H₁, ∀ Q ∈ H₂, E P Q ≠ 0 := fun P hP Q hQ h0 => by
    have := root P hP Q hQ
    rw [h0, zero_pow hr] at this
    exact zero_ne_one this
  have z₁ : ∀ Q ∈ H₂, E 0 Q = 1 := fun Q hQ => by
    have := add₁ 0 H₁.zero_mem 0 H₁.zero_mem Q hQ
    rw [add_zero] at this
    exact (mul_eq_left₀ (ne 0 H₁.zero_mem Q hQ)).1 this.symm
  have z₂ : ∀ P ∈ H₁, E P 0 = 1 := fun P hP => by
    have := add₂ P hP 0 H₂.zero_mem 0 H₂.zero_mem
    rw [add_zero] at this
    exact (mul_eq_left₀ (ne P hP 0 H₂.zero_mem)).1 this.symm
  have p₁ : ∀ P ∈ H₁, ∀ Q ∈ H₂, ∀ n : ℕ, E (n • P) Q = E P Q ^ n := fun P hP Q hQ n => by
    induction n with
    | zero => rw [zero_smul, z₁ Q hQ, pow_zero]
    | succ n ih => rw [succ_nsmul, add₁ _ (H₁.nsmul_mem hP n) _ hP Q hQ, ih, pow_succ]
  have p₂ : ∀ P ∈ H₁, ∀ Q ∈ H₂, ∀ n : ℕ, E P (n • Q) = E P Q ^ n := fun P hP Q hQ n => by
    induction n with
    | zero => rw [zero_smul, z₂ P hP, pow_zero]
    | succ n ih => rw [succ_nsmul, add₂ P hP _ (H₂.nsmul_mem hQ n) Q hQ, ih, pow_succ]
  have ev : ∀ {P Q p q g}, P ∈ H₁ → Q ∈ H₂ → PtRep p P → PtRep q Q → e p q = some g → val g = E P Q := by
    intro P Q p q g hP hQ hp hq h
    obtain ⟨g', h', hg⟩ := hv P hP Q hQ p q hp hq
    rw [← hg, Option.some.inj (h.symm.trans h')]
  constructor
  · exact ops_closed h₁ H₁ s₁
  · exact ops_closed h₂ H₂ s₂
  · intro p q hp hq
    obtain ⟨P, hP, hp⟩ := m₁ p hp
    obtain ⟨Q, hQ, hq⟩ := m₂ q hq
    obtain ⟨g, h, hg⟩ := hv P hP Q hQ p q hp hq
    exact ⟨g, h, by rw [hg, root P hP Q hQ]⟩
  · intro p p' q s g g' t hp hp' hq hs hg hg' ht
    obtain ⟨P, hP, hp⟩ := m₁ p hp
    obtain ⟨P', hP', hp'⟩ := m₁ p' hp'
    obtain ⟨Q, hQ, hq⟩ := m₂ q hq
    obtain ⟨s', e', hs'⟩ := addV_spec h₁ hp hp'
    obtain rfl := Option.some.inj (hs.symm.trans e')
    rw [ev (H₁.add_mem hP hP') hQ hs' hq ht, ev hP hQ hp hq hg, ev hP' hQ hp' hq hg', add₁ P hP P' hP' Q hQ]
  · intro p q q' s g g' t hp hq hq' hs hg hg' ht
    obtain ⟨P, hP, hp⟩ := m₁ p hp
    obtain ⟨Q, hQ, hq⟩ := m₂ q hq
    obtain ⟨Q', hQ', hq'⟩ := m₂ q' hq'
    obtain ⟨s', e', hs'⟩ := addV_spec h₂ hq hq'
    obtain rfl := Option.some.inj (hs.symm.trans e')
    rw [ev hP (H₂.add_mem hQ hQ') hp hs' ht, ev hP hQ hp hq hg, ev hP hQ' hp hq' hg', add₂ P hP Q hQ Q' hQ']
  · intro p q m p' g t hp hq hp' hg ht
    obtain ⟨P, hP, hp⟩ := m₁ p hp
    obtain ⟨Q, hQ, hq⟩ := m₂ q hq
    obtain ⟨s, e₁, hs⟩ := scalar_spec h₁ hp m
    obtain rfl := Option.some.inj (hp'.symm.trans e₁)
    rw [ev (H₁.nsmul_mem hP m) hQ hs hq ht, ev hP hQ hp hq hg, p₁ P hP Q hQ]
  · intro p q n q' g t hp hq hq' hg ht
    obtain ⟨P, hP, hp⟩ := m₁ p hp
    obtain ⟨Q, hQ, hq⟩ := m₂ q hq
    obtain ⟨s, e₁, hs⟩ := scalar_spec h₂ hq n
    obtain rfl := Option.some.inj (hq'.symm.trans e₁)
    rw [ev hP (H₂.nsmul_mem hQ n) hp hs ht, ev hP hQ hp hq hg, p₂ P hP Q hQ]
  · intro p q p' g t hp hq hp' hg ht
    obtain ⟨P, hP, hp⟩ := m₁ p hp
    obtain ⟨Q, hQ, hq⟩ := m₂ q hq
    obtain rfl := Option.some.inj hp'
    rw [ev (H₁.neg_mem hP) hQ (invertV_spec hp) hq ht, ev hP hQ hp hq hg, ← add₁ _ (H₁.neg_mem hP) _ hP Q hQ,
      neg_add_cancel, z₁ Q hQ]
  · intro p q q' g t hp hq hq' hg ht
    obtain ⟨P, hP, hp⟩ := m₁ p hp
    obtain ⟨Q, hQ, hq⟩ := m₂ q hq
    obtain rfl := Option.some.inj hq'
    rw [ev hP (H₂.neg_mem hQ) hp (invertV_spec hq) ht, ev hP hQ hp hq hg, ← add₂ P hP _ (H₂.neg_mem hQ) Q hQ,
      neg_add_cancel, z₂ P hP]

end two

/-! ### Prime fields -/

section prime

variable {q : ℕ} [hq : Fact q.Prime]

theorem fpIsSqr_iff (a : ZMod q) : fpIsSqr q a = true ↔ IsSquare a := by
  rw [fpIsSqr]
  split_ifs with h
  · simp [h]
  · rw [decide_eq_true_eq, ← jacobiSym.legendreSym.to_jacobiSym]
    have h' : ((a.val : ℤ) : ZMod q) ≠ 0 := by simpa using h
    rw [legendreSym.eq_one_iff q h']
    simp

theorem fp_base (h2 : q ≠ 2) {nqr : ZMod q} {draws : List (ZMod q)} (hn : genNqr (fpIsSqr q) draws = some nqr) :
    Base (fpIsSqr q) (fpSqrt q nqr) ∧ Complete (fpIsSqr q) := by
  have hns : ¬ IsSquare nqr := Props.C112_beta fpIsSqr_iff draws nqr hn
  refine ⟨⟨Ring.two_ne_zero (by rw [ZMod.ringChar_zmod_n]; exact h2), fun a ha => ?_⟩,
    fun a _ => (fpIsSqr_iff _).2 ⟨a, sq a⟩⟩
  have hc := ZMod.card q
  have := Props.C20_sqrt (K := ZMod q) (by rw [hc]; exact hq.out.eq_two_or_odd.resolve_left h2) nqr a hns ((fpIsSqr_iff a).1 ha)
  rwa [hc] at this

end prime

/-! ### The pairings -/

section pairings

variable {K : Type*} [Field K] [DecidableEq K] [Fintype K] {isSqr : K → Bool} {sq : K → K} {sgn : K → ℤ}
variable {G : Setup.Group K} {draws : List K}

/-- Type A: every pairing that is set up works. -/
theorem typeA_works [Fact (∀ x : K, x ^ 2 ≠ -1 + 0 * x)] {pr : PairingA.Params} {r : ℕ} {inv : K → K}
    (h : PairingA.TypeA K pr r inv) (hb : Base isSqr sq) (hi : Setup.typeA isSqr sq r pr.h draws = some G) :
    Works (ops (Sampled isSqr sq sgn G) G.a) (ops (Sampled isSqr sq sgn G) G.a) (PairingA.pairingApply (PairingA.pairingProj inv pr)) (Quad.alg (-1 : K))
      r := by
  have hs := (Setup.initCurve_sound hb (Setup.typeA_disc hb.two) hi).1
  have hin : ∀ p, Sampled isSqr sq sgn G p → ∃ P ∈ Spec.tors (A := (EC (1 : K) 0).Point) r, PtRep p P := fun p hp => by
    obtain ⟨P, h1, h2⟩ := Setup.C120_typeA h hb hi hp
    exact ⟨P, h2, h1⟩
  obtain ⟨hbl, hc⟩ := PairingA.C80_typeA h
  refine works_of hs.ha hs.ha hb.two hb.two _ _ hin hin (PairingA.eA r pr.h) h.prime.ne_zero
    (fun P hP Q hQ => hbl.root P Q hP hQ) (fun P hP P' hP' Q hQ => hbl.add_left P P' Q hP hP' hQ)
    (fun P hP Q hQ Q' hQ' => hbl.add_right P Q Q' hP hQ hQ') fun P hP Q hQ p q hp hq => ?_
  obtain ⟨g, hg, e, -⟩ := hc P Q p q hp hq hP hQ
  exact ⟨g, e, hg⟩

/-- Type E: a pairing that is set up works, unless the point `R` found then has an order dividing `2 r`. -/
theorem typeE_works {q r s exp2 exp1 : ℕ} {sign1 sign0 : ℤ} (h : Spec.TypeE K q r exp2 exp1 sign1 sign0)
    (n : PairingE.Numbers q r s) (h3 : (3 : K) ≠ 0) (hb : Base isSqr sq) {R d : Pt K}
    (hi : Setup.typeE isSqr sq 0 1 r (3 * s ^ 2) draws = some (G, R)) (hd : scalar 0 R (2 * r) = some d)
    (h0 : d.inf = false) {miller : PairingE.Data K → Pt K → Pt K → Pt K → Option K} (hm : PairingE.Routine miller) :
    Works (ops (Sampled isSqr sq sgn G) G.a) (ops (Sampled isSqr sq sgn G) G.a)
      (PairingF.apply (PairingE.pairing miller (PairingE.init q r 0 exp2 exp1 sign1 sign0 R))) id r ∧
    ∀ p, Made (Sampled isSqr sq sgn G) G.a p → p.inf = false → ∃ Q : (EC (0 : K) 1).Point, r • Q = 0 ∧ ∀ q', PtRep q' Q →
      ∃ v, PairingF.apply (PairingE.pairing miller (PairingE.init q r 0 exp2 exp1 sign1 sign0 R)) p q' = some v ∧ v ≠ 1 := by
  obtain ⟨G', e, h'⟩ := Option.map_eq_some_iff.1 hi
  obtain ⟨rfl, rfl⟩ := Prod.mk.inj h'
  have hD : 4 * (0 : K) ^ 3 + 27 * 1 ^ 2 ≠ 0 := by
    rw [show 4 * (0 : K) ^ 3 + 27 * 1 ^ 2 = 3 ^ 3 by norm_num]
    exact pow_ne_zero 3 h3
  have hs := (Setup.initCurve_sound hb hD e).1
  have hin : ∀ p, Sampled isSqr sq sgn G' p → ∃ P ∈ Spec.tors (A := (EC (0 : K) 1).Point) r, PtRep p P := fun p hp => by
    obtain ⟨P, h1, h2⟩ := Setup.C120_typeE h n h3 hb hi hp
    exact ⟨P, h2, h1⟩
  obtain ⟨R, hR, -, -⟩ := hs.gen
  have hshift : Spec.GoodShift r R := fun hc => by
    obtain ⟨d', e', hd'⟩ := scalar_spec hb.two hR (2 * r)
    obtain rfl := Option.some.inj (hd.symm.trans e')
    have := (rep_inf hd').2 (by rw [mul_smul, smul_comm, two_smul, hc])
    rw [h0] at this
    cases this
  obtain ⟨hbl, hc⟩ := PairingE.C93_typeE h hshift hR
  constructor
  · exact works_of hs.ha hs.ha hb.two hb.two _ _ hin hin (fun P Q => PairingE.eE q r R P Q) h.prime.ne_zero
      (fun P hP Q hQ => hbl.root P Q hP hQ) (fun P hP P' hP' Q hQ => hbl.add_left P P' Q hP hP' hQ)
      (fun P hP Q hQ Q' hQ' => hbl.add_right P Q Q' hP hQ hQ') fun P hP Q hQ p q hp hq =>
        ⟨_, hc miller hm P Q p q hp hq hP hQ, rfl⟩
  · intro p hp hp0
    obtain ⟨P, hP, hp'⟩ := made_mem' hs.ha hb.two _ hin hp
    exact PairingE.C107_typeE h n hshift hR hm hp' (fun hc => by rw [(rep_inf hp').2 hc] at hp0; cases hp0) hP

end pairings

/-! ### From the generation of parameters on -/

section generated

variable {pp : ℤ → Bool} {rand : ℕ → ℕ} {mrand : ℕ → ℕ → ℕ} {fuel rbits : ℕ} {qbits : ℤ} {res : ParamGen.Result}

theorem sane_of {try_ : ℤ → ℕ → ℤ × ℤ} {k c : ℕ} (hb : rbits < 2 ^ 31)
    (h : ParamGen.genLoop pp try_ rbits rand fuel k c = some res) :
    ∀ z ∈ [(res.exp2 : ℤ), res.exp1, res.sign1, res.sign0], -(2 ^ 31) ≤ z ∧ z < 2 ^ 31 := by
  obtain ⟨hs, -, he, -⟩ := ParamGen.genLoop_spec _ _ _ h
  have h1 := hs.e2
  have h2 : res.exp2 ≤ rbits := by rw [he]; split_ifs <;> omega
  intro z hz
  simp only [List.mem_cons, List.not_mem_nil, or_false] at hz
  rcases hz with rfl | rfl | rfl | rfl
  · constructor <;> omega
  · constructor <;> omega
  · rcases hs.s1 with e | e <;> rw [e] <;> norm_num
  · rcases hs.s0 with e | e <;> rw [e] <;> norm_num

/-- The text written for the parameters `p`, read back with anything behind it, gives `p'`. -/
def Survives (p p' : Param.Par) : Prop :=
  ∃ s, Param.outStr p = some s ∧ ∀ junk, Param.pairingInit (s ++ '\x00' :: junk) 0 = some (some (0, some p'))

theorem survives {p : Param.Par} (hs : Param.Sane p) (hd : Param.coeffs p = []) : Survives p p := by
  obtain ⟨s, h1, -⟩ := Param.C106_round_trip_partial hs (by rw [hd]; simp) []
  refine ⟨s, h1, fun junk => ?_⟩
  obtain ⟨s', h1', -, -, h2, -⟩ := Param.C106_round_trip_partial hs (by rw [hd]; simp) junk
  rw [Option.some.inj (h1.symm.trans h1')]
  exact h2

/-- **C121** for type A: the parameters that are generated can be written out and read back, and then every pairing that
`pairing_init` sets up works on all elements that are made; it is not degenerate if `r` does not divide the cofactor. -/
theorem C121_typeA (hs : ParamGen.Sound pp) (hm : ∀ c l, 0 < l → mrand c l < l) (hr : 4 ≤ rbits) (hb : rbits < 2 ^ 31)
    (h : ParamGen.aGen pp rand mrand fuel rbits qbits = some res) :
    Survives (parA res) (.a res.q res.r res.h res.exp2 res.exp1 res.sign1 res.sign0) ∧ ∃ _ : Fact res.q.toNat.Prime,
      ∀ nds nqr, genNqr (fpIsSqr res.q.toNat) nds = some nqr → ∀ draws G,
        Setup.typeA (fpIsSqr res.q.toNat) (fpSqrt res.q.toNat nqr) res.r.toNat res.h.toNat draws = some G → ∀ sgn,
        Works (ops (Sampled (fpIsSqr _) (fpSqrt _ nqr) sgn G) G.a) (ops (Sampled (fpIsSqr _) (fpSqrt _ nqr) sgn G) G.a)
          (PairingA.pairingApply (PairingA.pairingProj (·⁻¹) ⟨res.exp2, res.exp1, res.sign1, res.h.toNat⟩))
          (Quad.alg (-1)) res.r.toNat ∧
        (¬ res.r ∣ res.h → ∀ p q, Made (Sampled (fpIsSqr _) (fpSqrt _ nqr) sgn G) G.a p → Made (Sampled (fpIsSqr _) (fpSqrt _ nqr) sgn G) G.a q →
          (PairingA.pairingApply (PairingA.pairingProj (·⁻¹) ⟨res.exp2, res.exp1, res.sign1, res.h.toNat⟩) p q =
            some PairingA.one2 ↔ p.inf = true ∨ q.inf = true)) := by
  refine ⟨survives (sane_of hb h) rfl, ?_⟩
  obtain ⟨i1, i2, eq, er, ht, -⟩ := ParamGen.C56_typeA_pairing hs hm hr h
  refine ⟨i1, fun nds nqr hn draws G hi sgn => ?_⟩
  have h2 : res.q.toNat ≠ 2 := fun h2 => by
    have := i2.out 1
    have hc : ((2 : ℕ) : ZMod res.q.toNat) = 0 := by rw [← h2]; exact ZMod.natCast_self _
    push_cast at hc
    exact this (by linear_combination hc)
  obtain ⟨hba, -⟩ := fp_base h2 hn
  refine ⟨typeA_works ht hba hi, fun hh p q hp hq => ?_⟩
  have hsd := (Setup.initCurve_sound hba (Setup.typeA_disc hba.two) hi).1
  have hin : ∀ p, Sampled (fpIsSqr _) (fpSqrt _ nqr) sgn G p →
      ∃ P ∈ Spec.tors (A := (EC (1 : ZMod res.q.toNat) 0).Point) res.r.toNat, PtRep p P := fun p hp => by
    obtain ⟨P, h1, h2⟩ := Setup.C120_typeA ht hba hi hp
    exact ⟨P, h2, h1⟩
  obtain ⟨P, hP, hp⟩ := made_mem' hsd.ha hba.two _ hin hp
  obtain ⟨Q, hQ, hq⟩ := made_mem' hsd.ha hba.two _ hin hq
  refine NonDeg.C107_typeA ht (fun hd => hh ?_) hp hq hP hQ
  have := Int.natCast_dvd_natCast.2 hd
  rw [er] at this
  have hh0 : 0 ≤ res.h := by
    have hn1 : pp (-1) = false := by
      by_contra hc
      exact absurd (hs _ (by simpa using hc)) (by norm_num)
    exact (ParamGen.C56_typeA hm hn1 h).2.2.2.2.1.le
  rwa [Int.toNat_of_nonneg hh0] at this

/-- Type A1 of prime order: every pairing that is set up works. -/
theorem typeA1_works {K : Type*} [Field K] [DecidableEq K] [Fintype K] {isSqr : K → Bool} {sq : K → K} {sgn : K → ℤ}
    {G : Setup.Group K} {draws : List K} [Fact (∀ x : K, x ^ 2 ≠ -1 + 0 * x)] {n l : ℕ} (h : PairingA.TypeA1 K n l)
    (hn : n.Prime) (hb : Base isSqr sq) (hi : Setup.typeA1 isSqr sq n l draws = some G) :
    Works (ops (Sampled isSqr sq sgn G) G.a) (ops (Sampled isSqr sq sgn G) G.a) (PairingA.pairingApply (PairingA.a1PairingProj n l)) (Quad.alg (-1 : K))
      n := by
  obtain ⟨G', e, e'⟩ := Option.map_eq_some_iff.1 hi
  have ha : G.a = 1 := by
    rw [← e']; exact (Setup.initCurve_sound hb (Setup.typeA_disc hb.two) e).1.ha
  have hin : ∀ p, Sampled isSqr sq sgn G p → ∃ P ∈ Spec.tors (A := (EC (1 : K) 0).Point) n, PtRep p P := fun p hp => by
    obtain ⟨P, h1, h2⟩ := Setup.C120_typeA1 h hb hi hp
    exact ⟨P, h2, h1⟩
  obtain ⟨hbl, hc⟩ := PairingA.C81_typeA1_partial h
  refine works_of ha ha hb.two hb.two _ _ hin hin (PairingA.eA n l) hn.ne_zero
    (fun P hP Q hQ => hbl.root P Q hP hQ) (fun P hP P' hP' Q hQ => hbl.add_left P P' Q hP hP' hQ)
    (fun P hP Q hQ Q' hQ' => hbl.add_right P Q Q' hP hQ hQ') fun P hP Q hQ p q hp hq => ?_
  obtain ⟨g, hg, e, -⟩ := hc P Q p q hp hq hP hQ fun h0 =>
    PairingA.chain_of_order h.three h.odd ((addOrderOf_eq_prime_iff (hp := ⟨hn⟩)).2 ⟨hP, h0⟩)
  exact ⟨g, e, hg⟩

/-- **C121** for type A1.  If the order is prime, every pairing that is set up works.  If it is not, then all elements made have
an order dividing `n`, and the pairing returns the value of a bilinear map if the first of them is `O` or of order `n`. -/
theorem C121_typeA1_partial (hs : ParamGen.Sound pp) {order : ℕ} (ho : Odd order) (h3 : 3 ≤ order) (hf : fuel < 2 ^ 29)
    {out : ℤ × ℕ} (h : ParamGen.a1Gen pp fuel order = some out) :
    Survives (parA1 order out) (.a1 out.1 order out.2) ∧ ∃ _ : Fact out.1.toNat.Prime, ∃ _ : Fact (∀ x : ZMod out.1.toNat, x ^ 2 ≠ -1 + 0 * x),
      ∀ nds nqr, genNqr (fpIsSqr out.1.toNat) nds = some nqr → ∀ draws G,
        Setup.typeA1 (fpIsSqr out.1.toNat) (fpSqrt out.1.toNat nqr) order out.2 draws = some G → ∀ sgn,
        (order.Prime → Works (ops (Sampled (fpIsSqr _) (fpSqrt _ nqr) sgn G) G.a) (ops (Sampled (fpIsSqr _) (fpSqrt _ nqr) sgn G) G.a)
          (PairingA.pairingApply (PairingA.a1PairingProj order out.2)) (Quad.alg (-1)) order) ∧
        ∃ e : (EC (1 : ZMod out.1.toNat) 0).Point → (EC (1 : ZMod out.1.toNat) 0).Point → QuadraticAlgebra (ZMod out.1.toNat) (-1) 0,
          Spec.Bilinear order e ∧ ∀ p q, Made (Sampled (fpIsSqr _) (fpSqrt _ nqr) sgn G) G.a p → Made (Sampled (fpIsSqr _) (fpSqrt _ nqr) sgn G) G.a q →
            ∃ P Q, PtRep p P ∧ PtRep q Q ∧ order • P = 0 ∧ order • Q = 0 ∧ (P = 0 ∨ addOrderOf P = order →
              ∃ g, PairingA.pairingApply (PairingA.a1PairingProj order out.2) p q = some g ∧ Quad.alg (-1) g = e P Q) := by
  refine ⟨survives ?_ rfl, ?_⟩
  · obtain ⟨-, ⟨i, h1, h2, -, h4⟩, -⟩ := ParamGen.C56_typeA1 h
    rw [parA1, Param.Sane]
    constructor <;> omega
  obtain ⟨i1, i2, eq, ht, -⟩ := ParamGen.C56_typeA1_pairing hs ho h3 (by omega) h
  refine ⟨i1, i2, fun nds nqr hn draws G hi sgn => ?_⟩
  have h2 : out.1.toNat ≠ 2 := fun h2 => by
    have := i2.out 1
    have hc : ((2 : ℕ) : ZMod out.1.toNat) = 0 := by rw [← h2]; exact ZMod.natCast_self _
    push_cast at hc
    exact this (by linear_combination hc)
  obtain ⟨hba, -⟩ := fp_base h2 hn
  refine ⟨fun hp => typeA1_works ht hp hba hi, PairingA.eA order out.2, (PairingA.C81_typeA1_partial ht).1, ?_⟩
  intro p q hp hq
  obtain ⟨G', e, e'⟩ := Option.map_eq_some_iff.1 hi
  have ha : G.a = 1 := by
    rw [← e']; exact (Setup.initCurve_sound hba (Setup.typeA_disc hba.two) e).1.ha
  have hin : ∀ p, Sampled (fpIsSqr _) (fpSqrt _ nqr) sgn G p →
      ∃ P ∈ Spec.tors (A := (EC (1 : ZMod out.1.toNat) 0).Point) order, PtRep p P := fun p hp => by
    obtain ⟨P, h1, h2⟩ := Setup.C120_typeA1 ht hba hi hp
    exact ⟨P, h2, h1⟩
  obtain ⟨P, hP, hp⟩ := made_mem' ha hba.two _ hin hp
  obtain ⟨Q, hQ, hq⟩ := made_mem' ha hba.two _ hin hq
  refine ⟨P, Q, hp, hq, hP, hQ, fun h => ?_⟩
  obtain ⟨g, hg, e, -⟩ := (PairingA.C81_typeA1_partial ht).2 P Q p q hp hq hP hQ fun h0 =>
    PairingA.chain_of_order ht.three ht.odd (h.resolve_left h0)
  exact ⟨g, e, hg⟩

/-- **C121** for type E: the curve found for generated parameters is `y² = x³ + 1`; the parameters can be written out and read
back; and every pairing that is set up works, and is not degenerate, unless `2 r` kills the point `R` found then. -/
theorem C121_typeE (hs : ParamGen.Sound pp) (hm : ∀ c l, 0 < l → mrand c l < l) (hr : 4 ≤ rbits) (hb : rbits < 2 ^ 31)
    (h : ParamGen.eGen pp rand mrand fuel rbits qbits = some res) (hh : ¬ res.r ∣ res.h) :
    ∃ _ : Fact res.q.toNat.Prime, ∀ nds nqr, genNqr (fpIsSqr res.q.toNat) nds = some nqr → ∀ cds x a b,
      CmGen.eCurve (fpIsSqr res.q.toNat) (fpSqrt res.q.toNat nqr) nqr (res.h * res.r ^ 2).toNat cds x = some (a, b) →
      Survives (parE res a.val b.val) (.e res.q res.r res.h a.val b.val res.exp2 res.exp1 res.sign1 res.sign0) ∧ ∀ draws G R,
        Setup.typeE (fpIsSqr res.q.toNat) (fpSqrt res.q.toNat nqr) a b res.r.toNat res.h.toNat draws = some (G, R) →
        ∀ d, scalar a R (2 * res.r.toNat) = some d → d.inf = false → ∀ miller, PairingE.Routine miller → ∀ sgn,
        Works (ops (Sampled (fpIsSqr _) (fpSqrt _ nqr) sgn G) G.a) (ops (Sampled (fpIsSqr _) (fpSqrt _ nqr) sgn G) G.a)
          (PairingF.apply (PairingE.pairing miller (PairingE.init res.q.toNat res.r.toNat a res.exp2 res.exp1 res.sign1 res.sign0 R)))
          id res.r.toNat ∧
        ∀ p, Made (Sampled (fpIsSqr _) (fpSqrt _ nqr) sgn G) G.a p → p.inf = false →
          ∃ Q : (EC a b).Point, res.r.toNat • Q = 0 ∧ ∀ q', PtRep q' Q → ∃ v,
            PairingF.apply (PairingE.pairing miller
              (PairingE.init res.q.toNat res.r.toNat a res.exp2 res.exp1 res.sign1 res.sign0 R)) p q' = some v ∧ v ≠ 1 := by
  have hp1 : pp 1 = false := by
    by_contra hc
    exact absurd (hs _ (by simpa using hc)) (by norm_num)
  obtain ⟨hsol, hlen, hq, ⟨s, hs0, hh', -⟩, hpr, hpq⟩ := ParamGen.C56_typeE hm hp1 h
  have p8 := pow_le_pow_right₀ (show (1 : ℤ) ≤ 2 by norm_num) (show 3 ≤ rbits - 1 by omega)
  have hr7 : 7 ≤ res.r := le_trans (by linarith) hlen.1
  have hh0 : 0 < res.h := by rw [hh']; positivity
  have hq0 : 0 ≤ res.q := by rw [hq]; positivity
  have eq : (res.q.toNat : ℤ) = res.q := Int.toNat_of_nonneg hq0
  have er : (res.r.toNat : ℤ) = res.r := Int.toNat_of_nonneg (by omega)
  have eh : res.h.toNat = 3 * s ^ 2 := by zify; rw [Int.toNat_of_nonneg hh0.le, hh']
  have pq : res.q.toNat.Prime := by
    have := hs _ hpq
    rwa [show res.q.natAbs = res.q.toNat by omega] at this
  have pr : res.r.toNat.Prime := by
    have := hs _ hpr
    rwa [show res.r.natAbs = res.r.toNat by omega] at this
  have hqs : res.q.toNat = 3 * (s * res.r.toNat) ^ 2 + 1 := by
    zify; rw [eq, er, hq, hh']; ring
  have hbig : 3 < res.q.toNat := by
    rw [hqs]
    have : 0 < s * res.r.toNat := Nat.mul_pos hs0 pr.pos
    nlinarith
  refine ⟨⟨pq⟩, fun nds nqr hn cds x a b hc => ?_⟩
  have : Fact res.q.toNat.Prime := ⟨pq⟩
  obtain ⟨hba, -⟩ := fp_base (by omega) hn
  obtain ⟨⟨rfl, rfl⟩, -⟩ := Props.C113_typeE hs hm h (by rw [ZMod.card, eq]) fpIsSqr_iff
    (fun u hu => hba.root u ((fpIsSqr_iff u).2 hu)) nqr cds x a b hc
  refine ⟨survives (sane_of hb h) rfl, fun draws G R hi d hd hd0 miller hmi sgn => ?_⟩
  have h3 : (3 : ZMod res.q.toNat) ≠ 0 := fun h0 => by
    have : ((3 : ℕ) : ZMod res.q.toNat) = 0 := by exact_mod_cast h0
    rw [ZMod.natCast_eq_zero_iff] at this
    exact absurd (Nat.le_of_dvd (by norm_num) this) (by omega)
  have hE : Spec.TypeE (ZMod res.q.toNat) res.q.toNat res.r.toNat res.exp2 res.exp1 res.sign1 res.sign0 :=
    { card := ZMod.card _
      two := hba.two
      prime := pr
      dvd := by rw [hqs, Nat.add_sub_cancel]; exact ⟨3 * s ^ 2 * res.r.toNat, by ring⟩
      pos := hsol.e1
      lt := hsol.e2
      s1 := hsol.s1
      s0 := hsol.s0
      hr := by rw [er, hsol.r]
      big := by omega }
  have hN : PairingE.Numbers res.q.toNat res.r.toNat s := ⟨pq, hqs, fun hd => hh (by
    rw [hh', ← er]
    exact Dvd.dvd.mul_left (dvd_pow (Int.natCast_dvd_natCast.2 hd) two_ne_zero) _)⟩
  rw [eh] at hi
  exact typeE_works hE hN h3 hba hi hd hd0 hmi

end generated

/-! ### Signatures -/

section bls

variable {P Q L M : Type*} [DecidableEq L] [Field M] {G₁ : Spec.Ops P} {G₂ : Spec.Ops Q} {e : P → Q → Option L} {val : L → M}
  {r : ℕ}

/-- **C121**, signatures: keys and signatures are computed, and a signature made with the secret key is accepted. -/
theorem C121_bls (h : Works G₁ G₂ e val r) (hv : Function.Injective val) {g : Q} {m : P} (hg : G₂.made g) (hm : G₁.made m)
    (x : ℕ) : ∃ pk sig, blsPublic G₂ x g = some pk ∧ blsSign G₁ x m = some sig ∧ blsVerify e g pk m sig = some true := by
  obtain ⟨pk, h1, h2⟩ := h.closed₂.pow g x hg
  obtain ⟨sig, h3, h4⟩ := h.closed₁.pow m x hm
  obtain ⟨t0, e0, -⟩ := h.defined m g hm hg
  obtain ⟨t1, e1, -⟩ := h.defined sig g h4 hg
  obtain ⟨t2, e2, -⟩ := h.defined m pk hm h2
  refine ⟨pk, sig, h1, h3, ?_⟩
  rw [blsVerify, e1, e2]
  simp only [Option.some.injEq, decide_eq_true_eq]
  exact hv ((h.pow₁ m g x sig t0 t1 hm hg h3 e0 e1).trans (h.pow₂ m g x pk t0 t2 hm hg h1 e0 e2).symm)

/-- **C121**, signatures: if the pairing is 1 only when one of its arguments is the neutral element, then no element but the
signature is accepted: the quotient of the two is the neutral element. -/
theorem C121_bls_unique (h : Works G₁ G₂ e val r) {one : L} (h1 : val one = 1) (hv : Function.Injective val)
    {z₁ : P → Prop} {z₂ : Q → Prop} (hnd : ∀ p q, G₁.made p → G₂.made q → e p q = some one → z₁ p ∨ z₂ q)
    {g pk : Q} {m sig sig' : P} (hg : G₂.made g) (hz : ¬ z₂ g) (hm : G₁.made m) (hs : G₁.made sig') {x : ℕ}
    (hp : blsPublic G₂ x g = some pk) (hx : blsSign G₁ x m = some sig) (ha : blsVerify e g pk m sig' = some true) :
    ∃ i d, G₁.inv sig = some i ∧ G₁.mul sig' i = some d ∧ z₁ d := by
  obtain ⟨pk', e1, m1⟩ := h.closed₂.pow g x hg
  obtain rfl := Option.some.inj (hp.symm.trans e1)
  obtain ⟨s', e2, m2⟩ := h.closed₁.pow m x hm
  obtain rfl := Option.some.inj (hx.symm.trans e2)
  obtain ⟨i, e3, m3⟩ := h.closed₁.inv sig m2
  obtain ⟨d, e4, m4⟩ := h.closed₁.mul sig' i hs m3
  refine ⟨i, d, e3, e4, ?_⟩
  obtain ⟨t0, f0, -⟩ := h.defined m g hm hg
  obtain ⟨t1, f1, -⟩ := h.defined sig' g hs hg
  obtain ⟨t2, f2, -⟩ := h.defined m pk hm m1
  obtain ⟨t3, f3, -⟩ := h.defined sig g m2 hg
  obtain ⟨t4, f4, -⟩ := h.defined i g m3 hg
  obtain ⟨t5, f5, -⟩ := h.defined d g m4 hg
  rw [blsVerify, f1, f2] at ha
  simp only [Option.some.injEq, decide_eq_true_eq] at ha
  have k1 := h.pow₁ m g x sig t0 t3 hm hg hx f0 f3
  have k2 := h.pow₂ m g x pk t0 t2 hm hg hp f0 f2
  have k3 := h.inv₁ sig g i t3 t4 m2 hg e3 f3 f4
  have k4 := h.mul₁ sig' i g d t1 t4 t5 hs m3 hg e4 f1 f4 f5
  have : val t5 = val one := by rw [k4, ha, k2, ← k1, mul_comm, k3, h1]
  exact (hnd d g m4 hg (by rw [f5, hv this])).resolve_right hz

end bls

end Pbc.Session
