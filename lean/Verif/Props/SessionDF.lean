import Verif.Props.Session
import Verif.Props.NonDegFGen
import Verif.Props.TwistOrder
import Verif.Props.Quadratic

/-! # C121: from generating parameters to computing pairings, types D and F -/

set_option autoImplicit false
set_option linter.unusedSectionVars false

namespace Pbc.Session

open Pbc.Curve (Pt addV fresh)
open Pbc.CmGen (scalar genNqr)
open Pbc.Setup (Sampled SampledAvoiding Avoids Base Complete Sound)
open Pbc.PairingF (TypeF nalpha)
open Props (scalar_spec rep_inf)
open WeierstrassCurve WeierstrassCurve.Affine
open Spec (EC PtRep Works)

section D

variable {F K : Type*} [Field F] [DecidableEq F] [Fintype F] [Field K] [DecidableEq K] [Fintype K] [Algebra F K]
  {isSqr₁ : F → Bool} {sq₁ : F → F} {sgn₁ : F → ℤ} {isSqr₂ : K → Bool} {sq₂ : K → K} {sgn₂ : K → ℤ}
  {G₁ : Setup.Group F} {G₂ : Setup.Group K} {draws : List F} {draws₂ draws' : List K}

local notation "φ" => algebraMap F K

/-- **C121** for type D: every pairing that is set up works and is not degenerate, if the curve has `h r` points, as it has
for generated parameters (C111).  Missing: that the generator finds a curve with that many points rests on a hypothesis in
C111, so this is stated for given parameters. -/
theorem C121_typeD_partial {E : PairingD.Ext F K} {ξ : K} {q k r h n d : ℕ} {a b v : F}
    [Fact (∀ s : K, s ^ 2 ≠ algebraMap F K v + 0 * s)] (ht : PairingD.TypeD E ξ q k r) (h3 : (3 : F) ≠ 0)
    (hQ : 61 < q ^ E.d) (hD : 4 * a ^ 3 + 27 * b ^ 2 ≠ 0) (hn : Nat.card (EC a b).Point = h * r)
    (hb₁ : Base isSqr₁ sq₁) (hb₂ : Base isSqr₂ sq₂) (hi₁ : Setup.typeD1 isSqr₁ sq₁ a b r h draws = some G₁)
    (hi₂ : Setup.typeD2 isSqr₂ sq₂ E q n r d a b v draws₂ draws' = some G₂) :
    ∃ p, PairingD.initD E q k r a b v = some p ∧
      Works (ops (Sampled isSqr₁ sq₁ sgn₁ G₁) G₁.a) (ops (Sampled isSqr₂ sq₂ sgn₂ G₂) G₂.a)
        (PairingD.apply (PairingD.pairing p PairingD.millerAffine PairingD.tatepowerD)) (Quad.alg (φ v)) r ∧
      r ∣ Nat.card (EC (φ v ^ 2 * φ a) (φ v ^ 3 * φ b)).Point ∧
      ∀ p', Made (Sampled isSqr₁ sq₁ sgn₁ G₁) G₁.a p' → p'.inf = false →
        ∃ Q : (EC (φ v ^ 2 * φ a) (φ v ^ 3 * φ b)).Point, ∀ q', PtRep q' Q →
          ∃ g, PairingD.apply (PairingD.pairing p PairingD.millerAffine PairingD.tatepowerD) p' q' = some g ∧
            g ≠ PairingD.one2 := by
  have hv : φ v ≠ 0 := fun h0 => by
    have := Fact.out (p := ∀ s : K, s ^ 2 ≠ algebraMap F K v + 0 * s) 0
    rw [h0] at this
    exact this (by ring)
  obtain ⟨p, e, hpair, hval⟩ := NonDeg.C88_typeD_all (a := a) (b := b) (v0 := v) ht h3 hQ
  have hs₁ := (Setup.initCurve_sound hb₁ hD hi₁).1
  have hs₂ := (Setup.typeD2_sound ht.ok hv hD hb₂ hi₂).1
  have hin : ∀ p, Sampled isSqr₁ sq₁ sgn₁ G₁ p → ∃ P ∈ Spec.tors (A := (EC a b).Point) r, PtRep p P := fun p hp => by
    obtain ⟨P, h1, h2⟩ := Setup.C120_typeD hD hn hb₁ hi₁ hp
    exact ⟨P, h2, h1⟩
  refine ⟨p, e, works_of hs₁.ha hs₂.ha hb₁.two hb₂.two (Spec.tors (A := (EC a b).Point) r)
    (⊤ : AddSubgroup (EC (φ v ^ 2 * φ a) (φ v ^ 3 * φ b)).Point) hin (fun p hp => ?_)
    (fun P Q => PairingD.eD (K := K) v r ((q ^ E.d + 1) / r) P Q) ht.prime.ne_zero
    (fun P hP Q _ => hpair.root P Q hP) (fun P hP P' hP' Q _ => hpair.add_left P P' Q hP hP')
    (fun P hP Q _ Q' _ => hpair.add_right P Q Q' hP) (fun P hP Q _ p' q' hp hq => hval P Q p' q' hp hq hP),
    NonDeg.C107_typeD_twist ht h3 hD hQ (hn ▸ dvd_mul_left _ _), fun p' hp' hinf => ?_⟩
  · obtain ⟨P, h1⟩ := hs₂.sampled hb₂ (Setup.twist_disc hv hD) hp
    exact ⟨_, AddSubgroup.mem_top _, h1⟩
  · obtain ⟨P, hP, hr⟩ := made_mem' hs₁.ha hb₁.two _ hin hp'
    exact NonDeg.C107_typeD ht e h3 hD hQ hr (fun h0 => by
      rw [(rep_inf hr).2 h0] at hinf
      cases hinf) hP

end D

section F

variable {F K L : Type*} [Field F] [DecidableEq F] [Fintype F] [Field K] [DecidableEq K] [Fintype K] [Algebra F K]
  [Field L] [DecidableEq L] [Fintype L] [Algebra K L]
  {isSqr₁ : F → Bool} {sq₁ : F → F} {sgn₁ : F → ℤ} {isSqr₂ : K → Bool} {sq₂ : K → K} {sgn₂ : K → ℤ}
  {G₁ : Setup.Group F} {G₂ : Setup.Group K} {draws : List F} {draws₂ : List K}
  {E2 : PairingD.Ext F K} {E12 : PairingD.Ext K L} {η : K} {ξ : L} {q r : ℕ} {b alpha0 alpha1 : F} {x : ℤ}

local notation "φ" => algebraMap F K

/-- Type F: every pairing that is set up works, on elements sampled without taking the square root of a bad element, and it is
not degenerate. -/
theorem typeF_works (ht : TypeF E2 E12 η ξ q r alpha0 alpha1)
    (hf : NonDeg.Family x q r b (nalpha η alpha0 alpha1 * φ b)) (hb₁ : Base isSqr₁ sq₁) {bad : K → Bool}
    (hb₂ : Base (fun u => isSqr₂ u && !bad u) sq₂) (ha : Avoids bad 0 (nalpha η alpha0 alpha1 * φ b) draws₂)
    (hi₁ : Setup.typeF1 isSqr₁ sq₁ b r draws = some G₁)
    (hi₂ : Setup.typeF2 isSqr₂ sq₂ E2 q r b alpha0 alpha1 draws₂ = some G₂) :
    ∃ p, PairingF.init E2 E12 q r b alpha0 alpha1 = some p ∧
      Works (ops (Sampled isSqr₁ sq₁ sgn₁ G₁) G₁.a) (ops (SampledAvoiding bad isSqr₂ sq₂ sgn₂ G₂) G₂.a)
        (PairingF.apply (PairingF.pairing p)) id r ∧
      ∀ p', Made (Sampled isSqr₁ sq₁ sgn₁ G₁) G₁.a p' →
        ∀ (Q : (EC 0 (nalpha η alpha0 alpha1 * φ b)).Point) q', PtRep q' Q → r • Q = 0 →
          (PairingF.apply (PairingF.pairing p) p' q' = some 1 ↔ p'.inf = true ∨ q'.inf = true) := by
  letI : Algebra F L := ((algebraMap K L).comp (algebraMap F K)).toAlgebra
  have : IsScalarTower F K L := IsScalarTower.of_algebraMap_eq fun _ => rfl
  have h3 : (3 : F) ≠ 0 := Tate.three_ne_of (by rw [ht.cardF]; simpa using ht.six_dvd 1)
  obtain ⟨p, e, -, -, hpair, hval⟩ := PairingF.C90_typeF (b := b) ht
  have hD : 4 * (0 : F) ^ 3 + 27 * b ^ 2 ≠ 0 := Props.disc_b h3 hf.hb
  have hs₁ := (Setup.initCurve_sound hb₁ hD hi₁).1
  have hi₂' : Setup.typeF2 (fun u => isSqr₂ u && !bad u) sq₂ E2 q r b alpha0 alpha1 draws₂ = some G₂ := by
    rw [← hi₂]
    unfold Setup.typeF2 Setup.initCurve Setup.generators
    dsimp only
    rw [Setup.typeF2_bt ht, Setup.noCofac_guard ha]
  have hs₂ := (Setup.typeF2_sound ht hf.hb hb₂ hi₂').1
  have hin : ∀ p, Sampled isSqr₁ sq₁ sgn₁ G₁ p → ∃ P ∈ Spec.tors (A := (EC 0 b).Point) r, PtRep p P := fun p hp => by
    obtain ⟨P, h1, h2⟩ := Setup.C120_typeF h3 hf.hb hf.card hb₁ hi₁ hp
    exact ⟨P, h2, h1⟩
  refine ⟨p, e, works_of hs₁.ha hs₂.ha hb₁.two hb₂.two (Spec.tors (A := (EC 0 b).Point) r)
    (⊤ : AddSubgroup (EC 0 (nalpha η alpha0 alpha1 * φ b)).Point) hin (fun p hp => ?_)
    (fun P Q => PairingF.eF ht P Q) ht.prime.ne_zero
    (fun P hP Q _ => hpair.root P Q hP) (fun P hP P' hP' Q _ => hpair.add_left P P' Q hP hP')
    (fun P hP Q _ Q' _ => hpair.add_right P Q Q' hP) (fun P hP Q _ p' q' hp hq => ⟨_, hval P Q p' q' hp hq hP, rfl⟩), ?_⟩
  · obtain ⟨P, h1⟩ := hs₂.sampled hb₂ (Setup.typeF2_disc ht hf.hb) hp.guard
    exact ⟨_, AddSubgroup.mem_top _, h1⟩
  · intro p' hp' Q q' hq hQ
    obtain ⟨P, -, hp⟩ := made_mem' hs₁.ha hb₁.two _ hin hp'
    exact NonDeg.C107_typeF ht e hf hp hq hQ

end F

/-! ### Generated parameters of type F -/

section generated

variable {q : ℕ} [hq : Fact q.Prime] {nqr : ZMod q}

theorem nonsquare (h : ¬ IsSquare nqr) : Fact (∀ s : ZMod q, s ^ 2 ≠ nqr + 0 * s) :=
  ⟨fun s hs => h ⟨s, by rw [← sq, hs]; ring⟩⟩

instance quadFintype : Fintype (Fq2 q nqr) :=
  Fintype.ofEquiv (ZMod q × ZMod q) (QuadraticAlgebra.equivProd nqr 0).symm

theorem card_quad : Fintype.card (Fq2 q nqr) = q ^ 2 := by
  rw [Fintype.ofEquiv_card, Fintype.card_prod, ZMod.card, sq]

theorem ext2_ok [Fact (∀ s : ZMod q, s ^ 2 ≠ nqr + 0 * s)] : (ext2 q nqr).Ok (⟨0, 1⟩ : Fq2 q nqr) where
  pos := Nat.zero_lt_two
  make g := by ext <;> simp [ext2, Finset.sum_range_succ]
  item x := by ext <;> simp [ext2, Finset.sum_range_succ]

theorem quad_eq (a : Fq2 q nqr) :
    algebraMap (ZMod q) (Fq2 q nqr) a.re +
      algebraMap (ZMod q) (Fq2 q nqr) a.im * ⟨0, 1⟩ = a := by
  ext <;> simp

theorem inBase_iff (a : Fq2 q nqr) :
    inBase a = true ↔ a ∈ Set.range (algebraMap (ZMod q) (Fq2 q nqr)) := by
  rw [inBase, decide_eq_true_eq]
  constructor
  · intro h
    exact ⟨a.re, by ext <;> simp [h]⟩
  · rintro ⟨c, rfl⟩
    simp

theorem fqIsSqr_iff (h : ¬ IsSquare nqr) (a : Fq2 q nqr) : fqIsSqr q nqr a = true ↔ IsSquare a :=
  Props.C26_is_sqr h (fpIsSqr q) fpIsSqr_iff ⟨a.re, a.im⟩

theorem fqSqrt_spec (h2 : q ≠ 2) {nds : List (ZMod q)} (hn : genNqr (fpIsSqr q) nds = some nqr)
    (a : Fq2 q nqr) (ha : IsSquare a) (hb : a.im ≠ 0) : fqSqrt q nqr a ^ 2 = a := by
  have h : ¬ IsSquare nqr := Props.C112_beta fpIsSqr_iff nds nqr hn
  obtain ⟨hba, -⟩ := fp_base h2 hn
  obtain ⟨m, e, hm, -⟩ := Props.C26_sqrt_partial h hba.two (fpIsSqr q) (fpSqrt q nqr) fpIsSqr_iff
    (fun u hu => hba.root u ((fpIsSqr_iff u).2 hu)) (fun _ => ⟨a.re, a.im⟩) 0 1 ha (.inl hb)
  rw [fqSqrt, e]
  exact hm

theorem fq_base (h2 : q ≠ 2) {nds : List (ZMod q)} (hn : genNqr (fpIsSqr q) nds = some nqr) 
    [Fact (∀ s : ZMod q, s ^ 2 ≠ nqr + 0 * s)] :
    Base (fun u => fqIsSqr q nqr u && !inBase u) (fqSqrt q nqr) := by
  have h : ¬ IsSquare nqr := Props.C112_beta fpIsSqr_iff nds nqr hn
  obtain ⟨hba, -⟩ := fp_base h2 hn
  refine ⟨fun h0 => hba.two ?_, fun a ha => ?_⟩
  · refine (map_eq_zero (algebraMap (ZMod q) (Fq2 q nqr))).1 ?_
    rw [map_ofNat]
    exact h0
  · rw [Bool.and_eq_true, fqIsSqr_iff h, Bool.not_eq_true', inBase, decide_eq_false_iff_not] at ha
    exact fqSqrt_spec h2 hn a ha.1 ha.2

theorem nalpha_quad [Fact (∀ s : ZMod q, s ^ 2 ≠ nqr + 0 * s)] (a : Fq2 q nqr) : nalpha (⟨0, 1⟩ : Fq2 q nqr) a.re a.im = -a := by
  rw [nalpha, quad_eq]

theorem typeF_of [Fact (∀ s : ZMod q, s ^ 2 ≠ nqr + 0 * s)] {r : ℕ} {x : ℤ} (hx : x ≠ 0) (eq : (q : ℤ) = Tate.bnQ x)
    (er : (r : ℤ) = Tate.bnR x) (pr : r.Prime) {b : ZMod q} (hb0 : b ≠ 0) (hN : Nat.card (EC 0 b).Point = r)
    {α' : Fq2 q nqr} (hT : r ∣ Nat.card (EC 0 (-(algebraMap (ZMod q) (Fq2 q nqr) b * α'))).Point)
    {L : Type} [Field L] [DecidableEq L] [Fintype L] [Algebra (Fq2 q nqr) L] {E12 : PairingD.Ext (Fq2 q nqr) L} {ξ : L}
    (hok : E12.Ok ξ) (hd : E12.d = 6) (hcL : Fintype.card L = q ^ 12) (hξ : ξ ^ 6 + algebraMap _ L α' = 0) :
    TypeF (ext2 q nqr) E12 (⟨0, 1⟩ : Fq2 q nqr) ξ q r α'.re α'.im ∧
      NonDeg.Family x q r b (nalpha (⟨0, 1⟩ : Fq2 q nqr) α'.re α'.im * algebraMap _ _ b) := by
  have hq19 := Tate.bnQ_ge hx
  refine ⟨{ ok2 := ext2_ok, d2 := rfl, ok12 := hok, d12 := hd, cardF := ZMod.card _, cardK := card_quad, cardL := hcL
            six := by
              have := Tate.bn_six eq
              omega
            root := by rw [quad_eq]; exact hξ
            prime := pr
            dvd := by
              have h1 : q ^ 2 ≤ q ^ 4 := Nat.pow_le_pow_right hq.out.pos (by norm_num)
              have := NonDeg.bn_dvd x
              rw [← eq, ← er] at this
              zify [h1]
              exact this }, ⟨hx, eq, er, hb0, hN, ?_⟩⟩
  rw [nalpha_quad, show -α' * algebraMap (ZMod q) (Fq2 q nqr) b = -(algebraMap (ZMod q) (Fq2 q nqr) b * α') by ring]
  exact hT

variable {pp : ℤ → Bool} {fuel : ℕ} {bits : ℤ} {out : ParamGen.BN}

theorem bn_data (hs : ParamGen.Sound pp) (h : ParamGen.fGen pp fuel bits = some out) :
    ∃ x : ℤ, x ≠ 0 ∧ (out.q.toNat : ℤ) = out.q ∧ (out.r.toNat : ℤ) = out.r ∧ out.q = Tate.bnQ x ∧ out.r = Tate.bnR x ∧
      out.q.toNat.Prime ∧ out.r.toNat.Prime ∧ out.q.toNat ≠ 2 := by
  obtain ⟨hpq, hpr, -⟩ := ParamGen.C56_typeF h
  obtain ⟨x, hx, e1, e2, e3⟩ := Props.bn_of_fGen h
  have hq19 := Tate.bnQ_ge hx
  have eq : (out.q.toNat : ℤ) = out.q := Int.toNat_of_nonneg (by omega)
  have hr0 : 0 ≤ out.r := by
    rw [e2, Tate.bnR]
    nlinarith [sq_nonneg (6 * x ^ 2 + 3 * x), sq_nonneg (3 * x + 1)]
  have er : (out.r.toNat : ℤ) = out.r := Int.toNat_of_nonneg hr0
  refine ⟨x, hx, eq, er, e1, e2, ?_, ?_, by omega⟩
  · have := hs _ hpq
    rwa [show out.q.natAbs = out.q.toNat by omega] at this
  · have := hs _ hpr
    rwa [show out.r.natAbs = out.r.toNat by omega] at this

/-- **C121** for type F: if no coefficient drawn is 0, no point drawn is `O`, no square root of an element of the base field is
taken and no good twist is missed, then the parameters that are generated can be written out and read back, and every pairing
that is set up with them works and is not degenerate.  What is missing: the square roots of elements of the base field, on
which `element_sqrt` fails (C26), and the draws for which C112 fails. -/
theorem C121_typeF_partial (hs : ParamGen.Sound pp) (h : ParamGen.fGen pp fuel bits = some out) :
    ∃ _ : Fact out.q.toNat.Prime, ∀ nds nqr, genNqr (fpIsSqr out.q.toNat) nds = some nqr →
      ∃ _ : Fact (∀ s : ZMod out.q.toNat, s ^ 2 ≠ nqr + 0 * s),
      ∀ l b, (∀ d ∈ l, d.1 ≠ 0 ∧ ∀ p, CmGen.randomPoint (fpIsSqr _) (fpSqrt _ nqr) 0 d.1 d.2.1 d.2.2 = some p → p.inf = false) →
      CmGen.fCurve (fpIsSqr _) (fpSqrt _ nqr) out.r.toNat l = some b →
      ∀ αs α, CmGen.alphaLoop (out.q.toNat ^ 2) αs = some α → ∀ tds k (α' : Fq2 out.q.toNat nqr),
      Avoids inBase 0 (-(algebraMap _ _ b * α)) tds →
      CmGen.fTwist (fqIsSqr _ nqr) (fqSqrt _ nqr) out.q out.r out.t (algebraMap _ _ b) α tds k = some α' →
      (out.r ∣ (Nat.card (EC 0 (-(algebraMap _ _ b * α))).Point : ℤ) → ∀ p,
        CmGen.randomPoint (fqIsSqr _ nqr) (fqSqrt _ nqr) 0 (-(algebraMap _ _ b * α)) tds k = some p →
        ∀ p', scalar 0 p (Curve.orderExtn out.q out.t 12 / (out.r * out.r)).toNat = some p' → p'.inf = false) →
      Survives (parF out b nqr α'.re α'.im) (.f out.q out.r b.val nqr.val α'.re.val α'.im.val) ∧
      ∀ {L : Type} [Field L] [DecidableEq L] [Fintype L] [Algebra (Fq2 out.q.toNat nqr) L]
        {E12 : PairingD.Ext (Fq2 out.q.toNat nqr) L} {ξ : L}, E12.Ok ξ → E12.d = 6 →
        Fintype.card L = out.q.toNat ^ 12 → ξ ^ 6 + algebraMap _ L α' = 0 → ∀ draws₁ G₁ draws₂ G₂,
        Setup.typeF1 (fpIsSqr _) (fpSqrt _ nqr) b out.r.toNat draws₁ = some G₁ →
        Avoids inBase 0 (-α' * algebraMap _ _ b) draws₂ →
        Setup.typeF2 (fqIsSqr _ nqr) (fqSqrt _ nqr) (ext2 _ nqr) out.q.toNat out.r.toNat b α'.re α'.im draws₂ = some G₂ →
        ∀ sgn₁ sgn₂, ∃ p, PairingF.init (ext2 _ nqr) E12 out.q.toNat out.r.toNat b α'.re α'.im = some p ∧
          Works (ops (Sampled (fpIsSqr _) (fpSqrt _ nqr) sgn₁ G₁) G₁.a)
            (ops (SampledAvoiding inBase (fqIsSqr _ nqr) (fqSqrt _ nqr) sgn₂ G₂) G₂.a)
            (PairingF.apply (PairingF.pairing p)) id out.r.toNat ∧
          ∀ p', Made (Sampled (fpIsSqr _) (fpSqrt _ nqr) sgn₁ G₁) G₁.a p' →
            ∀ q', Spec.InGroup (0 : Fq2 out.q.toNat nqr) (-α' * algebraMap _ _ b) out.r.toNat q' →
              (PairingF.apply (PairingF.pairing p) p' q' = some 1 ↔ p'.inf = true ∨ q'.inf = true) := by
  obtain ⟨x, hx, eq, er, e1, e2, pq, pr, h2⟩ := bn_data hs h
  refine ⟨⟨pq⟩, fun nds nqr hn => ?_⟩
  have : Fact out.q.toNat.Prime := ⟨pq⟩
  have hns : ¬ IsSquare nqr := Props.C112_beta fpIsSqr_iff nds nqr hn
  have hfn := nonsquare hns
  refine ⟨hfn, fun l b hl hc αs α hα tds k α' ha hT luck => ?_⟩
  obtain ⟨hba, -⟩ := fp_base h2 hn
  have hcF : (Fintype.card (ZMod out.q.toNat) : ℤ) = out.q := by rw [ZMod.card, eq]
  have hcK : Fintype.card (Fq2 out.q.toNat nqr) = Fintype.card (ZMod out.q.toNat) ^ 2 := by
    rw [card_quad, ZMod.card]
  obtain ⟨hb0, hN⟩ := Props.C112_curve hs h hcF fpIsSqr_iff (fun u hu => hba.root u ((fpIsSqr_iff u).2 hu)) l hl b hc
  have hrt : Props.Roots (fqIsSqr _ nqr) (fqSqrt _ nqr) 0 (-(algebraMap _ _ b * α)) tds := fun u hu hs => by
    refine fqSqrt_spec h2 hn _ ((fqIsSqr_iff hns _).1 hs) ?_
    have := ha u hu
    rwa [inBase, decide_eq_false_iff_not] at this
  have hbK := fq_base h2 hn
  obtain ⟨hirr, hcard⟩ := Props.C112_twist (α' := α') hs h hcF hcK hb0 hN (by rw [card_quad]; exact hα) hrt hT
    (fun hd p P hp hP h0 => by
      obtain ⟨p', hp', hP'⟩ := scalar_spec hbK.two hP (Curve.orderExtn out.q out.t 12 / (out.r * out.r)).toNat
      have := luck hd p hp p' hp'
      rw [h0] at hP'
      rw [(rep_inf hP').2 rfl] at this
      cases this)
  refine ⟨survives trivial rfl, ?_⟩
  intro L _ _ _ _ E12 ξ hok hd hcL hξ draws₁ G₁ draws₂ G₂ hi₁ ha₂ hi₂ sgn₁ sgn₂
  obtain ⟨ht, hfam⟩ := typeF_of (α' := α') hx (eq.trans e1) (er.trans e2) pr hb0 (by zify; rw [hN, er])
    (by zify; rw [hcard, er]; exact dvd_mul_right _ _) hok hd hcL hξ
  have hna := nalpha_quad α'
  have := typeF_works (sgn₁ := sgn₁) (sgn₂ := sgn₂) ht hfam hba hbK (by rw [hna]; exact ha₂) hi₁ hi₂
  rw [hna] at this
  obtain ⟨p, h1, h2, h3⟩ := this
  exact ⟨p, h1, h2, fun p' hp' q' ⟨Q, hQ, hr⟩ => h3 p' hp' Q q' hQ hr⟩

end generated

end Pbc.Session
