import Verif.Props.SessionDF

/-! # C121: pairings with generated parameters can be set up with a generator other than `O` -/

set_option autoImplicit false
set_option linter.unusedSectionVars false

namespace Pbc.Session

open Pbc.Curve (Pt addV fresh rhs)
open Pbc.CmGen (scalar genNqr)
open Pbc.Setup (Sampled SampledAvoiding Avoids Base Complete Sound)
open Pbc.PairingF (TypeF nalpha)
open Props (scalar_spec rep_inf)
open WeierstrassCurve WeierstrassCurve.Affine
open Spec (EC PtRep Works)

section base

variable {q : ℕ} [hq : Fact q.Prime]

theorem nqr_exists (h2 : q ≠ 2) : ∃ nds nqr, genNqr (fpIsSqr q) nds = some nqr := by
  obtain ⟨v, hv⟩ := FiniteField.exists_nonsquare (F := ZMod q) (by rw [ZMod.ringChar_zmod_n]; exact h2)
  refine ⟨[v], v, ?_⟩
  rw [genNqr, if_neg]
  rw [fpIsSqr_iff]
  exact hv

end base

section curve

variable {K : Type*} [Field K] [DecidableEq K] {isSqr : K → Bool} {sq : K → K}

/-- For every point `Q` other than `O` the random source can deliver `Q` or `-Q`. -/
theorem init_starts (hb : Base isSqr sq) {a b : K} {r h : ℕ} {Q : (EC a b).Point} (hQ : Q ≠ 0)
    (hs : ∀ y : K, isSqr (y ^ 2) = true) :
    ∃ draws G R, Setup.initCurve isSqr sq a b r (some h) draws = some G ∧ PtRep G.genNoCofac R ∧ (R = Q ∨ R = -Q) ∧
      PtRep G.gen (h • R) ∧ G.a = a ∧ G.order = r ∧ G.solve = false ∧ G.b = b ∧ G.cofac = some h ∧
      Curve.randomNoCofac isSqr sq a b draws = some G.genNoCofac := by
  cases Q with
  | zero => exact absurd rfl hQ
  | some x y hn =>
    obtain ⟨g, R, e, hR, hc⟩ := Setup.exists_draw hb hn (hs y)
    obtain ⟨g', e', hg'⟩ := scalar_spec hb.two hR h
    refine ⟨[x], ⟨a, b, r, some h, g, g', none, false⟩, R, ?_, hR, hc, hg', rfl, rfl, rfl, rfl, rfl, e⟩
    rw [Setup.initCurve, Setup.generators, e]
    dsimp only
    rw [e']
    rfl

theorem random_one (h2 : (2 : K) ≠ 0) {a b : K} {G : Setup.Group K} {P : (EC a b).Point} (ha : G.a = a)
    (hs : G.solve = false) (hg : PtRep G.gen P) : ∃ p, Setup.random isSqr sq G [] 1 = some p ∧ PtRep p P := by
  obtain ⟨p, e, hp⟩ := Curve.pow_rep h2 hg 1
  refine ⟨p, ?_, by simpa using hp⟩
  rw [Setup.random, hs, if_neg (by simp), Curve.randomPointMul, ha, e]

end curve

section D

variable {F K : Type*} [Field F] [DecidableEq F] [Fintype F] [Field K] [DecidableEq K] [Fintype K] [Algebra F K]
  {isSqr₁ : F → Bool} {sq₁ : F → F} {isSqr₂ : K → Bool} {sq₂ : K → K}

local notation "φ" => algebraMap F K

/-- **C121** for type D: if the curve has `h r` points and `r` does not divide `h`, a pairing can be set up with generators
whose pairing is not 1. -/
theorem C121_typeD_starts {E : PairingD.Ext F K} {ξ : K} {q k r h n d : ℕ} {a b v : F}
    [Fact (∀ s : K, s ^ 2 ≠ algebraMap F K v + 0 * s)] (ht : PairingD.TypeD E ξ q k r) (h3 : (3 : F) ≠ 0)
    (hQ : 61 < q ^ E.d) (hD : 4 * a ^ 3 + 27 * b ^ 2 ≠ 0) (hn : Nat.card (EC a b).Point = h * r) (hh : ¬ r ∣ h)
    (hb₁ : Base isSqr₁ sq₁) (hb₂ : Base isSqr₂ sq₂) (hs₁ : ∀ y, isSqr₁ (y ^ 2) = true)
    (hs₂ : ∀ y, isSqr₂ (y ^ 2) = true) :
    ∃ draws draws₂ draws' G₁ G₂ p, Setup.typeD1 isSqr₁ sq₁ a b r h draws = some G₁ ∧
      Setup.typeD2 isSqr₂ sq₂ E q n r d a b v draws₂ draws' = some G₂ ∧ PairingD.initD E q k r a b v = some p ∧
      ∃ p₁ p₂ g, Setup.random isSqr₁ sq₁ G₁ [] 1 = some p₁ ∧ Setup.random isSqr₂ sq₂ G₂ [] 1 = some p₂ ∧
        PairingD.apply (PairingD.pairing p PairingD.millerAffine PairingD.tatepowerD) p₁ p₂ = some g ∧
        g ≠ PairingD.one2 := by
  have hfr : Fact r.Prime := ⟨ht.prime⟩
  obtain ⟨S, hS⟩ := exists_prime_addOrderOf_dvd_card' r (hn ▸ dvd_mul_left _ _)
  have hhS : h • S ≠ 0 := by
    rw [Ne, ← addOrderOf_dvd_iff_nsmul_eq_zero, hS]
    exact hh
  have hrS : r • S = 0 := hS ▸ addOrderOf_nsmul_eq_zero S
  have hS0 : S ≠ 0 := by rintro rfl; exact hhS (nsmul_zero _)
  obtain ⟨draws, G₁, R, hi₁, -, hRS, hg₁, ha₁, -, hsol₁, -⟩ := init_starts (r := r) (h := h) hb₁ hS0 hs₁
  have hR : h • R ≠ 0 ∧ r • h • R = 0 := by
    rcases hRS with rfl | rfl
    · exact ⟨hhS, by rw [smul_comm, hrS, nsmul_zero]⟩
    · rw [smul_neg, Ne, neg_eq_zero, smul_neg, smul_comm, hrS, nsmul_zero, neg_zero]
      exact ⟨hhS, rfl⟩
  obtain ⟨p, e, hpair, hval⟩ := NonDeg.C88_typeD_all (a := a) (b := b) (v0 := v) ht h3 hQ
  obtain ⟨Q, hne⟩ := NonDeg.exists_eD_all (K := K) (v0 := v) h3 hD (ht.cardK ▸ hQ) ht.odd ht.cof hR.1 hR.2
  have hQ0 : Q ≠ 0 := by
    rintro rfl
    exact hne (hpair.zero_right ht.prime.ne_zero hR.2)
  cases hI : PairingD.incl (K := K) S with
  | zero => exact absurd hI (PairingD.incl_ne hS0)
  | some x y hxy =>
  cases Q with
  | zero => exact absurd rfl hQ0
  | some x' y' hxy' =>
  obtain ⟨g, T, eg, -, -⟩ := Setup.exists_draw hb₂ hxy (hs₂ y)
  obtain ⟨g', T', eg', hg', hT'⟩ := Setup.exists_draw hb₂ hxy' (hs₂ y')
  have hi₂ : ∃ G₂, Setup.typeD2 isSqr₂ sq₂ E q n r d a b v [x] [x'] = some G₂ ∧ G₂.a = φ v ^ 2 * φ a ∧
      G₂.solve = false ∧ G₂.gen = g' := by
    unfold Setup.typeD2
    dsimp only
    rw [PairingD.make_const ht.ok, PairingD.make_const ht.ok, PairingD.make_const ht.ok, Setup.initCurve,
      Setup.generators, eg]
    dsimp only
    unfold Setup.reinitTwist Curve.twist
    dsimp only
    rw [show φ a * φ v * φ v = φ v ^ 2 * φ a by ring, show φ b * φ v * φ v * φ v = φ v ^ 3 * φ b by ring,
      Setup.generators, eg']
    exact ⟨_, rfl, rfl, rfl, rfl⟩
  obtain ⟨G₂, hi₂, ha₂, hsol₂, hgen⟩ := hi₂
  obtain ⟨p₁, e₁, hp₁⟩ := random_one (isSqr := isSqr₁) (sq := sq₁) hb₁.two ha₁ hsol₁ hg₁
  obtain ⟨p₂, e₂, hp₂⟩ := random_one (isSqr := isSqr₂) (sq := sq₂) hb₂.two ha₂ hsol₂ (hgen ▸ hg')
  obtain ⟨w, ew, hw⟩ := hval _ _ p₁ p₂ hp₁ hp₂ hR.2
  refine ⟨draws, [x], [x'], G₁, G₂, p, hi₁, hi₂, e, p₁, p₂, w, e₁, e₂, ew, ?_⟩
  rintro rfl
  have hw1 : PairingD.eD (K := K) v r ((q ^ E.d + 1) / r) (h • R) T' = 1 := hw.symm.trans rfl
  rcases hT' with rfl | rfl
  · exact hne hw1
  · have := hpair.neg_right ht.prime.ne_zero (Point.some x' y' hxy') hR.2
    rw [hw1] at this
    exact hne (inv_eq_one.1 this.symm)

end D

section generated

variable {pp : ℤ → Bool} {rand : ℕ → ℕ} {mrand : ℕ → ℕ → ℕ} {fuel rbits : ℕ} {qbits : ℤ} {res : ParamGen.Result}

/-- **C121** for type A: unless `r` divides `h`, a pairing with generated parameters can be set up with a generator other than
`O`, and the generator paired with itself is not 1. -/
theorem C121_typeA_starts (hs : ParamGen.Sound pp) (hm : ∀ c l, 0 < l → mrand c l < l) (hr : 4 ≤ rbits) (hb : rbits < 2 ^ 31)
    (h : ParamGen.aGen pp rand mrand fuel rbits qbits = some res) (hh : ¬ res.r ∣ res.h) :
    ∃ _ : Fact res.q.toNat.Prime, ∃ nds nqr draws G, genNqr (fpIsSqr res.q.toNat) nds = some nqr ∧
      Setup.typeA (fpIsSqr res.q.toNat) (fpSqrt res.q.toNat nqr) res.r.toNat res.h.toNat draws = some G ∧
      ∃ p, Setup.random (fpIsSqr res.q.toNat) (fpSqrt res.q.toNat nqr) G [] 1 = some p ∧ p.inf = false ∧
      ∃ g, PairingA.pairingApply (PairingA.pairingProj (·⁻¹) ⟨res.exp2, res.exp1, res.sign1, res.h.toNat⟩) p p = some g ∧
        g ≠ PairingA.one2 := by
  obtain ⟨i1, i2, eq, er, ht, -⟩ := ParamGen.C56_typeA_pairing hs hm hr h
  have h2 : res.q.toNat ≠ 2 := fun h2 => by
    have := i2.out 1
    have hc : ((2 : ℕ) : ZMod res.q.toNat) = 0 := by rw [← h2]; exact ZMod.natCast_self _
    push_cast at hc
    exact this (by linear_combination hc)
  obtain ⟨nds, nqr, hn⟩ := nqr_exists h2
  obtain ⟨hba, -⟩ := fp_base h2 hn
  have hr' : Fact res.r.toNat.Prime := ⟨ht.prime⟩
  have hcard : Nat.card (EC (1 : ZMod res.q.toNat) 0).Point = res.h.toNat * res.r.toNat := by
    rw [Tate.card_typeA (fun z hz => i2.out z (by rw [hz]; ring))]
    exact ht.cof
  obtain ⟨S, hS⟩ := exists_prime_addOrderOf_dvd_card' res.r.toNat (hcard ▸ dvd_mul_left _ _)
  have hhS : res.h.toNat • S ≠ 0 := by
    rw [Ne, ← addOrderOf_dvd_iff_nsmul_eq_zero, hS]
    intro hd
    have := Int.natCast_dvd_natCast.2 hd
    rw [er] at this
    have hn1 : pp (-1) = false := by
      by_contra hc
      exact absurd (hs _ (by simpa using hc)) (by norm_num)
    rw [Int.toNat_of_nonneg (ParamGen.C56_typeA hm hn1 h).2.2.2.2.1.le] at this
    exact hh this
  have hS0 : S ≠ 0 := by rintro rfl; exact hhS (nsmul_zero _)
  obtain ⟨draws, G, R, hi, -, hRS, hg, ha, ho, hsolve, -⟩ := init_starts (r := res.r.toNat) (h := res.h.toNat) hba hS0
    fun y => (fpIsSqr_iff _).2 ⟨y, sq y⟩
  have hhR : res.h.toNat • R ≠ 0 := by
    rcases hRS with rfl | rfl
    · exact hhS
    · rwa [smul_neg, Ne, neg_eq_zero]
  obtain ⟨i1', hall⟩ := (C121_typeA hs hm hr hb h).2
  obtain ⟨hw, hnd⟩ := hall nds nqr hn draws G hi (fun _ => 0)
  obtain ⟨p, e, hp⟩ := random_one hba.two ha hsolve hg
  have hp0 : p.inf = false := by
    rw [Bool.eq_false_iff, Ne, rep_inf hp]
    exact hhR
  have hmade : Made (Sampled (fpIsSqr _) (fpSqrt _ nqr) (fun _ => 0) G) G.a p :=
    .sampled p (.inl ⟨[], 1, ho ▸ ht.prime.one_lt, e⟩)
  obtain ⟨g, hg, -⟩ := hw.defined p p hmade hmade
  refine ⟨i1, nds, nqr, draws, G, hn, hi, p, e, hp0, g, hg, fun h1 => ?_⟩
  have := (hnd hh p p hmade hmade).1 (h1 ▸ hg)
  simp [hp0] at this

/-- **C121** for type A1 of prime order: the same. -/
theorem C121_typeA1_starts (hs : ParamGen.Sound pp) {order : ℕ} (ho : order.Prime) (h3 : 3 ≤ order) (hf : fuel < 2 ^ 29)
    {out : ℤ × ℕ} (h : ParamGen.a1Gen pp fuel order = some out) (hh : ¬ order ∣ out.2) :
    ∃ _ : Fact out.1.toNat.Prime, ∃ nds nqr draws G, genNqr (fpIsSqr out.1.toNat) nds = some nqr ∧
      Setup.typeA1 (fpIsSqr out.1.toNat) (fpSqrt out.1.toNat nqr) order out.2 draws = some G ∧
      ∃ us p, Setup.random (fpIsSqr out.1.toNat) (fpSqrt out.1.toNat nqr) G us 0 = some p ∧ p.inf = false := by
  obtain ⟨i1, i2, eq, ht, -⟩ := ParamGen.C56_typeA1_pairing hs (ho.odd_of_ne_two (by omega)) h3 (by omega) h
  have h2 : out.1.toNat ≠ 2 := fun h2 => by
    have := i2.out 1
    have hc : ((2 : ℕ) : ZMod out.1.toNat) = 0 := by rw [← h2]; exact ZMod.natCast_self _
    push_cast at hc
    exact this (by linear_combination hc)
  obtain ⟨nds, nqr, hn⟩ := nqr_exists h2
  obtain ⟨hba, -⟩ := fp_base h2 hn
  have hr' : Fact order.Prime := ⟨ho⟩
  have hcard : Nat.card (EC (1 : ZMod out.1.toNat) 0).Point = out.2 * order := by
    rw [Tate.card_typeA (fun z hz => i2.out z (by rw [hz]; ring))]
    exact ht.cof
  obtain ⟨S, hS⟩ := exists_prime_addOrderOf_dvd_card' order (hcard ▸ dvd_mul_left _ _)
  have hhS : out.2 • S ≠ 0 := by
    rw [Ne, ← addOrderOf_dvd_iff_nsmul_eq_zero, hS]
    exact hh
  have hS0 : S ≠ 0 := by rintro rfl; exact hhS (nsmul_zero _)
  obtain ⟨draws, G, R, hi, hR, hRS, hg, ha, -, -, hb', hco, hno⟩ := init_starts (r := order) (h := out.2) hba hS0
    fun y => (fpIsSqr_iff _).2 ⟨y, sq y⟩
  have hhR : out.2 • R ≠ 0 := by
    rcases hRS with rfl | rfl
    · exact hhS
    · rwa [smul_neg, Ne, neg_eq_zero]
  obtain ⟨p, e, hp⟩ := Curve.pow_rep hba.two hR out.2
  refine ⟨i1, nds, nqr, draws, Setup.useSolve G, hn, by rw [Setup.typeA1, hi]; rfl, draws, p, ?_, ?_⟩
  · rw [Setup.random, Setup.useSolve, if_pos rfl, ha, hb', hco, Curve.randomSolve, hno]
    exact e
  · rw [Bool.eq_false_iff, Ne, rep_inf hp]
    exact hhR

/-- **C121** for type E: a curve can be found and a pairing set up with a point `R` not killed by `2 r` and a generator other
than `O`. -/
theorem C121_typeE_starts (hs : ParamGen.Sound pp) (hm : ∀ c l, 0 < l → mrand c l < l) (hr : 4 ≤ rbits)
    (h : ParamGen.eGen pp rand mrand fuel rbits qbits = some res) (hh : ¬ res.r ∣ res.h) :
    ∃ _ : Fact res.q.toNat.Prime, ∃ nds nqr cds x a b draws G R d, genNqr (fpIsSqr res.q.toNat) nds = some nqr ∧
      CmGen.eCurve (fpIsSqr res.q.toNat) (fpSqrt res.q.toNat nqr) nqr (res.h * res.r ^ 2).toNat cds x = some (a, b) ∧
      Setup.typeE (fpIsSqr res.q.toNat) (fpSqrt res.q.toNat nqr) a b res.r.toNat res.h.toNat draws = some (G, R) ∧
      scalar a R (2 * res.r.toNat) = some d ∧ d.inf = false ∧
      ∃ p, Setup.random (fpIsSqr res.q.toNat) (fpSqrt res.q.toNat nqr) G [] 1 = some p ∧ p.inf = false := by
  have hp1 : pp 1 = false := by
    by_contra hc
    exact absurd (hs _ (by simpa using hc)) (by norm_num)
  obtain ⟨hsol, hlen, hq, ⟨s, hs0, hh', -⟩, hpr, hpq⟩ := ParamGen.C56_typeE hm hp1 h
  have p8 := pow_le_pow_right₀ (show (1 : ℤ) ≤ 2 by norm_num) (show 3 ≤ rbits - 1 by omega)
  have hr7 : 7 ≤ res.r := le_trans (by linarith) hlen.1
  have hh0 : 0 < res.h := by rw [hh']; positivity
  have hq0 : 0 ≤ res.q := by rw [hq]; positivity
  have eq : (res.q.toNat : ℤ) = res.q := Int.toNat_of_nonneg hq0
  have er : (res.r.toNat : ℤ) = res.r := Int.toNat_of_nonneg (by omega)
  have eh : res.h.toNat = 3 * s ^ 2 := by zify; rw [Int.toNat_of_nonneg hh0.le, hh']
  have pq : res.q.toNat.Prime := by
    have := hs _ hpq
    rwa [show res.q.natAbs = res.q.toNat by omega] at this
  have pr : res.r.toNat.Prime := by
    have := hs _ hpr
    rwa [show res.r.natAbs = res.r.toNat by omega] at this
  have hqs : res.q.toNat = 3 * (s * res.r.toNat) ^ 2 + 1 := by
    zify; rw [eq, er, hq, hh']; ring
  have hbig : 3 < res.q.toNat := by
    rw [hqs]
    have : 0 < s * res.r.toNat := Nat.mul_pos hs0 pr.pos
    nlinarith
  have i1 : Fact res.q.toNat.Prime := ⟨pq⟩
  have i2 : Fact res.r.toNat.Prime := ⟨pr⟩
  obtain ⟨nds, nqr, hn⟩ := nqr_exists (q := res.q.toNat) (by omega)
  obtain ⟨hba, -⟩ := fp_base (by omega) hn
  have hcq : Fintype.card (ZMod res.q.toNat) = res.q.toNat := ZMod.card _
  obtain ⟨hc1, hc2⟩ := Props.C113_curve (F := ZMod res.q.toNat) (by rw [hcq]; exact pq) (by rw [hcq]; exact hqs) fpIsSqr_iff
    (fun u hu => hba.root u ((fpIsSqr_iff u).2 hu)) nqr [0] 1
  obtain ⟨⟨a, b⟩, hc⟩ := hc2 ⟨0, by simp, by simp⟩
  obtain ⟨⟨rfl, rfl⟩, hN⟩ := hc1 a b hc
  have hord : (res.h * res.r ^ 2).toNat = Fintype.card (ZMod res.q.toNat) - 1 := by
    rw [hcq]; rw [hq]; omega
  have hN : Nat.card (EC (0 : ZMod res.q.toNat) 1).Point = 3 * (s * res.r.toNat) ^ 2 := by
    rw [hN, hcq]; omega
  obtain ⟨S, hS⟩ := exists_prime_addOrderOf_dvd_card' (G := (EC (0 : ZMod res.q.toNat) 1).Point) res.r.toNat
    (hN ▸ Dvd.intro_left (3 * s ^ 2 * res.r.toNat) (by ring))
  have i3 : Fact (Nat.Prime 3) := ⟨Nat.prime_three⟩
  obtain ⟨T, hT⟩ := exists_prime_addOrderOf_dvd_card' (G := (EC (0 : ZMod res.q.toNat) 1).Point) 3
    (hN ▸ Dvd.intro _ rfl)
  have hT3 : 3 • T = 0 := hT ▸ addOrderOf_nsmul_eq_zero T
  have hSr : res.r.toNat • S = 0 := hS ▸ addOrderOf_nsmul_eq_zero S
  have hhS : res.h.toNat • (S + T) ≠ 0 := by
    rw [nsmul_add, show res.h.toNat • T = 0 by rw [eh, mul_comm, mul_nsmul', hT3, nsmul_zero], add_zero, Ne,
      ← addOrderOf_dvd_iff_nsmul_eq_zero, hS]
    intro hd
    have := Int.natCast_dvd_natCast.2 hd
    rw [er, Int.toNat_of_nonneg hh0.le] at this
    exact hh this
  have hrT : (2 * res.r.toNat) • (S + T) ≠ 0 := by
    rw [nsmul_add, show (2 * res.r.toNat) • S = 0 by rw [mul_nsmul', hSr, nsmul_zero], zero_add, Ne,
      ← addOrderOf_dvd_iff_nsmul_eq_zero, hT]
    intro hd
    have := (Nat.Prime.dvd_mul Nat.prime_three).1 hd
    rcases this with h | h
    · omega
    · have := (Nat.prime_dvd_prime_iff_eq Nat.prime_three pr).1 h
      omega
  have hQ0 : S + T ≠ 0 := fun h0 => hrT (by rw [h0, nsmul_zero])
  obtain ⟨draws, G, R, hi, hR, hRS, hg, ha, ho, hsolve, -⟩ := init_starts (r := res.r.toNat) (h := res.h.toNat) hba hQ0
    fun y => (fpIsSqr_iff _).2 ⟨y, sq y⟩
  obtain ⟨p, e, hp⟩ := random_one (isSqr := fpIsSqr _) (sq := fpSqrt _ nqr) hba.two ha hsolve hg
  obtain ⟨d, ed, hd⟩ := scalar_spec hba.two hR (2 * res.r.toNat)
  refine ⟨i1, nds, nqr, [0], 1, 0, 1, draws, G, G.genNoCofac, d, hn, hord ▸ hc, by rw [Setup.typeE, hi]; rfl, ed, ?_, p, e, ?_⟩
  · rw [Bool.eq_false_iff, Ne, rep_inf hd]
    rcases hRS with rfl | rfl
    · exact hrT
    · rwa [smul_neg, neg_eq_zero]
  · rw [Bool.eq_false_iff, Ne, rep_inf hp]
    rcases hRS with rfl | rfl
    · exact hhS
    · rwa [smul_neg, neg_eq_zero]

/-- **C121** for type F: all that `C121_typeF_partial` supposes can come to pass, with elements other than `O` in both groups. -/
theorem C121_typeF_starts {bits : ℤ} {out : ParamGen.BN} (hs : ParamGen.Sound pp)
    (h : ParamGen.fGen pp fuel bits = some out) :
    ∃ _ : Fact out.q.toNat.Prime, ∃ nds nqr, genNqr (fpIsSqr out.q.toNat) nds = some nqr ∧
      ∃ _ : Fact (∀ s : ZMod out.q.toNat, s ^ 2 ≠ nqr + 0 * s), ∃ l b,
      (∀ d ∈ l, d.1 ≠ 0 ∧ ∀ p, CmGen.randomPoint (fpIsSqr _) (fpSqrt _ nqr) 0 d.1 d.2.1 d.2.2 = some p → p.inf = false) ∧
      CmGen.fCurve (fpIsSqr _) (fpSqrt _ nqr) out.r.toNat l = some b ∧
      ∃ αs α, CmGen.alphaLoop (out.q.toNat ^ 2) αs = some α ∧ ∃ tds k, ∃ α' : Fq2 out.q.toNat nqr,
      Avoids inBase 0 (-(algebraMap _ _ b * α)) tds ∧
      CmGen.fTwist (fqIsSqr _ nqr) (fqSqrt _ nqr) out.q out.r out.t (algebraMap _ _ b) α tds k = some α' ∧
      (∀ p, CmGen.randomPoint (fqIsSqr _ nqr) (fqSqrt _ nqr) 0 (-(algebraMap _ _ b * α)) tds k = some p →
        ∀ p', scalar 0 p (Curve.orderExtn out.q out.t 12 / (out.r * out.r)).toNat = some p' → p'.inf = false) ∧
      ∃ (L : Type) (_ : Field L) (_ : DecidableEq L) (_ : Fintype L) (_ : Algebra (Fq2 out.q.toNat nqr) L)
        (E12 : PairingD.Ext (Fq2 out.q.toNat nqr) L) (ξ : L), E12.Ok ξ ∧ E12.d = 6 ∧
        Fintype.card L = out.q.toNat ^ 12 ∧ ξ ^ 6 + algebraMap _ L α' = 0 ∧ ∃ draws₁ G₁ draws₂ G₂,
        Setup.typeF1 (fpIsSqr _) (fpSqrt _ nqr) b out.r.toNat draws₁ = some G₁ ∧
        Avoids inBase 0 (-α' * algebraMap _ _ b) draws₂ ∧
        Setup.typeF2 (fqIsSqr _ nqr) (fqSqrt _ nqr) (ext2 _ nqr) out.q.toNat out.r.toNat b α'.re α'.im draws₂ = some G₂ ∧
        ∃ p q, Setup.random (fpIsSqr _) (fpSqrt _ nqr) G₁ [] 1 = some p ∧ p.inf = false ∧
          Setup.random (fqIsSqr _ nqr) (fqSqrt _ nqr) G₂ [] 1 = some q ∧ q.inf = false := by
  obtain ⟨x, hx, eq, er, e1, e2, pq, pr, h2⟩ := bn_data hs h
  have i1 : Fact out.q.toNat.Prime := ⟨pq⟩
  obtain ⟨nds, nqr, hn⟩ := nqr_exists h2
  obtain ⟨hba, -⟩ := fp_base h2 hn
  have hns : ¬ IsSquare nqr := Props.C112_beta fpIsSqr_iff nds nqr hn
  have hfn := nonsquare hns
  have hbK := fq_base h2 hn
  have hcF : (Fintype.card (ZMod out.q.toNat) : ℤ) = out.q := by rw [ZMod.card, eq]
  have hcK : Fintype.card (Fq2 out.q.toNat nqr) = Fintype.card (ZMod out.q.toNat) ^ 2 := by
    rw [card_quad, ZMod.card]
  obtain ⟨b, u, hb0, hN, hc, hl⟩ := Props.C112_curve_can_return hs h hcF fpIsSqr_iff
    (fun u hu => hba.root u ((fpIsSqr_iff u).2 hu))
  have hsix : 6 ∣ Fintype.card (Fq2 out.q.toNat nqr) - 1 := by
    have := Tate.bn_six (eq.trans e1)
    rw [card_quad]
    have := pq.pos
    obtain ⟨k, hk⟩ : ∃ k, out.q.toNat = 6 * k + 1 := ⟨out.q.toNat / 6, by omega⟩
    rw [hk]
    exact ⟨6 * k ^ 2 + 2 * k, by rw [Nat.sub_eq_of_eq_add]; ring⟩
  obtain ⟨α₀, hα2, hα3⟩ := (Props.C112_alpha (K := Fq2 out.q.toNat nqr)).2 hsix
  have hirr₀ : Irreducible (Polynomial.X ^ 6 + Polynomial.C α₀ : Polynomial (Fq2 out.q.toNat nqr)) := by
    have := Props.irreducible_of_not_power hα2 hα3
    rwa [map_neg, sub_neg_eq_add] at this
  obtain ⟨α, hirr, hcard⟩ : ∃ α : Fq2 out.q.toNat nqr, Irreducible (Polynomial.X ^ 6 + Polynomial.C α : Polynomial (Fq2 out.q.toNat nqr)) ∧
      (Nat.card (EC 0 (-(algebraMap (ZMod out.q.toNat) (Fq2 out.q.toNat nqr) b * α))).Point : ℤ) = out.r * (2 * out.q - out.r) := by
    rcases Props.twist_orders (K := Fq2 out.q.toNat nqr) hs h hcF hcK hb0 hN hirr₀ with ⟨e, -⟩ | ⟨-, e⟩
    · exact ⟨α₀, hirr₀, e⟩
    · exact ⟨_, Props.irreducible_fifth hirr₀, e⟩
  have hloop : CmGen.alphaLoop (out.q.toNat ^ 2) [α] = some α := by
    have := (Props.C112_alpha (K := Fq2 out.q.toNat nqr)).1 α []
    rwa [if_pos (Props.not_power_of_irreducible hirr), card_quad] at this
  have hdvd : out.r ∣ (Nat.card (EC 0 (-(algebraMap (ZMod out.q.toNat) (Fq2 out.q.toNat nqr) b * α))).Point : ℤ) :=
    hcard ▸ dvd_mul_right _ _
  obtain ⟨w, hw, -, hT, hluck⟩ := Props.C112_twist_can_return (isSqr := fqIsSqr _ nqr) (sq := fqSqrt _ nqr) hs h hcF hcK hb0 hN
    (fun a => (fqIsSqr_iff hns _).2 ⟨a, sq a⟩) (fun a ha hsq => fqSqrt_spec h2 hn a hsq fun h0 => ha ((inBase_iff a).1 (by
      rw [inBase, h0, decide_eq_true rfl]))) hirr hdvd
  obtain ⟨L, j1, j2, j3, j4, E12, ξ, hok, hd, hcL, hξ⟩ := NonDeg.exists_field hirr
  have hcL : Fintype.card L = out.q.toNat ^ 12 := by rw [hcL, card_quad, ← pow_mul]
  obtain ⟨ht, hfam⟩ := typeF_of (α' := α) hx (eq.trans e1) (er.trans e2) pr hb0 (by zify; rw [hN, er])
    (by zify; rw [er]; exact hdvd) hok hd hcL hξ
  have i2 : Fact out.r.toNat.Prime := ⟨pr⟩
  obtain ⟨S, hS⟩ := exists_prime_addOrderOf_dvd_card' (G := (EC 0 b).Point) out.r.toNat (by zify; rw [hN, er])
  obtain ⟨draws₁, G₁, p, hi₁, hp, hp0⟩ : ∃ draws₁ G₁ p, Setup.typeF1 (fpIsSqr _) (fpSqrt _ nqr) b out.r.toNat draws₁ = some G₁ ∧
      Setup.random (fpIsSqr _) (fpSqrt _ nqr) G₁ [] 1 = some p ∧ p.inf = false := by
    cases S with
    | zero =>
      rw [show (Point.zero : (EC 0 b).Point) = 0 from rfl, addOrderOf_zero] at hS
      exact absurd hS pr.one_lt.ne
    | some x y hns =>
      obtain ⟨g, R, e, hR, hc⟩ := Setup.exists_draw hba hns ((fpIsSqr_iff _).2 ⟨y, sq y⟩)
      have hi : Setup.typeF1 (fpIsSqr _) (fpSqrt _ nqr) b out.r.toNat [x] = some ⟨0, b, out.r.toNat, none, g, g, none, false⟩ := by
        rw [Setup.typeF1, Setup.initCurve, Setup.generators, e]
      obtain ⟨p, ep, hp⟩ := random_one (isSqr := fpIsSqr _) (sq := fpSqrt _ nqr)
        (G := ⟨0, b, out.r.toNat, none, g, g, none, false⟩) hba.two rfl rfl hR
      refine ⟨_, _, p, hi, ep, ?_⟩
      rw [Bool.eq_false_iff, Ne, rep_inf hp]
      rcases hc with rfl | rfl
      · exact Point.some_ne_zero hns
      · rw [neg_eq_zero]; exact Point.some_ne_zero hns
  letI : Algebra (ZMod out.q.toNat) L := ((algebraMap (Fq2 out.q.toNat nqr) L).comp (algebraMap (ZMod out.q.toNat) (Fq2 out.q.toNat nqr))).toAlgebra
  have : IsScalarTower (ZMod out.q.toNat) (Fq2 out.q.toNat nqr) L := IsScalarTower.of_algebraMap_eq fun _ => rfl
  obtain ⟨draws₂, G₂, q', p'', ha₂, hi₂, hq', hp'', hinf⟩ := Setup.C120_typeF_G2_fails (bad := inBase) ht hfam hbK
    (fun a _ => (fqIsSqr_iff hns _).2 ⟨a, sq a⟩) fun u hu => (inBase_iff u).1 hu
  rw [nalpha_quad] at ha₂
  refine ⟨i1, nds, nqr, hn, hfn, [(b, [u], 1)], b, ?_, hc, [α], α, hloop, [w], 1, α, ?_, hT, hluck, L, j1, j2, j3, j4, E12, ξ, hok, hd,
    hcL, hξ, draws₁, G₁, draws₂, G₂, hi₁, ha₂, hi₂, p, q', hp, hp0, hq', ?_⟩
  · intro d hd
    obtain rfl : d = (b, [u], 1) := by simpa using hd
    exact ⟨hb0, hl⟩
  · intro v hv
    obtain rfl : v = w := by simpa using hv
    exact Bool.eq_false_iff.2 fun h => hw ((inBase_iff _).1 h)
  · rw [Bool.eq_false_iff]
    intro hqi
    have hz : PtRep q' (0 : (EC G₂.a 0).Point) := hqi
    obtain ⟨p₃, e₃, h₃⟩ := scalar_spec hbK.two hz G₂.order
    obtain rfl := Option.some.inj (hp''.symm.trans e₃)
    rw [nsmul_zero] at h₃
    rw [(rep_inf h₃).2 rfl] at hinf
    cases hinf

end generated

/-! ### Instances -/

section instances

open ParamGen (trial trial_sound)

/-- Type A with `r = 19`, `q = 227`, `h = 12`: a group is set up, and the generator and its pairing are not trivial. -/
example : ∃ res, ParamGen.aGen trial (fun i => i * i / 2 + 1) (fun c l => (5 * c + 1) % l) 20 5 8 = some res ∧ res.q = 227 ∧
    ∃ _ : Fact res.q.toNat.Prime, ∃ (nqr : ZMod res.q.toNat) (G : Setup.Group (ZMod res.q.toNat)) (p : Pt (ZMod res.q.toNat))
      (g : Quad.El (ZMod res.q.toNat)),
      Works (ops (Sampled (fpIsSqr res.q.toNat) (fpSqrt res.q.toNat nqr) (fun _ => 1) G) G.a)
        (ops (Sampled (fpIsSqr res.q.toNat) (fpSqrt res.q.toNat nqr) (fun _ => 1) G) G.a)
        (PairingA.pairingApply (PairingA.pairingProj (·⁻¹) ⟨res.exp2, res.exp1, res.sign1, res.h.toNat⟩))
        (Quad.alg (-1)) res.r.toNat ∧ p.inf = false ∧
      PairingA.pairingApply (PairingA.pairingProj (·⁻¹) ⟨res.exp2, res.exp1, res.sign1, res.h.toNat⟩) p p = some g ∧
      g ≠ PairingA.one2 := by
  have h : (ParamGen.aGen trial (fun i => i * i / 2 + 1) (fun c l => (5 * c + 1) % l) 20 5 8).map (fun s => (s.r, s.h, s.q)) =
      some (19, 12, 227) := by decide +kernel
  obtain ⟨res, e, h⟩ := Option.map_eq_some_iff.1 h
  simp only [Prod.mk.injEq] at h
  have hm : ∀ c l : ℕ, 0 < l → (5 * c + 1) % l < l := fun c l hl => Nat.mod_lt _ hl
  obtain ⟨i1, nds, nqr, draws, G, hn, hi, p, -, hp, g, hg, h1⟩ := C121_typeA_starts trial_sound hm (by norm_num) (by norm_num) e
    (by rw [h.1, h.2.1]; norm_num)
  obtain ⟨_, hall⟩ := (C121_typeA trial_sound hm (by norm_num) (by norm_num) e).2
  exact ⟨res, e, h.2.2, i1, nqr, G, p, g, (hall nds nqr hn draws G hi _).1, hp, hg, h1⟩

/-- Type A1 with `n = 11`, `p = 43`, `l = 4`. -/
example := C121_typeA1_starts (pp := trial) (fuel := 20) (order := 11) trial_sound (by norm_num) (by norm_num) (by norm_num)
  (out := (43, 4)) (by decide +kernel) (by norm_num)

/-- Type E with `r = 13`, `q = 18253`. -/
example : ∃ res, ParamGen.eGen trial (fun i => i * i / 2 + 1) (fun c l => (5 * c + 6) % l) 20 4 8 = some res ∧
    ¬ res.r ∣ res.h := by
  have h : (ParamGen.eGen trial (fun i => i * i / 2 + 1) (fun c l => (5 * c + 6) % l) 20 4 8).map (fun s => (s.r, s.h, s.q)) =
      some (13, 108, 18253) := by decide +kernel
  obtain ⟨res, e, h⟩ := Option.map_eq_some_iff.1 h
  simp only [Prod.mk.injEq] at h
  exact ⟨res, e, by rw [h.1, h.2.1]; norm_num⟩

/-- Type F with `q = 19`, `r = 13`. -/
example : ∃ out, ParamGen.fGen trial 20 6 = some out ∧ out.q = 19 ∧ out.r = 13 := by
  have h : (ParamGen.fGen trial 20 6).map (fun s => (s.q, s.r)) = some (19, 13) := by decide +kernel
  obtain ⟨out, e, h⟩ := Option.map_eq_some_iff.1 h
  simp only [Prod.mk.injEq] at h
  exact ⟨out, e, h⟩

private instance prime79 : Fact (Nat.Prime 79) := ⟨by norm_num⟩
private instance fact79 : Fact (∀ s : ZMod 79, s ^ 2 ≠ algebraMap (ZMod 79) (ZMod 79) 3 + 0 * s) :=
  ⟨by simp only [Algebra.algebraMap_self, RingHom.id_apply]; decide +kernel⟩

theorem curve79 : Nat.card (EC (1 : ZMod 79) 23).Point = 18 * 5 := by
  rw [Tate.card_eq (Tate.nonsingular_of_disc (by decide) (by decide +kernel))]
  decide +kernel

/-- Type D with `q = 79`, `k = 2`, `r = 5` and the curve `Y² = X³ + X + 23`: there are set-ups, and they work. -/
example : ∃ (nqr : ZMod 79) (G₁ G₂ : Setup.Group (ZMod 79)) (p : PairingD.Data (ZMod 79) (ZMod 79)),
    Works (ops (Sampled (fpIsSqr 79) (fpSqrt 79 nqr) (fun _ => 1) G₁) G₁.a)
      (ops (Sampled (fpIsSqr 79) (fpSqrt 79 nqr) (fun _ => 1) G₂) G₂.a)
      (PairingD.apply (PairingD.pairing p PairingD.millerAffine PairingD.tatepowerD))
      (Quad.alg (algebraMap (ZMod 79) (ZMod 79) 3)) 5 := by
  obtain ⟨nds, nqr, hn⟩ := nqr_exists (q := 79) (by norm_num)
  obtain ⟨hba, -⟩ := fp_base (by norm_num) hn
  have hs : ∀ y : ZMod 79, fpIsSqr 79 (y ^ 2) = true := fun y => (fpIsSqr_iff _).2 ⟨y, sq y⟩
  obtain ⟨d₁, d₂, d₃, G₁, G₂, -, hi₁, hi₂, -⟩ := C121_typeD_starts (n := 90) (d := 1) (a := 1) (b := 23) (v := 3) NonDeg.type79
    (by decide) (by decide) (by decide +kernel) curve79 (by norm_num) hba hba hs hs
  obtain ⟨p, -, hw, -⟩ := C121_typeD_partial NonDeg.type79 (by decide) (by decide) (by decide +kernel) curve79 hba hba hi₁ hi₂
  exact ⟨nqr, G₁, G₂, p, hw⟩

end instances

end Pbc.Session
