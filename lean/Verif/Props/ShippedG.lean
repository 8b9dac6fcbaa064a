import Verif.Props.Shipped

/-! # C140, type G: `g149.param` -/

set_option autoImplicit false
set_option linter.style.longLine false

namespace Pbc.Shipped

open Pbc.Param Pbc.Certify
open Pbc.Curve (Pt)
open Pbc.CmGen (scalar genNqr)
open Pbc.Setup (Sampled Base Complete)
open Pbc.Session
open Spec (EC PtRep Works)
open Polynomial (X C)

/-- Type G: the curve has `n = h r` points, `r` is prime, the polynomial for the field of `q⁵` elements is irreducible, `nqr` is
not a square in this field; over the field of `q^10` elements the curve has `nk = hk r²` points.  With any implementation of the
field, pairings that are set up work on all elements that are made of the first group and all points of the twist whose order
divides `r`, and only `O` pairs to 1; and for all elements of both groups, a value that is returned is that of a pairing
(`Spec.Pairing`), which is what C88 leaves for type G; there are set-ups with an element other than `O`. -/
def GoodG (q n h r a b nk hk c0 c1 c2 c3 c4 v : ℕ) : Prop :=
  r.Prime ∧ n = h * r ∧ nk = hk * r ^ 2 ∧ ∃ _ : Fact q.Prime, Nat.card (EC (a : ZMod q) b).Point = n ∧
    (∀ (L : Type) [Field L] [DecidableEq L] [Fintype L] [Algebra (ZMod q) L], Fintype.card L = q ^ 10 →
      Nat.card (EC (algebraMap (ZMod q) L a) (algebraMap (ZMod q) L b)).Point = nk) ∧
    Irreducible (X ^ 5 + (c4 : Polynomial (ZMod q)) * X ^ 4 + (c3 : Polynomial (ZMod q)) * X ^ 3 +
      (c2 : Polynomial (ZMod q)) * X ^ 2 + (c1 : Polynomial (ZMod q)) * X + (c0 : Polynomial (ZMod q))) ∧
    ∀ (K : Type) [Field K] [DecidableEq K] [Fintype K] [Algebra (ZMod q) K] (E : PairingD.Ext (ZMod q) K) (ξ : K),
      E.Ok ξ → E.d = 5 → Fintype.card K = q ^ 5 → ξ ^ 5 + c4 * ξ ^ 4 + c3 * ξ ^ 3 + c2 * ξ ^ 2 + c1 * ξ + c0 = 0 →
      ∃ _ : Fact (∀ s : K, s ^ 2 ≠ algebraMap (ZMod q) K v + 0 * s), ∃ p,
      PairingD.initG E q r (a : ZMod q) b v = some p ∧
      ∀ nds nqr, genNqr (fpIsSqr q) nds = some nqr →
        (∃ draws G, Setup.typeD1 (fpIsSqr q) (fpSqrt q nqr) (a : ZMod q) b r h draws = some G ∧ G.gen.inf = false) ∧
        ∀ draws G₁, Setup.typeD1 (fpIsSqr q) (fpSqrt q nqr) (a : ZMod q) b r h draws = some G₁ → ∀ sgn₁,
          Works (ops (Sampled (fpIsSqr q) (fpSqrt q nqr) sgn₁ G₁) G₁.a)
            (ops (Spec.InGroup (algebraMap (ZMod q) K v ^ 2 * algebraMap (ZMod q) K a)
              (algebraMap (ZMod q) K v ^ 3 * algebraMap (ZMod q) K b) r) (algebraMap (ZMod q) K v ^ 2 * algebraMap (ZMod q) K a))
            (PairingD.apply (PairingD.pairing p PairingD.millerAffine PairingD.tatepowerG))
            (Quad.alg (algebraMap (ZMod q) K v)) r ∧
          (∀ p', Made (Sampled (fpIsSqr q) (fpSqrt q nqr) sgn₁ G₁) G₁.a p' →
            ∀ q', Spec.InGroup (algebraMap (ZMod q) K v ^ 2 * algebraMap (ZMod q) K a)
              (algebraMap (ZMod q) K v ^ 3 * algebraMap (ZMod q) K b) r q' →
            (PairingD.apply (PairingD.pairing p PairingD.millerAffine PairingD.tatepowerG) p' q' = some PairingD.one2 ↔
              p'.inf = true ∨ q'.inf = true)) ∧
          ∃ e : (EC (a : ZMod q) b).Point → (EC (algebraMap (ZMod q) K v ^ 2 * algebraMap (ZMod q) K a)
              (algebraMap (ZMod q) K v ^ 3 * algebraMap (ZMod q) K b)).Point → QuadraticAlgebra K (algebraMap (ZMod q) K v) 0,
            Spec.Pairing r e ∧
            ∀ isSqr (sq : K → K), Base isSqr sq → ∀ draws₂ draws' G₂,
              Setup.typeD2 isSqr sq E q n r 5 (a : ZMod q) b v draws₂ draws' = some G₂ → ∀ sgn₂ p' q',
              Made (Sampled (fpIsSqr q) (fpSqrt q nqr) sgn₁ G₁) G₁.a p' → Made (Sampled isSqr sq sgn₂ G₂) G₂.a q' →
              ∃ P Q, PtRep p' P ∧ PtRep q' Q ∧ r • P = 0 ∧
                (∀ g, PairingD.apply (PairingD.pairing p PairingD.millerAffine PairingD.tatepowerG) p' q' = some g →
                  Quad.alg (algebraMap (ZMod q) K v) g = e P Q) ∧
                (e P Q ≠ 1 →
                  (PairingD.apply (PairingD.pairing p PairingD.millerAffine PairingD.tatepowerG) p' q').isSome)

/-- There is a field as `GoodG` asks for. -/
theorem GoodG.field {q n h r a b nk hk c0 c1 c2 c3 c4 v : ℕ} (H : GoodG q n h r a b nk hk c0 c1 c2 c3 c4 v) :
    ∃ _ : Fact q.Prime, ∃ (K : Type) (_ : Field K) (_ : DecidableEq K) (_ : Fintype K) (_ : Algebra (ZMod q) K)
      (E : PairingD.Ext (ZMod q) K) (ξ : K), E.Ok ξ ∧ E.d = 5 ∧ Fintype.card K = q ^ 5 ∧
      ξ ^ 5 + c4 * ξ ^ 4 + c3 * ξ ^ 3 + c2 * ξ ^ 2 + c1 * ξ + c0 = 0 := by
  obtain ⟨-, -, -, i1, -, -, hirr, -⟩ := H
  obtain ⟨K, j1, j2, j3, j4, E, ξ, hok, hd, hc, hξ⟩ := exists_field_of hirr
  have hdeg : (X ^ 5 + (c4 : Polynomial (ZMod q)) * X ^ 4 + (c3 : Polynomial (ZMod q)) * X ^ 3 +
      (c2 : Polynomial (ZMod q)) * X ^ 2 + (c1 : Polynomial (ZMod q)) * X + (c0 : Polynomial (ZMod q))).natDegree = 5 := by
    simp only [← Polynomial.C_eq_natCast]
    compute_degree!
  rw [hdeg] at hd hc
  refine ⟨i1, K, j1, j2, j3, j4, E, ξ, hok, hd, by rw [hc, ZMod.card], ?_⟩
  simpa using hξ

theorem goodG {q n h r a b nk hk c0 c1 c2 c3 c4 v : ℕ} (hq : q.Prime) (hr : r.Prime) (hn : n = h * r) (h6 : 61 < q)
    (hdv : (r : ℤ) ∣ (q : ℤ) ^ 4 - q ^ 3 + q ^ 2 - q + 1) (hh : ¬ r ∣ h) (hquo : ¬ r ∣ (PairingD.quotient q n r 5).1.natAbs)
    (hD : ∀ _ : Fact q.Prime, (4 * (a : ZMod q) ^ 3 + 27 * (b : ZMod q) ^ 2) ≠ 0)
    (hcard : ∀ _ : Fact q.Prime, Nat.card (EC (a : ZMod q) b).Point = h * r)
    (hirr : ∀ _ : Fact q.Prime, Irreducible (X ^ 5 + (c4 : Polynomial (ZMod q)) * X ^ 4 + (c3 : Polynomial (ZMod q)) * X ^ 3 +
      (c2 : Polynomial (ZMod q)) * X ^ 2 + (c1 : Polynomial (ZMod q)) * X + (c0 : Polynomial (ZMod q))))
    (hv : ∀ _ : Fact q.Prime, (v : ZMod q) ^ ((q - 1) / 2) = -1) (h3r : 3 ≤ r)
    (hnk0 : nk = hk * r ^ 2) (hnk : Curve.orderExtn q (q + 1 - n) 10 = nk) :
    GoodG q n h r a b nk hk c0 c1 c2 c3 c4 v := by
  have i1 : Fact q.Prime := ⟨hq⟩
  have hq0 : ∀ m : ℕ, m ≠ 0 → m < q → (m : ZMod q) ≠ 0 := fun m hm hlt h0 =>
    absurd (Nat.le_of_dvd (by omega) ((ZMod.natCast_eq_zero_iff m q).1 h0)) (by omega)
  have h20 : (2 : ZMod q) ≠ 0 := by exact_mod_cast hq0 2 (by norm_num) (by omega)
  have h30 : (3 : ZMod q) ≠ 0 := by exact_mod_cast hq0 3 (by norm_num) (by omega)
  refine ⟨hr, hn, hnk0, i1, by rw [hcard, hn], fun L _ _ _ _ hL => ?_, hirr i1, ?_⟩
  · have := Props.C40_points (K := L) h20 (hD i1) (k := 10) (by norm_num) (by rw [ZMod.card]; exact hL)
      (t := q + 1 - n) (by rw [ZMod.card, hcard, hn])
    rw [ZMod.card, hnk] at this
    exact_mod_cast this.symm
  intro K _ _ _ _ E ξ hok hd hK hξ
  have i2 : Fact (∀ s : K, s ^ 2 ≠ algebraMap (ZMod q) K v + 0 * s) := ⟨nonsquare_of (hv i1) (by omega) (by decide) hK⟩
  have ht : PairingD.TypeG E ξ q r := ⟨hok, ZMod.card q, hK, hd, hr, h3r, hdv⟩
  have hv0 : algebraMap (ZMod q) K v ≠ 0 := fun h0 => i2.out 0 (by rw [h0]; ring)
  obtain ⟨p, e, hpair, hval⟩ := NonDeg.C88_typeG_all_partial (a := (a : ZMod q)) (b := (b : ZMod q)) (v0 := (v : ZMod q)) ht h30
  have htw := (Props.C92_typeD_points (K := K) (hD i1) (Props.nonsq_iff.2 i2.out) (q := q) (n := n) (r := r) (d := 5) (by decide)
    (ZMod.card q) hK (by rw [hcard i1, hn]) (hn ▸ dvd_mul_left _ _) ht.dvd').2
  refine ⟨i2, p, e, fun nds nqr hnq => ?_⟩
  obtain ⟨hb₁, -⟩ := fp_base (show q ≠ 2 by omega) hnq
  have hs₁ : ∀ y : ZMod q, fpIsSqr q (y ^ 2) = true := fun y => (fpIsSqr_iff _).2 ⟨y, sq y⟩
  refine ⟨?_, fun draws G₁ hi₁ sgn₁ => ?_⟩
  · have hr' : Fact r.Prime := ⟨hr⟩
    obtain ⟨S, hS⟩ := exists_prime_addOrderOf_dvd_card' r ((hcard i1).symm ▸ dvd_mul_left _ _ : r ∣ Nat.card (EC (a : ZMod q) b).Point)
    have hhS : h • S ≠ 0 := by
      rw [Ne, ← addOrderOf_dvd_iff_nsmul_eq_zero, hS]
      exact hh
    have hS0 : S ≠ 0 := by rintro rfl; exact hhS (nsmul_zero _)
    obtain ⟨draws, G, R, hi, -, hRS, hg, -⟩ := init_starts (r := r) (h := h) hb₁ hS0 hs₁
    have hhR : h • R ≠ 0 := by
      rcases hRS with rfl | rfl
      · exact hhS
      · rwa [smul_neg, neg_ne_zero]
    refine ⟨draws, G, hi, ?_⟩
    by_contra hc
    exact hhR ((Props.rep_inf hg).1 (by simpa using hc))
  · have hsd := (Setup.initCurve_sound hb₁ (hD i1) hi₁).1
    have hin : ∀ p, Sampled (fpIsSqr q) (fpSqrt q nqr) sgn₁ G₁ p →
        ∃ P ∈ Spec.tors (A := (EC (a : ZMod q) b).Point) r, PtRep p P := fun p hp => by
      obtain ⟨P, h1, h2⟩ := Setup.C120_typeD (hD i1) (hcard i1) hb₁ hi₁ hp
      exact ⟨P, h2, h1⟩
    have h2K : (2 : K) ≠ 0 := fun h0 => h20 ((algebraMap (ZMod q) K).injective (by rw [map_ofNat, h0, map_zero]))
    refine ⟨works_of hsd.ha rfl hb₁.two h2K (Spec.tors (A := (EC (a : ZMod q) b).Point) r)
      (Spec.tors (A := (EC (algebraMap (ZMod q) K v ^ 2 * algebraMap (ZMod q) K a)
              (algebraMap (ZMod q) K v ^ 3 * algebraMap (ZMod q) K b)).Point) r) hin (fun p ⟨Q, h1, h2⟩ => ⟨Q, h2, h1⟩)
      (fun P Q => PairingD.eD (K := K) (v : ZMod q) r ((q ^ 5 + 1) / r) P Q) hr.ne_zero
      (fun P hP Q _ => hpair.root P Q hP) (fun P hP P' hP' Q _ => hpair.add_left P P' Q hP hP')
      (fun P hP Q _ Q' _ => hpair.add_right P Q Q' hP) (fun P hP Q hQ p' q' hp hq => ?_), ?_, ?_⟩
    · obtain ⟨g, h1, h2, -⟩ := NonDeg.C107_typeG ht e h30 (hD i1) htw hquo hp hq hP hQ
      exact ⟨g, h1, h2⟩
    · rintro p' hp' q' ⟨Q, hq, hrQ⟩
      obtain ⟨P, hP, hp⟩ := made_mem' hsd.ha hb₁.two _ hin hp'
      obtain ⟨g, h1, -, h3⟩ := NonDeg.C107_typeG ht e h30 (hD i1) htw hquo hp hq hP hrQ
      rw [h1, Option.some.injEq]
      exact h3
    · refine ⟨_, hpair, fun isSqr sq' hb₂ draws₂ draws' G₂ hi₂ sgn₂ p' q' hp' hq' => ?_⟩
      obtain ⟨P, hP, hp⟩ := made_mem' hsd.ha hb₁.two _ hin hp'
      have hs₂ := (Setup.typeD2_sound ht.ok hv0 (hD i1) hb₂ hi₂).1
      have hin₂ : ∀ p, Sampled isSqr sq' sgn₂ G₂ p → ∃ P ∈ (⊤ : AddSubgroup (EC (algebraMap (ZMod q) K v ^ 2 * algebraMap (ZMod q) K a)
          (algebraMap (ZMod q) K v ^ 3 * algebraMap (ZMod q) K b)).Point), PtRep p P := fun p hp => by
        obtain ⟨P, h1⟩ := hs₂.sampled hb₂ (Setup.twist_disc hv0 (hD i1)) hp
        exact ⟨_, AddSubgroup.mem_top _, h1⟩
      obtain ⟨Q, -, hQ⟩ := made_mem' hs₂.ha hb₂.two _ hin₂ hq'
      obtain ⟨h1, h2⟩ := hval P Q p' q' hp hQ hP
      exact ⟨P, Q, hp, hQ, hP, h1, fun h => h2 (.inr (.inr h))⟩

/-- Everything about the numbers of type G, except that `q` and `r` are prime; `(x, y)` is a point of order `r`, `w1` and `w2`
inverses of `t^q - t` and `t^(q²) - t` modulo the polynomial. -/
def checkG (q n h r a b nk hk c0 c1 c2 c3 c4 v x y kq kr : ℕ) (w1 w2 : List ℕ) [Fact q.Prime] : Bool :=
  n = h * r && nk = hk * r ^ 2 && Curve.orderExtn q (q + 1 - n) 10 = nk && 61 < q &&
    ((q : ℤ) ^ 4 - q ^ 3 + q ^ 2 - q + 1) % r = 0 && h % r ≠ 0 &&
    (PairingD.quotient q n r 5).1.natAbs % r ≠ 0 && 3 ≤ r && checkCurve q a b h r x y kq kr &&
    (c0 ≤ q && c1 ≤ q && c2 ≤ q && c3 ≤ q && c4 ≤ q) && checkIrred q kq [q - c0, q - c1, q - c2, q - c3, q - c4] [w1, w2] &&
    (q - 1) / 2 < 2 ^ kq && powBy (fun x y => x * y % q) kq v ((q - 1) / 2) 1 = q - 1

theorem goodG_of_check {q n h r a b nk hk c0 c1 c2 c3 c4 v x y kq kr : ℕ} {w1 w2 : List ℕ} (hp : Fact q.Prime) (hr : r.Prime)
    (hc : checkG q n h r a b nk hk c0 c1 c2 c3 c4 v x y kq kr w1 w2 = true) : GoodG q n h r a b nk hk c0 c1 c2 c3 c4 v := by
  simp only [checkG, Bool.and_eq_true, decide_eq_true_eq] at hc
  obtain ⟨⟨⟨⟨⟨⟨⟨⟨⟨⟨⟨⟨hn, hnk⟩, hnk'⟩, h6⟩, hdv⟩, hh⟩, hquo⟩, h3⟩, hcv⟩, ⟨⟨⟨⟨l0, l1⟩, l2⟩, l3⟩, l4⟩⟩, hirr⟩, hk⟩, hv⟩ := hc
  obtain ⟨hD, hcard⟩ := card_of (by omega) hr hcv
  refine goodG hp.out hr hn h6 (Int.dvd_of_emod_eq_zero hdv) (fun hd => hh (Nat.mod_eq_zero_of_dvd hd))
    (fun hd => hquo (Nat.mod_eq_zero_of_dvd hd)) (fun _ => hD) (fun _ => hcard) (fun _ => ?_) (fun _ => nqr_of hk hv) h3 hnk hnk'
  have := irreducible_of_check hirr
  rw [monicOf] at this
  convert this using 1
  have hc : ∀ c, c ≤ q → ((q - c : ℕ) : Polynomial (ZMod q)) = -c := fun c hc => by
    rw [Nat.cast_sub hc, CharP.cast_eq_zero, zero_sub]
  simp only [ev, List.length_cons, List.length_nil, hc _ l0, hc _ l1, hc _ l2, hc _ l3, hc _ l4]
  ring

/-! ## The file -/

theorem g149_fact : Fact (Nat.Prime 503189899097385532598615948567975432740967203) := ⟨g149_q⟩

set_option maxRecDepth 20000 in
theorem g149_good : GoodG 503189899097385532598615948567975432740967203 503189899097385532598571084778608176410973351 1 503189899097385532598571084778608176410973351 465197998498440909244782433627180757481058321 463074517126110479409374670871346701448503064 1040684643531490707494989587381629956832530311976146077888095795458709511789670022388326295177424065807612879371896982185473788988016190582073591316127396374860265835641044035656044524481121528846249501655527462202999638159773731830375673076317719519977183373353791119388388468745670818193868532404392452816602538968163226713846951514831917487400267590451867746120591750902040267826351982737642689423713163967384383105678367875981348397359466338807 4110127713690841149713310614420858884651261781185442551927080083178682965171097172366598236129731931693425629387502221804555636704708008882811353539555915064049685663790355716130262332064327767695339422323460458479884756000782939428852120522712008037615051139080628734566850259704397643028017435446110322024094259858170303605703280329322675124728639532674407 67343110967802947677845897216565803152319250 115936772834120270862756636148166314916823221 87387877425076080433559927080662339215696505 433223145899090928132052677121692683015058909 405367866213598664862417230702935310328613596 22204504160560785687198080413579021865783099 :=
  goodG_of_check (x := 1) (y := 499450565139584616262620451319535880467818014) (kq := 149) (kr := 148)
    (w1 := [65269748269500516965382785328698016580882568, 73859480813181791960511347533021029739513172, 55989079443702686856883942793386987290594130, 314588313148031210667175803647869292458588188, 296433775514348595369322057162097717294160428])
    (w2 := [492770388386743250918563287845836360789824471, 175254788963350115097613316196665071188886, 12767780707317145960893737082263524702170127, 29984965709226467029164810849729473806190870, 176573200635658746131711843024812327825001231]) g149_fact g149_r (by decide +kernel)

/-- **C140** for `g149.param`: it is read as what it says, and gives a working pairing, with what C88 leaves for type G on
points of the twist whose order does not divide `r`. -/
theorem C140_g149_partial : Reads g149Text g149Par ∧ ∃ q n h r a b nk hk c0 c1 c2 c3 c4 v : ℕ,
    g149Par = .g q n h r a b nk hk c0 c1 c2 c3 c4 v ∧ GoodG q n h r a b nk hk c0 c1 c2 c3 c4 v :=
  ⟨g149_reads, _, _, _, _, _, _, _, _, _, _, _, _, _, _, rfl, g149_good⟩

end Pbc.Shipped
