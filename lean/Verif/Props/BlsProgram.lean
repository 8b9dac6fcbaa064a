import Verif.Model.BlsProgram
import Verif.Props.ShippedA

/-! # C143: what the example program for short signatures prints -/

set_option autoImplicit false
set_option linter.style.longLine false

namespace Pbc.BlsProgram

open Pbc.Curve (Pt toBytesCompressed fromBytesCompressed toBytesXOnly fromBytesXOnly)
open Pbc.Session
open Pbc.CmGen (scalar genNqr)
open Pbc.Setup (Sampled Base Complete)
open Spec (EC PtRep Works)
open Props (scalar_spec rep_inf)

theorem sign_neg {q : ℕ} [hq : Fact q.Prime] (h2 : q ≠ 2) (x : ZMod q) : sign q (-x) = - sign q x := by
  have hodd := hq.out.eq_two_or_odd.resolve_left h2
  have hlt := ZMod.val_lt x
  have h0 := ZMod.val_eq_zero x
  unfold sign Naive.sgnOdd
  rw [ZMod.neg_val]
  by_cases hx : x = 0
  · simp [hx]
  · have hv : x.val ≠ 0 := fun h => hx (h0.1 h)
    rw [if_neg hx, if_neg hv, if_neg (by omega)]
    by_cases ho : x.val % 2 = 1
    · rw [if_pos ho, if_neg (by omega)]
    · rw [if_neg ho, if_pos (by omega)]; rfl

theorem sign_zero {q : ℕ} [hq : Fact q.Prime] (x : ZMod q) : sign q x = 0 ↔ x = 0 := by
  unfold sign Naive.sgnOdd
  rw [← ZMod.val_eq_zero]
  split_ifs <;> simp_all

section general

variable {K Q L M : Type*} [Field K] [DecidableEq K] [DecidableEq L] [Monoid M] {G₁ : Spec.Ops (Pt K)} {G₂ : Spec.Ops Q}
  {e : Pt K → Q → Option L} {val : L → M} {r : ℕ} {cd : Quad.Codec K} {sq : K → K} {sgn : K → ℤ} {a b : K}
  {gtInv : L → Option L}

/-- The program, if the signature survives its two encodings. -/
theorem main_spec (h : Works G₁ G₂ e val r) (hv : Function.Injective val)
    (hi : ∀ t, val t ^ r = 1 → ∃ t', gtInv t = some t' ∧ val t' * val t = 1)
    {g : Q} {m rnd sig : Pt K} (hg : G₂.made g) (hm : G₁.made m) (hr : G₁.made rnd) {x n : ℕ}
    (hs : G₁.pow m x = some sig)
    (hc : fromBytesCompressed cd sq sgn a b (toBytesCompressed cd sgn sig) = some (sig, n))
    (hx : (fromBytesXOnly cd sq a b (toBytesXOnly cd sig)).1 = sig ∨
      G₁.inv sig = some (fromBytesXOnly cd sq a b (toBytesXOnly cd sig)).1) :
    ∃ l, (l = .firstGuess ∨ l = .secondGuess) ∧ ∃ t u, e sig g = some t ∧ e rnd g = some u ∧
      main cd sq sgn a b G₁ G₂ e gtInv g x m rnd =
        some [.verifies, l, if u = t then .randomVerifies else .randomFails] := by
  obtain ⟨pk, e1, m1⟩ := h.closed₂.pow g x hg
  obtain ⟨s', e2, m2⟩ := h.closed₁.pow m x hm
  obtain rfl := Option.some.inj (hs.symm.trans e2)
  obtain ⟨t0, f0, -⟩ := h.defined m g hm hg
  obtain ⟨t1, f1, -⟩ := h.defined sig g m2 hg
  obtain ⟨t2, f2, -⟩ := h.defined m pk hm m1
  obtain ⟨u, fu, -⟩ := h.defined rnd g hr hg
  have ht : t1 = t2 := hv ((h.pow₁ m g x sig t0 t1 hm hg hs f0 f1).trans (h.pow₂ m g x pk t0 t2 hm hg e1 f0 f2).symm)
  subst ht
  have hgs : ∃ l, (l = .firstGuess ∨ l = .secondGuess) ∧ guess cd sq a b e gtInv g t1 sig = some l := by
    rcases hx with hx | hx
    · exact ⟨_, .inl rfl, by rw [guess, hx, f1]; simp⟩
    · obtain ⟨s', e3, m3⟩ := h.closed₁.inv sig m2
      obtain rfl := Option.some.inj (hx.symm.trans e3)
      obtain ⟨w, fw, hw⟩ := h.defined _ g m3 hg
      have k := h.inv₁ sig g _ t1 w m2 hg hx f1 fw
      obtain ⟨w', hw1, hw2⟩ := hi w hw
      have : w' = t1 := hv (by rw [← mul_one (val w'), ← k, ← mul_assoc, hw2, one_mul])
      rw [guess, fw, Option.bind_some]
      by_cases hc : w = t1
      · exact ⟨_, .inl rfl, by rw [if_pos hc]⟩
      · exact ⟨_, .inr rfl, by rw [if_neg hc, hw1, Option.bind_some, if_pos this]⟩
  obtain ⟨l, hl, hgl⟩ := hgs
  refine ⟨l, hl, t1, u, f1, fu, ?_⟩
  simp only [main, e1, hs, hc, f1, f2, hgl, fu, Option.bind_some, if_true]

end general

/-- **C143** for type A parameters: whatever is drawn, if the system parameter and the hash of the message are not `O` and the
secret key is not a multiple of `r`, the program prints that the signature verifies, that its first coordinate verifies with
the first or the second guess, and that the random signature does not verify unless it is the signature itself. -/
theorem C143_typeA {q r h exp2 exp1 : ℕ} {sign1 : ℤ} [i1 : Fact q.Prime] (hr : r.Prime) (hc : q + 1 = h * r)
    (hv : PairingA.ValidA ⟨exp2, exp1, sign1, h⟩ r) (h4 : 4 ∣ q + 1) (hh : ¬ r ∣ h) {nds : List (ZMod q)} {nqr : ZMod q}
    (hn : genNqr (fpIsSqr q) nds = some nqr) {draws : List (ZMod q)} {G : Setup.Group (ZMod q)}
    (hG : Setup.typeA (fpIsSqr q) (fpSqrt q nqr) r h draws = some G) {g m rnd : Pt (ZMod q)}
    (hg : Made (Sampled (fpIsSqr q) (fpSqrt q nqr) (sign q) G) G.a g) (hg0 : g.inf = false)
    (hm : Made (Sampled (fpIsSqr q) (fpSqrt q nqr) (sign q) G) G.a m) (hm0 : m.inf = false)
    (hrnd : Made (Sampled (fpIsSqr q) (fpSqrt q nqr) (sign q) G) G.a rnd) {x : ℕ} (hx : ¬ r ∣ x) :
    ∃ sig l, scalar G.a m x = some sig ∧ (l = .firstGuess ∨ l = .secondGuess) ∧
      main (Props.fpCodec q) (fpSqrt q nqr) (sign q) G.a G.b
        (ops (Sampled (fpIsSqr q) (fpSqrt q nqr) (sign q) G) G.a) (ops (Sampled (fpIsSqr q) (fpSqrt q nqr) (sign q) G) G.a)
        (PairingA.pairingApply (PairingA.pairingProj (·⁻¹) ⟨exp2, exp1, sign1, h⟩)) PairingA.invert2 g x m rnd =
      some [.verifies, l, if rnd = sig then .randomVerifies else .randomFails] := by
  have i2 : Fact (∀ x : ZMod q, x ^ 2 ≠ -1 + 0 * x) := ⟨ParamGen.neg_one_nonsquare h4⟩
  have ht : PairingA.TypeA (ZMod q) ⟨exp2, exp1, sign1, h⟩ r (·⁻¹) := ⟨hv, hr, by rw [ZMod.card]; exact hc, fun _ _ => rfl⟩
  have h2 : q ≠ 2 := by rintro rfl; omega
  obtain ⟨hba, -⟩ := fp_base h2 hn
  have hsd := (Setup.initCurve_sound hba (Setup.typeA_disc hba.two) hG).1
  have hw := typeA_works (sgn := sign q) ht hba hG
  have hin : ∀ p, Sampled (fpIsSqr q) (fpSqrt q nqr) (sign q) G p →
      ∃ P ∈ Spec.tors (A := (EC (1 : ZMod q) 0).Point) r, PtRep p P := fun p hp => by
    obtain ⟨P, h1, h2⟩ := Setup.C120_typeA ht hba hG hp
    exact ⟨P, h2, h1⟩
  have hmem := fun {p} => made_mem' hsd.ha hba.two _ hin (p := p)
  have ha : G.a = 1 := hsd.ha
  have hb : G.b = 0 := hsd.hb
  have hinj : Function.Injective (Quad.alg (-1) : Quad.El (ZMod q) → _) := fun _ _ => Quad.alg_inj
  obtain ⟨P, hP, hmP⟩ := hmem hm
  obtain ⟨sig, es, hS⟩ := scalar_spec (a := (1 : ZMod q)) hba.two hmP x
  rw [← ha] at es
  have msig : Made (Sampled (fpIsSqr q) (fpSqrt q nqr) (sign q) G) G.a sig := .pow m sig x hm es
  have hP0 : P ≠ 0 := fun h0 => by simp [(rep_inf hmP).2 h0] at hm0
  have hS0 : x • P ≠ 0 := fun h0 => hx <| by
    have := addOrderOf_eq_prime (p := r) (hp := ⟨hr⟩) hP hP0
    rw [← this]
    exact addOrderOf_dvd_of_nsmul_eq_zero h0
  have hsi : sig.inf = false := by
    by_contra hc
    exact hS0 ((rep_inf hS).1 (by simpa using hc))
  have hon : Spec.OnCurve G.a G.b sig := by
    rw [ha, hb]
    exact Or.inr (by
      revert hS
      generalize x • P = R
      intro hS
      cases R with
      | zero => exact absurd hS (by rw [PtRep, hsi]; decide)
      | some x' y' hn =>
        obtain ⟨-, e1, e2⟩ := hS
        have := (WeierstrassCurve.Affine.equation_iff _ _).1 hn.1
        rw [e1, e2]
        simpa [EC] using this)
  have hsq : ∀ a : ZMod q, IsSquare a → fpSqrt q nqr a ^ 2 = a := fun a ha => hba.root a ((fpIsSqr_iff a).2 ha)
  have hq0 : NeZero q := ⟨i1.out.ne_zero⟩
  have hcomp := (Props.C37_compressed (Props.fpCodec q) _ (Props.C27_fp_round_trip q) (fpSqrt q nqr) (sign q) hsq (sign_neg h2)
    sign_zero sig hsi hon []).1
  rw [List.append_nil] at hcomp
  have hxo : (fromBytesXOnly (Props.fpCodec q) (fpSqrt q nqr) G.a G.b (toBytesXOnly (Props.fpCodec q) sig)).1 = sig ∨
      some (invertV sig) = some (fromBytesXOnly (Props.fpCodec q) (fpSqrt q nqr) G.a G.b (toBytesXOnly (Props.fpCodec q) sig)).1 := by
    obtain ⟨inf, u, v⟩ := sig
    obtain rfl : inf = false := hsi
    have := (Props.C37_x_only (Props.fpCodec q) _ (Props.C27_fp_round_trip q) (fpSqrt q nqr) hsq u v hon []).2
    rw [List.append_nil] at this
    rcases this with h | h
    · left; rw [h]
    · right; rw [h]; rfl
  obtain ⟨l, hl, t, u, e1, e2, e3⟩ := main_spec (sgn := sign q) hw hinj (gtInv := PairingA.invert2) (fun t ht' => by
      have h0 : Quad.alg (-1) t ≠ 0 := fun h0 => by
        rw [h0, zero_pow hr.ne_zero] at ht'
        exact zero_ne_one ht'
      obtain ⟨t', k1, k2⟩ := PairingA.alg_invert2 h0
      exact ⟨t', k1, by rw [k2, inv_mul_cancel₀ h0]⟩) hg hm hrnd es hcomp hxo
  refine ⟨sig, l, es, hl, e3.trans ?_⟩
  have : u = t ↔ rnd = sig := by
    constructor
    · rintro rfl
      obtain ⟨pk, k1, -⟩ := hw.closed₂.pow g x hg
      obtain ⟨f0, k2, -⟩ := hw.defined m g hm hg
      obtain ⟨f2, k3, -⟩ := hw.defined m pk hm (.pow g pk x hg k1)
      have k4 : u = f2 := hinj ((hw.pow₁ m g x sig f0 u hm hg es k2 e1).trans (hw.pow₂ m g x pk f0 f2 hm hg k1 k2 k3).symm)
      obtain ⟨i, d, k5, k6, k7⟩ := C121_bls_unique hw (one := PairingA.one2) rfl hinj (z₁ := fun p => p.inf = true)
        (z₂ := fun p => p.inf = true) (fun p p' hp hp' hpp => by
          obtain ⟨P, hP, hp⟩ := hmem hp
          obtain ⟨Q, hQ, hq⟩ := hmem hp'
          exact (NonDeg.C107_typeA ht hh hp hq hP hQ).1 hpp) hg (by simp [hg0]) hm hrnd k1 es (by
            rw [blsVerify, e2, k3]; simp [k4])
      obtain rfl := Option.some.inj k5
      obtain ⟨R, hR, hrR⟩ := hmem hrnd
      obtain ⟨s, k8, k9⟩ := addV_spec hba.two hrR (invertV_spec hS)
      rw [← ha] at k8
      obtain rfl := Option.some.inj (k6.symm.trans k8)
      have hRS : R = x • P := by
        have := (rep_inf k9).1 k7
        rwa [← sub_eq_add_neg, sub_eq_zero] at this
      rw [hRS] at hrR
      revert hrR hS hS0
      generalize x • P = T
      intro hS hS0 hrR
      cases T with
      | zero => exact absurd rfl hS0
      | some x' y' hn =>
        obtain ⟨a1, a2, a3⟩ := hS
        obtain ⟨b1, b2, b3⟩ := hrR
        cases rnd; cases sig; simp_all
    · rintro rfl
      exact Option.some.inj (e2.symm.trans e1)
  simp only [this]

/-- The numbers of `a.param`. -/
abbrev qa : ℕ := 8780710799663312522437781984754049815806883199414208211028653399266475630880222957078625179422662221423155858769582317459277713367317481324925129998224791

/-- **C143** for the parameter file `a.param` (the one the documentation tells users to run the examples with). -/
theorem C143_a : Shipped.Reads Shipped.aText Shipped.aPar ∧ ∃ (q r h exp2 exp1 : ℕ) (sign1 sign0 : ℤ),
    Shipped.aPar = .a q r h exp2 exp1 sign1 sign0 ∧ ∃ _ : Fact q.Prime, ∀ nds nqr, genNqr (fpIsSqr q) nds = some nqr →
    ∀ draws G, Setup.typeA (fpIsSqr q) (fpSqrt q nqr) r h draws = some G → ∀ g m rnd x,
    Made (Sampled (fpIsSqr q) (fpSqrt q nqr) (sign q) G) G.a g → g.inf = false →
    Made (Sampled (fpIsSqr q) (fpSqrt q nqr) (sign q) G) G.a m → m.inf = false →
    Made (Sampled (fpIsSqr q) (fpSqrt q nqr) (sign q) G) G.a rnd → ¬ r ∣ x →
    ∃ sig l, scalar G.a m x = some sig ∧ (l = .firstGuess ∨ l = .secondGuess) ∧
      main (Props.fpCodec q) (fpSqrt q nqr) (sign q) G.a G.b
        (ops (Sampled (fpIsSqr q) (fpSqrt q nqr) (sign q) G) G.a) (ops (Sampled (fpIsSqr q) (fpSqrt q nqr) (sign q) G) G.a)
        (PairingA.pairingApply (PairingA.pairingProj (·⁻¹) ⟨exp2, exp1, sign1, h⟩)) PairingA.invert2 g x m rnd =
      some [.verifies, l, if rnd = sig then .randomVerifies else .randomFails] :=
  ⟨Shipped.a_reads, _, _, _, _, _, _, _, rfl, ⟨Shipped.a_q⟩, fun _ _ hn _ _ hG _ _ _ _ hg hg0 hm hm0 hrnd hx =>
    have : Fact (Nat.Prime qa) := ⟨Shipped.a_q⟩
    C143_typeA (q := qa) Shipped.a_r (by decide +kernel) ⟨by decide, by decide, by decide, by decide +kernel, by decide⟩
      (by decide +kernel) (by decide +kernel) hn hG hg hg0 hm hm0 hrnd hx⟩

/-- There are runs as `C143_typeA` speaks of: here with the secret key 2, and the point drawn being the generator. -/
theorem runs {q r h exp2 exp1 : ℕ} {sign1 : ℤ} [i1 : Fact q.Prime] (hr : r.Prime) (hc : q + 1 = h * r)
    (hv : PairingA.ValidA ⟨exp2, exp1, sign1, h⟩ r) (h4 : 4 ∣ q + 1) (hh : ¬ r ∣ h) (hr2 : r ≠ 2) :
    ∃ nds nqr draws G p l, genNqr (fpIsSqr q) nds = some nqr ∧
      Setup.typeA (fpIsSqr q) (fpSqrt q nqr) r h draws = some G ∧ (l = .firstGuess ∨ l = .secondGuess) ∧
      main (Props.fpCodec q) (fpSqrt q nqr) (sign q) G.a G.b
        (ops (Sampled (fpIsSqr q) (fpSqrt q nqr) (sign q) G) G.a) (ops (Sampled (fpIsSqr q) (fpSqrt q nqr) (sign q) G) G.a)
        (PairingA.pairingApply (PairingA.pairingProj (·⁻¹) ⟨exp2, exp1, sign1, h⟩)) PairingA.invert2 p 2 p p =
      some [.verifies, l, .randomFails] := by
  have h2 : q ≠ 2 := by rintro rfl; omega
  have i2 : Fact (∀ x : ZMod q, x ^ 2 ≠ -1 + 0 * x) := ⟨ParamGen.neg_one_nonsquare h4⟩
  obtain ⟨-, -, i1', H⟩ := Shipped.goodA i1.out hr hc hv h4 hh
  obtain ⟨nds, nqr, hn⟩ := nqr_exists h2
  obtain ⟨⟨draws, G, hG, hg⟩, -⟩ := H nds nqr hn
  obtain ⟨hba, -⟩ := fp_base h2 hn
  obtain ⟨hsd, hsolve⟩ := Setup.initCurve_sound hba (Setup.typeA_disc hba.two) hG
  obtain ⟨R, -, -, hR⟩ := hsd.gen
  obtain ⟨p, e, hp⟩ := random_one hba.two hsd.ha hsolve hR
  have hR0 : (some h).getD 1 • R ≠ 0 := fun h0 => by simp [(rep_inf hR).2 h0] at hg
  have hp0 : p.inf = false := by
    rw [Bool.eq_false_iff, Ne, rep_inf hp]
    exact hR0
  have hmade : Made (Sampled (fpIsSqr q) (fpSqrt q nqr) (sign q) G) G.a p :=
    .sampled p (.inl ⟨[], 1, hsd.ho ▸ hr.one_lt, e⟩)
  obtain ⟨sig, l, e1, hl, e2⟩ := C143_typeA hr hc hv h4 hh hn hG hmade hp0 hmade hp0 hmade (x := 2)
    fun hd => hr2 ((Nat.prime_dvd_prime_iff_eq hr Nat.prime_two).1 hd)
  refine ⟨nds, nqr, draws, G, p, l, hn, hG, hl, e2.trans ?_⟩
  rw [if_neg]
  rintro rfl
  obtain ⟨s, e3, h3⟩ := scalar_spec hba.two hp 2
  rw [← hsd.ha] at e3
  obtain rfl := Option.some.inj (e1.symm.trans e3)
  have := PairingD.rep_unique h3 hp
  rw [two_nsmul, add_eq_left] at this
  exact hR0 this

/-- Such a run with `a.param`. -/
example : ∃ _ : Fact (Nat.Prime qa), ∃ nqr G p l, (l = .firstGuess ∨ l = .secondGuess) ∧
    main (Props.fpCodec qa) (fpSqrt qa nqr) (sign qa) G.a G.b
        (ops (Sampled (fpIsSqr qa) (fpSqrt qa nqr) (sign qa) G) G.a) (ops (Sampled (fpIsSqr qa) (fpSqrt qa nqr) (sign qa) G) G.a)
        (PairingA.pairingApply (PairingA.pairingProj (·⁻¹) ⟨159, 107, 1, 12016012264891146079388821366740534204802954401251311822919615131047207289359704531102844802183906537786776⟩)) PairingA.invert2 p 2 p p =
      some [.verifies, l, .randomFails] := by
  have i : Fact (Nat.Prime qa) := ⟨Shipped.a_q⟩
  obtain ⟨-, nqr, -, G, p, l, -, -, hl, h⟩ := runs (q := qa) (h := 12016012264891146079388821366740534204802954401251311822919615131047207289359704531102844802183906537786776) (exp2 := 159) (exp1 := 107) (sign1 := 1) Shipped.a_r (by decide +kernel)
    ⟨by decide, by decide, by decide, by decide +kernel, by decide⟩ (by decide +kernel) (by decide +kernel) (by decide)
  exact ⟨i, nqr, G, p, l, hl, h⟩

end Pbc.BlsProgram
