import Verif.Model.Setup
import Verif.Spec.Setup
import Verif.Props.CmGen
import Verif.Props.NonDegE
import Verif.Props.NonDegFGen
import Verif.Props.NonDegAll
import Verif.Props.PairingFInst
import Verif.Props.NonDeg
import Verif.Props.Orders

/-! # C120: elements drawn at random or hashed lie in the groups of the pairing -/

set_option autoImplicit false
set_option linter.unusedSectionVars false

namespace Pbc.Setup

open Pbc.Curve (Pt randomNoCofac randomSolve randomPointMul fromHash rhs)
open Pbc.CmGen (scalar)
open Props (scalar_spec rep_inf)
open WeierstrassCurve WeierstrassCurve.Affine
open Spec (EC PtRep InGroup)

section general

variable {K : Type*} [Field K] [DecidableEq K] {isSqr : K → Bool} {sq : K → K} {sgn : K → ℤ}

/-- What calls of `element_random` and `element_from_hash` on the group can give. -/
def Sampled (isSqr : K → Bool) (sq : K → K) (sgn : K → ℤ) (G : Group K) (p : Pt K) : Prop :=
  (∃ draws x, x < G.order ∧ random isSqr sq G draws x = some p) ∨
  ∃ fuel x, hash isSqr sq sgn G fuel x = some p

/-- The library below the curve: what the test accepts has a square root, which `element_sqrt` finds.  (The test of
`polymod` fields denies that 0 is a square, C76; so only what it accepts is spoken of.) -/
structure Base (isSqr : K → Bool) (sq : K → K) : Prop where
  two : (2 : K) ≠ 0
  root : ∀ a, isSqr a = true → sq a ^ 2 = a

/-- The test accepts every square other than 0. -/
def Complete (isSqr : K → Bool) : Prop := ∀ a, a ≠ 0 → isSqr (a ^ 2) = true

theorem noCofac_spec (hb : Base isSqr sq) {a b : K} (hD : 4 * a ^ 3 + 27 * b ^ 2 ≠ 0) :
    ∀ (draws : List K) (g : Pt K), randomNoCofac isSqr sq a b draws = some g →
      ∃ R : (EC a b).Point, PtRep g R ∧ R ≠ 0
  | [], g, h => by cases h
  | x :: rest, g, h => by
    rw [randomNoCofac] at h
    split_ifs at h with h1
    · cases h
      obtain ⟨R, hR⟩ := (Props.onCurve_iff_rep hb.two hD ⟨false, x, sq (rhs a b x)⟩).1 (.inr (by
        change sq (rhs a b x) ^ 2 = _
        rw [hb.root _ h1, rhs]; ring))
      exact ⟨R, hR, by rw [Ne, ← rep_inf hR]; simp⟩
    · exact noCofac_spec hb hD rest g h

theorem hashSearch_spec {a b : K} : ∀ (fuel : ℕ) (x r : K), Curve.hashSearch isSqr a b fuel x = some r →
    isSqr (rhs a b r) = true
  | 0, x, r, h => by cases h
  | fuel + 1, x, r, h => by
    rw [Curve.hashSearch] at h
    split_ifs at h with h1
    · cases h; exact h1
    · exact hashSearch_spec fuel _ _ h

theorem fromHash_spec (hb : Base isSqr sq) {a b : K} (hD : 4 * a ^ 3 + 27 * b ^ 2 ≠ 0) {cofac : Option ℕ} {fuel : ℕ}
    {x : K} {p : Pt K} (h : fromHash isSqr sq sgn a b cofac fuel x = some p) :
    ∃ P : (EC a b).Point, PtRep p (cofac.getD 1 • P) := by
  unfold fromHash at h
  cases hs : Curve.hashSearch isSqr a b fuel x with
  | none => rw [hs] at h; cases h
  | some r =>
    rw [hs] at h
    dsimp only at h
    have h1 := hb.root _ (hashSearch_spec _ _ _ hs)
    set y := if sgn (sq (rhs a b r)) < 0 then -sq (rhs a b r) else sq (rhs a b r) with hy
    have hy2 : y ^ 2 = r ^ 3 + a * r + b := by
      have : y ^ 2 = sq (rhs a b r) ^ 2 := by rw [hy]; split_ifs <;> ring
      rw [this, h1, rhs]; ring
    obtain ⟨P, hP⟩ := (Props.onCurve_iff_rep hb.two hD ⟨false, r, y⟩).1 (.inr hy2)
    refine ⟨P, ?_⟩
    cases cofac with
    | none =>
      cases h
      rw [Option.getD_none, one_smul]; exact hP
    | some n =>
      obtain ⟨p', e, hp'⟩ := scalar_spec hb.two hP n
      dsimp only at h
      exact (Option.some.inj (h.symm.trans e)) ▸ hp'

theorem generators_spec (hb : Base isSqr sq) {a b : K} (hD : 4 * a ^ 3 + 27 * b ^ 2 ≠ 0) {cofac : Option ℕ}
    {draws : List K} {g gen : Pt K} (h : generators isSqr sq a b cofac draws = some (g, gen)) :
    ∃ R : (EC a b).Point, PtRep g R ∧ R ≠ 0 ∧ PtRep gen (cofac.getD 1 • R) := by
  rw [generators] at h
  cases hg : randomNoCofac isSqr sq a b draws with
  | none => rw [hg] at h; cases h
  | some g' =>
    rw [hg] at h
    obtain ⟨R, hR, h0⟩ := noCofac_spec hb hD draws g' hg
    cases cofac with
    | none =>
      cases h
      exact ⟨R, hR, h0, by rw [Option.getD_none, one_smul]; exact hR⟩
    | some n =>
      obtain ⟨p, e, hp⟩ := scalar_spec hb.two hR n
      dsimp only at h
      rw [e] at h
      cases h
      exact ⟨R, hR, h0, hp⟩

/-- The group record holds the curve, and its generator is a point multiplied by the cofactor. -/
structure Sound (a b : K) (r : ℕ) (cofac quotient : Option ℕ) (G : Group K) : Prop where
  ha : G.a = a
  hb : G.b = b
  ho : G.order = r
  hc : G.cofac = cofac
  hq : G.quotient = quotient
  gen : ∃ R : (EC a b).Point, PtRep G.genNoCofac R ∧ R ≠ 0 ∧ PtRep G.gen (cofac.getD 1 • R)

theorem initCurve_sound (hb : Base isSqr sq) {a b : K} (hD : 4 * a ^ 3 + 27 * b ^ 2 ≠ 0) {cofac : Option ℕ}
    {r : ℕ} {draws : List K} {G : Group K} (h : initCurve isSqr sq a b r cofac draws = some G) :
    Sound a b r cofac none G ∧ G.solve = false := by
  rw [initCurve] at h
  cases hg : generators isSqr sq a b cofac draws with
  | none => rw [hg] at h; cases h
  | some gg =>
    obtain ⟨g, gen⟩ := gg
    rw [hg] at h
    cases h
    exact ⟨⟨rfl, rfl, rfl, rfl, rfl, generators_spec hb hD hg⟩, rfl⟩

theorem Sound.sampled (hb : Base isSqr sq) {a b : K} (hD : 4 * a ^ 3 + 27 * b ^ 2 ≠ 0) {cofac quotient : Option ℕ}
    {r : ℕ} {G : Group K} (hG : Sound a b r cofac quotient G) {p : Pt K} (hp : Sampled isSqr sq sgn G p) :
    ∃ P : (EC a b).Point, PtRep p (cofac.getD 1 • P) := by
  obtain ⟨R, -, -, hgen⟩ := hG.gen
  rcases hp with ⟨draws, x, -, h⟩ | ⟨fuel, x, h⟩
  · rw [random, hG.ha, hG.hb, hG.hc] at h
    cases hs : G.solve with
    | true =>
      rw [hs, if_pos rfl, randomSolve] at h
      cases hg : randomNoCofac isSqr sq a b draws with
      | none => rw [hg] at h; cases h
      | some g =>
        rw [hg] at h
        obtain ⟨P, hP, -⟩ := noCofac_spec hb hD _ _ hg
        refine ⟨P, ?_⟩
        cases cofac with
        | none =>
          cases h
          rw [Option.getD_none, one_smul]; exact hP
        | some n =>
          obtain ⟨p', e, hp'⟩ := scalar_spec hb.two hP n
          exact (Option.some.inj (h.symm.trans e)) ▸ hp'
    | false =>
      rw [hs, if_neg (by simp)] at h
      obtain ⟨r', e, hr⟩ := scalar_spec hb.two hgen x
      cases h.symm.trans e
      exact ⟨x • R, by rw [smul_comm]; exact hr⟩
  · rw [hash, hG.ha, hG.hb, hG.hc] at h
    exact fromHash_spec hb hD h

end general

/-! ### The groups whose points are multiplied by the cofactor, and the whole curve -/

section types

variable {K : Type*} [Field K] [DecidableEq K] {isSqr : K → Bool} {sq : K → K} {sgn : K → ℤ} {G : Group K}
variable {draws : List K} {p : Pt K}

theorem Sound.inGroup (hb : Base isSqr sq) {a b : K} (hD : 4 * a ^ 3 + 27 * b ^ 2 ≠ 0) {cofac quotient : Option ℕ}
    {r : ℕ} (hG : Sound a b r cofac quotient G) (hk : ∀ P : (EC a b).Point, r • cofac.getD 1 • P = 0)
    (hp : Sampled isSqr sq sgn G p) : InGroup a b r p := by
  obtain ⟨P, hP⟩ := hG.sampled hb hD hp
  exact ⟨_, hP, hk P⟩

section A

variable [Fintype K] [Fact (∀ r : K, r ^ 2 ≠ -1 + 0 * r)]

theorem typeA_disc (h2 : (2 : K) ≠ 0) : 4 * (1 : K) ^ 3 + 27 * 0 ^ 2 ≠ 0 := by
  rw [show 4 * (1 : K) ^ 3 + 27 * 0 ^ 2 = 2 ^ 2 by ring]
  exact pow_ne_zero 2 h2

/-- **C120** for type A: every element that `element_random` or `element_from_hash` gives after `a_init_pairing`, whatever
the random source delivered then and delivers now, is a point of the curve of order dividing `r`. -/
theorem C120_typeA {pr : PairingA.Params} {r : ℕ} {inv : K → K} (h : PairingA.TypeA K pr r inv) (hb : Base isSqr sq)
    (hi : typeA isSqr sq r pr.h draws = some G) (hp : Sampled isSqr sq sgn G p) : InGroup 1 0 r p :=
  (initCurve_sound hb (typeA_disc hb.two) hi).1.inGroup hb (typeA_disc hb.two) (NonDeg.smul_cof h.cof) hp

/-- **C120** for type A1, where the order is a product of primes. -/
theorem C120_typeA1 {r l : ℕ} (h : PairingA.TypeA1 K r l) (hb : Base isSqr sq)
    (hi : typeA1 isSqr sq r l draws = some G) (hp : Sampled isSqr sq sgn G p) : InGroup 1 0 r p := by
  obtain ⟨G', e, rfl⟩ := Option.map_eq_some_iff.1 hi
  have hs := (initCurve_sound hb (typeA_disc hb.two) e).1
  have hs' : Sound (1 : K) 0 r (some l) none (useSolve G') := ⟨hs.ha, hs.hb, hs.ho, hs.hc, hs.hq, hs.gen⟩
  exact hs'.inGroup hb (typeA_disc hb.two) (NonDeg.smul_cof h.cof) hp

/-- **C120** for type A, with the pairing: for any two elements sampled and any scalars, multiplying the elements by the
scalars raises the pairing to the product of the scalars, and the pairing is an `r`-th root of unity. -/
theorem C120_typeA_pairing {pr : PairingA.Params} {r : ℕ} {inv : K → K} (h : PairingA.TypeA K pr r inv)
    (hb : Base isSqr sq) (hi : typeA isSqr sq r pr.h draws = some G) {p q : Pt K}
    (hp : Sampled isSqr sq sgn G p) (hq : Sampled isSqr sq sgn G q) (m n : ℕ) :
    ∃ p' q' g g', scalar 1 p m = some p' ∧ scalar 1 q n = some q' ∧
      PairingA.pairingApply (PairingA.pairingProj inv pr) p q = some g ∧
      PairingA.pairingApply (PairingA.pairingProj inv pr) p' q' = some g' ∧
      Quad.alg (-1) g' = Quad.alg (-1) g ^ (m * n) ∧ Quad.alg (-1) g ^ r = 1 := by
  obtain ⟨P, hP, hrP⟩ := C120_typeA h hb hi hp
  obtain ⟨Q, hQ, hrQ⟩ := C120_typeA h hb hi hq
  obtain ⟨p', e1, h1⟩ := scalar_spec hb.two hP m
  obtain ⟨q', e2, h2⟩ := scalar_spec hb.two hQ n
  obtain ⟨g, g', e3, e4, e5⟩ := PairingA.C80_smul h (m : ℤ) (n : ℤ) hP hQ (by rwa [natCast_zsmul])
    (by rwa [natCast_zsmul]) hrP hrQ
  refine ⟨p', q', g, g', e1, e2, e3, e4, ?_, ?_⟩
  · rw [e5, ← Nat.cast_mul, zpow_natCast]
  · obtain ⟨hbil, hc⟩ := PairingA.C80_typeA h
    obtain ⟨g₁, hg₁, e₁, -⟩ := hc P Q p q hP hQ hrP hrQ
    rw [e₁] at e3
    cases e3
    rw [hg₁]
    exact hbil.root P Q hrP hrQ

end A

/-- **C120** for type E: the order of the curve is `h r²`, yet a point multiplied by `h` is killed by `r`. -/
theorem C120_typeE [Fintype K] {q r s exp2 exp1 : ℕ} {sign1 sign0 : ℤ} (h : Spec.TypeE K q r exp2 exp1 sign1 sign0)
    (n : Pbc.PairingE.Numbers q r s) (h3 : (3 : K) ≠ 0) (hb : Base isSqr sq) {R : Pt K}
    (hi : typeE isSqr sq 0 1 r (3 * s ^ 2) draws = some (G, R)) (hp : Sampled isSqr sq sgn G p) :
    InGroup 0 1 r p := by
  obtain ⟨G', e, h'⟩ := Option.map_eq_some_iff.1 hi
  obtain ⟨rfl, rfl⟩ := Prod.mk.inj h'
  have hD : 4 * (0 : K) ^ 3 + 27 * 1 ^ 2 ≠ 0 := by
    rw [show 4 * (0 : K) ^ 3 + 27 * 1 ^ 2 = 3 ^ 3 by norm_num]
    exact pow_ne_zero 3 h3
  exact (initCurve_sound hb hD e).1.inGroup hb hD (Pbc.PairingE.C113_cofactor h n) hp

/-- **C120** for G1 of types D and G: the curve has `h r` points. -/
theorem C120_typeD {a b : K} (hD : 4 * a ^ 3 + 27 * b ^ 2 ≠ 0) {r h : ℕ} (hn : Nat.card (EC a b).Point = h * r)
    (hb : Base isSqr sq) (hi : typeD1 isSqr sq a b r h draws = some G) (hp : Sampled isSqr sq sgn G p) :
    InGroup a b r p :=
  (initCurve_sound hb hD hi).1.inGroup hb hD (fun P => by
    rw [Option.getD_some, smul_smul, mul_comm, ← hn]; exact card_nsmul_eq_zero') hp

/-- **C120** for G1 of type F: the curve has `r` points. -/
theorem C120_typeF {b : K} (h3 : (3 : K) ≠ 0) (h0 : b ≠ 0) {r : ℕ} (hn : Nat.card (EC 0 b).Point = r)
    (hb : Base isSqr sq) (hi : typeF1 isSqr sq b r draws = some G) (hp : Sampled isSqr sq sgn G p) :
    InGroup 0 b r p := by
  have hD : 4 * (0 : K) ^ 3 + 27 * b ^ 2 ≠ 0 := by
    rw [show 4 * (0 : K) ^ 3 + 27 * b ^ 2 = 3 ^ 3 * b ^ 2 by ring]
    exact mul_ne_zero (pow_ne_zero 3 h3) (pow_ne_zero 2 h0)
  exact (initCurve_sound hb hD hi).1.inGroup hb hD (fun P => by
    rw [Option.getD_none, one_smul, ← hn]; exact card_nsmul_eq_zero') hp

/-! ### How the elements are spread -/

/-- **C120**: with a prime order and a generator other than `O`, different random scalars below the order give different
elements, so `element_random` on a group set up by `field_init_curve_ab` is as uniform as its scalar; it reaches every
element of order dividing `r` when there are `r` of them. -/
theorem C120_uniform {a b : K} {r : ℕ} {cofac quotient : Option ℕ} (hb : Base isSqr sq) (hr : r.Prime)
    (hG : Sound a b r cofac quotient G) (hs : G.solve = false)
    (hk : ∀ P : (EC a b).Point, r • cofac.getD 1 • P = 0) (h0 : G.gen.inf = false) :
    (∀ x y p p', x < r → y < r → random isSqr sq G [] x = some p → random isSqr sq G [] y = some p' →
      ∀ (m : Curve.Mem K) (i j : ℕ), m i = p → m j = p' → Curve.cmp a none m i j = some false → x = y) ∧
    (Nat.card {P : (EC a b).Point // r • P = 0} = r → ∀ p, InGroup a b r p →
      ∃ x < r, ∃ p', random isSqr sq G [] x = some p' ∧
        ∀ (m : Curve.Mem K) (i j : ℕ), m i = p → m j = p' → Curve.cmp a none m i j = some false) := by
  obtain ⟨R, -, -, hgen⟩ := hG.gen
  set g := cofac.getD 1 • R with hg
  have hg0 : g ≠ 0 := by
    rw [Ne, ← rep_inf hgen, h0]; simp
  have hord : addOrderOf g = r := PairingA.order_prime hr hg0 (hk R)
  have hrand : ∀ x, ∃ p, random isSqr sq G [] x = some p ∧ PtRep p (x • g) := fun x => by
    obtain ⟨p, e, hp⟩ := scalar_spec hb.two hgen x
    refine ⟨p, ?_, hp⟩
    rw [random, hs, if_neg (by simp), hG.ha]
    exact e
  constructor
  · intro x y p p' hx hy e e' m i j hi hj hc
    obtain ⟨p₁, e₁, hp₁⟩ := hrand x
    obtain ⟨p₂, e₂, hp₂⟩ := hrand y
    rw [e] at e₁
    rw [e'] at e₂
    cases e₁
    cases e₂
    obtain ⟨ans, e₃, h₃⟩ := (Props.C33_tests hb.two (m := m) (a := i) (b := j) (by rw [hi]; exact hp₁)
      (by rw [hj]; exact hp₂)).2.1
    rw [hc] at e₃
    cases e₃
    exact nsmul_injOn_Iio_addOrderOf (by rw [Set.mem_Iio, hord]; exact hx) (by rw [Set.mem_Iio, hord]; exact hy)
      (h₃.1 rfl)
  · rintro hcard p ⟨P, hP, hrP⟩
    have hfin : Finite {P : (EC a b).Point // r • P = 0} := Nat.finite_of_card_ne_zero (by rw [hcard]; exact hr.ne_zero)
    have hinj : Function.Injective (fun x : Fin r => (⟨x.1 • g, by rw [smul_comm, hk R, smul_zero]⟩ :
        {P : (EC a b).Point // r • P = 0})) := fun x y hxy => by
      have := congrArg Subtype.val hxy
      exact Fin.ext (nsmul_injOn_Iio_addOrderOf (by rw [Set.mem_Iio, hord]; exact x.2)
        (by rw [Set.mem_Iio, hord]; exact y.2) this)
    have hbij := (Nat.bijective_iff_injective_and_card _).2 ⟨hinj, by rw [hcard, Nat.card_fin]⟩
    obtain ⟨x, hx⟩ := hbij.2 ⟨P, hrP⟩
    have hx' : x.1 • g = P := congrArg Subtype.val hx
    obtain ⟨p', e', hp'⟩ := hrand x.1
    refine ⟨x.1, x.2, p', e', fun m i j hi hj => ?_⟩
    obtain ⟨ans, e₃, h₃⟩ := (Props.C33_tests hb.two (m := m) (a := i) (b := j) (P := P) (Q := x.1 • g) (by rw [hi]; exact hP)
      (by rw [hj]; exact hp')).2.1
    rw [e₃, h₃.2 hx'.symm]

/-- **C120, what fails**: nothing checks that the generator is not `O`.  For type A, if the source delivers 0 when the
pairing is set up, then every random element from then on is `O`; and the hash 0 of the base field gives `O`. -/
theorem C120_generator_fails {r h : ℕ} (hb : Base isSqr sq) (hq0 : isSqr 0 = true) (he : Even h) :
    (∃ G, typeA isSqr sq r h [0] = some G ∧ ∀ draws x p, random isSqr sq G draws x = some p → p.inf = true) ∧
    ∀ G, initCurve isSqr sq 1 0 r (some h) draws = some G → ∀ fuel p, hash isSqr sq sgn G fuel 0 = some p → p.inf = true := by
  have hz : rhs (1 : K) 0 0 = 0 := by simp [rhs]
  have hs0 : sq (rhs (1 : K) 0 0) = 0 := by
    have := hb.root 0 hq0
    rw [hz]
    exact pow_eq_zero_iff (by norm_num) |>.1 this
  rw [← hz] at hq0
  have hno : randomNoCofac isSqr sq (1 : K) 0 [0] = some ⟨false, 0, 0⟩ := by
    rw [randomNoCofac, if_pos hq0, hs0]
  have hns : (EC (1 : K) 0).Nonsingular 0 0 := by
    rw [nonsingular_iff, equation_iff]
    simp [EC]
  set T : (EC (1 : K) 0).Point := .some 0 0 hns with hT
  have hrep : PtRep (⟨false, 0, 0⟩ : Pt K) T := ⟨rfl, rfl, rfl⟩
  have h2T : h • T = 0 := by
    obtain ⟨k, rfl⟩ := he
    have : T + T = 0 := by
      rw [hT, Point.add_self_of_Y_eq]
      simp [negY, EC]
    rw [← two_mul, mul_comm, mul_smul, two_smul, this, smul_zero]
  obtain ⟨gen, e, hgen⟩ := scalar_spec hb.two hrep h
  rw [h2T] at hgen
  constructor
  · refine ⟨⟨1, 0, r, some h, ⟨false, 0, 0⟩, gen, none, false⟩, ?_, fun ds x p hp => ?_⟩
    · rw [typeA, initCurve, generators, hno]
      dsimp only
      rw [e]
      rfl
    · rw [random, if_neg (by simp)] at hp
      obtain ⟨p', e', hp'⟩ := scalar_spec hb.two hgen x
      have : some p = some p' := hp.symm.trans e'
      cases this
      rw [smul_zero] at hp'
      exact hp'
  · intro G hG fuel p hp
    obtain ⟨hs, -⟩ := initCurve_sound hb (by
      rw [show 4 * (1 : K) ^ 3 + 27 * 0 ^ 2 = 2 ^ 2 by ring]
      exact pow_ne_zero 2 hb.two) hG
    rw [hash, hs.ha, hs.hb, hs.hc] at hp
    cases fuel with
    | zero => simp [fromHash, Curve.hashSearch] at hp
    | succ n =>
      unfold fromHash Curve.hashSearch at hp
      rw [if_pos hq0] at hp
      dsimp only at hp
      rw [hs0, neg_zero, ite_self] at hp
      have : some p = some gen := hp.symm.trans e
      cases this
      exact hgen

end types

/-! ### The second group of types D, F and G -/

section twists

variable {K : Type*} [Field K] [DecidableEq K] {isSqr : K → Bool} {sq : K → K} {sgn : K → ℤ} {G : Group K}
variable {p : Pt K}

/-- For a group without cofactor whose points are compared with an exponent `c`, where `c r` is a multiple of the order of
the curve: a sampled element is a point of the curve, and `r` times it is equal to `O` for `element_cmp`. -/
theorem Sound.cmp_zero [Fintype K] (hb : Base isSqr sq) {a b : K} (hD : 4 * a ^ 3 + 27 * b ^ 2 ≠ 0) {r c : ℕ}
    (hG : Sound a b r none (some c) G) (hc : Nat.card (EC a b).Point ∣ c * r) (hp : Sampled isSqr sq sgn G p) :
    ∃ (Q : (EC a b).Point) (p' : Pt K), PtRep p Q ∧ scalar G.a p G.order = some p' ∧
      ∀ (m : Curve.Mem K) (i j : ℕ), m i = p' → (m j).inf = true → Curve.cmp G.a G.quotient m i j = some false := by
  obtain ⟨Q, hQ⟩ := hG.sampled hb hD hp
  rw [Option.getD_none, one_smul] at hQ
  obtain ⟨p', e, h'⟩ := scalar_spec hb.two hQ r
  rw [hG.ha, hG.ho, hG.hq]
  refine ⟨Q, p', hQ, e, fun m i j hi hj => ?_⟩
  obtain ⟨ans, e', ha⟩ := (Props.C33_tests hb.two (m := m) (a := i) (b := j) (P := r • Q) (Q := (0 : (EC a b).Point))
    (by rw [hi]; exact h') hj).2.2.1 c
  rw [e', ha.2]
  obtain ⟨d, hd⟩ := hc
  rw [sub_zero, smul_smul, hd, mul_comm, mul_smul, card_nsmul_eq_zero', smul_zero]

/-- A point of a group of `n r` elements that neither `r` nor 2 kills. -/
theorem exists_not_killed {A : Type*} [AddCommGroup A] [Finite A] {n r : ℕ} (hn : 1 < n) (hr : 1 < r) (hc : n.Coprime r)
    (hA : n * r ∣ Nat.card A) : ∃ Q : A, r • Q ≠ 0 ∧ 2 • Q ≠ 0 := by
  have key : ∀ {l m : ℕ} {Q : A}, l.Prime → addOrderOf Q = l → ¬ l ∣ m → m • Q ≠ 0 := fun hl hQ hm h0 =>
    hm (hQ ▸ addOrderOf_dvd_of_nsmul_eq_zero h0)
  obtain ⟨l, hl, hln⟩ := Nat.exists_prime_and_dvd hn.ne'
  have : Fact l.Prime := ⟨hl⟩
  obtain ⟨Q, hQ⟩ := exists_prime_addOrderOf_dvd_card' (G := A) l ((hln.trans (Dvd.intro _ rfl)).trans hA)
  have hlr : ¬ l ∣ r := fun h1 => hl.one_lt.ne' (Nat.dvd_one.1 (hc ▸ Nat.dvd_gcd hln h1))
  rcases eq_or_ne l 2 with rfl | h2
  · obtain ⟨l', hl', hlr'⟩ := Nat.exists_prime_and_dvd hr.ne'
    have : Fact l'.Prime := ⟨hl'⟩
    obtain ⟨S, hS⟩ := exists_prime_addOrderOf_dvd_card' (G := A) l' ((hlr'.trans (Dvd.intro_left _ rfl)).trans hA)
    refine ⟨Q + S, ?_, ?_⟩
    · obtain ⟨k, rfl⟩ := hlr'
      rw [smul_add, mul_comm l', mul_smul k l' S, ← hS, addOrderOf_nsmul_eq_zero, smul_zero, add_zero, mul_comm, hS]
      exact key hl hQ hlr
    · rw [smul_add, show 2 • Q = 0 by rw [← hQ, addOrderOf_nsmul_eq_zero], zero_add]
      exact key hl' hS fun h => by
        rw [(Nat.prime_dvd_prime_iff_eq hl' hl).1 h] at hlr'
        exact hlr hlr'
  · exact ⟨Q, key hl hQ hlr, key hl hQ fun h => h2 ((Nat.prime_dvd_prime_iff_eq hl Nat.prime_two).1 h)⟩

/-- Any point that is not its own opposite, or its opposite, is a generator for some delivery of the random source. -/
theorem exists_draw (hb : Base isSqr sq) {a b x y : K} (hn : (EC a b).Nonsingular x y)
    (hs : isSqr (y ^ 2) = true) :
    ∃ (g : Pt K) (R : (EC a b).Point), randomNoCofac isSqr sq a b [x] = some g ∧ PtRep g R ∧
      (R = .some x y hn ∨ R = -.some x y hn) := by
  have he := Tate.eqn_of hn
  have hx : rhs a b x = y ^ 2 := by rw [rhs]; linear_combination -he
  have hr := hb.root _ hs
  have hy : sq (rhs a b x) = y ∨ sq (rhs a b x) = -y := by
    rw [hx]; exact sq_eq_sq_iff_eq_or_eq_neg.1 hr
  refine ⟨⟨false, x, sq (rhs a b x)⟩, ?_⟩
  rcases hy with hy | hy
  · exact ⟨.some x y hn, by rw [randomNoCofac, hx, if_pos hs], ⟨rfl, rfl, hy⟩, .inl rfl⟩
  · refine ⟨-.some x y hn, by rw [randomNoCofac, hx, if_pos hs], ?_, .inr rfl⟩
    rw [Point.neg_some]
    exact ⟨rfl, rfl, by rw [hy]; simp [negY, EC]⟩

theorem exists_gen_of (hb : Base isSqr sq) {a b x y : K} {r : ℕ} (hn : (EC a b).Nonsingular x y) (hs : isSqr (y ^ 2) = true)
    (hQ : r • (.some x y hn : (EC a b).Point) ≠ 0) :
    ∃ (g : Pt K) (R : (EC a b).Point), generators isSqr sq a b none [x] = some (g, g) ∧ PtRep g R ∧ r • R ≠ 0 := by
  obtain ⟨g, R, e, hR, h⟩ := exists_draw hb hn hs
  refine ⟨g, R, by rw [generators, e], hR, ?_⟩
  rcases h with rfl | rfl
  · exact hQ
  · rwa [smul_neg, Ne, neg_eq_zero]

/-- A group without cofactor over a curve with points that `r` does not kill has a generator with that property, for some
delivery of the random source. -/
theorem exists_gen (hb : Base isSqr sq) (hcm : Complete isSqr) {a b : K} {r n : ℕ} [Fintype K] (hn : 1 < n) (hr : 1 < r)
    (hc : n.Coprime r) (hA : n * r ∣ Nat.card (EC a b).Point) :
    ∃ (x : K) (g : Pt K) (R : (EC a b).Point), generators isSqr sq a b none [x] = some (g, g) ∧ PtRep g R ∧ r • R ≠ 0 := by
  obtain ⟨Q, hQ, hQ2⟩ := exists_not_killed hn hr hc hA
  cases Q with
  | zero => exact absurd (smul_zero _) hQ
  | some x y hns =>
    refine ⟨x, exists_gen_of hb hns (hcm _ ?_) hQ⟩
    rintro rfl
    apply hQ2
    rw [two_smul, Point.add_self_of_Y_eq]
    simp [negY, EC]

section D

variable {F : Type*} [Field F] [DecidableEq F] [Fintype F] [Algebra F K] {E : PairingD.Ext F K} {ξ : K} {a b v : F} {q n r d : ℕ}

local notation "φ" => algebraMap F K

theorem twist_disc (hv : φ v ≠ 0) (hD : 4 * a ^ 3 + 27 * b ^ 2 ≠ 0) :
    4 * (φ v ^ 2 * φ a) ^ 3 + 27 * (φ v ^ 3 * φ b) ^ 2 ≠ 0 := by
  have : 4 * (φ v ^ 2 * φ a) ^ 3 + 27 * (φ v ^ 3 * φ b) ^ 2 = φ v ^ 6 * φ (4 * a ^ 3 + 27 * b ^ 2) := by
    simp only [map_add, map_mul, map_pow, map_ofNat]; ring
  rw [this]
  exact mul_ne_zero (pow_ne_zero 6 hv) (by rwa [Ne, map_eq_zero])

theorem typeD2_sound [Fintype K] (hE : E.Ok ξ) (hv : φ v ≠ 0) (hD : 4 * a ^ 3 + 27 * b ^ 2 ≠ 0) (hb : Base isSqr sq)
    {draws draws' : List K} (hi : typeD2 isSqr sq E q n r d a b v draws draws' = some G) :
    Sound (φ v ^ 2 * φ a) (φ v ^ 3 * φ b) r none (some (PairingD.quotient q n r d).1.natAbs) G ∧ G.solve = false := by
  unfold typeD2 at hi
  dsimp only at hi
  rw [PairingD.make_const hE, PairingD.make_const hE, PairingD.make_const hE] at hi
  have hD' : 4 * (φ a) ^ 3 + 27 * (φ b) ^ 2 ≠ 0 := by
    have := (algebraMap F K).injective.ne hD
    simpa [map_add, map_mul, map_pow, map_ofNat] using this
  cases h1 : initCurve isSqr sq (φ a) (φ b) r none draws with
  | none => rw [h1] at hi; cases hi
  | some G₁ =>
    rw [h1] at hi
    dsimp only at hi
    obtain ⟨hs, hsol⟩ := initCurve_sound hb hD' h1
    cases h2 : reinitTwist isSqr sq (φ v) G₁ draws' with
    | none => rw [h2] at hi; cases hi
    | some G₂ =>
      rw [h2] at hi
      cases hi
      unfold reinitTwist Curve.twist at h2
      dsimp only at h2
      rw [hs.ha, hs.hb, hs.hc, show φ a * φ v * φ v = φ v ^ 2 * φ a by ring,
        show φ b * φ v * φ v * φ v = φ v ^ 3 * φ b by ring] at h2
      cases h3 : generators isSqr sq (φ v ^ 2 * φ a) (φ v ^ 3 * φ b) none draws' with
      | none => rw [h3] at h2; cases h2
      | some gg =>
        obtain ⟨g, gen⟩ := gg
        rw [h3] at h2
        cases h2
        exact ⟨⟨rfl, rfl, hs.ho, rfl, rfl, generators_spec hb (twist_disc hv hD) h3⟩, hsol⟩

/-- **C120** for G2 of types D and G: a sampled element is a point of the twist, and `element_cmp` calls `r` times it equal to
`O`, when the curve has `n` points. -/
theorem C120_typeD_G2 [Fintype K] (hE : E.Ok ξ) (hv : ¬ IsSquare (φ v)) (hD : 4 * a ^ 3 + 27 * b ^ 2 ≠ 0) (hb : Base isSqr sq)
    (hd : Odd d) (hF : Fintype.card F = q) (hK : Fintype.card K = q ^ d) (hN : Nat.card (EC a b).Point = n) (hrn : r ∣ n)
    (hq : r ∣ q ^ d + 1)
    {draws draws' : List K} (hi : typeD2 isSqr sq E q n r d a b v draws draws' = some G)
    (hp : Sampled isSqr sq sgn G p) :
    ∃ (Q : (EC (φ v ^ 2 * φ a) (φ v ^ 3 * φ b)).Point) (p' : Pt K), PtRep p Q ∧ scalar G.a p G.order = some p' ∧
      ∀ (m : Curve.Mem K) (i j : ℕ), m i = p' → (m j).inf = true → Curve.cmp G.a G.quotient m i j = some false := by
  have hv0 : φ v ≠ 0 := fun h => hv (by rw [h]; exact IsSquare.zero)
  have hc := (Props.C92_typeD_points hD hv hd hF hK hN hrn hq).2
  exact (typeD2_sound hE hv0 hD hb hi).1.cmp_zero hb (twist_disc hv0 hD) (by rw [hc]) hp

/-- **C120, what fails** in G2 of types D and G: no cofactor is applied there.  For some delivery of the random source
`element_random` gives an element that is not of order `r`: `element_is0` denies that `r` times it is `O` — although
`element_cmp` calls it equal to `O` (`C120_typeD_G2`). -/
theorem C120_typeD_G2_fails [Fintype K] (hE : E.Ok ξ) (hv : ¬ IsSquare (φ v)) (hD : 4 * a ^ 3 + 27 * b ^ 2 ≠ 0)
    (hb : Base isSqr sq) (hcm : Complete isSqr) (hr : 1 < r)
    (hd : Odd d) (hF : Fintype.card F = q) (hK : Fintype.card K = q ^ d) (hN : Nat.card (EC a b).Point = n) (hrn : r ∣ n)
    (hq : r ∣ q ^ d + 1)
    (h1 : 1 < (PairingD.quotient q n r d).1.natAbs) (hcop : (PairingD.quotient q n r d).1.natAbs.Coprime r)
    {draws : List K} {g : Pt K} (hg : randomNoCofac isSqr sq (φ a) (φ b) draws = some g) :
    ∃ draws' G p p', typeD2 isSqr sq E q n r d a b v draws draws' = some G ∧ random isSqr sq G [] 1 = some p ∧
      scalar G.a p G.order = some p' ∧ p'.inf = false := by
  have hc := (Props.C92_typeD_points hD hv hd hF hK hN hrn hq).2
  obtain ⟨x, g', R, e, hR, hR0⟩ := exists_gen hb hcm h1 hr hcop (by rw [hc])
  have hi : typeD2 isSqr sq E q n r d a b v draws [x] =
      some ⟨φ v ^ 2 * φ a, φ v ^ 3 * φ b, r, none, g', g', some (PairingD.quotient q n r d).1.natAbs, false⟩ := by
    unfold typeD2
    dsimp only
    rw [PairingD.make_const hE, PairingD.make_const hE, PairingD.make_const hE, initCurve, generators, hg]
    dsimp only
    unfold reinitTwist Curve.twist
    dsimp only
    rw [show φ a * φ v * φ v = φ v ^ 2 * φ a by ring, show φ b * φ v * φ v * φ v = φ v ^ 3 * φ b by ring, e]
    rfl
  obtain ⟨p, e1, h1⟩ := scalar_spec hb.two hR 1
  obtain ⟨p', e2, h2⟩ := scalar_spec hb.two h1 r
  refine ⟨[x], _, p, p', hi, e1, e2, ?_⟩
  rw [Bool.eq_false_iff, Ne, rep_inf h2, one_smul]
  exact hR0

end D

section F

variable {F L : Type*} [Field F] [DecidableEq F] [Fintype F] [Fintype K] [Field L] [DecidableEq L] [Fintype L]
  [Algebra F K] [Algebra K L] [Algebra F L] [IsScalarTower F K L]
  {E2 : PairingD.Ext F K} {E12 : PairingD.Ext K L} {η : K} {ξ : L} {q r : ℕ} {b alpha0 alpha1 : F} {x : ℤ}

open PairingF (TypeF nalpha)

local notation "φ" => algebraMap F K

theorem typeF2_bt (h : TypeF E2 E12 η ξ q r alpha0 alpha1) :
    E2.make (fun i => if i = 0 then -alpha0 * b else -alpha1 * b) = nalpha η alpha0 alpha1 * φ b := by
  rw [PairingF.make_two h]
  simp [nalpha]; ring

theorem typeF2_disc (h : TypeF E2 E12 η ξ q r alpha0 alpha1) (hb : b ≠ 0) :
    4 * (0 : K) ^ 3 + 27 * (nalpha η alpha0 alpha1 * φ b) ^ 2 ≠ 0 := by
  have h3 : (3 : K) ≠ 0 := by
    have h6 : 6 ∣ Fintype.card K - 1 := by rw [h.cardK]; exact h.six_dvd 2
    exact Tate.three_ne_of h6
  rw [show 4 * (0 : K) ^ 3 + 27 * (nalpha η alpha0 alpha1 * φ b) ^ 2 = 3 ^ 3 * (nalpha η alpha0 alpha1 * φ b) ^ 2 by ring]
  exact mul_ne_zero (pow_ne_zero 3 h3) (pow_ne_zero 2 (mul_ne_zero h.nalpha_ne (by rwa [Ne, map_eq_zero])))

theorem typeF2_sound (h : TypeF E2 E12 η ξ q r alpha0 alpha1) (h0 : b ≠ 0) (hb : Base isSqr sq) {draws : List K}
    (hi : typeF2 isSqr sq E2 q r b alpha0 alpha1 draws = some G) :
    Sound 0 (nalpha η alpha0 alpha1 * φ b) r none (some (PairingF.quotient q r).1.natAbs) G ∧ G.solve = false := by
  unfold typeF2 at hi
  dsimp only at hi
  rw [typeF2_bt h] at hi
  cases h1 : initCurve isSqr sq 0 (nalpha η alpha0 alpha1 * φ b) r none draws with
  | none => rw [h1] at hi; cases hi
  | some G₁ =>
    rw [h1] at hi
    cases hi
    obtain ⟨hs, hsol⟩ := initCurve_sound hb (typeF2_disc h h0) h1
    exact ⟨⟨hs.ha, hs.hb, hs.ho, hs.hc, rfl, hs.gen⟩, hsol⟩

/-! `element_sqrt` of a quadratic extension fails on elements of the base field (C26), so the draws and the hashes for which it
is called on one are set aside. -/

/-- No value tried makes the right-hand side of the curve an element that `bad` rules out. -/
def Avoids (bad : K → Bool) (a b : K) (draws : List K) : Prop := ∀ u ∈ draws, bad (rhs a b u) = false

/-- What calls of `element_random` and `element_from_hash` can give if the square root is not taken of a bad element. -/
def SampledAvoiding (bad : K → Bool) (isSqr : K → Bool) (sq : K → K) (sgn : K → ℤ) (G : Group K) (p : Pt K) : Prop :=
  (∃ draws x, x < G.order ∧ (G.solve = true → Avoids bad G.a G.b draws) ∧ random isSqr sq G draws x = some p) ∨
  ∃ fuel x, (∀ k < fuel, bad (rhs G.a G.b (Props.hashSeq x k)) = false) ∧ hash isSqr sq sgn G fuel x = some p

theorem noCofac_guard {bad : K → Bool} {a b : K} : ∀ {draws : List K}, Avoids bad a b draws →
    randomNoCofac (fun u => isSqr u && !bad u) sq a b draws = randomNoCofac isSqr sq a b draws
  | [], _ => rfl
  | x :: rest, h => by
    rw [randomNoCofac, randomNoCofac, h x (by simp), noCofac_guard fun u hu => h u (by simp [hu])]
    simp

theorem hashSearch_guard {bad : K → Bool} {a b : K} : ∀ {fuel : ℕ} {x : K},
    (∀ k < fuel, bad (rhs a b (Props.hashSeq x k)) = false) →
    Curve.hashSearch (fun u => isSqr u && !bad u) a b fuel x = Curve.hashSearch isSqr a b fuel x
  | 0, _, _ => rfl
  | fuel + 1, x, h => by
    have h0 : bad (rhs a b x) = false := h 0 (by omega)
    rw [Curve.hashSearch, Curve.hashSearch, h0, hashSearch_guard fun k hk => h (k + 1) (by omega)]
    simp

theorem SampledAvoiding.guard {bad : K → Bool} (h : SampledAvoiding bad isSqr sq sgn G p) :
    Sampled (fun u => isSqr u && !bad u) sq sgn G p := by
  rcases h with ⟨draws, x, hx, ha, h⟩ | ⟨fuel, x, ha, h⟩
  · refine .inl ⟨draws, x, hx, ?_⟩
    rw [random] at h ⊢
    cases hs : G.solve with
    | true => rw [hs, if_pos rfl] at h; rw [if_pos rfl, randomSolve, noCofac_guard (ha hs)]; exact h
    | false => rw [hs] at h; exact h
  · refine .inr ⟨fuel, x, ?_⟩
    rw [hash, fromHash] at h ⊢
    rwa [hashSearch_guard ha]

/-- **C120** for G2 of type F: a sampled element is a point of the twist, and `element_cmp` calls `r` times it equal to
`O`. -/
theorem C120_typeF_G2 (h : TypeF E2 E12 η ξ q r alpha0 alpha1)
    (hf : NonDeg.Family x q r b (nalpha η alpha0 alpha1 * φ b)) {bad : K → Bool}
    (hb : Base (fun u => isSqr u && !bad u) sq) {draws : List K}
    (ha : Avoids bad 0 (nalpha η alpha0 alpha1 * φ b) draws)
    (hi : typeF2 isSqr sq E2 q r b alpha0 alpha1 draws = some G) (hp : SampledAvoiding bad isSqr sq sgn G p) :
    ∃ (Q : (EC 0 (nalpha η alpha0 alpha1 * φ b)).Point) (p' : Pt K), PtRep p Q ∧ scalar G.a p G.order = some p' ∧
      ∀ (m : Curve.Mem K) (i j : ℕ), m i = p' → (m j).inf = true → Curve.cmp G.a G.quotient m i j = some false := by
  have hi' : typeF2 (fun u => isSqr u && !bad u) sq E2 q r b alpha0 alpha1 draws = some G := by
    rw [← hi]
    unfold typeF2 initCurve generators
    dsimp only
    rw [typeF2_bt h, noCofac_guard ha]
  refine (typeF2_sound h hf.hb hb hi').1.cmp_zero hb (typeF2_disc h hf.hb) ?_ hp.guard
  obtain ⟨hT, hn, -, -⟩ := hf.orders h
  obtain ⟨-, hd, -⟩ := NonDeg.C89_quotientF h hf.hx hf.hq hf.hr
  have hn0 : 0 < 2 * q - r := Nat.pos_of_ne_zero fun h0 => by
    rw [h0] at hn; exact hn (dvd_zero _)
  rw [hT]
  refine mul_dvd_mul_right ?_ r
  rw [← Int.natCast_dvd, Nat.cast_sub (by omega)]
  exact_mod_cast hd

/-- **C120, what fails** in G2 of type F: for every set of parameters and for some delivery of the random source
`element_random` gives an element `Q` for which `element_is0` denies that `r Q` is `O`. -/
theorem C120_typeF_G2_fails (h : TypeF E2 E12 η ξ q r alpha0 alpha1)
    (hf : NonDeg.Family x q r b (nalpha η alpha0 alpha1 * φ b)) {bad : K → Bool}
    (hb : Base (fun u => isSqr u && !bad u) sq) (hcm : Complete isSqr) (hbad : ∀ u, bad u = true → u ∈ Set.range φ) :
    ∃ draws G p p', Avoids bad 0 (nalpha η alpha0 alpha1 * φ b) draws ∧
      typeF2 isSqr sq E2 q r b alpha0 alpha1 draws = some G ∧ random isSqr sq G [] 1 = some p ∧
      scalar G.a p G.order = some p' ∧ p'.inf = false := by
  obtain ⟨hT, hn, -, -⟩ := hf.orders h
  have hnum : r + (6 * q + 1) < (2 * q - r) * r := by
    have hq := hf.hq
    have hr := hf.hr
    rw [Tate.bnQ] at hq
    rw [Tate.bnR] at hr
    have hx2 : 1 ≤ x ^ 2 := by have := hf.hx; have : 0 < x ^ 2 := by positivity
                               omega
    have h4 : 1 ≤ x ^ 4 := by nlinarith
    have h5 : (25 : ℤ) ≤ 2 * q - r := by
      rw [hq, hr]
      rcases lt_or_gt_of_ne hf.hx with h | h
      · nlinarith [sq_nonneg (x * (x + 1)), sq_nonneg (x + 1), mul_nonneg (sq_nonneg x) (show 0 ≤ -(x + 1) by omega)]
      · nlinarith [pow_pos h 3]
    have h6 : (2 : ℤ) * q ≤ 3 * r := by
      rw [hq, hr]
      nlinarith [sq_nonneg (x * (2 * x + 1)), sq_nonneg (x + 1), sq_nonneg (x * (x + 1)), sq_nonneg (2 * x + 1)]
    have h7 : (25 : ℤ) * r ≤ (2 * q - r) * r := by
      exact mul_le_mul_of_nonneg_right h5 (Int.natCast_nonneg r)
    have h8 : 0 < q := by
      rw [← h.cardF]; exact Fintype.card_pos
    have h9 : r ≤ 2 * q := by omega
    zify [h9]
    omega
  have hfr : Fact r.Prime := ⟨h.prime⟩
  obtain ⟨S, hS⟩ := exists_prime_addOrderOf_dvd_card' (G := (EC 0 (nalpha η alpha0 alpha1 * φ b)).Point) r
    (hT ▸ Dvd.intro_left _ rfl)
  have hS0 : S ≠ 0 := by rintro rfl; rw [addOrderOf_zero] at hS; exact h.prime.one_lt.ne hS
  obtain ⟨u, y, hns, hQ, hy⟩ : ∃ u y hns, r • (.some u y hns : (EC 0 (nalpha η alpha0 alpha1 * φ b)).Point) ≠ 0 ∧
      y ^ 2 ∉ Set.range φ := by
    by_contra hc
    push_neg at hc
    have hcov : ∀ P : (EC 0 (nalpha η alpha0 alpha1 * φ b)).Point, P ∈ AddSubgroup.zmultiples S ∨
        ∀ u y hn, P = .some u y hn → y ^ 2 ∈ Set.range φ := fun P => by
      by_cases hP : r • P = 0
      · exact .inl (NonDeg.mem_zmultiples_of_torsion h.prime hT hn hS0 (hS ▸ addOrderOf_nsmul_eq_zero S) hP)
      · right
        rintro u y hn rfl
        exact hc u y hn hP
    have h1 : Nat.card (EC 0 (nalpha η alpha0 alpha1 * φ b)).Point ≤ Nat.card (AddSubgroup.zmultiples S) +
        Nat.card {P : (EC 0 (nalpha η alpha0 alpha1 * φ b)).Point // ∀ u y hn, P = .some u y hn → y ^ 2 ∈ Set.range φ} := by
      classical
      rw [← Nat.card_sum]
      refine Nat.card_le_card_of_injective (fun P => if hP : P ∈ AddSubgroup.zmultiples S then Sum.inl ⟨P, hP⟩ else
        Sum.inr ⟨P, (hcov P).resolve_left hP⟩) fun P Q e => ?_
      by_cases hP : P ∈ AddSubgroup.zmultiples S <;> by_cases hQ : Q ∈ AddSubgroup.zmultiples S <;>
        simp [hP, hQ] at e
      · exact e
      · exact e
    have h2 := Props.card_base (F := F) (nalpha η alpha0 alpha1 * φ b)
    rw [Nat.card_zmultiples, hS, hT] at h1
    rw [h.cardF] at h2
    omega
  have hyb : bad (y ^ 2) = false := Bool.eq_false_iff.2 fun h => hy (hbad _ h)
  have hy0 : y ≠ 0 := by
    rintro rfl
    exact hy ⟨0, by simp⟩
  have hav : Avoids bad 0 (nalpha η alpha0 alpha1 * φ b) [u] := by
    intro w hw
    obtain rfl : w = u := by simpa using hw
    rw [show rhs 0 (nalpha η alpha0 alpha1 * φ b) w = y ^ 2 by
      have := Tate.eqn_of hns
      rw [rhs]; linear_combination -this]
    exact hyb
  obtain ⟨g, R, e, hR, hR0⟩ := exists_gen_of hb hns (by rw [hcm y hy0, hyb]; rfl) hQ
  have hi : typeF2 isSqr sq E2 q r b alpha0 alpha1 [u] =
      some ⟨0, nalpha η alpha0 alpha1 * φ b, r, none, g, g, some (PairingF.quotient q r).1.natAbs, false⟩ := by
    unfold generators at e
    rw [noCofac_guard hav] at e
    unfold typeF2 initCurve generators
    dsimp only at e ⊢
    rw [typeF2_bt h, e]
    rfl
  obtain ⟨p, e1, h1⟩ := scalar_spec hb.two hR 1
  obtain ⟨p', e2, h2⟩ := scalar_spec hb.two h1 r
  refine ⟨[u], _, p, p', hav, hi, e1, e2, ?_⟩
  rw [Bool.eq_false_iff, Ne, rep_inf h2, one_smul]
  exact hR0

end F

end twists

/-! ### Instances -/

section instances

/-- A test for squares modulo `p`. -/
def sqrP (p : ℕ) (a : ZMod p) : Bool := (List.range p).any fun y : ℕ => (y : ZMod p) ^ 2 = a

/-- A square root modulo `p`. -/
def rootP (p : ℕ) (a : ZMod p) : ZMod p :=
  (((List.range p).find? fun y : ℕ => decide ((y : ZMod p) ^ 2 = a)).getD 0 : ℕ)

/-- The sign modulo `p`. -/
def sgnP (p : ℕ) (a : ZMod p) : ℤ := if a = 0 then 0 else if a.val ≤ p / 2 then 1 else -1

theorem sqrP_iff {p : ℕ} [NeZero p] (a : ZMod p) : sqrP p a = true ↔ ∃ y, y ^ 2 = a := by
  rw [sqrP, List.any_eq_true]
  constructor
  · rintro ⟨y, -, h⟩
    exact ⟨y, of_decide_eq_true h⟩
  · rintro ⟨y, rfl⟩
    exact ⟨y.val, List.mem_range.2 y.val_lt, by simp⟩

theorem baseP {p : ℕ} [hp : Fact p.Prime] (h2 : p ≠ 2) : Base (sqrP p) (rootP p) where
  two := Ring.two_ne_zero (by rw [ZMod.ringChar_zmod_n]; exact h2)
  root a ha := by
    obtain ⟨y, rfl⟩ := (sqrP_iff a).1 ha
    rw [rootP]
    cases h : (List.range p).find? fun z : ℕ => decide ((z : ZMod p) ^ 2 = y ^ 2) with
    | none =>
      have := List.find?_eq_none.1 h y.val (List.mem_range.2 y.val_lt)
      simp at this
    | some z => simpa using List.find?_some h

theorem completeP {p : ℕ} [hp : Fact p.Prime] : Complete (sqrP p) := fun a _ => (sqrP_iff _).2 ⟨a, rfl⟩

open Pbc.PairingA (typeA43 typeA59)
open Pbc.NonDeg (E79 type79 twist79)

/-- Type A with `q = 43`, `r = 11`, `h = 4`: a group, a random element and a hashed one. -/
def G43 : Group (ZMod 43) := ⟨1, 0, 11, some 4, ⟨false, 2, 15⟩, ⟨false, 31, 18⟩, none, false⟩

theorem typeA_43 : typeA (sqrP 43) (rootP 43) 11 4 [2, 3, 4] = some G43 := by decide +kernel

theorem sampled43 : Sampled (sqrP 43) (rootP 43) (sgnP 43) G43 ⟨false, 14, 36⟩ :=
  .inl ⟨[], 5, by decide, by decide +kernel⟩

theorem hashed43 : Sampled (sqrP 43) (rootP 43) (sgnP 43) G43 ⟨false, 23, 8⟩ := .inr ⟨9, 7, by decide +kernel⟩

example : InGroup (1 : ZMod 43) 0 11 ⟨false, 14, 36⟩ := C120_typeA typeA43 (baseP (by decide)) typeA_43 sampled43

example := C120_typeA_pairing typeA43 (baseP (by decide)) typeA_43 sampled43 hashed43

example := C120_uniform (baseP (by decide)) (by norm_num)
  (initCurve_sound (baseP (by decide)) (typeA_disc (baseP (by decide)).two) typeA_43).1 rfl
  (NonDeg.smul_cof typeA43.cof) rfl

example := C120_generator_fails (r := 11) (draws := [2, 3, 4]) (sgn := sgnP 43) (baseP (p := 43) (by decide)) (by decide +kernel)
  (by decide : Even 4)

/-- Type A1 with `p = 59`, `n = 15`, `l = 4`. -/
example : InGroup (1 : ZMod 59) 0 15 ⟨false, 12, 41⟩ :=
  C120_typeA1 (sgn := sgnP 59) (draws := [2, 3, 4]) (G := ⟨1, 0, 15, some 4, ⟨false, 4, 3⟩, ⟨false, 29, 13⟩, none, true⟩) typeA59
    (baseP (by decide)) (by decide +kernel) (.inl ⟨[7, 8, 9, 11, 12], 5, by decide, by decide +kernel⟩)

private instance prime1453 : Fact (Nat.Prime 1453) := ⟨by norm_num⟩

/-- Type E with `q = 1453`, `r = 11`, `h = 12`. -/
example : InGroup (0 : ZMod 1453) 1 11 ⟨false, 390, 903⟩ :=
  C120_typeE (sgn := sgnP 1453) (draws := [3]) (R := ⟨false, 3, 639⟩)
    (G := ⟨0, 1, 11, some 12, ⟨false, 3, 639⟩, ⟨false, 504, 337⟩, none, false⟩) PairingE.params1453 PairingE.numbers1453
    (by decide) (baseP (by decide)) (by decide +kernel) (.inl ⟨[], 3, by decide, by decide +kernel⟩)

private instance prime79 : Fact (Nat.Prime 79) := ⟨by norm_num⟩

/-- Type D with `q = 79`, `n = 90`, `r = 5`, `h = 18`. -/
theorem card79 : Nat.card (EC (1 : ZMod 79) 23).Point = 18 * 5 := by
  rw [Tate.card_eq (Tate.nonsingular_of_disc (by decide) (by decide))]
  decide +kernel

example : InGroup (1 : ZMod 79) 23 5 ⟨false, 76, 25⟩ :=
  C120_typeD (sgn := sgnP 79) (draws := [0]) (G := ⟨1, 23, 5, some 18, ⟨false, 0, 24⟩, ⟨false, 57, 52⟩, none, false⟩) (by decide) card79
    (baseP (by decide)) (by decide +kernel) (.inl ⟨[], 3, by decide, by decide +kernel⟩)

theorem nonsq79 : ¬ IsSquare (algebraMap (ZMod 79) (ZMod 79) 3) := by
  simp only [Algebra.algebraMap_self, RingHom.id_apply]; decide +kernel

example := C120_typeD_G2 (sgn := sgnP 79) (q := 79) (n := 90) (r := 5) (d := 1) (draws := [0]) (draws' := [3, 4]) (p := ⟨false, 9, 3⟩)
  (G := ⟨9, 68, 5, none, ⟨false, 4, 22⟩, ⟨false, 4, 22⟩, some 14, false⟩) type79.ok
  nonsq79 (by decide : 4 * (1 : ZMod 79) ^ 3 + 27 * 23 ^ 2 ≠ 0)
  (baseP (by decide)) (by decide) (ZMod.card 79) (ZMod.card 79) card79 (by decide) (by decide) (by decide +kernel) (.inl ⟨[], 3, by decide, by decide +kernel⟩)

example := C120_typeD_G2_fails (q := 79) (n := 90) (r := 5) (d := 1) (draws := [0]) (g := ⟨false, 0, 24⟩) type79.ok
  nonsq79 (by decide : 4 * (1 : ZMod 79) ^ 3 + 27 * 23 ^ 2 ≠ 0)
  (baseP (by decide)) completeP (by decide) (by decide) (ZMod.card 79) (ZMod.card 79) card79 (by decide) (by decide) (by decide +kernel) (by decide +kernel)
  (by simp only [Algebra.algebraMap_self, RingHom.id_apply]; decide +kernel)

private instance prime19 : Fact (Nat.Prime 19) := ⟨by norm_num⟩

/-- Type F with `q = 19`, `r = 13`. -/
example : InGroup (0 : ZMod 19) 2 13 ⟨false, 6, 3⟩ :=
  C120_typeF (sgn := sgnP 19) (draws := [4]) (G := ⟨0, 2, 13, none, ⟨false, 4, 3⟩, ⟨false, 4, 3⟩, none, false⟩) (by decide) (by decide)
    NonDeg.card19 (baseP (by decide)) (by decide +kernel) (.inl ⟨[], 3, by decide, by decide +kernel⟩)

open Classical in
/-- A test for squares and a square root that is right outside the elements `bad`. -/
theorem base_exists {K : Type} [Field K] (h2 : (2 : K) ≠ 0) (bad : K → Bool) :
    ∃ (isSqr : K → Bool) (sq : K → K), Base (fun u => isSqr u && !bad u) sq ∧ Complete isSqr ∧ ∀ u, bad u = true → sq u = 0 :=
  ⟨fun a => decide (∃ y, y ^ 2 = a), fun a => if bad a then 0 else if h : ∃ y, y ^ 2 = a then h.choose else 0,
    { two := h2
      root := fun a ha => by
        rw [Bool.and_eq_true, decide_eq_true_eq, Bool.not_eq_true'] at ha
        rw [ha.2, if_neg (by simp), dif_pos ha.1]
        exact ha.1.choose_spec }, fun a _ => decide_eq_true ⟨a, rfl⟩, fun u hu => by dsimp only; rw [if_pos hu]⟩

/-- G2 of type F with `q = 19`, `r = 13`: the curve over the field of 361 elements, an element that is not of order 13, and
what `element_is0` says of 13 times it; the square root is wrong on the field of 19 elements. -/
example : ∃ (isSqr : NonDeg.K361 → Bool) (sq : NonDeg.K361 → NonDeg.K361) (draws : List NonDeg.K361)
    (G : Group NonDeg.K361) (p p' : Pt NonDeg.K361), (∀ u : NonDeg.K361, u.im = 0 → sq u = 0) ∧
    typeF2 isSqr sq NonDeg.E361 19 13 (2 : ZMod 19) 18 10 draws = some G ∧ random isSqr sq G [] 1 = some p ∧
      scalar G.a p G.order = some p' ∧ p'.inf = false ∧
      Curve.cmp G.a G.quotient (fun i => if i = 0 then p' else ⟨true, 0, 0⟩) 0 1 = some false := by
  obtain ⟨L, i1, i2, i3, i4, E12, ξ, p, ht, hf, -, -⟩ := NonDeg.C107_typeF_generated (x := -1) NonDeg.ok361 rfl
    (ZMod.card 19) NonDeg.card361 (by norm_num) rfl rfl (by norm_num : Nat.Prime 13) (by decide) NonDeg.card19
    NonDeg.irr361 NonDeg.twist361
  letI : Algebra (ZMod 19) L := ((algebraMap NonDeg.K361 L).comp (algebraMap (ZMod 19) NonDeg.K361)).toAlgebra
  have : IsScalarTower (ZMod 19) NonDeg.K361 L := IsScalarTower.of_algebraMap_eq fun _ => rfl
  obtain ⟨isSqr, sq, hb, hcm, hbad⟩ := base_exists (K := NonDeg.K361) (by decide) (fun u => u.im = 0)
  obtain ⟨draws, G, p, p', h0, h1, h2, h3, h4⟩ := C120_typeF_G2_fails ht hf hb hcm fun u hu => ⟨u.re, by
    have hu : u.im = 0 := of_decide_eq_true hu
    ext
    · simp
    · simp [hu]⟩
  obtain ⟨Q, p'', -, h5, h6⟩ := C120_typeF_G2 (sgn := fun _ => 0) (p := p) ht hf hb h0 h1 (.inl ⟨[], 1, by
    have ho : G.order = 13 := by
      unfold typeF2 initCurve at h1
      dsimp only at h1
      split at h1 <;> cases h1
      rename_i h
      split at h <;> cases h
      rfl
    rw [ho]; decide, fun _ u hu => by simp at hu, h2⟩)
  obtain rfl := Option.some.inj (h3.symm.trans h5)
  exact ⟨isSqr, sq, draws, G, p, p', fun u hu => hbad u (by simpa using hu), h1, h2, h3, h4, h6 _ 0 1 rfl rfl⟩

end instances

end Pbc.Setup
