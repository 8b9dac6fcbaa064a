import Verif.Lemmas.CertPoint
import Verif.Props.PairingE

/-! # Values of the pairing of type E that the kernel can evaluate -/

set_option autoImplicit false

namespace Pbc.Certify

open Pbc.Curve (Pt)
open Pbc.Quad (inv?)
open Pbc.PairingA (Abc copy)
open Pbc.PairingE (Acc Proj Data)
open Spec
open WeierstrassCurve.Affine (Point)

variable {K : Type*} [Field K] [DecidableEq K] (A : Arith K)

def Arith.sub (x y : A.C) : A.C := A.add x (A.neg y)

def Arith.dbl' (x : A.C) : A.C := A.add x x

theorem Arith.rep_sub (x y : A.C) : A.rep (A.sub x y) = A.rep x - A.rep y := by
  rw [Arith.sub, A.rep_add, A.rep_neg, sub_eq_add_neg]

theorem Arith.rep_dbl' (x : A.C) : A.rep (A.dbl' x) = 2 * A.rep x := by
  rw [Arith.dbl', A.rep_add, two_mul]

/-- `projDouble` on codes. -/
def Arith.projDouble (ca : A.C) (Z : Proj A.C) : Proj A.C :=
  let e0 := A.mul Z.x Z.x
  let e0 := A.add e0 (A.dbl' e0)
  let e0 := A.add e0 (A.mul (A.mul Z.z2 Z.z2) ca)
  let z := A.dbl' (A.mul Z.y Z.z)
  let e2 := A.mul Z.y Z.y
  let e1 := A.dbl' (A.dbl' (A.mul Z.x e2))
  let x := A.sub (A.mul e0 e0) (A.dbl' e1)
  let e2 := A.dbl' (A.dbl' (A.dbl' (A.mul e2 e2)))
  ⟨x, A.sub (A.mul e0 (A.sub e1 x)) e2, z, A.mul z z⟩

/-- `tangentProj` on codes. -/
def Arith.tangentProj (ca : A.C) (Z : Proj A.C) : Abc A.C :=
  let b := A.mul Z.x Z.x
  let a := A.neg (A.add (A.mul (A.mul Z.z2 Z.z2) ca) (A.add b (A.dbl' b)))
  let e0 := A.dbl' Z.y
  ⟨A.mul a Z.z2, A.mul (A.mul e0 Z.z2) Z.z, A.neg (A.add (A.mul Z.x a) (A.mul e0 Z.y))⟩

/-- The value of a line at a point. -/
def Arith.at' (l : Abc A.C) (p : A.C × A.C) : A.C := A.add (A.add (A.mul l.a p.1) (A.mul l.b p.2)) l.c

/-- `n` rounds of the loop on codes. -/
def Arith.projLoop (ca : A.C) (num denom : A.C × A.C) : ℕ → Proj A.C → A.C → A.C → Proj A.C × A.C × A.C
  | 0, Z, v, vd => (Z, v, vd)
  | n + 1, Z, v, vd =>
    let l := A.tangentProj ca Z
    let v := A.mul (A.mul v v) (A.at' l num)
    let vd := A.mul (A.mul vd vd) (A.at' l denom)
    let Z := A.projDouble ca Z
    projLoop ca num denom n Z (A.mul v (A.sub (A.mul denom.1 Z.z2) Z.x)) (A.mul vd (A.sub (A.mul num.1 Z.z2) Z.x))

/-- `toAffine` on codes. -/
def Arith.toAffine (Z : Proj A.C) : Option (A.C × A.C) :=
  let i := A.inv Z.z
  if A.mul Z.z i = A.one then
    let e0 := A.mul i i
    some (A.mul Z.x e0, A.mul Z.y (A.mul e0 i))
  else none

/-- `millerProj` on codes, when both signs are positive: numerator and denominator. -/
def Arith.miller (ca : A.C) (exp2 exp1 : ℕ) (p num denom : A.C × A.C) : Option (A.C × A.C) :=
  let s := A.projLoop ca num denom exp1 ⟨p.1, p.2, A.one, A.one⟩ A.one A.one
  match A.toAffine s.1 with
  | none => none
  | some Z1 =>
    let t := A.projLoop ca num denom (exp2 - exp1) ⟨Z1.1, Z1.2, A.one, A.one⟩ s.2.1 s.2.2
    match A.toAffine t.1 with
    | none => none
    | some Z =>
      match A.plus Z Z1 with
      | none => none
      | some W =>
        let l : Abc A.C := ⟨A.sub Z.2 Z1.2, A.sub Z1.1 Z.1, A.sub (A.mul Z.1 Z1.2) (A.mul Z.2 Z1.1)⟩
        let v := A.mul (A.mul t.2.1 s.2.1) (A.at' l num)
        let vd := A.mul (A.mul t.2.2 s.2.2) (A.at' l denom)
        let v := A.mul v (A.sub denom.1 W.1)
        let vd := A.mul vd (A.sub num.1 W.1)
        some (A.mul v (A.sub num.1 p.1), A.mul vd (A.sub denom.1 p.1))

/-- The pairing before the final powering. -/
def Arith.pair (ca : A.C) (exp2 exp1 : ℕ) (p q s : A.C × A.C) : Option (A.C × A.C) :=
  match A.plus q s with
  | none => none
  | some num => A.miller ca exp2 exp1 p num s

variable {A}

def repProj (Z : Proj A.C) : Proj K := ⟨A.rep Z.x, A.rep Z.y, A.rep Z.z, A.rep Z.z2⟩

def repAbc (l : Abc A.C) : Abc K := ⟨A.rep l.a, A.rep l.b, A.rep l.c⟩

def repPt (p : A.C × A.C) : Pt K := ⟨false, A.rep p.1, A.rep p.2⟩

theorem repProj_double (ca : A.C) (Z : Proj A.C) :
    repProj (A.projDouble ca Z) = PairingE.projDouble (A.rep ca) (repProj Z) := by
  simp only [repProj, Arith.projDouble, PairingE.projDouble, A.rep_sub, A.rep_dbl', A.rep_mul, A.rep_add, Proj.mk.injEq]
  refine ⟨?_, ?_, ?_, ?_⟩ <;> first | trivial | ring

theorem repAbc_tangent (ca : A.C) (Z : Proj A.C) :
    repAbc (A.tangentProj ca Z) = PairingE.tangentProj (A.rep ca) (repProj Z) := by
  simp only [repProj, repAbc, Arith.tangentProj, PairingE.tangentProj, A.rep_neg, A.rep_dbl', A.rep_mul, A.rep_add, Abc.mk.injEq]
  refine ⟨?_, ?_, ?_⟩ <;> first | trivial | ring

theorem rep_at' (l : Abc A.C) (p : A.C × A.C) :
    A.rep (A.at' l p) = (repAbc l).a * A.rep p.1 + (repAbc l).b * A.rep p.2 + (repAbc l).c := by
  simp only [Arith.at', A.rep_add, A.rep_mul, repAbc]

theorem rep_projLoop (ca : A.C) (num denom : A.C × A.C) : ∀ (n : ℕ) (Z : Proj A.C) (v vd : A.C),
    PairingE.projLoop (A.rep ca) (repPt num) (repPt denom) n (repProj Z) ⟨A.rep v, A.rep vd⟩ =
      (repProj (A.projLoop ca num denom n Z v vd).1, ⟨A.rep (A.projLoop ca num denom n Z v vd).2.1,
        A.rep (A.projLoop ca num denom n Z v vd).2.2⟩)
  | 0, _, _, _ => rfl
  | n + 1, Z, v, vd => by
    rw [Arith.projLoop, PairingE.projLoop]
    rw [← rep_projLoop ca num denom n, ← repProj_double, ← repAbc_tangent]
    generalize A.projDouble ca Z = W
    generalize A.tangentProj ca Z = T
    congr 1
    simp only [Acc.vertInv, Acc.vert, Acc.swap, Acc.line, Acc.sq, A.rep_mul, A.rep_sub, rep_at', repPt, repProj, Acc.mk.injEq]
    constructor <;> ring

theorem rep_toAffine {Z : Proj A.C} {p : A.C × A.C} (e : A.toAffine Z = some p) :
    PairingE.toAffine (repProj Z) = some (repPt p) := by
  simp only [Arith.toAffine, Option.ite_none_right_eq_some, Option.some.injEq] at e
  obtain ⟨hi, rfl⟩ := e
  have hi' := congrArg A.rep hi
  rw [A.rep_mul, A.rep_one] at hi'
  have h0 := left_ne_zero_of_mul_eq_one hi'
  have hinv := eq_inv_of_mul_eq_one_right hi'
  rw [PairingE.toAffine, show inv? (repProj Z).z = some (A.rep Z.z)⁻¹ from if_neg h0]
  simp only [repProj, repPt, A.rep_mul, hinv, Option.some.injEq, Pt.mk.injEq, true_and]
  constructor <;> ring

theorem rep_plus {ca : K} {p q s : A.C × A.C} (e : A.plus p q = some s) :
    PairingD.add ca (repPt p) (repPt q) = some (repPt s) := by
  simp only [Arith.plus, Option.ite_none_right_eq_some, Option.some.injEq] at e
  obtain ⟨hi, rfl⟩ := e
  have hi' := congrArg A.rep hi
  rw [A.rep_mul, A.rep_add, A.rep_neg, A.rep_one, ← sub_eq_add_neg] at hi'
  have hinv := eq_inv_of_mul_eq_one_right hi'
  have h0 := left_ne_zero_of_mul_eq_one hi'
  have hne : A.rep p.1 ≠ A.rep q.1 := fun h => h0 (by rw [h, sub_self])
  have e0 : inv? (A.rep q.1 - A.rep p.1) = some (A.rep q.1 - A.rep p.1)⁻¹ := if_neg h0
  simp only [PairingD.add, Curve.add, repPt, if_true, Bool.false_eq_true, if_false, hne, e0, one_ne_zero, Option.map_some,
    Option.some.injEq, Curve.wX, Curve.wY, Curve.wInf, Function.update_self, Arith.third, A.rep_add, A.rep_mul, A.rep_neg,
    hinv, Pt.mk.injEq, true_and]
  constructor <;> ring

theorem rep_miller {ca : A.C} {exp2 exp1 : ℕ} {p num denom w : A.C × A.C} (e : A.miller ca exp2 exp1 p num denom = some w)
    {d : Data K} (ha : d.a = A.rep ca) (h2 : d.exp2 = exp2) (h1 : d.exp1 = exp1) (hs1 : d.sign1 = 1) (hs0 : d.sign0 = 1) :
    PairingE.millerProj d (repPt p) (repPt num) (repPt denom) = (inv? (A.rep w.2)).map (A.rep w.1 * ·) := by
  simp only [Arith.miller] at e
  rw [PairingE.millerProj, ha, h2, h1]
  have hcopy : ∀ w : A.C × A.C, copy (repPt w : Pt K) = repPt w := fun w => by
    simp [copy, Curve.set, repPt, Curve.wInf, Curve.wX, Curve.wY]
  have h0 : (⟨(copy (repPt p : Pt K)).x, (copy (repPt p : Pt K)).y, 1, 1⟩ : Proj K) = repProj ⟨p.1, p.2, A.one, A.one⟩ := by
    rw [hcopy]; simp only [repPt, repProj, A.rep_one]
  have h1' : (Acc.one : Acc K) = ⟨A.rep A.one, A.rep A.one⟩ := by rw [A.rep_one]; rfl
  rw [h0, h1', rep_projLoop]
  generalize A.projLoop ca num denom exp1 ⟨p.1, p.2, A.one, A.one⟩ A.one A.one = s at e ⊢
  rcases e1 : A.toAffine s.1 with _ | Z1
  · rw [e1] at e; cases e
  rw [e1] at e
  dsimp only at e ⊢
  rw [rep_toAffine e1]
  dsimp only
  have h3 : (⟨(repPt Z1 : Pt K).x, (repPt Z1 : Pt K).y, 1, 1⟩ : Proj K) = repProj ⟨Z1.1, Z1.2, A.one, A.one⟩ := by
    simp only [repPt, repProj, A.rep_one]
  rw [h3, rep_projLoop]
  generalize A.projLoop ca num denom (exp2 - exp1) ⟨Z1.1, Z1.2, A.one, A.one⟩ s.2.1 s.2.2 = t at e ⊢
  rcases e2 : A.toAffine t.1 with _ | Z
  · rw [e2] at e; cases e
  rw [e2] at e
  dsimp only at e ⊢
  rw [rep_toAffine e2]
  dsimp only
  rcases e3 : A.plus Z Z1 with _ | W
  · rw [e3] at e; cases e
  rw [e3] at e
  cases e
  rw [PairingE.branch, if_neg (by rw [hs1]; decide), PairingE.finish, hcopy, rep_plus e3]
  dsimp only
  rw [if_pos (by rw [hs0]; decide)]
  simp only [Acc.vertInv, Acc.vert, Acc.swap, Acc.line, PairingE.line, A.rep_mul, A.rep_sub, rep_at', repPt, repAbc, mul_one]
  split <;> rename_i h <;> rw [h] <;> rfl

/-- What the codes give is the value of the pairing. -/
theorem pair_sound [Fintype K] {a b : K} {q r exp2 exp1 : ℕ} (h : TypeE K q r exp2 exp1 1 1) {R P Q : (EC a b).Point}
    (hR : GoodShift r R) (hP : r • P = 0) (hQ : r • Q = 0) {ca : A.C} (ha : A.rep ca = a) {p t s w : A.C × A.C}
    (hp : A.At p P) (ht : A.At t Q) (hs : A.At s R) (e : A.pair ca exp2 exp1 p t s = some w) :
    A.rep w.2 ≠ 0 ∧ PairingE.eE q r R P Q * A.rep w.2 ^ ((q - 1) / r) = A.rep w.1 ^ ((q - 1) / r) := by
  have hrep : ∀ {u : A.C × A.C} {U : (EC a b).Point}, A.At u U → PtRep (repPt u : Pt K) U := by
    rintro u U ⟨hn, rfl⟩
    exact ⟨rfl, rfl, rfl⟩
  rw [Arith.pair] at e
  rcases e1 : A.plus t s with _ | num
  · rw [e1] at e; cases e
  rw [e1] at e
  dsimp only at e
  have hv := (PairingE.C93_typeE h hR (hrep hs)).2 _ (.inr rfl) P Q _ _ (hrep hp) (hrep ht) hP hQ
  rw [PairingF.apply, if_neg (by simp [repPt]), if_neg (by simp [repPt]), PairingE.pairing] at hv
  obtain ⟨n', en, hn'⟩ := Curve.addV_rep h.two (hrep ht) (hrep hs)
  have hnum : n' = repPt num := by
    obtain ⟨hn, e2⟩ := plus_at ht hs e1
    rw [e2] at hn'
    obtain ⟨i1, i2, i3⟩ := hn'
    cases n'
    simp only at i1 i2 i3
    simp only [repPt, i1, i2, i3]
  rw [show (PairingE.init q r a exp2 exp1 1 1 (repPt s)).a = a from rfl,
    show (PairingE.init q r a exp2 exp1 1 1 (repPt s)).R = repPt s from rfl, en] at hv
  dsimp only at hv
  rw [hnum, rep_miller e ha.symm rfl rfl rfl rfl] at hv
  by_cases h0 : A.rep w.2 = 0
  · rw [show inv? (A.rep w.2) = none from if_pos h0] at hv
    cases hv
  · rw [show inv? (A.rep w.2) = some (A.rep w.2)⁻¹ from if_neg h0] at hv
    dsimp only [Option.map_some] at hv
    rw [Gen.powMpz_spec] at hv
    have := Option.some.inj hv
    refine ⟨h0, ?_⟩
    rw [← this, show (PairingE.init q r a exp2 exp1 1 1 (repPt s)).phikonr = (q - 1) / r from rfl, ← mul_pow, mul_assoc,
      inv_mul_cancel₀ h0, mul_one]

end Pbc.Certify
