import Verif.Lemmas.EllNetTateK
import Verif.Lemmas.EllNetMult
import Verif.Props.PairingA
import Verif.Props.PairingD
import Verif.Props.PairingE

/-! # C55: the Shipsey-Stange methods -/

set_option autoImplicit false
set_option linter.unusedSectionVars false

namespace Pbc.EllNet

open Pbc.Curve (Pt)
open Pbc.Quad
open WeierstrassCurve WeierstrassCurve.Affine
open Spec (EC PtRep divPoly)
open Tate _root_.EllNet
open Pbc.PairingD (incl)

/-! ### The block of division polynomials -/

section

variable {F : Type*} [Field F] [DecidableEq F] {V : Type*}

/-- **C55**, the block: after the bits of `r` the eight terms are the division polynomials of the curve
at `r - 3, …, r + 4`, evaluated at the point.  Nothing is assumed on the point but `2 y ≠ 0`. -/
theorem C55_block (o : Ops F V) (a b x y : F) (hy : 2 * y ≠ 0) {r : ℕ} (hr : 3 ≤ r) (d : DBlock V) {C : F}
    (hC : inv? (first a b x y).c1 = some C) :
    (loop o C r (PairingD.start r) (first a b x y) d).1 =
      ⟨divPoly a b x y (r - 3), divPoly a b x y (r - 2), divPoly a b x y (r - 1), divPoly a b x y r,
        divPoly a b x y (r + 1), divPoly a b x y (r + 2), divPoly a b x y (r + 3),
        divPoly a b x y (r + 4)⟩ := by
  have e : (first a b x y).c1 = 2 * y := rfl
  rw [e, inv?, if_neg hy, Option.some.injEq] at hC
  refine loop_c (by rw [← hC, inv_mul_cancel₀ hy]) o r _ _ _ ?_
  rw [PairingD.start_shift hr]
  exact first_at a b x y

end

/-! ### Type A -/

section A

variable {K : Type*} [Field K] [DecidableEq K]

/-- The records of the rounds. -/
def recs (C : K) (r : ℕ) : ℕ → Block K → List (Rec K)
  | 0, c => [(sts c).keep]
  | m + 1, c => (sts c).keep :: recs C r m (stepC C (r.testBit (m + 1)) (sts c))

theorem ppLoopA_eq (C : K) (r cap : ℕ) : ∀ (m : ℕ) (c : Block K) (t : List (Rec K)),
    t.length + (m + 1) ≤ cap → ppLoopA C r cap m c t = some (t ++ recs C r m c)
  | 0, c, t, h => by rw [ppLoopA, if_pos (by omega), recs]
  | m + 1, c, t, h => by
    rw [ppLoopA, if_pos (by omega), ppLoopA_eq C r cap m _ _ (by rw [List.length_append, List.length_singleton]; omega),
      recs, List.append_assoc, List.singleton_append]

theorem ppApplyLoopA_eq (o : Ops K (El K)) (C : K) (r : ℕ) : ∀ (m : ℕ) (c : Block K) (t : List (Rec K))
    (d : DBlock (El K)), ppApplyLoopA o r (t ++ recs C r m c) m t.length d = some (loop o C r m c d).2
  | 0, c, t, d => by
    have : (t ++ recs C r 0 c)[t.length]? = some (sts c).keep := by simp [recs]
    rw [ppApplyLoopA, this]
    rfl
  | m + 1, c, t, d => by
    have : (t ++ recs C r (m + 1) c)[t.length]? = some (sts c).keep := by simp [recs]
    rw [ppApplyLoopA, this]
    have e : t ++ recs C r (m + 1) c = (t ++ [(sts c).keep]) ++
        recs C r m (stepC C (r.testBit (m + 1)) (sts c)) := by
      rw [List.append_assoc, List.singleton_append, recs]
    have := ppApplyLoopA_eq o C r m (stepC C (r.testBit (m + 1)) (sts c)) (t ++ [(sts c).keep])
      (stepD o (r.testBit (m + 1)) (sts c).keep d)
    rw [List.length_append, List.length_singleton] at this
    dsimp only
    rw [e, this]
    rfl

/-- Preprocessing fits in its table and gives what the direct method gives. -/
theorem ppA_eq (inv : K → K) {r : ℕ} (hr : 3 ≤ r) (phikonr : ℕ) (P Q : Pt K) (hy : 2 * P.y ≠ 0) :
    ∃ t, ppInitA r P = some t ∧ ppApplyA inv r phikonr t Q = pairingA inv r phikonr P Q := by
  have e : (firstA P.x P.y).c1 = 2 * P.y := rfl
  have hi : inv? (firstA P.x P.y).c1 = some (2 * P.y)⁻¹ := by rw [e, inv?, if_neg hy]
  have hb := PairingD.start_bits hr
  refine ⟨⟨P.x, P.y, recs (2 * P.y)⁻¹ r (PairingD.start r) (firstA P.x P.y)⟩, ?_, ?_⟩
  · unfold ppInitA
    dsimp only
    rw [hi]
    dsimp only
    rw [ppLoopA_eq _ _ _ _ _ _ (by rw [List.length_nil]; omega)]
    rfl
  · unfold ppApplyA pairingA
    dsimp only
    rw [hi]
    cases hs : setupA P.x P.y Q.x Q.y with
    | none => rfl
    | some od =>
      obtain ⟨o, d⟩ := od
      have := ppApplyLoopA_eq o (2 * P.y)⁻¹ r (PairingD.start r) (firstA P.x P.y) [] d
      rw [List.nil_append, List.length_nil] at this
      dsimp only
      rw [this]

variable [Fact (∀ r : K, r ^ 2 ≠ -1 + 0 * r)]

open PairingA (L2 Good pl eA TypeA)

theorem alg_sub' (f g : El K) : alg (-1) (⟨f.x - g.x, f.y - g.y⟩ : El K) = alg (-1) f - alg (-1) g := by
  ext <;> simp [alg]

theorem pl_x {q : Pt K} (hg : Good q) : (pl q hg).x = -q.x := by simp [pl, Twist.place]

theorem pl_Y {q : Pt K} (hg : Good q) : (pl q hg).Y = alg (-1) ⟨0, q.y⟩ := by
  simp only [pl, Twist.place, Algebra.algebraMap_self, RingHom.id_apply, algebraMap_eq, ← alg_mul]
  ext <;> simp [alg]

/-- `A`, `B` and the first terms of type A. -/
theorem setupA_spec (h2 : (2 : K) ≠ 0) {P : (EC (1 : K) 0).Point} (hP : P ≠ 0) {p' q' : Pt K}
    (hp : PtRep p' P) (hg : Good q') : ∃ o d, setupA p'.x p'.y q'.x q'.y = some (o, d) ∧
      OpsRep (algebraMap K (L2 K)) (alg (-1)) o (wn (incl P) (pt h2 (pl q' hg)) 1)⁻¹
        (wn (incl P) (pt h2 (pl q' hg)) 0)⁻¹ ∧
      alg (-1) d.dm1 = 1 ∧ alg (-1) d.d0 = 1 ∧ alg (-1) d.d1 = wn (incl P) (pt h2 (pl q' hg)) 4 := by
  have ho := off_pt (L := L2 K) h2 P (pl q' hg)
  have hP' : incl (K := L2 K) P ≠ 0 := fun e => hP (incl_eq_zero.1 e)
  have w0 := ho.wn_ne hP' 0
  have w1 := ho.wn_ne hP' 1
  have e0 := ho.w_neg hP'
  have e4 := ho.w_two hP'
  have e1 : wn (incl (K := L2 K) P) (pt h2 (pl q' hg)) 1 =
    xc (incl (K := L2 K) P) - xc (pt h2 (pl q' hg)) := rfl
  obtain ⟨hn, rfl, -⟩ := rep_some hp hP
  rw [xc_incl, yc_incl, xc_pt, yc_pt, pl_x, pl_Y] at e0 e4
  rw [xc_incl, xc_pt, pl_x] at e1
  change wn _ _ 0 = (2 * algebraMap K (L2 K) p'.x + _) * (algebraMap K (L2 K) p'.x - _) ^ 2 -
    (algebraMap K (L2 K) p'.y + _) ^ 2 at e0
  change wn _ _ 4 = 2 * algebraMap K (L2 K) p'.x + _ - ((algebraMap K (L2 K) p'.y - _) /
    (algebraMap K (L2 K) p'.x - _)) ^ 2 at e4
  change wn _ _ 1 = algebraMap K (L2 K) p'.x - _ at e1
  generalize incl (K := L2 K) (Point.some p'.x p'.y hn) = P' at *
  generalize pt h2 (pl q' hg) = Q' at *
  have hA : p'.x + q'.x ≠ 0 := by
    intro e
    refine w1 ?_
    rw [e1, ← map_sub, sub_neg_eq_add, e, map_zero]
  have e1' : wn P' Q' 1 = algebraMap K (L2 K) (p'.x + q'.x) := by rw [e1, ← map_sub, sub_neg_eq_add]
  have hB : alg (-1) (⟨-((PairingA.square2 ⟨p'.y, q'.y⟩).x - (2 * p'.x - q'.x) * (p'.x + q'.x) ^ 2),
      -(PairingA.square2 ⟨p'.y, q'.y⟩).y⟩ : El K) = wn P' Q' 0 := by
    rw [e0]
    have h1 : alg (-1) (⟨-((PairingA.square2 ⟨p'.y, q'.y⟩).x - (2 * p'.x - q'.x) * (p'.x + q'.x) ^ 2),
      -(PairingA.square2 ⟨p'.y, q'.y⟩).y⟩ : El K) =
        algebraMap K (L2 K) ((2 * p'.x - q'.x) * (p'.x + q'.x) ^ 2) -
          alg (-1) (PairingA.square2 ⟨p'.y, q'.y⟩) := by
      rw [algebraMap_eq]
      ext <;> simp [alg]
    have h2 : alg (-1) (⟨p'.y, q'.y⟩ : El K) = algebraMap K (L2 K) p'.y + alg (-1) ⟨0, q'.y⟩ := by
      rw [algebraMap_eq]
      ext <;> simp [alg]
    rw [h1, PairingA.alg_square2, h2]
    simp only [map_mul, map_sub, map_add, map_pow, map_neg, map_ofNat]
    ring
  obtain ⟨B, eB, hB'⟩ := PairingA.alg_invert2 (by rw [hB]; exact w0)
  unfold setupA
  dsimp only
  rw [eB]
  dsimp only
  rw [inv?, if_neg hA]
  refine ⟨_, _, rfl, ⟨PairingA.alg_square2, PairingA.alg_mul2, alg_sub', ?_, ?_, ?_⟩, rfl, rfl, ?_⟩
  · intro f c
    rw [algebraMap_eq, ← alg_mul]
    ext <;> simp [opsA, alg]
  · intro f
    rw [e1', ← map_inv₀, algebraMap_eq, ← alg_mul]
    ext <;> simp [opsA, alg]
  · intro f
    rw [← hB, ← hB']
    exact PairingA.alg_mul2 f B
  · rw [e4]
    dsimp only
    have h1 : ∀ g : El K, alg (-1) (⟨2 * p'.x - q'.x - g.x, -g.y⟩ : El K) =
        algebraMap K (L2 K) (2 * p'.x - q'.x) - alg (-1) g := by
      intro g
      rw [algebraMap_eq]
      ext <;> simp [alg]
    have h2 : alg (-1) (⟨-(p'.y * (p'.x + q'.x)⁻¹), q'.y * (p'.x + q'.x)⁻¹⟩ : El K) =
        -((algebraMap K (L2 K) p'.y - alg (-1) ⟨0, q'.y⟩) * algebraMap K (L2 K) (p'.x + q'.x)⁻¹) := by
      rw [algebraMap_eq, algebraMap_eq]
      ext <;> simp [alg]
    rw [h1, PairingA.alg_square2, h2, ← e1, e1', map_inv₀, div_eq_mul_inv]
    simp only [map_mul, map_sub, map_neg, map_ofNat]
    ring

variable [Fintype K] {p : PairingA.Params} {r : ℕ} {inv : K → K}

/-- The direct method of type A on nonzero points. -/
theorem pairingA_ord (hinv : ∀ x : K, x ≠ 0 → inv x = x⁻¹) {c : ℕ} (hodd : Odd r)
    (hcof : Fintype.card K + 1 = c * r) (h7 : 7 ≤ r) {P Q : (EC (1 : K) 0).Point} {p' q' : Pt K}
    (hp : PtRep p' P) (hq : PtRep q' Q) (hP : P ≠ 0) (hQ : Q ≠ 0) (hord : Ord P r) (hrQ : r • Q = 0) :
    ∃ g, pairingA inv r c p' q' = some g ∧ alg (-1) g = eA r c P Q := by
  have h2 : (2 : K) ≠ 0 := two_ne' (-1 : K)
  obtain ⟨hg, he⟩ := PairingA.good_of hodd hq hQ hrQ
  obtain ⟨o, d, eo, hop, d1, d2, d3⟩ := setupA_spec h2 hP hp hg
  have hy : 2 * p'.y ≠ 0 := by
    obtain ⟨hn, rfl, -⟩ := rep_some hp hP
    exact mul_ne_zero h2 (y_ne_of_odd hn hodd hord.zero)
  have hx : xc P = p'.x ∧ yc P = p'.y := by
    obtain ⟨hn, rfl, -⟩ := rep_some hp hP
    exact ⟨rfl, rfl⟩
  have key := net_loop (ι := algebraMap K (L2 K)) (a := 1) (b := 0) (x := p'.x) (y := p'.y) hord.incl
    (off_pt h2 P (pl q' hg)) (by rw [xc_incl, hx.1]) (by rw [yc_incl, hx.2]) hop h7 (inv_mul_cancel₀ hy)
    d1 d2 d3
  have hw := (off_pt (L := L2 K) h2 P (pl q' hg)).wn_ne hord.incl.one (r + 3)
  obtain ⟨g, eg, hg'⟩ := PairingA.tateexp_eq hinv (by rw [key]; exact hw) (PairingA.h_even hcof hodd)
  refine ⟨g, ?_, ?_⟩
  · unfold pairingA
    rw [eo]
    dsimp only
    have e : (firstA p'.x p'.y).c1 = 2 * p'.y := rfl
    rw [e, inv?, if_neg hy, firstA_eq]
    exact eg
  · rw [hg', key, he, tate_net (kills hcof) hord hodd]

theorem pairingA_eq (h : TypeA K p r inv) {P Q : (EC (1 : K) 0).Point} {p' q' : Pt K} (hp : PtRep p' P)
    (hq : PtRep q' Q) (hP : P ≠ 0) (hQ : Q ≠ 0) (hrP : r • P = 0) (hrQ : r • Q = 0) :
    ∃ g, pairingA inv r p.h p' q' = some g ∧ alg (-1) g = eA r p.h P Q := by
  have h7 : 7 ≤ r := by
    have := h.valid.big
    obtain ⟨m, hm⟩ := h.valid.odd
    omega
  exact pairingA_ord h.inv h.valid.odd h.cof h7 hp hq hP hQ
    (ord_prime (two_ne' (-1 : K)) h.prime (by omega) hP hrP) hrQ

/-- **C55** for type A: on points of order dividing `r` the elliptic net method, directly or with
preprocessing, gives what Miller's algorithm gives. -/
theorem C55_typeA (h : TypeA K p r inv) {P Q : (EC (1 : K) 0).Point} {p' q' : Pt K} (hp : PtRep p' P)
    (hq : PtRep q' Q) (hrP : r • P = 0) (hrQ : r • Q = 0) :
    ∃ g, alg (-1) g = eA r p.h P Q ∧
      PairingA.pairingApply (PairingA.pairingProj inv p) p' q' = some g ∧
      PairingA.pairingApply (pairingA inv r p.h) p' q' = some g ∧
      (PairingA.pairingPpInit (ppInitA r) p').bind
        (fun t => PairingA.pairingPpApply (ppApplyA inv r p.h) t q') = some g := by
  obtain ⟨g, hg, e1, -⟩ := (PairingA.C80_typeA h).2 P Q p' q' hp hq hrP hrQ
  obtain ⟨g', e2, hg'⟩ := PairingA.apply_of (r := r) (h := p.h) (map := pairingA inv r p.h) hp hq
    (fun h0 h1 => pairingA_eq h hp hq h0 h1 hrP hrQ)
  have hgg : g' = g := alg_inj (hg'.trans hg.symm)
  rw [hgg] at e2
  refine ⟨g, hg, e1, e2, ?_⟩
  have hy : p'.inf = false → 2 * p'.y ≠ 0 := by
    intro hi
    have h0 : P ≠ 0 := by
      rcases PairingA.inf_of hp with ⟨hj, _⟩ | ⟨_, h0⟩
      · rw [hi] at hj; exact absurd hj (by decide)
      · exact h0
    obtain ⟨hn, rfl, -⟩ := rep_some hp h0
    exact mul_ne_zero (two_ne' (-1 : K)) (y_ne_of_odd hn h.valid.odd hrP)
  have h3 : 3 ≤ r := by have := h.valid.big; omega
  rw [← e2]
  refine PairingA.pp_apply_eq (ppInitA r) (ppApplyA inv r p.h) (pairingA inv r p.h) p' q'
    (fun hi _ => ?_) (fun hi => ?_)
  · obtain ⟨t, et, ha⟩ := ppA_eq inv h3 p.h p' q' (hy hi)
    rw [et]
    exact ha
  · obtain ⟨t, et, -⟩ := ppA_eq inv h3 p.h p' q' (hy hi)
    rw [et]
    rfl

/-- **C55** for type A1, partial: for points `P` of order exactly `n` the elliptic net method, directly or
with preprocessing, gives what Miller's algorithm gives.

Missing: points of smaller order. -/
theorem C55_typeA1_partial {l : ℕ} (h : PairingA.TypeA1 K r l) (hinv : ∀ x : K, x ≠ 0 → inv x = x⁻¹) (h7 : 7 ≤ r)
    {P Q : (EC (1 : K) 0).Point} {p' q' : Pt K} (hp : PtRep p' P)
    (hq : PtRep q' Q) (hP : addOrderOf P = r) (hrQ : r • Q = 0) :
    ∃ g, alg (-1) g = eA r l P Q ∧
      PairingA.pairingApply (PairingA.a1PairingProj r l) p' q' = some g ∧
      PairingA.pairingApply (pairingA inv r l) p' q' = some g ∧
      (PairingA.pairingPpInit (ppInitA r) p').bind
        (fun t => PairingA.pairingPpApply (ppApplyA inv r l) t q') = some g := by
  have hrP : r • P = 0 := hP ▸ addOrderOf_nsmul_eq_zero P
  obtain ⟨g, hg, e1, -⟩ := PairingA.C81_full_order h hp hq hP hrQ
  have hord : Ord P r := ⟨two_ne' (-1 : K), by omega, fun n h1 h2 e => by
    have := Nat.le_of_dvd h1 (addOrderOf_dvd_of_nsmul_eq_zero e)
    omega, hrP⟩
  obtain ⟨g', e2, hg'⟩ := PairingA.apply_of (r := r) (h := l) (map := pairingA inv r l) hp hq
    (fun h0 h1 => pairingA_ord hinv h.odd h.cof h7 hp hq h0 h1 hord hrQ)
  have hgg : g' = g := alg_inj (hg'.trans hg.symm)
  rw [hgg] at e2
  refine ⟨g, hg, e1, e2, ?_⟩
  have hy : p'.inf = false → 2 * p'.y ≠ 0 := by
    intro hi
    have h0 : P ≠ 0 := by
      rcases PairingA.inf_of hp with ⟨hj, _⟩ | ⟨_, h0⟩
      · rw [hi] at hj; exact absurd hj (by decide)
      · exact h0
    obtain ⟨hn, rfl, -⟩ := rep_some hp h0
    exact mul_ne_zero (two_ne' (-1 : K)) (y_ne_of_odd hn h.odd hrP)
  have h3 : 3 ≤ r := h.three
  rw [← e2]
  refine PairingA.pp_apply_eq (ppInitA r) (ppApplyA inv r l) (pairingA inv r l) p' q'
    (fun hi _ => ?_) (fun hi => ?_)
  · obtain ⟨t, et, ha⟩ := ppA_eq inv h3 l p' q' (hy hi)
    rw [et]
    exact ha
  · obtain ⟨t, et, -⟩ := ppA_eq inv h3 l p' q' (hy hi)
    rw [et]
    rfl

/-- The hypotheses are met: `p = 59`, `n = 15`, and a point of order 15. -/
example : ∃ g, alg (-1) g = eA 15 4 PairingA.G59 PairingA.G59 ∧
    PairingA.pairingApply (PairingA.a1PairingProj 15 4) (⟨false, 4, 3⟩ : Pt (ZMod 59))
      ⟨false, 4, 3⟩ = some g ∧
    PairingA.pairingApply (pairingA (·⁻¹) 15 4) (⟨false, 4, 3⟩ : Pt (ZMod 59)) ⟨false, 4, 3⟩ = some g := by
  obtain ⟨g, h1, h2, h3, -⟩ := C55_typeA1_partial PairingA.typeA59 (fun _ _ => rfl) (by decide)
    PairingA.G59_rep PairingA.G59_rep PairingA.G59_order (PairingA.G59_order ▸ addOrderOf_nsmul_eq_zero _)
  exact ⟨g, h1, h2, h3⟩


/-- The hypotheses are met: `q = 43`, `r = 11`. -/
example : ∃ g, alg (-1) g = eA 11 4 PairingA.P43 PairingA.Q43 ∧
    PairingA.pairingApply (PairingA.pairingProj (·⁻¹) ⟨3, 1, 1, 4⟩) (⟨false, 4, 5⟩ : Pt (ZMod 43))
      ⟨false, 13, 19⟩ = some g ∧
    PairingA.pairingApply (pairingA (·⁻¹) 11 4) (⟨false, 4, 5⟩ : Pt (ZMod 43)) ⟨false, 13, 19⟩ = some g := by
  obtain ⟨g, h1, h2, h3, -⟩ := C55_typeA PairingA.typeA43 PairingA.P43_rep PairingA.Q43_rep PairingA.P43_order
    PairingA.Q43_order
  exact ⟨g, h1, h2, h3⟩

/-- A value of the elliptic net method. -/
example : PairingA.pairingApply (pairingA (·⁻¹) 11 4) (⟨false, 4, 5⟩ : Pt (ZMod 43)) ⟨false, 13, 19⟩ =
    some ⟨18, 35⟩ := by decide +kernel

end A

/-! ### Type G -/

section G

variable {F K : Type*} [Field F] [DecidableEq F] [Fintype F] [Field K] [DecidableEq K] [Fintype K]
  [Algebra F K] {E : PairingD.Ext F K} {ξ : K} {q k r : ℕ} {a b v0 : F}
  [Fact (∀ s : K, s ^ 2 ≠ algebraMap F K v0 + 0 * s)]

local notation "φ" => algebraMap F K
local notation "LL" => QuadraticAlgebra K (algebraMap F K v0) 0

/-- The inclusion of the smallest field. -/
abbrev iota (F : Type*) {K : Type*} [Field F] [Field K] [Algebra F K] (v : K)
    [Fact (∀ s : K, s ^ 2 ≠ v + 0 * s)] : F →+* QuadraticAlgebra K v 0 :=
  (algebraMap K (QuadraticAlgebra K v 0)).comp (algebraMap F K)

theorem setItem0_eq (h : E.Ok ξ) (e : K) (c : F) (he : E.item e 0 = 0) : setItem0 E e c = e + φ c := by
  unfold setItem0
  rw [h.make_update, h.item, he, map_zero]; ring

theorem alg_subG (f g : El K) : alg (φ v0) (⟨f.x - g.x, f.y - g.y⟩ : El K) =
    alg (φ v0) f - alg (φ v0) g := by
  ext <;> simp [alg]

/-- `A`, `B` and the first terms of type G. -/
theorem setupG_spec (hE : E.Ok ξ) (h0i : E.item 0 0 = 0) {p : PairingD.Data F K}
    (hc : PairingD.Common p E r a b v0) {x y : F} {x2 y2 : K}
    {P' Q' : (EC (iota F (φ v0) a) (iota F (φ v0) b)).Point} (hP' : P' ≠ 0) (ho : Off P' Q')
    (hx : xc P' = iota F (φ v0) x) (hy : yc P' = iota F (φ v0) y)
    (hx2 : xc Q' = algebraMap K LL (x2 * (φ v0)⁻¹)) (hy2 : yc Q' = alg (φ v0) ⟨0, y2 * (φ v0)⁻¹ ^ 2⟩) :
    ∃ o d, setupG p x y x2 y2 = some (o, d) ∧
      OpsRep (iota F (φ v0)) (alg (φ v0)) o (wn P' Q' 1)⁻¹ (wn P' Q' 0)⁻¹ ∧
      alg (φ v0) d.dm1 = 1 ∧ alg (φ v0) d.d0 = 1 ∧ alg (φ v0) d.d1 = wn P' Q' 4 := by
  have w0 := ho.wn_ne hP' 0
  have w1 := ho.wn_ne hP' 1
  have e0 := ho.w_neg hP'
  have e4 := ho.w_two hP'
  have e1 : wn P' Q' 1 = xc P' - xc Q' := rfl
  rw [hx, hy, hx2, hy2] at e0 e4
  rw [hx, hx2] at e1
  have hA : alg (φ v0) (⟨-(x2 * (φ v0)⁻¹) + φ x, -0⟩ : El K) = wn P' Q' 1 := by
    rw [e1, RingHom.comp_apply, algebraMap_eq, algebraMap_eq]
    ext <;> simp [alg]
    ring
  have hC : alg (φ v0) (⟨x2 * (φ v0)⁻¹ + φ (2 * x), 0⟩ : El K) =
      2 * iota F (φ v0) x + algebraMap K LL (x2 * (φ v0)⁻¹) := by
    rw [RingHom.comp_apply, ← map_ofNat (algebraMap K LL) 2, ← map_mul, ← map_add, map_mul, map_ofNat,
      algebraMap_eq, add_comm]
  have hY : alg (φ v0) (⟨0 + φ y, y2 * (φ v0)⁻¹ ^ 2⟩ : El K) =
      iota F (φ v0) y + alg (φ v0) ⟨0, y2 * (φ v0)⁻¹ ^ 2⟩ := by
    rw [RingHom.comp_apply, algebraMap_eq]
    ext <;> simp [alg]
  have hY' : alg (φ v0) (⟨0 + φ (-y), y2 * (φ v0)⁻¹ ^ 2⟩ : El K) =
      -(iota F (φ v0) y - alg (φ v0) ⟨0, y2 * (φ v0)⁻¹ ^ 2⟩) := by
    rw [RingHom.comp_apply, algebraMap_eq]
    ext <;> simp [alg]
  unfold setupG
  dsimp only
  rw [hc.hE, hc.hv, hc.hv1, hc.hv2]
  simp only [PairingD.addItem0_eq hE, setItem0_eq hE _ _ h0i]
  generalize (⟨-(x2 * (φ v0)⁻¹) + φ x, -0⟩ : El K) = A at *
  generalize (⟨0 + φ y, y2 * (φ v0)⁻¹ ^ 2⟩ : El K) = Y at *
  generalize (⟨0 + φ (-y), y2 * (φ v0)⁻¹ ^ 2⟩ : El K) = Y' at *
  have hB := alg_subG (v0 := v0)
    (PairingD.mul2 (φ v0) ⟨x2 * (φ v0)⁻¹ + φ (2 * x), 0⟩ (PairingD.square2 (φ v0) A))
    (PairingD.square2 (φ v0) Y)
  rw [PairingD.alg_mul2, PairingD.alg_square2, PairingD.alg_square2, hA, hC, hY, e1, ← e0] at hB
  obtain ⟨B, eB, hB'⟩ := PairingD.alg_invert2 (by rw [hB]; exact w0)
  obtain ⟨A', eA, hA'⟩ := PairingD.alg_invert2 (by rw [hA]; exact w1)
  rw [eB]
  dsimp only
  rw [eA]
  refine ⟨_, _, rfl, ⟨PairingD.alg_square2, PairingD.alg_mul2, alg_subG, ?_, ?_, ?_⟩, rfl, rfl, ?_⟩
  · intro f c
    rw [RingHom.comp_apply, algebraMap_eq, ← alg_mul]
    ext <;> simp [opsG, alg, PairingD.constMul_eq hE, mul_comm]
  · intro f
    rw [← hA, ← hA']
    exact PairingD.alg_mul2 f A'
  · intro f
    rw [← hB, ← hB']
    exact PairingD.alg_mul2 f B
  · dsimp only
    have hD := alg_subG (v0 := v0) ⟨x2 * (φ v0)⁻¹ + φ (2 * x), 0⟩
      (PairingD.square2 (φ v0) (PairingD.mul2 (φ v0) Y' A'))
    rw [PairingD.alg_square2, PairingD.alg_mul2, hC, hY', hA', hA] at hD
    rw [hD, e4, ← e1, div_eq_mul_inv]
    ring

theorem wn_incl {k L : Type*} [Field k] [DecidableEq k] [Field L] [DecidableEq L] [Algebra k L] {a b : k}
    (h2 : (2 : k) ≠ 0) (P Q : (EC a b).Point) (n : ℕ) :
    wn (incl (K := L) P) (incl Q) n = algebraMap k L (wn P Q n) := by
  have hs : ∀ S T : (EC a b).Point, incl (K := L) (S - T) = incl S - incl T := fun S T => by
    rw [sub_eq_add_neg, sub_eq_add_neg, PairingD.incl_add h2, incl_neg]
  induction n using Nat.strong_induction_on with
  | _ n ih =>
    match n with
    | 0 => rw [wn, wn, ← hs, xc_incl, xc_incl, xc_incl, map_mul, map_pow, map_sub, map_sub]
    | 1 => rw [wn, wn, xc_incl, xc_incl, map_sub]
    | n + 2 =>
      rw [wn, wn, ih _ (by omega), ih _ (by omega), ← incl_nsmul h2, ← incl_nsmul h2, ← hs,
        ← PairingD.incl_add h2, xc_incl, xc_incl, map_div₀, map_mul, map_pow, map_sub]

variable {h : ℕ} {P : (EC a b).Point}
  {Q : (EC (algebraMap F K v0 ^ 2 * algebraMap F K a) (algebraMap F K v0 ^ 3 * algebraMap F K b)).Point}
  {p' : Pt F} {q' : Pt K}

open PairingD (TypeG tatepowerG millerAffine untwist pairing twD eD)

/-- The value of Miller's loop at a place. -/
theorem miller_full {p : PairingD.Data F K} (hok : E.Ok ξ) (hc : PairingD.Common p E r a b v0) (h3 : 3 ≤ r)
    (hr : r.Prime) (hP : r • P = 0) (h0 : P ≠ 0) (hp : PtRep p' P)
    (hq : q'.y ^ 2 = q'.x ^ 3 + (φ v0 ^ 2 * φ a) * q'.x + φ v0 ^ 3 * φ b) (hy : q'.y ≠ 0) :
    ∃ f, ∃ Fm : Place LL (φ a) (φ b) → LL, millerAffine p p' (untwist p q').1 (untwist p q').2 = some f ∧
      Full (incl (K := K) P) r Fm ∧ alg (φ v0) f = Fm (twD.place q'.x q'.y hq hy) := by
  have hodd : Odd r := hr.odd_of_ne_two (by omega)
  have h2 := PairingD.two_F (K := K) v0
  obtain ⟨ls, Fm, hls, hgl, hF, hrun⟩ := PairingD.miller_spec (K := K) (L := LL)
    (V := El K) h2 h3 hodd hP h0 (PairingD.chain_of_order h3 hodd (PairingD.order_prime hr h0 hP)) hp
  have hu : untwist p q' = (q'.x * (φ v0)⁻¹, q'.y * (φ v0)⁻¹ ^ 2) := by
    unfold untwist; dsimp only; rw [hc.hv1, hc.hv2]
  obtain ⟨f, hf, hv⟩ := hrun (twD.place q'.x q'.y hq hy) (alg (φ v0))
      (fun l v => PairingD.mul2 (φ v0) v (PairingD.evalfn E l (q'.x * (φ v0)⁻¹) (q'.y * (φ v0)⁻¹ ^ 2)))
      (PairingD.square2 (φ v0))
      (fun l v => by
        rw [PairingD.alg_mul2, PairingD.evalfn_eq hok]
        congr 1
        simp only [lval, Twist.place, Algebra.algebraMap_self, RingHom.id_apply, algebraMap_eq, ← alg_mul]
        ext <;> simp [alg, mul_comm]) (fun v => PairingD.alg_square2 v) PairingD.one2 PairingD.alg_one2
  refine ⟨f, Fm, ?_, hF, hv⟩
  rw [PairingD.affine_eq, hc.ha, hc.hr, hls, Option.bind_some, hu, hc.hE, hc.hv]
  exact hf

/-- The final powering of type G does not see factors of the middle field. -/
theorem tatepowerG_congr (h : TypeG E ξ q r) {p : PairingD.Data F K}
    (hp : PairingD.initG E q r a b v0 = some p) {f g : El K} (hf : alg (φ v0) f ≠ 0)
    (hs : Sim K (alg (φ v0) g) (alg (φ v0) f)) : tatepowerG p g = tatepowerG p f := by
  have hg : alg (φ v0) g ≠ 0 := hs.ne_zero hf
  have e5 : ∀ m, alg (φ v0) g ^ ((q ^ 5 - 1) * m) = alg (φ v0) f ^ ((q ^ 5 - 1) * m) := by
    intro m
    obtain ⟨c, hc, e⟩ := hs
    rw [e, mul_pow, ← map_pow, ← h.cardK, pow_mul c, FiniteField.pow_card_sub_one_eq_one c hc, one_pow,
      map_one, one_mul]
  obtain ⟨hA, hB⟩ := PairingD.C50_typeG_partial h hp f hf
  obtain ⟨hA', hB'⟩ := PairingD.C50_typeG_partial h hp g hg
  by_cases h1 : alg (φ v0) f ^ ((q ^ 5 - 1) * (q + 1)) = 1
  · rw [hB h1, hB' (by rw [e5, h1])]
  · obtain ⟨u, eu, hu⟩ := hA h1
    obtain ⟨u', eu', hu'⟩ := hA' (by rw [e5]; exact h1)
    rw [eu, eu']
    refine congrArg some (alg_inj (v := φ v0) ?_)
    rw [hu, hu', h.exp, h.cardK, e5]

theorem initG_b {p : PairingD.Data F K} (hp : PairingD.initG E q r a b v0 = some p) (hv : φ v0 ≠ 0)
    (h : TypeG E ξ q r) : p.b = b := by
  unfold PairingD.initG at hp
  dsimp only at hp
  rw [PairingD.make_const h.ok, PairingD.inv?_eq hv] at hp
  dsimp only at hp
  rw [PairingD.gen_eq h.ok (by have := h.deg; omega), Gen.powMpz_spec ξ q] at hp
  dsimp only at hp
  rw [Option.some.injEq] at hp
  rw [← hp]

/-- **C55** for type G: for points `P` of the curve with `r P = O` and arbitrary points of the twist, the
elliptic net method does what Miller's algorithm does (it also fails on the same arguments). -/
theorem C55_typeG (h : TypeG E ξ q r) (h7 : 7 ≤ r) {p : PairingD.Data F K}
    (hi : PairingD.initG E q r a b v0 = some p) (hp : PtRep p' P) (hq : PtRep q' Q) (hr : r • P = 0) :
    PairingD.apply (pairingG p) p' q' = PairingD.apply (pairing p millerAffine tatepowerG) p' q' := by
  have hv := v_ne (v := φ v0)
  have h2 := PairingD.two_F (K := K) v0
  have h2K : (2 : K) ≠ 0 := two_ne' (φ v0)
  obtain ⟨p₀, e₀, hc, -⟩ := PairingD.initG_eq (a := a) (b := b) (v0 := v0) h hv
  rw [e₀, Option.some.injEq] at hi
  subst hi
  have hb := initG_b e₀ hv h
  by_cases h0 : P = 0
  · subst h0
    have : p'.inf = true := hp
    rw [PairingD.apply, PairingD.apply, if_pos this, if_pos this]
  by_cases h1 : Q = 0
  · subst h1
    have : q'.inf = true := hq
    unfold PairingD.apply
    rw [if_pos this, if_pos this]
  obtain ⟨hn, hQe, hqi⟩ := rep_some hq h1
  have hpi : p'.inf = false := (rep_some hp h0).choose_spec.2
  have hx : xc P = p'.x ∧ yc P = p'.y := by
    obtain ⟨hn, rfl, -⟩ := rep_some hp h0
    exact ⟨rfl, rfl⟩
  have hy : 2 * p'.y ≠ 0 := by
    obtain ⟨hn, rfl, -⟩ := rep_some hp h0
    exact mul_ne_zero h2 (y_ne_of_odd hn h.odd hr)
  have h0i : E.item 0 0 = 0 := PairingF.item_of_make h.ok (by rw [h.cardK, h.cardF, h.deg]) (g := fun _ => 0)
    (by rw [h.ok.make]; simp) h.ok.pos
  have hord : Ord (incl (K := LL) (incl (K := K) P)) r := (ord_prime h2 h.prime (by omega) h0 hr).incl.incl
  have ex : xc (incl (K := LL) (incl (K := K) P)) = iota F (φ v0) p'.x := by
    rw [xc_incl, xc_incl, hx.1]; rfl
  have ey : yc (incl (K := LL) (incl (K := K) P)) = iota F (φ v0) p'.y := by
    rw [yc_incl, yc_incl, hx.2]; rfl
  have key : ∀ Q' : (EC (iota F (φ v0) a) (iota F (φ v0) b)).Point, Off (incl (K := LL) (incl (K := K) P)) Q' →
      xc Q' = algebraMap K LL (q'.x * (φ v0)⁻¹) → yc Q' = alg (φ v0) ⟨0, q'.y * (φ v0)⁻¹ ^ 2⟩ →
      ∃ w, pairingG p₀ p' q' = tatepowerG p₀ w ∧
        alg (φ v0) w = wn (incl (K := LL) (incl (K := K) P)) Q' (r + 3) := by
    intro Q' ho hx2 hy2
    obtain ⟨o, d, eo, hop, d1, d2, d3⟩ := setupG_spec h.ok h0i hc hord.one ho ex ey hx2 hy2
    refine ⟨_, ?_, net_loop (ι := iota F (φ v0)) (a := a) (b := b) hord ho ex ey hop h7 (inv_mul_cancel₀ hy)
      d1 d2 d3⟩
    unfold pairingG
    rw [eo, hc.ha, hb]
    dsimp only
    have e : (first a b p'.x p'.y).c1 = 2 * p'.y := rfl
    rw [e, inv?, if_neg hy, hc.hr]
  have hq0 := eqn_of hn
  have ea : ∀ map : Pt F → Pt K → Option (El K), PairingD.apply map p' q' = map p' q' := by
    intro map
    rw [PairingD.apply, if_neg (by simp [hpi]), if_neg (by simp [hqi])]
  rw [ea, ea]
  by_cases hy0 : q'.y = 0
  · -- a point of order two
    have hnegQ : -Q = Q := by
      rw [hQe, Point.neg_some]
      simp [EC, negY, hy0]
    have h2Q : 2 • Q = 0 := by rw [two_smul]; nth_rewrite 2 [← hnegQ]; rw [add_neg_cancel]
    have hM := (PairingD.C88_typeG_fails h e₀ hp hq hr h0 h1 h2Q).1
    rw [ea] at hM
    have hns : (EC (φ a) (φ b)).Nonsingular (q'.x * (φ v0)⁻¹) 0 := by
      have hn' := hn
      rw [nonsingular_iff] at hn' ⊢
      simp only [equation_iff, EC, zero_mul, mul_zero, add_zero, zero_add, sub_zero, ne_eq, hy0] at hn' ⊢
      obtain ⟨e1, e2⟩ := hn'
      refine ⟨?_, ?_⟩
      · field_simp
        linear_combination e1
      · rcases e2 with e2 | e2
        · left
          intro e
          apply e2
          field_simp at e
          linear_combination e
        · exact absurd neg_zero.symm e2
    have hoff : Off (incl (K := LL) (incl (K := K) P)) (incl (Point.some _ _ hns)) := by
      intro n e
      have hs : 2 • Point.some _ _ hns = 0 := by
        have : -Point.some _ _ hns = Point.some _ _ hns := by
          rw [Point.neg_some]
          simp [EC, negY]
        rw [two_smul]; nth_rewrite 2 [← this]; rw [add_neg_cancel]
      rw [← incl_zsmul h2K, ← PairingD.incl_add h2K, incl_eq_zero] at e
      have e' := congrArg (r • ·) e
      obtain ⟨k, hk⟩ := h.odd
      have hr' : r • incl (K := K) P = 0 := by rw [← incl_nsmul h2, hr]; rfl
      rw [smul_add, smul_comm, hr', smul_zero, zero_add, smul_zero, hk, add_smul, one_smul, mul_comm,
        mul_smul, hs, smul_zero, zero_add] at e'
      exact Point.some_ne_zero _ e'
    obtain ⟨w, ew, hw⟩ := key _ hoff rfl (by
      rw [yc_incl, hy0, zero_mul]
      exact (map_zero _).trans (by ext <;> simp [alg]))
    rw [ew, hM]
    have hw0 := hoff.wn_ne hord.one (r + 3)
    refine (PairingD.C50_typeG_partial h e₀ w (by rw [hw]; exact hw0)).2 ?_
    rw [wn_incl h2K] at hw hw0
    rw [hw, ← map_pow, ← h.cardK, pow_mul, FiniteField.pow_card_sub_one_eq_one _ (by
      intro e; rw [e, map_zero] at hw0; exact hw0 rfl), one_pow, map_one]
  · obtain ⟨f, Fm, ef, hF, hfv⟩ := miller_full h.ok hc h.three h.prime hr h0 hp hq0 hy0
    have ho := off_pt (L := LL) h2K (incl (K := K) P) (twD.place q'.x q'.y hq0 hy0)
    obtain ⟨w, ew, hw⟩ := key _ ho (by
        rw [xc_pt]
        simp only [Twist.place, Algebra.algebraMap_self, RingHom.id_apply]
        rw [mul_comm]) (by
        rw [yc_pt]
        simp only [Twist.place, Algebra.algebraMap_self, RingHom.id_apply, algebraMap_eq, ← alg_mul]
        ext <;> simp [alg, mul_comm])
    rw [ew, pairing, ef, Option.bind_some]
    refine tatepowerG_congr h e₀ (by rw [hfv]; exact hF.ne_zero _) ?_
    have hoK : Ord (incl (K := K) P) r := (ord_prime h2 h.prime (by omega) h0 hr).incl
    obtain ⟨G, hG, hs⟩ := net_full (L := LL) hoK h.odd
    have e1 := (hF.div (twD.place q'.x q'.y hq0 hy0)).mul (hG.div (twD.place q'.x q'.y hq0 hy0))
    have e2 := (of_neg (twD.place q'.x q'.y hq0 hy0) (incl (K := K) P)).pow r
    rw [one_pow, smul_add] at e2
    have e3 := e1.unique e2
    have e4 := e3.mul (hs (twD.place q'.x q'.y hq0 hy0)).inv
    rw [inv_inv, one_mul, mul_assoc, mul_inv_cancel₀ (hG.ne_zero _), mul_one] at e4
    rw [hw, hfv]
    exact e4.symm

end G

/-- The hypotheses of `C55_typeG` can be met, with `P` and `Q` both non-zero. -/
example : ∃ (K : Type) (_ : Field K) (_ : DecidableEq K) (_ : Fintype K)
    (_ : Algebra (ZMod 13) K) (E : PairingD.Ext (ZMod 13) K) (ξ : K) (p : PairingD.Data (ZMod 13) K)
    (q' : Pt K), PairingD.TypeG E ξ 13 11 ∧ PairingD.initG E 13 11 7 6 2 = some p ∧ q'.inf = false ∧
      PairingD.apply (pairingG p) ⟨false, 1, 1⟩ q' =
        PairingD.apply (PairingD.pairing p PairingD.millerAffine PairingD.tatepowerG) ⟨false, 1, 1⟩ q' := by
  obtain ⟨K, i1, i2, i3, i4, E, ξ, hE, hs, -⟩ := PairingD.exists_typeG
  have : Fact (∀ s : K, s ^ 2 ≠ algebraMap (ZMod 13) K 2 + 0 * s) := ⟨hs⟩
  obtain ⟨p, hp, -⟩ := PairingD.initG_eq (a := 7) (b := 6) hE (v_ne (v := algebraMap (ZMod 13) K 2))
  have h2 : (2 : K) ≠ 0 := two_ne' (algebraMap (ZMod 13) K 2)
  let φ := algebraMap (ZMod 13) K
  have hQ : (EC (φ 2 ^ 2 * φ 7) (φ 2 ^ 3 * φ 6)).Nonsingular 0 (φ 3) := by
    rw [nonsingular_iff, equation_iff]
    simp only [EC, zero_mul, mul_zero, add_zero, zero_add, sub_zero]
    refine ⟨?_, Or.inr ?_⟩
    · rw [← map_pow, ← map_pow, ← map_mul, zero_pow (by norm_num), zero_add]
      exact congrArg φ (by decide)
    · intro e
      have : φ 6 = 0 := by
        rw [show (6 : ZMod 13) = 3 + 3 by decide, map_add]; linear_combination e
      exact absurd ((map_eq_zero φ).1 this) (by decide)
  have hP : (EC (7 : ZMod 13) 6).Nonsingular 1 1 := by
    rw [nonsingular_iff, equation_iff]; decide +kernel
  exact ⟨K, i1, i2, i3, i4, E, ξ, p, ⟨false, 0, φ 3⟩, hE, hp, rfl,
    C55_typeG (P := .some 1 1 hP) (Q := .some _ _ hQ) hE (by norm_num) hp ⟨rfl, rfl, rfl⟩ ⟨rfl, rfl, rfl⟩
      (PairingD.zero_of (by decide) (P := .some 1 1 hP) (p := ⟨false, 1, 1⟩) ⟨rfl, rfl, rfl⟩ 11
        (by decide +kernel))⟩

/-! ### Type E -/

section E

open Spec (TypeE GoodShift tors mem_tors)
open PairingE (Routine eE)

variable {K : Type*} [Field K] [DecidableEq K] {a b : K} {P Q : (EC a b).Point} {p' q' : Pt K}

theorem setupE_spec {w : ℕ → K} (w0 : w 0 ≠ 0) (w1 : w 1 ≠ 0) (e1 : w 1 = p'.x - q'.x)
    (e0 : w 0 = (2 * p'.x + q'.x) * (p'.x - q'.x) ^ 2 - (p'.y + q'.y) ^ 2)
    (e4 : w 4 = 2 * p'.x + q'.x - ((p'.y - q'.y) / (p'.x - q'.x)) ^ 2) :
    ∃ o d, setupE p'.x p'.y q'.x q'.y = some (o, d) ∧
      OpsRep (RingHom.id K) id o (w 1)⁻¹ (w 0)⁻¹ ∧ d.dm1 = 1 ∧ d.d0 = 1 ∧ d.d1 = w 4 := by
  unfold setupE
  dsimp only
  rw [← e0, ← e1, inv?, if_neg w0]
  dsimp only
  rw [inv?, if_neg w1]
  refine ⟨_, _, rfl, ⟨?_, ?_, ?_, ?_, ?_, ?_⟩, rfl, rfl, ?_⟩
  · intro f; rfl
  · intro f g; rfl
  · intro f g; rfl
  · intro f c; rfl
  · intro f; rfl
  · intro f; rfl
  · rw [e4, ← e1, div_eq_mul_inv]

theorem coords (hP : P ≠ 0) (hp : PtRep p' P) : xc P = p'.x ∧ yc P = p'.y := by
  obtain ⟨hn, rfl, -⟩ := rep_some hp hP
  exact ⟨rfl, rfl⟩

/-- What the routine computes from a sequence obeying the steps. -/
theorem pairingE_steps {r : ℕ} (hord : Ord P r) (hodd : Odd r) (h7 : 7 ≤ r) {w : ℕ → K} (hw : Steps P r (r + 3) w)
    (e1 : w 1 = xc P - xc Q) (e0 : w 0 = (2 * xc P + xc Q) * (xc P - xc Q) ^ 2 - (yc P + yc Q) ^ 2)
    (e4 : w 4 = 2 * xc P + xc Q - ((yc P - yc Q) / (xc P - xc Q)) ^ 2)
    (hQ : Q ≠ 0) (hp : PtRep p' P) (hq : PtRep q' Q) (d : PairingE.Data K) (hd : d.a = a) :
    PairingF.apply (pairingE b r d) p' q' =
      some ((w (r + 3) / divPoly a b (xc P) (yc P) (r + 1)) ^ d.phikonr) := by
  have h0 := hord.one
  have hqi : q'.inf = false := (rep_some hq hQ).choose_spec.2
  have hpi : p'.inf = false := (rep_some hp h0).choose_spec.2
  have hx := coords h0 hp
  have hx' := coords hQ hq
  rw [hx.1, hx'.1] at e1
  rw [hx.1, hx'.1, hx.2, hx'.2] at e0 e4
  have hy : 2 * p'.y ≠ 0 := by
    rw [← hx.2]
    have := hord.y_ne (n := 1) le_rfl (by omega) (by omega)
    rw [one_nsmul] at this
    exact mul_ne_zero hord.two this
  obtain ⟨o, s, eo, hop, d1, d2, d3⟩ := setupE_spec hw.ne0 hw.ne1 e1 e0 e4
  have hC : inv? (first a b p'.x p'.y).c1 = some (2 * p'.y)⁻¹ := by
    have e : (first a b p'.x p'.y).c1 = 2 * p'.y := rfl
    rw [e, inv?, if_neg hy]
  have hv : (loop o (2 * p'.y)⁻¹ r (PairingD.start r) (first a b p'.x p'.y) s).2.d1 = w (r + 3) :=
    net_loop_steps (ι := RingHom.id K) (φ := id) hord hw hx.1 hx.2 hop h7
      (by obtain ⟨m, hm⟩ := hodd; omega) (inv_mul_cancel₀ hy) d1 d2 d3
  have hb := congrArg Block.c1 (C55_block o a b p'.x p'.y hy (r := r) (by omega) s hC)
  dsimp only at hb
  have hdn := dp_succ_ne hord hodd
  rw [hx.1, hx.2] at hdn
  rw [PairingF.apply, if_neg (by simp [hpi]), if_neg (by simp [hqi]), pairingE, eo]
  dsimp only
  rw [hd, hC]
  dsimp only
  rw [hv, hb, inv?, if_neg hdn]
  dsimp only
  rw [Gen.powMpz_spec, hx.1, hx.2, div_eq_mul_inv]

variable [Fintype K] {q r exp2 exp1 : ℕ} {sign1 sign0 : ℤ}

/-- **C55** for type E: the elliptic net method computes the pairing of all points `P` and `Q` killed by `r`,
unless `Q` is `P`, `-P` or `2 P`.

Missing: those three points, for which the statement is false (`C55_typeE_fails`). -/
theorem C55_typeE_partial (h : TypeE K q r exp2 exp1 sign1 sign0) {R : (EC a b).Point} (hR : GoodShift r R)
    {R' R₁ : Pt K} (hR' : PtRep R' R) {miller : PairingE.Data K → Pt K → Pt K → Pt K → Option K}
    (hm : Routine miller) (hP : r • P = 0) (hQ : r • Q = 0)
    (hPQ : P ≠ 0 → Q ≠ P ∧ Q ≠ -P ∧ Q ≠ P + P) (hp : PtRep p' P) (hq : PtRep q' Q) :
    PairingF.apply (pairingE b r (PairingE.init q r a exp2 exp1 sign1 sign0 R₁)) p' q' =
      PairingF.apply (PairingE.pairing miller (PairingE.init q r a exp2 exp1 sign1 sign0 R')) p' q' := by
  rw [(PairingE.C93_typeE h hR hR').2 _ hm P Q p' q' hp hq hP hQ]
  have hodd : Odd r := h.prime.odd_of_ne_two (by have := h.big; omega)
  have h7 : 7 ≤ r := by
    have h5 := h.big
    have : r ≠ 6 := fun e => by have := h.prime; rw [e] at this; exact absurd this (by norm_num)
    omega
  by_cases h0 : P = 0
  · subst h0
    have : p'.inf = true := hp
    rw [PairingF.apply, if_pos this, eE, TateK.tateK_zero_left]
  by_cases h1 : Q = 0
  · subst h1
    have hqi : q'.inf = true := hq
    have hpi : p'.inf = false := (rep_some hp h0).choose_spec.2
    rw [PairingF.apply, if_neg (by simp [hpi]), if_pos hqi, eE,
      TateK.tateK_zero_right (PairingE.GoodShift.one hR)]
  obtain ⟨n1, n2, n3⟩ := hPQ h0
  have hord : Ord P r := ord_prime h.two h.prime (by omega) h0 hP
  by_cases hz : Q ∈ AddSubgroup.zmultiples P
  · obtain ⟨c, hc, rfl⟩ : ∃ c : ℕ, c < r ∧ c • P = Q := by
      obtain ⟨n, hn⟩ := AddSubgroup.mem_zmultiples_iff.1 hz
      have hm := Int.emod_nonneg n (show (r : ℤ) ≠ 0 by omega)
      have hl := Int.emod_lt_of_pos n (show (0 : ℤ) < r by omega)
      refine ⟨(n % r).toNat, by omega, ?_⟩
      rw [← natCast_zsmul, Int.toNat_of_nonneg hm, ← hn]
      conv_rhs => rw [← Int.emod_add_mul_ediv n r]
      rw [add_zsmul, mul_comm, mul_zsmul, natCast_zsmul, hP, zsmul_zero, add_zero]
    have c0 : c ≠ 0 := by rintro rfl; exact h1 (zero_nsmul P)
    have c1 : c ≠ 1 := by rintro rfl; exact n1 (one_nsmul P)
    have c2 : c ≠ 2 := by rintro rfl; exact n3 (two_nsmul P)
    have c3 : c + 1 ≠ r := by
      intro e
      apply n2
      rw [eq_neg_iff_add_eq_zero, ← succ_nsmul, e, hP]
    have b1 : 3 ≤ c := by omega
    have b2 : c + 2 ≤ r := by omega
    rw [pairingE_steps hord hodd h7 (wm_steps hord (z := (c : ℤ) - r) (by omega) (by omega))
      (wm_one hord b1 b2) (wm_zero hord b1 b2) (wm_four hord b1 b2) h1 hp hq _ rfl, eE,
      tateK_wm hord b1 b2 h.kills hodd (mem_tors.2 hP) (PairingE.GoodShift.one hR)]
    rfl
  · have ho : Off P Q := by
      obtain ⟨A, hA⟩ := TateK.exists_off hz
      rw [← hA]
      exact off_of
    rw [pairingE_steps hord hodd h7 (ho.steps hord _) rfl (ho.w_neg h0) (ho.w_two h0) h1 hp hq _ rfl, eE,
      tateK_net h.kills hord hodd (mem_tors.2 hP) (mem_tors.2 hQ) (PairingE.GoodShift.one hR) hz]
    rfl

/-- **C55 fails** for `Q = P`, `Q = -P` and `Q = 2 P`: the method inverts zero, whatever the parameters. -/
theorem C55_typeE_fails (p : PairingE.Data K) (h2 : (2 : K) ≠ 0) (hP : P ≠ 0) (hPP : P + P ≠ 0)
    (hPQ : Q = P ∨ Q = -P ∨ Q = P + P) (hp : PtRep p' P) (hq : PtRep q' Q) :
    PairingF.apply (pairingE b r p) p' q' = none := by
  have h1 : Q ≠ 0 := by
    rcases hPQ with rfl | rfl | rfl
    · exact hP
    · exact neg_ne_zero.2 hP
    · exact hPP
  have hqi : q'.inf = false := (rep_some hq h1).choose_spec.2
  have hpi : p'.inf = false := (rep_some hp hP).choose_spec.2
  rw [PairingF.apply, if_neg (by simp [hpi]), if_neg (by simp [hqi]), pairingE]
  have hs : setupE p'.x p'.y q'.x q'.y = none := by
    have hx : xc P = p'.x ∧ yc P = p'.y := by
      obtain ⟨hn, rfl, -⟩ := rep_some hp hP
      exact ⟨rfl, rfl⟩
    have hx' : xc Q = q'.x ∧ yc Q = q'.y := by
      obtain ⟨hn, rfl, -⟩ := rep_some hq h1
      exact ⟨rfl, rfl⟩
    have key : p'.x = q'.x ∨ (2 * p'.x + q'.x) * (p'.x - q'.x) ^ 2 - (p'.y + q'.y) ^ 2 = 0 := by
      rw [← hx.1, ← hx.2, ← hx'.1, ← hx'.2]
      rcases hPQ with rfl | rfl | rfl
      · exact Or.inl rfl
      · left; rw [xc_neg]
      · right
        have hy : yc P ≠ 0 := by
          intro e
          obtain ⟨hn, hPe, -⟩ := rep_some hp hP
          apply hPP
          have : -P = P := by
            rw [hPe, Point.neg_some]
            have : p'.y = 0 := by rw [← hx.2, e]
            simp [EC, negY, this]
          nth_rewrite 2 [← this]
          exact add_neg_cancel P
        obtain ⟨-, d1, d2⟩ := dbl_x h2 hP hy
        rw [d2]
        generalize (3 * xc P ^ 2 + a) / (2 * yc P) = u at d1
        linear_combination (xc P - xc (P + P)) ^ 2 * d1
    unfold setupE
    dsimp only
    rcases key with e | e
    · rw [e, sub_self]
      generalize inv? (_ : K) = z
      rcases z with _ | z
      · rfl
      · dsimp only
        rw [inv?, if_pos rfl]
    · rw [e, inv?, if_pos rfl]
  rw [hs]

/-- **C55** for type E, exactly: of the pairs of points killed by `r` with `P ≠ 0`, the method computes the
pairing of all but those with `Q = P`, `Q = -P` or `Q = 2 P`. -/
theorem C55_typeE_iff (h : TypeE K q r exp2 exp1 sign1 sign0) {R : (EC a b).Point} (hR : GoodShift r R)
    {R' R₁ : Pt K} (hR' : PtRep R' R) {miller : PairingE.Data K → Pt K → Pt K → Pt K → Option K}
    (hm : Routine miller) (hP : r • P = 0) (hQ : r • Q = 0) (h0 : P ≠ 0) (hp : PtRep p' P) (hq : PtRep q' Q) :
    PairingF.apply (pairingE b r (PairingE.init q r a exp2 exp1 sign1 sign0 R₁)) p' q' =
      PairingF.apply (PairingE.pairing miller (PairingE.init q r a exp2 exp1 sign1 sign0 R')) p' q' ↔
    ¬(Q = P ∨ Q = -P ∨ Q = P + P) := by
  constructor
  · intro e hc
    have hord : Ord P r := ord_prime h.two h.prime (by have := h.big; omega) h0 hP
    have hPP : P + P ≠ 0 := by rw [← two_nsmul]; exact hord.ne 2 (by omega) (by have := h.big; omega)
    rw [C55_typeE_fails _ h.two h0 hPP hc hp hq, (PairingE.C93_typeE h hR hR').2 _ hm P Q p' q' hp hq hP hQ] at e
    exact absurd e (by simp)
  · intro hc
    exact C55_typeE_partial h hR hR' hm hP hQ (fun _ => ⟨fun e => hc (.inl e), fun e => hc (.inr (.inl e)),
      fun e => hc (.inr (.inr e))⟩) hp hq

end E

/-! ### Instances of type E

`q = 127`, `r = 7 = 2³ - 2 + 1`, and the curve `Y² = X³ + 9` of 147 points, 49 of them killed by 7. -/

section instE

open Spec (TypeE GoodShift tors mem_tors)

instance : Fact (Nat.Prime 127) := ⟨by norm_num⟩

theorem type127 : TypeE (ZMod 127) 127 7 3 1 (-1) 1 where
  card := ZMod.card 127
  two := by decide
  prime := by norm_num
  dvd := by decide
  pos := by decide
  lt := by decide
  s1 := .inr rfl
  s0 := .inl rfl
  hr := by norm_num
  big := by norm_num

def P127 : (EC (0 : ZMod 127) 9).Point := .some 9 22 (by
  rw [nonsingular_iff, equation_iff]; decide +kernel)

def Q127 : (EC (0 : ZMod 127) 9).Point := .some 15 35 (by
  rw [nonsingular_iff, equation_iff]; decide +kernel)

def R127 : (EC (0 : ZMod 127) 9).Point := .some 0 3 (by
  rw [nonsingular_iff, equation_iff]; decide +kernel)

theorem P127_rep : PtRep (⟨false, 9, 22⟩ : Pt (ZMod 127)) P127 := ⟨rfl, rfl, rfl⟩
theorem Q127_rep : PtRep (⟨false, 15, 35⟩ : Pt (ZMod 127)) Q127 := ⟨rfl, rfl, rfl⟩
theorem R127_rep : PtRep (⟨false, 0, 3⟩ : Pt (ZMod 127)) R127 := ⟨rfl, rfl, rfl⟩

theorem P127_order : 7 • P127 = 0 := PairingD.zero_of (by decide) P127_rep 7 (by decide +kernel)
theorem Q127_order : 7 • Q127 = 0 := PairingD.zero_of (by decide) Q127_rep 7 (by decide +kernel)

theorem good127 : GoodShift 7 R127 := by
  have := PairingE.ne_of (by decide) R127_rep 14 (by decide +kernel)
  rwa [GoodShift, ← two_smul ℕ, smul_smul]

theorem off127 : Q127 ∉ AddSubgroup.zmultiples P127 := by
  intro h
  obtain ⟨n, hn⟩ := AddSubgroup.mem_zmultiples_iff.1 h
  obtain ⟨k, hk, e⟩ : ∃ k : ℕ, k < 7 ∧ k • P127 = Q127 := by
    refine ⟨(n % 7).toNat, by omega, ?_⟩
    rw [← natCast_zsmul, Int.toNat_of_nonneg (by omega), ← hn]
    conv_rhs => rw [← Int.emod_add_mul_ediv n 7]
    have h7 : (7 : ℤ) • P127 = 0 := P127_order
    rw [add_zsmul, mul_comm, mul_zsmul, h7, zsmul_zero, add_zero]
  obtain ⟨p, ep, hp⟩ := Curve.pow_rep (ca := 0) (cb := 9) (by decide) P127_rep k
  rw [e] at hp
  have hx : p.x = 15 := hp.2.1
  have : ∀ k < 7, ((Gen.powMpz (⟨some ⟨false, 9, 22⟩⟩ : Curve.GPt (ZMod 127) 0) k).bind (·.val)).map
      (fun p => !p.inf && p.x == 15) = some false := by decide +kernel
  have := this k hk
  rw [ep] at this
  have hi : p.inf = false := hp.1
  simp [hx, hi] at this

theorem ne127 {K : Type*} [Field K] [DecidableEq K] {a b : K} {P Q : (EC a b).Point}
    (h : Q ∉ AddSubgroup.zmultiples P) : P ≠ 0 → Q ≠ P ∧ Q ≠ -P ∧ Q ≠ P + P := by
  intro _
  have hP := AddSubgroup.mem_zmultiples P
  refine ⟨?_, ?_, ?_⟩ <;> rintro rfl
  · exact h hP
  · exact h (neg_mem hP)
  · exact h (add_mem hP hP)

example : PairingF.apply (pairingE 9 7 (PairingE.init 127 7 (0 : ZMod 127) 3 1 (-1) 1 ⟨false, 0, 3⟩))
    ⟨false, 9, 22⟩ ⟨false, 15, 35⟩ = PairingF.apply (PairingE.pairing PairingE.millerProj
      (PairingE.init 127 7 (0 : ZMod 127) 3 1 (-1) 1 ⟨false, 0, 3⟩)) ⟨false, 9, 22⟩ ⟨false, 15, 35⟩ :=
  C55_typeE_partial type127 good127 R127_rep (.inr rfl) P127_order Q127_order (ne127 off127) P127_rep Q127_rep

/-- The common value. -/
example : PairingF.apply (pairingE 9 7 (PairingE.init 127 7 (0 : ZMod 127) 3 1 (-1) 1 ⟨false, 0, 3⟩))
    ⟨false, 9, 22⟩ ⟨false, 15, 35⟩ = some 16 := by decide +kernel

example : PairingF.apply (pairingE 9 7 (PairingE.init 127 7 (0 : ZMod 127) 3 1 (-1) 1 ⟨false, 0, 3⟩))
    ⟨false, 9, 22⟩ ⟨false, 9, 22⟩ = none :=
  C55_typeE_fails (P := P127) (Q := P127) _ (by decide) (Point.some_ne_zero _) (by
    rw [← two_nsmul]; exact PairingE.ne_of (by decide) P127_rep 2 (by decide +kernel)) (.inl rfl) P127_rep
    P127_rep

/-- A multiple of the first point. -/
example : ∃ t : Pt (ZMod 127), PtRep t (3 • P127) ∧ t.inf = false ∧
    PairingF.apply (pairingE 9 7 (PairingE.init 127 7 (0 : ZMod 127) 3 1 (-1) 1 ⟨false, 0, 3⟩))
      ⟨false, 9, 22⟩ t = PairingF.apply (PairingE.pairing PairingE.millerProj
        (PairingE.init 127 7 (0 : ZMod 127) 3 1 (-1) 1 ⟨false, 0, 3⟩)) ⟨false, 9, 22⟩ t := by
  obtain ⟨t, -, ht⟩ := Curve.pow_rep (ca := 0) (cb := 9) (by decide) P127_rep 3
  have hord : Ord P127 7 := ord_prime (by decide) (by norm_num) (by norm_num) (Point.some_ne_zero _) P127_order
  refine ⟨t, ht, (rep_some ht (hord.ne 3 (by decide) (by decide))).choose_spec.2,
    (C55_typeE_iff type127 good127 R127_rep (.inr rfl) P127_order ?_ (Point.some_ne_zero _) P127_rep ht).2 ?_⟩
  · rw [smul_comm, P127_order, nsmul_zero]
  · rintro (e | e | e)
    · refine hord.ne 2 (by decide) (by decide) ?_
      rwa [succ_nsmul, add_eq_right] at e
    · refine hord.ne 4 (by decide) (by decide) ?_
      rw [succ_nsmul, e, neg_add_cancel]
    · refine hord.one ?_
      rwa [succ_nsmul, two_nsmul, add_eq_left] at e

end instE

end Pbc.EllNet
