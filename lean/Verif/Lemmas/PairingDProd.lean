import Verif.Lemmas.PairingD
import Verif.Lemmas.CurveBatch

/-! # Products of pairings of type D -/

set_option autoImplicit false
set_option linter.unusedSectionVars false

namespace Pbc.PairingD

open Pbc.Quad
open Pbc.Curve (Pt)
open Pbc.PairingA (Abc copy)
open WeierstrassCurve WeierstrassCurve.Affine
open Spec (EC PtRep)
open Tate

variable {F K : Type*} [Field F] [DecidableEq F] [Field K] [DecidableEq K] [Algebra F K]

theorem rep_eq {a b : F} {p q : Pt F} {P : (EC a b).Point} (h : PtRep p P) (h' : PtRep q P) (h0 : P ≠ 0) :
    p = q := by
  rcases P with _ | ⟨x, y, hn⟩
  · exact absurd rfl h0
  · rcases p with ⟨i, px, py⟩
    rcases q with ⟨j, qx, qy⟩
    obtain ⟨h1, h2, h3⟩ := h
    obtain ⟨h1', h2', h3'⟩ := h'
    simp only at h1 h2 h3 h1' h2' h3'
    rw [h1, h2, h3, h1', h2', h3']

variable (p : Data F K)

/-- Multiplying the accumulator by the value of a line at `Q`. -/
def stepAt (Q : K × K) (l : Abc F) (v : El K) : El K := mul2 p.nqr v (evalfn p.E l Q.1 Q.2)

theorem doTangents_eq (Z : Curve.Mem F) (Q : ℕ → K × K) (vs : ℕ → El K) : ∀ (N : ℕ) (v w : El K),
    alg p.nqr v = alg p.nqr w * ∏ j ∈ Finset.range N, alg p.nqr (vs j) →
    alg p.nqr (doTangents p Z Q N v) = alg p.nqr w * ∏ j ∈ Finset.range N,
      alg p.nqr (stepAt p (Q j) (tangent p.a (Z j).x (Z j).y) (vs j))
  | 0, v, w, h => by simpa [doTangents] using h
  | N + 1, v, w, h => by
    rw [doTangents, alg_mul2, doTangents_eq Z Q vs N v (mul2 p.nqr w (vs N)) (by
      rw [alg_mul2, h, Finset.prod_range_succ]; ring), Finset.prod_range_succ, stepAt, alg_mul2, alg_mul2]
    ring

theorem doLines_eq (Z : Curve.Mem F) (P : ℕ → Pt F) (Q : ℕ → K × K) (vs : ℕ → El K) :
    ∀ (N : ℕ) (v w : El K), alg p.nqr v = alg p.nqr w * ∏ j ∈ Finset.range N, alg p.nqr (vs j) →
    alg p.nqr (doLines p Z P Q N v) = alg p.nqr w * ∏ j ∈ Finset.range N,
      alg p.nqr (stepAt p (Q j) (line (Z j).x (Z j).y (P j).x (P j).y) (vs j))
  | 0, v, w, h => by simpa [doLines] using h
  | N + 1, v, w, h => by
    rw [doLines, alg_mul2, doLines_eq Z P Q vs N v (mul2 p.nqr w (vs N)) (by
      rw [alg_mul2, h, Finset.prod_range_succ]; ring), Finset.prod_range_succ, stepAt, alg_mul2, alg_mul2]
    ring

variable {p} {a b : F} {P : ℕ → (EC a b).Point} {N : ℕ}

/-- The common loop computes the product of what the single loops compute. -/
theorem prodLoop_eq {P : ℕ → (EC p.a b).Point} (h2 : (2 : F) ≠ 0) (hN : 1 ≤ N) (hP0 : ∀ j < N, P j ≠ 0)
    (hc : ∀ j < N, Chain p.r (P j)) {p' : ℕ → Pt F} (hp : ∀ j < N, PtRep (p' j) (P j)) (Q : ℕ → K × K) :
    ∀ (m : ℕ) (V : Curve.Mem F) (v : El K) (vs fs : ℕ → El K), 1 ≤ p.r >>> (m + 1) →
      (∀ j < N, PtRep (V j) (((p.r >>> (m + 1) : ℕ) : ℤ) • P j)) → (∀ j < N, V (N + j) = p' j) →
      alg p.nqr v = ∏ j ∈ Finset.range N, alg p.nqr (vs j) →
      (∀ j < N, loop (tangent p.a) p.a p.r (p' j) (stepAt p (Q j)) (square2 p.nqr) m (V j) (vs j) =
        some (fs j)) →
      ∃ f, prodLoop p p' Q N m V v = some f ∧ alg p.nqr f = ∏ j ∈ Finset.range N, alg p.nqr (fs j)
  | 0, V, v, vs, fs, h1, hV, hr, hv, hfs => by
    refine ⟨_, rfl, ?_⟩
    rw [doTangents_eq p V Q vs N v one2 (by rw [alg_one2, one_mul, hv]), alg_one2, one_mul]
    refine Finset.prod_congr rfl fun j hj => ?_
    have := hfs j (Finset.mem_range.1 hj)
    rw [loop, Option.some.injEq] at this
    rw [this]
  | m + 1, V, v, vs, fs, h1, hV, hr, hv, hfs => by
    have e2 : ((2 * (p.r >>> (m + 1 + 1)) : ℕ) : ℤ) = 2 * ((p.r >>> (m + 1 + 1) : ℕ) : ℤ) := by
      push_cast; ring
    have hn : ∀ j < N, ((2 * (p.r >>> (m + 1 + 1)) : ℕ) : ℤ) • P j ≠ 0 := fun j hj => by
      rw [natCast_zsmul]; exact (hc j hj (m + 1 + 1) (by omega) h1).1
    have h0 : ∀ j < N, ((p.r >>> (m + 1 + 1) : ℕ) : ℤ) • P j ≠ 0 := fun j hj h => hn j hj (by
      rw [e2, mul_smul, h, smul_zero])
    have h22 : ∀ j, (2 : ℕ) • ((p.r >>> (m + 1 + 1) : ℕ) : ℤ) • P j =
        ((2 * (p.r >>> (m + 1 + 1)) : ℕ) : ℤ) • P j := fun j => by
      rw [natCast_zsmul, natCast_zsmul, mul_smul]
    obtain ⟨V1, hd, hV1, hV1r⟩ := Curve.multiDouble_rep (ca := p.a) (cb := b) h2 (m := V) (c := id)
      (a := id) hN hV (fun i hi => by
        obtain ⟨hns, hRe, _⟩ := rep_some (hV i hi) (h0 i hi)
        have := y_ne_of hns (by rw [← hRe, h22]; exact hn i hi)
        exact this)
      (fun i hi h => h) (fun i _ j _ hij => ⟨hij, hij⟩)
    have hV1' : ∀ j < N, PtRep (V1 j) (((2 * (p.r >>> (m + 1 + 1)) : ℕ) : ℤ) • P j) := fun j hj => by
      rw [← h22]; exact hV1 j hj
    have hV1p : ∀ j < N, V1 (N + j) = p' j := fun j hj => by
      rw [hV1r _ (fun i hi => by simp only [id_eq]; omega)]; exact hr j hj
    have hs1 : ∀ j < N, dbl p.a (V j) = some (V1 j) := fun j hj => by
      obtain ⟨s, e, hs⟩ := dbl_rep h2 (hV j hj)
      rw [e, rep_eq hs (hV1 j hj) (by rw [h22]; exact hn j hj)]
      rfl
    have hsh := shift_step p.r m
    have htan := doTangents_eq p V Q vs N v one2 (by rw [alg_one2, one_mul, hv])
    rw [alg_one2, one_mul] at htan
    rw [prodLoop]
    dsimp only
    rw [hd]
    dsimp only
    rcases hb : p.r.testBit (m + 1) with _ | _
    · rw [hb, Bool.toNat_false, add_zero] at hsh
      rw [← hsh] at hV1'
      rw [if_neg (by decide)]
      refine prodLoop_eq h2 hN hP0 hc hp Q m V1 _
        (fun j => square2 p.nqr (stepAt p (Q j) (tangent p.a (V j).x (V j).y) (vs j))) fs
        (by omega) hV1' hV1p ?_ fun j hj => ?_
      · simp only [alg_square2]
        rw [htan, Finset.prod_pow]
      · have := hfs j hj
        rw [loop] at this
        dsimp only at this
        rw [hs1 j hj] at this
        dsimp only at this
        rwa [hb, if_neg (by decide)] at this
    · have hadd : ∀ j < N, ((2 * (p.r >>> (m + 1 + 1)) : ℕ) : ℤ) • P j ≠ P j ∧
          ((2 * (p.r >>> (m + 1 + 1)) : ℕ) : ℤ) • P j ≠ -P j := fun j hj => by
        rw [natCast_zsmul]
        exact (hc j hj (m + 1 + 1) (by omega) h1).2 (by omega) (by simpa using hb)
      obtain ⟨V2, ha2, hV2, hV2r⟩ := Curve.multiAdd_rep (ca := p.a) (cb := b) h2 (m := V1) (c := id)
        (a := id) (b := (N + ·)) hN hV1' (Q := P) (fun j hj => by rw [hV1p j hj]; exact hp j hj)
        (fun j hj => by
          obtain ⟨hns, hR, _⟩ := rep_some (hV1' j hj) (hn j hj)
          obtain ⟨hns', hR', _⟩ := rep_some (hp j hj) (hP0 j hj)
          have := x_ne_of hns hns' (by rw [← hR, ← hR']; exact (hadd j hj).1)
            (by rw [← hR, ← hR']; exact (hadd j hj).2)
          rw [hV1p j hj]
          exact this)
        (fun i _ j _ hij => ⟨hij, by simp only [id_eq]; omega, hij⟩)
      rw [hb, Bool.toNat_true] at hsh
      have e3 : ((2 * (p.r >>> (m + 1 + 1)) : ℕ) : ℤ) + 1 = ((p.r >>> (m + 1) : ℕ) : ℤ) := by
        rw [hsh]; push_cast; ring
      have hV2' : ∀ j < N, PtRep (V2 j) (((p.r >>> (m + 1) : ℕ) : ℤ) • P j) := fun j hj => by
        rw [← e3, add_smul, one_smul]; exact hV2 j hj
      have hV2p : ∀ j < N, V2 (N + j) = p' j := fun j hj => by
        rw [hV2r _ (fun i hi => by simp only [id_eq]; omega)]; exact hV1p j hj
      have hs2 : ∀ j < N, add p.a (V1 j) (p' j) = some (V2 j) := fun j hj => by
        obtain ⟨s, e, hs⟩ := add_rep h2 (hV1' j hj) (hp j hj)
        rw [e, rep_eq hs (hV2 j hj) (fun h => (hadd j hj).2 (eq_neg_of_add_eq_zero_left h))]
        rfl
      rw [if_pos rfl, ha2]
      dsimp only
      refine prodLoop_eq h2 hN hP0 hc hp Q m V2 _
        (fun j => square2 p.nqr (stepAt p (Q j) (line (V1 j).x (V1 j).y (p' j).x (p' j).y)
          (stepAt p (Q j) (tangent p.a (V j).x (V j).y) (vs j)))) fs
        (by omega) hV2' hV2p ?_ fun j hj => ?_
      · simp only [alg_square2]
        rw [doLines_eq p V1 p' Q _ N _ one2 (by rw [alg_one2, one_mul, htan]), alg_one2, one_mul,
          Finset.prod_pow]
      · have := hfs j hj
        rw [loop] at this
        dsimp only at this
        rw [hs1 j hj] at this
        dsimp only at this
        rw [hb, if_pos rfl, hs2 j hj] at this
        exact this

theorem prodMiller_eq (h2 : (2 : F) ≠ 0) (hN : 1 ≤ N) (h3 : 3 ≤ p.r) (ha : p.a = a)
    (hP0 : ∀ j < N, P j ≠ 0) (hc : ∀ j < N, Chain p.r (P j)) {p' : ℕ → Pt F}
    (hp : ∀ j < N, PtRep (p' j) (P j)) (Q : ℕ → K × K) {fs : ℕ → El K}
    (hfs : ∀ j < N, millerAffine p (p' j) (Q j).1 (Q j).2 = some (fs j)) :
    ∃ f, prodMiller p p' Q N = some f ∧ alg p.nqr f = ∏ j ∈ Finset.range N, alg p.nqr (fs j) := by
  subst ha
  have hs := start_shift h3
  refine prodLoop_eq h2 hN hP0 hc hp Q (start p.r) _ one2 (fun _ => one2) fs (by rw [hs])
    (fun j hj => by rw [hs, if_pos hj]; simpa using copy_rep (hp j hj))
    (fun j hj => by rw [if_neg (by omega), Nat.add_sub_cancel_left])
    (by simp [alg_one2]) (fun j hj => ?_)
  rw [if_pos hj]
  exact hfs j hj

end Pbc.PairingD
