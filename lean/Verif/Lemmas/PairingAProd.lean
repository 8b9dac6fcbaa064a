import Verif.Lemmas.PairingAProj
import Verif.Lemmas.CurveBatch

/-! # Products of pairings of types A and A1 -/

set_option autoImplicit false
set_option linter.unusedSectionVars false

namespace Pbc.PairingA

open Pbc.Quad
open Pbc.Curve (Pt dblX dblY chX chY)
open WeierstrassCurve WeierstrassCurve.Affine
open Spec (EC PtRep)
open Tate

variable {K : Type*} [Field K] [DecidableEq K] [Fact (∀ r : K, r ^ 2 ≠ -1 + 0 * r)]

open Classical in
/-- The value of a function at a point of the form `Good`. -/
noncomputable def ev (F : Place (L2 K) (1 : K) 0 → L2 K) (Q : Pt K) : L2 K :=
  if h : Good Q then F (pl Q h) else 1

theorem ev_good (F : Place (L2 K) (1 : K) 0 → L2 K) {Q : Pt K} (h : Good Q) : ev F Q = F (pl Q h) :=
  dif_pos h

theorem ev_mul (F G : Place (L2 K) (1 : K) 0 → L2 K) (Q : Pt K) :
    ev (fun q => F q * G q) Q = ev F Q * ev G Q := by
  unfold ev; split_ifs <;> simp

theorem ev_pow (F : Place (L2 K) (1 : K) 0 → L2 K) (Q : Pt K) (n : ℕ) :
    ev (fun q => F q ^ n) Q = ev F Q ^ n := by
  unfold ev; split_ifs <;> simp

theorem ev_inv (F : Place (L2 K) (1 : K) 0 → L2 K) (Q : Pt K) :
    ev (fun q => (F q)⁻¹) Q = (ev F Q)⁻¹ := by
  unfold ev; split_ifs <;> simp

/-- The value of the tangent at `V`. -/
noncomputable def tl (V : Pt K) : Place (L2 K) (1 : K) 0 → L2 K :=
  lval (tangent V.x V.y).a (tangent V.x V.y).b (tangent V.x V.y).c

/-- The value of the line through `V` and `W`. -/
noncomputable def ll (V W : Pt K) : Place (L2 K) (1 : K) 0 → L2 K :=
  lval (line V.x V.y W.x W.y).a (line V.x V.y W.x W.y).b (line V.x V.y W.x W.y).c

theorem doTangents_eq (V : Curve.Mem K) (Q : ℕ → Pt K) : ∀ (N : ℕ) (_ : ∀ j < N, Good (Q j)) (f : El K),
    alg (-1) (doTangents V Q N f) = alg (-1) f * ∏ j ∈ Finset.range N, ev (tl (V j)) (Q j)
  | 0, _, f => by simp [doTangents]
  | N + 1, hQ, f => by
    rw [doTangents, doTangent_eq _ _ (hQ N (by omega)),
      doTangents_eq V Q N (fun j hj => hQ j (by omega)), Finset.prod_range_succ,
      ev_good _ (hQ N (by omega)), mul_assoc]
    rfl

theorem doLines_eq (V : Curve.Mem K) (W Q : ℕ → Pt K) : ∀ (N : ℕ) (_ : ∀ j < N, Good (Q j)) (f : El K),
    alg (-1) (doLines V W Q N f) = alg (-1) f * ∏ j ∈ Finset.range N, ev (ll (V j) (W j)) (Q j)
  | 0, _, f => by simp [doLines]
  | N + 1, hQ, f => by
    rw [doLines, doLine_eq _ _ _ (hQ N (by omega)),
      doLines_eq V W Q N (fun j hj => hQ j (by omega)), Finset.prod_range_succ,
      ev_good _ (hQ N (by omega)), mul_assoc]
    rfl

variable {P : ℕ → (EC (1 : K) 0).Point} {N : ℕ}

theorem multiDbl_rep (h2 : (2 : K) ≠ 0) (hN : 1 ≤ N) {V : Curve.Mem K} {R : ℕ → (EC (1 : K) 0).Point}
    (hV : ∀ j < N, PtRep (V j) (R j)) (hR : ∀ j < N, (2 : ℤ) • R j ≠ 0) :
    ∃ V', multiDbl N V = some V' ∧ (∀ j < N, PtRep (V' j) ((2 : ℤ) • R j)) ∧
      ∀ l, N ≤ l → V' l = V l := by
  have h0 : ∀ j < N, R j ≠ 0 := fun j hj h => hR j hj (by rw [h, smul_zero])
  obtain ⟨V', e, h, hrest⟩ := Curve.multiDouble_rep (ca := (1 : K)) (cb := 0) h2 (m := V) (c := id)
    (a := id) hN hV (fun i hi => by
      obtain ⟨hns, hRe, _⟩ := rep_some (hV i hi) (h0 i hi)
      have := y_ne_of hns (by rw [← hRe]; exact_mod_cast hR i hi)
      exact this)
    (fun i hi h => h) (fun i _ j _ hij => ⟨hij, hij⟩)
  exact ⟨V', e, fun j hj => by exact_mod_cast h j hj,
    fun l hl => hrest l (fun i hi => by simp only [id_eq]; omega)⟩

theorem prodLoop_spec (h2 : (2 : K) ≠ 0) (hN : 1 ≤ N)
    (hP : ∀ j < N, ∀ n : ℕ, ((2 ^ n : ℕ) : ℤ) • P j ≠ 0) :
    ∀ (k n : ℕ) (V : Curve.Mem K) (F : ℕ → Place (L2 K) (1 : K) 0 → L2 K),
      (∀ j < N, PtRep (V j) (((2 ^ n : ℕ) : ℤ) • P j)) →
      (∀ j < N, Mil (L2 K) (P j) ((2 ^ n : ℕ) : ℤ) (F j)) →
      ∃ (V' : Curve.Mem K) (F' : ℕ → Place (L2 K) (1 : K) 0 → L2 K), (∀ j < N, PtRep (V' j) (((2 ^ (n + k) : ℕ) : ℤ) • P j)) ∧
        (∀ j < N, Mil (L2 K) (P j) ((2 ^ (n + k) : ℕ) : ℤ) (F' j)) ∧
        ∀ Q : ℕ → Pt K, (∀ j < N, Good (Q j)) →
          ∀ f, alg (-1) f = ∏ j ∈ Finset.range N, ev (F j) (Q j) →
          ∃ f', prodLoop Q N k V f = some (V', f') ∧
            alg (-1) f' = ∏ j ∈ Finset.range N, ev (F' j) (Q j)
  | 0, n, V, F, hV, hF => ⟨V, F, hV, hF, fun _ _ f hf => ⟨f, rfl, hf⟩⟩
  | k + 1, n, V, F, hV, hF => by
    have e2 : ((2 ^ (n + 1) : ℕ) : ℤ) = 2 * ((2 ^ n : ℕ) : ℤ) := by push_cast; ring
    have hne : ∀ j < N, (2 : ℤ) • ((2 ^ n : ℕ) : ℤ) • P j ≠ 0 := fun j hj => by
      rw [← mul_smul, ← e2]; exact hP j hj (n + 1)
    obtain ⟨V1, hd, hV1, _⟩ := multiDbl_rep h2 hN hV hne
    have hF1 : ∀ j < N, Mil (L2 K) (P j) ((2 ^ (n + 1) : ℕ) : ℤ) (fun q => F j q ^ 2 * tl (V j) q) :=
      fun j hj => by
        rw [e2]
        exact step_dbl h2 (by rw [mul_smul]; exact hne j hj) (hV j hj) (hF j hj)
    have hV1' : ∀ j < N, PtRep (V1 j) (((2 ^ (n + 1) : ℕ) : ℤ) • P j) := fun j hj => by
      rw [e2, mul_smul]; exact hV1 j hj
    obtain ⟨V', F', hV', hF', hrun⟩ := prodLoop_spec h2 hN hP k (n + 1) V1 _ hV1' hF1
    rw [show n + 1 + k = n + (k + 1) by omega] at hV' hF'
    refine ⟨V', F', hV', hF', fun Q hQ f hf => ?_⟩
    obtain ⟨f', e, hf'⟩ := hrun Q hQ (doTangents V Q N (square2 f)) (by
      rw [doTangents_eq _ _ _ hQ, alg_square2, hf, ← Finset.prod_pow, ← Finset.prod_mul_distrib]
      exact Finset.prod_congr rfl fun j _ => by rw [ev_mul, ev_pow])
    exact ⟨f', by rw [prodLoop, hd]; exact e, hf'⟩

variable {p : Params} {r : ℕ}

theorem prod_ne {F : ℕ → Place (L2 K) (1 : K) 0 → L2 K} {n : ℤ} {Q : ℕ → Pt K}
    (hQ : ∀ j < N, Good (Q j)) (hF : ∀ j < N, Mil (L2 K) (P j) n (F j)) :
    ∏ j ∈ Finset.range N, ev (F j) (Q j) ≠ 0 :=
  Finset.prod_ne_zero_iff.2 fun j hj => by
    rw [Finset.mem_range] at hj
    rw [ev_good _ (hQ j hj)]
    exact (hF j hj).ne_zero _

theorem prodMiller_spec (h2 : (2 : K) ≠ 0) (hN : 1 ≤ N) (h : ValidA p r)
    (hP : ∀ j < N, addOrderOf (P j) = r) {p' : ℕ → Pt K} (hp : ∀ j < N, PtRep (p' j) (P j)) :
    ∃ F : ℕ → Place (L2 K) (1 : K) 0 → L2 K, (∀ j < N, Full (P j) r (F j)) ∧
      ∀ Q : ℕ → Pt K, (∀ j < N, Good (Q j)) → ∃ f, prodMiller p p' Q N = some f ∧
        alg (-1) f = ∏ j ∈ Finset.range N, ev (F j) (Q j) := by
  have hr0 : ∀ j < N, r • P j = 0 := fun j hj => hP j hj ▸ addOrderOf_nsmul_eq_zero (P j)
  have hP0 : ∀ j < N, P j ≠ 0 := fun j hj e => by
    have := hP j hj
    rw [e, addOrderOf_zero] at this
    have := h.big; omega
  have hne := fun j (hj : j < N) => two_pow_ne h.odd (hP0 j hj) (hr0 j hj)
  obtain ⟨V, F, hV, hF, run1⟩ := prodLoop_spec h2 hN hne p.exp1 0 (fun j => copy (p' j))
    (fun _ _ => 1) (fun j hj => by simpa using copy_rep (hp j hj)) (fun j hj => by simpa using Mil.one)
  rw [zero_add] at hV hF
  obtain ⟨V2, F2, hV2, hF2, run2⟩ := prodLoop_spec h2 hN hne (p.exp2 - p.exp1) p.exp1 V F hV hF
  rw [Nat.add_sub_cancel' h.lt.le] at hV2 hF2
  have one : ∀ Q : ℕ → Pt K, (∀ j < N, Good (Q j)) →
      alg (-1) one2 = ∏ j ∈ Finset.range N, ev (fun _ => (1 : L2 K)) (Q j) := fun Q hQ => by
    rw [alg_one2, Finset.prod_eq_one]
    intro j hj
    rw [ev_good _ (hQ j (Finset.mem_range.1 hj))]
  rcases h.s1 with hs | hs
  · refine ⟨fun j q => F2 j q * F j q * ll (V2 j) (copy (V j)) q, fun j hj =>
      h.full (hP j hj) (hV2 j hj) (V1 := copy (V j)) (F1 := F j)
        (by rw [hs, one_mul]; exact copy_rep (hV j hj)) (hF2 j hj) (by rw [hs, one_mul]; exact hF j hj),
      fun Q hQ => ?_⟩
    obtain ⟨f, e, hf⟩ := run1 Q hQ one2 (one Q hQ)
    obtain ⟨f', e', hf'⟩ := run2 Q hQ f hf
    refine ⟨doLines V2 (fun j => copy (V j)) Q N (mul2 f' f), ?_, ?_⟩
    · unfold prodMiller
      rw [e]; dsimp only
      rw [hs, if_neg (by decide)]; dsimp only
      rw [e']
      simp only [if_neg (show ¬ ((1 : ℤ) < 0) by decide)]
    · rw [doLines_eq _ _ _ _ hQ, alg_mul2, hf', hf, ← Finset.prod_mul_distrib,
        ← Finset.prod_mul_distrib]
      exact Finset.prod_congr rfl fun j _ => by
        rw [ev_mul (fun q => F2 j q * F j q), ev_mul]
  · refine ⟨fun j q => F2 j q * (F j q)⁻¹ * ll (V2 j) (neg (V j)) q, fun j hj =>
      h.full (hP j hj) (hV2 j hj) (V1 := neg (V j)) (F1 := fun q => (F j q)⁻¹)
        (by rw [hs, neg_one_mul, neg_smul]; exact neg_rep (hV j hj)) (hF2 j hj)
        (by rw [hs, neg_one_mul]; exact (hF j hj).inv),
      fun Q hQ => ?_⟩
    obtain ⟨f, e, hf⟩ := run1 Q hQ one2 (one Q hQ)
    obtain ⟨f', e', hf'⟩ := run2 Q hQ f hf
    obtain ⟨g, eg, hg⟩ := alg_invert2 (f := f) (by rw [hf]; exact prod_ne hQ hF)
    refine ⟨doLines V2 (fun j => neg (V j)) Q N (mul2 f' g), ?_, ?_⟩
    · unfold prodMiller
      rw [e]; dsimp only
      rw [hs, if_pos (by decide), eg]; dsimp only
      rw [e']
      simp only [if_pos (show ((-1 : ℤ) < 0) by decide)]
    · rw [doLines_eq _ _ _ _ hQ, alg_mul2, hf', hg, hf, ← Finset.prod_inv_distrib,
        ← Finset.prod_mul_distrib, ← Finset.prod_mul_distrib]
      exact Finset.prod_congr rfl fun j _ => by
        rw [ev_mul (fun q => F2 j q * (F j q)⁻¹), ev_mul, ev_inv]

theorem a1ProdLoop_spec (h2 : (2 : K) ≠ 0) (hN : 1 ≤ N) (hP0 : ∀ j < N, P j ≠ 0)
    (hc : ∀ j < N, Chain r (P j)) {p' : ℕ → Pt K} (hp : ∀ j < N, PtRep (p' j) (P j)) :
    ∀ (m : ℕ) (V : Curve.Mem K) (F : ℕ → Place (L2 K) (1 : K) 0 → L2 K), 1 ≤ r >>> (m + 1) →
      (∀ j < N, PtRep (V j) (((r >>> (m + 1) : ℕ) : ℤ) • P j)) → (∀ j < N, V (N + j) = p' j) →
      (∀ j < N, Mil (L2 K) (P j) ((r >>> (m + 1) : ℕ) : ℤ) (F j)) →
      ∃ F' : ℕ → Place (L2 K) (1 : K) 0 → L2 K, (∀ j < N, Mil (L2 K) (P j) ((2 * (r >>> 1) : ℕ) : ℤ) (F' j)) ∧
        ∀ Q : ℕ → Pt K, (∀ j < N, Good (Q j)) →
          ∀ f, alg (-1) f = (∏ j ∈ Finset.range N, ev (F j) (Q j)) ^ 2 →
          ∃ f', a1ProdLoop r p' Q N m V f = some f' ∧
            alg (-1) f' = ∏ j ∈ Finset.range N, ev (F' j) (Q j)
  | 0, V, F, h1, hV, hr, hF => by
    refine ⟨fun j q => F j q ^ 2 * tl (V j) q, fun j hj => ?_, fun Q hQ f hf => ⟨_, rfl, ?_⟩⟩
    · have hn := (hc j hj 1 (le_refl 1) h1).1
      have hF1 := step_dbl h2 (n := ((r >>> (0 + 1) : ℕ) : ℤ)) (by
        rw [← natCast_zsmul] at hn; exact_mod_cast hn) (hV j hj) (hF j hj)
      exact_mod_cast hF1
    · rw [doTangents_eq _ _ _ hQ, hf, ← Finset.prod_pow, ← Finset.prod_mul_distrib]
      exact Finset.prod_congr rfl fun j _ => by rw [ev_mul, ev_pow]
  | m + 1, V, F, h1, hV, hr, hF => by
    have e2 : ((2 * (r >>> (m + 1 + 1)) : ℕ) : ℤ) = 2 * ((r >>> (m + 1 + 1) : ℕ) : ℤ) := by push_cast; ring
    have hn : ∀ j < N, ((2 * (r >>> (m + 1 + 1)) : ℕ) : ℤ) • P j ≠ 0 := fun j hj => by
      rw [natCast_zsmul]; exact (hc j hj (m + 1 + 1) (by omega) h1).1
    have hF1 : ∀ j < N, Mil (L2 K) (P j) ((2 * (r >>> (m + 1 + 1)) : ℕ) : ℤ)
        (fun q => F j q ^ 2 * tl (V j) q) := fun j hj => by
      rw [e2]
      exact step_dbl h2 (by rw [← e2]; exact hn j hj) (hV j hj) (hF j hj)
    obtain ⟨V1, hd, hV1, hV1r⟩ := multiDbl_rep h2 hN hV (fun j hj => by
      rw [← mul_smul, ← e2]; exact hn j hj)
    have hV1' : ∀ j < N, PtRep (V1 j) (((2 * (r >>> (m + 1 + 1)) : ℕ) : ℤ) • P j) := fun j hj => by
      rw [e2, mul_smul]; exact hV1 j hj
    have hV1p : ∀ j < N, V1 (N + j) = p' j := fun j hj => by
      rw [hV1r _ (by omega)]; exact hr j hj
    have hsh := shift_step r m
    have tan : ∀ Q : ℕ → Pt K, (∀ j < N, Good (Q j)) →
        ∀ f, alg (-1) f = (∏ j ∈ Finset.range N, ev (F j) (Q j)) ^ 2 →
        alg (-1) (doTangents V Q N f) =
          ∏ j ∈ Finset.range N, ev (fun q => F j q ^ 2 * tl (V j) q) (Q j) := fun Q hQ f hf => by
      rw [doTangents_eq _ _ _ hQ, hf, ← Finset.prod_pow, ← Finset.prod_mul_distrib]
      exact Finset.prod_congr rfl fun j _ => by rw [ev_mul, ev_pow]
    rcases hb : r.testBit (m + 1) with _ | _
    · rw [hb, Bool.toNat_false, add_zero] at hsh
      rw [← hsh] at hV1' hF1
      obtain ⟨F', hF', hrun⟩ := a1ProdLoop_spec h2 hN hP0 hc hp m V1 _ (by omega) hV1' hV1p hF1
      refine ⟨F', hF', fun Q hQ f hf => ?_⟩
      obtain ⟨f', e, hf'⟩ := hrun Q hQ (square2 (doTangents V Q N f)) (by
        rw [alg_square2, tan Q hQ f hf])
      refine ⟨f', ?_, hf'⟩
      rw [a1ProdLoop]
      dsimp only
      rw [hd]
      dsimp only
      rw [hb, if_neg (by decide)]
      exact e
    · have hadd : ∀ j < N, ((2 * (r >>> (m + 1 + 1)) : ℕ) : ℤ) • P j ≠ P j ∧
          ((2 * (r >>> (m + 1 + 1)) : ℕ) : ℤ) • P j ≠ -P j := fun j hj => by
        rw [natCast_zsmul]
        exact (hc j hj (m + 1 + 1) (by omega) h1).2 (by omega) (by simpa using hb)
      have hF2 : ∀ j < N, Mil (L2 K) (P j) (((2 * (r >>> (m + 1 + 1)) : ℕ) : ℤ) + 1)
          (fun q => F j q ^ 2 * tl (V j) q * ll (V1 j) (p' j) q) := fun j hj =>
        step_add (hP0 j hj) (hn j hj) (hadd j hj).1 (hadd j hj).2 (hV1' j hj) (hp j hj) (hF1 j hj)
      obtain ⟨V2, ha, hV2, hV2r⟩ := Curve.multiAdd_rep (ca := (1 : K)) (cb := 0) h2 (m := V1) (c := id)
        (a := id) (b := (N + ·)) hN hV1' (Q := P) (fun j hj => by rw [hV1p j hj]; exact hp j hj)
        (fun j hj => by
          obtain ⟨hns, hR, _⟩ := rep_some (hV1' j hj) (hn j hj)
          obtain ⟨hns', hR', _⟩ := rep_some (hp j hj) (hP0 j hj)
          have := x_ne_of hns hns' (by rw [← hR, ← hR']; exact (hadd j hj).1)
            (by rw [← hR, ← hR']; exact (hadd j hj).2)
          rw [hV1p j hj]
          exact this)
        (fun i _ j _ hij => ⟨hij, by simp only [id_eq]; omega, hij⟩)
      rw [hb, Bool.toNat_true] at hsh
      have e3 : ((2 * (r >>> (m + 1 + 1)) : ℕ) : ℤ) + 1 = ((r >>> (m + 1) : ℕ) : ℤ) := by
        rw [hsh]; push_cast; ring
      rw [e3] at hF2
      have hV2' : ∀ j < N, PtRep (V2 j) (((r >>> (m + 1) : ℕ) : ℤ) • P j) := fun j hj => by
        rw [← e3, add_smul, one_smul]; exact hV2 j hj
      have hV2p : ∀ j < N, V2 (N + j) = p' j := fun j hj => by
        rw [hV2r _ (fun i hi => by simp only [id_eq]; omega)]; exact hV1p j hj
      obtain ⟨F', hF', hrun⟩ := a1ProdLoop_spec h2 hN hP0 hc hp m V2 _ (by omega) hV2' hV2p hF2
      refine ⟨F', hF', fun Q hQ f hf => ?_⟩
      obtain ⟨f', e, hf'⟩ := hrun Q hQ (square2 (doLines V1 p' Q N (doTangents V Q N f))) (by
        rw [alg_square2, doLines_eq _ _ _ _ hQ, tan Q hQ f hf, ← Finset.prod_mul_distrib]
        congr 1
        exact Finset.prod_congr rfl fun j _ => by
          rw [ev_mul (fun q => F j q ^ 2 * tl (V j) q)])
      refine ⟨f', ?_, hf'⟩
      rw [a1ProdLoop]
      dsimp only
      rw [hd]
      dsimp only
      rw [hb, if_pos rfl, ha]
      exact e

theorem a1ProdMiller_spec (h2 : (2 : K) ≠ 0) (hN : 1 ≤ N) (h3 : 3 ≤ r) (hodd : Odd r)
    (hP0 : ∀ j < N, P j ≠ 0) (hr0 : ∀ j < N, r • P j = 0) (hc : ∀ j < N, Chain r (P j))
    {p' : ℕ → Pt K} (hp : ∀ j < N, PtRep (p' j) (P j)) :
    ∃ F : ℕ → Place (L2 K) (1 : K) 0 → L2 K, (∀ j < N, Full (P j) r (F j)) ∧
      ∀ Q : ℕ → Pt K, (∀ j < N, Good (Q j)) → ∃ f, a1ProdMiller r p' Q N = some f ∧
        alg (-1) f = ∏ j ∈ Finset.range N, ev (F j) (Q j) := by
  have hs := a1Start_shift h3
  obtain ⟨F, hF, hrun⟩ := a1ProdLoop_spec h2 hN hP0 hc hp (a1Start r)
    (fun j => if j < N then copy (p' j) else p' (j - N)) (fun _ _ => 1)
    (by rw [hs]) (fun j hj => by rw [hs, if_pos hj]; simpa using copy_rep (hp j hj))
    (fun j hj => by rw [if_neg (by omega), Nat.add_sub_cancel_left])
    (fun j hj => by rw [hs]; simpa using Mil.one)
  refine ⟨F, fun j hj => (hF j hj).full_pred (hr0 j hj) ?_, fun Q hQ => hrun Q hQ one2 ?_⟩
  · obtain ⟨m, rfl⟩ := hodd
    rw [Nat.shiftRight_one]; omega
  · rw [alg_one2, Finset.prod_eq_one, one_pow]
    intro j hj
    rw [ev_good _ (hQ j (Finset.mem_range.1 hj))]

end Pbc.PairingA
