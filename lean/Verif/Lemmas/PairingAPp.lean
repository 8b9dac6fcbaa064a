import Verif.Lemmas.PairingA

/-! # Preprocessing and projective coordinates for types A and A1 -/

set_option autoImplicit false
set_option linter.unusedSectionVars false

namespace Pbc.PairingA

open Pbc.Quad
open Pbc.Curve (Pt)
open WeierstrassCurve WeierstrassCurve.Affine
open Spec (EC PtRep)
open Tate

section pp

variable {K : Type*} [Field K] [DecidableEq K]

/-! ### Type A: the preprocessed routine does the same computation as the affine one -/

theorem ppLoop_eq : ∀ (k : ℕ) (V : Pt K) (pre : List (Abc K)),
    (ppLoop k V pre = none ∧ ∀ Q f, affineLoop Q k V f = none) ∨
    ∃ V' ls, ppLoop k V pre = some (V', pre ++ ls) ∧ ls.length = k ∧
      ∀ Q f rest, affineLoop Q k V f =
        (ppApplyLoop (pre ++ ls ++ rest) Q k pre.length f).map (fun f' => (V', f'))
  | 0, V, pre => .inr ⟨V, [], by simp [ppLoop], rfl, fun Q f rest => by simp [affineLoop, ppApplyLoop]⟩
  | k + 1, V, pre => by
    rw [ppLoop]
    rcases hd : dbl V with _ | V1
    · left
      refine ⟨rfl, fun Q f => ?_⟩
      rw [affineLoop, hd]
    · dsimp only
      rcases ppLoop_eq k V1 (pre ++ [tangent V.x V.y]) with ⟨h1, h2⟩ | ⟨V', ls, h1, h2, h3⟩
      · left
        refine ⟨h1, fun Q f => ?_⟩
        rw [affineLoop, hd]
        exact h2 Q _
      · right
        refine ⟨V', tangent V.x V.y :: ls, by rw [h1]; simp, by simp [h2], fun Q f rest => ?_⟩
        rw [affineLoop, hd, ppApplyLoop]
        dsimp only
        rw [h3 Q _ rest]
        have e : (pre ++ tangent V.x V.y :: ls ++ rest)[pre.length]? = some (tangent V.x V.y) := by
          simp
        unfold ppStep
        rw [e]
        simp [doTangent]

/-- Preprocessing then applying is the affine computation, for every pair of elements. -/
theorem pp_eq (p : Params) (h : p.exp1 ≤ p.exp2) (P Q : Pt K) :
    (ppInit p P).bind (fun c => ppMiller p c Q) = affineMiller p P Q := by
  unfold ppInit affineMiller
  rcases ppLoop_eq p.exp1 (copy P) [] with ⟨h1, h2⟩ | ⟨V, ls, h1, h2, h3⟩
  · rw [h1, h2]; rfl
  · rw [h1]
    simp only [List.nil_append, List.length_nil] at h3 ⊢
    rcases ppLoop_eq (p.exp2 - p.exp1) V ls with ⟨g1, g2⟩ | ⟨V2, ls2, g1, g2, g3⟩
    · rw [g1]
      dsimp only
      rw [h3 Q one2 []]
      rcases ppApplyLoop (ls ++ []) Q p.exp1 0 one2 with _ | f
      · rfl
      · dsimp only [Option.map_some, Option.bind_none]
        rcases (if p.sign1 < 0 then invert2 f else some f) with _ | f1
        · rfl
        · dsimp only; rw [g2]
    · rw [g1]
      dsimp only
      have hlen : ((ls ++ ls2) ++ [line V2.x V2.y (if p.sign1 < 0 then neg V else copy V).x
          (if p.sign1 < 0 then neg V else copy V).y]).length ≤ p.exp2 + 1 := by
        simp only [List.length_append, List.length_cons, List.length_nil, h2, g2]; omega
      rw [if_pos hlen, Option.bind_some, h3 Q one2 (ls2 ++ [line V2.x V2.y
        (if p.sign1 < 0 then neg V else copy V).x (if p.sign1 < 0 then neg V else copy V).y]),
        ← List.append_assoc]
      unfold ppMiller
      rcases ppApplyLoop _ Q p.exp1 0 one2 with _ | f
      · rfl
      · dsimp only [Option.map_some]
        rcases (if p.sign1 < 0 then invert2 f else some f) with _ | f1
        · rfl
        · dsimp only
          rw [g3 Q f [line V2.x V2.y (if p.sign1 < 0 then neg V else copy V).x
            (if p.sign1 < 0 then neg V else copy V).y], ← h2]
          rcases ppApplyLoop _ Q (p.exp2 - ls.length) ls.length f with _ | f'
          · rfl
          · dsimp only [Option.map_some]
            rw [← h2] at g2
            unfold ppStep
            rw [← g2, ← List.length_append, List.getElem?_concat_length]
            rfl

/-! ### Type A1 -/

theorem mul2_assoc (f g h : El K) : mul2 (mul2 f g) h = mul2 f (mul2 g h) := by
  apply alg_inj (v := -1)
  rw [alg_mul2, alg_mul2, alg_mul2, alg_mul2, mul_assoc]

theorem pp2_eval (t l : Abc K) (Qx Qy : K) :
    a1PpEval true (some (pp2 t l)) Qx Qy (Qx ^ 2) (Qy ^ 2) (Qx * Qy) =
      some (mul2 (evalfn t Qx Qy) (evalfn l Qx Qy)) := by
  unfold a1PpEval pp2
  dsimp only
  refine congrArg some ?_
  apply alg_inj (v := -1)
  rw [alg_mul2, ← alg_mul]
  simp only [evalfn]
  congr 2 <;> ring

theorem a1PpLoop_eq (r : ℕ) (P : Pt K) : ∀ (m : ℕ) (V : Pt K) (pre : List (Pp1 K)),
    (a1PpLoop r P m V pre = none ∧ ∀ Q f, a1Loop r P Q m V f = none) ∨
    ∃ ls, a1PpLoop r P m V pre = some (pre ++ ls) ∧ ls.length = m + 1 ∧
      ∀ Q f, a1Loop r P Q m V f =
        a1PpApplyLoop r (pre ++ ls) Q.x Q.y (Q.x ^ 2) (Q.y ^ 2) (Q.x * Q.y) m pre.length f
  | 0, V, pre => .inr ⟨[.tangent (tangent V.x V.y)], rfl, rfl, fun Q f => by
      rw [a1PpApplyLoop, List.getElem?_concat_length]; rfl⟩
  | m + 1, V, pre => by
    rw [a1PpLoop]
    dsimp only
    rcases hd : dbl V with _ | V1
    · left
      refine ⟨rfl, fun Q f => ?_⟩
      rw [a1Loop, hd]
    · dsimp only
      rcases hb : r.testBit (m + 1) with _ | _
      · rw [if_neg (by decide)]
        rcases a1PpLoop_eq r P m V1 (pre ++ [.tangent (tangent V.x V.y)]) with ⟨h1, h2⟩ | ⟨ls, h1, h2, h3⟩
        · left
          refine ⟨h1, fun Q f => ?_⟩
          rw [a1Loop, hd]
          dsimp only
          rw [hb, if_neg (by decide)]
          exact h2 Q _
        · right
          refine ⟨.tangent (tangent V.x V.y) :: ls, by rw [h1]; simp, by simp [h2], fun Q f => ?_⟩
          rw [a1Loop, hd]
          dsimp only
          rw [hb, if_neg (by decide), h3, a1PpApplyLoop]
          have e : (pre ++ Pp1.tangent (tangent V.x V.y) :: ls)[pre.length]? =
            some (.tangent (tangent V.x V.y)) := by simp
          rw [e, hb]
          simp [a1PpEval, doTangent]
      · rw [if_pos rfl]
        rcases ha : add V1 P with _ | V2
        · left
          refine ⟨rfl, fun Q f => ?_⟩
          rw [a1Loop, hd]
          dsimp only
          rw [hb, if_pos rfl, ha]
        · dsimp only
          rcases a1PpLoop_eq r P m V2 (pre ++ [pp2 (tangent V.x V.y) (line V1.x V1.y P.x P.y)])
            with ⟨h1, h2⟩ | ⟨ls, h1, h2, h3⟩
          · left
            refine ⟨h1, fun Q f => ?_⟩
            rw [a1Loop, hd]
            dsimp only
            rw [hb, if_pos rfl, ha]
            exact h2 Q _
          · right
            refine ⟨pp2 (tangent V.x V.y) (line V1.x V1.y P.x P.y) :: ls, by rw [h1]; simp,
              by simp [h2], fun Q f => ?_⟩
            rw [a1Loop, hd]
            dsimp only
            rw [hb, if_pos rfl, ha]
            dsimp only
            rw [h3, a1PpApplyLoop]
            have e : (pre ++ pp2 (tangent V.x V.y) (line V1.x V1.y P.x P.y) :: ls)[pre.length]? =
              some (pp2 (tangent V.x V.y) (line V1.x V1.y P.x P.y)) := by simp
            rw [e, hb, pp2_eval]
            dsimp only
            unfold doLine doTangent
            dsimp only
            rw [mul2_assoc]
            simp

theorem bits_ge (r : ℕ) (h : 2 ≤ r) : 2 ≤ Gen.bits r := by
  unfold Gen.bits
  rw [if_neg (by omega)]
  exact Nat.lt_size.2 (by simpa using h)

theorem a1_pp_eq (r : ℕ) (hr : 2 ≤ r) (P Q : Pt K) :
    (a1PpInit r P).bind (fun c => a1PpMiller r c Q) = a1Miller r P Q := by
  unfold a1PpInit a1Miller
  rcases a1PpLoop_eq r P (a1Start r) (copy P) [] with ⟨h1, h2⟩ | ⟨ls, h1, h2, h3⟩
  · rw [h1, h2]; rfl
  · rw [h1]
    dsimp only
    have hb := bits_ge r hr
    rw [List.nil_append, if_pos (by
      rw [h2]; unfold a1Start; dsimp only; split_ifs <;> omega), Option.bind_some, h3]
    rfl

end pp

end Pbc.PairingA
