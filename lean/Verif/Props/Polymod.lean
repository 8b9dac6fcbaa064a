import Verif.Lemmas.Polymod
import Verif.Lemmas.PowRel
import Verif.Props.Poly
import Mathlib.FieldTheory.Finite.Basic
import Mathlib.Algebra.Polynomial.SpecificDegree

/-!
# Properties of the rings `R[x]/(f)`: C31, C32, C75, C76
-/

set_option autoImplicit false
set_option linter.unusedSectionVars false

namespace Props

open Pbc Pbc.Polymod Polynomial Spec
open Pbc.Quad (Codec RoundTrip)

section ring

variable {R : Type*} [CommRing R] [DecidableEq R] {n : ℕ} {poly : List R}

/-- The polynomial an array of `n` coefficients stands for. -/
noncomputable def arrPoly (n : ℕ) (a : ℕ → R) : R[X] := toPoly ((List.range n).map a)

theorem xRow_el (h : Modulus n poly) (i : ℕ) :
    val (AdjoinRoot.of (toPoly poly)) (AdjoinRoot.root (toPoly poly)) n (xRow n poly i)
      = AdjoinRoot.root (toPoly poly) ^ (n + i) :=
  xRow_val _ _ n h.pos poly (h.root _ _ (AdjoinRoot.eval₂_root _)) i

/-- **C31**: for every commutative ring and every monic `f` of positive degree `n`, multiplication
and squaring modulo `f` — the general code and the special code for degrees 3 and 6 — leave in the
result the remainder modulo `f` of the product of the arguments as they were before the call, and
change no other element, whatever arguments coincide.  (`s` and above are the private elements of the
routine.) -/
theorem C31_multiplication [Nontrivial R] (h : Modulus n poly) (s : ℕ) (m : Polymod.Mem R)
    (res e f : ℕ) (hres : res < s) (he : e < s) (hf : f < s) :
    arrPoly n (Polymod.mul n (xRow n poly) s m res e f res)
        = (arrPoly n (m e) * arrPoly n (m f)) %ₘ toPoly poly
    ∧ (∀ y, y < s → y ≠ res → Polymod.mul n (xRow n poly) s m res e f y = m y)
    ∧ arrPoly n (Polymod.square n (xRow n poly) m res e res)
        = (arrPoly n (m e) ^ 2) %ₘ toPoly poly
    ∧ (∀ y, y < s → y ≠ res → Polymod.square n (xRow n poly) m res e y = m y) := by
  have key : ∀ (a : ℕ → R) (p : R[X]), el (toPoly poly) n a = AdjoinRoot.mk (toPoly poly) p →
      arrPoly n a = p %ₘ toPoly poly := by
    intro a p hp
    rw [el_eq_mk, AdjoinRoot.mk_eq_mk] at hp
    rw [← modByMonic_eq_of_dvd_sub h.monic hp]
    symm
    change arrPoly n a %ₘ _ = _
    rw [modByMonic_eq_self_iff h.monic, h.degree]
    have := Poly.degree_lt ((List.range n).map a)
    simpa [arrPoly] using this
  have h1 := mul_val _ _ n (xRow n poly) (fun i _ => xRow_el h i) s m res e f hres he hf
  have h2 := square_val _ _ n (xRow n poly) (fun i _ => xRow_el h i) s m res e
  refine ⟨key _ _ ?_, h1.2, key _ _ ?_, h2.2⟩
  · rw [map_mul, arrPoly, arrPoly, ← el_eq_mk, ← el_eq_mk]
    exact h1.1
  · rw [map_pow, arrPoly, ← el_eq_mk]
    exact h2.1

example : Modulus 6 ([2, 0, 0, 0, 0, 3, 1] : List (ZMod 7)) := ⟨by omega, rfl, rfl⟩

/-- squaring in place modulo `x³ + 5` over the integers modulo 7: `(x²)² = x⁴ = 2x`. -/
example : (List.range 3).map (Polymod.mul 3 (xRow 3 [5, 0, 0, 1]) 1
    (fun _ i => if i = 2 then (1 : ZMod 7) else 0) 0 0 0 0) = [0, 2, 0] := by decide +kernel

/-- **C31**: the same, evaluated at any root `x` of `f` in any commutative ring containing an image of
the coefficients: reducing never leaves the residue class. -/
theorem C31_any_root {A : Type*} [CommRing A] (φ : R →+* A) (x : A) (h : Modulus n poly)
    (hx : eval₂ φ x (toPoly poly) = 0) (s : ℕ) (m : Polymod.Mem R)
    (res e f : ℕ) (hres : res < s) (he : e < s) (hf : f < s) :
    eval₂ φ x (arrPoly n (Polymod.mul n (xRow n poly) s m res e f res))
      = eval₂ φ x (arrPoly n (m e)) * eval₂ φ x (arrPoly n (m f))
    ∧ eval₂ φ x (arrPoly n (Polymod.square n (xRow n poly) m res e res))
      = eval₂ φ x (arrPoly n (m e)) ^ 2 := by
  have hxp : ∀ i, i < n - 1 → val φ x n (xRow n poly i) = x ^ (n + i) := fun i _ =>
    xRow_val φ x n h.pos poly (h.root _ _ hx) i
  simp only [arrPoly, ← val_eq_eval₂]
  exact ⟨(mul_val φ x n _ hxp s m res e f hres he hf).1, (square_val φ x n _ hxp s m res e).1⟩

example : eval₂ (RingHom.id (ZMod 7)) 2 (toPoly [6, 0, 0, 1]) = 0 := by
  simp [toPoly]
  decide

/-- **C31**: the tests decide equality of residues. -/
theorem C31_tests [Nontrivial R] (h : Modulus n poly) (a b : ℕ → R) :
    (Polymod.is0 n a = true ↔ el (toPoly poly) n a = 0)
    ∧ (Polymod.is1 n a = true ↔ el (toPoly poly) n a = 1)
    ∧ (Polymod.cmp n a b = false ↔ el (toPoly poly) n a = el (toPoly poly) n b) := by
  have h0 : el (toPoly poly) n (fun _ => (0 : R)) = 0 := by simp [el, Polymod.val]
  have h1 : el (toPoly poly) n (fun i => if i = 0 then (1 : R) else 0) = 1 := by
    have := h.pos
    obtain ⟨k, rfl⟩ : ∃ k, n = k + 1 := ⟨n - 1, by omega⟩
    simp [el, Polymod.val, Finset.sum_range_succ']
  refine ⟨?_, ?_, ?_⟩
  · rw [← h0, el_inj h]
    simp [Polymod.is0]
  · rw [← h1, el_inj h]
    unfold Polymod.is1
    have := h.pos
    split
    next hne =>
      simp only [Bool.false_eq_true, false_iff, not_forall]
      exact ⟨0, h.pos, by simpa using hne⟩
    next hne =>
      simp only [List.all_eq_true, List.mem_range, decide_eq_true_eq]
      constructor
      · intro hall i hi
        rcases Nat.eq_zero_or_pos i with rfl | hp
        · simpa using hne
        · have := hall (i - 1) (by omega)
          rw [Nat.sub_add_cancel hp] at this
          rw [this, if_neg (by omega)]
      · intro hall i hi
        have := hall (i + 1) (by omega)
        simpa using this
  · rw [el_inj h]
    simp [Polymod.cmp]

/-- **C31**: the remaining operations of the ring, for any coincidence of the arguments. -/
theorem C31_linear (h : Modulus n poly) (s : ℕ) (m : Polymod.Mem R) (c a b : ℕ) (z : ℤ) (r : R) :
    let W := fun (m' : Polymod.Mem R) (v : AdjoinRoot (toPoly poly)) =>
      el (toPoly poly) n (m' c) = v ∧ ∀ y, y < s → y ≠ c → m' y = m y
    let v := fun i => el (toPoly poly) n (m i)
    W (Polymod.setZ n m c z) z ∧ W (Polymod.set0 n m c) 0 ∧ W (Polymod.set1 n m c) 1
    ∧ W (Polymod.set n m c a) (v a) ∧ W (Polymod.neg n m c a) (- v a)
    ∧ W (Polymod.add n m c a b) (v a + v b) ∧ W (Polymod.sub n m c a b) (v a - v b)
    ∧ W (Polymod.double n m c a) (2 * v a) ∧ W (Polymod.mulZ n m c a z) (v a * z)
    ∧ W (Polymod.constMul n m c r a) (AdjoinRoot.of _ r * v a)
    ∧ W (Polymod.setBase n m c r) (AdjoinRoot.of _ r) :=
  ⟨setZ_writes _ _ n s h.pos m c z, set0_writes _ _ n s m c, set1_writes _ _ n s h.pos m c,
    set_writes _ _ n s m c a, neg_writes _ _ n s m c a, add_writes _ _ n s m c a b,
    sub_writes _ _ n s m c a b, double_writes _ _ n s m c a, mulZ_writes _ _ n s m c a z,
    constMul_writes _ _ n s m c a r, setBase_writes _ _ n s h.pos m c r⟩

/-- **C75**: byte encodings round trip whatever follows them, and have length `n` times that of a
coefficient. -/
theorem C75_round_trip {A : Type*} (c : Codec A) (L : ℕ) (h : RoundTrip c L) (n : ℕ) (a : ℕ → A)
    (rest : List ℕ) :
    (Polymod.toBytes c n a).length = n * L ∧ (∀ x ∈ Polymod.toBytes c n a, x < 256)
    ∧ Polymod.fromBytes c n (Polymod.toBytes c n a ++ rest) = ((List.range n).map a, n * L) := by
  have hfl : Polymod.toBytes c n a = ((List.range n).map a).flatMap c.enc := by
    simp [Polymod.toBytes, List.flatMap_map]
  refine ⟨?_, ?_, ?_⟩
  · rw [Polymod.toBytes, List.length_flatMap]
    rw [List.map_congr_left (fun i _ => (h (a i) []).1)]
    simp
  · intro x hx
    rw [Polymod.toBytes, List.mem_flatMap] at hx
    obtain ⟨i, _, hi⟩ := hx
    exact (h (a i) []).2.1 x hi
  · have := fromLoop_enc c L h ((List.range n).map a) rest 0
    rw [List.length_map, List.length_range, Nat.zero_add] at this
    rw [hfl]
    exact this

/-- **C75**: different residues have different encodings. -/
theorem C75_injective {A : Type*} (c : Codec A) (L : ℕ) (h : RoundTrip c L) (n : ℕ) (a b : ℕ → A)
    (hab : Polymod.toBytes c n a = Polymod.toBytes c n b) : ∀ i, i < n → a i = b i := by
  have h1 := (C75_round_trip c L h n a []).2.2
  rw [hab, (C75_round_trip c L h n b []).2.2] at h1
  have := congrArg Prod.fst h1
  intro i hi
  exact (List.map_inj_left.mp this i (List.mem_range.mpr hi)).symm

example : Polymod.fromBytes (fpCodec 1009) 3 (Polymod.toBytes (fpCodec 1009) 3
    (fun i => ((100 * i : ℕ) : ZMod 1009)) ++ [9]) = ([0, 100, 200], 6) := by
  have := (C75_round_trip (fpCodec 1009) (fpLength 1009) (C27_fp_round_trip 1009) 3
    (fun i => ((100 * i : ℕ) : ZMod 1009)) [9]).2.2
  rw [this]
  decide +kernel

end ring

section field

variable {K : Type*} [Field K] [DecidableEq K] {n : ℕ} {P : List K}

/-- **C32**: for irreducible `f`, inversion of a nonzero residue gives its inverse and touches
nothing else, even when argument and result coincide; inversion of 0 is the fatal error. -/
theorem C32_inverse (h : Modulus n P) (hI : Irreducible (toPoly P)) (m : Polymod.Mem K) (r e : ℕ) :
    (el (toPoly P) n (m e) ≠ 0 → ∃ m', Polymod.invert n P m r e = some m'
      ∧ el (toPoly P) n (m' r) * el (toPoly P) n (m e) = 1 ∧ ∀ y, y ≠ r → m' y = m y)
    ∧ (el (toPoly P) n (m e) = 0 → Polymod.invert n P m r e = none) := by
  have : Fact (Irreducible (toPoly P)) := ⟨hI⟩
  refine ⟨fun hne => ?_, (invert_val h 0 m r e).1⟩
  obtain ⟨m', h1, h2⟩ := (invert_val h 0 m r e).2 hne
  refine ⟨m', h1, ?_, ?_⟩
  · change val _ _ n (m' r) * _ = 1
    rw [h2.1, inv_mul_cancel₀ hne]
  · intro y hy
    obtain ⟨m'', h3, h4⟩ := (invert_val h (y + 1) m r e).2 hne
    rw [h1, Option.some.injEq] at h3
    subst h3
    exact h4.2 y (by omega) hy

/-- **C32**: every program of calls on elements of `K[x]/(f)`, `f` monic irreducible, with any
aliasing of the arguments and dividing only by nonzero elements, computes what it computes in the
field `K[x]/(f)`.  `t` and above are private to the routines. -/
theorem C32_programs (h : Modulus n P) [Fact (Irreducible (toPoly P))] (t : ℕ) (prog : List RingOp)
    (hv : ∀ o ∈ prog, ∀ i ∈ o.vars, i < t) (m : Polymod.Mem K)
    (hal : RingAllowed (fun e => el (toPoly P) n (m e)) prog) :
    ∃ m', Polymod.run n P t m prog = some m' ∧
      ∀ e, e < t → el (toPoly P) n (m' e) = ringRun (fun e => el (toPoly P) n (m e)) prog e :=
  run_rep h t prog hv m _ (fun _ _ => rfl) hal

theorem irreducible7 : Irreducible (toPoly ([5, 0, 0, 1] : List (ZMod 7))) := by
  have hdeg : (toPoly ([5, 0, 0, 1] : List (ZMod 7))).natDegree = 3 :=
    Nat.succ.inj (Poly.natDegree_eq (l := ([5, 0, 0, 1] : List (ZMod 7)))
      (by unfold Normal; decide) (by decide))
  apply irreducible_of_degree_le_three_of_not_isRoot (by rw [hdeg]; decide)
  intro x
  rw [IsRoot.def]
  simp only [toPoly, List.foldr, eval_add, eval_mul, eval_C, eval_X, eval_zero]
  revert x
  decide

example : (Polymod.invert 3 [5, 0, 0, 1] (fun _ i => if i = 1 then (1 : ZMod 7) else 0) 0 0).map
    (fun m' => (List.range 3).map (m' 0)) = some [0, 0, 4] := by
  decide +kernel

instance irreducible7' : Fact (Irreducible (toPoly ([5, 0, 0, 1] : List (ZMod 7)))) := ⟨irreducible7⟩

example : ∃ m', Polymod.run 3 [5, 0, 0, 1] 4 (fun _ i => if i = 1 then (1 : ZMod 7) else 0)
    [.mul 0 0 1, .invert 0 1, .mul 0 0 0] = some m'
      ∧ ∀ e, e < 4 → el (toPoly [5, 0, 0, 1]) 3 (m' e)
        = ringRun (fun e => el (toPoly [5, 0, 0, 1]) 3 (fun i => if i = 1 then (1 : ZMod 7) else 0))
          [.mul 0 0 1, .invert 0 1, .mul 0 0 0] e := by
  have hm : Modulus 3 ([5, 0, 0, 1] : List (ZMod 7)) := ⟨by omega, rfl, rfl⟩
  refine C32_programs hm 4 [.mul 0 0 1, .invert 0 1, .mul 0 0 0] (by simp [RingOp.vars]) _ ?_
  refine ⟨trivial, ?_, trivial, trivial⟩
  simp only [RingOp.ok, RingOp.step, RingOp.dest, RingOp.value]
  rw [Function.update_of_ne (by decide)]
  intro h0
  have h0' : el (toPoly [5, 0, 0, 1]) 3 (fun _ => (0 : ZMod 7)) = 0 := by simp [el, Polymod.val]
  rw [← h0', el_inj hm] at h0
  have := h0 1 (by omega)
  simp at this

/-- `element_pow_mpz` in `K[x]/(f)`. -/
theorem powRel_arr [Nontrivial K] (h : Modulus n P) :
    Gen.PowRel (fun (a : Arr n P) (v : AdjoinRoot (toPoly P)) => el (toPoly P) n a.c = v) where
  one := (set1_writes _ _ n 0 h.pos (fun _ _ => 0) 0).1
  mul := by
    rintro a _ c _ rfl rfl
    exact (mul_val _ _ n (xRow n P) (fun i _ => xRow_el h i) 3
      (fun e => if e = 0 then a.c else c.c) 2 0 1 (by omega) (by omega) (by omega)).1
  sqr := by
    rintro a _ rfl
    have := (square_val _ _ n (xRow n P) (fun i _ => xRow_el h i) 0 (fun _ => a.c) 1 0).1
    rw [sq] at this
    exact this

/-- The number of residues. -/
theorem card_adjoinRoot [Fintype K] (h : Modulus n P) [Fact (Irreducible (toPoly P))] :
    Nat.card (AdjoinRoot (toPoly P)) = Fintype.card K ^ n ∧ Finite (AdjoinRoot (toPoly P)) := by
  have hne : toPoly P ≠ 0 := h.monic.ne_zero
  let pb := AdjoinRoot.powerBasis hne
  have hfin : Module.Finite K (AdjoinRoot (toPoly P)) := pb.finite
  have hf2 : Finite (AdjoinRoot (toPoly P)) := Module.finite_of_finite K
  refine ⟨?_, hf2⟩
  have hd : (toPoly P).natDegree = n := natDegree_eq_of_degree_eq_some h.degree
  rw [Module.natCard_eq_pow_finrank (K := K), pb.finrank, AdjoinRoot.powerBasis_dim, hd,
    Nat.card_eq_fintype_card]

/-- **C76** (partial: 0 is excluded, see `C76_zero_fails`): over a finite field with an odd number of
elements and for irreducible `f`, the square test answers whether a nonzero residue is a square. -/
theorem C76_is_sqr_partial [Fintype K] (hodd : Odd (Fintype.card K)) (h : Modulus n P)
    [Fact (Irreducible (toPoly P))] (a : Arr n P) (ha : el (toPoly P) n a.c ≠ 0) :
    ∃ b, Polymod.isSqr (Fintype.card K ^ n) a = some b
      ∧ (b = true ↔ IsSquare (el (toPoly P) n a.c)) := by
  obtain ⟨hcard, hfin⟩ := card_adjoinRoot h
  have := Fintype.ofFinite (AdjoinRoot (toPoly P))
  obtain ⟨r, h1, h2⟩ := Gen.powMpz_rel (powRel_arr h) (a := a) (b := el (toPoly P) n a.c) rfl
    ((Fintype.card K ^ n - 1) / 2)
  refine ⟨Polymod.is1 n r.c, by simp only [Polymod.isSqr, h1], ?_⟩
  rw [((C31_tests h r.c r.c).2.1), h2]
  have hq : Fintype.card (AdjoinRoot (toPoly P)) = Fintype.card K ^ n := by
    rw [← hcard, Nat.card_eq_fintype_card]
  have hqo : Odd (Fintype.card (AdjoinRoot (toPoly P))) := by rw [hq]; exact hodd.pow
  have hchar : ringChar (AdjoinRoot (toPoly P)) ≠ 2 := by
    intro hc
    have := FiniteField.even_card_of_char_two hc
    obtain ⟨k, hk⟩ := hqo
    omega
  rw [FiniteField.isSquare_iff hchar ha, hq]
  have : Fintype.card K ^ n / 2 = (Fintype.card K ^ n - 1) / 2 := by
    obtain ⟨k, hk⟩ := hodd.pow (n := n)
    omega
  rw [this]

/-- **C76**: 0, which is a square, is reported not to be one. -/
theorem C76_zero_fails [Fintype K] (hodd : Odd (Fintype.card K)) (h : Modulus n P)
    [Fact (Irreducible (toPoly P))] (a : Arr n P) (ha : el (toPoly P) n a.c = 0) :
    Polymod.isSqr (Fintype.card K ^ n) a = some false ∧ IsSquare (el (toPoly P) n a.c) := by
  obtain ⟨r, h1, h2⟩ := Gen.powMpz_rel (powRel_arr h) (a := a) (b := el (toPoly P) n a.c) rfl
    ((Fintype.card K ^ n - 1) / 2)
  refine ⟨?_, by rw [ha]; exact IsSquare.zero⟩
  simp only [Polymod.isSqr, h1, Option.some.injEq]
  rw [Bool.eq_false_iff, ne_eq, (C31_tests h r.c r.c).2.1, h2, ha, zero_pow]
  · exact zero_ne_one
  · obtain ⟨k, hk⟩ := hodd.pow (n := n)
    have hc : 1 < Fintype.card K := Fintype.one_lt_card
    have : 1 < Fintype.card K ^ n := Nat.one_lt_pow h.pos.ne' hc
    omega

example : Polymod.isSqr (7 ^ 3) (⟨fun i => if i = 0 then 4 else 0⟩ : Arr 3 ([5, 0, 0, 1] : List (ZMod 7)))
    = some true ∧ Polymod.isSqr (7 ^ 3)
      (⟨fun i => if i = 0 then 3 else 0⟩ : Arr 3 ([5, 0, 0, 1] : List (ZMod 7))) = some false := by
  decide +kernel

end field

end Props
