import Verif.Lemmas.EllNet
import Verif.Lemmas.Miller
import Verif.Model.EllNet

/-! # The loop of the elliptic net methods -/

set_option autoImplicit false
set_option linter.unusedSectionVars false

namespace EllNet

open WeierstrassCurve WeierstrassCurve.Affine
open Spec (EC divPoly)
open Pbc.EllNet

variable {F : Type*} [Field F] [DecidableEq F] {V : Type*} {L : Type*} [Field L] [DecidableEq L]

/-- The block holds the division polynomials at `k - 3, …, k + 4`. -/
def BlockAt (a b x y : F) (k : ℤ) (c : Block F) : Prop :=
  c = ⟨divPoly a b x y (k - 3), divPoly a b x y (k - 2), divPoly a b x y (k - 1), divPoly a b x y k,
    divPoly a b x y (k + 1), divPoly a b x y (k + 2), divPoly a b x y (k + 3), divPoly a b x y (k + 4)⟩

theorem first_at (a b x y : F) : BlockAt a b x y 1 (first a b x y) := by
  have h5 : divPoly a b x y 5 = divPoly a b x y 4 * divPoly a b x y 2 ^ 3 -
      divPoly a b x y 1 * divPoly a b x y 3 ^ 3 := by
    have := dp_odd (a := a) (b := b) x y 2
    norm_num at this
    exact this
  have m2 : (1 : ℤ) - 3 = -2 := by norm_num
  have m1 : (1 : ℤ) - 2 = -1 := by norm_num
  have z : (1 : ℤ) - 1 = 0 := by norm_num
  have p2 : (1 : ℤ) + 1 = 2 := by norm_num
  have p3 : (1 : ℤ) + 2 = 3 := by norm_num
  have p4 : (1 : ℤ) + 3 = 4 := by norm_num
  have p5 : (1 : ℤ) + 4 = 5 := by norm_num
  unfold BlockAt first
  rw [m2, m1, z, p2, p3, p4, p5]
  simp only [dp_neg, h5, dp_one, dp_two, dp_three, dp_four, dp_zero, Block.mk.injEq]
  refine ⟨?_, ?_, ?_, ?_, ?_, ?_, ?_, ?_⟩ <;> first | trivial | ring

theorem firstA_eq (x y : F) : firstA x y = first 1 0 x y := by
  unfold firstA first
  simp only [Block.mk.injEq]
  refine ⟨?_, ?_, ?_, ?_, ?_, ?_, ?_, ?_⟩ <;> first | trivial | ring

theorem dp_even' {a b x y C : F} (hC : C * (2 * y) = 1) (m : ℤ) : divPoly a b x y (2 * m) =
    divPoly a b x y m * (divPoly a b x y (m + 2) * divPoly a b x y (m - 1) ^ 2 -
      divPoly a b x y (m - 2) * divPoly a b x y (m + 1) ^ 2) * C := by
  rw [← dp_even]
  linear_combination -divPoly a b x y (2 * m) * hC

theorem stepC_at {a b x y C : F} (hC : C * (2 * y) = 1) {k : ℤ} {c : Block F}
    (h : BlockAt a b x y k c) (bit : Bool) :
    BlockAt a b x y (2 * k + (bit.toNat : ℤ)) (stepC C bit (sts c)) := by
  unfold BlockAt at h ⊢
  rw [h]
  have e := fun m => dp_even' (a := a) (b := b) (x := x) hC m
  have o := fun m => dp_odd (a := a) (b := b) x y m
  cases bit
  · have i1 := o (k - 2)
    have i2 := e (k - 1)
    have i3 := o (k - 1)
    have i4 := e k
    have i5 := o k
    have i6 := e (k + 1)
    have i7 := o (k + 1)
    have i8 := e (k + 2)
    ring_nf at i1 i2 i3 i4 i5 i6 i7 i8
    simp only [stepC, sts, Bool.false_eq_true, if_false, Bool.toNat_false, Nat.cast_zero, add_zero,
      Block.mk.injEq]
    ring_nf
    rw [i1, i2, i3, i4, i5, i6, i7, i8]
    refine ⟨?_, ?_, ?_, ?_, ?_, ?_, ?_, ?_⟩ <;> ring
  · have i1 := e (k - 1)
    have i2 := o (k - 1)
    have i3 := e k
    have i4 := o k
    have i5 := e (k + 1)
    have i6 := o (k + 1)
    have i7 := e (k + 2)
    have i8 := o (k + 2)
    ring_nf at i1 i2 i3 i4 i5 i6 i7 i8
    simp only [stepC, sts, if_true, Bool.toNat_true, Nat.cast_one, Block.mk.injEq]
    ring_nf
    rw [i1, i2, i3, i4, i5, i6, i7, i8]
    refine ⟨?_, ?_, ?_, ?_, ?_, ?_, ?_, ?_⟩ <;> ring

theorem dp_eq (a b x y : F) (n : ℤ) : divPoly a b x y n =
    normEDS (2 * y) (3 * x ^ 4 + 6 * a * x ^ 2 + 12 * b * x - a ^ 2)
      (2 * x ^ 6 + 10 * a * x ^ 4 + 40 * b * x ^ 3 - 10 * a ^ 2 * x ^ 2 - 8 * a * b * x - 2 * a ^ 3 -
        16 * b ^ 2) n := by
  have h2 := dp_two (a := a) (b := b) x y
  have h3 := dp_three (a := a) (b := b) x y
  have e4 : ((EC a b).preΨ₄).eval x = 2 * x ^ 6 + 10 * a * x ^ 4 + 40 * b * x ^ 3 -
      10 * a ^ 2 * x ^ 2 - 8 * a * b * x - 2 * a ^ 3 - 16 * b ^ 2 := by
    simp [EC, preΨ₄, b₂, b₄, b₆, b₈]
    ring
  have e := map_normEDS (Polynomial.evalEvalRingHom x y) (EC a b).ψ₂ (Polynomial.C (EC a b).Ψ₃)
    (Polynomial.C (EC a b).preΨ₄) (n := n)
  rw [← h2, ← h3, ← e4]
  simp only [divPoly, ψ_two, ψ_three]
  refine e.trans ?_
  simp [Polynomial.evalEvalRingHom, Polynomial.evalEval]

theorem dp_map (ι : F →+* L) (a b x y : F) (n : ℤ) :
    ι (divPoly a b x y n) = divPoly (ι a) (ι b) (ι x) (ι y) n := by
  rw [dp_eq, dp_eq, map_normEDS]
  simp [map_ofNat]

/-- The operations on the `d`s, seen in the field `L`. -/
structure OpsRep (ι : F →+* L) (φ : V → L) (o : Ops F V) (A B : L) : Prop where
  square : ∀ f, φ (o.square f) = φ f ^ 2
  mul : ∀ f g, φ (o.mul f g) = φ f * φ g
  sub : ∀ f g, φ (o.sub f g) = φ f - φ g
  scale : ∀ f c, φ (o.scale f c) = φ f * ι c
  mulA : ∀ f, φ (o.mulA f) = φ f * A
  mulB : ∀ f, φ (o.mulB f) = φ f * B

/-- The `d`s are `W(k-1,1)`, `W(k,1)`, `W(k+1,1)`. -/
structure DAt (φ : V → L) (w : ℕ → L) (k : ℕ) (d : DBlock V) : Prop where
  dm1 : φ d.dm1 = w (k + 1)
  d0 : φ d.d0 = w (k + 2)
  d1 : φ d.d1 = w (k + 3)

/-- What the loop needs of the terms `w j = W(j - 2, 1)`, up to the index `hi`. -/
structure Steps {a b : L} (P : (EC a b).Point) (r hi : ℕ) (w : ℕ → L) : Prop where
  w0 : w 2 = 1
  w1 : w 3 = 1
  ne0 : w 0 ≠ 0
  ne1 : w 1 ≠ 0
  step : ∀ {n k : ℕ}, 0 < n → n + 1 < r → n ≤ k + 2 → 0 < k → k + n + 2 ≤ hi →
    w (k + n + 2) * w (k + 2 - n) = w (k + 1) * w (k + 3) * psi P n ^ 2 -
      w (k + 2) ^ 2 * (psi P (n - 1) * psi P (n + 1))

theorem Off.steps {a b : L} {P Q : (EC a b).Point} {r : ℕ} (h : Ord P r) (ho : Off P Q) (hi : ℕ) :
    Steps P r hi (wn P Q) :=
  ⟨ho.w0 h.one, ho.w1 h.one, ho.wn_ne h.one 0, ho.wn_ne h.one 1,
    fun h1 h2 h3 h4 _ => ho.step h h1 h2 h3 h4⟩

section

variable {ι : F →+* L} {φ : V → L} {o : Ops F V} {a b x y : F} {P : (EC (ι a) (ι b)).Point} {r hi : ℕ} {w : ℕ → L}

theorem stepD_at (h : Ord P r) (ho : Steps P r hi w) (hx : xc P = ι x) (hy : yc P = ι y)
    (hop : OpsRep ι φ o (w 1)⁻¹ (w 0)⁻¹) {k : ℕ} (hk : 1 ≤ k) (hk3 : k + 3 < r) (hhi : 2 * k + 4 ≤ hi)
    {c : Block F} (hc : BlockAt a b x y k c) {d : DBlock V} (hd : DAt φ w k d) (bit : Bool) :
    DAt φ w (2 * k + bit.toNat) (stepD o bit (sts c).keep d) := by
  obtain ⟨j, rfl⟩ : ∃ j, k = j + 1 := ⟨k - 1, by omega⟩
  have hψ : ∀ n : ℕ, n ≤ r → ι (divPoly a b x y n) = psi P n := by
    intro n hn
    rw [h.psi_eq n hn, dp_map, hx, hy]
  have w0 := ho.w0
  have w1 := ho.w1
  have wn0 := ho.ne0
  have wn1 := ho.ne1
  have g1 : ι c.c0 = psi P (j + 1) := by
    rw [hc, ← hψ _ (by omega)]
  have g2 : ι c.c1 = psi P (j + 2) := by
    rw [hc, ← hψ _ (by omega)]; push_cast; ring_nf
  have g3 : ι c.c2 = psi P (j + 3) := by
    rw [hc, ← hψ _ (by omega)]; push_cast; ring_nf
  have g4 : ι c.c3 = psi P (j + 4) := by
    rw [hc, ← hψ _ (by omega)]; push_cast; ring_nf
  have g0 : ι c.cm1 = psi P j := by
    rw [hc, ← hψ _ (by omega)]; push_cast; ring_nf
  have s1 := ho.step (n := j + 1) (k := j + 1) (by omega) (by omega) (by omega) (by omega) (by omega)
  have s2 := ho.step (n := j + 2) (k := j + 1) (by omega) (by omega) (by omega) (by omega) (by omega)
  have s3 := ho.step (n := j + 3) (k := j + 1) (by omega) (by omega) (by omega) (by omega) (by omega)
  rw [show j + 1 + (j + 1) + 2 = 2 * (j + 1) + 2 by ring, show j + 1 + 2 - (j + 1) = 2 by omega, w0,
    show j + 1 - 1 = j by omega] at s1
  rw [show j + 1 + (j + 2) + 2 = 2 * (j + 1) + 3 by ring, show j + 1 + 2 - (j + 2) = 1 by omega,
    show j + 2 - 1 = j + 1 by omega] at s2
  rw [show j + 1 + (j + 3) + 2 = 2 * (j + 1) + 4 by ring, show j + 1 + 2 - (j + 3) = 0 by omega,
    show j + 3 - 1 = j + 2 by omega] at s3
  have key : ∀ S T : F, φ (o.sub (o.scale (o.mul d.dm1 d.d1) S) (o.scale (o.square d.d0) T)) =
      w (j + 2) * w (j + 4) * ι S - w (j + 3) ^ 2 * ι T := by
    intro S T
    rw [hop.sub, hop.scale, hop.scale, hop.mul, hop.square, hd.dm1, hd.d0, hd.d1]
  simp only [add_assoc, Nat.reduceAdd] at s1 s2 s3
  rw [mul_one] at s1
  cases bit
  · have s0 : w (2 * (j + 1) + 1) =
        w (j + 2) * w (j + 4) * ι (c.cm1 ^ 2) - w (j + 3) ^ 2 * ι (c.cm2 * c.c0) := by
      rcases Nat.eq_zero_or_pos j with rfl | hj
      · have e1 : ι c.cm2 = -1 := by
          rw [hc, dp_map]
          norm_num
          rw [dp_neg, dp_one]
        rw [map_mul, map_pow, e1, g0, g1]
        simp only [zero_add, mul_one, Nat.reduceAdd, psi, w1]
        ring
      · have sj := ho.step (n := j) (k := j + 1) hj (by omega) (by omega) (by omega) (by omega)
        rw [show j + 1 + j + 2 = 2 * (j + 1) + 1 by ring, show j + 1 + 2 - j = 3 by omega, w1,
          mul_one] at sj
        simp only [add_assoc, Nat.reduceAdd] at sj
        have g9 : ι c.cm2 = psi P (j - 1) := by
          rw [hc, ← hψ _ (by omega)]
          push_cast [Nat.cast_sub hj]
          ring_nf
        rw [map_mul, map_pow, g9, g0, g1, sj]
    refine ⟨?_, ?_, ?_⟩
    · simp only [stepD, St.keep, sts, Bool.false_eq_true, if_false, Bool.toNat_false, add_zero]
      rw [key, s0]
    · simp only [stepD, St.keep, sts, Bool.false_eq_true, if_false, Bool.toNat_false, add_zero]
      rw [key, s1, map_mul, map_pow, g0, g1, g2]
    · simp only [stepD, St.keep, sts, Bool.false_eq_true, if_false, Bool.toNat_false, add_zero]
      rw [hop.mulA, key, map_mul, map_pow, g1, g2, g3, ← s2, mul_assoc, mul_inv_cancel₀ wn1, mul_one]
  · refine ⟨?_, ?_, ?_⟩
    · simp only [stepD, St.keep, sts, if_true, Bool.toNat_true]
      rw [key, map_mul, map_pow, g0, g1, g2, ← s1]
    · simp only [stepD, St.keep, sts, if_true, Bool.toNat_true]
      rw [hop.mulA, key, map_mul, map_pow, g1, g2, g3, ← s2, mul_assoc, mul_inv_cancel₀ wn1, mul_one]
    · simp only [stepD, St.keep, sts, if_true, Bool.toNat_true]
      rw [hop.mulB, key, map_mul, map_pow, g2, g3, g4, ← s3, mul_assoc, mul_inv_cancel₀ wn0, mul_one]

theorem bit_step (r m : ℕ) : r >>> m = 2 * (r >>> (m + 1)) + (r.testBit m).toNat := by
  rw [Nat.toNat_testBit, Nat.shiftRight_succ r m, Nat.shiftRight_eq_div_pow r m]
  omega

/-- The blocks of division polynomials through the loop. -/
theorem loop_c {C : F} (hC : C * (2 * y) = 1) (o : Ops F V) (r : ℕ) : ∀ (m : ℕ) (c : Block F)
    (d : DBlock V), BlockAt a b x y ((r >>> (m + 1) : ℕ) : ℤ) c →
      BlockAt a b x y (r : ℤ) (loop o C r m c d).1 := by
  intro m
  induction m with
  | zero =>
    intro c d h
    have := stepC_at hC h (r.testBit 0)
    have e := bit_step r 0
    rw [Nat.shiftRight_zero] at e
    have e' := congrArg (Nat.cast : ℕ → ℤ) e
    rw [Nat.cast_add, Nat.cast_mul, Nat.cast_ofNat] at e'
    rw [← e'] at this
    exact this
  | succ m ih =>
    intro c d h
    rw [loop]
    apply ih
    rw [bit_step r (m + 1)]
    push_cast
    exact stepC_at hC h _

theorem loop_d (h : Ord P r) (ho : Steps P r hi w) (hx : xc P = ι x) (hy : yc P = ι y)
    (hop : OpsRep ι φ o (w 1)⁻¹ (w 0)⁻¹) (h7 : 7 ≤ r) (hhi : 2 * (r / 2) + 4 ≤ hi) {C : F} (hC : C * (2 * y) = 1) :
    ∀ (m : ℕ) (c : Block F) (d : DBlock V), 1 ≤ r >>> (m + 1) →
      BlockAt a b x y ((r >>> (m + 1) : ℕ) : ℤ) c → DAt φ w (r >>> (m + 1)) d →
      DAt φ w r (loop o C r m c d).2 := by
  have hle' : ∀ m, r >>> (m + 1) ≤ r / 2 := by
    intro m
    have : r >>> (m + 1) ≤ r >>> 1 := by
      rw [Nat.shiftRight_eq_div_pow, Nat.shiftRight_eq_div_pow]
      exact Nat.div_le_div_left (Nat.pow_le_pow_right (by norm_num) (by omega)) (by norm_num)
    rwa [Nat.shiftRight_one] at this
  have hle : ∀ m, r >>> (m + 1) + 3 < r := by
    intro m
    have := hle' m
    omega
  intro m
  induction m with
  | zero =>
    intro c d h1 hc hd
    have := stepD_at h ho hx hy hop h1 (hle 0) (by have := hle' 0; omega) hc hd (r.testBit 0)
    have e := bit_step r 0
    rw [Nat.shiftRight_zero] at e
    rw [← e] at this
    exact this
  | succ m ih =>
    intro c d h1 hc hd
    rw [loop]
    have hs := bit_step r (m + 1)
    apply ih
    · rw [hs]; omega
    · rw [hs]
      push_cast
      exact stepC_at hC hc _
    · rw [hs]
      exact stepD_at h ho hx hy hop h1 (hle _) (by have := hle' (m + 1); omega) hc hd _

end

end EllNet
