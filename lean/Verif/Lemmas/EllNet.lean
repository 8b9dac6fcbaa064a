import Verif.Lemmas.TateLine
import Verif.Spec.EllNet
import Mathlib.Tactic.LinearCombination
import Mathlib.Tactic.FieldSimp

/-! # Elliptic nets

The terms `W(n,0)` and `W(n,1)` of the net of two points, the recurrences between them, and their
relation with Miller's functions. -/

set_option autoImplicit false
set_option linter.unusedSectionVars false

namespace EllNet

open WeierstrassCurve WeierstrassCurve.Affine
open Spec (EC)

variable {K : Type*} [Field K] [DecidableEq K] {a b : K}

/-- First coordinate. -/
def xc : (EC a b).Point → K
  | .zero => 0
  | .some x _ _ => x

/-- Second coordinate. -/
def yc : (EC a b).Point → K
  | .zero => 0
  | .some _ y _ => y

theorem eqn {T : (EC a b).Point} (h : T ≠ 0) : yc T ^ 2 = xc T ^ 3 + a * xc T + b := by
  rcases T with _ | ⟨x, y, hn⟩
  · exact absurd rfl h
  · exact Tate.eqn_of hn

theorem xc_neg (T : (EC a b).Point) : xc (-T) = xc T := by
  rcases T with _ | ⟨x, y, hn⟩ <;> rfl

theorem yc_neg (T : (EC a b).Point) : yc (-T) = -yc T := by
  rcases T with _ | ⟨x, y, hn⟩
  · exact neg_zero.symm
  · exact Pbc.Curve.negY_EC x y

theorem eq_or_neg {T S : (EC a b).Point} (hT : T ≠ 0) (hS : S ≠ 0) (h : xc T = xc S) :
    T = S ∨ T = -S := by
  rcases T with _ | ⟨x, y, hn⟩
  · exact absurd rfl hT
  rcases S with _ | ⟨x', y', hn'⟩
  · exact absurd rfl hS
  by_contra hc
  push Not at hc
  exact Tate.x_ne_of hn hn' hc.1 hc.2 h

theorem yc_ne {T : (EC a b).Point} (h : T + T ≠ 0) : yc T ≠ 0 := by
  rcases T with _ | ⟨x, y, hn⟩
  · exact absurd (add_zero _) h
  · exact Tate.y_ne_of hn (by rwa [two_nsmul])

theorem add_x {T S : (EC a b).Point} (hT : T ≠ 0) (hS : S ≠ 0) (h : xc T ≠ xc S) :
    T + S ≠ 0 ∧ xc (T + S) = ((yc T - yc S) / (xc T - xc S)) ^ 2 - xc T - xc S ∧
      yc (T + S) = (yc T - yc S) / (xc T - xc S) * (xc T - xc (T + S)) - yc T := by
  rcases T with _ | ⟨x, y, hn⟩
  · exact absurd rfl hT
  rcases S with _ | ⟨x', y', hn'⟩
  · exact absurd rfl hS
  have hsl : (EC a b).slope x x' y y' = (y - y') / (x - x') := slope_of_X_ne h
  have h' : x ≠ x' := h
  rw [Point.add_of_X_ne h']
  refine ⟨Point.some_ne_zero _, ?_, ?_⟩
  · simp only [xc, yc, addX, hsl]; simp only [EC]; ring
  · simp only [xc, yc, addY, negAddY, Pbc.Curve.negY_EC, addX, hsl]; simp only [EC]; ring

theorem sub_x {T S : (EC a b).Point} (hT : T ≠ 0) (hS : S ≠ 0) (h : xc T ≠ xc S) :
    T - S ≠ 0 ∧ xc (T - S) = ((yc T + yc S) / (xc T - xc S)) ^ 2 - xc T - xc S ∧
      yc (T - S) = (yc T + yc S) / (xc T - xc S) * (xc T - xc (T - S)) - yc T := by
  have := add_x hT (neg_ne_zero.2 hS) (by rwa [xc_neg])
  rwa [← sub_eq_add_neg, xc_neg, yc_neg, sub_neg_eq_add] at this

theorem dbl_x (h2 : (2 : K) ≠ 0) {T : (EC a b).Point} (hT : T ≠ 0) (h : yc T ≠ 0) :
    T + T ≠ 0 ∧ xc (T + T) = ((3 * xc T ^ 2 + a) / (2 * yc T)) ^ 2 - 2 * xc T ∧
      yc (T + T) = (3 * xc T ^ 2 + a) / (2 * yc T) * (xc T - xc (T + T)) - yc T := by
  rcases T with _ | ⟨x, y, hn⟩
  · exact absurd rfl hT
  simp only [yc] at h
  have hne : y ≠ (EC a b).negY x y := by
    rw [Pbc.Curve.negY_EC]
    intro h'
    exact mul_ne_zero h2 h (by linear_combination h')
  have hsl : (EC a b).slope x x y y = (3 * x ^ 2 + a) / (2 * y) := by
    rw [slope_of_Y_ne rfl hne, Pbc.Curve.negY_EC]
    simp only [EC]
    congr 1 <;> ring
  rw [Point.add_self_of_Y_ne hne]
  refine ⟨Point.some_ne_zero _, ?_, ?_⟩
  · simp only [xc, yc, addX, hsl]; simp only [EC]; ring
  · simp only [xc, yc, addY, negAddY, Pbc.Curve.negY_EC, addX, hsl]; simp only [EC]; ring

/-- `(x(B+C) - t) (x(B-C) - t) (x(B) - x(C))²` is symmetric in `t`, `x(B)`, `x(C)`. -/
theorem pm {B C : (EC a b).Point} (hB : B ≠ 0) (hC : C ≠ 0) (h : xc B ≠ xc C) (t : K) :
    (xc (B + C) - t) * (xc (B - C) - t) * (xc B - xc C) ^ 2 =
      (xc B * xc C - a) ^ 2 - 4 * b * (xc B + xc C) -
        2 * t * ((xc B * xc C + a) * (xc B + xc C) + 2 * b) + t ^ 2 * (xc B - xc C) ^ 2 := by
  obtain ⟨-, h1, -⟩ := add_x hB hC h
  obtain ⟨-, h2, -⟩ := sub_x hB hC h
  have eB := eqn hB
  have eC := eqn hC
  rw [h1, h2]
  have hd : xc B - xc C ≠ 0 := sub_ne_zero.2 h
  generalize xc B = x1 at *
  generalize xc C = x2 at *
  generalize yc B = y1 at *
  generalize yc C = y2 at *
  obtain ⟨d, hdd⟩ : ∃ d, d = x1 - x2 := ⟨_, rfl⟩
  rw [← hdd] at hd ⊢
  field_simp
  subst hdd
  linear_combination ((y1 ^ 2 - y2 ^ 2 + (x1 ^ 3 + a * x1 - x2 ^ 3 - a * x2)) -
      2 * (x1 + x2 + t) * (x1 - x2) ^ 2) * eB +
    (-(y1 ^ 2 - y2 ^ 2 + (x1 ^ 3 + a * x1 - x2 ^ 3 - a * x2)) -
      2 * (x1 + x2 + t) * (x1 - x2) ^ 2) * eC

theorem three {A B C : (EC a b).Point} (hA : A ≠ 0) (hB : B ≠ 0) (hC : C ≠ 0)
    (h : xc B ≠ xc C) (h' : xc A ≠ xc B) :
    (xc (B + C) - xc A) * (xc (B - C) - xc A) * (xc B - xc C) ^ 2 =
      (xc (A + B) - xc C) * (xc (A - B) - xc C) * (xc A - xc B) ^ 2 := by
  rw [pm hB hC h, pm hA hB h']
  ring

theorem two (h2 : (2 : K) ≠ 0) {A C : (EC a b).Point} (hA : A ≠ 0) (hC : C ≠ 0) (hy : yc C ≠ 0)
    (h : xc A ≠ xc C) :
    (xc (A + C) - xc C) * (xc (A - C) - xc C) * (xc A - xc C) ^ 2 =
      4 * yc C ^ 2 * (xc (C + C) - xc A) := by
  rw [pm hA hC h]
  obtain ⟨-, e, -⟩ := dbl_x h2 hC hy
  have eC := eqn hC
  rw [e]
  field_simp
  linear_combination (32 * xc C + 16 * xc A) * eC

/-- The terms `W(n, 0)`: division polynomials of `P`, by the recurrence
`W(n+1) W(n-1) = W(n)² (x(P) - x(n P))`. -/
noncomputable def psi (P : (EC a b).Point) : ℕ → K
  | 0 => 0
  | 1 => 1
  | 2 => 2 * yc P
  | n + 3 => psi P (n + 2) ^ 2 * (xc P - xc ((n + 2) • P)) / psi P (n + 1)

/-- `P` has order `r`, at least 5. -/
structure Ord (P : (EC a b).Point) (r : ℕ) : Prop where
  two : (2 : K) ≠ 0
  five : 5 ≤ r
  ne : ∀ n, 0 < n → n < r → n • P ≠ 0
  zero : r • P = 0

section

variable {P : (EC a b).Point} {r : ℕ}

theorem Ord.one (h : Ord P r) : P ≠ 0 := by
  have := h.ne 1 one_pos (by have := h.five; omega)
  rwa [one_nsmul] at this

theorem Ord.x_ne (h : Ord P r) {n : ℕ} (h1 : 2 ≤ n) (h2 : n + 2 ≤ r) : xc (n • P) ≠ xc P := by
  intro e
  rcases eq_or_neg (h.ne n (by omega) (by omega)) h.one e with e | e
  · refine h.ne (n - 1) (by omega) (by omega) ?_
    rw [show n = n - 1 + 1 by omega, add_nsmul, one_nsmul] at e
    exact add_eq_right.1 e
  · refine h.ne (n + 1) (by omega) (by omega) ?_
    rw [add_nsmul, one_nsmul, e, neg_add_cancel]

theorem Ord.y_ne (h : Ord P r) {n : ℕ} (h1 : 1 ≤ n) (h2 : n < r) (ho : 2 * n ≠ r) :
    yc (n • P) ≠ 0 := by
  apply yc_ne
  rw [← two_nsmul, ← mul_nsmul]
  intro e
  by_cases hl : n * 2 < r
  · exact h.ne _ (by omega) hl e
  · have : n * 2 = (n * 2 - r) + r := by omega
    rw [this, add_nsmul, h.zero, add_zero] at e
    exact h.ne _ (by omega) (by omega) e

theorem Ord.psi_ne (h : Ord P r) : ∀ n : ℕ, 0 < n → n < r → psi P n ≠ 0 := by
  intro n
  induction n using Nat.strong_induction_on with
  | _ n ih =>
    intro h1 h2
    match n with
    | 1 => simp [psi]
    | 2 =>
      have := h.y_ne (n := 1) le_rfl (by have := h.five; omega) (by have := h.five; omega)
      rw [one_nsmul] at this
      exact mul_ne_zero h.two this
    | n + 3 =>
      rw [psi]
      refine div_ne_zero (mul_ne_zero (pow_ne_zero _ (ih _ (by omega) (by omega) (by omega))) ?_)
        (ih _ (by omega) (by omega) (by omega))
      exact sub_ne_zero.2 (h.x_ne (by omega) (by omega)).symm

theorem Ord.psi_rec (h : Ord P r) {n : ℕ} (h2 : n + 1 < r) :
    psi P (n + 2) * psi P n = psi P (n + 1) ^ 2 * (xc P - xc ((n + 1) • P)) := by
  match n with
  | 0 => simp [psi]
  | n + 1 =>
    rw [psi, div_mul_cancel₀ _ (h.psi_ne _ (by omega) (by omega))]

theorem Ord.psi_r (h : Ord P r) : psi P r = 0 := by
  obtain ⟨n, rfl⟩ : ∃ n, r = n + 3 := ⟨r - 3, by have := h.five; omega⟩
  rw [psi]
  have : (n + 2) • P = -P := by
    rw [eq_neg_iff_add_eq_zero]
    have := h.zero
    rwa [show n + 3 = n + 2 + 1 from rfl, add_nsmul, one_nsmul] at this
  rw [this, xc_neg, sub_self, mul_zero, zero_div]

/-- A sequence obeying the recurrence of the net in direction `P`, along `T 0 + j P`. -/
structure Net (P : (EC a b).Point) (T : ℕ → (EC a b).Point) (u : ℕ → K) (hi : ℕ) : Prop where
  step : ∀ j, T (j + 1) = T j + P
  ne : ∀ j, 0 < j → j < hi → u j ≠ 0
  pt : ∀ j, 0 < j → j < hi → T j ≠ 0
  recu : ∀ j, j + 2 ≤ hi → u (j + 2) * u j = u (j + 1) ^ 2 * (xc P - xc (T (j + 1)))

theorem Net.add {T : ℕ → (EC a b).Point} {u : ℕ → K} {hi : ℕ} (hN : Net P T u hi) (j n : ℕ) :
    T (j + n) = T j + n • P := by
  induction n with
  | zero => rw [zero_nsmul, add_zero, add_zero]
  | succ n ih => rw [← add_assoc, hN.step, ih, add_nsmul, one_nsmul, add_assoc]

/-- `u(m+n) u(m-n) = u(m)² W(n)² (x(n P) - x(T m))`. -/
theorem Net.main (h : Ord P r) {T : ℕ → (EC a b).Point} {u : ℕ → K} {hi : ℕ}
    (hN : Net P T u hi) : ∀ n : ℕ, 0 < n → n + 1 < r → ∀ l, l + 2 * n ≤ hi →
      u (l + 2 * n) * u l = u (l + n) ^ 2 * psi P n ^ 2 * (xc (n • P) - xc (T (l + n))) := by
  intro n
  induction n using Nat.strong_induction_on with
  | _ n ih =>
    intro h1 hr l hl
    match n with
    | 1 =>
      rw [hN.recu l hl, one_nsmul, psi]
      ring
    | 2 =>
      have e1 := hN.recu (l + 2) hl
      have e2 := hN.recu l (by omega)
      have e3 := hN.recu (l + 1) (by omega)
      simp only [add_assoc, Nat.reduceAdd] at e1 e2 e3
      have hu2 : u (l + 2) ≠ 0 := hN.ne _ (by omega) (by omega)
      have hu1 : u (l + 1) ≠ 0 := hN.ne _ (by omega) (by omega)
      have hu3 : u (l + 3) ≠ 0 := hN.ne _ (by omega) (by omega)
      have hA : T (l + 2) ≠ 0 := hN.pt _ (by omega) (by omega)
      have hx : xc (T (l + 2)) ≠ xc P := by
        intro e
        rw [e, sub_self, mul_zero] at e3
        exact mul_ne_zero hu3 hu1 e3
      have hy := h.y_ne (n := 1) le_rfl (by omega) (by omega)
      rw [one_nsmul] at hy
      have t := two h.two hA h.one hy hx
      have a1 : T (l + 2) + P = T (l + 3) := (hN.step _).symm
      have a2 : T (l + 2) - P = T (l + 1) := by
        rw [show l + 2 = l + 1 + 1 from rfl, hN.step, add_sub_cancel_right]
      rw [a1, a2] at t
      rw [show 2 * 2 = 4 from rfl, two_nsmul, psi]
      have hm : u (l + 2) ^ 2 ≠ 0 := pow_ne_zero _ hu2
      apply mul_left_cancel₀ hm
      linear_combination (u (l + 2) * u l) * e1 +
        (u (l + 3) ^ 2 * (xc P - xc (T (l + 3)))) * e2 +
        (u (l + 3) * u (l + 1) + u (l + 2) ^ 2 * (xc P - xc (T (l + 2)))) *
          (xc P - xc (T (l + 3))) * (xc P - xc (T (l + 1))) * e3 + u (l + 2) ^ 4 * t
    | n + 3 =>
      have i1 := ih (n + 2) (by omega) (by omega) (by omega) (l + 1) (by omega)
      have i2 := ih (n + 1) (by omega) (by omega) (by omega) (l + 2) (by omega)
      have e1 := hN.recu (l + 2 * n + 4) (by omega)
      have e2 := hN.recu l (by omega)
      have p1 := h.psi_rec (n := n + 1) (by omega)
      have c1 : l + 1 + 2 * (n + 2) = l + 2 * n + 5 := by ring
      have c2 : l + 1 + (n + 2) = l + n + 3 := by ring
      have c3 : l + 2 + 2 * (n + 1) = l + 2 * n + 4 := by ring
      have c4 : l + 2 + (n + 1) = l + n + 3 := by ring
      have c5 : l + 2 * (n + 3) = l + 2 * n + 6 := by ring
      have c6 : l + (n + 3) = l + n + 3 := by ring
      rw [c1, c2] at i1
      rw [c3, c4] at i2
      rw [c5, c6]
      simp only [add_assoc, Nat.reduceAdd] at e1 e2 p1
      simp only [← add_assoc] at e1 e2 p1
      have n1 : u (l + 2 * n + 5) ≠ 0 := hN.ne _ (by omega) (by omega)
      have n2 : u (l + 1) ≠ 0 := hN.ne _ (by omega) (by omega)
      have n3 : u (l + 2 * n + 4) ≠ 0 := hN.ne _ (by omega) (by omega)
      have n4 : u (l + 2) ≠ 0 := hN.ne _ (by omega) (by omega)
      have hA : T (l + n + 3) ≠ 0 := hN.pt _ (by omega) (by omega)
      have hB := h.ne (n + 2) (by omega) (by omega)
      have x1 : xc ((n + 2) • P) ≠ xc P := h.x_ne (by omega) (by omega)
      have x2 : xc (T (l + n + 3)) ≠ xc ((n + 2) • P) := by
        intro e
        rw [e, sub_self, mul_zero] at i1
        exact mul_ne_zero n1 n2 i1
      have t := three hA hB h.one x1 x2
      have a1 : (n + 2) • P + P = (n + 3) • P := (succ_nsmul P (n + 2)).symm
      have a2 : (n + 2) • P - P = (n + 1) • P := by
        rw [show n + 2 = n + 1 + 1 from rfl, succ_nsmul P (n + 1), add_sub_cancel_right]
      have a3 : T (l + n + 3) + (n + 2) • P = T (l + 2 * n + 5) := by
        rw [← hN.add]; congr 1; ring
      have a4 : T (l + n + 3) - (n + 2) • P = T (l + 1) := by
        rw [show l + n + 3 = l + 1 + (n + 2) by ring, hN.add, add_sub_cancel_right]
      rw [a1, a2, a3, a4] at t
      have m0 : psi P (n + 1) ≠ 0 := h.psi_ne _ (by omega) (by omega)
      generalize u (l + 2 * n + 6) = u6 at *
      generalize u (l + 2 * n + 5) = u5 at *
      generalize u (l + 2 * n + 4) = u4 at *
      generalize u (l + n + 3) = um at *
      generalize u (l + 2) = u2 at *
      generalize u (l + 1) = u1 at *
      generalize u l = u0 at *
      generalize xc (T (l + 2 * n + 5)) = X5 at *
      generalize xc (T (l + n + 3)) = Xm at *
      generalize xc (T (l + 1)) = X1 at *
      generalize xc ((n + 3) • P) = x3 at *
      generalize xc ((n + 2) • P) = x2' at *
      generalize xc ((n + 1) • P) = x1' at *
      generalize xc P = x at *
      generalize psi P (n + 3) = p3 at *
      generalize psi P (n + 2) = p2 at *
      generalize psi P (n + 1) = p1' at *
      apply mul_left_cancel₀ (mul_ne_zero (mul_ne_zero n3 n4) (pow_ne_zero 2 m0))
      linear_combination (u2 * u0 * p1' ^ 2) * e1 + (p1' ^ 2 * u5 ^ 2 * (x - X5)) * e2 +
        p1' ^ 2 * (x - X5) * (x - X1) * (u5 * u1 + um ^ 2 * p2 ^ 2 * (x2' - Xm)) * i1
        - p1' ^ 2 * um ^ 2 * p3 ^ 2 * (x3 - Xm) * i2
        - um ^ 4 * p1' ^ 2 * (x1' - Xm) * (x3 - Xm) * (p3 * p1' + p2 ^ 2 * (x - x2')) * p1
        - um ^ 4 * p1' ^ 2 * p2 ^ 4 * t

theorem Ord.net (h : Ord P r) : Net P (fun j => j • P) (psi P) r :=
  ⟨fun j => succ_nsmul P j, h.psi_ne, h.ne, fun _ hj => h.psi_rec (by omega)⟩

theorem Ord.psi_odd (h : Ord P r) {j : ℕ} (hj : 2 * j + 3 ≤ r) :
    psi P (2 * j + 3) = psi P (j + 3) * psi P (j + 1) ^ 3 - psi P j * psi P (j + 2) ^ 3 := by
  have e := h.net.main h (j + 1) (by omega) (by omega) 1 (by omega)
  have e1 := h.psi_rec (n := j + 1) (by omega)
  have e2 := h.psi_rec (n := j) (by omega)
  rw [show 1 + 2 * (j + 1) = 2 * j + 3 by ring, show 1 + (j + 1) = j + 2 by ring,
    show psi P 1 = 1 from rfl, mul_one] at e
  simp only [add_assoc, Nat.reduceAdd] at e1
  rw [e]
  linear_combination -psi P (j + 1) ^ 2 * e1 + psi P (j + 2) ^ 2 * e2

theorem Ord.psi_even (h : Ord P r) {j : ℕ} (hj : 2 * j + 4 ≤ r) :
    psi P (2 * j + 4) * (2 * yc P) =
      psi P (j + 2) * (psi P (j + 4) * psi P (j + 1) ^ 2 - psi P j * psi P (j + 3) ^ 2) := by
  have e := h.net.main h (j + 1) (by omega) (by omega) 2 (by omega)
  have e1 := h.psi_rec (n := j + 2) (by omega)
  have e2 := h.psi_rec (n := j) (by omega)
  rw [show 2 + 2 * (j + 1) = 2 * j + 4 by ring, show 2 + (j + 1) = j + 3 by ring,
    show psi P 2 = 2 * yc P from rfl] at e
  simp only [add_assoc, Nat.reduceAdd] at e1
  rw [e]
  linear_combination -psi P (j + 1) ^ 2 * e1 + psi P (j + 3) ^ 2 * e2

/-- The numerator of the doubling rule, also where `2 (j + 2)` passes `r`. -/
theorem Ord.psi_num (h : Ord P r) {j : ℕ} (hj : j + 3 < r) :
    psi P (j + 4) * psi P (j + 1) ^ 2 - psi P j * psi P (j + 3) ^ 2 =
      2 * yc P * (2 * yc ((j + 2) • P)) * psi P (j + 2) ^ 3 := by
  have e1 := h.psi_rec (n := j + 2) (by omega)
  have e2 := h.psi_rec (n := j) (by omega)
  have e3 := h.psi_rec (n := j + 1) (by omega)
  simp only [add_assoc, Nat.reduceAdd] at e1 e3
  have hx := h.x_ne (n := j + 2) (by omega) (by omega)
  have hA := h.ne (j + 2) (by omega) (by omega)
  obtain ⟨-, p1, -⟩ := add_x hA h.one hx
  obtain ⟨-, p2, -⟩ := sub_x hA h.one hx
  rw [← succ_nsmul P (j + 2)] at p1
  rw [show j + 2 = j + 1 + 1 from rfl, succ_nsmul P (j + 1), add_sub_cancel_right,
    ← succ_nsmul P (j + 1)] at p2
  have hd := sub_ne_zero.2 hx
  have key : (xc ((j + 1) • P) - xc ((j + 3) • P)) * (xc ((j + 2) • P) - xc P) ^ 2 =
      4 * yc P * yc ((j + 2) • P) := by
    rw [show j + 3 = j + 2 + 1 from rfl, p1, p2]
    simp only [add_assoc, Nat.reduceAdd]
    field_simp
    ring
  have hn := h.psi_ne (j + 2) (by omega) (by omega)
  apply mul_left_cancel₀ hn
  linear_combination psi P (j + 1) ^ 2 * e1 - psi P (j + 3) ^ 2 * e2 +
    (xc ((j + 1) • P) - xc ((j + 3) • P)) *
      (psi P (j + 3) * psi P (j + 1) + psi P (j + 2) ^ 2 * (xc P - xc ((j + 2) • P))) * e3 +
    psi P (j + 2) ^ 4 * key

theorem dp_zero (x y : K) : Spec.divPoly a b x y 0 = 0 := by simp [Spec.divPoly]
theorem dp_one (x y : K) : Spec.divPoly a b x y 1 = 1 := by simp [Spec.divPoly]
theorem dp_two (x y : K) : Spec.divPoly a b x y 2 = 2 * y := by
  simp [Spec.divPoly, EC, ψ₂, Affine.polynomialY, Polynomial.evalEval]
theorem dp_three (x y : K) : Spec.divPoly a b x y 3 =
    3 * x ^ 4 + 6 * a * x ^ 2 + 12 * b * x - a ^ 2 := by
  simp [Spec.divPoly, EC, Ψ₃, b₂, b₄, b₆, b₈, Polynomial.evalEval]
  ring
theorem dp_four (x y : K) : Spec.divPoly a b x y 4 =
    (2 * x ^ 6 + 10 * a * x ^ 4 + 40 * b * x ^ 3 - 10 * a ^ 2 * x ^ 2 - 8 * a * b * x - 2 * a ^ 3 -
      16 * b ^ 2) * (2 * y) := by
  simp [Spec.divPoly, EC, preΨ₄, b₂, b₄, b₆, b₈, Polynomial.evalEval, ψ₂, Affine.polynomialY]
  left
  ring
theorem dp_neg (x y : K) (n : ℤ) : Spec.divPoly a b x y (-n) = -Spec.divPoly a b x y n := by
  simp [Spec.divPoly]
theorem dp_even (x y : K) (m : ℤ) : Spec.divPoly a b x y (2 * m) * (2 * y) =
    Spec.divPoly a b x y m * (Spec.divPoly a b x y (m + 2) * Spec.divPoly a b x y (m - 1) ^ 2 -
      Spec.divPoly a b x y (m - 2) * Spec.divPoly a b x y (m + 1) ^ 2) := by
  have := congrArg (Polynomial.evalEval x y) (ψ_even (EC a b) m)
  simp only [Polynomial.evalEval_mul, Polynomial.evalEval_sub, Polynomial.evalEval_pow] at this
  rw [← dp_two (a := a) (b := b) x y]
  simp only [Spec.divPoly, ψ_two]
  linear_combination this
theorem dp_odd (x y : K) (m : ℤ) : Spec.divPoly a b x y (2 * m + 1) =
    Spec.divPoly a b x y (m + 2) * Spec.divPoly a b x y m ^ 3 -
      Spec.divPoly a b x y (m - 1) * Spec.divPoly a b x y (m + 1) ^ 3 := by
  have := congrArg (Polynomial.evalEval x y) (ψ_odd (EC a b) m)
  simp only [Polynomial.evalEval_mul, Polynomial.evalEval_sub, Polynomial.evalEval_pow] at this
  exact this

/-- The recurrence gives the division polynomials, up to the order of the point. -/
theorem Ord.psi_eq (h : Ord P r) :
    ∀ n : ℕ, n ≤ r → psi P n = Spec.divPoly a b (xc P) (yc P) n := by
  have hy := h.y_ne (n := 1) le_rfl (by have := h.five; omega) (by have := h.five; omega)
  rw [one_nsmul] at hy
  obtain ⟨-, d1, d2⟩ := dbl_x h.two h.one hy
  have he := eqn h.one
  intro n
  induction n using Nat.strong_induction_on with
  | _ n ih =>
    intro hr
    match n with
    | 0 => exact (dp_zero _ _).symm
    | 1 => exact (dp_one _ _).symm
    | 2 => exact (dp_two _ _).symm
    | 3 =>
      rw [psi, show psi P (0 + 1) = 1 from rfl, show psi P (0 + 2) = 2 * yc P from rfl, zero_add,
        two_nsmul, d1, div_one]
      refine Eq.trans ?_ (dp_three _ _).symm
      have h2 := h.two
      field_simp
      linear_combination 12 * xc P * he
    | 4 =>
      have e := h.psi_num (j := 0) (by omega)
      rw [zero_add, zero_add, zero_add, zero_add, show psi P 0 = 0 from rfl,
        show psi P 1 = 1 from rfl, show psi P 2 = 2 * yc P from rfl, one_pow, mul_one, zero_mul,
        sub_zero, two_nsmul, d2, d1] at e
      rw [e]
      refine Eq.trans ?_ (dp_four _ _).symm
      have h2 := h.two
      field_simp
      linear_combination (24 * xc P * (3 * xc P ^ 2 + a) -
        16 * (yc P ^ 2 + xc P ^ 3 + a * xc P + b)) * he
    | n + 5 =>
      have h2 := h.two
      rcases Nat.even_or_odd' n with ⟨k, rfl | rfl⟩
      · have e := h.psi_odd (j := k + 1) (by omega)
        rw [show 2 * k + 5 = 2 * (k + 1) + 3 by ring, e, ih _ (by omega) (by omega),
          ih _ (by omega) (by omega), ih _ (by omega) (by omega), ih _ (by omega) (by omega)]
        have := dp_odd (a := a) (b := b) (xc P) (yc P) (k + 2)
        push_cast
        rw [show (2 : ℤ) * (k + 1) + 3 = 2 * (k + 2) + 1 by ring, this]
        congr 3 <;> ring_nf
      · have e := h.psi_even (j := k + 1) (by omega)
        apply mul_right_cancel₀ (mul_ne_zero h2 hy)
        rw [show 2 * k + 1 + 5 = 2 * (k + 1) + 4 by ring, e, ih (k + 1 + 2) (by omega) (by omega),
          ih (k + 1 + 4) (by omega) (by omega), ih (k + 1 + 1) (by omega) (by omega),
          ih (k + 1) (by omega) (by omega), ih (k + 1 + 3) (by omega) (by omega)]
        have := dp_even (a := a) (b := b) (xc P) (yc P) (k + 3)
        push_cast
        rw [show (2 : ℤ) * (k + 1) + 4 = 2 * (k + 3) by ring, this]
        ring_nf

/-- The terms `W(n - 2, 1)`. -/
noncomputable def wn (P Q : (EC a b).Point) : ℕ → K
  | 0 => (xc P - xc Q) ^ 2 * (xc P - xc (Q - P))
  | 1 => xc P - xc Q
  | n + 2 => wn P Q (n + 1) ^ 2 * (xc P - xc ((n + 1) • P + (Q - 2 • P))) / wn P Q n

/-- No multiple of `P` is `-Q`. -/
def Off (P Q : (EC a b).Point) : Prop := ∀ n : ℤ, n • P + Q ≠ 0

variable {Q : (EC a b).Point}

theorem Off.pt (ho : Off P Q) (j : ℕ) : j • P + (Q - 2 • P) ≠ 0 := by
  have := ho (j - 2)
  rw [sub_zsmul] at this
  have h2 : (2 : ℤ) • P = 2 • P := rfl
  rw [h2, natCast_zsmul] at this
  intro e
  exact this (by rw [← e]; abel)

theorem Off.x_ne (hP : P ≠ 0) (ho : Off P Q) (n : ℤ) : xc (n • P + Q) ≠ xc P := by
  intro e
  rcases eq_or_neg (ho n) hP e with e | e
  · exact ho (n - 1) (by rw [sub_zsmul, one_zsmul, add_right_comm, e, add_neg_cancel])
  · exact ho (n + 1) (by rw [add_zsmul, one_zsmul, add_right_comm, e, neg_add_cancel])

theorem Off.x_ne' (hP : P ≠ 0) (ho : Off P Q) (j : ℕ) :
    xc (j • P + (Q - 2 • P)) ≠ xc P := by
  have := ho.x_ne hP (j - 2)
  rw [sub_zsmul] at this
  have h2 : (2 : ℤ) • P = 2 • P := rfl
  rw [h2, natCast_zsmul] at this
  rwa [add_sub, ← sub_add_eq_add_sub]

theorem Off.Q_ne (ho : Off P Q) : Q ≠ 0 := by
  have := ho 0
  rwa [zero_zsmul, zero_add] at this

theorem Off.wn_ne (hP : P ≠ 0) (ho : Off P Q) : ∀ n : ℕ, wn P Q n ≠ 0 := by
  have h1 : xc P - xc Q ≠ 0 := by
    have := ho.x_ne hP 0
    rw [zero_zsmul, zero_add] at this
    exact sub_ne_zero.2 this.symm
  intro n
  induction n using Nat.strong_induction_on with
  | _ n ih =>
    match n with
    | 0 =>
      have := ho.x_ne hP (-1)
      rw [neg_one_zsmul, neg_add_eq_sub] at this
      exact mul_ne_zero (pow_ne_zero _ h1) (sub_ne_zero.2 this.symm)
    | 1 => exact h1
    | n + 2 =>
      rw [wn]
      exact div_ne_zero (mul_ne_zero (pow_ne_zero _ (ih _ (by omega)))
        (sub_ne_zero.2 (ho.x_ne' hP _).symm)) (ih _ (by omega))

theorem Off.net (hP : P ≠ 0) (ho : Off P Q) (hi : ℕ) :
    Net P (fun j => j • P + (Q - 2 • P)) (wn P Q) hi :=
  ⟨fun j => by rw [succ_nsmul, add_right_comm], fun j _ _ => ho.wn_ne hP j, fun j _ _ => ho.pt j,
    fun j _ => by rw [wn, div_mul_cancel₀ _ (ho.wn_ne hP j)]⟩

theorem Off.w0 (hP : P ≠ 0) (ho : Off P Q) : wn P Q 2 = 1 := by
  have h0 := ho.wn_ne hP 0
  rw [wn, div_eq_one_iff_eq h0, zero_add, one_nsmul, wn, wn,
    show P + (Q - 2 • P) = Q - P by rw [two_nsmul]; abel]

theorem Off.w1 (hP : P ≠ 0) (ho : Off P Q) : wn P Q 3 = 1 := by
  have h0 := ho.wn_ne hP 1
  rw [wn, div_eq_one_iff_eq h0, show 1 + 1 = 2 from rfl, ho.w0 hP, wn,
    show 2 • P + (Q - 2 • P) = Q by abel]
  ring

theorem Off.w2 (hP : P ≠ 0) (ho : Off P Q) : wn P Q 4 = xc P - xc (Q + P) := by
  rw [wn, show 2 + 1 = 3 from rfl, ho.w0 hP, ho.w1 hP,
    show 3 • P + (Q - 2 • P) = Q + P by rw [succ_nsmul]; abel]
  ring

/-- `W(k+n,1) W(k-n,1) = W(k,1)² W(n,0)² (x(n P) - x(k P + Q))`. -/
theorem Off.main (h : Ord P r) (ho : Off P Q) {n k : ℕ} (h1 : 0 < n) (hr : n + 1 < r)
    (hk : n ≤ k + 2) : wn P Q (k + n + 2) * wn P Q (k + 2 - n) =
      wn P Q (k + 2) ^ 2 * psi P n ^ 2 * (xc (n • P) - xc (k • P + Q)) := by
  have := (ho.net h.one (k + n + 2)).main h n h1 hr (k + 2 - n) (by omega)
  rw [show k + 2 - n + 2 * n = k + n + 2 by omega, show k + 2 - n + n = k + 2 by omega] at this
  rw [this, show (k + 2) • P + (Q - 2 • P) = k • P + Q by rw [add_nsmul]; abel]

/-- The step of the net: `(w(k-1) w(k+1)) ψ(n)² - w(k)² (ψ(n-1) ψ(n+1))`. -/
theorem Off.step (h : Ord P r) (ho : Off P Q) {n k : ℕ} (h1 : 0 < n) (hr : n + 1 < r)
    (hk : n ≤ k + 2) (hk1 : 0 < k) : wn P Q (k + n + 2) * wn P Q (k + 2 - n) =
      wn P Q (k + 1) * wn P Q (k + 3) * psi P n ^ 2 -
        wn P Q (k + 2) ^ 2 * (psi P (n - 1) * psi P (n + 1)) := by
  obtain ⟨m, rfl⟩ : ∃ m, n = m + 1 := ⟨n - 1, by omega⟩
  have e1 := h.psi_rec (n := m) (by omega)
  have e2 := (ho.net h.one (k + 3)).recu (k + 1) (by omega)
  rw [ho.main h h1 hr hk]
  simp only [add_assoc, Nat.reduceAdd] at e2 ⊢
  rw [show (k + 2) • P + (Q - 2 • P) = k • P + Q by rw [add_nsmul]; abel] at e2
  simp only [Nat.add_sub_cancel, add_assoc, Nat.reduceAdd]
  linear_combination -psi P (m + 1) ^ 2 * e2 + wn P Q (k + 2) ^ 2 * e1

/-- Lines through `A` in the directions of `P` and `Q`. -/
theorem cocycle {xA yA x xQ u v : K} (eA : yA ^ 2 = xA ^ 3 + a * xA + b)
    (eQ : (yA + v * (xQ - xA)) ^ 2 = xQ ^ 3 + a * xQ + b) (hxQ : xQ ≠ xA)
    (hu : 2 * yA * u + u ^ 2 * (x - xA) = x ^ 2 + x * xA + xA ^ 2 + a) :
    (2 * yA + (u + v) * (xQ - xA)) * (x + xA + xQ - v ^ 2) =
      (2 * yA + (u + v) * (x - xA)) * (x + xA + xQ - u ^ 2) := by
  have hv : 2 * yA * v + v ^ 2 * (xQ - xA) = xQ ^ 2 + xQ * xA + xA ^ 2 + a := by
    apply mul_left_cancel₀ (sub_ne_zero.2 hxQ)
    linear_combination eQ - eA
  linear_combination (u + v) * hu - (u + v) * hv

/-- The quotient of two consecutive values of the Miller function of `-P` at `Q`. -/
noncomputable def inc (P Q A : (EC a b).Point) : K :=
  (yc A - yc Q) / (xc A - xc Q) - (yc A + yc P) / (xc A - xc P)

theorem Off.xQ_ne (h : Ord P r) (ho : Off P Q) {n : ℕ} (h1 : 0 < n) (h2 : n < r) :
    xc (n • P) ≠ xc Q := by
  intro e
  rcases eq_or_neg (h.ne n h1 h2) ho.Q_ne e with e | e
  · exact ho (-n) (by rw [← e, neg_zsmul, natCast_zsmul, neg_add_cancel])
  · exact ho n (by rw [natCast_zsmul, e, neg_add_cancel])

theorem inc_mul {A : (EC a b).Point} (hAP : xc A ≠ xc P) (hAQ : xc A ≠ xc Q) :
    inc P Q A * (xc P - xc A) = 2 * yc A + ((yc A - yc P) / (xc A - xc P) +
      (yc A - yc Q) / (xc A - xc Q)) * (xc P - xc A) := by
  have h1 := sub_ne_zero.2 hAP
  have h2 := sub_ne_zero.2 hAQ
  rw [inc]
  field_simp
  ring

theorem inc_line {A : (EC a b).Point} (hA : A ≠ 0) (hP : P ≠ 0) (hAP : xc A ≠ xc P)
    (hBP : xc (A + P) ≠ xc P) (hBQ : xc (A + P) ≠ xc Q) :
    inc P Q (A + P) * (xc Q - xc (A + P)) =
      yc Q + yc A + (yc A - yc P) / (xc A - xc P) * (xc Q - xc A) := by
  obtain ⟨-, -, h3⟩ := add_x hA hP hAP
  have h1 := sub_ne_zero.2 hBP
  have h2 := sub_ne_zero.2 hBQ
  have h4 := sub_ne_zero.2 hAP
  have h5 : yc (A + P) + yc P =
      -((yc A - yc P) / (xc A - xc P)) * (xc (A + P) - xc P) := by
    rw [h3]
    field_simp
    ring
  rw [inc, h5, mul_div_assoc, div_self h1, sub_mul, div_mul_eq_mul_div, ← neg_sub (xc (A + P)),
    mul_neg, neg_div, mul_div_assoc, div_self h2, h3]
  ring

theorem sq_of_slope {x y x' y' : K} (hx : x ≠ x') :
    y + (y - y') / (x - x') * (x' - x) = y' := by
  have := sub_ne_zero.2 hx
  field_simp
  ring

theorem slope_eq {x y x' y' : K} (hx : x ≠ x') (e : y ^ 2 = x ^ 3 + a * x + b)
    (e' : y' ^ 2 = x' ^ 3 + a * x' + b) :
    2 * y * ((y - y') / (x - x')) + ((y - y') / (x - x')) ^ 2 * (x' - x) =
      x' ^ 2 + x' * x + x ^ 2 + a := by
  have h := sub_ne_zero.2 hx
  field_simp
  linear_combination (x - x') * e - (x - x') * e'

theorem inc_step {A : (EC a b).Point} (hA : A ≠ 0) (hP : P ≠ 0) (hQ : Q ≠ 0) (hAP : xc A ≠ xc P)
    (hAQ : xc A ≠ xc Q) (hBP : xc (A + P) ≠ xc P) (hBQ : xc (A + P) ≠ xc Q) :
    (xc P - xc (A + Q)) * inc P Q (A + P) = (xc P - xc A) * inc P Q A := by
  have l1 := inc_mul hAP hAQ
  have l2 := inc_line hA hP hAP hBP hBQ
  obtain ⟨-, b1, -⟩ := add_x hA hP hAP
  obtain ⟨-, q1, -⟩ := add_x hA hQ hAQ
  have co := cocycle (a := a) (b := b) (u := (yc A - yc P) / (xc A - xc P))
    (v := (yc A - yc Q) / (xc A - xc Q)) (eqn hA) (by rw [sq_of_slope hAQ]; exact eqn hQ)
    hAQ.symm (slope_eq hAP (eqn hA) (eqn hP))
  have l3 := sq_of_slope (y := yc A) (y' := yc Q) hAQ
  apply mul_left_cancel₀ (sub_ne_zero.2 hBQ.symm)
  generalize (yc A - yc P) / (xc A - xc P) = u at *
  generalize (yc A - yc Q) / (xc A - xc Q) = v at *
  linear_combination (xc P - xc (A + Q)) * l2 - (xc Q - xc (A + P)) * l1 + co -
    (xc P - xc (A + Q)) * l3 + (2 * yc A + (u + v) * (xc P - xc A)) * b1 -
    (2 * yc A + (u + v) * (xc Q - xc A)) * q1

theorem tangent_step (h2 : (2 : K) ≠ 0) {A : (EC a b).Point} (hA : A ≠ 0) (hy : yc A ≠ 0)
    (hQ : Q ≠ 0) (hAQ : xc A ≠ xc Q) :
    (xc A - xc (A + Q)) * (yc Q + yc A + (3 * xc A ^ 2 + a) / (2 * yc A) * (xc Q - xc A)) =
      2 * yc A * (xc Q - xc (A + A)) := by
  obtain ⟨-, b1, -⟩ := dbl_x h2 hA hy
  obtain ⟨-, q1, -⟩ := add_x hA hQ hAQ
  have hu : 2 * yc A * ((3 * xc A ^ 2 + a) / (2 * yc A)) +
      ((3 * xc A ^ 2 + a) / (2 * yc A)) ^ 2 * (xc A - xc A) =
      xc A ^ 2 + xc A * xc A + xc A ^ 2 + a := by
    field_simp
    ring
  have co := cocycle (a := a) (b := b) (v := (yc A - yc Q) / (xc A - xc Q)) (eqn hA)
    (by rw [sq_of_slope hAQ]; exact eqn hQ) hAQ.symm hu
  have l3 := sq_of_slope (y := yc A) (y' := yc Q) hAQ
  generalize (3 * xc A ^ 2 + a) / (2 * yc A) = u at *
  generalize (yc A - yc Q) / (xc A - xc Q) = v at *
  linear_combination co - (xc A - xc (A + Q)) * l3 + 2 * yc A * b1 -
    (2 * yc A + (u + v) * (xc Q - xc A)) * q1

theorem inc_two (h2 : (2 : K) ≠ 0) (hP : P ≠ 0) (hy : yc P ≠ 0) (hBP : xc (P + P) ≠ xc P)
    (hBQ : xc (P + P) ≠ xc Q) : inc P Q (P + P) * (xc Q - xc (P + P)) =
      yc Q + yc P + (3 * xc P ^ 2 + a) / (2 * yc P) * (xc Q - xc P) := by
  obtain ⟨-, -, h3⟩ := dbl_x h2 hP hy
  have h1 := sub_ne_zero.2 hBP
  have h2 := sub_ne_zero.2 hBQ
  have h5 : yc (P + P) + yc P =
      -((3 * xc P ^ 2 + a) / (2 * yc P)) * (xc (P + P) - xc P) := by
    rw [h3]
    ring
  rw [inc, h5, mul_div_assoc, div_self h1, sub_mul, div_mul_eq_mul_div, ← neg_sub (xc (P + P)),
    mul_neg, neg_div, mul_div_assoc, div_self h2, h3]
  ring

/-- `W(n,0)/W(n,1)` is a product of values of lines at `Q`. -/
theorem Off.ratio (h : Ord P r) (ho : Off P Q) : ∀ n : ℕ, n + 4 ≤ r →
    psi P (n + 2) * wn P Q (n + 3) =
      psi P (n + 1) * wn P Q (n + 4) * inc P Q ((n + 2) • P) := by
  intro n
  induction n with
  | zero =>
    intro hr
    have hy := h.y_ne (n := 1) le_rfl (by omega) (by have := h.five; omega)
    have hq := ho.xQ_ne h (n := 1) one_pos (by omega)
    have hx := h.x_ne (n := 2) le_rfl (by omega)
    have hq2 := ho.xQ_ne h (n := 2) two_pos (by omega)
    rw [one_nsmul] at hy hq
    rw [two_nsmul] at hx hq2
    have t := tangent_step h.two h.one hy ho.Q_ne hq
    rw [← inc_two h.two h.one hy hx hq2] at t
    rw [zero_add, zero_add, zero_add, zero_add, ho.w1 h.one, ho.w2 h.one, two_nsmul, psi, psi,
      add_comm Q]
    apply mul_left_cancel₀ (sub_ne_zero.2 hq2.symm)
    linear_combination -t
  | succ n ih =>
    intro hr
    have i := ih (by omega)
    have e1 := h.psi_rec (n := n + 1) (by omega)
    have e2 := (ho.net h.one (n + 5)).recu (n + 3) (by omega)
    simp only [add_assoc, Nat.reduceAdd] at e1 e2
    rw [show (n + 4) • P + (Q - 2 • P) = (n + 2) • P + Q by
      rw [show n + 4 = n + 2 + 2 from rfl, add_nsmul P (n + 2)]; abel] at e2
    have t := inc_step (P := P) (Q := Q) (A := (n + 2) • P) (h.ne _ (by omega) (by omega)) h.one
      ho.Q_ne (h.x_ne (by omega) (by omega)) (ho.xQ_ne h (by omega) (by omega))
      (by rw [← succ_nsmul]; exact h.x_ne (by omega) (by omega))
      (by rw [← succ_nsmul]; exact ho.xQ_ne h (by omega) (by omega))
    rw [← succ_nsmul] at t
    simp only [add_assoc, Nat.reduceAdd] at t ⊢
    have n1 := h.psi_ne (n + 1) (by omega) (by omega)
    have n2 := ho.wn_ne h.one (n + 3)
    apply mul_left_cancel₀ (mul_ne_zero n1 n2)
    linear_combination wn P Q (n + 4) * wn P Q (n + 3) * e1 -
      psi P (n + 1) * psi P (n + 2) * inc P Q ((n + 3) • P) * e2 -
      psi P (n + 1) * psi P (n + 2) * wn P Q (n + 4) ^ 2 * t +
      psi P (n + 2) * wn P Q (n + 4) * (xc P - xc ((n + 2) • P)) * i

end

end EllNet
