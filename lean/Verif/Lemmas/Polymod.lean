import Verif.Model.Polymod
import Verif.Lemmas.Poly
import Verif.Spec.Polymod

set_option autoImplicit false
set_option linter.unusedSectionVars false

namespace Pbc.Polymod

open Pbc.Poly (forUp strip)
open Finset

variable {R A : Type*} [CommRing R] [CommRing A]

theorem wr_apply (m : Mem R) (e i : ℕ) (v : R) (e' i' : ℕ) :
    wr m e i v e' i' = if e' = e ∧ i' = i then v else m e' i' := by
  by_cases h : e' = e
  · subst h
    by_cases h2 : i' = i
    · subst h2; simp [wr]
    · simp [wr, h2]
  · simp [wr, h]

theorem forUp_spec (d : ℕ) (g : ℕ → Mem R → R)
    (hg : ∀ i (m m' : Mem R), (∀ e, m e i = m' e i) → g i m = g i m') (k s : ℕ) (m : Mem R)
    (e j : ℕ) :
    forUp (fun i m => wr m d i (g i m)) s k m e j
      = if e = d ∧ s ≤ j ∧ j < s + k then g j m else m e j := by
  induction k generalizing s m with
  | zero =>
    rw [if_neg (by omega)]
    rfl
  | succ k ih =>
    simp only [forUp]
    rw [ih, wr_apply]
    by_cases hj : j = s
    · subst hj
      rw [if_neg (by omega)]
      by_cases he : e = d
      · rw [if_pos ⟨he, rfl⟩, if_pos (by omega)]
      · rw [if_neg (by omega), if_neg (by omega)]
    · have : g j (wr m d s (g s m)) = g j m := by
        apply hg
        intro e
        rw [wr_apply, if_neg (by omega)]
      rw [this, if_neg (show ¬ (e = d ∧ j = s) by omega)]
      by_cases hc : e = d ∧ s + 1 ≤ j ∧ j < s + 1 + k
      · rw [if_pos hc, if_pos (by omega)]
      · rw [if_neg hc, if_neg (by omega)]

theorem forUp0 (d : ℕ) (g : ℕ → Mem R → R)
    (hg : ∀ i (m m' : Mem R), (∀ e, m e i = m' e i) → g i m = g i m') (n : ℕ) (m : Mem R) (e j : ℕ) :
    forUp (fun i m => wr m d i (g i m)) 0 n m e j = if e = d ∧ j < n then g j m else m e j := by
  rw [forUp_spec d g hg]
  simp

variable (φ : R →+* A) (x : A)

theorem val_congr {n : ℕ} {a b : ℕ → R} (h : ∀ i, i < n → a i = b i) : val φ x n a = val φ x n b :=
  Finset.sum_congr rfl fun i hi => by rw [h i (mem_range.mp hi)]

theorem val_add (n : ℕ) (a b : ℕ → R) :
    val φ x n (fun i => a i + b i) = val φ x n a + val φ x n b := by
  simp only [val, map_add, add_mul, sum_add_distrib]

theorem val_smul (n : ℕ) (a : ℕ → R) (c : R) :
    val φ x n (fun i => a i * c) = φ c * val φ x n a := by
  simp only [val, map_mul, mul_sum]
  exact sum_congr rfl fun i _ => by ring

/-! ### Powers of `x` -/

theorem xRow_val (n : ℕ) (hn : 0 < n) (poly : List R)
    (hx : x ^ n = - ∑ i ∈ range n, φ (poly.getD i 0) * x ^ i) (i : ℕ) :
    val φ x n (xRow n poly i) = x ^ (n + i) := by
  have h0 : val φ x n (xRow n poly 0) = x ^ n := by
    rw [hx, val, ← sum_neg_distrib]
    apply sum_congr rfl
    intro j hj
    simp only [xRow]
    rw [if_pos (mem_range.mp hj)]
    split
    · rw [map_neg]; ring
    next h => rw [Poly.getD_of_le poly (by omega)]; simp
  induction i with
  | zero => rw [h0]; rfl
  | succ i ih =>
    obtain ⟨k, rfl⟩ : ∃ k, n = k + 1 := ⟨n - 1, by omega⟩
    have h1 : val φ x (k + 1) (xRow (k + 1) poly (i + 1))
        = val φ x (k + 1) (fun j => (if j = 0 then 0 else xRow (k + 1) poly i (j - 1))
          + xRow (k + 1) poly 0 j * xRow (k + 1) poly i k) := by
      apply val_congr
      intro j hj
      conv_lhs => rw [xRow]
      dsimp only
      rw [if_pos hj, Nat.add_sub_cancel]
    rw [h1, val_add, val_smul, h0]
    have h2 : val φ x (k + 1) (fun j => if j = 0 then 0 else xRow (k + 1) poly i (j - 1))
        = x * val φ x k (xRow (k + 1) poly i) := by
      rw [val, sum_range_succ', val, mul_sum]
      simp only [Nat.add_sub_cancel, if_true, map_zero, zero_mul, add_zero]
      apply sum_congr rfl
      intro j _
      rw [if_neg (by omega)]
      ring
    have h3 : val φ x (k + 1) (xRow (k + 1) poly i)
        = val φ x k (xRow (k + 1) poly i) + φ (xRow (k + 1) poly i k) * x ^ k := sum_range_succ _ _
    rw [h2]
    rw [h3] at ih
    linear_combination x * ih

/-! ### General multiplication -/

/-- The value of the accumulator. -/
def accVal (n : ℕ) (s : Acc R) : A :=
  val φ x n s.dst + ∑ i ∈ range (n - 1), φ (s.high i) * x ^ (n + i)

theorem sum_update (n k : ℕ) (hk : k < n) (d : ℕ → R) (c : R) (w : ℕ → A) :
    ∑ i ∈ range n, φ (Function.update d k (d k + c) i) * w i
      = (∑ i ∈ range n, φ (d i) * w i) + φ c * w k := by
  have h1 : ∀ i, φ (Function.update d k (d k + c) i) * w i
      = φ (d i) * w i + if i = k then φ c * w k else 0 := by
    intro i
    by_cases h : i = k
    · subst h
      rw [Function.update_self, if_pos rfl, map_add]
      ring
    · rw [Function.update_of_ne h, if_neg h, add_zero]
  simp only [h1, sum_add_distrib]
  rw [sum_ite_eq' (range n) k, if_pos (mem_range.mpr hk)]

theorem addLo_val (n k : ℕ) (hk : k < n) (s : Acc R) (c : R) :
    accVal φ x n (addLo s k c) = accVal φ x n s + φ c * x ^ k := by
  simp only [accVal, addLo, val]
  rw [sum_update φ n k hk s.dst c (fun i => x ^ i)]
  ring

theorem addHi_val (n k : ℕ) (hk : k < n - 1) (s : Acc R) (c : R) :
    accVal φ x n (addHi s k c) = accVal φ x n s + φ c * x ^ (n + k) := by
  simp only [accVal, addHi]
  rw [sum_update φ (n - 1) k hk s.high c (fun i => x ^ (n + i))]
  ring

theorem forUp_acc {S : Type*} (V : S → A) (body : ℕ → S → S) (t : ℕ → A) (k s : ℕ) (st : S)
    (h : ∀ i st, s ≤ i → i < s + k → V (body i st) = V st + t i) :
    V (forUp body s k st) = V st + ∑ j ∈ range k, t (s + j) := by
  induction k generalizing s st with
  | zero => simp [forUp]
  | succ k ih =>
    simp only [forUp]
    rw [ih (s + 1) _ (fun i st h1 h2 => h i st (by omega) (by omega)),
      h s st le_rfl (by omega), sum_range_succ', add_zero]
    rw [add_assoc, add_comm (t s)]
    congr 2
    exact sum_congr rfl fun j _ => by congr 1; omega

theorem accVal_zero (n : ℕ) : accVal φ x n ⟨fun _ => 0, fun _ => 0⟩ = 0 := by
  simp [accVal, val]

theorem mulAcc_val (n : ℕ) (a b : ℕ → R) :
    accVal φ x n (mulAcc n a b) = val φ x n a * val φ x n b := by
  unfold mulAcc
  rw [forUp_acc (accVal φ x n) _ (fun i => φ (a i) * x ^ i * val φ x n b)]
  · rw [accVal_zero, zero_add]
    conv_rhs => rw [val, sum_mul]
    simp only [zero_add]
  · intro i st _ hi
    dsimp only
    rw [forUp_acc (accVal φ x n) _ (fun j => φ (a i * b j) * x ^ (i + j)),
      forUp_acc (accVal φ x n) _ (fun j => φ (a i * b j) * x ^ (i + j))]
    · rw [add_assoc]
      congr 1
      have hsplit : n = (n - i) + i := by omega
      have : val φ x n b = ∑ j ∈ range (n - i), φ (b j) * x ^ j
          + ∑ j ∈ range i, φ (b (n - i + j)) * x ^ (n - i + j) := by
        rw [val]
        conv_lhs => rw [hsplit]
        rw [sum_range_add]
      rw [this, mul_add, mul_sum, mul_sum]
      congr 1
      · exact sum_congr rfl fun j _ => by rw [zero_add, map_mul]; ring
      · rw [show n - (n - i) = i by omega]
        exact sum_congr rfl fun j _ => by rw [map_mul]; ring
    · intro j st _ hj
      exact addLo_val φ x n (i + j) (by omega) st _
    · intro j st h1 h2
      rw [addHi_val φ x n _ (by omega)]
      congr 3
      omega

theorem reduceAcc_val (n : ℕ) (xp : ℕ → ℕ → R) (s : Acc R)
    (hxp : ∀ i, i < n - 1 → val φ x n (xp i) = x ^ (n + i)) :
    val φ x n (reduceAcc n xp s) = accVal φ x n s := by
  unfold reduceAcc
  rw [forUp_acc (val φ x n) _ (fun i => φ (s.high i) * x ^ (n + i))]
  · simp only [accVal, zero_add]
  · intro i st _ hi
    rw [← hxp i (by omega), ← val_smul, ← val_add]
    apply val_congr
    intro j hj
    rw [if_pos hj]

theorem sq_sum (c : ℕ → A) (k s : ℕ) :
    ∑ i ∈ range k, (c (s + i) ^ 2 + 2 * c (s + i) * ∑ j ∈ range (k - (i + 1)), c (s + i + 1 + j))
      = (∑ i ∈ range k, c (s + i)) ^ 2 := by
  induction k generalizing s with
  | zero => simp
  | succ k ih =>
    rw [sum_range_succ', sum_range_succ' (fun i => c (s + i))]
    have h := ih (s + 1)
    have e1 : ∑ i ∈ range k, (c (s + (i + 1)) ^ 2 + 2 * c (s + (i + 1)) *
        ∑ j ∈ range (k + 1 - (i + 1 + 1)), c (s + (i + 1) + 1 + j))
        = ∑ i ∈ range k, (c (s + 1 + i) ^ 2 + 2 * c (s + 1 + i) *
          ∑ j ∈ range (k - (i + 1)), c (s + 1 + i + 1 + j)) := by
      apply sum_congr rfl
      intro i _
      rw [show s + (i + 1) = s + 1 + i by omega, show k + 1 - (i + 1 + 1) = k - (i + 1) by omega]
    have e2 : ∑ i ∈ range k, c (s + (i + 1)) = ∑ i ∈ range k, c (s + 1 + i) :=
      sum_congr rfl fun i _ => by congr 1; omega
    rw [e1, h, e2]
    simp only [add_zero, zero_add, Nat.add_sub_cancel]
    ring

theorem squareAcc_val (n : ℕ) (a : ℕ → R) :
    accVal φ x n (squareAcc n a) = val φ x n a ^ 2 := by
  unfold squareAcc
  have hsq := sq_sum (fun i => φ (a i) * x ^ i) n 0
  simp only [zero_add] at hsq
  rw [forUp_acc (accVal φ x n) _ (fun i => (φ (a i) * x ^ i) ^ 2 + 2 * (φ (a i) * x ^ i) *
    ∑ j ∈ range (n - (i + 1)), φ (a (i + 1 + j)) * x ^ (i + 1 + j))]
  · rw [accVal_zero, zero_add, val, ← hsq]
    simp only [zero_add]
  · intro i st _ hi
    dsimp only
    rw [forUp_acc (accVal φ x n) _ (fun j => φ (a i * a j + a i * a j) * x ^ (i + j)),
      forUp_acc (accVal φ x n) _ (fun j => φ (a i * a j + a i * a j) * x ^ (i + j))]
    · have h1 : accVal φ x n (if 2 * i < n then addLo st (2 * i) (a i ^ 2)
          else addHi st (2 * i - n) (a i ^ 2)) = accVal φ x n st + (φ (a i) * x ^ i) ^ 2 := by
        split
        next h =>
          rw [addLo_val φ x n _ h, map_pow]
          ring
        next h =>
          rw [addHi_val φ x n _ (by omega), map_pow, show n + (2 * i - n) = 2 * i by omega]
          ring
      rw [h1]
      rw [add_assoc, add_assoc]
      congr 2
      have hsplit : n - (i + 1) = (n - i - (i + 1)) + (n - max (i + 1) (n - i)) := by omega
      rw [hsplit, sum_range_add, mul_add, mul_sum, mul_sum]
      congr 1
      · exact sum_congr rfl fun j _ => by rw [map_add, map_mul]; ring
      · apply sum_congr rfl
        intro j hj
        have hj' := mem_range.mp hj
        rw [show i + 1 + (n - i - (i + 1) + j) = max (i + 1) (n - i) + j by omega, map_add, map_mul]
        ring
    · intro j st h1 h2
      exact addLo_val φ x n (i + j) (by omega) st _
    · intro j st h1 h2
      rw [addHi_val φ x n _ (by omega)]
      congr 3
      omega

/-! ### Special degrees -/

theorem addRow_apply (n : ℕ) (m : Mem R) (res : ℕ) (c : R) (row : ℕ → R) (e j : ℕ) :
    addRow n m res c row e j = if e = res ∧ j < n then m res j + row j * c else m e j :=
  forUp0 res (fun j m => m res j + row j * c) (fun i m m' h => by simp only [h]) n m e j

theorem addRow_val (n : ℕ) (m : Mem R) (res : ℕ) (c : R) (row : ℕ → R) :
    val φ x n (addRow n m res c row res) = val φ x n (m res) + φ c * val φ x n row := by
  rw [← val_smul, ← val_add]
  apply val_congr
  intro i hi
  rw [addRow_apply, if_pos ⟨rfl, hi⟩]

theorem addRow_other (n : ℕ) (m : Mem R) {res e : ℕ} (c : R) (row : ℕ → R) (h : e ≠ res) :
    addRow n m res c row e = m e := by
  funext j
  rw [addRow_apply, if_neg (by tauto)]

theorem kar_spec (m : Mem R) (dst s1 o1 s2 o2 : ℕ) (h1 : s1 ≠ dst ∨ o1 = 0)
    (h2 : s2 ≠ dst ∨ o2 = 0) (e j : ℕ) :
    (karPoly2 m dst s1 o1 s2 o2).1 e j = (if e = dst ∧ j = 0 then m s1 o1 * m s2 o2
      else if e = dst ∧ j = 1 then m s1 o1 * m s2 (o2 + 1) + m s1 (o1 + 1) * m s2 o2
      else if e = dst ∧ j = 2 then
        m s1 o1 * m s2 (o2 + 2) + m s1 (o1 + 1) * m s2 (o2 + 1) + m s1 (o1 + 2) * m s2 o2
      else m e j)
    ∧ (karPoly2 m dst s1 o1 s2 o2).2.1
      = m s1 (o1 + 1) * m s2 (o2 + 2) + m s1 (o1 + 2) * m s2 (o2 + 1)
    ∧ (karPoly2 m dst s1 o1 s2 o2).2.2 = m s1 (o1 + 2) * m s2 (o2 + 2) := by
  have k1 : ∀ (m' : Mem R) v, wr m' dst 1 v s1 o1 = m' s1 o1 := by
    intro m' v; rw [wr_apply, if_neg (by omega)]
  have k2 : ∀ (m' : Mem R) v, wr m' dst 1 v s2 o2 = m' s2 o2 := by
    intro m' v; rw [wr_apply, if_neg (by omega)]
  have k3 : ∀ (m' : Mem R) v, wr m' dst 1 v s1 (o1 + 2) = m' s1 (o1 + 2) := by
    intro m' v; rw [wr_apply, if_neg (by omega)]
  have k4 : ∀ (m' : Mem R) v, wr m' dst 1 v s2 (o2 + 2) = m' s2 (o2 + 2) := by
    intro m' v; rw [wr_apply, if_neg (by omega)]
  have k5 : ∀ (m' : Mem R) v, wr m' dst 0 v s1 (o1 + 2) = m' s1 (o1 + 2) := by
    intro m' v; rw [wr_apply, if_neg (by omega)]
  have k6 : ∀ (m' : Mem R) v, wr m' dst 0 v s2 (o2 + 2) = m' s2 (o2 + 2) := by
    intro m' v; rw [wr_apply, if_neg (by omega)]
  unfold karPoly2
  simp only [k1, k2, k3, k4, k5, k6]
  refine ⟨?_, ?_, trivial⟩
  · simp only [wr_apply]
    by_cases he : e = dst
    · subst he
      by_cases j0 : j = 0
      · subst j0; simp
      · by_cases j1 : j = 1
        · subst j1; simp; ring
        · by_cases j2 : j = 2
          · subst j2; simp; ring
          · simp [j0, j1, j2]
    · simp [he]
  · simp [wr_apply]
    ring

theorem val3 (a : ℕ → R) : val φ x 3 a = φ (a 0) + φ (a 1) * x + φ (a 2) * x ^ 2 := by
  simp [val, sum_range_succ]

theorem val6 (a : ℕ → R) : val φ x 6 a = φ (a 0) + φ (a 1) * x + φ (a 2) * x ^ 2
    + φ (a 3) * x ^ 3 + φ (a 4) * x ^ 4 + φ (a 5) * x ^ 5 := by
  simp [val, sum_range_succ]

theorem mulDegree3_val (xp : ℕ → ℕ → R) (hxp : ∀ i, i < 2 → val φ x 3 (xp i) = x ^ (3 + i))
    (m : Mem R) (res e f : ℕ) :
    val φ x 3 (mulDegree3 xp m res e f res) = val φ x 3 (m e) * val φ x 3 (m f)
    ∧ ∀ y, y ≠ res → mulDegree3 xp m res e f y = m y := by
  have hk := kar_spec m res e 0 f 0 (Or.inr rfl) (Or.inr rfl)
  constructor
  · simp only [mulDegree3]
    rw [addRow_val, addRow_val, hxp 0 (by omega), hxp 1 (by omega), val3, val3, val3, (hk 0 0).2.1,
      (hk 0 0).2.2, (hk res 0).1, (hk res 1).1, (hk res 2).1]
    simp
    ring
  · intro y hy
    simp only [mulDegree3]
    rw [addRow_other _ _ _ _ hy, addRow_other _ _ _ _ hy]
    funext j
    rw [(hk y j).1]
    simp [hy]

theorem squareDegree3_val (xp : ℕ → ℕ → R) (hxp : ∀ i, i < 2 → val φ x 3 (xp i) = x ^ (3 + i))
    (m : Mem R) (res e : ℕ) :
    val φ x 3 (squareDegree3 xp m res e res) = val φ x 3 (m e) ^ 2
    ∧ ∀ y, y ≠ res → squareDegree3 xp m res e y = m y := by
  constructor
  · simp only [squareDegree3]
    rw [addRow_val, addRow_val, hxp 0 (by omega), hxp 1 (by omega), val3, val3]
    simp [wr_apply]
    ring
  · intro y hy
    simp only [squareDegree3]
    rw [addRow_other _ _ _ _ hy, addRow_other _ _ _ _ hy]
    funext j
    simp [wr_apply, hy]

theorem deg6Sums_apply (s0 s1 : ℕ) (m : Mem R) (e f : ℕ) (h01 : s0 ≠ s1) (he0 : e ≠ s0)
    (hf0 : f ≠ s0) (hf1 : f ≠ s1) (y j : ℕ) :
    deg6Sums s0 s1 m e f y j = if y = s0 ∧ j < 3 then m e j + m e (j + 3)
      else if y = s1 ∧ j < 3 then m f j + m f (j + 3) else m y j := by
  simp only [deg6Sums, wr_apply]
  by_cases y0 : y = s0
  · subst y0
    by_cases h0 : j = 0
    · subst h0; simp [h01]
    · by_cases h1 : j = 1
      · subst h1; simp [h01, he0]
      · by_cases h2 : j = 2
        · subst h2; simp [h01, he0]
        · have : ¬ j < 3 := by omega
          simp [h0, h1, h2, this]
  · by_cases y1 : y = s1
    · subst y1
      by_cases h0 : j = 0
      · subst h0; simp [y0, hf0]
      · by_cases h1 : j = 1
        · subst h1; simp [y0, hf0, hf1]
        · by_cases h2 : j = 2
          · subst h2; simp [y0, hf0, hf1]
          · have : ¬ j < 3 := by omega
            simp [h0, h1, h2, this]
    · simp [y0, y1]

/-- The five coefficients of the product of two polynomials of degree at most 2. -/
def prod5 (a b : ℕ → R) : ℕ → R
  | 0 => a 0 * b 0
  | 1 => a 0 * b 1 + a 1 * b 0
  | 2 => a 0 * b 2 + a 1 * b 1 + a 2 * b 0
  | 3 => a 1 * b 2 + a 2 * b 1
  | 4 => a 2 * b 2
  | _ => 0

theorem deg6Kar_apply (m : Mem R) (d a oa b ob : ℕ) (ha : a ≠ d) (hb : b ≠ d) (y j : ℕ) :
    deg6Kar m d a oa b ob y j = if y = d ∧ j < 5 then
      prod5 (fun i => m a (oa + i)) (fun i => m b (ob + i)) j else m y j := by
  have hk := kar_spec m d a oa b ob (Or.inl ha) (Or.inl hb) y j
  simp only [deg6Kar, wr_apply]
  rw [hk.1, hk.2.1, hk.2.2]
  by_cases hy : y = d
  · subst hy
    by_cases hj : j < 5
    · have : j = 0 ∨ j = 1 ∨ j = 2 ∨ j = 3 ∨ j = 4 := by omega
      rcases this with rfl | rfl | rfl | rfl | rfl <;> simp [prod5]
    · have h0 : j ≠ 0 := by omega
      have h1 : j ≠ 1 := by omega
      have h2 : j ≠ 2 := by omega
      have h3 : j ≠ 3 := by omega
      have h4 : j ≠ 4 := by omega
      simp [hj, h0, h1, h2, h3, h4]
  · simp [hy]

theorem deg6Low_apply (s0 s1 s2 : ℕ) (m : Mem R) (res : ℕ) (h0 : s0 ≠ res) (h1 : s1 ≠ res)
    (h2 : s2 ≠ res) (y j : ℕ) :
    deg6Low s0 s1 s2 m res y j = if y = res ∧ j < 3 then m s0 j
      else if y = res ∧ j = 3 then m s0 3 - m s0 0 - m s1 0 + m s2 0
      else if y = res ∧ j = 4 then m s0 4 - m s0 1 - m s1 1 + m s2 1
      else if y = res ∧ j = 5 then m s2 2 - m s0 2 - m s1 2 else m y j := by
  simp only [deg6Low, wr_apply, h0, h1, h2, false_and, if_false]
  by_cases hy : y = res
  · subst hy
    by_cases hj : j < 6
    · have : j = 0 ∨ j = 1 ∨ j = 2 ∨ j = 3 ∨ j = 4 ∨ j = 5 := by omega
      rcases this with rfl | rfl | rfl | rfl | rfl | rfl <;> simp
    · have e0 : j ≠ 0 := by omega
      have e1 : j ≠ 1 := by omega
      have e2 : j ≠ 2 := by omega
      have e3 : j ≠ 3 := by omega
      have e4 : j ≠ 4 := by omega
      have e5 : j ≠ 5 := by omega
      have e6 : ¬ j < 3 := by omega
      simp [e0, e1, e2, e3, e4, e5, e6]
  · simp [hy]

theorem deg6High_apply (s0 s1 s2 : ℕ) (m : Mem R) (h1 : s1 ≠ s0) (h2 : s2 ≠ s0) (y j : ℕ) :
    deg6High s0 s1 s2 m y j = if y = s0 ∧ j = 0 then m s2 3 - m s0 3 - m s1 3 + m s1 0
      else if y = s0 ∧ j = 1 then m s2 4 - m s0 4 - m s1 4 + m s1 1 else m y j := by
  simp only [deg6High, wr_apply, h1, h2, false_and, if_false]
  by_cases hy : y = s0
  · subst hy
    by_cases j0 : j = 0
    · subst j0; simp
    · by_cases j1 : j = 1
      · subst j1; simp
      · simp [j0, j1]
  · simp [hy]

theorem mulDegree6_val (xp : ℕ → ℕ → R) (hxp : ∀ i, i < 5 → val φ x 6 (xp i) = x ^ (6 + i))
    (s : ℕ) (m : Mem R) (res e f : ℕ) (hres : res < s) (he : e < s) (hf : f < s) :
    val φ x 6 (mulDegree6 xp s m res e f res) = val φ x 6 (m e) * val φ x 6 (m f)
    ∧ ∀ y, y < s → y ≠ res → mulDegree6 xp s m res e f y = m y := by
  have a1 := deg6Sums_apply s (s + 1) m e f (by omega) (by omega) (by omega) (by omega)
  set m1 := deg6Sums s (s + 1) m e f with hm1
  have a2 := deg6Kar_apply m1 (s + 2) s 0 (s + 1) 0 (by omega) (by omega)
  set m2 := deg6Kar m1 (s + 2) s 0 (s + 1) 0 with hm2
  have a3 := deg6Kar_apply m2 s e 0 f 0 (by omega) (by omega)
  set m3 := deg6Kar m2 s e 0 f 0 with hm3
  have a4 := deg6Kar_apply m3 (s + 1) e 3 f 3 (by omega) (by omega)
  set m4 := deg6Kar m3 (s + 1) e 3 f 3 with hm4
  have a5 := deg6Low_apply s (s + 1) (s + 2) m4 res (by omega) (by omega) (by omega)
  set m5 := deg6Low s (s + 1) (s + 2) m4 res with hm5
  have a6 := deg6High_apply s (s + 1) (s + 2) m5 (by omega) (by omega)
  set m6 := deg6High s (s + 1) (s + 2) m5 with hm6
  have hun : mulDegree6 xp s m res e f =
      addRow 6 (addRow 6 (addRow 6 (addRow 6 (addRow 6 m6 res (m6 s 0) (xp 0)) res
        (m6 s 1) (xp 1)) res (m6 (s + 1) 2) (xp 2)) res (m6 (s + 1) 3) (xp 3)) res
        (m6 (s + 1) 4) (xp 4) := by
    have hs : s ≠ res := by omega
    have hs1 : s + 1 ≠ res := by omega
    simp only [mulDegree6, ← hm1, ← hm2, ← hm3, ← hm4, ← hm5, ← hm6, addRow_other _ _ _ _ hs,
      addRow_other _ _ _ _ hs1]
  -- inputs are untouched
  have hin : ∀ y, y < s → ∀ j, m4 y j = m y j := by
    intro y hy j
    rw [a4, if_neg (by omega), a3, if_neg (by omega), a2, if_neg (by omega), a1, if_neg (by omega),
      if_neg (by omega)]
  have hin3 : ∀ y, y < s → ∀ j, m3 y j = m y j := by
    intro y hy j
    rw [a3, if_neg (by omega), a2, if_neg (by omega), a1, if_neg (by omega), if_neg (by omega)]
  have hin2 : ∀ y, y < s → ∀ j, m2 y j = m y j := by
    intro y hy j
    rw [a2, if_neg (by omega), a1, if_neg (by omega), if_neg (by omega)]
  have c2 : ∀ j, j < 5 → m4 (s + 2) j = prod5 (fun i => m1 s (0 + i)) (fun i => m1 (s + 1) (0 + i)) j := by
    intro j hj
    rw [a4, if_neg (by omega), a3, if_neg (by omega), a2, if_pos ⟨rfl, hj⟩]
  have c0 : ∀ j, j < 5 → m4 s j = prod5 (fun i => m e (0 + i)) (fun i => m f (0 + i)) j := by
    intro j hj
    rw [a4, if_neg (by omega), a3, if_pos ⟨rfl, hj⟩]
    simp only [hin2 e he, hin2 f hf]
  have c1 : ∀ j, j < 5 → m4 (s + 1) j = prod5 (fun i => m e (3 + i)) (fun i => m f (3 + i)) j := by
    intro j hj
    rw [a4, if_pos ⟨rfl, hj⟩]
    simp only [hin3 e he, hin3 f hf]
  have b0 : ∀ j, j < 3 → m1 s j = m e j + m e (j + 3) := by
    intro j hj
    rw [a1, if_pos ⟨rfl, hj⟩]
  have b1 : ∀ j, j < 3 → m1 (s + 1) j = m f j + m f (j + 3) := by
    intro j hj
    rw [a1, if_neg (by omega), if_pos ⟨rfl, hj⟩]
  -- `m5` away from `res`
  have h5 : ∀ y j, y ≠ res → m5 y j = m4 y j := by
    intro y j hy
    rw [a5, if_neg (by tauto), if_neg (by tauto), if_neg (by tauto), if_neg (by tauto)]
  rw [hun]
  constructor
  · simp only [addRow_val]
    rw [hxp 0 (by omega), hxp 1 (by omega), hxp 2 (by omega), hxp 3 (by omega), hxp 4 (by omega)]
    have g0 : m6 s 0 = m4 (s + 2) 3 - m4 s 3 - m4 (s + 1) 3 + m4 (s + 1) 0 := by
      rw [a6, if_pos ⟨rfl, rfl⟩, h5 _ _ (by omega), h5 _ _ (by omega), h5 _ _ (by omega),
        h5 _ _ (by omega)]
    have g1 : m6 s 1 = m4 (s + 2) 4 - m4 s 4 - m4 (s + 1) 4 + m4 (s + 1) 1 := by
      rw [a6, if_neg (by omega), if_pos ⟨rfl, rfl⟩, h5 _ _ (by omega), h5 _ _ (by omega),
        h5 _ _ (by omega), h5 _ _ (by omega)]
    have g2 : ∀ j, m6 (s + 1) j = m4 (s + 1) j := by
      intro j
      rw [a6, if_neg (by omega), if_neg (by omega), h5 _ _ (by omega)]
    have g3 : val φ x 6 (m6 res) = φ (m4 s 0) + φ (m4 s 1) * x + φ (m4 s 2) * x ^ 2
        + φ (m4 s 3 - m4 s 0 - m4 (s + 1) 0 + m4 (s + 2) 0) * x ^ 3
        + φ (m4 s 4 - m4 s 1 - m4 (s + 1) 1 + m4 (s + 2) 1) * x ^ 4
        + φ (m4 (s + 2) 2 - m4 s 2 - m4 (s + 1) 2) * x ^ 5 := by
      have : ∀ j, m6 res j = m5 res j := by
        intro j
        rw [a6, if_neg (by omega), if_neg (by omega)]
      rw [val6]
      simp only [this, a5]
      simp
    rw [g3, g0, g1, g2, g2, g2]
    simp only [c0 0 (by omega), c0 1 (by omega), c0 2 (by omega), c0 3 (by omega), c0 4 (by omega),
      c1 0 (by omega), c1 1 (by omega), c1 2 (by omega), c1 3 (by omega), c1 4 (by omega),
      c2 0 (by omega), c2 1 (by omega), c2 2 (by omega), c2 3 (by omega), c2 4 (by omega), prod5,
      b0 0 (by omega), b0 1 (by omega), b0 2 (by omega), b1 0 (by omega), b1 1 (by omega),
      b1 2 (by omega), Nat.zero_add, Nat.add_zero, Nat.reduceAdd, val6, map_add, map_sub, map_mul]
    ring
  · intro y hy hyr
    rw [addRow_other _ _ _ _ hyr, addRow_other _ _ _ _ hyr, addRow_other _ _ _ _ hyr,
      addRow_other _ _ _ _ hyr, addRow_other _ _ _ _ hyr]
    funext j
    rw [a6, if_neg (by omega), if_neg (by omega), h5 y j hyr, hin y hy]

/-! ### All degrees -/

theorem forUp_const (n : ℕ) (m : Mem R) (res : ℕ) (p : ℕ → R) :
    (∀ j, j < n → forUp (fun i m => wr m res i (p i)) 0 n m res j = p j)
    ∧ ∀ y, y ≠ res → forUp (fun i m => wr m res i (p i)) 0 n m y = m y := by
  have h := forUp0 res (fun i _ => p i) (fun _ _ _ _ => rfl) n m
  constructor
  · intro j hj
    rw [h, if_pos ⟨rfl, hj⟩]
  · intro y hy
    funext j
    rw [h, if_neg (by tauto)]

theorem mul_val (n : ℕ) (xp : ℕ → ℕ → R)
    (hxp : ∀ i, i < n - 1 → val φ x n (xp i) = x ^ (n + i))
    (s : ℕ) (m : Mem R) (res e f : ℕ) (hres : res < s) (he : e < s) (hf : f < s) :
    Writes φ x n s m (mul n xp s m res e f) res (val φ x n (m e) * val φ x n (m f)) := by
  unfold mul
  split
  next h =>
    subst h
    have := mulDegree3_val φ x xp hxp m res e f
    exact ⟨this.1, fun y _ hy => this.2 y hy⟩
  next h =>
    split
    next h =>
      subst h
      exact mulDegree6_val φ x xp hxp s m res e f hres he hf
    next h =>
      have := forUp_const n m res (reduceAcc n xp (mulAcc n (m e) (m f)))
      refine ⟨?_, fun y _ hy => this.2 y hy⟩
      rw [← mulAcc_val, ← reduceAcc_val φ x n xp _ hxp]
      exact val_congr φ x this.1

theorem square_val (n : ℕ) (xp : ℕ → ℕ → R)
    (hxp : ∀ i, i < n - 1 → val φ x n (xp i) = x ^ (n + i))
    (s : ℕ) (m : Mem R) (res e : ℕ) :
    Writes φ x n s m (square n xp m res e) res (val φ x n (m e) ^ 2) := by
  unfold square
  split
  next h =>
    subst h
    have := squareDegree3_val φ x xp hxp m res e
    exact ⟨this.1, fun y _ hy => this.2 y hy⟩
  next h =>
    have := forUp_const n m res (reduceAcc n xp (squareAcc n (m e)))
    refine ⟨?_, fun y _ hy => this.2 y hy⟩
    rw [← squareAcc_val, ← reduceAcc_val φ x n xp _ hxp]
    exact val_congr φ x this.1

/-! ### The coefficientwise operations -/

theorem loop_writes (n s : ℕ) (m : Mem R) (d : ℕ) (g : ℕ → Mem R → R)
    (hg : ∀ i (m m' : Mem R), (∀ e, m e i = m' e i) → g i m = g i m') :
    Writes φ x n s m (forUp (fun i m => wr m d i (g i m)) 0 n m) d (val φ x n (fun i => g i m)) := by
  have h := forUp0 d g hg n m
  refine ⟨val_congr φ x fun i hi => by rw [h, if_pos ⟨rfl, hi⟩], fun y _ hy => ?_⟩
  funext j
  rw [h, if_neg (by tauto)]

theorem const_writes (n s : ℕ) (hn : 0 < n) (m : Mem R) (d : ℕ) (c : R) :
    Writes φ x n s m (forUp (fun i m => wr m d i 0) 1 (n - 1) (wr m d 0 c)) d (φ c) := by
  have h := forUp_spec d (fun _ _ => (0 : R)) (fun _ _ _ _ => rfl) (n - 1) 1 (wr m d 0 c)
  obtain ⟨k, rfl⟩ : ∃ k, n = k + 1 := ⟨n - 1, by omega⟩
  constructor
  · rw [val, sum_range_succ', h, if_neg (by omega), wr_apply, if_pos ⟨rfl, rfl⟩]
    rw [sum_eq_zero]
    · simp
    · intro i hi
      have := mem_range.mp hi
      rw [h, if_pos (by omega)]
      simp
  · intro y _ hy
    funext j
    rw [h, if_neg (by tauto), wr_apply, if_neg (by tauto)]

theorem setZ_writes (n s : ℕ) (hn : 0 < n) (m : Mem R) (d : ℕ) (z : ℤ) :
    Writes φ x n s m (setZ n m d z) d (z : A) := by
  have := const_writes φ x n s hn m d (z : R)
  rwa [map_intCast] at this

theorem set1_writes (n s : ℕ) (hn : 0 < n) (m : Mem R) (d : ℕ) :
    Writes φ x n s m (set1 n m d) d 1 := by
  have := const_writes φ x n s hn m d 1
  rwa [map_one] at this

theorem setBase_writes (n s : ℕ) (hn : 0 < n) (m : Mem R) (d : ℕ) (g : R) :
    Writes φ x n s m (setBase n m d g) d (φ g) :=
  const_writes φ x n s hn m d g

theorem set0_writes (n s : ℕ) (m : Mem R) (d : ℕ) : Writes φ x n s m (set0 n m d) d 0 := by
  have := loop_writes φ x n s m d (fun _ _ => 0) (fun _ _ _ _ => rfl)
  have h0 : val φ x n (fun _ => (0 : R)) = 0 := by simp [val]
  rwa [h0] at this

theorem set_writes (n s : ℕ) (m : Mem R) (d a : ℕ) :
    Writes φ x n s m (set n m d a) d (val φ x n (m a)) :=
  loop_writes φ x n s m d (fun i m => m a i) (fun i m m' h => by simp only [h])

theorem neg_writes (n s : ℕ) (m : Mem R) (d a : ℕ) :
    Writes φ x n s m (neg n m d a) d (- val φ x n (m a)) := by
  have := loop_writes φ x n s m d (fun i m => - m a i) (fun i m m' h => by simp only [h])
  have h0 : val φ x n (fun i => - m a i) = - val φ x n (m a) := by
    simp only [val, map_neg, neg_mul, sum_neg_distrib]
  rwa [h0] at this

theorem add_writes (n s : ℕ) (m : Mem R) (d a b : ℕ) :
    Writes φ x n s m (add n m d a b) d (val φ x n (m a) + val φ x n (m b)) := by
  have := loop_writes φ x n s m d (fun i m => m a i + m b i) (fun i m m' h => by simp only [h])
  rwa [val_add] at this

theorem sub_writes (n s : ℕ) (m : Mem R) (d a b : ℕ) :
    Writes φ x n s m (sub n m d a b) d (val φ x n (m a) - val φ x n (m b)) := by
  have := loop_writes φ x n s m d (fun i m => m a i - m b i) (fun i m m' h => by simp only [h])
  have h0 : val φ x n (fun i => m a i - m b i) = val φ x n (m a) - val φ x n (m b) := by
    simp only [val, map_sub, sub_mul, sum_sub_distrib]
  rwa [h0] at this

theorem double_writes (n s : ℕ) (m : Mem R) (d a : ℕ) :
    Writes φ x n s m (double n m d a) d (2 * val φ x n (m a)) := by
  have := loop_writes φ x n s m d (fun i m => 2 * m a i) (fun i m m' h => by simp only [h])
  have h0 : val φ x n (fun i => 2 * m a i) = 2 * val φ x n (m a) := by
    simp only [two_mul, val_add]
  rwa [h0] at this

theorem constMul_writes (n s : ℕ) (m : Mem R) (d a : ℕ) (c : R) :
    Writes φ x n s m (constMul n m d c a) d (φ c * val φ x n (m a)) := by
  have := loop_writes φ x n s m d (fun i m => m a i * c) (fun i m m' h => by simp only [h])
  rwa [val_smul] at this

theorem mulZ_writes (n s : ℕ) (m : Mem R) (d a : ℕ) (z : ℤ) :
    Writes φ x n s m (mulZ n m d a z) d (val φ x n (m a) * (z : A)) := by
  have := constMul_writes φ x n s m d a (z : R)
  rw [map_intCast, mul_comm] at this
  exact this

theorem truncate_apply [DecidableEq R] (n : ℕ) (m : Mem R) (d : ℕ) (f : List R) (e j : ℕ) :
    truncate n m d f e j = if e = d ∧ j < n then f.getD j 0 else m e j := by
  simp only [truncate]
  rw [forUp_spec d (fun _ _ => (0 : R)) (fun _ _ _ _ => rfl),
    forUp0 d (fun i _ => f.getD i 0) (fun _ _ _ _ => rfl)]
  split
  next h =>
    by_cases h1 : e = d ∧ j < n
    · rw [if_neg (by omega), if_pos h1]
    · rw [if_neg (by omega), if_neg h1]
  next h =>
    by_cases h1 : e = d ∧ j < n
    · rw [if_pos h1]
      by_cases h2 : j < f.length
      · rw [if_neg (by omega), if_pos ⟨h1.1, h2⟩]
      · rw [if_pos (by omega), Poly.getD_of_le f (by omega)]
    · rw [if_neg (by omega), if_neg (by omega), if_neg h1]

/-! ### The quotient ring -/

open Polynomial Spec

theorem eval₂_toPoly (l : List R) :
    eval₂ φ x (toPoly l) = ∑ i ∈ range l.length, φ (l.getD i 0) * x ^ i := by
  by_cases h : toPoly l = 0
  · rw [h, eval₂_zero]
    symm
    apply sum_eq_zero
    intro i _
    rw [← Poly.toPoly_coeff, h]
    simp
  · rw [eval₂_eq_sum_range' φ (Poly.natDegree_lt l h)]
    simp only [Poly.toPoly_coeff]

theorem map_range_getD (n : ℕ) (a : ℕ → R) {i : ℕ} (hi : i < n) :
    ((List.range n).map a).getD i 0 = a i := by
  simp [List.getD, List.getElem?_map, List.getElem?_range hi]

theorem val_eq_eval₂ (n : ℕ) (a : ℕ → R) :
    val φ x n a = eval₂ φ x (toPoly ((List.range n).map a)) := by
  rw [eval₂_toPoly, List.length_map, List.length_range]
  exact sum_congr rfl fun i hi => by rw [map_range_getD n a (mem_range.mp hi)]

theorem el_eq_mk (f : R[X]) (n : ℕ) (a : ℕ → R) :
    el f n a = AdjoinRoot.mk f (toPoly ((List.range n).map a)) := by
  rw [el, val_eq_eval₂, ← AdjoinRoot.aeval_eq]
  rfl

variable {n : ℕ} {poly : List R}

theorem Modulus.monic [Nontrivial R] (h : Modulus n poly) : (toPoly poly).Monic := by
  apply monic_of_natDegree_le_of_coeff_eq_one n
  · have := Poly.natDegree_le poly
    have := h.len
    omega
  · rw [Poly.toPoly_coeff, h.top]

theorem Modulus.normal [Nontrivial R] (h : Modulus n poly) : Normal poly := by
  rw [Poly.normal_iff, h.len]
  right
  rw [Nat.add_sub_cancel, h.top]
  exact one_ne_zero

theorem Modulus.degree [Nontrivial R] (h : Modulus n poly) : (toPoly poly).degree = n := by
  rw [Poly.degree_eq h.normal, h.len]
  simp

theorem Modulus.root (h : Modulus n poly) (hx : eval₂ φ x (toPoly poly) = 0) :
    x ^ n = - ∑ i ∈ range n, φ (poly.getD i 0) * x ^ i := by
  rw [eval₂_toPoly, h.len, sum_range_succ, h.top, map_one, one_mul] at hx
  linear_combination hx

theorem el_inj [Nontrivial R] (h : Modulus n poly) (a b : ℕ → R) :
    el (toPoly poly) n a = el (toPoly poly) n b ↔ ∀ i, i < n → a i = b i := by
  constructor
  · intro he i hi
    rw [el_eq_mk, el_eq_mk, AdjoinRoot.mk_eq_mk] at he
    have hd : toPoly ((List.range n).map a) - toPoly ((List.range n).map b) = 0 := by
      by_contra hne
      refine h.monic.not_dvd_of_degree_lt hne ?_ he
      rw [h.degree]
      refine lt_of_le_of_lt (degree_sub_le _ _) (max_lt ?_ ?_)
      · have := Poly.degree_lt ((List.range n).map a)
        simpa using this
      · have := Poly.degree_lt ((List.range n).map b)
        simpa using this
    have := congrArg (fun p => p.coeff i) (sub_eq_zero.mp hd)
    simp only [Poly.toPoly_coeff] at this
    rwa [map_range_getD n a hi, map_range_getD n b hi] at this
  · intro he
    exact val_congr _ _ he

section field

variable {K : Type*} [Field K] [DecidableEq K] {P : List K}

theorem toPolyList_toPoly (n : ℕ) (a : ℕ → K) :
    toPoly (toPolyList n a) = toPoly ((List.range n).map a) := Poly.strip_toPoly _

theorem toPolyList_length (n : ℕ) (a : ℕ → K) : (toPolyList n a).length ≤ n := by
  have := Poly.length_le_of_toPoly_eq (Poly.strip_normal ((List.range n).map a))
    (Poly.strip_toPoly ((List.range n).map a))
  simpa [toPolyList] using this

/-- Inversion in `K[x]/(f)`. -/
theorem invert_val (h : Modulus n P) [hI : Fact (Irreducible (toPoly P))] (s : ℕ) (m : Mem K)
    (r e : ℕ) :
    (el (toPoly P) n (m e) = 0 → invert n P m r e = none)
    ∧ (el (toPoly P) n (m e) ≠ 0 → ∃ m', invert n P m r e = some m'
      ∧ Writes (AdjoinRoot.of (toPoly P)) (AdjoinRoot.root (toPoly P)) n s m m' r
        (el (toPoly P) n (m e))⁻¹) := by
  have hzero : el (toPoly P) n (m e) = 0 ↔ toPolyList n (m e) = [] := by
    have h0 : el (toPoly P) n (fun _ => (0 : K)) = 0 := by simp [el, val]
    rw [← h0, el_inj h, toPolyList, ← Poly.toPoly_eq_zero (Poly.strip_normal _), Poly.strip_toPoly,
      Poly.toPoly_eq_iff]
    constructor
    · intro hh i
      by_cases hi : i < n
      · rw [map_range_getD n _ hi, hh i hi, coeff_zero]
      · rw [Poly.getD_of_le _ (by simp; omega), coeff_zero]
    · intro hh i hi
      have := hh i
      rwa [map_range_getD n _ hi, coeff_zero] at this
  constructor
  · intro he
    rw [hzero] at he
    simp [invert, he, Poly.invert, Poly.invLoop, Poly.div, Poly.is0]
  · intro he
    have hne : toPolyList n (m e) ≠ [] := fun h' => he (hzero.mpr h')
    have hlen := toPolyList_length n (m e)
    have hnd : ¬ toPoly P ∣ toPoly (toPolyList n (m e)) := by
      intro hd
      apply he
      rw [el_eq_mk, AdjoinRoot.mk_eq_zero]
      rwa [toPolyList_toPoly] at hd
    have hco : IsCoprime (toPoly (toPolyList n (m e))) (toPoly P) :=
      ((hI.out.coprime_iff_not_dvd).mpr hnd).symm
    obtain ⟨b, h1, h2, h3, h4⟩ := Poly.invert_spec (toPolyList n (m e)) P (Poly.strip_normal _)
      h.normal hne (by rw [h.len]; omega) hco
    refine ⟨truncate n m r b, by simp only [invert, h1], ?_, ?_⟩
    · have hb : val (AdjoinRoot.of (toPoly P)) (AdjoinRoot.root (toPoly P)) n
          (truncate n m r b r) = AdjoinRoot.mk (toPoly P) (toPoly b) := by
        change el (toPoly P) n _ = _
        rw [el_eq_mk]
        congr 1
        rw [Poly.toPoly_eq_iff]
        intro i
        rw [Poly.toPoly_coeff]
        by_cases hi : i < n
        · rw [map_range_getD n _ hi, truncate_apply, if_pos ⟨rfl, hi⟩]
        · rw [Poly.getD_of_le _ (by simp; omega), Poly.getD_of_le b (by rw [h.len] at h4; omega)]
      rw [hb]
      apply eq_inv_of_mul_eq_one_left
      rw [el_eq_mk, ← toPolyList_toPoly, ← map_mul]
      have h1' : (1 : AdjoinRoot (toPoly P)) = AdjoinRoot.mk (toPoly P) 1 := (map_one _).symm
      rw [h1', AdjoinRoot.mk_eq_mk]
      exact h3
    · intro y _ hy
      funext j
      rw [truncate_apply, if_neg (by tauto)]

theorem Rep.write {t d : ℕ} {m m' : Mem K} {s : ℕ → AdjoinRoot (toPoly P)} (hr : Rep n P t m s)
    {u : ℕ} (hu : t ≤ u) {v : AdjoinRoot (toPoly P)}
    (hw : Writes (AdjoinRoot.of (toPoly P)) (AdjoinRoot.root (toPoly P)) n u m m' d v) :
    Rep n P t m' (Function.update s d v) := by
  intro e he
  by_cases h : e = d
  · subst h
    rw [Function.update_self]
    exact hw.1
  · rw [Function.update_of_ne h, hw.2 e (by omega) h]
    exact hr e he

theorem exec_rep (h : Modulus n P) [hI : Fact (Irreducible (toPoly P))] (t : ℕ) (m : Mem K)
    (s : ℕ → AdjoinRoot (toPoly P)) (hr : Rep n P t m s) (o : RingOp) (hv : ∀ i ∈ o.vars, i < t)
    (hok : o.ok s) : ∃ m', exec n P t m o = some m' ∧ Rep n P t m' (o.step s) := by
  have hxp : ∀ i, i < n - 1 → val (AdjoinRoot.of (toPoly P)) (AdjoinRoot.root (toPoly P)) n
      (xRow n P i) = AdjoinRoot.root (toPoly P) ^ (n + i) := fun i _ =>
    xRow_val _ _ n h.pos P (h.root _ _ (AdjoinRoot.eval₂_root _)) i
  cases o with
  | setSi c z => exact ⟨_, rfl, hr.write le_rfl (setZ_writes _ _ n t h.pos m c z)⟩
  | setMpz c z => exact ⟨_, rfl, hr.write le_rfl (setZ_writes _ _ n t h.pos m c z)⟩
  | set0 c => exact ⟨_, rfl, hr.write le_rfl (set0_writes _ _ n t m c)⟩
  | set1 c => exact ⟨_, rfl, hr.write le_rfl (set1_writes _ _ n t h.pos m c)⟩
  | set c a =>
    have := set_writes (AdjoinRoot.of (toPoly P)) (AdjoinRoot.root (toPoly P)) n t m c a
    rw [← el, hr a (hv a (by simp [RingOp.vars]))] at this
    exact ⟨_, rfl, hr.write le_rfl this⟩
  | add c a b =>
    have := add_writes (AdjoinRoot.of (toPoly P)) (AdjoinRoot.root (toPoly P)) n t m c a b
    rw [← el, ← el, hr a (hv a (by simp [RingOp.vars])), hr b (hv b (by simp [RingOp.vars]))] at this
    exact ⟨_, rfl, hr.write le_rfl this⟩
  | sub c a b =>
    have := sub_writes (AdjoinRoot.of (toPoly P)) (AdjoinRoot.root (toPoly P)) n t m c a b
    rw [← el, ← el, hr a (hv a (by simp [RingOp.vars])), hr b (hv b (by simp [RingOp.vars]))] at this
    exact ⟨_, rfl, hr.write le_rfl this⟩
  | neg c a =>
    have := neg_writes (AdjoinRoot.of (toPoly P)) (AdjoinRoot.root (toPoly P)) n t m c a
    rw [← el, hr a (hv a (by simp [RingOp.vars]))] at this
    exact ⟨_, rfl, hr.write le_rfl this⟩
  | double c a =>
    have := double_writes (AdjoinRoot.of (toPoly P)) (AdjoinRoot.root (toPoly P)) n t m c a
    rw [← el, hr a (hv a (by simp [RingOp.vars]))] at this
    exact ⟨_, rfl, hr.write le_rfl this⟩
  | mul c a b =>
    have ha := hv a (by simp [RingOp.vars])
    have hb := hv b (by simp [RingOp.vars])
    have hc := hv c (by simp [RingOp.vars])
    have := mul_val (AdjoinRoot.of (toPoly P)) (AdjoinRoot.root (toPoly P)) n (xRow n P) hxp (t + 1)
      m c a b (by omega) (by omega) (by omega)
    rw [← el, ← el, hr a ha, hr b hb] at this
    exact ⟨_, rfl, hr.write (by omega) this⟩
  | square c a =>
    have := square_val (AdjoinRoot.of (toPoly P)) (AdjoinRoot.root (toPoly P)) n (xRow n P) hxp t m c a
    rw [← el, hr a (hv a (by simp [RingOp.vars]))] at this
    exact ⟨_, rfl, hr.write le_rfl this⟩
  | mulMpz c a z =>
    have := mulZ_writes (AdjoinRoot.of (toPoly P)) (AdjoinRoot.root (toPoly P)) n t m c a z
    rw [← el, hr a (hv a (by simp [RingOp.vars]))] at this
    exact ⟨_, rfl, hr.write le_rfl this⟩
  | mulSi c a z =>
    have := mulZ_writes (AdjoinRoot.of (toPoly P)) (AdjoinRoot.root (toPoly P)) n t m c a z
    rw [← el, hr a (hv a (by simp [RingOp.vars]))] at this
    exact ⟨_, rfl, hr.write le_rfl this⟩
  | invert c a =>
    have ha := hv a (by simp [RingOp.vars])
    obtain ⟨m', h1, h2⟩ := (invert_val h t m c a).2 (by rw [hr a ha]; exact hok)
    rw [hr a ha] at h2
    exact ⟨m', h1, hr.write le_rfl h2⟩
  | halve c a =>
    have ha := hv a (by simp [RingOp.vars])
    have hc := hv c (by simp [RingOp.vars])
    have h2 := setZ_writes (AdjoinRoot.of (toPoly P)) (AdjoinRoot.root (toPoly P)) n (t + 1) h.pos m t 2
    have h2v : el (toPoly P) n (setZ n m t 2 t) = ((2 : ℤ) : AdjoinRoot (toPoly P)) := h2.1
    obtain ⟨m1, e1, e2⟩ := (invert_val h (t + 1) (setZ n m t 2) t t).2 (by
      rw [h2v]
      push_cast
      exact hok)
    rw [h2v] at e2
    have e3 := mul_val (AdjoinRoot.of (toPoly P)) (AdjoinRoot.root (toPoly P)) n (xRow n P) hxp
      (t + 1) m1 c a t (by omega) (by omega) (by omega)
    have hm1 : ∀ y, y < t → m1 y = m y := by
      intro y hy
      rw [e2.2 y (by omega) (by omega), h2.2 y (by omega) (by omega)]
    rw [e2.1, hm1 a ha, ← el, hr a ha] at e3
    refine ⟨_, by simp only [exec, halve, e1]; rfl, ?_⟩
    have hr1 : Rep n P t m1 s := fun e he => by rw [hm1 e he]; exact hr e he
    have := hr1.write (by omega) e3
    simp only [RingOp.step, RingOp.value, RingOp.dest, div_eq_mul_inv]
    exact_mod_cast this
  | div c a b =>
    have ha := hv a (by simp [RingOp.vars])
    have hb := hv b (by simp [RingOp.vars])
    have hc := hv c (by simp [RingOp.vars])
    have hb0 : el (toPoly P) n (m b) ≠ 0 := by rw [hr b hb]; exact hok
    by_cases hca : c = a
    · subst hca
      obtain ⟨m1, e1, e2⟩ := (invert_val h (t + 1) m t b).2 hb0
      have e3 := mul_val (AdjoinRoot.of (toPoly P)) (AdjoinRoot.root (toPoly P)) n (xRow n P) hxp
        (t + 1) m1 c t c (by omega) (by omega) (by omega)
      have hm1 : ∀ y, y < t → m1 y = m y := fun y hy => e2.2 y (by omega) (by omega)
      rw [e2.1, hm1 c hc, ← el, hr c hc, hr b hb] at e3
      refine ⟨_, by simp only [exec, div, ne_eq, not_true_eq_false, if_false, e1]; rfl, ?_⟩
      have hr1 : Rep n P t m1 s := fun e he => by rw [hm1 e he]; exact hr e he
      have := hr1.write (by omega) e3
      simp only [RingOp.step, RingOp.value, RingOp.dest, div_eq_mul_inv]
      rwa [mul_comm] at this
    · obtain ⟨m1, e1, e2⟩ := (invert_val h (t + 1) m c b).2 hb0
      have e3 := mul_val (AdjoinRoot.of (toPoly P)) (AdjoinRoot.root (toPoly P)) n (xRow n P) hxp
        (t + 1) m1 c c a (by omega) (by omega) (by omega)
      have hm1 : ∀ y, y < t → y ≠ c → m1 y = m y := fun y hy hyc => e2.2 y (by omega) hyc
      rw [e2.1, hm1 a ha (Ne.symm hca), ← el, hr a ha, hr b hb] at e3
      refine ⟨_, by simp only [exec, div, ne_eq, hca, not_false_eq_true, if_true, e1]; rfl, ?_⟩
      simp only [RingOp.step, RingOp.value, RingOp.dest, div_eq_mul_inv]
      intro e he
      by_cases hec : e = c
      · subst hec
        rw [Function.update_self, mul_comm]
        exact e3.1
      · rw [Function.update_of_ne hec, e3.2 e (by omega) hec, hm1 e he hec]
        exact hr e he

theorem run_rep (h : Modulus n P) [hI : Fact (Irreducible (toPoly P))] (t : ℕ) (prog : List RingOp)
    (hv : ∀ o ∈ prog, ∀ i ∈ o.vars, i < t) (m : Mem K) (s : ℕ → AdjoinRoot (toPoly P))
    (hr : Rep n P t m s) (hok : RingAllowed s prog) :
    ∃ m', run n P t m prog = some m' ∧ Rep n P t m' (ringRun s prog) := by
  induction prog generalizing m s with
  | nil => exact ⟨m, rfl, hr⟩
  | cons o prog ih =>
    obtain ⟨m1, h1, h2⟩ := exec_rep h t m s hr o (hv o List.mem_cons_self) hok.1
    obtain ⟨m2, h3, h4⟩ := ih (fun o ho => hv o (List.mem_cons_of_mem _ ho)) m1 _ h2 hok.2
    exact ⟨m2, by simp only [run, h1, h3], h4⟩

end field

end Pbc.Polymod
