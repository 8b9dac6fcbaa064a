import Verif.Lemmas.Ternary
import Mathlib.Algebra.Polynomial.Monic
import Mathlib.FieldTheory.Finite.Basic
import Mathlib.Tactic.LinearCombination
import Mathlib.Tactic.ComputeDegree

/-! # Multiplication, cubing and inversion in ternary fields -/

set_option autoImplicit false

namespace Pbc.Ternary

open Polynomial

variable {w : ℕ}

/-! ### The trinomial -/

section trinomial

variable {m t : ℕ}

theorem tri_coeff (m t i : ℕ) : (trinomial m t).coeff i =
    (if i = m then 1 else 0) + (if i = t then 1 else 0) + (if i = 0 then 2 else 0) := by
  simp only [trinomial, coeff_add, coeff_X_pow, coeff_C]

theorem tri_deg_le (h : t < m) : (trinomial m t).degree ≤ m := by
  rw [degree_le_iff_coeff_zero]
  intro i hi
  have hi : m < i := by exact_mod_cast hi
  rw [tri_coeff, if_neg (by omega), if_neg (by omega), if_neg (by omega)]
  rfl

theorem tri_top (h0 : 0 < t) (h : t < m) : (trinomial m t).coeff m = 1 := by
  rw [tri_coeff, if_pos rfl, if_neg (by omega), if_neg (by omega)]
  rfl

theorem tri_zero (h0 : 0 < t) (h : t < m) : (trinomial m t).coeff 0 = 2 := by
  rw [tri_coeff, if_neg (by omega), if_neg (by omega), if_pos rfl]
  rfl

theorem tri_monic (h0 : 0 < t) (h : t < m) : (trinomial m t).Monic :=
  monic_of_degree_le m (tri_deg_le h) (tri_top h0 h)

theorem tri_natDegree (h0 : 0 < t) (h : t < m) : (trinomial m t).natDegree = m := by
  refine le_antisymm (natDegree_le_of_degree_le (tri_deg_le h)) (le_natDegree_of_ne_zero ?_)
  rw [tri_top h0 h]
  exact one_ne_zero

theorem tri_degree (h0 : 0 < t) (h : t < m) : (trinomial m t).degree = m := by
  rw [degree_eq_natDegree (tri_monic h0 h).ne_zero, tri_natDegree h0 h]

theorem X_coprime_tri (h0 : 0 < t) (h : t < m) : IsCoprime X (trinomial m t) := by
  have hd := divX_mul_X_add (trinomial m t)
  rw [tri_zero h0 h] at hd
  refine ⟨Polynomial.divX (trinomial m t), -1, ?_⟩
  have e : (C (2 : ZMod 3) : (ZMod 3)[X]) = -1 := by
    rw [show (2 : ZMod 3) = -1 by decide]
    simp
  linear_combination hd - e

end trinomial

theorem deg_lt_of_top {m : ℕ} {p : (ZMod 3)[X]} (h : p.degree ≤ m) (h0 : p.coeff m = 0) : p.degree < m := by
  rw [degree_lt_iff_coeff_zero]
  intro i hi
  rcases Nat.eq_or_lt_of_le hi with rfl | hi
  · exact h0
  · exact coeff_eq_zero_of_degree_lt (lt_of_le_of_lt h (by exact_mod_cast hi))

theorem degC (c : ZMod 3) (p : (ZMod 3)[X]) : (C c * p).degree ≤ p.degree := by
  rw [← smul_eq_C_mul]
  exact degree_smul_le _ _

theorem deg_le_of_lt {m n : ℕ} (hmn : m ≤ n) {p : (ZMod 3)[X]} (h : p.degree < m) : p.degree < n :=
  lt_of_lt_of_le h (by exact_mod_cast hmn)

theorem deg_X_mul_le {m : ℕ} {p : (ZMod 3)[X]} (h : p.degree < m) : (X * p).degree ≤ (m : WithBot ℕ) := by
  rw [degree_le_iff_coeff_zero]
  intro i hi
  have hi : m < i := by exact_mod_cast hi
  obtain ⟨j, rfl⟩ := Nat.exists_eq_succ_of_ne_zero (show i ≠ 0 by omega)
  rw [Nat.succ_eq_add_one, coeff_X_mul]
  exact coeff_eq_zero_of_degree_lt (lt_of_lt_of_le h (by exact_mod_cast (by omega : m ≤ j)))

theorem Good.room {m t : ℕ} {P : Params w} (g : Good m t P) : m < P.len * w := by
  rw [g.len, Nat.add_mul, Nat.one_mul]
  have := Nat.div_add_mod m w
  have h2 := Nat.mod_lt m g.word
  rw [mul_comm] at this
  omega

theorem adjust_spec (hw : 0 < w) {n v : ℕ} (hv : v < 3) {e px : El w} (he : Can n e) (hp : Can n px) :
    ∃ e', adjust n v e px = some e' ∧ Can n e' ∧ poly e' = poly e - C (v : ZMod 3) * poly px := by
  interval_cases v
  · exact ⟨e, rfl, he, by simp⟩
  · obtain ⟨e', h1, h2, h3⟩ := sub_spec hw he hp
    exact ⟨e', by rw [adjust, if_pos rfl, h1], h2, by simp [h3]⟩
  · obtain ⟨e', h1, h2, h3⟩ := add_spec hw he hp
    refine ⟨e', by rw [adjust, if_neg (by decide), if_pos rfl, h1], h2, ?_⟩
    rw [h3, show ((2 : ℕ) : ZMod 3) = -1 by decide]
    simp

/-- `gf3m_f2`: multiplication by `x`. -/
theorem f2_spec {m t : ℕ} {P : Params w} (g : Good m t P) {e : El w} (he : Can P.len e)
    (hd : (poly e).degree < m) :
    ∃ e', f2 P e = some e' ∧ Can P.len e' ∧ (poly e').degree < m ∧
      trinomial m t ∣ poly e' - X * poly e := by
  obtain ⟨e1, h1, h2, h3⟩ := shiftUp_spec g.word he (deg_le_of_lt (by have := g.room; omega) hd)
  obtain ⟨v, h4, h5, h6, -⟩ := get_spec g.word h2 g.room
  obtain ⟨e', h7, h8, h9⟩ := adjust_spec g.word h5 h2 g.can
  rw [h6, h3, g.hp] at h9
  refine ⟨e', by rw [f2, h1, Option.bind_some, g.hm, h4, Option.bind_some, h7], h8, ?_, ?_⟩
  · rw [h9]
    refine deg_lt_of_top ?_ ?_
    · refine (degree_sub_le _ _).trans (max_le (deg_X_mul_le hd) ?_)
      exact (degC _ _).trans (tri_deg_le g.lt)
    · rw [coeff_sub, coeff_C_mul, tri_top g.pos g.lt, mul_one, sub_self]
  · rw [h9]
    exact ⟨-C ((X * poly e).coeff m), by ring⟩

/-- `gf3m_invert`: division by `x`. -/
theorem divX_spec {m t : ℕ} {P : Params w} (g : Good m t P) {e : El w} (he : Can P.len e)
    (hd : (poly e).degree < m) :
    ∃ e', divX P e = some e' ∧ Can P.len e' ∧ (poly e').degree < m ∧
      trinomial m t ∣ X * poly e' - poly e := by
  obtain ⟨v, h4, h5, h6, -⟩ := get_spec g.word he (pos := 0) (lt_of_le_of_lt (Nat.zero_le _) g.room)
  have h7 : ∃ e1, (if v = 1 then add P.len e P.p else if v = 2 then sub P.len e P.p else some e) = some e1 ∧
      Can P.len e1 ∧ poly e1 = poly e + C (v : ZMod 3) * poly P.p := by
    interval_cases v
    · exact ⟨e, rfl, he, by simp⟩
    · obtain ⟨e', h1, h2, h3⟩ := add_spec g.word he g.can
      exact ⟨e', by rw [if_pos rfl, h1], h2, by simp [h3]⟩
    · obtain ⟨e', h1, h2, h3⟩ := sub_spec g.word he g.can
      refine ⟨e', by rw [if_neg (by decide), if_pos rfl, h1], h2, ?_⟩
      rw [h3, show ((2 : ℕ) : ZMod 3) = -1 by decide]
      simp [sub_eq_add_neg]
  obtain ⟨e1, h8, h9, h10⟩ := h7
  rw [h6, g.hp] at h10
  obtain ⟨e', h11, h12, h13⟩ := shiftDown_spec g.word h9
  have hx : poly e' * X = poly e1 := by
    have := divX_mul_X_add (poly e1)
    rw [← h13, h10, coeff_add, coeff_C_mul, tri_zero g.pos g.lt,
      show (poly e).coeff 0 + (poly e).coeff 0 * 2 = (3 : ZMod 3) * (poly e).coeff 0 by ring,
      show (3 : ZMod 3) = 0 by decide, zero_mul, C_0, add_zero] at this
    rw [this, h10]
  refine ⟨e', by rw [divX, h4, Option.bind_some, h8, Option.bind_some, h11], h12, ?_, ?_⟩
  · rw [degree_lt_iff_coeff_zero]
    intro i hi
    rw [← coeff_mul_X, hx, h10]
    refine coeff_eq_zero_of_degree_lt (lt_of_le_of_lt ((degree_add_le _ _).trans (max_le hd.le
      ((degC _ _).trans (tri_deg_le g.lt)))) (by exact_mod_cast (by omega : m < i + 1)))
  · exact ⟨C ((poly e).coeff 0), by rw [mul_comm X, hx, h10]; ring⟩

/-! ### Multiplication -/

theorem multLoop_spec {m t : ℕ} {P : Params w} (g : Good m t P) {b : El w} (hb : Can P.len b)
    (k i : ℕ) {a c : El w} (ha : Can P.len a) (hda : (poly a).degree < m) (hc : Can P.len c)
    (hdc : (poly c).degree < m) (hk : i + k ≤ m) :
    ∃ e, multLoop P b k i a c = some e ∧ Can P.len e ∧ (poly e).degree < m ∧
      trinomial m t ∣ poly e - (poly c + poly a * ∑ j ∈ Finset.range k, monomial j ((poly b).coeff (i + j))) := by
  induction k generalizing i a c with
  | zero => exact ⟨c, rfl, hc, hdc, by simp⟩
  | succ k ih =>
    obtain ⟨v, h1, h2, h3, -⟩ := get_spec g.word hb (pos := i) (lt_trans (by omega) g.room)
    obtain ⟨t', h4, h5, h6⟩ := f1_spec g.word ha h2
    obtain ⟨c', h7, h8, h9⟩ := add_spec g.word hc h5
    obtain ⟨a', h10, h11, h12, ⟨x, hx⟩⟩ := f2_spec g ha hda
    have hdc' : (poly c').degree < m := by
      rw [h9, h6]
      exact lt_of_le_of_lt (degree_add_le _ _) (max_lt hdc (lt_of_le_of_lt (degC _ _) hda))
    obtain ⟨e, h13, h14, h15, ⟨y, hy⟩⟩ := ih (i + 1) h11 h12 h8 hdc' (by omega)
    refine ⟨e, ?_, h14, h15, ?_⟩
    · rw [multLoop, h1, Option.bind_some, h4, Option.bind_some, h7, Option.bind_some, h10, Option.bind_some, h13]
    · rw [Finset.sum_range_succ']
      have e1 : ∑ j ∈ Finset.range k, monomial (j + 1) ((poly b).coeff (i + (j + 1))) =
          X * ∑ j ∈ Finset.range k, monomial j ((poly b).coeff (i + 1 + j)) := by
        rw [Finset.mul_sum]
        refine Finset.sum_congr rfl fun j _ => ?_
        rw [X_mul_monomial, show i + (j + 1) = i + 1 + j by ring]
      rw [e1, add_zero, monomial_zero_left, ← h3]
      refine ⟨y + x * ∑ j ∈ Finset.range k, monomial j ((poly b).coeff (i + 1 + j)), ?_⟩
      linear_combination hy + h9 + h6 + hx * ∑ j ∈ Finset.range k, monomial j ((poly b).coeff (i + 1 + j))

theorem sum_monomial {m : ℕ} {p : (ZMod 3)[X]} (h : p.degree < m) :
    ∑ j ∈ Finset.range m, monomial j (p.coeff j) = p := by
  ext i
  rw [finset_sum_coeff]
  simp only [coeff_monomial]
  rw [Finset.sum_ite_eq']
  split
  · rfl
  · rename_i hi
    exact (coeff_eq_zero_of_degree_lt (lt_of_lt_of_le h (by
      exact_mod_cast (by simpa using hi : m ≤ i)))).symm

theorem mult_spec {m t : ℕ} {P : Params w} (g : Good m t P) {a b : El w} (ha : Can P.len a)
    (hda : (poly a).degree < m) (hb : Can P.len b) (hdb : (poly b).degree < m) :
    ∃ e, mult P a b = some e ∧ Can P.len e ∧ (poly e).degree < m ∧
      trinomial m t ∣ poly e - poly a * poly b := by
  obtain ⟨e, h1, h2, h3, h4⟩ := multLoop_spec g hb m 0 ha hda (can_zero P.len)
    (by rw [poly_zero]; exact WithBot.bot_lt_coe _) (by omega)
  refine ⟨e, by rw [mult, ha.has, if_pos rfl, g.hm, h1], h2, h3, ?_⟩
  simpa only [zero_add, sum_monomial hdb, poly_zero] using h4

/-! ### Cubing -/

theorem reductLoop_spec (hw : 0 < w) {m t n : ℕ} (h0 : 0 < t) (ht : t < m) (k : ℕ) {e px : El w} (he : Can n e) (hp : Can n px)
    (hd : (poly e).degree < (m + k : ℕ)) (hpx : ∀ j, k = j + 1 → poly px = X ^ j * trinomial m t)
    (hn : m + k ≤ n * w) :
    ∃ e', reductLoop n m k e px = some e' ∧ Can n e' ∧ (poly e').degree < m ∧
      trinomial m t ∣ poly e' - poly e := by
  induction k generalizing e px with
  | zero => exact ⟨e, rfl, he, hd, by simp⟩
  | succ k ih =>
    have hx := hpx k rfl
    obtain ⟨v, h1, h2, h3, -⟩ := get_spec hw he (pos := m + k) (by omega)
    obtain ⟨e1, h4, h5, h6⟩ := adjust_spec hw h2 he hp
    obtain ⟨px', h7, h8, h9⟩ := shiftDown_spec hw hp
    rw [h3, hx] at h6
    have hd1 : (poly e1).degree < (m + k : ℕ) := by
      rw [h6]
      refine deg_lt_of_top ?_ ?_
      · refine (degree_sub_le _ _).trans (max_le ?_ ((degC _ _).trans ?_))
        · exact Order.le_of_lt_succ hd
        · rw [degree_mul, degree_X_pow, tri_degree h0 ht, ← Nat.cast_add, Nat.add_comm]
      · rw [coeff_sub, coeff_C_mul, Nat.add_comm m k, coeff_X_pow_mul', if_pos (by omega), Nat.add_sub_cancel_left,
          tri_top h0 ht, mul_one, sub_self]
    have hpx' : ∀ j, k = j + 1 → poly px' = X ^ j * trinomial m t := by
      rintro j rfl
      rw [h9, hx, pow_succ, mul_assoc, mul_left_comm]
      ext i
      rw [coeff_divX, coeff_X_mul]
    obtain ⟨e', h10, h11, h12, h13⟩ := ih h5 h8 hd1 hpx' (by omega)
    refine ⟨e', by rw [reductLoop, h1, Option.bind_some, h4, Option.bind_some, h7, Option.bind_some, h10],
      h11, h12, ?_⟩
    obtain ⟨y, hy⟩ := h13
    exact ⟨y - C ((poly e).coeff (m + k)) * X ^ k, by linear_combination hy + h6⟩

theorem reduct_spec {m t n degree : ℕ} {P : Params w} (g : Good m t P) {e : El w} (he : Can n e)
    (hm : m ≤ degree) (hd : (poly e).degree < (degree + 1 : ℕ)) (hn : degree < n * w) :
    ∃ e', reduct P e n degree = some e' ∧ Can n e' ∧ (poly e').degree < m ∧
      trinomial m t ∣ poly e' - poly e := by
  have hw := g.word
  have ht := g.lt
  have h0 := g.pos
  obtain ⟨k, rfl⟩ := Nat.exists_eq_add_of_le hm
  obtain ⟨p1, a1, a2, a3⟩ := set_spec hw (can_zero (w := w) n) (pos := m + k) (v := 1) hn (by decide)
    (by rw [poly_zero]; rfl)
  rw [poly_zero, zero_add] at a3
  obtain ⟨p2, b1, b2, b3⟩ := set_spec hw a2 (pos := k + t) (v := 1) (by omega) (by decide)
    (by rw [a3, coeff_monomial, if_neg (by omega)])
  rw [a3] at b3
  obtain ⟨p3, c1, c2, c3⟩ := set_spec hw b2 (pos := k) (v := 2) (by omega) (by decide)
    (by rw [b3, coeff_add, coeff_monomial, coeff_monomial, if_neg (by omega), if_neg (by omega), add_zero])
  obtain ⟨e', d1, d2, d3, d4⟩ := reductLoop_spec hw h0 ht (k + 1) he c2 (by
      rwa [show m + (k + 1) = m + k + 1 by ring]) (by
      intro j hj
      obtain rfl : k = j := by omega
      rw [c3, b3, trinomial]
      simp only [← C_mul_X_pow_eq_monomial]
      simp
      ring) (by omega)
  refine ⟨e', ?_, d2, d3, d4⟩
  rw [reduct, g.hm, g.ht, if_neg (by omega), a1, Option.bind_some, Nat.add_sub_cancel_left, b1, Option.bind_some,
    c1, Option.bind_some, d1]

theorem cubicLoop_spec {m t n : ℕ} {P : Params w} (g : Good m t P) {x : El w} (hx : Can P.len x)
    (hn : 3 * m ≤ n * w + 2) (k i : ℕ) {a : El w} (ha : Can n a)
    (hp : poly a = ∑ j ∈ Finset.range i, monomial (3 * j) ((poly x).coeff j)) (hk : i + k = m) :
    ∃ e, cubicLoop P n x k i a = some e ∧ Can n e ∧
      poly e = ∑ j ∈ Finset.range m, monomial (3 * j) ((poly x).coeff j) := by
  induction k generalizing i a with
  | zero => exact ⟨a, rfl, ha, by rw [hp, ← hk, add_zero]⟩
  | succ k ih =>
    obtain ⟨v, h1, h2, h3, -⟩ := get_spec g.word hx (pos := i) (lt_trans (by omega) g.room)
    obtain ⟨a', h4, h5, h6⟩ := set_spec g.word ha (pos := 3 * i) (v := v) (by omega) h2 (by
      rw [hp, finset_sum_coeff]
      refine Finset.sum_eq_zero fun j hj => ?_
      rw [Finset.mem_range] at hj
      rw [coeff_monomial, if_neg (by omega)])
    obtain ⟨e, h7, h8, h9⟩ := ih (i + 1) h5 (by rw [h6, hp, Finset.sum_range_succ, h3]) (by omega)
    exact ⟨e, by rw [cubicLoop, h1, Option.bind_some, h4, Option.bind_some, h7], h8, h9⟩

theorem bit_take (hw : 0 < w) (n : ℕ) (a : Plane w) (i : ℕ) :
    bit (a.take n) i = (decide (i < n * w) && bit a i) := by
  unfold bit
  by_cases h : i < n * w
  · have h' : i / w < n := Nat.div_lt_of_lt_mul (by rwa [mul_comm] at h)
    rw [List.getD_eq_getElem?_getD, List.getD_eq_getElem?_getD, List.getElem?_take, if_pos h']
    simp [h]
  · have h' : n ≤ i / w := (Nat.le_div_iff_mul_le hw).mpr (by omega)
    rw [List.getD_eq_default _ _ (by rw [List.length_take]; omega)]
    simp [h]

theorem copyOut_spec (hw : 0 < w) {n l : ℕ} {a : El w} (ha : Can n a) (hl : l ≤ n)
    (hd : (poly a).degree < (l * w : ℕ)) : ∃ e, copyOut l a = some e ∧ Can l e ∧ poly e = poly a := by
  have hc : Can l (⟨a.p1.take l, a.p2.take l⟩ : El w) := ⟨by simp [ha.l1, hl], by simp [ha.l2, hl], fun i => by
    dsimp only
    rw [bit_take hw, bit_take hw]
    have := ha.disj i
    by_cases h : i < l * w
    · simpa [h] using this
    · simp [h]⟩
  refine ⟨_, by rw [copyOut, ha.l1, ha.l2]; simp [hl], hc, ?_⟩
  ext i
  rw [poly_coeff hw hc, coeff, bit_take hw, bit_take hw]
  by_cases h : i < l * w
  · rw [poly_coeff hw ha, coeff]
    simp [h]
  · rw [coeff_eq_zero_of_degree_lt (lt_of_lt_of_le hd (by exact_mod_cast (by omega : l * w ≤ i)))]
    simp [h]

/-- The number of words `gf3m_cubic` allocates is enough for its purposes. -/
theorem cubic_len (hw : 0 < w) {m : ℕ} (hm : 2 ≤ m) :
    m / w + 1 ≤ (3 * m - 2 + w - 1) / w ∧ 3 * m - 3 < (3 * m - 2 + w - 1) / w * w := by
  have e : (3 * m - 2 + w - 1) / w = (3 * m - 3) / w + 1 := by
    rw [show 3 * m - 2 + w - 1 = 3 * m - 3 + w by omega, Nat.add_div_right _ hw]
  rw [e]
  refine ⟨Nat.add_le_add_right (Nat.div_le_div_right (by omega)) 1, ?_⟩
  have := Nat.div_add_mod (3 * m - 3) w
  have h2 := Nat.mod_lt (3 * m - 3) hw
  rw [mul_comm] at this
  rw [Nat.add_mul, Nat.one_mul]
  omega

theorem cubic_spec {m t : ℕ} {P : Params w} (g : Good m t P) {x : El w} (hx : Can P.len x)
    (hd : (poly x).degree < m) :
    ∃ e, cubic P x = some e ∧ Can P.len e ∧ (poly e).degree < m ∧ trinomial m t ∣ poly e - poly x ^ 3 := by
  have hw := g.word
  have hm : 2 ≤ m := by have := g.pos; have := g.lt; omega
  obtain ⟨l1, l2⟩ := cubic_len hw hm
  generalize hn : (3 * m - 2 + w - 1) / w = n at *
  obtain ⟨a, h1, h2, h3⟩ := cubicLoop_spec g hx (n := n) (by omega) m 0 (can_zero n) (by simp [poly_zero]) (by omega)
  have hdeg : (poly a).degree < (3 * m - 3 + 1 : ℕ) := by
    rw [degree_lt_iff_coeff_zero]
    intro i hi
    rw [h3, finset_sum_coeff]
    refine Finset.sum_eq_zero fun j hj => ?_
    rw [Finset.mem_range] at hj
    rw [coeff_monomial, if_neg (by omega)]
  obtain ⟨b, h4, h5, h6, h7⟩ := reduct_spec g h2 (degree := 3 * m - 3) (by omega) hdeg l2
  obtain ⟨e, h8, h9, h10⟩ := copyOut_spec hw h5 (l := P.len) (by rw [g.len]; exact l1)
    (lt_trans h6 (by exact_mod_cast g.room))
  have hcube : poly a = poly x ^ 3 := by
    have : Fact (Nat.Prime 3) := ⟨Nat.prime_three⟩
    rw [← ZMod.expand_card, h3]
    conv_rhs => rw [← sum_monomial hd]
    rw [map_sum]
    refine Finset.sum_congr rfl fun j _ => ?_
    rw [expand_monomial, mul_comm]
  refine ⟨e, ?_, h9, by rw [h10]; exact h6, by rw [h10, ← hcube]; exact h7⟩
  rw [cubic, g.hm, hn, h1, Option.bind_some, h4, Option.bind_some, if_pos h5.has, h8]

/-! ### Inversion -/

/-- The invariant of the inversion loop after `i` iterations.  `R` and `S` are combinations of the
trinomial and of `A`, with a determinant that is a power of `x`; `U` and `V` are the factors of `A`
divided by a power of `x`. -/
structure Inv (m t n lenS : ℕ) (A : (ZMod 3)[X]) (i : ℕ) (s : InvState w) : Prop where
  cS : Can lenS s.S
  cR : Can lenS s.R
  cU : Can n s.U
  cV : Can n s.V
  dS : (poly s.S).degree ≤ m
  dR : (poly s.R).degree ≤ m
  dU : (poly s.U).degree < m
  dV : (poly s.V).degree < m
  top : (poly s.S).coeff m ≠ 0 ∨ (poly s.R).coeff m ≠ 0
  last : s.d = 0 → 0 < i → (poly s.R).coeff m ≠ 0
  comb : ∃ (g : ℕ) (u v u' v' : (ZMod 3)[X]) (c : ZMod 3), g + (g + s.d) = i ∧ c ≠ 0 ∧
    poly s.R = u * trinomial m t + v * A ∧ poly s.S = u' * trinomial m t + v' * A ∧
    X ^ (g + s.d) ∣ u ∧ X ^ (g + s.d) ∣ v ∧ X ^ g ∣ u' ∧ X ^ g ∣ v' ∧
    u * v' - u' * v = C c * X ^ i ∧
    trinomial m t ∣ X ^ g * poly s.U - v ∧ trinomial m t ∣ X ^ g * poly s.V - v'

theorem deg_X_mul_le' {m : ℕ} {p : (ZMod 3)[X]} (h : p.degree ≤ m) (h0 : p.coeff m = 0) :
    (X * p).degree ≤ (m : WithBot ℕ) := deg_X_mul_le (deg_lt_of_top h h0)

theorem gf3Mult_spec {a b : ℕ} (ha : a < 3) (hb : b < 3) :
    ∃ q, gf3Mult a b = some q ∧ q < 3 ∧ (q : ZMod 3) = a * b := by
  interval_cases a <;> interval_cases b <;> exact ⟨_, rfl, by decide, by decide⟩

theorem invStep_spec {m t lenS i : ℕ} {P : Params w} (g : Good m t P) {A : (ZMod 3)[X]} {s : InvState w}
    (hl : m + 1 < lenS * w) (h : Inv m t P.len lenS A i s) :
    ∃ s', invStep P lenS s = some s' ∧ Inv m t P.len lenS A (i + 1) s' := by
  have hw := g.word
  obtain ⟨e, u, v, u', v', c, hi, hc, hR, hS, du, dv, du', dv', det, hU, hV⟩ := h.comb
  obtain ⟨rm, r1, r2, r3, r4⟩ := get_spec hw h.cR (pos := m) (by omega)
  obtain ⟨sm, s1, s2, s3, s4⟩ := get_spec hw h.cS (pos := m) (by omega)
  have hlt : ∀ {p : (ZMod 3)[X]}, p.degree ≤ m → p.degree < (lenS * w - 1 : ℕ) := fun hp =>
    lt_of_le_of_lt hp (by exact_mod_cast (by omega : m < lenS * w - 1))
  rw [invStep, g.hm, r1, Option.bind_some, s1, Option.bind_some]
  by_cases hr : rm = 0
  · rw [if_pos hr]
    have hr0 := r4.mp hr
    obtain ⟨R', a1, a2, a3⟩ := shiftUp_spec hw h.cR (hlt h.dR)
    obtain ⟨U', b1, b2, b3, ⟨y, b4⟩⟩ := f2_spec g h.cU h.dU
    refine ⟨{ s with R := R', U := U', d := s.d + 1 }, by rw [a1, Option.bind_some, b1, Option.bind_some], ?_⟩
    refine ⟨h.cS, a2, b2, h.cV, h.dS, ?_, b3, h.dV, .inl ?_, fun h0 => absurd h0 (by simp), ?_⟩
    · dsimp only
      rw [a3]
      exact deg_X_mul_le' h.dR hr0
    · exact h.top.resolve_right (fun h' => h' hr0)
    · refine ⟨e, X * u, X * v, u', v', c, by dsimp only; omega, hc, ?_, hS, ?_, ?_, du', dv', ?_, ?_, hV⟩
      · dsimp only
        rw [a3, hR]; ring
      · dsimp only
        rw [← Nat.add_assoc, pow_succ']
        exact mul_dvd_mul_left X du
      · dsimp only
        rw [← Nat.add_assoc, pow_succ']
        exact mul_dvd_mul_left X dv
      · rw [pow_succ]
        linear_combination X * det
      · obtain ⟨z, hz⟩ := hU
        exact ⟨X ^ e * y + X * z, by dsimp only; linear_combination X ^ e * b4 + X * hz⟩
  · rw [if_neg hr]
    have hr0 : (poly s.R).coeff m ≠ 0 := fun h' => hr (r4.mpr h')
    obtain ⟨q, q1, q2, q3⟩ := gf3Mult_spec r2 s2
    obtain ⟨t1, a1, a2, a3⟩ := f1_spec hw h.cR q2
    obtain ⟨S1, b1, b2, b3⟩ := sub_spec hw h.cS a2
    rw [a3] at b3
    have hq : (q : ZMod 3) * (poly s.R).coeff m = (poly s.S).coeff m := by
      rw [q3, r3, s3]
      generalize (poly s.R).coeff m = x at *
      generalize (poly s.S).coeff m = y at *
      clear * - hr0
      revert x y
      decide
    have hd1 : (poly S1).degree ≤ m := by
      rw [b3]
      exact (degree_sub_le _ _).trans (max_le h.dS ((degC _ _).trans h.dR))
    have ht1 : (poly S1).coeff m = 0 := by
      rw [b3, coeff_sub, coeff_C_mul, hq, sub_self]
    obtain ⟨S2, c1, c2, c3⟩ := shiftUp_spec hw b2 (hlt hd1)
    obtain ⟨t2, d1, d2, d3⟩ := f1_spec hw h.cU q2
    obtain ⟨V1, e1, e2, e3⟩ := sub_spec hw h.cV d2
    rw [d3] at e3
    have hdV : (poly V1).degree < m := by
      rw [e3]
      exact lt_of_le_of_lt (degree_sub_le _ _) (max_lt h.dV (lt_of_le_of_lt (degC _ _) h.dU))
    rw [q1, Option.bind_some, a1, Option.bind_some, b1, Option.bind_some, c1, Option.bind_some, d1,
      Option.bind_some, e1, Option.bind_some]
    have hS2 : poly S2 = X * (u' - C (q : ZMod 3) * u) * trinomial m t + X * (v' - C (q : ZMod 3) * v) * A := by
      rw [c3, b3, hR, hS]; ring
    have hge : (X : (ZMod 3)[X]) ^ e ∣ X ^ (e + s.d) := pow_dvd_pow X (Nat.le_add_right _ _)
    have du1 : (X : (ZMod 3)[X]) ^ (e + 1) ∣ X * (u' - C (q : ZMod 3) * u) := by
      rw [pow_succ']
      exact mul_dvd_mul_left X (dvd_sub du' (Dvd.dvd.mul_left (hge.trans du) _))
    have dv1 : (X : (ZMod 3)[X]) ^ (e + 1) ∣ X * (v' - C (q : ZMod 3) * v) := by
      rw [pow_succ']
      exact mul_dvd_mul_left X (dvd_sub dv' (Dvd.dvd.mul_left (hge.trans dv) _))
    obtain ⟨z, hz⟩ := hU
    obtain ⟨z', hz'⟩ := hV
    by_cases hd0 : s.d = 0
    · rw [if_pos hd0]
      obtain ⟨U', f1, f2, f3, ⟨y, f4⟩⟩ := f2_spec g e2 hdV
      refine ⟨⟨s.R, S2, U', s.U, s.d + 1⟩, by rw [f1, Option.bind_some], ?_⟩
      refine ⟨h.cR, c2, f2, h.cU, h.dR, ?_, f3, h.dU, .inl hr0, fun h0 => absurd h0 (by simp), ?_⟩
      · dsimp only
        rw [c3]
        exact deg_X_mul_le' hd1 ht1
      · refine ⟨e, X * (u' - C (q : ZMod 3) * u), X * (v' - C (q : ZMod 3) * v), u, v, -c, by dsimp only; omega,
          neg_ne_zero.mpr hc, hS2, hR, ?_, ?_, hge.trans du, hge.trans dv, ?_, ?_, ⟨z, hz⟩⟩
        · dsimp only; rw [hd0]; exact du1
        · dsimp only; rw [hd0]; exact dv1
        · rw [pow_succ, C_neg]
          linear_combination -X * det
        · refine ⟨X ^ e * y + X * z' - X * C (q : ZMod 3) * z, ?_⟩
          dsimp only
          linear_combination X ^ e * f4 + X * hz' - X * C (q : ZMod 3) * hz + X ^ e * X * e3
    · rw [if_neg hd0]
      obtain ⟨U', f1, f2, f3, ⟨y, f4⟩⟩ := divX_spec g h.cU h.dU
      refine ⟨⟨S2, s.R, U', V1, s.d - 1⟩, by rw [f1, Option.bind_some], ?_⟩
      refine ⟨c2, h.cR, f2, e2, ?_, h.dR, f3, hdV, .inr hr0, fun _ _ => hr0, ?_⟩
      · dsimp only
        rw [c3]
        exact deg_X_mul_le' hd1 ht1
      · refine ⟨e + 1, u, v, X * (u' - C (q : ZMod 3) * u), X * (v' - C (q : ZMod 3) * v), c,
          by dsimp only; omega, hc, hR, hS2, ?_, ?_, du1, dv1, ?_, ?_, ?_⟩
        · dsimp only; rwa [show e + 1 + (s.d - 1) = e + s.d by omega]
        · dsimp only; rwa [show e + 1 + (s.d - 1) = e + s.d by omega]
        · rw [pow_succ]
          linear_combination X * det
        · exact ⟨X ^ e * y + z, by dsimp only; rw [pow_succ]; linear_combination X ^ e * f4 + hz⟩
        · refine ⟨X * z' - X * C (q : ZMod 3) * z, ?_⟩
          dsimp only
          rw [pow_succ]
          linear_combination X * hz' - X * C (q : ZMod 3) * hz + X ^ e * X * e3

theorem invLoop_spec {m t lenS : ℕ} {P : Params w} (g : Good m t P) {A : (ZMod 3)[X]}
    (hl : m + 1 < lenS * w) (k i : ℕ) {s : InvState w} (h : Inv m t P.len lenS A i s) :
    ∃ s', invLoop P lenS k s = some s' ∧ Inv m t P.len lenS A (i + k) s' := by
  induction k generalizing i s with
  | zero => exact ⟨s, rfl, h⟩
  | succ k ih =>
    obtain ⟨s1, h1, h2⟩ := invStep_spec g hl h
    obtain ⟨s2, h3, h4⟩ := ih (i + 1) h2
    refine ⟨s2, by rw [invLoop, h1, Option.bind_some, h3], ?_⟩
    rwa [show i + (k + 1) = i + 1 + k by ring]

/-- After `2 m` iterations `U A` is congruent to the leading coefficient of `R`. -/
theorem Inv.final {m t n lenS : ℕ} {A : (ZMod 3)[X]} {s : InvState w} (h0 : 0 < t) (ht : t < m)
    (hA : IsCoprime A (trinomial m t)) (h : Inv m t n lenS A (m * 2) s) :
    (poly s.R).coeff m ≠ 0 ∧ trinomial m t ∣ poly s.U * A - C ((poly s.R).coeff m) := by
  obtain ⟨e, u, v, u', v', c, hi, hc, hR, hS, du, dv, du', dv', det, hU, hV⟩ := h.comb
  have hX := X_coprime_tri h0 ht
  have hT : trinomial m t ≠ 0 := (tri_monic h0 ht).ne_zero
  have hRd : X ^ (e + s.d) ∣ poly s.R := by
    rw [hR]
    exact dvd_add (Dvd.dvd.mul_right du _) (Dvd.dvd.mul_right dv _)
  by_cases hd : s.d = 0
  · obtain rfl : e = m := by omega
    have hr := h.last hd (by omega)
    refine ⟨hr, ?_⟩
    rw [hd, Nat.add_zero] at hRd
    have hRe : poly s.R = C ((poly s.R).coeff e) * X ^ e := by
      ext i
      rw [coeff_C_mul_X_pow]
      split
      · rename_i hie; rw [hie]
      · rename_i hie
        rcases Nat.lt_or_ge i e with hlt | hge
        · exact X_pow_dvd_iff.mp hRd i hlt
        · exact coeff_eq_zero_of_degree_lt (lt_of_le_of_lt h.dR (by exact_mod_cast (by omega : e < i)))
    refine (hX.symm.pow_right (n := e)).dvd_of_dvd_mul_left ?_
    obtain ⟨z, hz⟩ := hU
    refine ⟨z * A - u, ?_⟩
    linear_combination A * hz + hRe - hR
  · exfalso
    have hR0 : poly s.R = 0 := by
      ext i
      rw [coeff_zero]
      rcases Nat.lt_or_ge i (e + s.d) with hlt | hge
      · exact X_pow_dvd_iff.mp hRd i hlt
      · exact coeff_eq_zero_of_degree_lt (lt_of_le_of_lt h.dR (by exact_mod_cast (by omega : m < i)))
    have hSm := h.top.resolve_right (fun h' => h' (by rw [hR0, coeff_zero]))
    rw [hR0] at hR
    obtain ⟨k, hk⟩ : trinomial m t ∣ v := hA.symm.dvd_of_dvd_mul_right ⟨-u, by linear_combination -hR⟩
    have hu : u = - (k * A) := by
      have : trinomial m t * (u + k * A) = 0 := by linear_combination -hR - A * hk
      have := (mul_eq_zero.mp this).resolve_left hT
      linear_combination this
    obtain ⟨k', hk'⟩ : X ^ (e + s.d) ∣ k := by
      rw [hk] at dv
      exact (hX.pow_left (m := e + s.d)).dvd_of_dvd_mul_left dv
    have hdet : X ^ (e + s.d) * (k' * poly s.S) = X ^ (e + s.d) * (-C c * X ^ e) := by
      have : m * 2 = e + s.d + e := by omega
      rw [this, pow_add X (e + s.d) e] at det
      linear_combination -det + u' * hk * (-1) + v' * hu + poly s.S * (-1) * hk' + (-k) * (-1) * hS
    have hdiv := mul_left_cancel₀ (pow_ne_zero _ X_ne_zero) hdet
    have hSdeg : (poly s.S).degree ≤ (e : WithBot ℕ) := by
      have hne : -C c * X ^ e ≠ (0 : (ZMod 3)[X]) :=
        mul_ne_zero (neg_ne_zero.mpr (C_ne_zero.mpr hc)) (pow_ne_zero _ X_ne_zero)
      have h1 := degree_le_of_dvd (Dvd.intro_left _ hdiv) hne
      refine h1.trans ?_
      rw [← C_neg]
      exact degree_C_mul_X_pow_le _ _
    exact hSm (coeff_eq_zero_of_degree_lt (lt_of_le_of_lt hSdeg (by exact_mod_cast (by omega : e < m))))

end Pbc.Ternary
