import Verif.Model.PolyFactor
import Verif.Props.Polymod
import Verif.Props.Generic
import Mathlib.FieldTheory.Finite.Extension

/-!
# Square roots in `K[x]/(f)`, irreducibility test, root finding: C77, C78, C79
-/

set_option autoImplicit false
set_option linter.unusedSectionVars false

namespace Props

open Pbc Pbc.PolyFactor Polynomial Spec
open Pbc.Poly (strip resize mulV toPoly_cons toPoly_nil toPoly_coeff)
open Pbc.Quad (inv?)
open Pbc.Polymod (Arr el Modulus)

section sqrt

variable {L : Type*} [Field L] [DecidableEq L]

theorem mulV_length (f g : List L) (hf : f.length ≤ 2) (hg : g.length ≤ 2) :
    (mulV f g).length ≤ 3 := by
  obtain ⟨h1, h2⟩ := Poly.mulV_spec f g
  by_cases h0 : mulV f g = []
  · rw [h0]; simp
  · have := Poly.natDegree_eq h2 h0
    rw [h1] at this
    have hm := natDegree_mul_le (p := toPoly f) (q := toPoly g)
    have := Poly.natDegree_le f
    have := Poly.natDegree_le g
    omega

theorem eval_short (l : List L) (hl : l.length ≤ 2) (b : L) :
    eval b (toPoly l) = l.getD 0 0 + l.getD 1 0 * b := by
  match l, hl with
  | [], _ => simp [toPoly_nil]
  | [x], _ => simp [toPoly_cons, toPoly_nil]
  | [x, y], _ =>
    simp only [toPoly_cons, toPoly_nil, eval_add, eval_mul, eval_C, eval_X, eval_zero,
      List.getD_cons_zero, List.getD_cons_succ]
    ring

theorem reduceSq_spec (a : L) (s : List L) (hs : Normal s) (hl : s.length ≤ 3) :
    Normal (reduceSq a s) ∧ (reduceSq a s).length ≤ 2 ∧
      ∀ b, b * b = a → eval b (toPoly (reduceSq a s)) = eval b (toPoly s) := by
  unfold reduceSq
  split
  next hd =>
    rw [Poly.degree] at hd
    match s, hl with
    | [x, y, z], _ =>
      have hr : resize (([x, y, z] : List L).set 0 (([x, y, z] : List L).getD 0 0
          + ([x, y, z] : List L).getD 2 0 * a)) 2 = [x + z * a, y] := rfl
      dsimp only
      rw [hr]
      refine ⟨Poly.strip_normal _, ?_, ?_⟩
      · exact Poly.length_le_of_toPoly_eq (Poly.strip_normal _) (Poly.strip_toPoly [x + z * a, y])
      · intro b hb
        rw [Poly.strip_toPoly]
        simp only [toPoly_cons, toPoly_nil, eval_add, eval_mul, eval_C, eval_X, eval_zero]
        rw [← hb]
        ring
    | [], _ => simp at hd
    | [x], _ => simp at hd
    | [x, y], _ => simp at hd
  next hd =>
    rw [Poly.degree] at hd
    exact ⟨hs, by omega, fun _ _ => rfl⟩

theorem sqrtPow_spec (a x : L) (z k : ℕ) (s : List L) (hs : Normal s) (hl : s.length ≤ 2) :
    Normal (sqrtPow a [x, 1] z k s) ∧ (sqrtPow a [x, 1] z k s).length ≤ 2 ∧
      ∀ b, b * b = a → eval b (toPoly s) = (b + x) ^ (z / 2 ^ k) →
        eval b (toPoly (sqrtPow a [x, 1] z k s)) = (b + x) ^ z := by
  induction k generalizing s with
  | zero => exact ⟨hs, hl, fun b _ h => by simpa [sqrtPow] using h⟩
  | succ i ih =>
    simp only [sqrtPow]
    obtain ⟨h1, h2, h3⟩ := reduceSq_spec a (mulV s s) (Poly.mulV_spec s s).2 (mulV_length s s hl hl)
    have hz : z / 2 ^ i = 2 * (z / 2 ^ (i + 1)) + (z.testBit i).toNat := by
      rw [pow_succ, ← Nat.div_div_eq_div_mul, Nat.toNat_testBit]
      omega
    by_cases hb : z.testBit i = true
    · rw [if_pos hb]
      obtain ⟨h4, h5, h6⟩ := reduceSq_spec a (mulV (reduceSq a (mulV s s)) [x, 1])
        (Poly.mulV_spec _ _).2 (mulV_length _ _ h2 (by simp))
      obtain ⟨h7, h8, h9⟩ := ih _ h4 h5
      refine ⟨h7, h8, fun b hba he => h9 b hba ?_⟩
      rw [h6 b hba, (Poly.mulV_spec _ _).1, eval_mul, h3 b hba, (Poly.mulV_spec _ _).1, eval_mul, he,
        hz, hb]
      simp only [toPoly_cons, toPoly_nil, eval_add, eval_mul, eval_C, eval_X, eval_zero,
        Bool.toNat_true]
      ring
    · rw [if_neg hb]
      obtain ⟨h7, h8, h9⟩ := ih _ h1 h2
      refine ⟨h7, h8, fun b hba he => h9 b hba ?_⟩
      rw [h3 b hba, (Poly.mulV_spec _ _).1, eval_mul, he, hz]
      simp only [Bool.not_eq_true] at hb
      rw [hb]
      simp only [Bool.toNat_false]
      ring

theorem short_zero (s : List L) (hs : Normal s) (hl : s.length ≤ 2) :
    Poly.degree s < 1 ↔ s.getD 1 0 = 0 := by
  rw [Poly.degree, Poly.normal_iff] at *
  constructor
  · intro h
    exact Poly.getD_of_le s (by omega)
  · intro h
    by_contra hh
    have : s.length = 2 := by omega
    rw [this] at hs
    rcases hs with hs | hs
    · omega
    · exact hs h

/-- **C77**: whatever the random source delivers, if the routine returns, it returns a square root. -/
theorem C77_verified (q : ℕ) (a : L) (rnd : List L) (r : L) (h : PolyFactor.sqrt q a rnd = some r) :
    r * r = a := by
  induction rnd with
  | nil => simp [PolyFactor.sqrt] at h
  | cons x rest ih =>
    unfold PolyFactor.sqrt at h
    split at h
    next r' hr =>
      rw [Option.some.injEq] at h
      subst h
      unfold sqrtTry at hr
      dsimp only at hr
      split at hr
      next hx => cases hr; exact hx
      next =>
        split at hr
        next => cases hr
        next =>
          split at hr
          next => cases hr
          next =>
            split at hr
            next hx => cases hr; exact hx
            next => cases hr
    next => exact ih h
    next => cases h

variable [Fintype L]

/-- **C77**: one attempt never fails fatally, and for the square of a nonzero `b` in a field with an
odd number of elements it succeeds exactly if the random value is a root or differs from the roots by
factors of which just one is a square, that is if `x² - b²` is not a square. -/
theorem C77_attempt (hodd : Odd (Fintype.card L)) (b : L) (hb : b ≠ 0) (x : L) :
    (sqrtTry (b * b) ((Fintype.card L - 1) / 2) x = .again
      ∨ ∃ r, sqrtTry (b * b) ((Fintype.card L - 1) / 2) x = .found r)
    ∧ ((∃ r, sqrtTry (b * b) ((Fintype.card L - 1) / 2) x = .found r)
      ↔ x * x = b * b ∨ ¬ IsSquare (x * x - b * b)) := by
  have hchar : ringChar L ≠ 2 := by
    intro hc
    have := FiniteField.even_card_of_char_two hc
    obtain ⟨k, hk⟩ := hodd
    omega
  have h2 : (2 : L) ≠ 0 := Ring.two_ne_zero hchar
  have hz : (Fintype.card L - 1) / 2 = Fintype.card L / 2 := by
    obtain ⟨k, hk⟩ := hodd
    omega
  rw [hz]
  set z := Fintype.card L / 2 with hzdef
  by_cases hx : x * x = b * b
  · have : sqrtTry (b * b) z x = .found x := by simp [sqrtTry, hx]
    rw [this]
    exact ⟨Or.inr ⟨x, rfl⟩, ⟨fun _ => Or.inl hx, fun _ => ⟨x, rfl⟩⟩⟩
  · have hxb : b + x ≠ 0 := by
      intro h
      apply hx
      linear_combination (x - b) * h
    have hxb' : -b + x ≠ 0 := by
      intro h
      apply hx
      linear_combination (x + b) * h
    have hsq0 : x * x - b * b ≠ 0 := sub_ne_zero.mpr hx
    obtain ⟨h1, h3, h4⟩ := sqrtPow_spec (b * b) x z (Gen.bits z) [1]
      (by rw [Poly.normal_iff]; simp) (by simp)
    have hlt : z < 2 ^ Gen.bits z := by
      unfold Gen.bits
      split
      · omega
      · exact Nat.lt_size_self z
    have e1 := h4 b rfl (by rw [Nat.div_eq_of_lt hlt]; simp [toPoly_cons, toPoly_nil])
    have e2 := h4 (-b) (by ring) (by rw [Nat.div_eq_of_lt hlt]; simp [toPoly_cons, toPoly_nil])
    rw [eval_short _ h3] at e1 e2
    have d1 := FiniteField.pow_dichotomy hchar hxb
    have d2 := FiniteField.pow_dichotomy hchar hxb'
    rw [← hzdef] at d1 d2
    have hprod : (x * x - b * b) ^ z = (b + x) ^ z * (-b + x) ^ z := by
      rw [← mul_pow]
      congr 1
      ring
    rw [FiniteField.isSquare_iff hchar hsq0, ← hzdef, hprod]
    simp only [sqrtTry, if_neg hx, short_zero _ h1 h3]
    set s := sqrtPow (b * b) [x, 1] z (Gen.bits z) [1]
    set A := s.getD 0 0
    set B := s.getD 1 0
    have hne : (1 : L) ≠ -1 := fun h => h2 (by linear_combination h)
    by_cases hB : B = 0
    · rw [if_pos hB]
      refine ⟨Or.inl rfl, ?_⟩
      rw [hB] at e1 e2
      constructor
      · rintro ⟨r, hr⟩
        cases hr
      · rintro (h | h)
        · exact absurd h hx
        · exfalso
          apply h
          rw [← e1, ← e2]
          rcases d1 with d1 | d1 <;> rw [d1] at e1
          · linear_combination (A + 1) * e1
          · linear_combination (A - 1) * e1
    · rw [if_neg hB]
      have hinv : inv? B = some B⁻¹ := by rw [inv?, if_neg hB]
      rw [hinv]
      dsimp only
      have hBb : B * b ≠ 0 := mul_ne_zero hB hb
      have key : (b + x) ^ z * (-b + x) ^ z = -1 ∧ A = 0 ∧ (B * b) ^ 2 = 1 := by
        rcases d1 with d1 | d1 <;> rcases d2 with d2 | d2 <;> rw [d1] at e1 <;> rw [d2] at e2
        · exfalso
          exact hBb ((mul_eq_zero.mp (by linear_combination e1 - e2 : 2 * (B * b) = 0)).resolve_left h2)
        · have hA : A = 0 := (mul_eq_zero.mp (by linear_combination e1 + e2 : 2 * A = 0)).resolve_left h2
          refine ⟨by rw [d1, d2]; ring, hA, ?_⟩
          rw [hA] at e1
          linear_combination (B * b + 1) * e1
        · have hA : A = 0 := (mul_eq_zero.mp (by linear_combination e1 + e2 : 2 * A = 0)).resolve_left h2
          refine ⟨by rw [d1, d2]; ring, hA, ?_⟩
          rw [hA] at e1
          linear_combination (B * b - 1) * e1
        · exfalso
          exact hBb ((mul_eq_zero.mp (by linear_combination e1 - e2 : 2 * (B * b) = 0)).resolve_left h2)
      obtain ⟨k1, k2, k3⟩ := key
      have hfound : B⁻¹ * (A + 1) * (B⁻¹ * (A + 1)) = b * b := by
        rw [k2]
        field_simp
        linear_combination -k3
      rw [if_pos hfound]
      refine ⟨Or.inr ⟨_, rfl⟩, ⟨fun _ => Or.inr ?_, fun _ => ⟨_, rfl⟩⟩⟩
      rw [k1]
      exact fun h => hne h.symm

/-- **C77**: for the square of a nonzero element the routine returns as soon as the random source
delivers a value as in `C77_attempt`. -/
theorem C77_returns (hodd : Odd (Fintype.card L)) (b : L) (hb : b ≠ 0) (rnd : List L)
    (h : ∃ x ∈ rnd, x * x = b * b ∨ ¬ IsSquare (x * x - b * b)) :
    ∃ r, PolyFactor.sqrt (Fintype.card L) (b * b) rnd = some r ∧ (r = b ∨ r = -b) := by
  have : ∃ r, PolyFactor.sqrt (Fintype.card L) (b * b) rnd = some r := by
    induction rnd with
    | nil => simp at h
    | cons x rest ih =>
      obtain ⟨h1, h2⟩ := C77_attempt hodd b hb x
      unfold PolyFactor.sqrt
      rcases h1 with h1 | ⟨r, h1⟩
      · rw [h1]
        dsimp only
        apply ih
        obtain ⟨y, hy, hyy⟩ := h
        rcases List.mem_cons.mp hy with rfl | hy
        · have := h2.mpr hyy
          rw [h1] at this
          obtain ⟨_, hr⟩ := this
          cases hr
        · exact ⟨y, hy, hyy⟩
      · rw [h1]
        exact ⟨r, rfl⟩
  obtain ⟨r, hr⟩ := this
  refine ⟨r, hr, ?_⟩
  have := C77_verified _ _ _ _ hr
  exact mul_self_eq_mul_self_iff.mp this

/-- **C77**: for a non-square the routine never returns. -/
theorem C77_nonsquare (q : ℕ) (a : L) (ha : ¬ IsSquare a) (rnd : List L) :
    PolyFactor.sqrt q a rnd = none := by
  rw [Option.eq_none_iff_forall_ne_some]
  intro r hr
  exact ha ⟨r, (C77_verified q a rnd r hr).symm⟩

instance prime13 : Fact (Nat.Prime 13) := ⟨by norm_num⟩

/-- the attempt with `x = 1` fails, the one with `x = 5` succeeds: `1 - 4` is a square modulo 13,
`25 - 4` is not. -/
example : PolyFactor.sqrt 13 (4 : ZMod 13) [1, 5] = some 11 := by decide +kernel

example : ∃ x ∈ [(1 : ZMod 13), 5], x * x = 2 * 2 ∨ ¬ IsSquare (x * x - 2 * 2) := by
  refine ⟨5, by simp, Or.inr ?_⟩
  decide +kernel

end sqrt

section factor

variable {K : Type*} [Field K] [DecidableEq K] {n : ℕ} {f : List K}

theorem el_xArr (hn : 2 ≤ n) : el (toPoly f) n (xArr n f).c = AdjoinRoot.root (toPoly f) := by
  obtain ⟨k, rfl⟩ : ∃ k, n = k + 2 := ⟨n - 2, by omega⟩
  simp only [el, Polymod.val, xArr]
  rw [Finset.sum_eq_single 1]
  · simp
  · intro i _ hi
    simp [hi]
  · intro h
    exact absurd (Finset.mem_range.mpr (by omega)) h

theorem el_subArr (a b : Arr n f) :
    el (toPoly f) n (subArr a b) = el (toPoly f) n a.c - el (toPoly f) n b.c :=
  (Polymod.sub_writes _ _ n 0 (fun e => if e = 0 then a.c else b.c) 0 0 1).1

/-- the residue `x^z - x` is computed. -/
theorem powX (h : Modulus n f) (hn : 2 ≤ n) (z : ℕ) : ∃ r, Gen.powMpz (xArr n f) z = some r
    ∧ (Polymod.is0 n (subArr r (xArr n f)) = true ↔ toPoly f ∣ X ^ z - X)
    ∧ ∀ c, c ∣ toPoly f →
      (c ∣ toPoly (Polymod.toPolyList n (subArr r (xArr n f))) ↔ c ∣ X ^ z - X) := by
  obtain ⟨r, h1, h2⟩ := Gen.powMpz_rel (powRel_arr h) (a := xArr n f)
    (b := AdjoinRoot.root (toPoly f)) (el_xArr hn) z
  have h3 : el (toPoly f) n (subArr r (xArr n f)) = AdjoinRoot.mk (toPoly f) (X ^ z - X) := by
    rw [el_subArr, h2, el_xArr hn, map_sub, map_pow, AdjoinRoot.mk_X]
  refine ⟨r, h1, ?_, ?_⟩
  · rw [(C31_tests h (subArr r (xArr n f)) (subArr r (xArr n f))).1, h3, AdjoinRoot.mk_eq_zero]
  · intro c hc
    rw [Polymod.el_eq_mk, ← Polymod.toPolyList_toPoly, AdjoinRoot.mk_eq_mk] at h3
    have := hc.trans h3
    constructor
    · intro h
      have := dvd_sub h this
      rwa [sub_sub_cancel] at this
    · intro h
      have := dvd_add this h
      rwa [sub_add_cancel] at this

theorem degree_zero_iff {g : List K} (hg : Normal g) (hg0 : g ≠ []) :
    Poly.degree g = 0 ↔ IsUnit (toPoly g) := by
  have h1 := Poly.natDegree_eq hg hg0
  have h2 : toPoly g ≠ 0 := fun h => hg0 ((Poly.toPoly_eq_zero hg).mp h)
  rw [Polynomial.isUnit_iff_degree_eq_zero, Poly.degree, Polynomial.degree_eq_natDegree h2]
  rw [← h1]
  push_cast
  rw [add_sub_cancel_right, Nat.cast_eq_zero]
  norm_cast

theorem checkgcd_spec (q : ℕ) (h : Modulus n f) (hn : 2 ≤ n) (d : ℕ) :
    ∃ b, checkgcd q n f d = some b
      ∧ (b = false ↔ IsCoprime (toPoly f) (X ^ q ^ (n / d) - X)) := by
  obtain ⟨r, h1, h2, h3⟩ := powX h hn (q ^ (n / d))
  simp only [checkgcd, h1]
  split
  next hz =>
    refine ⟨true, rfl, ?_⟩
    simp only [Bool.true_eq_false, false_iff]
    intro hco
    have := hco.isUnit_of_dvd' dvd_rfl (h2.mp hz)
    rw [Polynomial.isUnit_iff_degree_eq_zero, h.degree] at this
    norm_cast at this
    omega
  next hz =>
    have hne : toPoly (Polymod.toPolyList n (subArr r (xArr n f))) ≠ 0 := by
      intro h0
      apply hz
      rw [h2]
      have := (h3 (toPoly f) dvd_rfl).mp (by rw [h0]; exact dvd_zero _)
      exact this
    obtain ⟨g, g1, g2, g3, g4, g5⟩ := C30_gcd_partial f _ h.normal (Poly.strip_normal _) hne
    change Poly.gcd f (Polymod.toPolyList n (subArr r (xArr n f))) = some g at g1
    rw [g1]
    refine ⟨_, rfl, ?_⟩
    have hg0 : g ≠ [] := by
      rintro rfl
      rw [toPoly_nil, zero_dvd_iff] at g3
      exact h.monic.ne_zero g3
    simp only [ne_eq, decide_not, Bool.not_eq_eq_eq_not, Bool.not_false, decide_eq_true_eq]
    rw [degree_zero_iff g2 hg0]
    constructor
    · intro hu
      rw [← isRelPrime_iff_isCoprime]
      intro c c1 c2
      exact isUnit_of_dvd_unit (g5 c c1 ((h3 c c1).mpr c2)) hu
    · intro hco
      exact hco.isUnit_of_dvd' g3 ((h3 (toPoly g) g3).mp g4)

/-- **Rabin's criterion**. -/
theorem rabin [Fintype K] (p : K[X]) (hp : 0 < p.natDegree) :
    Irreducible p ↔ (∀ r, r.Prime → r ∣ p.natDegree →
        IsCoprime p (X ^ Fintype.card K ^ (p.natDegree / r) - X))
      ∧ p ∣ X ^ Fintype.card K ^ p.natDegree - X := by
  have hq : Nat.card K = Fintype.card K := Nat.card_eq_fintype_card
  constructor
  · intro hi
    refine ⟨?_, ?_⟩
    · intro r hr hrd
      rw [hi.coprime_iff_not_dvd, ← hq, ← hi.natDegree_dvd_iff_dvd_X_pow_card_pow_sub_X]
      intro hd
      have h1 := Nat.le_of_dvd (Nat.div_pos (Nat.le_of_dvd hp hrd) hr.pos) hd
      have h2 := Nat.div_lt_self hp hr.one_lt
      omega
    · rw [← hq, ← hi.natDegree_dvd_iff_dvd_X_pow_card_pow_sub_X]
  · rintro ⟨h1, h2⟩
    have hnu : ¬ IsUnit p := not_isUnit_of_natDegree_pos p hp
    have hp0 : p ≠ 0 := by rintro rfl; simp at hp
    obtain ⟨g, hg, hgp⟩ := WfDvdMonoid.exists_irreducible_factor hnu hp0
    have hgd : g.natDegree ∣ p.natDegree := by
      rw [hg.natDegree_dvd_iff_dvd_X_pow_card_pow_sub_X, hq]
      exact hgp.trans h2
    have hge : g.natDegree = p.natDegree := by
      by_contra hne
      have hpos := hg.natDegree_pos
      obtain ⟨k, hk⟩ := hgd
      have hk1 : k ≠ 1 := by rintro rfl; omega
      obtain ⟨r, hr, hrk⟩ := Nat.exists_prime_and_dvd hk1
      obtain ⟨j, rfl⟩ := hrk
      have hrd : r ∣ p.natDegree := ⟨g.natDegree * j, by rw [hk]; ring⟩
      have hdiv : p.natDegree / r = g.natDegree * j := by
        rw [hk, show g.natDegree * (r * j) = r * (g.natDegree * j) by ring,
          Nat.mul_div_cancel_left _ hr.pos]
      have hx : g ∣ X ^ Fintype.card K ^ (p.natDegree / r) - X := by
        rw [← hq, ← hg.natDegree_dvd_iff_dvd_X_pow_card_pow_sub_X, hdiv]
        exact Dvd.intro _ rfl
      exact hg.not_isUnit ((h1 r hr hrd).isUnit_of_dvd' hgp hx)
    have : Associated g p := by
      obtain ⟨c, hc⟩ := hgp
      have hc0 : c ≠ 0 := by rintro rfl; rw [mul_zero] at hc; exact hp0 hc
      have : c.natDegree = 0 := by
        have := natDegree_mul hg.ne_zero hc0
        rw [← hc] at this
        omega
      rw [hc]
      refine associated_mul_unit_right g c ?_
      rw [Polynomial.isUnit_iff_degree_eq_zero, degree_eq_natDegree hc0, this]
      rfl
    exact this.irreducible hg

theorem feed_check (q : ℕ) (h : Modulus n f) (hn : 2 ≤ n) (fs : List (ℕ × ℕ)) :
    ∃ r, feedFactors (checkCallback q n f) fs false = (false, r)
      ∧ (r = 0 ↔ ∀ d ∈ fs.map Prod.fst, IsCoprime (toPoly f) (X ^ q ^ (n / d) - X)) := by
  induction fs with
  | nil => exact ⟨0, rfl, by simp⟩
  | cons x xs ih =>
    obtain ⟨b, hb1, hb2⟩ := checkgcd_spec q h hn x.1
    have hcb : checkCallback q n f false x.1 x.2 = (false, b) := by
      simp only [checkCallback, hb1]
    simp only [feedFactors, hcb]
    cases b with
    | true =>
      refine ⟨1, rfl, ?_⟩
      simp only [one_ne_zero, List.map_cons, List.mem_cons, forall_eq_or_imp, false_iff, not_and]
      intro hc
      exact absurd (hb2.mpr hc) (by simp)
    | false =>
      obtain ⟨r, h1, h2⟩ := ih
      refine ⟨r, h1, ?_⟩
      rw [h2]
      simp only [List.map_cons, List.mem_cons, forall_eq_or_imp]
      exact ⟨fun hh => ⟨hb2.mp rfl, hh⟩, fun hh => hh.2⟩

/-- **C78**: over every finite field the test always ends, and answers 1 exactly for the irreducible
polynomials among the monic ones and those of degree at most 1. -/
theorem C78_irreducible [Fintype K] (f : List K) (hf : Normal f)
    (hm : 2 < f.length → f.getD (f.length - 1) 0 = 1) :
    ∃ b, isIrred (Fintype.card K) f = some b ∧ (b = true ↔ Irreducible (toPoly f)) := by
  unfold isIrred
  by_cases h0 : f = []
  · subst h0
    refine ⟨false, by simp [Poly.degree], ?_⟩
    simp [toPoly_nil]
  have hdeg := Poly.natDegree_eq hf h0
  have hlen : 0 < f.length := List.length_pos_iff.mpr h0
  have hp0 : toPoly f ≠ 0 := fun h => h0 ((Poly.toPoly_eq_zero hf).mp h)
  split
  next h1 =>
    refine ⟨false, rfl, ?_⟩
    simp only [Bool.false_eq_true, false_iff]
    intro hi
    have := hi.natDegree_pos
    rw [Poly.degree] at h1
    omega
  next h1 =>
    rw [Poly.degree] at h1
    split
    next h2 =>
      refine ⟨true, rfl, ?_⟩
      simp only [true_iff]
      apply Polynomial.irreducible_of_degree_eq_one
      rw [Poly.degree] at h2
      rw [degree_eq_natDegree hp0]
      have : (toPoly f).natDegree = 1 := by omega
      rw [this]
      rfl
    next h2 =>
      rw [Poly.degree] at h2
      have hmod : Modulus (f.length - 1) f := ⟨by omega, by omega, hm (by omega)⟩
      have hn : 2 ≤ f.length - 1 := by omega
      obtain ⟨fs, hF, hrun⟩ := C16_trial_divide (checkCallback (Fintype.card K) (f.length - 1) f) none
        (f.length - 1) (by omega) (2 * (f.length - 1) + 3) le_rfl
      obtain ⟨r, hr1, hr2⟩ := feed_check (Fintype.card K) hmod hn fs
      have hnd : (toPoly f).natDegree = f.length - 1 := by omega
      have hrab := rabin (toPoly f) (by omega)
      rw [hnd] at hrab
      have hall : r = 0 ↔ ∀ d, d.Prime → d ∣ f.length - 1 →
          IsCoprime (toPoly f) (X ^ Fintype.card K ^ ((f.length - 1) / d) - X) := by
        rw [hr2]
        simp only [C16_complete hF]
        exact ⟨fun h d h1 h2 => h d ⟨h1, h2⟩, fun h d hd => h d hd.1 hd.2⟩
      dsimp only
      rw [hrun false, hr1]
      dsimp only
      split
      next hr0 =>
        obtain ⟨x, x1, x2, -⟩ := powX hmod hn (Fintype.card K ^ (f.length - 1))
        rw [x1]
        refine ⟨_, rfl, ?_⟩
        rw [x2, hrab]
        exact ⟨fun h => ⟨hall.mp hr0, h⟩, fun h => h.2⟩
      next hr0 =>
        refine ⟨false, rfl, ?_⟩
        simp only [Bool.false_eq_true, false_iff]
        intro hi
        exact hr0 (hall.mpr (hrab.mp hi).1)

example : ∃ b, isIrred 7 ([5, 0, 0, 1] : List (ZMod 7)) = some b ∧ b = true := by
  obtain ⟨b, h1, h2⟩ := C78_irreducible ([5, 0, 0, 1] : List (ZMod 7)) (by unfold Spec.Normal; decide)
    (fun _ => rfl)
  rw [ZMod.card] at h1
  exact ⟨b, h1, h2.mpr irreducible7⟩

/-- **C78**, outside the monic polynomials: `3x² + 1` over the integers modulo 7 is reported
irreducible though 3 is a root, because residues are reduced as if the modulus were monic. -/
theorem C78_nonmonic_fails : isIrred 7 ([1, 0, 3] : List (ZMod 7)) = some true
    ∧ eval 3 (toPoly ([1, 0, 3] : List (ZMod 7))) = 0 := by
  constructor
  · obtain ⟨fs, hF, hrun⟩ := C16_trial_divide (checkCallback 7 2 ([1, 0, 3] : List (ZMod 7))) none
      2 (by omega) 7 le_rfl
    have hall : ∀ x ∈ fs, x.1 = 2 := by
      intro x hx
      have := (C16_complete hF x.1).mp (List.mem_map.mpr ⟨x, hx, rfl⟩)
      exact (Nat.prime_dvd_prime_iff_eq this.1 Nat.prime_two).mp this.2
    have hcheck : checkgcd 7 2 ([1, 0, 3] : List (ZMod 7)) 2 = some false := by decide +kernel
    have hfeed : feedFactors (checkCallback 7 2 ([1, 0, 3] : List (ZMod 7))) fs false = (false, 0) := by
      clear hF hrun
      induction fs with
      | nil => rfl
      | cons x xs ih =>
        have hcb : checkCallback 7 2 ([1, 0, 3] : List (ZMod 7)) false x.1 x.2 = (false, false) := by
          simp only [checkCallback, hall x List.mem_cons_self, hcheck]
        simp only [feedFactors, hcb]
        exact ih fun y hy => hall y (List.mem_cons_of_mem _ hy)
    have hlast : (Gen.powMpz (xArr 2 ([1, 0, 3] : List (ZMod 7))) (7 ^ 2)).map
        (fun x => Polymod.is0 2 (subArr x (xArr 2 [1, 0, 3]))) = some true := by decide +kernel
    unfold isIrred
    rw [if_neg (by simp [Poly.degree]), if_neg (by simp [Poly.degree])]
    simp only [List.length_cons, List.length_nil, Nat.add_one_sub_one, Nat.zero_add, Nat.reduceAdd,
      Nat.reduceMul, hrun false, hfeed, if_true]
    obtain ⟨x, hx1, hx2⟩ := Option.map_eq_some_iff.mp hlast
    rw [hx1]
    exact congrArg some hx2
  · simp only [toPoly_cons, toPoly_nil, eval_add, eval_mul, eval_C, eval_X, eval_zero]
    decide

theorem monic_spec (g : List K) (hg : Normal g) (hg0 : g ≠ []) :
    ∃ g', monic g = some g' ∧ Normal g' ∧ (toPoly g').Monic ∧ Associated (toPoly g) (toPoly g')
      ∧ g'.length = g.length := by
  obtain ⟨m', h1, h2, h3, -⟩ := Poly.makeMonic_spec (fun _ => g) 0 1 hg
  have hp0 : toPoly g ≠ 0 := fun h => hg0 ((Poly.toPoly_eq_zero hg).mp h)
  have hlc : (toPoly g).leadingCoeff ≠ 0 := leadingCoeff_ne_zero.mpr hp0
  have hmon : (toPoly (m' 0)).Monic := by
    rw [h3, Monic, leadingCoeff_mul, leadingCoeff_C, inv_mul_cancel₀ hlc]
  have hne : m' 0 ≠ [] := by
    intro h
    rw [h, toPoly_nil] at hmon
    exact hmon.ne_zero rfl
  refine ⟨m' 0, by simp only [monic, h1, Option.map_some], h2, hmon, ?_, ?_⟩
  · rw [h3, mul_comm]
    exact associated_mul_unit_right _ _ (isUnit_C.mpr (IsUnit.mk0 _ (inv_ne_zero hlc)))
  · rw [← Poly.natDegree_eq h2 hne, ← Poly.natDegree_eq hg hg0, h3]
    rw [natDegree_C_mul (inv_ne_zero hlc)]

/-- The polynomials the loop works with. -/
structure RootPoly (q : ℕ) (g : List K) : Prop where
  normal : Normal g
  monic : (toPoly g).Monic
  split : toPoly g ∣ X ^ q - X

theorem RootPoly.ne_nil {q : ℕ} {g : List K} (h : RootPoly q g) : g ≠ [] := by
  rintro rfl
  exact h.monic.ne_zero toPoly_nil

theorem RootPoly.length {q : ℕ} {g : List K} (h : RootPoly q g) :
    (toPoly g).natDegree + 1 = g.length := Poly.natDegree_eq h.normal h.ne_nil

theorem RootPoly.modulus {q : ℕ} {g : List K} (h : RootPoly q g) (hd : 2 ≤ g.length) :
    Modulus (g.length - 1) g := by
  refine ⟨by omega, by omega, ?_⟩
  have := h.monic
  rw [Monic, leadingCoeff, toPoly_coeff] at this
  rw [← this, ← h.length]
  rfl

theorem RootPoly.of_dvd {q : ℕ} {g d : List K} (h : RootPoly q g) (hd : Normal d)
    (hdg : toPoly d ∣ toPoly g) : ∃ g', PolyFactor.monic d = some g' ∧ RootPoly q g'
      ∧ Associated (toPoly d) (toPoly g') ∧ g'.length = d.length := by
  have hd0 : d ≠ [] := by
    rintro rfl
    rw [toPoly_nil, zero_dvd_iff] at hdg
    exact h.monic.ne_zero hdg
  obtain ⟨g', h1, h2, h3, h4, h5⟩ := monic_spec d hd hd0
  exact ⟨g', h1, ⟨h2, h3, h4.dvd'.trans (hdg.trans h.split)⟩, h4, h5⟩

theorem toPoly_linear (a : K) : toPoly [a, 1] = X - C (-a) := by
  simp [toPoly_cons, toPoly_nil]
  ring

theorem normal_linear (a : K) : Normal [a, (1 : K)] := by
  rw [Poly.normal_iff]
  simp

theorem dvd_linear_iff {a : K} {p : K[X]} : toPoly [a, 1] ∣ p ↔ eval (-a) p = 0 := by
  rw [toPoly_linear, dvd_iff_isRoot, IsRoot.def]

/-- The gcd of `X + a` and `g`. -/
theorem gcd_linear {q : ℕ} {g : List K} (h : RootPoly q g) (a : K) :
    ∃ fac, Poly.gcd [a, 1] g = some fac ∧ Normal fac ∧ toPoly fac ∣ toPoly g
      ∧ (eval (-a) (toPoly g) = 0 → Poly.degree fac = 1)
      ∧ (eval (-a) (toPoly g) ≠ 0 → Poly.degree fac = 0) := by
  obtain ⟨fac, h1, h2, h3, h4, h5⟩ := C30_gcd_partial [a, 1] g (normal_linear a) h.normal
    h.monic.ne_zero
  have hfac0 : fac ≠ [] := by
    rintro rfl
    rw [toPoly_nil, zero_dvd_iff] at h4
    exact h.monic.ne_zero h4
  have hlin0 : toPoly [a, 1] ≠ 0 := by rw [toPoly_linear]; exact X_sub_C_ne_zero _
  have hlen := Poly.natDegree_eq h2 hfac0
  have hlen' := Poly.natDegree_eq (normal_linear a) (by simp)
  refine ⟨fac, h1, h2, h4, ?_, ?_⟩
  · intro he
    have hd := h5 _ dvd_rfl (dvd_linear_iff.mpr he)
    have e1 := natDegree_le_of_dvd hd (fun h0 => hfac0 ((Poly.toPoly_eq_zero h2).mp h0))
    have e2 := natDegree_le_of_dvd h3 hlin0
    rw [Poly.degree]
    simp at hlen'
    omega
  · intro he
    rw [degree_zero_iff h2 hfac0]
    have hirr : Irreducible (toPoly [a, 1]) := by
      rw [toPoly_linear]; exact irreducible_X_sub_C _
    rcases (dvd_or_isCoprime _ (toPoly g) hirr) with hd | hc
    · exact absurd (dvd_linear_iff.mp hd) he
    · exact hc.isUnit_of_dvd' h3 h4

/-- The second half of a round, when `X + a` is prime to `g`. -/
theorem round_power {q : ℕ} {g : List K} (h : RootPoly q g) (hl : 3 ≤ g.length) (a : K) :
    ∃ p, Gen.powMpz (⟨Polymod.truncate (g.length - 1) (fun _ _ => 0) 0 [a, 1] 0⟩ :
        Arr (g.length - 1) g) ((q - 1) / 2) = some p
      ∧ ∃ fac, Poly.gcd (Poly.add (fun e => if e = 0 then Polymod.toPolyList (g.length - 1) p.c
          else [1]) 0 0 1 0) g = some fac
      ∧ Normal fac ∧ toPoly fac ∣ toPoly g
      ∧ ∀ b, eval b (toPoly g) = 0 → (eval b (toPoly fac) = 0 ↔ (b + a) ^ ((q - 1) / 2) = -1) := by
  have hmod := h.modulus (by omega)
  set n := g.length - 1 with hn
  have hr : el (toPoly g) n (Polymod.truncate n (fun _ _ => 0) 0 [a, 1] 0)
      = AdjoinRoot.mk (toPoly g) (X + C a) := by
    rw [Polymod.el_eq_mk]
    congr 1
    rw [Poly.toPoly_eq_iff]
    intro i
    by_cases hi : i < n
    · rw [Polymod.map_range_getD n _ hi, Polymod.truncate_apply, if_pos ⟨rfl, hi⟩]
      rcases i with _ | _ | i
      · simp
      · simp [coeff_C]
      · simp [coeff_X, coeff_C]
    · rw [Poly.getD_of_le _ (by simp; omega)]
      obtain ⟨j, rfl⟩ : ∃ j, i = j + 2 := ⟨i - 2, by omega⟩
      simp [coeff_X, coeff_C]
  obtain ⟨p, h1, h2⟩ := Gen.powMpz_rel (powRel_arr hmod)
    (a := ⟨Polymod.truncate n (fun _ _ => 0) 0 [a, 1] 0⟩) hr ((q - 1) / 2)
  refine ⟨p, h1, ?_⟩
  obtain ⟨⟨a1, -⟩, a2⟩ := Poly.add_spec (fun e => if e = 0 then Polymod.toPolyList n p.c else [1]) 0 0 1
  obtain ⟨fac, g1, g2, g3, g4, g5⟩ := C30_gcd_partial _ g a2 h.normal h.monic.ne_zero
  refine ⟨fac, g1, g2, g4, ?_⟩
  intro b hb
  rw [← map_pow, Polymod.el_eq_mk, ← Polymod.toPolyList_toPoly, AdjoinRoot.mk_eq_mk] at h2
  have hev : eval b (toPoly (Polymod.toPolyList n p.c)) = (b + a) ^ ((q - 1) / 2) := by
    obtain ⟨c, hc⟩ := h2
    have := congrArg (eval b) hc
    rw [eval_mul, hb, zero_mul, eval_sub] at this
    rw [sub_eq_zero.mp this]
    simp
  have hev2 : eval b (toPoly (Poly.add (fun e => if e = 0 then Polymod.toPolyList n p.c
      else [1]) 0 0 1 0)) = (b + a) ^ ((q - 1) / 2) + 1 := by
    rw [a1, eval_add]
    simp [hev, toPoly_cons, toPoly_nil]
  rw [eq_neg_iff_add_eq_zero, ← hev2]
  constructor
  · intro hf
    have := dvd_iff_isRoot.mpr hf
    exact dvd_iff_isRoot.mp (this.trans g3)
  · intro hf
    exact dvd_iff_isRoot.mp (g5 _ (dvd_iff_isRoot.mpr hf) (dvd_iff_isRoot.mpr hb))

/-- One round keeps the invariant. -/
theorem rootRound_spec {q : ℕ} {g : List K} (h : RootPoly q g) (hl : 3 ≤ g.length) (a : K) :
    ∃ g', rootRound q g a = some g' ∧ RootPoly q g' ∧ toPoly g' ∣ toPoly g ∧ 2 ≤ g'.length := by
  obtain ⟨fac, f1, f2, f3, -, -⟩ := gcd_linear h a
  simp only [rootRound, f1]
  split
  next hd =>
    obtain ⟨g', e1, e2, e3, e4⟩ := h.of_dvd f2 f3
    rw [Poly.degree] at hd
    exact ⟨g', e1, e2, e3.dvd'.trans f3, by omega⟩
  next hd =>
    obtain ⟨p, p1, fac, p2, p3, p4, -⟩ := round_power h hl a
    rw [p1]
    dsimp only
    rw [p2]
    dsimp only
    split
    next hd2 =>
      obtain ⟨g', e1, e2, e3, e4⟩ := h.of_dvd p3 p4
      rw [Poly.degree, Poly.degree] at hd2
      exact ⟨g', e1, e2, e3.dvd'.trans p4, by omega⟩
    next hd2 => exact ⟨g, rfl, h, dvd_rfl, by omega⟩

theorem rootLoop_spec {q : ℕ} (rnd : List K) {g : List K} (h : RootPoly q g) (hl : 2 ≤ g.length)
    (r : K) (hr : rootLoop q rnd g = some r) : eval r (toPoly g) = 0 := by
  have base : ∀ g : List K, RootPoly q g → Poly.degree g = 1 → eval (- g.getD 0 0) (toPoly g) = 0 := by
    intro g h hd
    rw [Poly.degree] at hd
    have hm := (h.modulus (by omega)).top
    match g, hd, hm with
    | [x, y], _, hm =>
      simp at hm
      rw [← dvd_linear_iff, hm]
      simp
    | [], hd, _ => simp at hd
    | [x], hd, _ => simp at hd
    | x :: y :: z :: l, hd, _ => simp at hd; omega
  induction rnd generalizing g with
  | nil =>
    unfold rootLoop at hr
    split at hr
    next hd =>
      rw [Option.some.injEq] at hr
      rw [← hr]
      exact base g h hd
    next => cases hr
  | cons a rest ih =>
    unfold rootLoop at hr
    split at hr
    next hd =>
      rw [Option.some.injEq] at hr
      rw [← hr]
      exact base g h hd
    next hd =>
      rw [Poly.degree] at hd
      obtain ⟨g', e1, e2, e3, e4⟩ := rootRound_spec h (by omega) a
      rw [e1] at hr
      exact dvd_iff_isRoot.mp ((dvd_iff_isRoot.mpr (ih e2 e4 hr)).trans e3)

theorem rootGcd_spec (q : ℕ) (h : Modulus n f) (hn : 2 ≤ n) :
    ∃ g, rootGcd q f = some g ∧ RootPoly q g ∧ toPoly g ∣ toPoly f
      ∧ ∀ r, eval r (toPoly f) = 0 → eval r (X ^ q - X : K[X]) = 0 → eval r (toPoly g) = 0 := by
  have hlen : f.length - 1 = n := by rw [h.len]; omega
  subst hlen
  obtain ⟨p, p1, p2, p3⟩ := powX h hn q
  obtain ⟨g0, g1, g2, g3, g4, g5⟩ := C30_gcd_partial
    (Polymod.toPolyList _ (subArr p (xArr _ f))) f (Poly.strip_normal _) h.normal h.monic.ne_zero
  have hg0 : g0 ≠ [] := by
    rintro rfl
    rw [toPoly_nil, zero_dvd_iff] at g4
    exact h.monic.ne_zero g4
  obtain ⟨g, e1, e2, e3, e4, e5⟩ := monic_spec g0 g2 hg0
  refine ⟨g, ?_, ⟨e2, e3, e4.dvd'.trans ((p3 _ g4).mp g3)⟩, e4.dvd'.trans g4, ?_⟩
  · unfold rootGcd
    dsimp only
    rw [if_neg (by omega), p1]
    dsimp only
    rw [g1]
    exact e1
  · intro r r1 r2
    have d1 := dvd_iff_isRoot.mpr r1
    have d2 := dvd_iff_isRoot.mpr r2
    exact dvd_iff_isRoot.mp ((g5 _ ((p3 _ d1).mpr d2) d1).trans e4.dvd)

/-- A divisor of `x^q - x` of positive degree has a root. -/
theorem RootPoly.has_root [Fintype K] {g : List K} (h : RootPoly (Fintype.card K) g)
    (hl : 2 ≤ g.length) : ∃ r, eval r (toPoly g) = 0 := by
  have hs : Splits (toPoly g) := by
    refine Splits.of_dvd ?_ (FiniteField.X_pow_card_sub_X_ne_zero K Fintype.one_lt_card) h.split
    have := (FiniteField.isSplittingField_sub K K).splits
    simpa using this
  have hlen := h.length
  obtain ⟨r, hr⟩ := hs.exists_eval_eq_zero (by
    rw [degree_eq_natDegree h.monic.ne_zero]
    intro h0
    have : (toPoly g).natDegree = 0 := by exact_mod_cast h0
    omega)
  exact ⟨r, hr⟩

/-- **C79** (partial: degree 1 is excluded, see `C79_linear_fails`): over every finite field and for
every monic polynomial of degree at least 2: "no roots" is reported exactly if there is none, and
whatever the random source delivers, the value returned otherwise is a root. -/
theorem C79_find_root_partial [Fintype K] (h : Modulus n f) (hn : 2 ≤ n) (rnd : List K) :
    (∀ r, findRoot (Fintype.card K) f rnd = some (.root r) → eval r (toPoly f) = 0)
    ∧ (findRoot (Fintype.card K) f rnd = some .noRoot ↔ ∀ r, eval r (toPoly f) ≠ 0) := by
  obtain ⟨g, g1, g2, g3, g4⟩ := rootGcd_spec (Fintype.card K) h hn
  have hlen := g2.length
  simp only [findRoot, g1]
  constructor
  · intro r hr
    split at hr
    next => cases hr
    next hd =>
      rw [Poly.degree] at hd
      obtain ⟨r', h1, h2⟩ := Option.map_eq_some_iff.mp hr
      cases h2
      exact dvd_iff_isRoot.mp ((dvd_iff_isRoot.mpr (rootLoop_spec rnd g2 (by omega) r h1)).trans g3)
  · split
    next hd =>
      simp only [true_iff]
      intro r hr
      have := g4 r hr (by simp [FiniteField.pow_card])
      rw [degree_zero_iff g2.normal g2.ne_nil] at hd
      have := dvd_iff_isRoot.mpr this
      exact (irreducible_X_sub_C r).not_isUnit (isUnit_of_dvd_unit this hd)
    next hd =>
      constructor
      · intro hr
        obtain ⟨r', -, h2⟩ := Option.map_eq_some_iff.mp hr
        cases h2
      · intro hall
        exfalso
        rw [Poly.degree] at hd
        obtain ⟨r, hr⟩ := g2.has_root (by omega)
        exact hall r (dvd_iff_isRoot.mp ((dvd_iff_isRoot.mpr hr).trans g3))

/-- **C79**, progress: whenever two roots of the current polynomial are told apart by the random
value `a`, in that just one of `b₁ + a`, `b₂ + a` has the quadratic character -1, the degree drops;
and the negative of any root ends the search. -/
theorem C79_progress [Fintype K] (hodd : Odd (Fintype.card K)) {g : List K}
    (h : RootPoly (Fintype.card K) g) (hl : 3 ≤ g.length) (a : K) :
    (∀ b₁ b₂, eval b₁ (toPoly g) = 0 → eval b₂ (toPoly g) = 0 →
      (b₁ + a) ^ ((Fintype.card K - 1) / 2) = -1 → (b₂ + a) ^ ((Fintype.card K - 1) / 2) ≠ -1 →
      ∃ g', rootRound (Fintype.card K) g a = some g' ∧ g'.length < g.length)
    ∧ (eval (-a) (toPoly g) = 0 → ∃ g', rootRound (Fintype.card K) g a = some g'
      ∧ Poly.degree g' = 1) := by
  obtain ⟨fac, f1, f2, f3, f4, f5⟩ := gcd_linear h a
  constructor
  · intro b₁ b₂ hb1 hb2 hc1 hc2
    simp only [rootRound, f1]
    split
    next hd =>
      obtain ⟨g', e1, e2, e3, e4⟩ := h.of_dvd f2 f3
      refine ⟨g', e1, ?_⟩
      by_cases he : eval (-a) (toPoly g) = 0
      · have := f4 he
        rw [Poly.degree] at this
        omega
      · have := f5 he
        omega
    next hd =>
      obtain ⟨p, p1, fac, p2, p3, p4, p5⟩ := round_power h hl a
      rw [p1]
      dsimp only
      rw [p2]
      dsimp only
      have hfac0 : fac ≠ [] := by
        rintro rfl
        rw [toPoly_nil, zero_dvd_iff] at p4
        exact h.monic.ne_zero p4
      have k1 := (p5 b₁ hb1).mpr hc1
      have k2 : eval b₂ (toPoly fac) ≠ 0 := fun hh => hc2 ((p5 b₂ hb2).mp hh)
      have hfl := Poly.natDegree_eq p3 hfac0
      have hgl := h.length
      have hpos : 0 < (toPoly fac).natDegree := by
        have hne : toPoly fac ≠ 0 := fun h0 => hfac0 ((Poly.toPoly_eq_zero p3).mp h0)
        have := natDegree_le_of_dvd (dvd_iff_isRoot.mpr k1) hne
        rw [natDegree_X_sub_C] at this
        omega
      have hlt : (toPoly fac).natDegree < (toPoly g).natDegree := by
        rcases (natDegree_le_of_dvd p4 h.monic.ne_zero).lt_or_eq with hlt | heq
        · exact hlt
        · exfalso
          obtain ⟨c, hc⟩ := p4
          have hc0 : c ≠ 0 := by
            rintro rfl
            rw [mul_zero] at hc
            exact h.monic.ne_zero hc
          have hne : toPoly fac ≠ 0 := fun h0 => hfac0 ((Poly.toPoly_eq_zero p3).mp h0)
          have hdm := natDegree_mul hne hc0
          rw [← hc] at hdm
          obtain ⟨u, hu⟩ := natDegree_eq_zero.mp (by omega : c.natDegree = 0)
          have hb := congrArg (eval b₂) hc
          rw [hb2, eval_mul, ← hu, eval_C] at hb
          rcases mul_eq_zero.mp hb.symm with h1 | h1
          · exact k2 h1
          · apply hc0
            rw [← hu, h1, C_0]
      have hcond : Poly.degree fac > 0 ∧ Poly.degree fac < Poly.degree g := by
        simp only [Poly.degree]
        omega
      rw [if_pos hcond]
      obtain ⟨g', e1, e2, e3, e4⟩ := h.of_dvd p3 p4
      exact ⟨g', e1, by omega⟩
  · intro he
    obtain ⟨g', e1, e2, e3, e4⟩ := h.of_dvd f2 f3
    have hd := f4 he
    refine ⟨g', ?_, ?_⟩
    · simp only [rootRound, f1]
      rw [if_pos (by omega)]
      exact e1
    · rw [Poly.degree] at hd ⊢
      omega

/-- **C79**: if there is a root, some random values make the search return one. -/
theorem C79_can_return [Fintype K] (hodd : Odd (Fintype.card K)) (h : Modulus n f) (hn : 2 ≤ n)
    (r : K) (hr : eval r (toPoly f) = 0) :
    ∃ rnd r', findRoot (Fintype.card K) f rnd = some (.root r') := by
  obtain ⟨g, g1, g2, g3, g4⟩ := rootGcd_spec (Fintype.card K) h hn
  have hg := g4 r hr (by simp [FiniteField.pow_card])
  have hlen := g2.length
  have hl : 2 ≤ g.length := by
    have := natDegree_le_of_dvd (dvd_iff_isRoot.mpr hg) g2.monic.ne_zero
    rw [natDegree_X_sub_C] at this
    omega
  have hd0 : ¬ Poly.degree g = 0 := by rw [Poly.degree]; omega
  by_cases hl2 : g.length = 2
  · have hd1 : Poly.degree g = 1 := by rw [Poly.degree]; omega
    exact ⟨[], - g.getD 0 0, by simp [findRoot, g1, rootLoop, hd1]⟩
  · have hd1 : ¬ Poly.degree g = 1 := by rw [Poly.degree]; omega
    obtain ⟨g', e1, e2⟩ := (C79_progress hodd g2 (by omega) (-r)).2 (by simpa using hg)
    refine ⟨[-r], - g'.getD 0 0, ?_⟩
    simp [findRoot, g1, rootLoop, hd1, hd0, e1, e2]

/-- **C79**: on a polynomial of degree 1, which has a root, the routine writes outside the array of
coefficients. -/
theorem C79_linear_fails (q : ℕ) (a : K) (rnd : List K) :
    findRoot q [a, 1] rnd = none ∧ eval (-a) (toPoly [a, 1]) = 0 := by
  refine ⟨by simp [findRoot, rootGcd], ?_⟩
  rw [← dvd_linear_iff]

/-- `(x - 1)(x - 2)(x - 4) = x³ - 1` modulo 7. -/
example : (match findRoot 7 ([6, 0, 0, 1] : List (ZMod 7)) [0, 1, 2, 3, 4, 5, 6] with
    | some (.root r) => some r | _ => none) = some 4 := by decide +kernel

/-- `x³ - 2` has no root modulo 7. -/
example : (match findRoot 7 ([5, 0, 0, 1] : List (ZMod 7)) [] with
    | some .noRoot => true | _ => false) = true := by decide +kernel

end factor

end Props
