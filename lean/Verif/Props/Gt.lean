import Verif.Model.Gt
import Verif.Spec.Pairing
import Verif.Props.PairingA
import Mathlib.Algebra.Group.Subgroup.Basic
import Mathlib.GroupTheory.OrderOfElement
import Mathlib.GroupTheory.SpecificGroups.Cyclic
import Mathlib.Tactic.LinearCombination
import Mathlib.Tactic.Ring
import Mathlib.Tactic.NormNum.Prime

/-!
# C52, C53, C71, C83, C84: the target group, the almost-co-DDH test, the demonstration programs
-/

set_option autoImplicit false
set_option linter.unusedSectionVars false

namespace Props

open Pbc.Gt Spec

/-! ## C52: the target group -/

section gt

variable {L : Type} [Field L] [DecidableEq L]

/-- What the operations mean in a group written multiplicatively: both notations are that group. -/
def groupStep {G : Type} [CommGroup G] (s : ℕ → G) : Op → (ℕ → G)
  | .init c | .set0 c | .set1 c => fun i => if i = c then 1 else s i
  | .set c a => fun i => if i = c then s a else s i
  | .add c a b | .mul c a b => fun i => if i = c then s a * s b else s i
  | .sub c a b | .div c a b => fun i => if i = c then s a / s b else s i
  | .neg c a | .invert c a => fun i => if i = c then (s a)⁻¹ else s i
  | .doub c a | .square c a => fun i => if i = c then s a ^ 2 else s i
  | .mulMpz c a z | .powMpz c a z => fun i => if i = c then s a ^ z else s i

/-- **C52.**  Every sequence of operations, in additive or multiplicative notation, computes the same
as in the group of units of the field below. -/
theorem C52_group (l : List Op) (s : ℕ → Lˣ) (i : ℕ) :
    run (fun j => (s j : L)) l i = ((l.foldl groupStep s i : Lˣ) : L) := by
  induction l generalizing s with
  | nil => rfl
  | cons op l ih =>
    rw [run, List.foldl_cons, List.foldl_cons, ← ih (groupStep s op)]
    have : step (fun j => (s j : L)) op = fun j => ((groupStep s op j : Lˣ) : L) := by
      funext j
      cases op <;> simp only [step, groupStep, Function.update_apply, set1, mul, div, invert, powMpz] <;>
        split_ifs <;> simp [pow_two, div_eq_mul_inv]
    rw [this]; rfl

/-- **C52.**  Roots of unity stay roots of unity. -/
theorem C52_roots (r : ℕ) (l : List Op) (s : ℕ → L) (hs : ∀ j, s j ^ r = 1) (i : ℕ) :
    run s l i ^ r = 1 := by
  induction l generalizing s with
  | nil => exact hs i
  | cons op l ih =>
    rw [run, List.foldl_cons]
    refine ih (step s op) fun j => ?_
    cases op <;> simp only [step, Function.update_apply, set1, mul, div, invert, powMpz] <;>
      split_ifs <;> simp [hs, mul_pow, ← pow_mul, Nat.mul_comm _ r] <;> simp [pow_mul, hs]

/-- **C52.**  A random element or a hash is a root of unity if the final power of the pairing is
`x ↦ x ^ ((card - 1) / r)` on elements that are not zero and the field below did not give zero. -/
theorem C52_sample_partial [Fintype L] (r : ℕ) (hr : r ∣ Fintype.card L - 1) (finalpow : L → L)
    (hf : ∀ x, x ≠ 0 → finalpow x = x ^ ((Fintype.card L - 1) / r)) (x : L) (hx : x ≠ 0) :
    sample finalpow x ^ r = 1 := by
  rw [sample, hf x hx, ← pow_mul, Nat.div_mul_cancel hr]
  exact FiniteField.pow_card_sub_one_eq_one x hx

/-- **C52.**  Bytes round trip as in the field below. -/
theorem C52_bytes {Bytes : Type} (fieldToBytes : L → Bytes) (fieldFromBytes : Bytes → L)
    (h : ∀ x, fieldFromBytes (fieldToBytes x) = x) (x : L) :
    fromBytes fieldFromBytes (toBytes fieldToBytes x) = x := h x

/-- **C52, what fails.**  Membership in the group is not checked when bytes are read: every element of
the field below can be read, for instance zero, which is no root of unity. -/
theorem C52_from_bytes_fails {Bytes : Type} (fieldToBytes : L → Bytes) (fieldFromBytes : Bytes → L)
    (h : ∀ x, fieldFromBytes (fieldToBytes x) = x) (r : ℕ) (hr : r ≠ 0) :
    ∃ b, fromBytes fieldFromBytes b ^ r ≠ 1 :=
  ⟨fieldToBytes 0, by rw [fromBytes, h, zero_pow hr]; exact zero_ne_one⟩

instance prime11 : Fact (Nat.Prime 11) := ⟨by norm_num⟩

example : run (fun _ => (3 : ZMod 11)) [.square 1 0, .sub 2 1 0, .mulMpz 0 2 5, .init 3] 0 = 1 ∧
    ∀ _ : ℕ, (3 : ZMod 11) ^ 5 = 1 := by
  constructor
  · decide +kernel
  · intro _; decide

/-! ## C83: multiples by machine integers in groups -/

/-- **C83, what fails.**  In the target group `element_mul_si(x, a, n)` is `a` for every `n`, while
`element_mul_mpz` gives the multiple. -/
theorem C83_gt_mul_si_fails (a : L) (n : ℤ) : mulSi a n = a := by
  simp [mulSi, setSi, setMpz, mul, set1]

/-- **C83, what fails.**  `element_halve` in the target group is the identity. -/
theorem C83_gt_halve_fails (a : L) : halve a = a := by
  simp [halve, setSi, setMpz, mul, set1, invert]

/-- **C83, what fails.**  `element_mul_si(x, P, n)` is `P` for every point and every `n`. -/
theorem C83_point_mul_si_fails {A : Type} [AddCommGroup A] (P : A) (n : ℤ) : pointMulSi P n = P := by
  simp [pointMulSi, pointSetSi]

/-- **C83, what fails.**  `element_halve` is the identity on points. -/
theorem C83_point_halve_fails {A : Type} [AddCommGroup A] (P : A) : pointHalve P = P := by
  simp [pointHalve, pointSetSi]

/-- **C83.**  So the multiple is right exactly when `(n - 1) P = O`. -/
theorem C83_point_mul_si_partial {A : Type} [AddCommGroup A] (P : A) (n : ℤ) :
    pointMulSi P n = n • P ↔ (n - 1) • P = 0 := by
  rw [C83_point_mul_si_fails, sub_smul, one_smul, sub_eq_zero, eq_comm]

/-- **C83.**  The same in the target group. -/
theorem C83_gt_mul_si_partial (a : L) (ha : a ≠ 0) (n : ℤ) : mulSi a n = a ^ n ↔ a ^ (n - 1) = 1 := by
  rw [C83_gt_mul_si_fails, zpow_sub_one₀ ha, mul_inv_eq_one₀ ha, eq_comm]

example : mulSi (3 : ZMod 11) 2 = 3 ∧ (3 : ZMod 11) ^ (2 : ℤ) ≠ 3 := ⟨by decide, by decide +kernel⟩

end gt

section pairing

variable {A B L : Type} [AddCommGroup A] [AddCommGroup B] [DecidableEq A] [DecidableEq B] [Field L]
  [DecidableEq L] {r : ℕ}

theorem cmp0_iff (a b : L) : cmp0 a b = true ↔ a = b := by simp [cmp0]

/-! ## Exponents modulo `r` -/

theorem nsmul_mod {A : Type} [AddCommGroup A] {P : A} (hP : r • P = 0) (n : ℕ) : (n % r) • P = n • P := by
  conv_rhs => rw [← Nat.mod_add_div n r, add_smul, mul_comm, mul_smul, hP, smul_zero, add_zero]

theorem mulZn_torsion {A : Type} [AddCommGroup A] {P : A} (hP : r • P = 0) (a : ZMod r) :
    r • mulZn P a = 0 := by rw [mulZn, smul_comm, hP, smul_zero]

theorem add_torsion {A : Type} [AddCommGroup A] {P Q : A} (hP : r • P = 0) (hQ : r • Q = 0) :
    r • (P + Q) = 0 := by rw [smul_add, hP, hQ, add_zero]

theorem neg_torsion {A : Type} [AddCommGroup A] {P : A} (hP : r • P = 0) : r • (-P) = 0 := by
  rw [smul_neg, hP, neg_zero]

variable [NeZero r]

theorem powZn_mul_add {t : L} (ht : t ^ r = 1) (a b : ZMod r) :
    powZn t a * powZn t b = powZn t (a + b) := by
  simp only [powZn, powMpz]
  rw [← pow_add, pow_eq_pow_mod _ ht, ZMod.val_add]

theorem powZn_powZn {t : L} (ht : t ^ r = 1) (a b : ZMod r) : powZn (powZn t a) b = powZn t (a * b) := by
  simp only [powZn, powMpz]
  rw [← pow_mul, pow_eq_pow_mod _ ht, ZMod.val_mul]

theorem gtPowZn_neg {t : L} (ht : t ^ r = 1) (a : ZMod r) : powZn t (-a) = (powZn t a)⁻¹ := by
  have h := powZn_mul_add ht (-a) a
  rw [neg_add_cancel] at h
  have h0 : powZn t (0 : ZMod r) = 1 := by simp [powZn, powMpz]
  rw [h0] at h
  exact eq_inv_of_mul_eq_one_left h

theorem powZn_one {t : L} (ht : t ^ r = 1) : powZn t (1 : ZMod r) = t := by
  simp only [powZn, powMpz, ZMod.val_one_eq_one_mod]
  rw [← pow_eq_pow_mod 1 ht, pow_one]

theorem gtPowZn_mul (t u : L) (a : ZMod r) : powZn (t * u) a = powZn t a * powZn u a := mul_pow _ _ _

theorem powZn_inv (t : L) (a : ZMod r) : powZn t⁻¹ a = (powZn t a)⁻¹ := inv_pow _ _

section bil

variable {e : A → B → L} (h : Bilinear r e)
include h

theorem e_mul_left {P : A} {Q : B} (hP : r • P = 0) (hQ : r • Q = 0) (a : ZMod r) :
    e (mulZn P a) Q = powZn (e P Q) a := h.nsmul_left (NeZero.ne r) hP hQ _

theorem e_mul_right {P : A} {Q : B} (hP : r • P = 0) (hQ : r • Q = 0) (a : ZMod r) :
    e P (mulZn Q a) = powZn (e P Q) a := h.nsmul_right (NeZero.ne r) hP hQ _

end bil

/-- Powers of an element of prime order. -/
theorem powZn_inj (hr : r.Prime) {t : L} (ht : t ^ r = 1) (h1 : t ≠ 1) {a b : ZMod r}
    (h : powZn t a = powZn t b) : a = b := by
  have hfact : Fact r.Prime := ⟨hr⟩
  have ho : orderOf t = r := orderOf_eq_prime ht h1
  apply ZMod.val_injective
  refine pow_injOn_Iio_orderOf ?_ ?_ h <;> rw [ho] <;> exact ZMod.val_lt _

/-! ## C53 -/

/-- **C53.**  For every bilinear map on groups of prime order `r`, all points with `e(g, h) ≠ 1` and
all exponents the test answers yes exactly for `y = x` and `y = -x`. -/
theorem C53_coddh (hr : r.Prime) (map : A → B → L) (h : Bilinear r (apply map)) {P : A} {Q : B}
    (hP : r • P = 0) (hQ : r • Q = 0) (hne : apply map P Q ≠ 1) (x y : ZMod r) :
    isAlmostCoddh map P (mulZn P x) Q (mulZn Q y) = true ↔ y = x ∨ y = -x := by
  have ht := h.root P Q hP hQ
  have h0 : apply map P (mulZn Q y) = powZn (apply map P Q) y := e_mul_right h hP hQ y
  have h1 : apply map (mulZn P x) Q = powZn (apply map P Q) x := e_mul_left h hP hQ x
  simp only [isAlmostCoddh, h0, h1, cmp0, is1, mul, decide_eq_true_eq]
  rw [powZn_mul_add ht]
  have hz : powZn (apply map P Q) (0 : ZMod r) = 1 := by simp [powZn, powMpz]
  constructor
  · intro hh
    split_ifs at hh with hc
    · exact Or.inl (powZn_inj hr ht hne hc)
    · right
      have : powZn (apply map P Q) (y + x) = powZn (apply map P Q) (0 : ZMod r) := by
        rw [hz]; simpa using hh
      exact eq_neg_of_add_eq_zero_left (powZn_inj hr ht hne this)
  · rintro (rfl | rfl)
    · rw [if_pos rfl]
    · split_ifs
      · rfl
      · rw [neg_add_cancel, hz]; simp

/-! ## Products by the generic routine -/

theorem prodLoop_eq (map : A → B → L) (out : L) (l : List (A × B)) :
    prodLoop map out l = out * (l.map fun x => map x.1 x.2).prod := by
  induction l generalizing out with
  | nil => simp [prodLoop]
  | cons x l ih => obtain ⟨P, Q⟩ := x; rw [prodLoop, ih]; simp [mul, mul_assoc]

/-- **C45** (generic routine, used by types E and G): when no argument is `O` the product is the
product of the pairings. -/
theorem C45_generic (map : A → B → L) (l : List (A × B)) (hl : l ≠ [])
    (h : ∀ x ∈ l, x.1 ≠ 0 ∧ x.2 ≠ 0) :
    prodPairing map l = some (l.map fun x => apply map x.1 x.2).prod := by
  obtain ⟨⟨P, Q⟩, l, rfl⟩ : ∃ x l', l = x :: l' := by
    cases l with
    | nil => simp at hl
    | cons x l => exact ⟨x, l, rfl⟩
  have hany : (((P, Q) :: l).any fun x => decide (x.1 = 0 ∨ x.2 = 0)) = false := by
    rw [List.any_eq_false]
    intro x hx
    simpa using h x hx
  rw [prodPairing, hany]
  have hmap : ∀ x ∈ (P, Q) :: l, apply map x.1 x.2 = map x.1 x.2 := by
    intro x hx
    rw [apply, if_neg (h x hx).1, if_neg (h x hx).2]
  rw [List.map_congr_left hmap, prodLoop_eq]
  simp

/-- **C43, what fails** (generic routine): one argument that is `O` makes the whole product 1. -/
theorem C43_generic_prod_fails (map : A → B → L) (l : List (A × B)) (x : A × B) (hx : x ∈ l)
    (h : x.1 = 0 ∨ x.2 = 0) : prodPairing map l = some 1 := by
  obtain ⟨⟨P, Q⟩, l, rfl⟩ : ∃ x l', l = x :: l' := by
    cases l with
    | nil => simp at hx
    | cons x l => exact ⟨x, l, rfl⟩
  have hany : (((P, Q) :: l).any fun x => decide (x.1 = 0 ∨ x.2 = 0)) = true := by
    rw [List.any_eq_true]
    exact ⟨x, hx, by simpa using h⟩
  rw [prodPairing, hany]
  rfl

/-! ## C71: short signatures -/

/-- **C71.**  Every signature made with the key verifies: for every hash, base point and key. -/
theorem C71_complete (map : A → B → L) (h : Bilinear r (apply map)) {g : B} {H : A} (hg : r • g = 0)
    (hH : r • H = 0) (x : ZMod r) : blsVerify map g (blsPublic x g) H (blsSign x H) = true := by
  rw [blsVerify, cmp0_iff, blsSign, blsPublic, e_mul_left h hH hg, e_mul_right h hH hg]

/-- In a group of prime order the map is injective in its first argument, if it is not trivial. -/
theorem e_inj (hr : r.Prime) {e : A → B → L} (h : Bilinear r e) (hA : Nat.card A = r) {g : B}
    (hg : r • g = 0) (hne : ∃ P, e P g ≠ 1) {P Q : A} (he : e P g = e Q g) : P = Q := by
  have hall : ∀ P : A, r • P = 0 := fun P => by rw [← hA]; exact card_nsmul_eq_zero'
  have hd : e (P - Q) g = 1 := by
    rw [sub_eq_add_neg, h.add_left _ _ _ (hall _) (hall _) hg, h.neg_left hr.ne_zero (hall _) hg, he]
    exact mul_inv_cancel₀ (h.ne_zero hr.ne_zero (hall _) hg)
  by_contra hc
  obtain ⟨R, hR⟩ := hne
  apply hR
  have hfact : Fact r.Prime := ⟨hr⟩
  have hmem : R ∈ AddSubgroup.zmultiples (P - Q) := mem_zmultiples_of_prime_card hA (sub_ne_zero.2 hc)
  obtain ⟨n, rfl⟩ := AddSubgroup.mem_zmultiples_iff.1 hmem
  rw [h.zsmul_left hr.ne_zero (hall _) hg, hd, one_zpow]

/-- **C71.**  In a group of prime order, with a map that is not trivial, no other element verifies. -/
theorem C71_sound (hr : r.Prime) (map : A → B → L) (h : Bilinear r (apply map)) (hA : Nat.card A = r)
    {g : B} (hg : r • g = 0) (hne : ∃ P, apply map P g ≠ 1) (H sig : A) (x : ZMod r) :
    blsVerify map g (blsPublic x g) H sig = true ↔ sig = blsSign x H := by
  have hH : r • H = 0 := by rw [← hA]; exact card_nsmul_eq_zero'
  constructor
  · intro hv
    have hc := C71_complete map h hg hH x
    rw [blsVerify, cmp0_iff] at hv hc
    exact e_inj hr h hA hg hne (hv.trans hc.symm)
  · rintro rfl; exact C71_complete map h hg hH x

/-- **C71.**  With only the `x` coordinate sent: the signature and its negative are accepted, nothing
else. -/
theorem C71_x_only (hr : r.Prime) (map : A → B → L) (h : Bilinear r (apply map)) (hA : Nat.card A = r)
    {g : B} (hg : r • g = 0) (hne : ∃ P, apply map P g ≠ 1) (H sig : A) (x : ZMod r) :
    blsVerifyX map g (blsPublic x g) H sig = true ↔ sig = blsSign x H ∨ sig = -blsSign x H := by
  have hall : ∀ P : A, r • P = 0 := fun P => by rw [← hA]; exact card_nsmul_eq_zero'
  have h1 := C71_sound hr map h hA hg hne H sig x
  have h2 := C71_sound hr map h hA hg hne H (-sig) x
  rw [blsVerify, cmp0_iff] at h1 h2
  rw [h.neg_left hr.ne_zero (hall _) hg, neg_eq_iff_eq_neg] at h2
  rw [← h1, ← h2, blsVerifyX]
  by_cases hc : apply map sig g = apply map H (blsPublic x g)
  · rw [if_pos ((cmp0_iff _ _).2 hc)]
    simp [hc]
  · rw [if_neg (fun hh => hc ((cmp0_iff _ _).1 hh)), cmp0_iff, invert]
    simp [hc]

/-! ## C84: the other demonstration programs -/

variable {map : A → A → L} (h : Bilinear r (apply map))
include h

/-- **C84.**  The three parties of `joux` get the same key. -/
theorem C84_joux {P : A} (hP : r • P = 0) (a b c : ZMod r) :
    (joux map P a b c).1 = (joux map P a b c).2.1 ∧ (joux map P a b c).2.1 = (joux map P a b c).2.2 := by
  have ht := h.root P P hP hP
  have key : ∀ x y z : ZMod r, powZn (apply map (mulZn P x) (mulZn P y)) z =
      powZn (apply map P P) (x * y * z) := by
    intro x y z
    rw [e_mul_left h hP (mulZn_torsion hP y), e_mul_right h hP hP, powZn_powZn ht, powZn_powZn ht,
      mul_comm y x]
  simp only [joux, key]
  exact ⟨by congr 1; ring, by congr 1; ring⟩

/-- **C84.**  Every signature made by `hess` is accepted. -/
theorem C84_hess (toMpz : L → ℤ) {P P1 Qid : A} (hP : r • P = 0) (hP1 : r • P1 = 0) (hQ : r • Qid = 0)
    (s k t3 : ZMod r) : hess map toMpz P P1 Qid s k t3 = true := by
  have hr := NeZero.ne r
  have ht := h.root Qid P hQ hP
  rw [hess, decide_eq_true_eq]
  generalize hv : t3 * (toMpz (powZn (apply map P1 P) k) : ZMod r) = v
  have e1 : apply map (mulZn (mulZn Qid s) v + mulZn P1 k) P =
      powZn (apply map Qid P) (s * v) * powZn (apply map P1 P) k := by
    rw [h.add_left _ _ _ (mulZn_torsion (mulZn_torsion hQ s) v) (mulZn_torsion hP1 k) hP,
      e_mul_left h (mulZn_torsion hQ s) hP, e_mul_left h hQ hP, e_mul_left h hP1 hP, powZn_powZn ht]
  have e2 : powZn (apply map Qid (-mulZn P s)) v = (powZn (apply map Qid P) (s * v))⁻¹ := by
    rw [h.neg_right hr hQ (mulZn_torsion hP s), e_mul_right h hQ hP, powZn_inv, powZn_powZn ht]
  have hne : powZn (apply map Qid P) (s * v) ≠ 0 := pow_ne_zero _ (h.ne_zero hr hQ hP)
  rw [e1, e2, mul, mul_right_comm, mul_inv_cancel₀ hne, one_mul, hv]

/-- **C84.**  Every signature made by `paterson` with a nonce that is not zero is accepted, if `r` is
prime. -/
theorem C84_paterson (hp : r.Prime) (hash : A → ZMod r) {P Qid : A} (hP : r • P = 0) (hQ : r • Qid = 0)
    (s k t1 : ZMod r) (hk : k ≠ 0) : paterson map hash P Qid s k t1 = true := by
  have hfact : Fact r.Prime := ⟨hp⟩
  have ht := h.root P P hP hP
  have hq := h.root P Qid hP hQ
  rw [paterson, cmp0_iff]
  generalize hash (mulZn P k) = t3
  have hT : r • (mulZn (mulZn Qid s) t3 + mulZn P t1) = 0 :=
    add_torsion (mulZn_torsion (mulZn_torsion hQ s) t3) (mulZn_torsion hP t1)
  have h5 := h.root P _ hP hT
  have e1 : apply map (mulZn P k) (mulZn (mulZn (mulZn Qid s) t3 + mulZn P t1) k⁻¹) =
      apply map P (mulZn (mulZn Qid s) t3 + mulZn P t1) := by
    rw [e_mul_left h hP (mulZn_torsion hT _), e_mul_right h hP hT, powZn_powZn h5, inv_mul_cancel₀ hk,
      powZn_one h5]
  rw [e1, h.add_right _ _ _ hP (mulZn_torsion (mulZn_torsion hQ s) t3) (mulZn_torsion hP t1),
    e_mul_right h hP (mulZn_torsion hQ s), e_mul_right h hP hQ, e_mul_left h hP hQ, mul, mul_comm]

/-- **C84.**  The two parties of `yuanli` get the same session key. -/
theorem C84_yuanli {P Qa Qb : A} (hP : r • P = 0) (hA : r • Qa = 0) (hB : r • Qb = 0)
    (s a b : ZMod r) : (yuanli map P Qa Qb s a b).1 = (yuanli map P Qa Qb s a b).2 := by
  have comm : ∀ x : ZMod r, mulZn (mulZn P s) x = mulZn (mulZn P x) s := fun x => by
    simp only [mulZn]; rw [smul_comm]
  have dist : ∀ X Y : A, mulZn X s + mulZn Y s = mulZn (X + Y) s := fun X Y => by
    simp only [mulZn]; rw [smul_add]
  have tA := add_torsion (mulZn_torsion hP a) hA
  have tB := add_torsion (mulZn_torsion hP b) hB
  rw [yuanli]
  dsimp only
  rw [comm, comm, dist, dist, e_mul_left h tA tB, e_mul_right h tA tB]

/-- **C84.**  The verifier of `zhangkim` computes the value that was signed. -/
theorem C84_zhangkim (toMpz : L → ℤ) {P Qid : A} (hP : r • P = 0) (hQ : r • Qid = 0)
    (s r1 a b t5 : ZMod r) :
    (zhangkim map toMpz P Qid s r1 a b t5).1 = (zhangkim map toMpz P Qid s r1 a b t5).2 := by
  have hr := NeZero.ne r
  have hp := h.root P P hP hP
  have hq := h.root Qid P hQ hP
  rw [zhangkim]
  dsimp only
  generalize ht : apply map (mulZn Qid b + (mulZn P r1 + mulZn P a)) (mulZn P s) = t3
  generalize hc : t5 * (toMpz t3 : ZMod r) = t6
  have e3 : t3 = powZn (apply map Qid P) (b * s) * (powZn (apply map P P) (r1 * s) *
      powZn (apply map P P) (a * s)) := by
    rw [← ht, h.add_left _ _ _ (mulZn_torsion hQ b)
      (add_torsion (mulZn_torsion hP r1) (mulZn_torsion hP a)) (mulZn_torsion hP s),
      h.add_left _ _ _ (mulZn_torsion hP r1) (mulZn_torsion hP a) (mulZn_torsion hP s),
      e_mul_left h hQ (mulZn_torsion hP s), e_mul_left h hP (mulZn_torsion hP s),
      e_mul_left h hP (mulZn_torsion hP s), e_mul_right h hQ hP, e_mul_right h hP hP, powZn_powZn hq,
      powZn_powZn hp, powZn_powZn hp, mul_comm s, mul_comm s, mul_comm s]
  have e4 : apply map (mulZn (mulZn Qid s) (t6 + b) + mulZn (mulZn P s) r1 + mulZn (mulZn P s) a) P =
      powZn (apply map Qid P) (s * (t6 + b)) * powZn (apply map P P) (s * r1) *
        powZn (apply map P P) (s * a) := by
    rw [h.add_left _ _ _ (add_torsion (mulZn_torsion (mulZn_torsion hQ s) _)
      (mulZn_torsion (mulZn_torsion hP s) r1)) (mulZn_torsion (mulZn_torsion hP s) a) hP,
      h.add_left _ _ _ (mulZn_torsion (mulZn_torsion hQ s) _)
      (mulZn_torsion (mulZn_torsion hP s) r1) hP,
      e_mul_left h (mulZn_torsion hQ s) hP, e_mul_left h (mulZn_torsion hP s) hP,
      e_mul_left h (mulZn_torsion hP s) hP, e_mul_left h hQ hP, e_mul_left h hP hP,
      powZn_powZn hq, powZn_powZn hp, powZn_powZn hp]
  have e5 : powZn (apply map Qid (mulZn P s)) (-(t6 + b - b)) =
      powZn (apply map Qid P) (s * -t6) := by
    rw [e_mul_right h hQ hP, powZn_powZn hq, add_sub_cancel_right]
  have e6 : mul (powZn (apply map Qid P) (s * (t6 + b)) * powZn (apply map P P) (s * r1) *
        powZn (apply map P P) (s * a)) (powZn (apply map Qid P) (s * -t6)) = t3 := by
    have e7 : powZn (apply map Qid P) (b * s) =
        powZn (apply map Qid P) (s * (t6 + b)) * powZn (apply map Qid P) (s * -t6) := by
      rw [powZn_mul_add hq]; congr 1; ring
    rw [e3, e7, mul, mul_comm r1, mul_comm a]
    ring
  rw [e4, e5, e6, hc]

/-- **C84.**  The two values compared by `zss` are equal, if `r` is prime and `H + x` is not zero. -/
theorem C84_zss (hp : r.Prime) {P : A} (hP : r • P = 0) (x H : ZMod r) (hx : H + x ≠ 0) :
    (zss map P x H).1 = (zss map P x H).2 := by
  have hfact : Fact r.Prime := ⟨hp⟩
  have ht := h.root P P hP hP
  rw [zss]
  dsimp only
  rw [e_mul_right h (add_torsion (mulZn_torsion hP H) (mulZn_torsion hP x)) hP,
    h.add_left _ _ _ (mulZn_torsion hP H) (mulZn_torsion hP x) hP, e_mul_left h hP hP,
    e_mul_left h hP hP, powZn_mul_add ht, powZn_powZn ht, mul_inv_cancel₀ hx, powZn_one ht]

omit h

/-- A bilinear map that meets all the hypotheses: `Z_5`, with values in the fifth roots of unity of
the integers modulo 11. -/
theorem bilinear5 : Bilinear 5 (apply fun (a b : ZMod 5) => (3 : ZMod 11) ^ (a * b).val) := by
  constructor
  · intro P₁ P₂ Q _ _ _; revert P₁ P₂ Q; decide +kernel
  · intro P Q₁ Q₂ _ _ _; revert P Q₁ Q₂; decide +kernel
  · intro P Q _ _; revert P Q; decide +kernel

example : Nat.card (ZMod 5) = 5 ∧ (5 : ℕ) • (2 : ZMod 5) = 0 ∧
    apply (fun (a b : ZMod 5) => (3 : ZMod 11) ^ (a * b).val) 1 2 ≠ 1 :=
  ⟨by simp, by decide, by decide +kernel⟩

/-- Type A is such a map: see `C80_typeA`. -/
example : isAlmostCoddh (fun (a b : ZMod 5) => (3 : ZMod 11) ^ (a * b).val) 1 (mulZn 1 (2 : ZMod 5)) 2
    (mulZn 2 (3 : ZMod 5)) = true := by decide +kernel

end pairing

/-! ## Concrete cases: `ZMod 5 × ZMod 5 → ZMod 11`, `(a, b) ↦ 3^(ab)`; 3 has order 5 modulo 11 -/

/-- A small bilinear map. -/
def exMap (a b : ZMod 5) : ZMod 11 := 3 ^ (a * b).val

theorem exMap_bilinear : Bilinear 5 (apply exMap) where
  add_left := by decide +kernel
  add_right := by decide +kernel
  root := by decide +kernel

/-- `run` from five fifth roots of unity. -/
example : run (fun j => (3 : ZMod 11) ^ j) [.square 1 3, .sub 2 1 4, .mulMpz 0 2 7, .init 3] 0 ^ 5
    = 1 :=
  C52_roots 5 _ _ (fun j => by rw [← pow_mul, mul_comm, pow_mul, show (3 : ZMod 11) ^ 5 = 1 by decide, one_pow]) 0

/-- A random element 7 of the field of 11 elements is mapped to `7² = 5`, a fifth root of 1. -/
example : sample (fun x : ZMod 11 => x ^ 2) 7 ^ 5 = 1 ∧ sample (fun x : ZMod 11 => x ^ 2) 7 ≠ 1 := by
  have : Fact (Nat.Prime 11) := ⟨by norm_num⟩
  refine ⟨C52_sample_partial (L := ZMod 11) 5 (by rw [ZMod.card]; norm_num) _ (fun x _ => ?_) 7
    (by decide +revert), by decide +revert⟩
  rw [ZMod.card]

example : fromBytes (fun b : List ℕ => ((b.headD 0 : ℕ) : ZMod 11))
    (toBytes (fun x : ZMod 11 => [x.val]) 7) = 7 := by
  have : Fact (Nat.Prime 11) := ⟨by norm_num⟩
  exact C52_bytes (L := ZMod 11) _ _ (fun x => by simp) 7

section
local instance prime11_local : Fact (Nat.Prime 11) := ⟨by norm_num⟩

/-- `(1, 2, 2, 4)` and `(1, 2, 2, -4)` pass the co-Diffie-Hellman test, `(1, 2, 2, 2)` does not. -/
example : isAlmostCoddh exMap 1 (mulZn 1 (2 : ZMod 5)) 2 (mulZn 2 (3 : ZMod 5)) = true ∧
    isAlmostCoddh exMap 1 (mulZn 1 (2 : ZMod 5)) 2 (mulZn 2 (1 : ZMod 5)) = false := by
  have h := C53_coddh (r := 5) (by norm_num) exMap exMap_bilinear (P := 1) (Q := 2) (by decide)
    (by decide) (by decide +kernel) 2
  exact ⟨(h 3).2 (by decide), Bool.eq_false_iff.2 fun h' => absurd ((h 1).1 h') (by decide)⟩

example : prodPairing exMap [(1, 2), (3, 4), (2, 2)] = some (apply exMap 1 2 * (apply exMap 3 4 *
    (apply exMap 2 2 * 1))) :=
  C45_generic exMap [(1, 2), (3, 4), (2, 2)] (by decide) (by decide)

/-- BLS with secret key 3, generator 2 and message hash 4: the signature is accepted, and only it. -/
example : blsVerify exMap 2 (blsPublic (3 : ZMod 5) 2) 4 (blsSign (3 : ZMod 5) 4) = true ∧
    blsVerify exMap 2 (blsPublic (3 : ZMod 5) 2) 4 1 = false ∧
    blsVerifyX exMap 2 (blsPublic (3 : ZMod 5) 2) 4 (-blsSign (3 : ZMod 5) 4) = true := by
  have hne : ∃ P, apply exMap P 2 ≠ 1 := ⟨1, by decide +kernel⟩
  refine ⟨C71_complete exMap exMap_bilinear (by decide) (by decide) 3,
    Bool.eq_false_iff.2 fun h => absurd ((C71_sound (r := 5) (by norm_num) exMap exMap_bilinear
      (by simp) (by decide) hne 4 1 3).1 h) (by decide),
    (C71_x_only (r := 5) (by norm_num) exMap exMap_bilinear
      (by simp) (by decide) hne 4 _ 3).2 (Or.inr rfl)⟩

/-- The protocols of `/repo/example`, with the generator 2. -/
example : (joux exMap 2 1 2 (4 : ZMod 5)).1 = (joux exMap 2 1 2 (4 : ZMod 5)).2.1 ∧
    hess exMap (fun x => (x.val : ℤ)) 2 3 4 2 3 (1 : ZMod 5) = true ∧
    paterson exMap (fun a => a + 1) 2 4 3 2 (1 : ZMod 5) = true ∧
    (yuanli exMap 2 3 4 2 3 (1 : ZMod 5)).1 = (yuanli exMap 2 3 4 2 3 (1 : ZMod 5)).2 ∧
    (zhangkim exMap (fun x => (x.val : ℤ)) 2 3 4 2 3 1 (2 : ZMod 5)).1 =
      (zhangkim exMap (fun x => (x.val : ℤ)) 2 3 4 2 3 1 (2 : ZMod 5)).2 ∧
    (zss exMap 2 3 (4 : ZMod 5)).1 = (zss exMap 2 3 (4 : ZMod 5)).2 :=
  ⟨(C84_joux exMap_bilinear (by decide) 1 2 4).1,
    C84_hess exMap_bilinear _ (by decide) (by decide) (by decide) 2 3 1,
    C84_paterson exMap_bilinear (by norm_num) _ (by decide) (by decide) 3 2 1 (by decide),
    C84_yuanli exMap_bilinear (by decide) (by decide) (by decide) 2 3 1,
    C84_zhangkim exMap_bilinear _ (by decide) (by decide) 4 2 3 1 2,
    C84_zss exMap_bilinear (by norm_num) (by decide) 3 4 (by decide)⟩

end

end Props
