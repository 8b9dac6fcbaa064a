import Verif.Model.Schemes
import Verif.Props.Gt
import Verif.Props.NonDeg

/-! # C147: what the verifying halves of the example programs accept -/

set_option autoImplicit false
set_option linter.style.longLine false
set_option linter.unusedSectionVars false

namespace Pbc.Schemes

open Pbc.Gt Spec Props

variable {A L : Type} [AddCommGroup A] [DecidableEq A] [Field L] [DecidableEq L] {r : ℕ} [NeZero r]

/-- The programs run the two halves one after the other. -/
theorem program_halves (map : A → A → L) (hash : A → ZMod r) (toMpz : L → ℤ) (P P1 Qid : A) (s k t : ZMod r) :
    hess map toMpz P P1 Qid s k t =
      hessVerify map toMpz P (mulZn P s) Qid t (hessSign map toMpz P (mulZn Qid s) P1 k t) ∧
    paterson map hash P Qid s k t =
      patersonVerify map hash P (mulZn P s) Qid t (patersonSign hash P (mulZn Qid s) k t) ∧
    cmp0 (zss map P k t).1 (zss map P k t).2 = zssVerify map P (mulZn P k) t (zssSign P k t) := ⟨rfl, rfl, rfl⟩

/-- What is asked of the pairing: bilinear on a group of prime order with generator `P`, and not trivial. -/
structure Symm (r : ℕ) (map : A → A → L) (P : A) : Prop where
  prime : r.Prime
  bil : Bilinear r (apply map)
  card : Nat.card A = r
  gen : P ≠ 0
  nondeg : ∃ Q, apply map P Q ≠ 1

variable {map : A → A → L} {P : A}

namespace Symm

theorem tors (h : Symm r map P) (Q : A) : r • Q = 0 := by rw [← h.card]; exact card_nsmul_eq_zero'

theorem mul_mul (h : Symm r map P) (Q : A) (a b : ZMod r) : mulZn (mulZn Q a) b = mulZn Q (a * b) := by
  simp only [mulZn]
  rw [smul_smul, ZMod.val_mul, ← nsmul_eq_mod_nsmul _ (h.tors Q), mul_comm]

theorem mul_add (h : Symm r map P) (Q : A) (a b : ZMod r) : mulZn Q a + mulZn Q b = mulZn Q (a + b) := by
  simp only [mulZn]
  rw [← add_smul, ZMod.val_add, ← nsmul_eq_mod_nsmul _ (h.tors Q)]

theorem mul_zero (h : Symm r map P) (Q : A) : mulZn Q (0 : ZMod r) = 0 := by simp [mulZn]

theorem mul_neg (h : Symm r map P) (Q : A) (a : ZMod r) : -mulZn Q a = mulZn Q (-a) := by
  rw [neg_eq_iff_add_eq_zero, h.mul_add, add_neg_cancel, h.mul_zero]

/-- Every point is a multiple of any point but `O`. -/
theorem coord (h : Symm r map P) {Q : A} (hQ : Q ≠ 0) (X : A) : ∃ x : ZMod r, X = mulZn Q x := by
  have hfact : Fact r.Prime := ⟨h.prime⟩
  have hmem : X ∈ AddSubgroup.zmultiples Q := mem_zmultiples_of_prime_card h.card hQ
  obtain ⟨n, rfl⟩ := AddSubgroup.mem_zmultiples_iff.1 hmem
  refine ⟨(n : ZMod r), ?_⟩
  have hz : ((r : ℕ) : ℤ) • Q = 0 := by rw [natCast_zsmul, h.tors]
  rw [mulZn, ← natCast_zsmul, ZMod.val_intCast]
  conv_lhs => rw [← Int.emod_add_mul_ediv n r, add_smul, mul_comm, mul_smul, hz, smul_zero, add_zero]

/-- The pairing in coordinates. -/
theorem pair (h : Symm r map P) (x y : ZMod r) :
    apply map (mulZn P x) (mulZn P y) = powZn (apply map P P) (x * y) := by
  rw [e_mul_left h.bil (h.tors _) (h.tors _), e_mul_right h.bil (h.tors _) (h.tors _), powZn_powZn (h.bil.root _ _ (h.tors _) (h.tors _)), mul_comm]

theorem self (h : Symm r map P) : apply map P P ≠ 1 := fun h1 => by
  obtain ⟨Q, hQ⟩ := h.nondeg
  obtain ⟨y, rfl⟩ := h.coord h.gen Q
  apply hQ
  rw [e_mul_right h.bil (h.tors _) (h.tors _), h1]
  simp [powZn, powMpz]

theorem root (h : Symm r map P) : apply map P P ^ r = 1 := h.bil.root _ _ (h.tors _) (h.tors _)

theorem pow_iff (h : Symm r map P) (x y : ZMod r) : powZn (apply map P P) x = powZn (apply map P P) y ↔ x = y :=
  ⟨powZn_inj h.prime h.root h.self, fun h => by rw [h]⟩

theorem mul_iff (h : Symm r map P) (x y : ZMod r) : mulZn P x = mulZn P y ↔ x = y := by
  refine ⟨fun he => (h.pow_iff x y).1 ?_, fun h => by rw [h]⟩
  rw [← e_mul_left h.bil (h.tors _) (h.tors _), he, e_mul_left h.bil (h.tors _) (h.tors _)]

theorem pow_mul (h : Symm r map P) (x y : ZMod r) :
    mul (powZn (apply map P P) x) (powZn (apply map P P) y) = powZn (apply map P P) (x + y) := powZn_mul_add h.root x y

theorem pow_pow (h : Symm r map P) (x y : ZMod r) :
    powZn (powZn (apply map P P) x) y = powZn (apply map P P) (x * y) := powZn_powZn h.root x y

theorem one_mul (h : Symm r map P) : mulZn P (1 : ZMod r) = P := by
  have : Fact (1 < r) := ⟨h.prime.one_lt⟩
  simp [mulZn, ZMod.val_one]

end Symm

/-- **C147** for `zss`: exactly the signature made with the secret key is accepted. -/
theorem C147_zss (h : Symm r map P) {x H : ZMod r} (hx : H + x ≠ 0) (S : A) :
    zssVerify map P (mulZn P x) H S = true ↔ S = zssSign P x H := by
  have hfact : Fact r.Prime := ⟨h.prime⟩
  obtain ⟨y, rfl⟩ := h.coord h.gen S
  have h1 : ∀ t, t = apply map P P ↔ t = powZn (apply map P P) (1 : ZMod r) := fun t => by rw [powZn_one h.root]
  rw [zssVerify, cmp0_iff, h.mul_add, h.pair, h1, h.pow_iff, zssSign, h.mul_iff]
  exact ⟨fun e => eq_inv_of_mul_eq_one_right e, fun e => by rw [e, mul_inv_cancel₀ hx]⟩

/-- **C147** for `zss`: if the hash of the message is the negative of the secret key, nothing is accepted. -/
theorem C147_zss_none (h : Symm r map P) {x H : ZMod r} (hx : H + x = 0) (S : A) :
    zssVerify map P (mulZn P x) H S = false := by
  have hfact : Fact r.Prime := ⟨h.prime⟩
  obtain ⟨y, rfl⟩ := h.coord h.gen S
  have h1 : ∀ t, t = apply map P P ↔ t = powZn (apply map P P) (1 : ZMod r) := fun t => by rw [powZn_one h.root]
  rw [Bool.eq_false_iff, Ne, zssVerify, cmp0_iff, h.mul_add, h.pair, h1, h.pow_iff, hx]
  simp

/-- **C147** for `paterson`: a pair whose first point is not `O` is accepted exactly if it is made with the private key and
some nonce. -/
theorem C147_paterson (h : Symm r map P) (hash : A → ZMod r) (Qid : A) (s t1 : ZMod r) {R : A} (hR : R ≠ 0) (S : A) :
    patersonVerify map hash P (mulZn P s) Qid t1 (R, S) = true ↔
      ∃ k, k ≠ 0 ∧ (R, S) = patersonSign hash P (mulZn Qid s) k t1 := by
  have hfact : Fact r.Prime := ⟨h.prime⟩
  obtain ⟨k, rfl⟩ := h.coord h.gen R
  obtain ⟨y, rfl⟩ := h.coord h.gen S
  obtain ⟨q, rfl⟩ := h.coord h.gen Qid
  have hk : k ≠ 0 := fun h0 => hR (by rw [h0, h.mul_zero])
  have h1 := h.pair 1 t1
  rw [h.one_mul] at h1
  rw [patersonVerify, cmp0_iff]
  dsimp only
  rw [h1, h.pair, h.pow_pow, h.pow_mul, h.pair, h.pow_iff]
  have key : ∀ k', ((mulZn P k, mulZn P y) = patersonSign hash P (mulZn (mulZn P q) s) k' t1) ↔
      k = k' ∧ y = (q * s * hash (mulZn P k') + t1) * k'⁻¹ := fun k' => by
    rw [patersonSign, Prod.mk.injEq, h.mul_mul, h.mul_mul, h.mul_add, h.mul_mul, h.mul_iff, h.mul_iff, mul_assoc]
  simp only [key]
  constructor
  · intro he
    refine ⟨k, hk, rfl, ?_⟩
    rw [eq_mul_inv_iff_mul_eq₀ hk]
    linear_combination -he
  · rintro ⟨_, -, rfl, he⟩
    rw [eq_mul_inv_iff_mul_eq₀ hk] at he
    linear_combination -he

/-- **C147** for `paterson`: with `O` as the first point, either every second point is accepted or none. -/
theorem C147_paterson_O (h : Symm r map P) (hash : A → ZMod r) (Qid : A) (s t1 : ZMod r) (S : A) :
    patersonVerify map hash P (mulZn P s) Qid t1 (0, S) = true ↔ mulZn P t1 + mulZn (mulZn Qid s) (hash 0) = 0 := by
  obtain ⟨y, rfl⟩ := h.coord h.gen S
  obtain ⟨q, rfl⟩ := h.coord h.gen Qid
  have h1 := h.pair 1 t1
  have h0 := h.pair 0 y
  rw [h.one_mul] at h1
  rw [h.mul_zero] at h0
  rw [patersonVerify, cmp0_iff]
  dsimp only
  rw [h1, h.pair, h.pow_pow, h.pow_mul, h0, h.pow_iff, h.mul_mul, h.mul_mul, h.mul_add, ← h.mul_zero P, h.mul_iff]
  rw [MulZeroClass.zero_mul, _root_.one_mul, mul_comm s q, mul_assoc]

/-- **C147** for `hess`: a pair is accepted exactly if it is made with the private key and some nonce, whatever point other
than `O` is drawn. -/
theorem C147_hess (h : Symm r map P) (toMpz : L → ℤ) (Qid : A) (s t3 : ZMod r) {P1 : A} (hP1 : P1 ≠ 0) (sg : A × ZMod r) :
    hessVerify map toMpz P (mulZn P s) Qid t3 sg = true ↔ ∃ k, sg = hessSign map toMpz P (mulZn Qid s) P1 k t3 := by
  have hfact : Fact r.Prime := ⟨h.prime⟩
  obtain ⟨u, v⟩ := sg
  obtain ⟨p, rfl⟩ := h.coord h.gen P1
  obtain ⟨y, rfl⟩ := h.coord h.gen u
  obtain ⟨q, rfl⟩ := h.coord h.gen Qid
  have hp : p ≠ 0 := fun h0 => hP1 (by rw [h0, h.mul_zero])
  have e1 : ∀ x, apply map (mulZn P x) P = powZn (apply map P P) x := fun x => by
    have := h.pair x 1
    rwa [h.one_mul, mul_one] at this
  rw [hessVerify]
  dsimp only
  rw [decide_eq_true_eq, e1, h.mul_neg, h.pair, h.pow_pow, h.pow_mul]
  have key : ∀ k, ((mulZn P y, v) = hessSign map toMpz P (mulZn (mulZn P q) s) (mulZn P p) k t3) ↔
      v = t3 * (toMpz (powZn (apply map P P) (p * k)) : ZMod r) ∧ y = q * s * v + p * k := fun k => by
    rw [hessSign, Prod.mk.injEq, e1, h.pow_pow, h.mul_mul, h.mul_mul, h.mul_mul, h.mul_add, h.mul_iff, ← mul_assoc]
    constructor
    · rintro ⟨h1, h2⟩; rw [← h2] at h1; exact ⟨h2, h1⟩
    · rintro ⟨h1, h2⟩; rw [← h1]; exact ⟨h2, rfl⟩
  simp only [key]
  constructor
  · intro he
    refine ⟨(y - q * s * v) * p⁻¹, ?_, ?_⟩
    · rw [← he]
      congr 4
      rw [he, mul_comm (y - _), mul_inv_cancel_left₀ hp]
      ring
    · rw [mul_comm (y - _), mul_inv_cancel_left₀ hp]; ring
  · rintro ⟨k, h1, h2⟩
    have : y + q * -s * v = p * k := by rw [h2]; ring
    rw [this, ← h1]

/-- **C147** for `zhangkim`: whatever the signer and the user draw, the unblinded signature is accepted. -/
theorem C147_zhangkim (h : Symm r map P) (toMpz : L → ℤ) (Qid : A) (s t5 r1 a b : ZMod r) :
    let c := zkBlind map toMpz (mulZn P s) Qid P (mulZn P r1) a b t5
    zkVerify map toMpz P (mulZn P s) Qid t5 (zkUnblind (mulZn P s) a b c (zkSign (mulZn P s) (mulZn Qid s) r1 c)) = true := by
  obtain ⟨q, rfl⟩ := h.coord h.gen Qid
  have e1 : ∀ x, apply map (mulZn P x) P = powZn (apply map P P) x := fun x => by
    have := h.pair x 1
    rwa [h.one_mul, mul_one] at this
  simp only [zkBlind, zkSign, zkUnblind, zkVerify, h.mul_mul, h.mul_add, e1, h.pair, h.pow_pow, h.pow_mul, decide_eq_true_eq]
  rw [add_sub_cancel_right]
  congr 4
  ring

/-- **C147** for `zhangkim`: the scheme is blind.  For everything the signer has seen in one run (the nonce `r1` and the
number `c` received, with which goes the point sent back) and every accepted signature there is exactly one choice of the
user in which that run gives that signature: so the run says nothing about which signature came out of it. -/
theorem C147_blind (h : Symm r map P) (toMpz : L → ℤ) (Qid : A) {s : ZMod r} (hs : s ≠ 0) (t5 r1 c : ZMod r)
    {sg : A × ZMod r} (hv : zkVerify map toMpz P (mulZn P s) Qid t5 sg = true) :
    ∃! ab : ZMod r × ZMod r, zkBlind map toMpz (mulZn P s) Qid P (mulZn P r1) ab.1 ab.2 t5 = c ∧
      zkUnblind (mulZn P s) ab.1 ab.2 c (zkSign (mulZn P s) (mulZn Qid s) r1 c) = sg := by
  have hfact : Fact r.Prime := ⟨h.prime⟩
  obtain ⟨S, c1⟩ := sg
  obtain ⟨q, rfl⟩ := h.coord h.gen Qid
  obtain ⟨y, rfl⟩ := h.coord h.gen S
  have e1 : ∀ x, apply map (mulZn P x) P = powZn (apply map P P) x := fun x => by
    have := h.pair x 1
    rwa [h.one_mul, mul_one] at this
  simp only [zkVerify, h.mul_mul, h.mul_add, e1, h.pair, h.pow_pow, h.pow_mul, decide_eq_true_eq] at hv
  simp only [zkBlind, zkSign, zkUnblind, h.mul_mul, h.mul_add, h.pair, Prod.mk.injEq, h.mul_iff]
  refine ⟨((y - q * s * c - s * r1) * s⁻¹, c - c1), ⟨?_, ?_, ?_⟩, ?_⟩
  · dsimp only
    have : (q * (c - c1) + (r1 + (y - q * s * c - s * r1) * s⁻¹)) * s = y + q * s * -c1 := by
      have := mul_inv_cancel₀ hs
      linear_combination (y - q * s * c - s * r1) * this
    rw [this, hv]; ring
  · dsimp only
    rw [mul_comm (y - _ - _), mul_inv_cancel_left₀ hs]; ring
  · dsimp only; ring
  · rintro ⟨a, b⟩ ⟨-, h2, h3⟩
    dsimp only at h2 h3
    refine Prod.ext ?_ ?_
    · dsimp only
      rw [eq_mul_inv_iff_mul_eq₀ hs]
      linear_combination h2
    · dsimp only
      linear_combination -h3

/-- **C147**: pairings of type A are such pairings, for every generator but `O`, if `r` does not divide the cofactor. -/
theorem C147_typeA {K : Type} [Field K] [DecidableEq K] [Fintype K] [Fact (∀ r : K, r ^ 2 ≠ -1 + 0 * r)] {p : PairingA.Params}
    {inv : K → K} (ht : PairingA.TypeA K p r inv) (hh : ¬ r ∣ p.h) {g : NonDeg.G1 K r} (hg : g ≠ 0) :
    Symm r (NonDeg.eG (K := K) r p.h) g where
  prime := ht.prime
  bil := NonDeg.apply_bilinear ht.valid.odd ht.cof
  card := NonDeg.C107_card ht.prime ht.cof hh
  gen := hg
  nondeg := ⟨g, by
    have h0 : g.1 ≠ 0 := fun h => hg (Subtype.ext h)
    rw [NonDeg.apply_eG]
    exact NonDeg.C107_ne ht.prime ht.valid.odd ht.cof hh h0 h0 (NonDeg.mem_G1.1 g.2) (NonDeg.mem_G1.1 g.2)⟩

section
local instance prime11 : Fact (Nat.Prime 11) := ⟨by norm_num⟩

/-- `Z_5` with `(a, b) ↦ 3^(ab)` modulo 11. -/
theorem symm5 : Symm 5 exMap 2 :=
  ⟨by norm_num, exMap_bilinear, by simp, by decide, 1, by decide +kernel⟩

/-- With key 3 and hash 1, `zss` accepts `2/4 = 3` and not `4`; `zhangkim` accepts something, which any run may have led to. -/
example : zssVerify exMap 2 (mulZn 2 (3 : ZMod 5)) (1 : ZMod 5) 3 = true ∧ zssVerify exMap 2 (mulZn 2 (3 : ZMod 5)) (1 : ZMod 5) 4 = false ∧
    ∃ ab : ZMod 5 × ZMod 5, zkBlind exMap (fun x => (x.val : ℤ)) (mulZn 2 (3 : ZMod 5)) 4 2 (mulZn 2 (2 : ZMod 5)) ab.1 ab.2 1 = (3 : ZMod 5) := by
  refine ⟨(C147_zss symm5 (x := 3) (H := 1) (by decide) 3).2 (by decide +kernel), Bool.eq_false_iff.2 fun hh => absurd ((C147_zss symm5 (x := 3) (H := 1) (by decide) 4).1 hh) (by decide +kernel), ?_⟩
  obtain ⟨ab, ⟨h1, -⟩, -⟩ := C147_blind symm5 (fun x => (x.val : ℤ)) 4 (s := 3) (by decide) 1 2 3
    (C147_zhangkim symm5 (fun x => (x.val : ℤ)) 4 3 1 4 2 1)
  exact ⟨ab, h1⟩

/-- `hess` and `paterson` accept what they make, and `hess` does not accept `(1, 1)`. -/
example : hessVerify exMap (fun x => (x.val : ℤ)) 2 (mulZn 2 (2 : ZMod 5)) 4 (1 : ZMod 5)
      (hessSign exMap (fun x => (x.val : ℤ)) 2 (mulZn 4 (2 : ZMod 5)) 3 3 1) = true ∧
    patersonVerify exMap (fun a => a + 1) 2 (mulZn 2 (3 : ZMod 5)) 4 (1 : ZMod 5)
      (patersonSign (fun a => a + 1) 2 (mulZn 4 (3 : ZMod 5)) 2 1) = true :=
  ⟨(C147_hess symm5 _ 4 2 1 (P1 := 3) (by decide) _).2 ⟨3, rfl⟩,
    (C147_paterson symm5 _ 4 3 1 (R := mulZn 2 (2 : ZMod 5)) (by decide) _).2 ⟨2, by decide, rfl⟩⟩

end

end Pbc.Schemes
