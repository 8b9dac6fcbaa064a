import Verif.Lemmas.FieldGeneric
import Verif.Spec.Generic
import Verif.Lemmas.Bytes
import Mathlib.FieldTheory.Finite.Basic
import Mathlib.Data.Nat.Digits.Lemmas
import Mathlib.Tactic.LinearCombination

/-!
# Lemmas about hashing to integers, square roots, number text and trial division
-/

namespace Pbc.Gen

open Spec

section hash

theorem hashFill_length (data : List ℕ) (room counter : ℕ) :
    (hashFill data room counter).length = room := by
  induction room using Nat.strong_induction_on generalizing counter with
  | _ room ih =>
    rw [hashFill]
    split
    · rename_i h; simpa using h
    · rename_i h
      simp only
      split
      · simp; omega
      · rw [List.length_append, List.length_cons, ih _ (by omega)]
        omega

theorem hashFill_get (data : List ℕ) (room counter i : ℕ) (hi : i < room) (hc : counter < 256) :
    (hashFill data room counter)[i]? = some (hashStream data counter i) := by
  induction room using Nat.strong_induction_on generalizing counter i with
  | _ room ih =>
    rw [hashFill]
    split
    · rename_i h
      have : i < data.length := by omega
      rw [List.getElem?_take_of_lt hi, hashStream, Nat.mod_eq_of_lt (by omega),
        List.getD_eq_getElem _ _ this, List.getElem?_eq_getElem this]
    · rename_i h
      have key : ∀ tail : List ℕ,
          (∀ j, j < room - data.length - 1 →
            tail[j]? = some (hashStream data ((counter + 1) % 256) j)) →
          (data ++ counter :: tail)[i]? = some (hashStream data counter i) := by
        intro tail ht
        rcases lt_trichotomy i data.length with h1 | h1 | h1
        · rw [List.getElem?_append_left h1, hashStream, Nat.mod_eq_of_lt (by omega),
            List.getD_eq_getElem _ _ h1, List.getElem?_eq_getElem h1]
        · subst h1
          rw [List.getElem?_append_right (le_refl _), hashStream, Nat.mod_eq_of_lt (by omega),
            List.getD_eq_default _ _ (le_refl _), Nat.div_eq_of_lt (by omega)]
          simp [Nat.mod_eq_of_lt hc]
        · obtain ⟨j, rfl⟩ : ∃ j, i = j + (data.length + 1) := ⟨i - (data.length + 1), by omega⟩
          rw [List.getElem?_append_right (by omega),
            show j + (data.length + 1) - data.length = j + 1 by omega, List.getElem?_cons_succ,
            ht j (by omega)]
          unfold hashStream
          rw [Nat.add_mod_right, Nat.add_div_right _ (by omega)]
          congr 2
          omega
      simp only
      split
      · rename_i h0
        exact key [] (by intro j hj; omega)
      · exact key _ (fun j hj => ih _ (by omega) _ _ hj (Nat.mod_lt _ (by norm_num)))

theorem hashFill_bytes (data : List ℕ) (room counter : ℕ) (hc : counter < 256)
    (hd : ∀ b ∈ data, b < 256) : ∀ b ∈ hashFill data room counter, b < 256 := by
  intro b hb
  obtain ⟨i, hi, rfl⟩ := List.getElem_of_mem hb
  rw [hashFill_length] at hi
  have := hashFill_get data room counter i hi hc
  rw [List.getElem?_eq_getElem (by rw [hashFill_length]; exact hi)] at this
  rw [Option.some.inj this, hashStream]
  rcases lt_or_ge (i % (data.length + 1)) data.length with h | h
  · rw [List.getD_eq_getElem _ _ h]; exact hd _ (List.getElem_mem _)
  · rw [List.getD_eq_default _ _ h]; exact Nat.mod_lt _ (by norm_num)

theorem hashShift_spec (limit z : ℕ) :
    ∃ k, hashShift limit z = z / 2 ^ k ∧ z / 2 ^ k ≤ limit ∧ ∀ j < k, limit < z / 2 ^ j := by
  induction z using Nat.strong_induction_on with
  | _ z ih =>
    rw [hashShift]
    split
    · rename_i h
      obtain ⟨k, h1, h2, h3⟩ := ih (z / 2) (by omega)
      have hk : ∀ j, z / 2 / 2 ^ j = z / 2 ^ (j + 1) := by
        intro j; rw [Nat.div_div_eq_div_mul, pow_succ, mul_comm]
      rw [hk] at h1 h2
      refine ⟨k + 1, h1, h2, ?_⟩
      intro j hj
      cases j with
      | zero => simpa using h
      | succ j => rw [← hk]; exact h3 j (by omega)
    · exact ⟨0, by simp, by simp; omega, by simp⟩

end hash

section tonelli
variable {K : Type*} [Field K] [DecidableEq K]

theorem scan1_spec : ∀ (fuel t : ℕ), 0 < t → t < 2 ^ fuel →
    2 ^ scan1 fuel t ∣ t ∧ t / 2 ^ scan1 fuel t % 2 = 1
  | 0, t, h, h' => by simp at h'; omega
  | fuel + 1, t, h, h' => by
    rw [scan1]
    split
    · simp; assumption
    · rename_i h2
      rw [pow_succ] at h'
      obtain ⟨h3, h4⟩ := scan1_spec fuel (t / 2) (by omega) (by omega)
      constructor
      · rw [pow_succ, mul_comm]
        exact (Nat.mul_dvd_mul_left 2 h3).trans (by rw [Nat.mul_div_cancel' (by omega)])
      · rw [pow_succ, mul_comm, ← Nat.div_div_eq_div_mul]; exact h4

theorem or_two_pow (e i : ℕ) (h : e < 2 ^ i) : e ||| 2 ^ i = e + 2 ^ i := by
  have := Nat.two_pow_add_eq_or_of_lt h 1
  rw [mul_one] at this
  rw [Nat.or_comm, ← this, add_comm]

theorem tonelliLoop_spec (q : ℕ) (a nqr : K) (hn : nqr ^ ((q - 1) / 2) = -1) (hn0 : nqr ≠ 0) (s : ℕ)
    (hs : 2 ^ s ∣ q - 1) : ∀ (steps i e : ℕ), i + steps = s + 1 → 2 ≤ i → 2 ∣ e → e < 2 ^ (i - 1) →
      (nqr⁻¹ ^ e * a) ^ ((q - 1) / 2 ^ (i - 1)) = 1 →
      ∃ e', tonelliLoop q a nqr⁻¹ steps i e = e' ∧ 2 ∣ e' ∧
        (nqr⁻¹ ^ e' * a) ^ ((q - 1) / 2 ^ s) = 1
  | 0, i, e, hi, _, he, _, h => by
    refine ⟨e, rfl, he, ?_⟩
    rw [← h]; congr 3; omega
  | steps + 1, i, e, hi, h2, he, hlt, h => by
    rw [tonelliLoop]
    have hdvd : 2 ^ i ∣ q - 1 := (pow_dvd_pow 2 (by omega)).trans hs
    obtain ⟨c, hc⟩ := hdvd
    obtain ⟨j, rfl⟩ : ∃ j, i = j + 1 := ⟨i - 1, by omega⟩
    simp only [Nat.add_sub_cancel] at hlt h ⊢
    have hpos : 0 < 2 ^ j := by positivity
    have e1 : (q - 1) / 2 ^ (j + 1) = c := by
      rw [hc]; exact Nat.mul_div_cancel_left _ (by positivity)
    have e2 : (q - 1) / 2 ^ j = c * 2 := by
      rw [hc, pow_succ, mul_assoc, Nat.mul_div_cancel_left _ hpos, mul_comm]
    have e3 : (q - 1) / 2 = 2 ^ j * c := by
      rw [hc, pow_succ, mul_right_comm]; exact Nat.mul_div_cancel _ (by norm_num)
    rw [e2, pow_mul, sq] at h
    rw [e1]
    have hcases : (nqr⁻¹ ^ e * a) ^ c = 1 ∨ (nqr⁻¹ ^ e * a) ^ c = -1 := mul_self_eq_one_iff.1 h
    by_cases hx : (nqr⁻¹ ^ e * a) ^ c = 1
    · rw [if_neg (by simpa using hx)]
      refine tonelliLoop_spec q a nqr hn hn0 s hs steps (j + 1 + 1) e (by omega) (by omega) he ?_ ?_
      · rw [Nat.add_sub_cancel, pow_succ]; omega
      · rw [Nat.add_sub_cancel, e1]; exact hx
    · rw [if_pos hx, or_two_pow _ _ hlt]
      refine tonelliLoop_spec q a nqr hn hn0 s hs steps (j + 1 + 1) (e + 2 ^ j) (by omega)
        (by omega) ?_ ?_ ?_
      · exact dvd_add he (dvd_pow_self 2 (by omega))
      · rw [Nat.add_sub_cancel, pow_succ]; omega
      · rw [Nat.add_sub_cancel, e1, pow_add, mul_right_comm, mul_pow, hcases.resolve_left hx,
          ← pow_mul, inv_pow, ← e3, hn]
        norm_num

theorem tonelli_sq (q : ℕ) (hq : q % 2 = 1) (hq1 : 1 < q) (a nqr : K)
    (hn : nqr ^ ((q - 1) / 2) = -1) (hn0 : nqr ≠ 0) (ha : a ^ ((q - 1) / 2) = 1) :
    tonelli q nqr a * tonelli q nqr a = a := by
  unfold tonelli
  simp only
  obtain ⟨hs, hodd⟩ := scan1_spec q (q - 1) (by omega) ((Nat.sub_le _ _).trans_lt Nat.lt_two_pow_self)
  set s := scan1 q (q - 1) with hsdef
  have hs1 : 1 ≤ s := by
    by_contra hc
    have : s = 0 := by omega
    rw [this] at hodd
    simp at hodd; omega
  obtain ⟨e, he, he2, hpow⟩ := tonelliLoop_spec q a nqr hn hn0 s hs (s - 1) 2 0 (by omega) (le_refl _)
    (by norm_num) (by norm_num) (by simpa using ha)
  rw [he]
  set t := (q - 1) / 2 ^ s
  obtain ⟨f, rfl⟩ := he2
  have ht : (t + 1) / 2 + (t + 1) / 2 = t + 1 := by omega
  rw [Nat.mul_div_cancel_left _ (by norm_num), mul_mul_mul_comm, ← pow_add, ← pow_add, ht, pow_succ,
    hpow, one_mul, ← two_mul, ← mul_assoc, ← mul_pow, mul_inv_cancel₀ hn0, one_pow, one_mul]

theorem tonelli_zero (q : ℕ) (hq : q % 2 = 1) (hq1 : 1 < q) (nqr : K) :
    tonelli q nqr 0 = 0 := by
  unfold tonelli
  simp only [mul_zero]
  obtain ⟨hs, hodd⟩ := scan1_spec q (q - 1) (by omega) ((Nat.sub_le _ _).trans_lt Nat.lt_two_pow_self)
  rw [zero_pow ?_, mul_zero]
  generalize (q - 1) / 2 ^ scan1 q (q - 1) = t at hodd
  omega

end tonelli

section text

/-- Characters that `pbc_mpz_set_str` accepts in base `b`. -/
def okChar (b c : ℕ) : Bool :=
  c ≠ 0 && (isSpace c || match digitVal c with | some j => j < b | none => false)

theorem setStrLoop_append (b : ℕ) : ∀ (pre post : List ℕ) (z i : ℕ),
    (∀ c ∈ pre, okChar b c = true) →
    setStrLoop b (pre ++ post) z i =
      setStrLoop b post ((pre.filterMap fun c => if isSpace c then none else digitVal c).foldl
        (fun acc j => acc * b + j) z) (i + pre.length)
  | [], post, z, i, _ => by simp
  | c :: pre, post, z, i, h => by
    have hc := h c (by simp)
    have ih := fun z i => setStrLoop_append b pre post z i (fun c hc => h c (by simp [hc]))
    unfold okChar at hc
    simp only [ne_eq, Bool.and_eq_true, decide_not, Bool.not_eq_true', decide_eq_false_iff_not,
      Bool.or_eq_true] at hc
    rw [List.cons_append, setStrLoop, if_neg hc.1]
    by_cases hs : isSpace c = true
    · rw [if_pos hs, ih, List.filterMap_cons, List.length_cons]
      simp only [hs, if_true]
      congr 1; omega
    · rw [if_neg hs]
      have hd := hc.2.resolve_left hs
      cases hv : digitVal c with
      | none => rw [hv] at hd; simp at hd
      | some j =>
        rw [hv] at hd
        simp only [decide_eq_true_eq] at hd
        simp only [ge_iff_le, not_le.2 hd, if_false]
        rw [ih, List.filterMap_cons, List.length_cons]
        simp only [hs, hv]
        simp only [Bool.false_eq_true, if_false, List.foldl_cons]
        congr 1; omega

theorem setStrLoop_stop (b c : ℕ) (s : List ℕ) (z i : ℕ) (h : okChar b c = false) :
    setStrLoop b (c :: s) z i = (z, i) := by
  unfold okChar at h
  rw [setStrLoop]
  by_cases h0 : c = 0
  · rw [if_pos h0]
  · rw [if_neg h0]
    simp only [ne_eq, h0, not_false_eq_true, decide_true, Bool.true_and, Bool.or_eq_false_iff] at h
    rw [if_neg (by simp [h.1])]
    cases hv : digitVal c with
    | none => rfl
    | some j =>
      have h2 := h.2
      rw [hv] at h2
      simp only [decide_eq_false_iff_not, not_lt] at h2
      simp [h2]

theorem setStrLoop_spec (b : ℕ) (s : List ℕ) :
    setStrLoop b s 0 0 =
      (((s.takeWhile (okChar b)).filterMap fun c => if isSpace c then none else digitVal c).foldl
        (fun acc j => acc * b + j) 0, (s.takeWhile (okChar b)).length) := by
  conv_lhs => rw [← List.takeWhile_append_dropWhile (p := okChar b) (l := s)]
  rw [setStrLoop_append _ _ _ _ _ (fun c hc => List.all_eq_true.1 List.all_takeWhile c hc)]
  rw [zero_add]
  cases hd : s.dropWhile (okChar b) with
  | nil => rfl
  | cons c t =>
    rw [setStrLoop_stop]
    have := List.head?_dropWhile_not (okChar b) s
    rw [hd] at this
    simpa using this

variable {σ : Type*}

/-- The digits of `z` in the base, most significant first, padded with zeros to `len` places. -/
def padded (base : ℕ) : ℕ → ℕ → List ℕ
  | 0, _ => []
  | len + 1, z => padded base len (z / base) ++ [z % base]

theorem padded_length (base : ℕ) : ∀ len z, (padded base len z).length = len
  | 0, _ => rfl
  | len + 1, z => by simp [padded, padded_length base len]

theorem padded_succ (base : ℕ) (hb : 0 < base) : ∀ (len z : ℕ), z < base ^ (len + 1) →
    padded base (len + 1) z = (z / base ^ len) :: padded base len (z % base ^ len)
  | 0, z, h => by
    rw [zero_add, pow_one] at h
    simp [padded, Nat.mod_eq_of_lt h]
  | len + 1, z, h => by
    have hlt : z / base < base ^ (len + 1) := by
      rw [Nat.div_lt_iff_lt_mul hb]
      rw [pow_succ] at h
      exact h
    rw [padded, padded_succ base hb len (z / base) hlt]
    conv_rhs => rw [padded]
    rw [List.cons_append, Nat.div_div_eq_div_mul, pow_succ]
    congr 2
    · rw [mul_comm]
    · rw [mul_comm (base ^ len) base, Nat.mod_mul_right_div_self]
    · rw [Nat.mod_mod_of_dvd _ (dvd_mul_left _ _)]

theorem padded_small (base : ℕ) : ∀ (len z : ℕ), z < base →
    padded base (len + 1) z = List.replicate len 0 ++ [z]
  | 0, z, h => by simp [padded, Nat.mod_eq_of_lt h]
  | len + 1, z, h => by
    rw [padded, Nat.div_eq_of_lt h, padded_small base len 0 (by omega), Nat.mod_eq_of_lt h,
      List.replicate_succ', List.append_assoc]

theorem trickleTail_eq (f : σ → ℕ → σ × ℕ) : ∀ (len z : ℕ) (st : σ),
    trickleTail f len z st = feed f ((List.replicate len 0 ++ [z]).map (48 + ·)) st
  | 0, z, st => by simp [trickleTail, feed]
  | len + 1, z, st => by
    rw [trickleTail, List.replicate_succ, List.cons_append, List.map_cons, feed]
    simp only [add_zero]
    by_cases h : (f st 48).2 = 0
    · rw [if_neg (by simpa using h), if_neg (by simp [h]), trickleTail_eq f len z]
    · rw [if_pos h, if_pos (Or.inl h)]

theorem trickleLoop_eq (f : σ → ℕ → σ × ℕ) (base : ℕ) (hb : 2 ≤ base) : ∀ (len z : ℕ) (st : σ),
    z < base ^ (len + 1) →
    trickleLoop f base len (base ^ len) z st
      = some (feed f ((padded base (len + 1) z).map (48 + ·)) st)
  | 0, z, st, h => by
    rw [zero_add, pow_one] at h
    rw [trickleLoop, if_neg (by omega), trickleTail_eq, padded_small base 0 z h]
  | len + 1, z, st, h => by
    rw [trickleLoop]
    by_cases hz : base ≤ z
    · rw [if_pos hz]
      have hpos : 0 < base := by omega
      rw [padded_succ base hpos _ _ h, List.map_cons, feed]
      simp only
      by_cases hres : (f st (48 + z / base ^ (len + 1))).2 = 0
      · have hne : ¬ ((f st (48 + z / base ^ (len + 1))).2 ≠ 0 ∨
            (padded base (len + 1) (z % base ^ (len + 1))).map (48 + ·) = []) := by
          push Not
          refine ⟨hres, ?_⟩
          intro hc
          have := congrArg List.length hc
          simp [padded_length] at this
        rw [if_neg (by simpa using hres), if_neg hne]
        have hd : base ^ (len + 1) % base = 0 := by
          rw [pow_succ]; exact Nat.mul_mod_left _ _
        have hq : base ^ (len + 1) / base = base ^ len := by
          rw [pow_succ]; exact Nat.mul_div_cancel _ hpos
        rw [if_neg (by simpa using hd), hq]
        exact trickleLoop_eq f base hb len _ _ (Nat.mod_lt _ (by positivity))
      · rw [if_pos hres, if_pos (Or.inl hres)]
    · rw [if_neg hz, trickleTail_eq, padded_small base (len + 1) z (by omega)]

theorem padded_ofDigits (base : ℕ) (hb : 0 < base) : ∀ (len z : ℕ), z < base ^ len →
    Nat.ofDigits base (padded base len z).reverse = z
  | 0, z, h => by simp at h; simp [padded, h]
  | len + 1, z, h => by
    have hlt : z / base < base ^ len := by
      rw [Nat.div_lt_iff_lt_mul hb, ← pow_succ]; exact h
    rw [padded, List.reverse_append, List.reverse_singleton, List.singleton_append,
      Nat.ofDigits_cons, padded_ofDigits base hb len _ hlt]
    exact Nat.mod_add_div z base

theorem padded_lt (base : ℕ) (hb : 0 < base) : ∀ (len z : ℕ), ∀ d ∈ padded base len z, d < base
  | 0, z, d, h => by simp [padded] at h
  | len + 1, z, d, h => by
    rw [padded, List.mem_append, List.mem_singleton] at h
    rcases h with h | rfl
    · exact padded_lt base hb len _ d h
    · exact Nat.mod_lt _ hb

end text

section trial
variable {σ : Type*}

theorem nextPrime_spec (p : ℕ) :
    (nextPrime p).Prime ∧ p < nextPrime p ∧ ∀ r, r.Prime → p < r → nextPrime p ≤ r := by
  classical
  have h := Nat.find_spec (Nat.exists_infinite_primes (p + 1))
  refine ⟨h.2, h.1, ?_⟩
  intro r hr hlt
  exact Nat.find_min' _ ⟨hlt, hr⟩

theorem divOut_spec (p : ℕ) (hp : 2 ≤ p) : ∀ (fuel m mul : ℕ), 0 < m → m ≤ fuel → p ∣ m →
    ∃ m' k, divOut p fuel m mul = some (m', mul + k) ∧ 1 ≤ k ∧ m = p ^ k * m' ∧ ¬ p ∣ m'
  | 0, m, mul, h0, hf, _ => absurd hf (by omega)
  | fuel + 1, m, mul, h0, hf, hd => by
    have hmul : p * (m / p) = m := Nat.mul_div_cancel' hd
    have hlt : m / p < m := Nat.div_lt_self h0 (by omega)
    have hpos : 0 < m / p := Nat.div_pos (Nat.le_of_dvd h0 hd) (by omega)
    rw [divOut]
    by_cases hd' : p ∣ m / p
    · obtain ⟨m', k, h1, h2, h3, h4⟩ := divOut_spec p hp fuel (m / p) (mul + 1) hpos (by omega) hd'
      refine ⟨m', k + 1, ?_, by omega, ?_, h4⟩
      · simp only [hd', if_true, h1]
        congr 2; omega
      · rw [← hmul, h3, pow_succ]; ring
    · refine ⟨m / p, 1, ?_, le_refl _, ?_, hd'⟩
      · simp only [hd', if_false]
      · rw [pow_one, hmul]

theorem _root_.Spec.Factored.cons {limit : Option ℕ} {p p' k m : ℕ} {fs : List (ℕ × ℕ)} (hpp : p < p')
    (hk : 1 ≤ k) (hp : p.Prime) (h : Factored limit p' m fs) :
    Factored limit p (p ^ k * m) ((p, k) :: fs) where
  prod := by simp [h.prod]
  ge := by
    intro x hx
    rcases List.mem_cons.1 hx with rfl | hx
    · exact le_refl _
    · exact hpp.le.trans (h.ge x hx)
  sorted := by
    rw [List.map_cons, List.pairwise_cons]
    refine ⟨?_, h.sorted⟩
    intro a ha
    obtain ⟨x, hx, rfl⟩ := List.mem_map.1 ha
    exact hpp.trans_le (h.ge x hx)
  mult := by
    intro x hx
    rcases List.mem_cons.1 hx with rfl | hx
    · exact hk
    · exact h.mult x hx
  prime := by
    intro x hx
    cases fs with
    | nil => simp at hx
    | cons y ys =>
      rw [List.dropLast_cons_cons] at hx
      rcases List.mem_cons.1 hx with rfl | hx
      · exact hp
      · exact h.prime x hx
  last := by
    intro x hx
    rcases List.mem_cons.1 hx with rfl | hx
    · exact Or.inl hp
    · exact h.last x hx

theorem _root_.Spec.Factored.single {limit : Option ℕ} {p m : ℕ} (hpm : p ≤ m)
    (h : m.Prime ∨ ∃ l, limit = some l ∧ ∀ r, r.Prime → r ∣ m → l < r) :
    Factored limit p m [(m, 1)] where
  prod := by simp
  ge := by simpa using hpm
  sorted := by simp
  mult := by simp
  prime := by simp
  last := by simpa using h

theorem _root_.Spec.Factored.mono {limit : Option ℕ} {p p' m : ℕ} {fs : List (ℕ × ℕ)} (hpp : p ≤ p')
    (h : Factored limit p' m fs) : Factored limit p m fs :=
  ⟨h.prod, fun x hx => hpp.trans (h.ge x hx), h.sorted, h.mult, h.prime, h.last⟩

theorem trialLoop_spec (f : σ → ℕ → ℕ → σ × Bool) (limit : Option ℕ) (n : ℕ) :
    ∀ (fuel p m : ℕ), 0 < m → m ≤ n → p.Prime → (∀ r, r.Prime → r ∣ m → p ≤ r) →
      (m ≠ 1 → 2 * n + 3 ≤ fuel + p) → 1 ≤ fuel →
      ∃ fs, Factored limit p m fs ∧
        ∀ st, trialLoop f limit fuel p m st = some (feedFactors f fs st)
  | 0, _, _, _, _, _, _, _, h => absurd h (by omega)
  | fuel + 1, p, m, hm, hmn, hp, hfac, hfuel, _ => by
    by_cases h1 : m = 1
    · refine ⟨[], ⟨by simp [h1], by simp, by simp, by simp, by simp, by simp⟩, ?_⟩
      intro st
      rw [trialLoop, if_pos h1]; rfl
    · have hfuel := hfuel h1
      obtain ⟨r, hr, hrm⟩ := Nat.exists_prime_and_dvd h1
      have hpm : p ≤ m := (hfac r hr hrm).trans (Nat.le_of_dvd hm hrm)
      -- the prime used in this iteration
      have hwhole : (m.Prime ∨ ∃ l, limit = some l ∧ ∀ r, r.Prime → r ∣ m → l < r) →
          ∃ fs, Factored limit p m fs ∧ ∀ st,
            (match divOut m fuel m 0 with
              | none => none
              | some (m', mul) =>
                let (st, abort) := f st m mul
                if abort then some (st, 1) else trialLoop f limit fuel (nextPrime m) m' st)
              = some (feedFactors f fs st) := by
        intro hlast
        refine ⟨[(m, 1)], Factored.single hpm hlast, ?_⟩
        intro st
        obtain ⟨m', k, hd1, hd2, hd3, hd4⟩ := divOut_spec m (by omega) fuel m 0 hm (by omega) dvd_rfl
        have hk : k = 1 ∧ m' = 1 := by
          have hm' : m' ≠ 0 := by rintro rfl; simp at hd4
          obtain ⟨k, rfl⟩ : ∃ j, k = j + 1 := ⟨k - 1, by omega⟩
          have : m * 1 = m * (m ^ k * m') := by rw [mul_one, ← mul_assoc, ← pow_succ', ← hd3]
          have := Nat.eq_of_mul_eq_mul_left hm this
          have h2 := Nat.eq_one_of_mul_eq_one_left this.symm
          have h3 := Nat.eq_one_of_mul_eq_one_right this.symm
          refine ⟨?_, by omega⟩
          by_contra hc
          exact h1 (Nat.dvd_one.1 ((dvd_pow_self m (by omega)).trans (dvd_of_eq h3)))
        rw [hd1, hk.1, hk.2]
        simp only [zero_add, feedFactors]
        by_cases hab : (f st m 1).2 = true
        · simp [hab]
        · rw [if_neg hab, if_neg hab]
          obtain ⟨g, rfl⟩ : ∃ g, fuel = g + 1 := ⟨fuel - 1, by omega⟩
          rw [trialLoop, if_pos rfl]
      by_cases hmp : m.Prime
      · obtain ⟨fs, hF, heq⟩ := hwhole (Or.inl hmp)
        refine ⟨fs, hF, ?_⟩
        intro st
        rw [trialLoop, if_neg h1]
        have : overLimit limit m m = m := by
          cases limit <;> simp [overLimit]
        simp only [hmp, if_true, this, dvd_refl]
        exact heq st
      · by_cases hlim : ∃ l, limit = some l ∧ p > l
        · obtain ⟨l, rfl, hl⟩ := hlim
          obtain ⟨fs, hF, heq⟩ := hwhole (Or.inr ⟨l, rfl, fun r hr hrm => hl.trans_le (hfac r hr hrm)⟩)
          refine ⟨fs, hF, ?_⟩
          intro st
          rw [trialLoop, if_neg h1]
          have hsel : overLimit (some l) m p = m := by simp [overLimit, hl]
          simp only [hmp, if_false, hsel, if_true, dvd_refl]
          exact heq st
        · have hsel : overLimit limit m p = p := by
            cases limit with
            | none => rfl
            | some l =>
              simp only [Option.some.injEq, exists_eq_left', not_lt] at hlim
              simp [overLimit, not_lt.2 hlim]
          obtain ⟨hn1, hn2, hn3⟩ := nextPrime_spec p
          by_cases hdvd : p ∣ m
          · obtain ⟨m', k, hd1, hd2, hd3, hd4⟩ :=
              divOut_spec p hp.two_le fuel m 0 hm (by omega) hdvd
            have hm'0 : 0 < m' := Nat.pos_of_ne_zero (by rintro rfl; simp at hd4)
            have hm'n : m' ∣ m := ⟨p ^ k, by rw [hd3]; ring⟩
            obtain ⟨fs, hF, heq⟩ := trialLoop_spec f limit n fuel (nextPrime p) m' hm'0
              ((Nat.le_of_dvd hm hm'n).trans hmn) hn1 (by
                intro r hr hrm'
                refine hn3 r hr (lt_of_le_of_ne (hfac r hr (hrm'.trans hm'n)) ?_)
                rintro rfl; exact hd4 hrm') (by intro _; omega) (by omega)
            refine ⟨(p, k) :: fs, ?_, ?_⟩
            · rw [hd3]; exact Factored.cons hn2 hd2 hp hF
            · intro st
              rw [trialLoop, if_neg h1]
              simp only [hmp, if_false, hsel, hdvd, if_true, hd1, zero_add, feedFactors]
              by_cases hab : (f st p k).2 = true
              · simp [hab]
              · rw [if_neg hab, if_neg hab]; exact heq _
          · obtain ⟨fs, hF, heq⟩ := trialLoop_spec f limit n fuel (nextPrime p) m hm hmn hn1 (by
                intro r hr hrm
                refine hn3 r hr (lt_of_le_of_ne (hfac r hr hrm) ?_)
                rintro rfl; exact hdvd hrm) (by intro _; omega) (by omega)
            refine ⟨fs, hF.mono hn2.le, ?_⟩
            intro st
            rw [trialLoop, if_neg h1]
            simp only [hmp, if_false, hsel, hdvd]
            exact heq st

theorem divOut_zero (p : ℕ) : ∀ fuel mul, divOut p fuel 0 mul = none
  | 0, _ => rfl
  | fuel + 1, mul => by simp [divOut, divOut_zero p fuel]

end trial

end Pbc.Gen

namespace Pbc.Gen
open Spec

theorem isSpace_eq (c : ℕ) : isSpace c = isSpaceByte c := by
  rcases Nat.lt_or_ge c 128 with h | h
  · revert c; decide
  · have h1 : isSpace c = false := by simp [isSpace]; omega
    have h2 : isSpaceByte c = false := by
      simp only [isSpaceByte, spaceChars, List.map, List.contains_eq_mem, decide_eq_false_iff_not]
      intro hm
      fin_cases hm <;> revert h <;> decide
    rw [h1, h2]

theorem digitOf_eq (b c : ℕ) (hb : b ≤ 36) :
    digitOf b c = (digitVal c).filter (· < b) := by
  rcases Nat.lt_or_ge c 128 with h | h
  · have : ∀ b < 37, ∀ c < 128, digitOf b c = (digitVal c).filter (· < b) := by decide +kernel
    exact this b (by omega) c h
  · have h1 : digitVal c = none := by unfold digitVal; split_ifs <;> first | omega | rfl
    rw [h1, Option.filter_none]
    unfold digitOf
    rw [List.find?_eq_none]
    intro j hj
    have hj : j < 36 := by have := List.mem_range.1 hj; omega
    have key : ∀ j < 36, ∀ x, ((digitChars[j]?).map Char.toNat = some x ∨
        (digitCharsUpper[j]?).map Char.toNat = some x) → x < 128 := by
      intro j hj x hx
      interval_cases j <;> rcases hx with hx | hx <;> (have := Option.some.inj hx; subst this; decide)
    simp only [decide_eq_true_eq]
    intro hx
    have := key j hj c hx
    omega

end Pbc.Gen
