import Verif.Model.ListCurves
import Verif.Props.Mnt

/-! # C146: which curves the generating and listing programs find

Also strengthens C59: with the discriminants that `gengparam` accepts the wrong sign does no harm. -/

set_option autoImplicit false

namespace Pbc.ListCurves

open Pbc.Mnt Props

/-! ## The discriminants tried -/

theorem mntTried_mem {maxD D : ℕ} (hm : maxD % 4 = 0) (hD : D % 4 = 3) (x : ℕ) :
    x ∈ mntTried maxD D ↔ D ≤ x ∧ x ≤ maxD ∧ (x % 4 = 3 ∨ x % 4 = 0) := by
  induction hk : maxD - D using Nat.strong_induction_on generalizing D with
  | _ k ih =>
    rw [mntTried]
    split_ifs with h
    · rw [List.mem_cons, List.mem_cons, ih _ (by omega) (by omega) rfl]
      omega
    · simp only [List.not_mem_nil, false_iff]
      omega

theorem mntTried_sorted (maxD D : ℕ) : (mntTried maxD D).Pairwise (· < ·) ∧ ∀ x ∈ mntTried maxD D, D ≤ x := by
  induction hk : maxD - D using Nat.strong_induction_on generalizing D with
  | _ k ih =>
    rw [mntTried]
    split_ifs with h
    · obtain ⟨h1, h2⟩ := ih _ (by omega) (D + 1 + 3) rfl
      refine ⟨List.pairwise_cons.2 ⟨?_, List.pairwise_cons.2 ⟨?_, h1⟩⟩, ?_⟩
      · intro x hx
        rcases List.mem_cons.1 hx with rfl | hx
        · omega
        · have := h2 x hx; omega
      · intro x hx
        have := h2 x hx; omega
      · intro x hx
        rcases List.mem_cons.1 hx with rfl | hx
        · omega
        rcases List.mem_cons.1 hx with rfl | hx
        · omega
        · have := h2 x hx; omega
    · simp

theorem freemanTried_mem {maxD D : ℕ} (hD : D % 120 = 0) (x : ℕ) :
    x ∈ freemanTried maxD D ↔ D ≤ x ∧ x / 120 * 120 < maxD ∧ (x % 120 = 43 ∨ x % 120 = 67) := by
  induction hk : maxD - D using Nat.strong_induction_on generalizing D with
  | _ k ih =>
    rw [freemanTried]
    split_ifs with h
    · rw [List.mem_cons, List.mem_cons, ih _ (by omega) (by omega) rfl]
      omega
    · simp only [List.not_mem_nil, false_iff]
      omega

theorem lines_mem {find : ℕ → Option (List CM)} {l : List ℕ} {out : List (ℕ × ℕ × ℕ)} (h : lines find l = some out)
    (y : ℕ × ℕ × ℕ) : y ∈ out ↔ ∃ D ∈ l, ∃ cms, find D = some cms ∧ ∃ cm ∈ cms,
      y = (D, Nat.size cm.q.natAbs, Nat.size cm.r.natAbs) := by
  induction l generalizing out with
  | nil => rw [lines] at h; cases h; simp
  | cons D l ih =>
    rw [lines, Option.bind_eq_some_iff] at h
    obtain ⟨cms, h1, h2⟩ := h
    rw [Option.map_eq_some_iff] at h2
    obtain ⟨rest, h3, rfl⟩ := h2
    rw [List.mem_append, ih h3, List.mem_map]
    constructor
    · rintro (⟨cm, h4, rfl⟩ | ⟨D', h4, h5⟩)
      · exact ⟨D, by simp, cms, h1, cm, h4, rfl⟩
      · exact ⟨D', by simp [h4], h5⟩
    · rintro ⟨D', h4, cms', h5, cm, h6, rfl⟩
      rcases List.mem_cons.1 h4 with rfl | h4
      · rw [h1] at h5
        cases h5
        exact .inl ⟨cm, h6, rfl⟩
      · exact .inr ⟨D', h4, cms', h5, cm, h6, rfl⟩

/-! ## MNT curves -/

/-- **C146**: a discriminant for which the search for MNT curves reports anything is 3 modulo 8, and not 3. -/
theorem C146_mnt_needs (pp : ℤ → Bool) (np : ℤ → ℤ) (stop : CM → Bool) (D bitlimit fuel : ℕ) (hD : 0 < D)
    (hr : 3 * D < 2 ^ 32) {l : List CM} (h : searchD pp np stop D bitlimit fuel = some l) {cm : CM} (hm : cm ∈ l) :
    D % 8 = 3 ∧ 11 ≤ D := by
  have h' := h
  rw [searchD] at h
  have e : D * 3 % 2 ^ 32 = D * 3 := Nat.mod_eq_of_lt (by omega)
  rw [e] at h
  obtain ⟨U, V, h1, h2⟩ := search_sound (by exact_mod_cast (by omega : 0 < D * 3)) _ _ _ _ l h cm hm
  have h3 : D ≠ 3 := by
    rintro rfl
    rw [search, if_pos (by decide +kernel)] at h
    cases h
    simp at hm
  have hU : U % 2 = 1 := by
    rw [mntStep2] at h2
    dsimp only at h2
    by_cases c : U % 6 ≠ 1 ∧ U % 6 ≠ 5
    · rw [if_pos c] at h2; simp at h2
    · omega
  have h8 : D % 8 = 3 := by
    have e1 : U * U % 8 = 1 := by
      have : U % 8 = 1 ∨ U % 8 = 3 ∨ U % 8 = 5 ∨ U % 8 = 7 := by omega
      rw [Int.mul_emod]
      rcases this with h | h | h | h <;> rw [h] <;> rfl
    push_cast at h1
    have e2 : ((D : ℤ) * 3 * (V * V)) % 8 = 1 := by
      have : (D : ℤ) * 3 * (V * V) = U * U + 8 := by linear_combination -h1
      omega
    have hV : V * V % 8 = 0 ∨ V * V % 8 = 1 ∨ V * V % 8 = 4 := by
      have : V % 8 = 0 ∨ V % 8 = 1 ∨ V % 8 = 2 ∨ V % 8 = 3 ∨ V % 8 = 4 ∨ V % 8 = 5 ∨ V % 8 = 6 ∨ V % 8 = 7 := by omega
      rw [Int.mul_emod]
      rcases this with h | h | h | h | h | h | h | h <;> rw [h] <;> decide
    rw [Int.mul_emod] at e2
    rcases hV with h | h | h <;> rw [h] at e2 <;> omega
  omega

/-- **C146**: the list of MNT curves, made without an argument, has a line for every curve that the search reports for any
discriminant up to 10⁹, and no other line; the discriminants are in order. -/
theorem C146_mnt_list (pp : ℤ → Bool) (np : ℤ → ℤ) (bitlimit fuel : ℕ) {Ds : List ℕ} (hm : mntMain none = some Ds)
    {out : List (ℕ × ℕ × ℕ)}
    (h : lines (fun D => searchD pp np (fun _ => false) D bitlimit fuel) Ds = some out) :
    Ds.Pairwise (· < ·) ∧ ∀ D qbits rbits, (D, qbits, rbits) ∈ out ↔ 0 < D ∧ D ≤ 1000000000 ∧
      ∃ l, searchD pp np (fun _ => false) D bitlimit fuel = some l ∧
        ∃ cm ∈ l, qbits = Nat.size cm.q.natAbs ∧ rbits = Nat.size cm.r.natAbs := by
  rw [mntMain] at hm
  obtain rfl := Option.some.inj hm
  refine ⟨(mntTried_sorted _ _).1, fun D qb rb => ?_⟩
  rw [lines_mem h]
  constructor
  · rintro ⟨D', h1, l, h2, cm, h3, e⟩
    rw [Prod.mk.injEq, Prod.mk.injEq] at e
    obtain ⟨rfl, rfl, rfl⟩ := e
    rw [mntTried_mem (by norm_num) (by norm_num)] at h1
    exact ⟨by omega, h1.2.1, l, h2, cm, h3, rfl, rfl⟩
  · rintro ⟨h0, h1, l, h2, cm, h3, rfl, rfl⟩
    obtain ⟨h4, h5⟩ := C146_mnt_needs pp np _ D bitlimit fuel h0 (by omega) h2 h3
    exact ⟨D, (mntTried_mem (by norm_num) (by norm_num) D).2 ⟨by omega, h1, by omega⟩, l, h2, cm, h3, rfl⟩

/-- **C146**: with an argument the same from there on, unless the argument is refused. -/
theorem C146_mnt_from (z : ℤ) (h0 : 0 ≤ z) (h1 : z < 2 ^ 31) : (mntMain (some z) = none ↔ z < 7 ∨ z % 4 ≠ 3) ∧
    ∀ Ds, mntMain (some z) = some Ds → ∀ D : ℕ, D ∈ Ds ↔ z ≤ D ∧ D ≤ 1000000000 ∧ (D % 4 = 3 ∨ D % 4 = 0) := by
  have e : (toUnsigned z : ℤ) = z := by
    rw [toUnsigned]
    have : z % 2 ^ 32 = z := Int.emod_eq_of_lt h0 (by omega)
    omega
  simp only [mntMain]
  split_ifs with hc
  · exact ⟨by simp; omega, by simp⟩
  · refine ⟨by simp; omega, fun Ds hD D => ?_⟩
    obtain rfl := Option.some.inj hD
    rw [mntTried_mem (by norm_num) (by omega)]
    omega

/-- **C146**: `gendparam` accepts every positive discriminant that is 0 or 3 modulo 4, and no other; so it refuses none for
which there is a curve. -/
theorem C146_gend (z : ℤ) : (gendD (some z) = some z ↔ 0 < z ∧ (z % 4 = 0 ∨ z % 4 = 3)) ∧
    (gendD (some z) = none ↔ ¬ (0 < z ∧ (z % 4 = 0 ∨ z % 4 = 3))) := by
  have e : 0 < z → Int.tmod z 4 = z % 4 := fun h => Int.tmod_eq_emod_of_nonneg h.le
  simp only [gendD]
  by_cases h : z ≤ 0
  · rw [if_pos (.inl h)]
    exact ⟨by simp; omega, by simp; omega⟩
  · rw [e (by omega)]
    split_ifs with hc
    · exact ⟨by simp; omega, by simp; omega⟩
    · exact ⟨by simp; omega, by simp; omega⟩

/-! ## Freeman curves -/

/-- What a tested number `q` of the form of the Freeman curves says about `x`. -/
theorem freeman_x {x q : ℤ} (hq : q = 25 * x ^ 4 + 25 * x ^ 3 + 25 * x ^ 2 + 10 * x + 3) (hp : q.natAbs.Prime) :
    x = 0 ∨ x % 2 = 0 ∧ x % 3 = 1 := by
  have h2 : x % 2 = 0 := by
    by_contra hc
    have e : q % 2 = 0 := by
      obtain ⟨k, rfl⟩ : ∃ k, x = 2 * k + 1 := ⟨x / 2, by omega⟩
      have : q = 2 * (200 * k ^ 4 + 500 * k ^ 3 + 500 * k ^ 2 + 235 * k + 44) := by rw [hq]; ring
      omega
    have : 2 ∣ q.natAbs := by omega
    have h := (Nat.prime_dvd_prime_iff_eq Nat.prime_two hp).1 this
    have h5 : q % 5 = 3 := by
      have : q = 5 * (5 * x ^ 4 + 5 * x ^ 3 + 5 * x ^ 2 + 2 * x) + 3 := by rw [hq]; ring
      omega
    have hq2 : q = -2 := by omega
    have h1 : x * (5 * x ^ 3 + 5 * x ^ 2 + 5 * x + 2) = -1 := by linarith
    have : x = 1 ∨ x = -1 := Int.isUnit_iff.1 (IsUnit.of_mul_eq_one (-(5 * x ^ 3 + 5 * x ^ 2 + 5 * x + 2)) (by linarith))
    rcases this with rfl | rfl <;> omega
  by_cases h3 : x % 3 = 1
  · exact .inr ⟨h2, h3⟩
  left
  have e : q % 3 = 0 := by
    have : x % 3 = 0 ∨ x % 3 = 2 := by omega
    rcases this with h | h
    · obtain ⟨k, rfl⟩ : ∃ k, x = 3 * k := ⟨x / 3, by omega⟩
      have : q = 3 * (675 * k ^ 4 + 225 * k ^ 3 + 75 * k ^ 2 + 10 * k + 1) := by rw [hq]; ring
      omega
    · obtain ⟨k, rfl⟩ : ∃ k, x = 3 * k + 2 := ⟨x / 3, by omega⟩
      have : q = 3 * (675 * k ^ 4 + 2025 * k ^ 3 + 2325 * k ^ 2 + 1210 * k + 241) := by rw [hq]; ring
      omega
  have : 3 ∣ q.natAbs := by omega
  have h := (Nat.prime_dvd_prime_iff_eq Nat.prime_three hp).1 this
  have h5 : q % 5 = 3 := by
    have : q = 5 * (5 * x ^ 4 + 5 * x ^ 3 + 5 * x ^ 2 + 2 * x) + 3 := by rw [hq]; ring
    omega
  have hq3 : q = 3 := by omega
  have h1 : x * (5 * (x ^ 3 + x ^ 2 + x) + 2) = 0 := by linarith
  rcases mul_eq_zero.1 h1 with h | h
  · exact h
  · omega

theorem sq_mod3 (V : ℤ) : V * V % 3 = 0 ∧ V % 3 = 0 ∨ V * V % 3 = 1 := by
  have : V % 3 = 0 ∨ V % 3 = 1 ∨ V % 3 = 2 := by omega
  rw [Int.mul_emod]
  rcases this with h | h | h <;> simp [h]

/-- **C59**, strengthened: for discriminants that are 1 modulo 3 (as those that `gengparam` accepts), every curve reported
satisfies the equation of the complex multiplication method: the wrong sign leads to multiples of 3 only. -/
theorem C59_guarded {pp : ℤ → Bool} (hpp : ∀ n, pp n = true → n.natAbs.Prime) (np : ℤ → ℤ) (stop : CM → Bool)
    (D bitlimit fuel : ℕ) (hD : D % 3 = 1) {l : List CM} (h : searchG pp np stop D bitlimit fuel = some l) :
    ∀ cm ∈ l, CMCurve pp D cm := by
  intro cm hm
  rw [searchG] at h
  obtain ⟨U, V, h1, h2⟩ := search_sound (by exact_mod_cast (by omega : 0 < D * 15)) _ _ _ _ l h cm hm
  have hU : U * U - 15 * D * (V * V) = -20 := by linear_combination h1
  rcases C59_no_die D U V hU with h5 | h10
  · exact C59_cm_partial pp np fuel D U V cm hU h5 h2
  · exfalso
    obtain ⟨x, hx, hk, hd, hq, hn, hh, h3, h4⟩ := freemanStep2_spec pp np fuel D U cm h2
    have hx : 15 * x - 5 = U := by omega
    have hDV : (D : ℤ) * (V * V) = 15 * (x * x) - 10 * x + 3 := by
      have : 15 * ((D : ℤ) * (V * V)) = 15 * (15 * (x * x) - 10 * x + 3) := by
        subst hx
        linear_combination -hU
      exact Int.eq_of_mul_eq_mul_left (by norm_num) this
    have hD' : (D : ℤ) % 3 = 1 := by omega
    have hm3 : (D : ℤ) * (V * V) % 3 = V * V % 3 := by rw [Int.mul_emod, hD', one_mul, Int.emod_emod]
    rcases freeman_x hq (hpp _ h3) with rfl | ⟨-, hx3⟩
    · rcases sq_mod3 V with ⟨-, hV⟩ | hV
      · obtain ⟨k, rfl⟩ : ∃ k, V = 3 * k := ⟨V / 3, by omega⟩
        have : 9 * ((D : ℤ) * (k * k)) = 3 := by linear_combination hDV
        omega
      · omega
    · have e : (15 * (x * x) - 10 * x + 3) % 3 = 2 := by omega
      rcases sq_mod3 V with ⟨hV, -⟩ | hV <;> omega

/-- **C146**: the other way round, a discriminant for which there is a curve reported that satisfies the equation is 43 or 67
modulo 120. -/
theorem C146_freeman_needs {pp : ℤ → Bool} (hpp : ∀ n, pp n = true → n.natAbs.Prime) (np : ℤ → ℤ) (stop : CM → Bool)
    (D bitlimit fuel : ℕ) (hD : 0 < D) {l : List CM} (h : searchG pp np stop D bitlimit fuel = some l) {cm : CM}
    (hm : cm ∈ l) (hc : CMCurve pp D cm) : D % 120 = 43 ∨ D % 120 = 67 := by
  rw [searchG] at h
  obtain ⟨U, V', -, h2⟩ := search_sound (by exact_mod_cast (by omega : 0 < D * 15)) _ _ _ _ l h cm hm
  obtain ⟨x, -, hk, hd, hq, hn, hh, h3, h4⟩ := freemanStep2_spec pp np fuel D U cm h2
  obtain ⟨V, hV⟩ := hc.eqn
  have hDV : (D : ℤ) * (V * V) = 15 * (x * x) + 10 * x + 3 := by
    rw [← hV, hq, hn]
    ring
  rcases freeman_x hq (hpp _ h3) with rfl | ⟨hx2, hx3⟩
  · exfalso
    have h1 : cm.h * cm.r = 1 := by rw [hh, hn]; norm_num
    have : cm.r = 1 ∨ cm.r = -1 := Int.isUnit_iff.1 (IsUnit.of_mul_eq_one cm.h (by linarith))
    have hp := hpp _ h4
    rcases this with h | h <;> rw [h] at hp <;> norm_num at hp
  · have e3 : (D : ℤ) % 3 = 1 := by
      have e : (15 * (x * x) + 10 * x + 3) % 3 = 1 := by omega
      rw [← hDV, Int.mul_emod] at e
      rcases sq_mod3 V with ⟨hV, -⟩ | hV <;> rw [hV] at e <;> omega
    have e8 : (D : ℤ) % 8 = 3 := by
      have e : (15 * (x * x) + 10 * x + 3) % 8 = 3 := by
        obtain ⟨k, rfl⟩ : ∃ k, x = 2 * k := ⟨x / 2, by omega⟩
        have h1 : k * (k + 1) % 2 = 0 := Int.even_iff.1 (Int.even_mul_succ_self k)
        have : 15 * (2 * k * (2 * k)) + 10 * (2 * k) + 3 = 8 * (7 * (k * k) + 2 * k) + 4 * (k * (k + 1)) + 3 := by ring
        omega
      have hV : V * V % 8 = 0 ∨ V * V % 8 = 1 ∨ V * V % 8 = 4 := by
        have : V % 8 = 0 ∨ V % 8 = 1 ∨ V % 8 = 2 ∨ V % 8 = 3 ∨ V % 8 = 4 ∨ V % 8 = 5 ∨ V % 8 = 6 ∨ V % 8 = 7 := by omega
        rw [Int.mul_emod]
        rcases this with h | h | h | h | h | h | h | h <;> rw [h] <;> decide
      rw [← hDV, Int.mul_emod] at e
      rcases hV with h | h | h <;> rw [h] at e <;> omega
    have e5 : (D : ℤ) % 5 = 2 ∨ (D : ℤ) % 5 = 3 := by
      have e : (15 * (x * x) + 10 * x + 3) % 5 = 3 := by omega
      have hV : V * V % 5 = 0 ∨ V * V % 5 = 1 ∨ V * V % 5 = 4 := by
        have : V % 5 = 0 ∨ V % 5 = 1 ∨ V % 5 = 2 ∨ V % 5 = 3 ∨ V % 5 = 4 := by omega
        rw [Int.mul_emod]
        rcases this with h | h | h | h | h <;> rw [h] <;> decide
      rw [← hDV, Int.mul_emod] at e
      rcases hV with h | h | h <;> rw [h] at e <;> omega
    omega

/-- **C146**: the list of Freeman curves, made without an argument, has a line for every curve that the search reports for any
discriminant up to 10⁹ and that satisfies the equation of the complex multiplication method; and every line is for such a
curve. -/
theorem C146_freeman_list {pp : ℤ → Bool} (hpp : ∀ n, pp n = true → n.natAbs.Prime) (np : ℤ → ℤ) (bitlimit fuel : ℕ)
    {Ds : List ℕ} (hm : freemanMain none = some Ds) {out : List (ℕ × ℕ × ℕ)}
    (h : lines (fun D => searchG pp np (fun _ => false) D bitlimit fuel) Ds = some out) :
    (∀ D ≤ 1000000000, 0 < D → ∀ l, searchG pp np (fun _ => false) D bitlimit fuel = some l → ∀ cm ∈ l, CMCurve pp D cm →
      (D, Nat.size cm.q.natAbs, Nat.size cm.r.natAbs) ∈ out) ∧
    ∀ D qbits rbits, (D, qbits, rbits) ∈ out → ∃ l, searchG pp np (fun _ => false) D bitlimit fuel = some l ∧
      ∃ cm ∈ l, CMCurve pp D cm ∧ qbits = Nat.size cm.q.natAbs ∧ rbits = Nat.size cm.r.natAbs := by
  rw [freemanMain] at hm
  obtain rfl := Option.some.inj hm
  constructor
  · intro D hD h0 l hl cm hcm hc
    rw [lines_mem h]
    refine ⟨D, (freemanTried_mem (by norm_num) D).2 ⟨by omega, ?_, ?_⟩, l, hl, cm, hcm, rfl⟩
    · have := C146_freeman_needs hpp np _ D bitlimit fuel h0 hl hcm hc
      omega
    · exact C146_freeman_needs hpp np _ D bitlimit fuel h0 hl hcm hc
  · intro D qb rb hy
    rw [lines_mem h] at hy
    obtain ⟨D', h1, l, h2, cm, h3, e⟩ := hy
    rw [Prod.mk.injEq, Prod.mk.injEq] at e
    obtain ⟨rfl, rfl, rfl⟩ := e
    rw [freemanTried_mem (by norm_num)] at h1
    exact ⟨l, h2, cm, h3, C59_guarded hpp np _ D bitlimit fuel (by omega) h2 cm h3, rfl, rfl⟩

/-- **C146**: `gengparam` accepts every discriminant for which there is a curve that satisfies the equation, and every curve it
works with satisfies it; so the wrong sign (`C59_sign_fails`) cannot be reached with it. -/
theorem C146_geng {pp : ℤ → Bool} (hpp : ∀ n, pp n = true → n.natAbs.Prime) (np : ℤ → ℤ) (stop : CM → Bool)
    (bitlimit fuel : ℕ) : (∀ arg z, gengD arg = some z → 0 < z ∧
      ∀ l, searchG pp np stop z.toNat bitlimit fuel = some l → ∀ cm ∈ l, CMCurve pp z cm) ∧
    ∀ D : ℕ, 0 < D → ∀ l, searchG pp np stop D bitlimit fuel = some l → (∃ cm ∈ l, CMCurve pp D cm) →
      gengD (some D) = some (D : ℤ) := by
  constructor
  · intro arg z hz
    have hz' : 0 < z ∧ z % 3 = 1 := by
      cases arg with
      | none => simp only [gengD, Option.some.injEq] at hz; omega
      | some D =>
        simp only [gengD] at hz
        split_ifs at hz with hc
        cases hz
        rw [not_or] at hc
        rw [Int.tmod_eq_emod_of_nonneg (by omega)] at hc
        omega
    refine ⟨hz'.1, fun l hl cm hcm => ?_⟩
    have := C59_guarded hpp np stop z.toNat bitlimit fuel (by omega) hl cm hcm
    rwa [Int.toNat_of_nonneg hz'.1.le] at this
  · rintro D h0 l hl ⟨cm, hcm, hc⟩
    have := C146_freeman_needs hpp np stop D bitlimit fuel h0 hl hcm hc
    simp only [gengD]
    rw [if_neg]
    rw [Int.tmod_eq_emod_of_nonneg (by omega)]
    omega

/-! ## Examples -/

/-- `D = 11` and the first MNT curve. -/
example : searchD (fun n => decide (n = 5 ∨ n = 3)) (· + 1) (fun _ => true) 11 500 40 = some [⟨6, 11, 5, 3, 1, 3⟩] := by
  decide +kernel

/-- `D = 283` and the first Freeman curve; the test is sound. -/
example : searchG (fun n => decide (n = 8443 ∨ n = 751)) (· + 1) (fun _ => true) 283 500 60 =
    some [⟨10, 283, 8443, 751, 11, 8261⟩] ∧ (∀ n : ℤ, decide (n = 8443 ∨ n = 751) = true → n.natAbs.Prime) ∧
    gengD (some 283) = some 283 := by
  refine ⟨by decide +kernel, fun n hn => ?_, by decide⟩
  rcases of_decide_eq_true hn with rfl | rfl <;> norm_num

/-- Refused and accepted arguments. -/
example : mntMain (some 8) = none ∧ (mntMain (some 999999995)) = some [999999995, 999999996, 999999999, 1000000000] ∧
    freemanMain (some 43) = none ∧ freemanMain (some 999999960) = some [1000000003, 1000000027] ∧
    gendD (some 5) = none ∧ gengD (some (-77)) = none := by
  have e : toUnsigned 999999995 = 999999995 := rfl
  have e' : toUnsigned 999999960 = 999999960 := rfl
  refine ⟨by decide, ?_, by decide, ?_, by decide, by decide⟩
  · simp [mntMain, e, mntTried]
  · simp [freemanMain, e', freemanTried]

end Pbc.ListCurves
