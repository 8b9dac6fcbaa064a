import Verif.Lemmas.IndexCalculusLoop
import Mathlib.RingTheory.IntegralDomain
import Mathlib.Tactic.NormNum.Prime

/-!
# C137: discrete logarithms by index calculus

`pbc_mpz_index_calculus(x, g, h, q)` of `/repo/guru/indexcalculus.c` is to set `x` to a number with
`g^x = h (mod q)`.  Given a proper list of the prime factors of `q - 1`, each prime once, and a table
of primes below `q`, the computation ends, stays inside its arrays and gives a logarithm.  As the
code is, the list of factors consists of the address of a variable that no longer exists, so that no
answer is ever reached.
-/

set_option autoImplicit false

namespace Spec

/-- The powers of `g` are all residues modulo `q` other than 0. -/
def Generates (g q : ℕ) : Prop := ∀ a : ℕ, ¬ q ∣ a → ∃ k, g ^ k % q = a % q

/-- A list of different primes with product `q - 1`. -/
structure Factors (fac : List ℕ) (q : ℕ) : Prop where
  prime : ∀ l ∈ fac, l.Prime
  nodup : fac.Nodup
  prod : fac.prod = q - 1

/-- A table of different primes below `q`. -/
structure Table (table : List ℕ) (q : ℕ) : Prop where
  prime : ∀ p ∈ table, p.Prime
  nodup : table.Nodup
  lt : ∀ p ∈ table, p < q

end Spec

namespace Pbc.IndexCalculus

variable {table fac : List ℕ} {g h q : ℕ}

theorem cast_ne {a : ℕ} : (a : ZMod q) ≠ 0 ↔ ¬ q ∣ a := by
  rw [ne_eq, ZMod.natCast_eq_zero_iff]

theorem pow_mod_iff {a b k : ℕ} : a ^ k % q = b % q ↔ (a : ZMod q) ^ k = b := by
  rw [← Nat.cast_pow, ZMod.natCast_eq_natCast_iff']

theorem generates_iff (hp : q.Prime) (hg : ¬ q ∣ g) :
    Spec.Generates g q ↔ orderOf (g : ZMod q) = q - 1 := by
  have : Fact q.Prime := ⟨hp⟩
  have hg0 : (g : ZMod q) ≠ 0 := cast_ne.2 hg
  constructor
  · intro h
    have hu : orderOf (Units.mk0 (g : ZMod q) hg0) = orderOf (g : ZMod q) := by
      rw [← orderOf_units]; rfl
    have hcard : Nat.card (ZMod q)ˣ = q - 1 := by
      rw [Nat.card_eq_fintype_card, ZMod.card_units_eq_totient, Nat.totient_prime hp]
    rw [← hu, ← hcard]
    apply orderOf_eq_card_of_forall_mem_zpowers
    intro x
    have hx : (x.val.val : ZMod q) = x.val := ZMod.natCast_zmod_val _
    obtain ⟨k, hk⟩ := h x.val.val (by
      rw [← cast_ne, hx]
      exact x.ne_zero)
    rw [pow_mod_iff, hx] at hk
    refine Subgroup.mem_zpowers_iff.2 ⟨k, ?_⟩
    ext
    simpa using hk
  · intro h a ha
    obtain ⟨k, _, _, hk⟩ := exists_pow hp h (cast_ne.2 ha)
    exact ⟨k, pow_mod_iff.2 hk⟩

theorem generates_not_dvd (hp : q.Prime) (hq : 2 < q) (h : Spec.Generates g q) : ¬ q ∣ g := by
  intro hd
  obtain ⟨k, hk⟩ := h 2 (fun h2 => absurd (Nat.le_of_dvd (by omega) h2) (by omega))
  rw [Nat.mod_eq_of_lt hq] at hk
  cases k with
  | zero => rw [pow_zero, Nat.mod_eq_of_lt (by omega)] at hk; omega
  | succ k =>
    have : g ^ (k + 1) % q = 0 := Nat.mod_eq_zero_of_dvd (hd.trans (dvd_pow_self g (by omega)))
    omega

theorem exists_setup (hp : q.Prime) (hF : Spec.Factors fac q) (hT : Spec.Table table q)
    (ho : orderOf (g : ZMod q) = q - 1) : ∃ D, Setup table fac g q D := by
  have : Fact q.Prime := ⟨hp⟩
  have hex : ∀ i : ℕ, ∃ d : ℕ, ∀ h : i < table.length,
      1 ≤ d ∧ d ≤ q - 1 ∧ (g : ZMod q) ^ d = (table[i] : ℕ) := by
    intro i
    by_cases hi : i < table.length
    · obtain ⟨k, h1, h2, h3⟩ := exists_pow (g := g) (a := ((table[i] : ℕ) : ZMod q)) hp ho
        (cast_ne.2 fun hd => by
          have hm := List.getElem_mem hi
          exact absurd (Nat.le_of_dvd (hT.prime _ hm).pos hd) (by have := hT.lt _ hm; omega))
      exact ⟨k, fun _ => ⟨h1, h2, h3⟩⟩
    · exact ⟨0, fun h => absurd h hi⟩
  choose D hD using hex
  exact ⟨D, ⟨hp, hF.prime, hF.nodup, hF.prod, hT.prime, hT.lt, hT.nodup, ho, hD⟩⟩

/-- `is_gen` tells the generators from the other units. -/
theorem C137_generator (hp : q.Prime) (hF : Spec.Factors fac q) (hg : ¬ q ∣ g) :
    isGen g q fac = true ↔ Spec.Generates g q := by
  rw [isGen_iff hp hF.prime hF.prod (cast_ne.2 hg), generates_iff hp hg]

example : Spec.Factors [2, 29] 59 := ⟨by intro l hl; fin_cases hl <;> norm_num, by decide, rfl⟩
example : Spec.Table [2, 3, 5, 7] 59 := ⟨by intro l hl; fin_cases hl <;> norm_num, by decide, by decide⟩

/-- `CRT` gives the number below the product of the moduli with the given remainders, for moduli
without common factors. -/
theorem C137_crt {vs : List (ℕ × ℕ)} (hne : vs ≠ []) (hc : (vs.map Prod.snd).Pairwise Nat.Coprime)
    (hv : ∀ c ∈ vs, c.1 < c.2) : ∃ y, crt vs = some y ∧ y < (vs.map Prod.snd).prod ∧
      ∀ c ∈ vs, y % c.2 = c.1 := by
  obtain ⟨y, h1, h2, h3⟩ := crt_spec hne hc hv
  refine ⟨y, h1, h2, fun c hcm => ?_⟩
  rw [h3 c hcm, Nat.mod_eq_of_lt (hv c hcm)]

example : ∃ y, crt [(1, 4), (2, 9), (3, 25)] = some y ∧ y < 900 ∧
    ∀ c ∈ [(1, 4), (2, 9), (3, 25)], y % c.2 = c.1 :=
  C137_crt (vs := [(1, 4), (2, 9), (3, 25)]) (by simp) (by decide) (by decide)

/-- Step 1: for a generator the search ends after at most `q - 1` powers, and the table of logarithms
is right: `g` to the power `ind[i]` is prime number `i`. -/
theorem C137_table (hp : q.Prime) (hq : 2 < q) (hF : Spec.Factors fac q) (hT : Spec.Table table q)
    (hg : Spec.Generates g q) {fuel : ℕ} (hf : q - 1 ≤ fuel) :
    ∃ ind, step1 table fuel g q fac = some ind ∧ ind.length = table.length ∧
      ∀ i (h1 : i < ind.length) (h2 : i < table.length),
        ind[i] < q - 1 ∧ g ^ ind[i] % q = table[i] := by
  obtain ⟨D, S⟩ := exists_setup hp hF hT ((generates_iff hp (generates_not_dvd hp hq hg)).1 hg)
  obtain ⟨ind, h1, h2, h3⟩ := step1_spec S hq hf
  refine ⟨ind, h1, h2, fun i hi1 hi2 => ⟨(h3 i hi1 hi2).1, ?_⟩⟩
  have := pow_mod_iff.2 (h3 i hi1 hi2).2
  rwa [Nat.mod_eq_of_lt (hT.lt _ (List.getElem_mem hi2))] at this

example : step1 [2, 3, 5, 7] 58 2 59 [2, 29] = some [1, 50, 6, 18] := by decide +kernel

/-- Steps 1 and 2 together, in a field, with a generator as base. -/
theorem steps_spec (hp : q.Prime) (hq : 2 < q) (hF : Spec.Factors fac q)
    (hT : Spec.Table table q) (ho : orderOf (g : ZMod q) = q - 1) {fuel : ℕ} (hf : q - 1 ≤ fuel) :
    ∃ ind, step1 table fuel g q fac = some ind ∧ ∀ h, ¬ q ∣ h →
      ∃ x, step2 table ind g q fuel h 0 = some x ∧ x < q - 1 ∧ (g : ZMod q) ^ x = h := by
  have : Fact q.Prime := ⟨hp⟩
  obtain ⟨D, S⟩ := exists_setup hp hF hT ho
  obtain ⟨ind, h1, h2, h3⟩ := step1_spec S hq hf
  refine ⟨ind, h1, fun h hh => ?_⟩
  have hind : List.Forall₂ (fun p x => (g : ZMod q) ^ x = (p : ℕ)) table ind := by
    rw [List.forall₂_iff_get]
    refine ⟨h2.symm, fun i hi1 hi2 => ?_⟩
    exact (h3 i hi2 hi1).2
  have hh0 : (h : ZMod q) ≠ 0 := cast_ne.2 hh
  obtain ⟨t, ht1, ht2, ht3⟩ := exists_pow (g := g) hp ho (inv_ne_zero hh0)
  exact step2_spec hp ho (fun p hpm => (hT.prime p hpm).one_lt) hind fuel h 0 t ht1 (by omega)
    (by rw [ht3, mul_inv_cancel₀ hh0]) (by simp)

theorem lift_lt (hh : h < q) {q1 d x : ℕ} (hd : 0 < d) (hx : g ^ x % q = h) :
    lift g h q q1 d x = x := by
  obtain ⟨d, rfl⟩ : ∃ e, d = e + 1 := ⟨d - 1, by omega⟩
  unfold lift
  rw [if_pos hx]

theorem lift_ge (hq : 0 < q) (hh : q ≤ h) {q1 : ℕ} : ∀ d x : ℕ, lift g h q q1 d x = x + d * q1
  | 0, x => by simp [lift]
  | d + 1, x => by
    unfold lift
    rw [if_neg (by have := Nat.mod_lt (g ^ x) hq; omega), lift_ge hq hh d]
    ring

theorem quotient_dvd {z x y : ℕ} (hp : q.Prime) (ho : orderOf (z : ZMod q) = q - 1)
    (hx : (z : ZMod q) ^ x = g) (hy : (z : ZMod q) ^ y = h) (hdy : Nat.gcd x (q - 1) ∣ y) :
    ∃ w, quotient g h q x y = some w ∧ (g : ZMod q) ^ w = h ∧ (h < q → w < q - 1) := by
  have : Fact q.Prime := ⟨hp⟩
  have hq1 : 0 < q - 1 := by have := hp.one_lt; omega
  have hz : (z : ZMod q) ≠ 0 := by
    intro h
    rw [h] at ho
    have h1 : orderOf (0 : ZMod q) = 0 := orderOf_eq_zero_iff'.2 fun n hn => by
      rw [zero_pow (by omega)]; exact zero_ne_one
    omega
  set d := Nat.gcd x (q - 1) with hd
  have hd0 : 0 < d := Nat.gcd_pos_of_pos_right _ hq1
  have hdx : d ∣ x := Nat.gcd_dvd_left _ _
  have hdq : d ∣ q - 1 := Nat.gcd_dvd_right _ _
  have hq10 : 0 < (q - 1) / d := Nat.div_pos (Nat.le_of_dvd hq1 hdq) hd0
  have hcop : Nat.Coprime (x / d) ((q - 1) / d) := Nat.coprime_div_gcd_div_gcd hd0
  obtain ⟨hu1, hu2⟩ := Mont.mpzInvert_spec hq10 hcop
  set u := Mont.mpzInvert (x / d) ((q - 1) / d) with hu
  set w := y / d * u % ((q - 1) / d) with hw
  have hmul : x * w ≡ y [MOD q - 1] := by
    have h1 : x / d * w ≡ y / d [MOD (q - 1) / d] := by
      calc x / d * w ≡ x / d * (y / d * u) [MOD (q - 1) / d] := (Nat.mod_modEq _ _).mul_left _
        _ = y / d * (x / d * u) := by ring
        _ ≡ y / d * 1 [MOD (q - 1) / d] := hu2.mul_left _
        _ = y / d := mul_one _
    have h2 := h1.mul_left' d
    rwa [Nat.mul_div_cancel' hdq, Nat.mul_div_cancel' hdy, ← mul_assoc,
      Nat.mul_div_cancel' hdx] at h2
  have hgw : (g : ZMod q) ^ w = h := by
    rw [← hx, ← pow_mul, ← hy, pow_iff hp hz, ho]
    exact hmul
  have hwlt : w < q - 1 := (Nat.mod_lt _ hq10).trans_le (Nat.div_le_self _ _)
  refine ⟨lift g h q ((q - 1) / d) d w, ?_, ?_, ?_⟩
  · unfold quotient invert
    simp only [← hd]
    rw [if_pos hdy, if_pos hcop]
  · rcases Nat.lt_or_ge h q with hh | hh
    · rw [lift_lt hh hd0 (by rw [pow_mod_iff.2 hgw, Nat.mod_eq_of_lt hh])]
      exact hgw
    · rw [lift_ge hp.pos hh, pow_add, hgw, Nat.mul_div_cancel' hdq,
        ZMod.pow_card_sub_one_eq_one (by rw [← hx]; exact pow_ne_zero _ hz), mul_one]
  · intro hh
    rw [lift_lt hh hd0 (by rw [pow_mod_iff.2 hgw, Nat.mod_eq_of_lt hh])]
    exact hwlt

theorem order_ne_zero {z : ℕ} (hp : q.Prime) (ho : orderOf (z : ZMod q) = q - 1) :
    (z : ZMod q) ≠ 0 := by
  have : Fact q.Prime := ⟨hp⟩
  have hq1 : 0 < q - 1 := by have := hp.one_lt; omega
  intro h
  rw [h] at ho
  have h1 : orderOf (0 : ZMod q) = 0 := orderOf_eq_zero_iff'.2 fun n hn => by
    rw [zero_pow (by omega)]; exact zero_ne_one
  omega

theorem quotient_spec {z x y a : ℕ} (hp : q.Prime) (ho : orderOf (z : ZMod q) = q - 1)
    (hx : (z : ZMod q) ^ x = g) (hy : (z : ZMod q) ^ y = h) (ha : (g : ZMod q) ^ a = h) :
    ∃ w, quotient g h q x y = some w ∧ (g : ZMod q) ^ w = h ∧ (h < q → w < q - 1) := by
  refine quotient_dvd hp ho hx hy ?_
  have hmod : x * a ≡ y [MOD q - 1] := by
    rw [← ho, ← pow_iff hp (order_ne_zero hp ho), pow_mul, hx, ha, hy]
  exact (hmod.dvd_iff (Nat.gcd_dvd_right _ _)).1 ((Nat.gcd_dvd_left _ _).mul_right a)

/-- The answer of step 1, if there is one, consists of logarithms. -/
theorem step1_logs {z fuel : ℕ} (hp : q.Prime) (hF : Spec.Factors fac q)
    (hT : Spec.Table table q) (ho : orderOf (z : ZMod q) = q - 1) {ind : List ℕ}
    (h : step1 table fuel z q fac = some ind) :
    List.Forall₂ (fun p x => (z : ZMod q) ^ x = (p : ℕ)) table ind := by
  have : Fact q.Prime := ⟨hp⟩
  have hz := order_ne_zero hp ho
  obtain ⟨D, S⟩ := exists_setup hp hF hT ho
  have hc : Compat table fac z q D := by
    intro rel k hrel hprod l hl
    have h1 := prodRel_cast S rel fun c hc => (hrel c hc).1
    rw [hprod, ZMod.natCast_mod, Nat.cast_pow] at h1
    exact S.congr h1 hl
  by_cases hne : fac = []
  · subst hne
    unfold step1 at h
    cases hs : search table z q [] fuel 1 0 (List.map (fun _ => Sys.empty) []) 0 with
    | none => rw [hs] at h; simp at h
    | some ss =>
      rw [hs] at h
      cases table with
      | nil =>
        have : ind = [] := by simpa [backAll, combine] using h.symm
        subst this
        exact List.Forall₂.nil
      | cons p ps => simp [backAll, combine, values, crt] at h
  obtain ⟨h1, h2⟩ := step1_sound (fun k => S.pow_pos k) (fun p hpm => (hT.prime p hpm).one_lt)
    hF.prime hF.nodup hne hc h
  rw [List.forall₂_iff_get]
  refine ⟨h1.symm, fun i hi1 hi2 => ?_⟩
  have h3 := h2 i hi2
  rw [hF.prod, ← ho, ← pow_iff hp hz] at h3
  exact h3.trans (S.log i hi1).2.2

/-- The computation with a proper list of factors: if `h` is a power of `g` and not 0 modulo `q`, it
ends and gives an `x` with `g^x = h`; below `q - 1` when `h` is reduced.  Missing for the full claim:
the list of factors that the program itself makes is unusable (`C137_fails`); `q - 1` with a
square factor is refused; tables with primes from `q` on (`C137_small_fails`); a base or a draw that
is 0 modulo `q` (`C137_zero_fails`). -/
theorem C137_partial (hp : q.Prime) (hq : 2 < q) (hF : Spec.Factors fac q)
    (hT : Spec.Table table q) (hg : ¬ q ∣ g) (hh : ∃ a, g ^ a % q = h % q) {draws : List ℕ}
    (hd : Spec.Generates g q ∨ ((∀ z ∈ draws, ¬ q ∣ z) ∧ ∃ z ∈ draws, Spec.Generates z q))
    {fuel : ℕ} (hf : q - 1 ≤ fuel) :
    ∃ x, solve table fac draws fuel g h q = some x ∧ g ^ x % q = h % q ∧ (h < q → x < q - 1) := by
  have : Fact q.Prime := ⟨hp⟩
  obtain ⟨a, ha⟩ := hh
  rw [pow_mod_iff] at ha
  have hh0 : ¬ q ∣ h := by
    rw [← cast_ne, ← ha]
    exact pow_ne_zero _ (cast_ne.2 hg)
  unfold solve
  by_cases hgen : isGen g q fac = true
  · rw [if_pos hgen]
    have ho := (isGen_iff hp hF.prime hF.prod (cast_ne.2 hg)).1 hgen
    obtain ⟨ind, h1, h2⟩ := steps_spec hp hq hF hT ho hf
    obtain ⟨x, e1, e2, e3⟩ := h2 h hh0
    simp only [h1]
    exact ⟨x, e1, pow_mod_iff.2 e3, fun _ => e2⟩
  · rw [if_neg hgen]
    have hng : ¬ Spec.Generates g q := fun h => hgen ((C137_generator hp hF hg).2 h)
    obtain ⟨hall, z0, hz0, hz0g⟩ := hd.resolve_left hng
    have hsome : (draws.find? fun z => isGen z q fac).isSome := by
      rw [List.find?_isSome]
      exact ⟨z0, hz0, (C137_generator hp hF (hall z0 hz0)).2 hz0g⟩
    obtain ⟨z, hz⟩ := Option.isSome_iff_exists.1 hsome
    have hzd := hall z (List.mem_of_find?_eq_some hz)
    have ho := (isGen_iff hp hF.prime hF.prod (cast_ne.2 hzd)).1
      (List.find?_some (p := fun z => isGen z q fac) hz)
    obtain ⟨ind, h1, h2⟩ := steps_spec hp hq hF hT ho hf
    obtain ⟨x, e1, _, e3⟩ := h2 g hg
    obtain ⟨y, f1, _, f3⟩ := h2 h hh0
    simp only [hz, h1, e1, f1]
    obtain ⟨w, w1, w2, w3⟩ := quotient_spec hp ho e3 f3 ha
    exact ⟨w, w1, pow_mod_iff.2 w2, w3⟩

example : solve [2, 3, 5, 7] [2, 29] [] 58 2 17 59 = some 40 := by decide +kernel
example : solve [2, 3, 5, 7] [2, 29] [3, 2] 58 4 17 59 = some 20 := by decide +kernel

/-! ### Where the program does not give an answer -/

theorem trialLoop_addfm : ∀ (fuel p m : ℕ) (st st' : List (Place × ℕ)) (res : ℕ),
    Gen.trialLoop addfm (some 64) fuel p m st = some (st', res) →
    (∀ c ∈ st, c.1 = Place.dead) →
    (∀ c ∈ st', c.1 = Place.dead) ∧ st.length ≤ st'.length ∧ (m ≠ 1 → st'.length ≠ 0)
  | 0, _, _, _, _, _, h, _ => by simp [Gen.trialLoop] at h
  | fuel + 1, p, m, st, st', res, h, hst => by
    unfold Gen.trialLoop at h
    by_cases hm : m = 1
    · rw [if_pos hm] at h
      obtain ⟨rfl, _⟩ : st = st' ∧ 0 = res := by simpa using h
      exact ⟨hst, le_rfl, fun h => absurd hm h⟩
    · rw [if_neg hm] at h
      simp only at h
      generalize Gen.overLimit (some 64) m (if m.Prime then m else p) = p' at h
      split at h
      · split at h
        · simp at h
        · rename_i m' mul _
          simp only [addfm, Bool.false_eq_true, if_false] at h
          obtain ⟨h1, h2, _⟩ := trialLoop_addfm fuel _ _ _ _ _ h (by
            intro c hc
            rcases List.mem_append.1 hc with hc | hc
            · exact hst c hc
            · rw [List.mem_singleton] at hc
              rw [hc])
          rw [List.length_append, List.length_singleton] at h2
          exact ⟨h1, by omega, fun _ => by omega⟩
      · obtain ⟨h1, h2, h3⟩ := trialLoop_addfm fuel _ _ _ _ _ h hst
        exact ⟨h1, h2, fun _ => h3 hm⟩

/-- `pbc_mpz_index_calculus` never gives an answer, whatever the base, the value, the modulus from 2
on and the random numbers: it ends without setting `x`, or reads the factors of `q - 1` through an
address that is no longer valid, or (for `q = 2`) reads beyond an empty array. -/
theorem C137_fails (ht : table ≠ []) (draws : List ℕ) (fuel g h : ℕ) (hq : 2 ≤ q) (x : ℕ) :
    run table draws fuel g h q ≠ some (some x) := by
  unfold run
  cases hr : Gen.trialDivide addfm (some 64) fuel (q - 1) [] with
  | none => simp
  | some res =>
    obtain ⟨st, n⟩ := res
    simp only
    split
    · simp
    · obtain ⟨h1, _, h3⟩ := trialLoop_addfm fuel 2 (q - 1) [] st n hr (by simp)
      cases st with
      | nil =>
        have hq2 : q = 2 := by
          by_contra hne
          exact h3 (by omega) rfl
        subst hq2
        simp only [readAll]
        have hstep : ∀ (f a : ℕ), step1 table f a 2 [] = none := by
          intro f a
          obtain ⟨n, hn⟩ : ∃ n, table.length = n + 1 :=
            ⟨table.length - 1, by have := List.length_pos_of_ne_nil ht; omega⟩
          unfold step1
          cases search table a 2 [] f 1 0 (List.map (fun _ => Sys.empty) []) 0 with
          | none => rfl
          | some ss =>
            simp only [backAll, hn, combine, values, crt]
        unfold solve
        simp only [isGen, List.all_nil, if_true, hstep]
        simp
      | cons c st =>
        obtain ⟨a, m⟩ := c
        obtain rfl : a = Place.dead := h1 (a, m) (by simp)
        simp [readAll, Place.read]

example : run [2, 3, 5, 7] [] 1000 2 17 59 ≠ some (some 40) :=
  C137_fails (by simp) [] 1000 2 17 (by norm_num) 40

/-- A multiple of `q` passes for a generator (the test looks only for powers equal to 1), and as base
of step 1 it never ends; a value that is a multiple of `q` makes step 2 never end. -/
theorem C137_zero_fails (hp : q.Prime) (hF : Spec.Factors fac q) (ht : table ≠ []) (hd : q ∣ g) :
    isGen g q fac = true ∧ (∀ fuel, step1 table fuel g q fac = none) ∧
      ∀ ind b fuel s, step2 table ind b q fuel g s = none := by
  have hq1 : 0 < q - 1 := by have := hp.one_lt; omega
  obtain ⟨p, ps, rfl⟩ : ∃ p ps, table = p :: ps := by
    cases table with
    | nil => exact absurd rfl ht
    | cons p ps => exact ⟨p, ps, rfl⟩
  refine ⟨?_, fun fuel => ?_, ?_⟩
  · unfold isGen
    rw [List.all_eq_true]
    intro l hl
    have hdl : l ∣ q - 1 := by rw [← hF.prod]; exact List.dvd_prod hl
    have hpos : 0 < (q - 1) / l := Nat.div_pos (Nat.le_of_dvd hq1 hdl) (hF.prime l hl).pos
    rw [bne_iff_ne, Nat.mod_eq_zero_of_dvd (hd.trans (dvd_pow_self g (by omega)))]
    exact zero_ne_one
  · have hs : smooth (p :: ps) 0 = none := by
      unfold smooth
      have : (numbered (p :: ps)).take 10 = (0, p) :: (numbered (p :: ps)).tail.take 9 := by
        simp [numbered]
      simp only [this, scan, strip_zero]
    have hz : 1 * g % q = 0 := by rw [one_mul]; exact Nat.mod_eq_zero_of_dvd hd
    unfold step1
    cases fuel with
    | zero => rfl
    | succ f =>
      unfold search
      rw [hz, hs]
  · intro ind b fuel s
    cases fuel with
    | zero => rfl
    | succ f =>
      unfold step2
      rw [Nat.mod_eq_zero_of_dvd (hd.mul_right b)]
      simp only [exponents, strip_zero]

example : isGen 118 59 [2, 29] = true :=
  (C137_zero_fails (table := [2, 3]) (by norm_num)
    ⟨by intro l hl; fin_cases hl <;> norm_num, by decide, rfl⟩ (by simp) (by norm_num)).1

/-- With a prime from `q` on in the table, step 1 never ends: no power of `g` modulo `q` has that
prime as a factor, so its row stays empty.  The program takes a table of
`floor(exp(1.2 sqrt(log q)))` primes, which reaches beyond `q` for `q = 3, 7, 11`. -/
theorem C137_small_fails (hp : q.Prime) (hq : 2 < q) (hF : Spec.Factors fac q)
    (ht : ∀ p ∈ table, p.Prime) (hbig : ∃ p ∈ table, q ≤ p) (hg : Spec.Generates g q) (fuel : ℕ) :
    step1 table fuel g q fac = none := by
  have : Fact q.Prime := ⟨hp⟩
  have hgd := generates_not_dvd hp hq hg
  have hg0 : (g : ZMod q) ≠ 0 := cast_ne.2 hgd
  have ho := (generates_iff hp hgd).1 hg
  have hne : fac ≠ [] := by
    rintro rfl
    have := hF.prod
    simp at this
    omega
  have hpos : ∀ k, 0 < g ^ k % q := by
    intro k
    rw [Nat.pos_iff_ne_zero]
    intro h
    have h1 : ((g ^ k : ℕ) : ZMod q) = 0 :=
      (ZMod.natCast_eq_zero_iff _ _).2 (Nat.dvd_of_mod_eq_zero h)
    rw [Nat.cast_pow] at h1
    exact pow_ne_zero _ hg0 h1
  have hex : ∀ i : ℕ, ∃ d : ℕ, table.getD i 0 < q → 0 < table.getD i 0 →
      (g : ZMod q) ^ d = (table.getD i 0 : ℕ) := by
    intro i
    by_cases h : table.getD i 0 < q ∧ 0 < table.getD i 0
    · obtain ⟨k, _, _, h3⟩ := exists_pow (g := g) (a := ((table.getD i 0 : ℕ) : ZMod q)) hp ho
        (cast_ne.2 fun hd => absurd (Nat.le_of_dvd h.2 hd) (by omega))
      exact ⟨k, fun _ _ => h3⟩
    · exact ⟨0, fun h1 h2 => absurd ⟨h1, h2⟩ h⟩
  choose L hL using hex
  -- the logarithm of the large primes is free
  have hcompat : ∀ e : ℕ,
      Compat table fac g q (fun i => if table.getD i 0 < q then L i else e) := by
    intro e rel k hrel hprod l hl
    have hcell : ∀ c ∈ rel, (g : ZMod q) ^ (if table.getD c.1 0 < q then L c.1 else e) =
        (table.getD c.1 0 : ℕ) := by
      intro c hc
      have hdvd : table.getD c.1 0 ∣ g ^ k % q := by
        rw [← hprod]
        refine (dvd_pow_self _ (hrel c hc).2.ne').trans ?_
        unfold prodRel
        exact List.dvd_prod (List.mem_map.2 ⟨c, hc, rfl⟩)
      have hlt : table.getD c.1 0 < q :=
        (Nat.le_of_dvd (hpos k) hdvd).trans_lt (Nat.mod_lt _ hp.pos)
      rw [if_pos hlt]
      exact hL c.1 hlt (Nat.pos_of_dvd_of_pos hdvd (hpos k))
    have h1 := prodRel_cast' (g := g) (q := q) (table := table)
      (D := fun i => if table.getD i 0 < q then L i else e) rel hcell
    rw [hprod, ZMod.natCast_mod, Nat.cast_pow, pow_iff hp hg0, ho, ← hF.prod] at h1
    exact (ZMod.natCast_eq_natCast_iff _ _ _).2 (h1.of_dvd (List.dvd_prod hl))
  cases hs : step1 table fuel g q fac with
  | none => rfl
  | some ind =>
    exfalso
    have ht1 : ∀ p ∈ table, 1 < p := fun p hp => (ht p hp).one_lt
    obtain ⟨l0, a0⟩ := step1_sound hpos ht1 hF.prime hF.nodup hne (hcompat 0) hs
    obtain ⟨_, a1⟩ := step1_sound hpos ht1 hF.prime hF.nodup hne (hcompat 1) hs
    obtain ⟨p, hpm, hqp⟩ := hbig
    obtain ⟨i, hi, rfl⟩ := List.getElem_of_mem hpm
    have hget : table.getD i 0 = table[i] := by simp [List.getD, hi]
    have b := (a0 i (by omega)).symm.trans (a1 i (by omega))
    simp only [hget] at b
    rw [if_neg (by omega), if_neg (by omega), hF.prod, Nat.ModEq, Nat.zero_mod,
      Nat.mod_eq_of_lt (show 1 < q - 1 by omega)] at b
    omega

example (fuel : ℕ) : step1 [2, 3, 5, 7, 11] fuel 3 7 [2, 3] = none := by
  refine C137_small_fails (by norm_num) (by norm_num)
    ⟨by intro l hl; fin_cases hl <;> norm_num, by decide, rfl⟩
    (by intro l hl; fin_cases hl <;> norm_num) ⟨7, by simp, le_rfl⟩ ?_ fuel
  rw [← C137_generator (fac := [2, 3]) (by norm_num)
    ⟨by intro l hl; fin_cases hl <;> norm_num, by decide, rfl⟩ (by norm_num)]
  decide +kernel

/-- The factors are searched up to 64 only, and what is left is taken for a prime.  If it is the
product of two different primes, `is_gen` accepts elements that do not generate. -/
theorem C137_composite_fails {a b : ℕ} (hp : q.Prime) (ha : a.Prime) (hb : b.Prime)
    (hprod : q - 1 = 2 * (a * b)) (h2a : 2 < a) (hab : a < b) :
    ∃ g, ¬ q ∣ g ∧ isGen g q [2, a * b] = true ∧ ¬ Spec.Generates g q := by
  have : Fact q.Prime := ⟨hp⟩
  have hq1 : 0 < q - 1 := by have := hp.one_lt; omega
  obtain ⟨u, hu⟩ := IsCyclic.exists_generator (α := (ZMod q)ˣ)
  have hcard : Nat.card (ZMod q)ˣ = q - 1 := by
    rw [Nat.card_eq_fintype_card, ZMod.card_units_eq_totient, Nat.totient_prime hp]
  have hou : orderOf u = q - 1 := by
    rw [← hcard]; exact orderOf_eq_card_of_forall_mem_zpowers hu
  have hord : orderOf (u ^ a) = 2 * b := by
    have had : a ∣ q - 1 := ⟨2 * b, by rw [hprod]; ring⟩
    rw [orderOf_pow_of_dvd ha.ne_zero (by rw [hou]; exact had), hou, hprod,
      show 2 * (a * b) = a * (2 * b) by ring, Nat.mul_div_cancel_left _ ha.pos]
  obtain ⟨g, hg⟩ : ∃ g : ℕ, g = (u ^ a).val.val := ⟨_, rfl⟩
  have hgc : (g : ZMod q) = (u ^ a : (ZMod q)ˣ) := by rw [hg]; exact ZMod.natCast_zmod_val _
  have hgd : ¬ q ∣ g := by rw [← cast_ne, hgc]; exact Units.ne_zero _
  have hog : orderOf (g : ZMod q) = 2 * b := by rw [hgc, orderOf_units, hord]
  have hpow : ∀ k, g ^ k % q = 1 ↔ 2 * b ∣ k := by
    intro k
    have h1 : g ^ k % q = 1 % q ↔ (g : ZMod q) ^ k = (1 : ℕ) := pow_mod_iff
    rw [Nat.mod_eq_of_lt hp.one_lt, Nat.cast_one] at h1
    rw [h1, ← hog, orderOf_dvd_iff_pow_eq_one]
  have hb0 := hb.pos
  refine ⟨g, hgd, ?_, ?_⟩
  · unfold isGen
    rw [List.all_eq_true]
    intro l hl
    rw [bne_iff_ne, ne_eq, hpow, hprod]
    simp only [List.mem_cons, List.not_mem_nil, or_false] at hl
    rcases hl with rfl | rfl
    · rw [Nat.mul_div_cancel_left _ (by norm_num)]
      intro hd
      rcases (Nat.prime_two.dvd_mul).1 ((Dvd.intro _ rfl : 2 ∣ 2 * b).trans hd) with h | h
      · have := (Nat.prime_dvd_prime_iff_eq Nat.prime_two ha).1 h; omega
      · have := (Nat.prime_dvd_prime_iff_eq Nat.prime_two hb).1 h; omega
    · rw [Nat.mul_div_cancel _ (Nat.mul_pos ha.pos hb.pos)]
      intro hd
      have := Nat.le_of_dvd (by norm_num) hd
      omega
  · rw [generates_iff hp hgd, hog, hprod]
    intro h
    have h3 : 1 * b < a * b := Nat.mul_lt_mul_of_pos_right (by omega) hb0
    omega

example : ∃ g, ¬ 11927 ∣ g ∧ isGen g 11927 [2, 5963] = true ∧ ¬ Spec.Generates g 11927 :=
  C137_composite_fails (a := 67) (b := 89) (by norm_num) (by norm_num) (by norm_num) (by norm_num)
    (by norm_num) (by norm_num)

/-- With a base that does not generate and a value that is not a power of it, an exact division is
asked for that is not exact, so that `x` is left with an unspecified value; no error is reported. -/
theorem C137_outside_fails (hp : q.Prime) (hF : Spec.Factors fac q) (hg : ¬ q ∣ g) (hh : ¬ q ∣ h)
    (hout : ¬ ∃ a, g ^ a % q = h % q) (hT : Spec.Table table q) {draws : List ℕ}
    (hd : ∀ z ∈ draws, ¬ q ∣ z) (fuel : ℕ) : solve table fac draws fuel g h q = none := by
  have : Fact q.Prime := ⟨hp⟩
  have hq : 2 < q := by
    by_contra hle
    have hq2 : q = 2 := by have := hp.two_le; omega
    subst hq2
    exact hout ⟨1, by rw [pow_one]; omega⟩
  have hng : ¬ Spec.Generates g q := fun hgen => hout (hgen h hh)
  unfold solve
  rw [if_neg (fun h => hng ((C137_generator hp hF hg).1 h))]
  cases hz : draws.find? fun z => isGen z q fac with
  | none => rfl
  | some z =>
    have hzd := hd z (List.mem_of_find?_eq_some hz)
    have ho := (isGen_iff hp hF.prime hF.prod (cast_ne.2 hzd)).1
      (List.find?_some (p := fun z => isGen z q fac) hz)
    simp only
    cases h1 : step1 table fuel z q fac with
    | none => rfl
    | some ind =>
      simp only
      cases h2 : step2 table ind z q fuel g 0 with
      | none => rfl
      | some x =>
        cases h3 : step2 table ind z q fuel h 0 with
        | none => rfl
        | some y =>
          have hsound := step1_logs hp hF hT ho h1
          have e3 := step2_sound hp ho (fun p hpm => (hT.prime p hpm).one_lt) hsound
            (cast_ne.2 hg) fuel g 0 (by simp) h2
          have f3 := step2_sound hp ho (fun p hpm => (hT.prime p hpm).one_lt) hsound
            (cast_ne.2 hh) fuel h 0 (by simp) h3
          simp only [quotient]
          rw [if_neg]
          intro hdy
          obtain ⟨w, _, hw, _⟩ := quotient_dvd hp ho e3 f3 hdy
          exact hout ⟨w, pow_mod_iff.2 hw⟩

example : solve [2, 3, 5, 7] [2, 29] [3, 2] 58 4 2 59 = none := by decide +kernel

end Pbc.IndexCalculus
