import Verif.Lemmas.IndexCalculus
import Mathlib.FieldTheory.Finite.Basic
import Mathlib.Algebra.Field.ZMod
import Mathlib.GroupTheory.OrderOfElement
import Mathlib.Algebra.Order.BigOperators.Group.List

/-!
# Index calculus: the loops of step 1 and step 2
-/

set_option autoImplicit false

namespace Pbc.IndexCalculus

/-! ### A relation modulo a factor -/

/-- The value of a relation on `D`, as a natural number. -/
def dotN (D : ℕ → ℕ) (rel : List Cell) : ℕ := (rel.map fun c => c.2 * D c.1).sum

theorem dot_cast {l : ℕ} (D : ℕ → ℕ) : ∀ rel : List Cell,
    dot (fun i => (D i : ZMod l)) rel = (dotN D rel : ZMod l)
  | [] => by simp [dot, dotN]
  | c :: rel => by
    have ih := dot_cast (l := l) D rel
    rw [dot_cons, ih]
    simp [dotN]

theorem relMod_good {l r : ℕ} (hl : 0 < l) {rel : List Cell}
    (hs : rel.Pairwise fun a b => a.1 < b.1) (hr : ∀ c ∈ rel, c.1 < r) :
    Good l r (relMod l rel) := by
  refine ⟨?_, ?_⟩
  · unfold relMod
    rw [List.pairwise_filterMap]
    refine hs.imp ?_
    intro a b hab c hc d hd
    split at hc <;> simp at hc
    split at hd <;> simp at hd
    rw [← hc, ← hd]
    exact hab
  · intro c hc
    unfold relMod at hc
    obtain ⟨d, hd, he⟩ := List.mem_filterMap.1 hc
    split at he <;> simp at he
    rename_i h
    rw [← he]
    exact ⟨hr d hd, Nat.pos_of_ne_zero h, Nat.mod_lt _ hl⟩

theorem dot_relMod {l : ℕ} (D : ℕ → ZMod l) : ∀ rel : List Cell, dot D (relMod l rel) = dot D rel
  | [] => rfl
  | c :: rel => by
    have ih := dot_relMod D rel
    unfold relMod at ih ⊢
    rw [List.filterMap_cons, dot_cons, ← ih]
    by_cases h : c.2 % l = 0
    · rw [if_pos h]
      simp only
      have : (c.2 : ZMod l) = 0 := by
        rw [← ZMod.natCast_mod, h, Nat.cast_zero]
      rw [this, zero_mul, zero_add]
    · rw [if_neg h]
      simp only
      rw [dot_cons]
      simp only [ZMod.natCast_mod]

/-! ### All factors -/

/-- The matrices of all the factors are right. -/
abbrev AllOk (D : ℕ → ℕ) (r : ℕ) (fac : List ℕ) (ss : List Sys) : Prop :=
  List.Forall₂ (fun l s => SysOk (fun i => (D i : ZMod l)) r s) fac ss

/-- The number of rows in all. -/
def total (r : ℕ) (ss : List Sys) : ℕ := (ss.map (filled r)).sum

/-- Prime `i` has its row in each matrix. -/
def Has (ss : List Sys) (i : ℕ) : Prop := ∀ s ∈ ss, (s.rows i).isSome

theorem absorb_spec {r k : ℕ} {D : ℕ → ℕ} {rel : List Cell}
    (hs : rel.Pairwise fun a b => a.1 < b.1) (hr : ∀ c ∈ rel, c.1 < r) :
    ∀ (fac : List ℕ) (ss : List Sys), (∀ l ∈ fac, l.Prime ∧ (k : ZMod l) = (dotN D rel : ZMod l)) →
      AllOk D r fac ss →
      ∃ ss' n, absorb r rel k fac ss = some (ss', n) ∧ AllOk D r fac ss' ∧
        total r ss' = total r ss + n ∧ (∀ i, Has ss i → Has ss' i) ∧
        ∀ i, rel = [(i, 1)] → Has ss' i
  | [], [], _, _ => ⟨[], 0, rfl, List.Forall₂.nil, by simp [total], fun _ h => h, by simp [Has]⟩
  | [], _ :: _, _, h => by cases h
  | _ :: _, [], _, h => by cases h
  | l :: fac, s :: ss, hl, h => by
    rw [AllOk, List.forall₂_cons] at h
    obtain ⟨hp, hk⟩ := hl l (by simp)
    obtain ⟨s', ins, e1, e2, e3, e4, e5⟩ := reduce_spec hp (fun i => (D i : ZMod l)) h.1 (r + 1) r
      (relMod l rel) (k % l) (by omega) le_rfl (relMod_good hp.pos hs hr) (Nat.mod_lt _ hp.pos)
      (by rw [dot_relMod, dot_cast, ZMod.natCast_mod, hk])
    obtain ⟨ss', n, f1, f2, f3, f4, f5⟩ := absorb_spec hs hr fac ss
      (fun m hm => hl m (List.mem_cons_of_mem _ hm)) h.2
    refine ⟨s' :: ss', n + if ins then 1 else 0, ?_, List.Forall₂.cons e2 f2, ?_, ?_, ?_⟩
    · unfold absorb
      simp only [e1, f1]
    · unfold total at f3 ⊢
      rw [List.map_cons, List.sum_cons, List.map_cons, List.sum_cons, f3, e4]
      omega
    · intro i hi t ht
      rcases List.mem_cons.1 ht with rfl | ht
      · exact e3 i (hi s (by simp))
      · exact f4 i (fun u hu => hi u (List.mem_cons_of_mem _ hu)) t ht
    · intro i hi t ht
      rcases List.mem_cons.1 ht with rfl | ht
      · refine e5 (i, 1) ?_
        rw [hi]
        simp [relMod, Nat.mod_eq_of_lt hp.one_lt]
      · exact f5 i hi t ht

theorem filled_le (r : ℕ) (s : Sys) : filled r s ≤ r := by
  unfold filled
  calc _ ≤ (Finset.range r).card := Finset.card_filter_le _ _
    _ = r := Finset.card_range r

theorem filled_eq {r : ℕ} {s : Sys} : filled r s = r ↔ ∀ i < r, (s.rows i).isSome := by
  unfold filled
  have : r = (Finset.range r).card := (Finset.card_range r).symm
  constructor
  · intro h i hi
    have h2 := (Finset.card_filter_eq_iff (s := Finset.range r)
      (p := fun i => (s.rows i).isSome = true)).1 (h.trans this)
    exact h2 i (Finset.mem_range.2 hi)
  · intro h
    rw [Finset.card_filter_eq_iff.2 fun i hi => h i (Finset.mem_range.1 hi), Finset.card_range]

theorem total_le (r : ℕ) : ∀ ss : List Sys, total r ss ≤ r * ss.length
  | [] => by simp [total]
  | s :: ss => by
    have := total_le r ss
    have h2 := filled_le r s
    unfold total at this ⊢
    rw [List.map_cons, List.sum_cons, List.length_cons, Nat.mul_succ]
    omega

theorem total_full {r : ℕ} : ∀ {ss : List Sys}, r * ss.length ≤ total r ss ↔ ∀ i < r, Has ss i
  | [] => by simp [total, Has]
  | s :: ss => by
    have ih := total_full (r := r) (ss := ss)
    have h1 := filled_le r s
    have h2 := total_le r ss
    have h3 : total r (s :: ss) = filled r s + total r ss := by simp [total]
    rw [h3, List.length_cons, Nat.mul_succ]
    constructor
    · intro h
      have a := filled_eq.1 (show filled r s = r by omega)
      have b := ih.1 (by omega)
      intro i hi t ht
      rcases List.mem_cons.1 ht with rfl | ht
      · exact a i hi
      · exact b i hi t ht
    · intro h
      have a := filled_eq.2 fun i hi => h i hi s (by simp)
      have b := ih.2 fun i hi t ht => h i hi t (List.mem_cons_of_mem _ ht)
      omega

/-! ### The search -/

/-- What step 1 is given: a prime `q` whose `q - 1` is the product of different primes, a table of
different primes below `q`, an element `g` of order `q - 1`; `D` are logarithms of the primes. -/
structure Setup (table fac : List ℕ) (g q : ℕ) (D : ℕ → ℕ) : Prop where
  prime : q.Prime
  facPrime : ∀ l ∈ fac, l.Prime
  facNodup : fac.Nodup
  facProd : fac.prod = q - 1
  tabPrime : ∀ p ∈ table, p.Prime
  tabLt : ∀ p ∈ table, p < q
  tabNodup : table.Nodup
  order : orderOf (g : ZMod q) = q - 1
  log : ∀ i, ∀ h : i < table.length, 1 ≤ D i ∧ D i ≤ q - 1 ∧ (g : ZMod q) ^ D i = (table[i] : ℕ)

section setup

variable {table fac : List ℕ} {g q : ℕ} {D : ℕ → ℕ}

theorem Setup.ne_zero (S : Setup table fac g q D) : (g : ZMod q) ≠ 0 := by
  have : Fact q.Prime := ⟨S.prime⟩
  intro h
  have ho := S.order
  rw [h] at ho
  have h1 : orderOf (0 : ZMod q) = 0 := orderOf_eq_zero_iff'.2 fun n hn => by
    rw [zero_pow (by omega)]; exact zero_ne_one
  have := S.prime.one_lt
  omega

theorem Setup.pow_pos (S : Setup table fac g q D) (k : ℕ) : 0 < g ^ k % q := by
  have : Fact q.Prime := ⟨S.prime⟩
  rw [Nat.pos_iff_ne_zero]
  intro h
  have h1 : ((g ^ k : ℕ) : ZMod q) = 0 :=
    (ZMod.natCast_eq_zero_iff _ _).2 (Nat.dvd_of_mod_eq_zero h)
  rw [Nat.cast_pow] at h1
  exact S.ne_zero (pow_eq_zero_iff_of_pos_aux h1)
where
  pow_eq_zero_iff_of_pos_aux {k : ℕ} (h : (g : ZMod q) ^ k = 0) : (g : ZMod q) = 0 := by
    have : Fact q.Prime := ⟨S.prime⟩
    exact eq_zero_of_pow_eq_zero h

theorem prodRel_cast (S : Setup table fac g q D) : ∀ rel : List Cell,
    (∀ c ∈ rel, c.1 < table.length) →
    ((prodRel (fun i => table.getD i 0) rel : ℕ) : ZMod q) = (g : ZMod q) ^ dotN D rel
  | [], _ => by simp [prodRel, dotN]
  | c :: rel, h => by
    have ih := prodRel_cast S rel fun d hd => h d (List.mem_cons_of_mem _ hd)
    have hc : c.1 < table.length := h c (by simp)
    have hlog := (S.log c.1 hc).2.2
    have h1 : prodRel (fun i => table.getD i 0) (c :: rel) =
        table[c.1] ^ c.2 * prodRel (fun i => table.getD i 0) rel := by
      simp [prodRel, List.getD, hc]
    have h2 : dotN D (c :: rel) = c.2 * D c.1 + dotN D rel := by simp [dotN]
    rw [h1, h2, Nat.cast_mul, ih, Nat.cast_pow, ← hlog, pow_add, ← pow_mul, mul_comm (D c.1)]

theorem Setup.congr (S : Setup table fac g q D) {a b l : ℕ} (h : (g : ZMod q) ^ a = (g : ZMod q) ^ b)
    (hl : l ∈ fac) : (a : ZMod l) = (b : ZMod l) := by
  have : Fact q.Prime := ⟨S.prime⟩
  have h1 : a ≡ b [MOD q - 1] := by
    have hu : orderOf (Units.mk0 (g : ZMod q) S.ne_zero) = q - 1 := by
      rw [← S.order, ← orderOf_units]; rfl
    rw [← hu, ← pow_eq_pow_iff_modEq]
    ext
    simpa using h
  rw [ZMod.natCast_eq_natCast_iff]
  refine h1.of_dvd ?_
  rw [← S.facProd]
  exact List.dvd_prod hl

theorem search_spec (S : Setup table fac g q D) : ∀ (f z k : ℕ) (ss : List Sys) (count : ℕ),
    0 < f → q - 1 ≤ k + f → z % q = g ^ k % q → AllOk D table.length fac ss →
    count = total table.length ss →
    (∀ i, i < table.length → D i ≤ k → Has ss i) →
    ∃ ss', search table g q fac f z k ss count = some ss' ∧ AllOk D table.length fac ss' ∧
      ∀ i < table.length, Has ss' i
  | 0, _, _, _, _, h, _, _, _, _, _ => by omega
  | f + 1, z, k, ss, count, _, hf, hz, hok, hc, hcov => by
    have hlen : fac.length = ss.length := hok.length_eq
    have hzk : z * g % q = g ^ (k + 1) % q := by
      rw [pow_succ, Nat.mul_mod, hz, ← Nat.mul_mod]
    have hpos : 0 < z * g % q := by rw [hzk]; exact S.pow_pos _
    obtain ⟨res, hres, hspec⟩ := smooth_spec (fun p hp => (S.tabPrime p hp).one_lt) hpos
    -- a prime of the table that is the present power of `g`
    have hhit : ∀ i (hi : i < table.length), D i = k + 1 → res = some [(i, 1)] := by
      intro i hi hD
      have h1 := (S.log i hi).2.2
      rw [hD, ← Nat.cast_pow, ZMod.natCast_eq_natCast_iff, Nat.ModEq, ← hzk,
        Nat.mod_eq_of_lt (S.tabLt _ (List.getElem_mem hi))] at h1
      have h2 := smooth_prime S.tabPrime S.tabNodup (i := i) (z := table[i])
        (List.getElem?_eq_getElem hi)
      rw [← h1, hres] at h2
      exact Option.some.inj h2
    -- the step of the induction
    have step : ∀ (ss' : List Sys) (count' : ℕ), AllOk D table.length fac ss' →
        count' = total table.length ss' → (∀ i, i < table.length → D i ≤ k + 1 → Has ss' i) →
        ∃ ss'', (if count' < table.length * fac.length then
          search table g q fac f (z * g % q) (k + 1) ss' count' else some ss') = some ss'' ∧
          AllOk D table.length fac ss'' ∧ ∀ i < table.length, Has ss'' i := by
      intro ss' count' hok' hc' hcov'
      have hlen' : fac.length = ss'.length := hok'.length_eq
      by_cases hlt : count' < table.length * fac.length
      · rw [if_pos hlt]
        have hk : k + 1 < q - 1 := by
          by_contra hge
          have := total_full.2 fun i hi => hcov' i hi ((S.log i hi).2.1.trans (by omega))
          rw [hlen'] at hlt
          omega
        exact search_spec S f (z * g % q) (k + 1) ss' count' (by omega) (by omega)
          (by rw [Nat.mod_mod, hzk]) hok' hc' hcov'
      · rw [if_neg hlt]
        refine ⟨ss', rfl, hok', total_full.1 ?_⟩
        rw [← hlen', ← hc']
        omega
    unfold search
    rw [hres]
    cases res with
    | none =>
      refine step ss count hok hc fun i hi hD => ?_
      rcases Nat.lt_or_ge (D i) (k + 1) with h | h
      · exact hcov i hi (by omega)
      · have := hhit i hi (by omega)
        simp at this
    | some rel =>
      obtain ⟨h1, h2, h3⟩ := hspec rel rfl
      have hg : (g : ZMod q) ^ (k + 1) = (g : ZMod q) ^ dotN D rel := by
        rw [← prodRel_cast S rel fun c hc => (h3 c hc).1, h1, hzk, ZMod.natCast_mod, Nat.cast_pow]
      obtain ⟨ss', n, e1, e2, e3, e4, e5⟩ := absorb_spec (k := k + 1) (D := D) h2
        (fun c hc => (h3 c hc).1) fac ss
        (fun l hl => ⟨S.facPrime l hl, S.congr hg hl⟩) hok
      simp only [e1]
      refine step ss' (count + n) e2 (by rw [e3, hc]) fun i hi hD => ?_
      rcases Nat.lt_or_ge (D i) (k + 1) with h | h
      · exact e4 i (hcov i hi (by omega))
      · exact e5 i (by simpa using hhit i hi (by omega))

end setup

/-! ### Back substitution -/

section back

variable {l : ℕ}

theorem backRow_spec (hl : 0 < l) {D : ℕ → ZMod l} {rows : ℕ → Option Row} :
    ∀ (cs : List Cell) (c0 : ℕ),
      (∀ c ∈ cs, ∃ row, rows c.1 = some row ∧ (row.const : ZMod l) = D c.1) → c0 < l →
      ∃ c, backRow l rows cs c0 = some c ∧ c < l ∧ (c : ZMod l) = c0 - dot D cs
  | [], c0, _, h => ⟨c0, rfl, h, by simp [dot_nil]⟩
  | (k, b) :: cs, c0, h, hc0 => by
    obtain ⟨row, h1, h2⟩ := h (k, b) (by simp)
    have hn : (0 : ℤ) ≤ ((c0 : ℤ) - b * row.const) % l := Int.emod_nonneg _ (by omega)
    have hlt : ((c0 : ℤ) - b * row.const) % l < l := Int.emod_lt_of_pos _ (by omega)
    obtain ⟨c, e1, e2, e3⟩ := backRow_spec hl cs ((((c0 : ℤ) - b * row.const) % l).toNat)
      (fun c hc => h c (List.mem_cons_of_mem _ hc)) (by omega)
    refine ⟨c, ?_, e2, ?_⟩
    · unfold backRow
      simp only [h1]
      exact e1
    · rw [e3, dot_cons]
      have : (((((c0 : ℤ) - b * row.const) % l).toNat : ℕ) : ZMod l) = c0 - b * row.const := by
        rw [← Int.cast_natCast, Int.toNat_of_nonneg hn, ZMod.intCast_mod]
        push_cast
        rfl
      rw [this, h2]
      ring

theorem back_spec (hl : 0 < l) {D : ℕ → ZMod l} {r : ℕ} : ∀ (n i : ℕ) (rows : ℕ → Option Row),
    r ≤ i + n → i + n ≤ r ∨ n = 0 →
    (∀ j < r, ∃ row init, rows j = some row ∧ row.cells = init ++ [(j, 1)] ∧ Good l j init ∧
      row.const < l ∧ (row.const : ZMod l) = if j < i then D j else dot D row.cells) →
    ∃ rows', back l n i rows = some rows' ∧
      ∀ j < r, ∃ row, rows' j = some row ∧ row.const < l ∧ (row.const : ZMod l) = D j
  | 0, i, rows, hr, _, h => by
    refine ⟨rows, rfl, fun j hj => ?_⟩
    obtain ⟨row, init, h1, _, _, h4, h5⟩ := h j hj
    rw [if_pos (by omega)] at h5
    exact ⟨row, h1, h4, h5⟩
  | n + 1, i, rows, hr, hr', h => by
    have hi : i < r := by omega
    obtain ⟨row, init, h1, h2, h3, h4, h5⟩ := h i hi
    rw [if_neg (by omega), h2, dot_append, dot_cons, dot_nil] at h5
    simp only [Nat.cast_one, one_mul, add_zero] at h5
    obtain ⟨c, e1, e2, e3⟩ := backRow_spec hl (D := D) (rows := rows) init row.const
      (fun d hd => by
        have hdi := (h3.range d hd).1
        obtain ⟨row', init', g1, _, _, _, g5⟩ := h d.1 (by omega)
        rw [if_pos hdi] at g5
        exact ⟨row', g1, g5⟩) h4
    unfold back
    simp only [h1, h2, List.dropLast_concat, e1]
    refine back_spec hl n (i + 1) _ (by omega) (by omega) fun j hj => ?_
    by_cases hji : j = i
    · subst hji
      refine ⟨⟨c, init ++ [(j, 1)]⟩, init, by rw [Function.update_self], rfl, h3, e2, ?_⟩
      rw [if_pos (by omega)]
      simp only [e3, h5]
      ring
    · obtain ⟨row', init', g1, g2, g3, g4, g5⟩ := h j hj
      refine ⟨row', init', by rw [Function.update_of_ne hji]; exact g1, g2, g3, g4, ?_⟩
      rw [g5]
      by_cases hlt : j < i
      · rw [if_pos hlt, if_pos (by omega)]
      · rw [if_neg hlt, if_neg (by omega)]

theorem back_start (hl : 0 < l) {D : ℕ → ZMod l} {r : ℕ} {s : Sys} (hs : SysOk D r s)
    (hf : ∀ i < r, (s.rows i).isSome) : ∃ rows', back l (r - 1) 1 s.rows = some rows' ∧
      ∀ j < r, ∃ row, rows' j = some row ∧ row.const < l ∧ (row.const : ZMod l) = D j := by
  refine back_spec hl (r - 1) 1 s.rows (by omega) (by omega) fun j hj => ?_
  obtain ⟨row, hrow⟩ := Option.isSome_iff_exists.1 (hf j hj)
  obtain ⟨_, hro⟩ := hs.rows j row hrow
  obtain ⟨init, h1, h2⟩ := hro.shape
  refine ⟨row, init, hrow, h1, h2, hro.const_lt, ?_⟩
  by_cases h0 : j < 1
  · rw [if_pos h0, hro.value, h1]
    have hj0 : j = 0 := by omega
    subst hj0
    have : init = [] := by
      cases init with
      | nil => rfl
      | cons c cs => exact absurd (h2.range c (by simp)).1 (by omega)
    simp [this, dot]
  · rw [if_neg h0, hro.value]

end back

theorem backAll_spec {r : ℕ} {D : ℕ → ℕ} : ∀ (fac : List ℕ) (ss : List Sys), (∀ l ∈ fac, l.Prime) →
    AllOk D r fac ss → (∀ i < r, Has ss i) →
    ∃ mats, backAll r fac ss = some mats ∧
      List.Forall₂ (fun l rows => ∀ j < r, ∃ row : Row, (rows : ℕ → Option Row) j = some row ∧
        row.const < l ∧ (row.const : ZMod l) = D j) fac mats
  | [], [], _, _, _ => ⟨[], rfl, List.Forall₂.nil⟩
  | [], _ :: _, _, h, _ => by cases h
  | _ :: _, [], _, h, _ => by cases h
  | l :: fac, s :: ss, hl, h, hf => by
    rw [AllOk, List.forall₂_cons] at h
    obtain ⟨rows, e1, e2⟩ := back_start (hl l (by simp)).pos h.1 fun i hi => hf i hi s (by simp)
    obtain ⟨mats, f1, f2⟩ := backAll_spec fac ss (fun m hm => hl m (List.mem_cons_of_mem _ hm)) h.2
      fun i hi t ht => hf i hi t (List.mem_cons_of_mem _ ht)
    refine ⟨rows :: mats, ?_, List.Forall₂.cons e2 f2⟩
    unfold backAll
    simp only [e1, f1]

/-! ### Garner's algorithm -/

theorem garnerC_spec {m : ℕ} (hm : 0 < m) : ∀ (ms : List ℕ) (c : ℕ),
    (∀ a ∈ ms, Nat.Coprime a m) →
    ∃ u, garnerC m ms c = some u ∧ u * ms.prod ≡ c [MOD m]
  | [], c, _ => ⟨c, rfl, by simp [Nat.ModEq]⟩
  | a :: ms, c, h => by
    have ha : Nat.Coprime a m := h a (by simp)
    obtain ⟨_, h2⟩ := Mont.mpzInvert_spec hm ha
    obtain ⟨u, e1, e2⟩ := garnerC_spec hm ms (c * Mont.mpzInvert a m % m)
      fun b hb => h b (List.mem_cons_of_mem _ hb)
    refine ⟨u, ?_, ?_⟩
    · unfold garnerC invert
      rw [if_pos ha]
      exact e1
    · rw [List.prod_cons]
      calc u * (a * ms.prod) = a * (u * ms.prod) := by ring
        _ ≡ a * (c * Mont.mpzInvert a m % m) [MOD m] := e2.mul_left a
        _ ≡ a * (c * Mont.mpzInvert a m) [MOD m] := (Nat.mod_modEq _ _).mul_left a
        _ = c * (a * Mont.mpzInvert a m) := by ring
        _ ≡ c * 1 [MOD m] := h2.mul_left c
        _ = c := mul_one c

theorem garner_spec : ∀ (rest : List (ℕ × ℕ)) (ms : List ℕ) (x : ℕ),
    (ms ++ rest.map Prod.snd).Pairwise Nat.Coprime → (∀ c ∈ rest, 0 < c.2) → x < ms.prod →
    ∃ y, garner ms x rest = some y ∧ y < (ms ++ rest.map Prod.snd).prod ∧ y ≡ x [MOD ms.prod] ∧
      ∀ c ∈ rest, y ≡ c.1 [MOD c.2]
  | [], ms, x, _, _, hx => ⟨x, rfl, by simpa using hx, Nat.ModEq.refl _, by simp⟩
  | (v, m) :: rest, ms, x, hc, hm, hx => by
    have hm0 : 0 < m := hm (v, m) (by simp)
    have hcm : ∀ a ∈ ms, Nat.Coprime a m := fun a ha =>
      (List.pairwise_append.1 hc).2.2 a ha m (by simp)
    obtain ⟨u, e1, e2⟩ := garnerC_spec hm0 ms 1 hcm
    have hn : (0 : ℤ) ≤ (((v : ℤ) - x) * u) % m := Int.emod_nonneg _ (by omega)
    have hlt : (((v : ℤ) - x) * u) % m < m := Int.emod_lt_of_pos _ (by omega)
    obtain ⟨t, ht⟩ : ∃ t : ℕ, ((((v : ℤ) - x) * u) % m).toNat = t := ⟨_, rfl⟩
    have ht1 : (t : ℤ) = (((v : ℤ) - x) * u) % m := by omega
    have htm : t < m := by omega
    have happ : ms ++ ((v, m) :: rest).map Prod.snd = (ms ++ [m]) ++ rest.map Prod.snd := by simp
    have hprod : (ms ++ [m]).prod = ms.prod * m := by simp
    obtain ⟨y, f1, f2, f3, f4⟩ := garner_spec rest (ms ++ [m]) (x + t * ms.prod)
      (by rw [← happ]; exact hc) (fun c hc => hm c (List.mem_cons_of_mem _ hc)) (by
        rw [hprod]
        calc x + t * ms.prod < ms.prod + t * ms.prod := by omega
          _ = ms.prod * (t + 1) := by ring
          _ ≤ ms.prod * m := Nat.mul_le_mul_left _ htm)
    rw [hprod] at f3
    refine ⟨y, ?_, by rw [happ]; exact f2, ?_, ?_⟩
    · unfold garner
      simp only [e1, ht]
      exact f1
    · refine (f3.of_dvd (Dvd.intro _ rfl)).trans ?_
      rw [Nat.ModEq, Nat.add_mul_mod_self_right]
    · intro c hcm'
      rcases List.mem_cons.1 hcm' with rfl | hcm'
      · refine (f3.of_dvd (Dvd.intro_left _ rfl)).trans ?_
        simp only
        rw [← ZMod.natCast_eq_natCast_iff] at e2 ⊢
        have ht2 : (t : ZMod m) = ((v : ZMod m) - x) * u := by
          have := congrArg (Int.cast : ℤ → ZMod m) ht1
          rw [ZMod.intCast_mod] at this
          push_cast at this
          exact this
        push_cast at e2 ⊢
        rw [ht2]
        linear_combination ((v : ZMod m) - x) * e2
      · exact f4 c hcm'

theorem crt_spec {vs : List (ℕ × ℕ)} (hne : vs ≠ []) (hc : (vs.map Prod.snd).Pairwise Nat.Coprime)
    (hv : ∀ c ∈ vs, c.1 < c.2) : ∃ y, crt vs = some y ∧ y < (vs.map Prod.snd).prod ∧
      ∀ c ∈ vs, y ≡ c.1 [MOD c.2] := by
  cases vs with
  | nil => exact absurd rfl hne
  | cons c rest =>
    obtain ⟨v, m⟩ := c
    have h0 : v < m := hv (v, m) (by simp)
    obtain ⟨y, e1, e2, e3, e4⟩ := garner_spec rest [m] v (by simpa using hc)
      (fun c hc => (Nat.zero_le _).trans_lt (hv c (List.mem_cons_of_mem _ hc))) (by simpa using h0)
    refine ⟨y, e1, by simpa using e2, fun c hc' => ?_⟩
    rcases List.mem_cons.1 hc' with rfl | hc'
    · simpa using e3
    · exact e4 c hc'

theorem values_spec {r i : ℕ} {D : ℕ → ℕ} (hi : i < r) : ∀ (fac : List ℕ)
    (mats : List (ℕ → Option Row)),
    List.Forall₂ (fun l rows => ∀ j < r, ∃ row : Row, (rows : ℕ → Option Row) j = some row ∧
        row.const < l ∧ (row.const : ZMod l) = D j) fac mats →
    ∃ vs, values i fac mats = some vs ∧ vs.map Prod.snd = fac ∧
      ∀ c ∈ vs, c.1 < c.2 ∧ c.1 ≡ D i [MOD c.2]
  | [], [], _ => ⟨[], rfl, rfl, by simp⟩
  | [], _ :: _, h => by cases h
  | _ :: _, [], h => by cases h
  | l :: fac, rows :: mats, h => by
    rw [List.forall₂_cons] at h
    obtain ⟨row, h1, h2, h3⟩ := h.1 i hi
    obtain ⟨vs, e1, e2, e3⟩ := values_spec hi fac mats h.2
    refine ⟨(row.const, l) :: vs, ?_, by simp [e2], fun c hc => ?_⟩
    · unfold values
      simp only [h1, e1]
    · rcases List.mem_cons.1 hc with rfl | hc
      · exact ⟨h2, (ZMod.natCast_eq_natCast_iff _ _ _).1 h3⟩
      · exact e3 c hc

theorem modEq_prod {x y : ℕ} : ∀ {ms : List ℕ}, ms.Pairwise Nat.Coprime →
    (∀ m ∈ ms, x ≡ y [MOD m]) → x ≡ y [MOD ms.prod]
  | [], _, _ => by simp [Nat.modEq_one]
  | m :: ms, hc, h => by
    rw [List.pairwise_cons] at hc
    rw [List.prod_cons]
    refine (Nat.modEq_and_modEq_iff_modEq_mul ?_).1
      ⟨h m (by simp), modEq_prod hc.2 fun a ha => h a (List.mem_cons_of_mem _ ha)⟩
    exact Nat.coprime_list_prod_right_iff.2 fun a ha => hc.1 a ha

theorem combine_spec {r : ℕ} {D : ℕ → ℕ} {fac : List ℕ} {mats : List (ℕ → Option Row)}
    (hne : fac ≠ []) (hc : fac.Pairwise Nat.Coprime)
    (h : List.Forall₂ (fun l rows => ∀ j < r, ∃ row : Row, (rows : ℕ → Option Row) j = some row ∧
        row.const < l ∧ (row.const : ZMod l) = D j) fac mats) : ∀ (n i : ℕ), i + n ≤ r →
    ∃ xs, combine fac mats n i = some xs ∧ xs.length = n ∧
      ∀ j (hj : j < xs.length), xs[j] < fac.prod ∧ xs[j] ≡ D (i + j) [MOD fac.prod]
  | 0, i, _ => ⟨[], rfl, rfl, by simp⟩
  | n + 1, i, hr => by
    obtain ⟨vs, e1, e2, e3⟩ := values_spec (i := i) (by omega) fac mats h
    obtain ⟨x, f1, f2, f3⟩ := crt_spec (vs := vs) (by rintro rfl; exact hne e2.symm)
      (by rw [e2]; exact hc) fun c hc => (e3 c hc).1
    obtain ⟨xs, g1, g2, g3⟩ := combine_spec hne hc h n (i + 1) (by omega)
    refine ⟨x :: xs, ?_, by simp [g2], fun j hj => ?_⟩
    · unfold combine
      simp only [e1, f1, g1]
    · cases j with
      | zero =>
        refine ⟨by rw [e2] at f2; exact f2, modEq_prod hc fun m hm => ?_⟩
        rw [← e2] at hm
        obtain ⟨c, hcm, rfl⟩ := List.mem_map.1 hm
        exact (f3 c hcm).trans (e3 c hcm).2
      | succ j =>
        have := g3 j (by simpa using hj)
        rw [List.getElem_cons_succ, show i + (j + 1) = i + 1 + j by omega]
        exact this

section setup

variable {table fac : List ℕ} {g q : ℕ} {D : ℕ → ℕ}

/-- Step 1 ends and gives the logarithms of the primes of the table. -/
theorem step1_spec (S : Setup table fac g q D) (hq : 2 < q) {fuel : ℕ} (hf : q - 1 ≤ fuel) :
    ∃ ind, step1 table fuel g q fac = some ind ∧ ind.length = table.length ∧
      ∀ i (h1 : i < ind.length) (h2 : i < table.length),
        ind[i] < q - 1 ∧ (g : ZMod q) ^ ind[i] = (table[i] : ℕ) := by
  have : Fact q.Prime := ⟨S.prime⟩
  have hne : fac ≠ [] := by
    rintro rfl
    have := S.facProd
    simp at this
    omega
  have hcop : fac.Pairwise Nat.Coprime := by
    refine S.facNodup.imp_of_mem ?_
    intro a b ha hb hab
    exact (Nat.coprime_primes (S.facPrime a ha) (S.facPrime b hb)).2 hab
  have hstart : ∀ ls : List ℕ, AllOk D table.length ls (ls.map fun _ => Sys.empty) := by
    intro ls
    induction ls with
    | nil => exact List.Forall₂.nil
    | cons l ls ih =>
      refine List.Forall₂.cons ⟨?_, ?_, ?_⟩ ih
      · intro i row h; simp [Sys.empty] at h
      · intro j h; simp [Sys.empty] at h
      · simp [Sys.empty]
  have htot : total table.length (fac.map fun _ => Sys.empty) = 0 := by
    unfold total
    rw [List.map_map]
    apply List.sum_eq_zero
    intro x hx
    obtain ⟨l, _, rfl⟩ := List.mem_map.1 hx
    simp [filled, Sys.empty]
  obtain ⟨ss, e1, e2, e3⟩ := search_spec S fuel 1 0 _ 0 (by omega) (by omega) (by simp)
    (hstart fac) htot.symm fun i hi hD => by
      have := (S.log i hi).1
      omega
  obtain ⟨mats, f1, f2⟩ := backAll_spec fac ss S.facPrime e2 e3
  obtain ⟨ind, g1, g2, g3⟩ := combine_spec hne hcop f2 table.length 0 (by omega)
  refine ⟨ind, ?_, g2, fun i h1 h2 => ?_⟩
  · unfold step1
    simp only [e1, f1, g1]
  · obtain ⟨k1, k2⟩ := g3 i h1
    rw [S.facProd] at k1 k2
    rw [zero_add] at k2
    refine ⟨k1, ?_⟩
    rw [← (S.log i h2).2.2]
    rw [← S.order] at k2
    exact pow_eq_pow_iff_modEq'.2 k2
where
  pow_eq_pow_iff_modEq' {a b : ℕ} : (g : ZMod q) ^ a = (g : ZMod q) ^ b ↔
      a ≡ b [MOD orderOf (g : ZMod q)] := by
    have : Fact q.Prime := ⟨S.prime⟩
    have hu : orderOf (Units.mk0 (g : ZMod q) S.ne_zero) = orderOf (g : ZMod q) := by
      rw [← orderOf_units]; rfl
    rw [← hu, ← pow_eq_pow_iff_modEq, Units.ext_iff]
    simp

theorem pow_iff (hp : q.Prime) (hg : (g : ZMod q) ≠ 0) {a b : ℕ} :
    (g : ZMod q) ^ a = (g : ZMod q) ^ b ↔ a ≡ b [MOD orderOf (g : ZMod q)] := by
  have : Fact q.Prime := ⟨hp⟩
  have hu : orderOf (Units.mk0 (g : ZMod q) hg) = orderOf (g : ZMod q) := by
    rw [← orderOf_units]; rfl
  rw [← hu, ← pow_eq_pow_iff_modEq, Units.ext_iff]
  simp

/-! ### Step 2 -/

theorem exponents_spec : ∀ (table : List ℕ) (z : ℕ), (∀ p ∈ table, 1 < p) → 0 < z →
    ∃ w es, exponents table z = some (w, es) ∧ 0 < w ∧ (z = 1 → w = 1) ∧
      ∀ ind : List ℕ, List.Forall₂ (fun p x => (g : ZMod q) ^ x = (p : ℕ)) table ind →
        (z : ZMod q) = (g : ZMod q) ^ weigh es ind * w
  | [], z, _, hz => ⟨z, [], rfl, hz, fun h => h, fun ind _ => by simp [weigh]⟩
  | p :: table, z, hp, hz => by
    obtain ⟨z', v, h1, h2, h3, h4⟩ := strip_spec (hp p (by simp)) (z + 1) z 0 hz (by omega)
    obtain ⟨w, es, e1, e2, e3, e4⟩ := exponents_spec table z'
      (fun a ha => hp a (List.mem_cons_of_mem _ ha)) h4
    refine ⟨w, v :: es, ?_, e2, fun hz1 => e3 ?_, fun ind hind => ?_⟩
    · unfold exponents
      rw [h1]
      simp only [e1, zero_add]
    · rw [hz1] at h2
      exact Nat.eq_one_of_mul_eq_one_left h2.symm
    · cases hind with
      | cons hx hrest =>
        rename_i x ind
        rw [h2, Nat.cast_mul, Nat.cast_pow, e4 ind hrest, ← hx]
        rw [weigh, pow_add, mul_comm v x, pow_mul]
        ring

theorem step2_spec (hp : q.Prime) (ho : orderOf (g : ZMod q) = q - 1)
    (ht : ∀ p ∈ table, 1 < p) {ind : List ℕ}
    (hind : List.Forall₂ (fun p x => (g : ZMod q) ^ x = (p : ℕ)) table ind) {h : ℕ} :
    ∀ (f z s t : ℕ), 1 ≤ t → t ≤ f → (z : ZMod q) * (g : ZMod q) ^ t = 1 →
      (z : ZMod q) = h * (g : ZMod q) ^ s →
      ∃ x, step2 table ind g q f z s = some x ∧ x < q - 1 ∧ (g : ZMod q) ^ x = h
  | 0, _, _, t, h1, h2, _, _ => by omega
  | f + 1, z, s, t, h1, h2, hone, hz => by
    have : Fact q.Prime := ⟨hp⟩
    have hg : (g : ZMod q) ≠ 0 := by
      intro h0
      rw [h0, zero_pow (by omega), mul_zero] at hone
      exact zero_ne_one hone
    have hz0 : (z : ZMod q) ≠ 0 := by
      intro h0
      rw [h0, zero_mul] at hone
      exact zero_ne_one hone
    have hq1 : 0 < q - 1 := by have := hp.one_lt; omega
    have hcast : ((z * g % q : ℕ) : ZMod q) = z * g := by rw [ZMod.natCast_mod, Nat.cast_mul]
    have hpos : 0 < z * g % q := by
      rw [Nat.pos_iff_ne_zero]
      intro h0
      rw [h0, Nat.cast_zero] at hcast
      exact mul_ne_zero hz0 hg hcast.symm
    obtain ⟨w, es, e1, e2, e3, e4⟩ := exponents_spec (g := g) (q := q) table (z * g % q) ht hpos
    unfold step2
    simp only [e1]
    by_cases hw : w = 1
    · rw [if_pos hw]
      have hqz : ((q : ℤ) - 1) = ((q - 1 : ℕ) : ℤ) := by omega
      have hn : (0 : ℤ) ≤ (((weigh es ind : ℕ) : ℤ) - (s + 1 : ℕ)) % ((q : ℤ) - 1) :=
        Int.emod_nonneg _ (by omega)
      have hlt : (((weigh es ind : ℕ) : ℤ) - (s + 1 : ℕ)) % ((q : ℤ) - 1) < (q : ℤ) - 1 :=
        Int.emod_lt_of_pos _ (by omega)
      obtain ⟨x, hx⟩ : ∃ x : ℕ,
        ((((weigh es ind : ℕ) : ℤ) - (s + 1 : ℕ)) % ((q : ℤ) - 1)).toNat = x := ⟨_, rfl⟩
      have hxz : (x : ℤ) = (((weigh es ind : ℕ) : ℤ) - (s + 1 : ℕ)) % ((q : ℤ) - 1) := by omega
      refine ⟨x, by rw [hx], by omega, ?_⟩
      have hmod : x + (s + 1) ≡ weigh es ind [MOD q - 1] := by
        rw [← Int.natCast_modEq_iff]
        push_cast
        rw [hxz, ← hqz]
        have := (Int.mod_modEq (((weigh es ind : ℕ) : ℤ) - (s + 1 : ℕ)) ((q : ℤ) - 1)).add_right
          ((s : ℤ) + 1)
        refine this.trans ?_
        push_cast
        rw [sub_add_cancel]
      have h5 := e4 ind hind
      rw [hw, Nat.cast_one, mul_one, hcast, hz, mul_assoc, ← pow_succ] at h5
      rw [← ho, ← pow_iff hp hg, pow_add, ← h5] at hmod
      exact mul_right_cancel₀ (pow_ne_zero _ hg) hmod
    · rw [if_neg hw]
      have ht1 : t ≠ 1 := by
        rintro rfl
        apply hw
        apply e3
        rw [pow_one] at hone
        rw [← hcast] at hone
        have := (ZMod.natCast_eq_natCast_iff' _ 1 q).1 (by rw [hone, Nat.cast_one])
        rwa [Nat.mod_mod, Nat.mod_eq_of_lt hp.one_lt] at this
      obtain ⟨t, rfl⟩ : ∃ t', t = t' + 1 := ⟨t - 1, by omega⟩
      refine step2_spec hp ho ht hind f (z * g % q) (s + 1) t (by omega) (by omega) ?_ ?_
      · rw [hcast, ← hone, pow_succ]; ring
      · rw [hcast, hz, pow_succ]; ring

theorem step2_sound (hp : q.Prime) (ho : orderOf (g : ZMod q) = q - 1)
    (ht : ∀ p ∈ table, 1 < p) {ind : List ℕ}
    (hind : List.Forall₂ (fun p x => (g : ZMod q) ^ x = (p : ℕ)) table ind) {h x : ℕ}
    (hh : (h : ZMod q) ≠ 0) :
    ∀ (f z s : ℕ), (z : ZMod q) = h * (g : ZMod q) ^ s → step2 table ind g q f z s = some x →
      (g : ZMod q) ^ x = h
  | 0, _, _, _, h => by simp [step2] at h
  | f + 1, z, s, hz, hx => by
    have : Fact q.Prime := ⟨hp⟩
    have hq1 : 0 < q - 1 := by have := hp.one_lt; omega
    have hg : (g : ZMod q) ≠ 0 := by
      intro h
      rw [h] at ho
      have h1 : orderOf (0 : ZMod q) = 0 := orderOf_eq_zero_iff'.2 fun n hn => by
        rw [zero_pow (by omega)]; exact zero_ne_one
      omega
    have hz0 : (z : ZMod q) ≠ 0 := by rw [hz]; exact mul_ne_zero hh (pow_ne_zero _ hg)
    have hcast : ((z * g % q : ℕ) : ZMod q) = z * g := by rw [ZMod.natCast_mod, Nat.cast_mul]
    have hpos : 0 < z * g % q := by
      rw [Nat.pos_iff_ne_zero]
      intro h0
      rw [h0, Nat.cast_zero] at hcast
      exact mul_ne_zero hz0 hg hcast.symm
    obtain ⟨w, es, e1, e2, e3, e4⟩ := exponents_spec (g := g) (q := q) table (z * g % q) ht hpos
    have hexit : w = 1 ∨ w ≠ 1 := em _
    rcases hexit with hw | hw
    · -- this round ends, so the bounded version of the statement applies
      have h5 := e4 ind hind
      rw [hw, Nat.cast_one, mul_one] at h5
      obtain ⟨t, ht1, ht2⟩ : ∃ t, 1 ≤ t ∧ (z : ZMod q) * (g : ZMod q) ^ t = 1 := by
        refine ⟨(weigh es ind) * (q - 1 - 1) + 1, by omega, ?_⟩
        rw [pow_succ, mul_comm _ (g : ZMod q), ← mul_assoc, ← hcast, h5, ← pow_add,
          show weigh es ind + weigh es ind * (q - 1 - 1) = (q - 1) * weigh es ind by
            obtain ⟨m, hm⟩ : ∃ m, q - 1 = m + 1 := ⟨q - 1 - 1, by omega⟩
            rw [hm, Nat.add_sub_cancel]; ring,
          pow_mul, ZMod.pow_card_sub_one_eq_one hg, one_pow]
      have hstep : step2 table ind g q (f + 1) z s = step2 table ind g q (t + 1) z s := by
        unfold step2
        simp only [e1, hw, if_true]
      obtain ⟨x', k1, _, k3⟩ := step2_spec hp ho ht hind (t + 1) z s t ht1 (by omega) ht2 hz
      rw [hstep, k1] at hx
      obtain rfl := Option.some.inj hx
      exact k3
    · unfold step2 at hx
      simp only [e1] at hx
      rw [if_neg hw] at hx
      exact step2_sound hp ho ht hind hh f (z * g % q) (s + 1)
        (by rw [hcast, hz, pow_succ]; ring) hx

/-! ### Generators -/

theorem exists_pow (hp : q.Prime) (ho : orderOf (g : ZMod q) = q - 1) {a : ZMod q} (ha : a ≠ 0) :
    ∃ k, 1 ≤ k ∧ k ≤ q - 1 ∧ (g : ZMod q) ^ k = a := by
  have : Fact q.Prime := ⟨hp⟩
  have hq1 : 0 < q - 1 := by have := hp.one_lt; omega
  have hg : (g : ZMod q) ≠ 0 := by
    intro h
    rw [h] at ho
    have h1 : orderOf (0 : ZMod q) = 0 := orderOf_eq_zero_iff'.2 fun n hn => by
      rw [zero_pow (by omega)]; exact zero_ne_one
    omega
  have hu : orderOf (Units.mk0 (g : ZMod q) hg) = q - 1 := by
    rw [← ho, ← orderOf_units]; rfl
  have hcard : Nat.card (ZMod q)ˣ = q - 1 := by
    rw [Nat.card_eq_fintype_card, ZMod.card_units_eq_totient, Nat.totient_prime hp]
  have hmem : Units.mk0 a ha ∈ Subgroup.zpowers (Units.mk0 (g : ZMod q) hg) := by
    have : Subgroup.zpowers (Units.mk0 (g : ZMod q) hg) = ⊤ := by
      apply Subgroup.eq_top_of_card_eq
      rw [Nat.card_zpowers, hu, hcard]
    rw [this]
    trivial
  rw [← mem_powers_iff_mem_zpowers] at hmem
  obtain ⟨k, hk⟩ := hmem
  have hk' : (g : ZMod q) ^ k = a := by
    have := congrArg Units.val hk
    simpa using this
  by_cases h0 : k % (q - 1) = 0
  · refine ⟨q - 1, hq1, le_rfl, ?_⟩
    rw [← hk', pow_iff hp hg, ho, Nat.ModEq, h0, Nat.mod_self]
  · refine ⟨k % (q - 1), Nat.pos_of_ne_zero h0, (Nat.mod_lt _ hq1).le, ?_⟩
    rw [← hk', pow_iff hp hg, ho, Nat.ModEq, Nat.mod_mod]

theorem isGen_iff (hp : q.Prime) (hf : ∀ l ∈ fac, l.Prime) (hprod : fac.prod = q - 1)
    (hg : (g : ZMod q) ≠ 0) : isGen g q fac = true ↔ orderOf (g : ZMod q) = q - 1 := by
  have : Fact q.Prime := ⟨hp⟩
  have hq1 : 0 < q - 1 := by have := hp.one_lt; omega
  have hpow : ∀ k, g ^ k % q = 1 ↔ (g : ZMod q) ^ k = 1 := by
    intro k
    rw [← Nat.cast_pow, ← Nat.cast_one (R := ZMod q), ZMod.natCast_eq_natCast_iff',
      Nat.mod_eq_of_lt hp.one_lt]
  unfold isGen
  rw [List.all_eq_true]
  constructor
  · intro h
    apply orderOf_eq_of_pow_and_pow_div_prime hq1 (ZMod.pow_card_sub_one_eq_one hg)
    intro p hpp hd
    rw [← hprod] at hd
    obtain ⟨l, hl, hdl⟩ := (Prime.dvd_prod_iff hpp.prime).1 hd
    rw [(Nat.prime_dvd_prime_iff_eq hpp (hf l hl)).1 hdl]
    have := h l hl
    rw [bne_iff_ne, ne_eq, hpow] at this
    exact this
  · intro h l hl
    rw [bne_iff_ne, ne_eq, hpow]
    intro h1
    have hd := orderOf_dvd_of_pow_eq_one h1
    rw [h] at hd
    have hdl : l ∣ q - 1 := by rw [← hprod]; exact List.dvd_prod hl
    have hlt : (q - 1) / l < q - 1 := Nat.div_lt_self hq1 (hf l hl).one_lt
    have hpos : 0 < (q - 1) / l := Nat.div_pos (Nat.le_of_dvd hq1 hdl) (hf l hl).pos
    exact absurd (Nat.le_of_dvd hpos hd) (by omega)

/-! ### What an answer of step 1 would have to be -/

/-- Every relation that the search can find holds for `D`. -/
def Compat (table fac : List ℕ) (g q : ℕ) (D : ℕ → ℕ) : Prop :=
  ∀ (rel : List Cell) (k : ℕ), (∀ c ∈ rel, c.1 < table.length ∧ 0 < c.2) →
    prodRel (fun i => table.getD i 0) rel = g ^ k % q →
    ∀ l ∈ fac, (k : ZMod l) = (dotN D rel : ZMod l)

theorem search_sound (hpos : ∀ k, 0 < g ^ k % q) (ht : ∀ p ∈ table, 1 < p)
    (hf : ∀ l ∈ fac, l.Prime) (hD : Compat table fac g q D) :
    ∀ (f z k : ℕ) (ss : List Sys) (count : ℕ), z % q = g ^ k % q → AllOk D table.length fac ss →
    count = total table.length ss → ∀ ss', search table g q fac f z k ss count = some ss' →
    AllOk D table.length fac ss' ∧ ∀ i < table.length, Has ss' i
  | 0, _, _, _, _, _, _, _, ss', h => by simp [search] at h
  | f + 1, z, k, ss, count, hz, hok, hc, ss', h => by
    have hzk : z * g % q = g ^ (k + 1) % q := by
      rw [pow_succ, Nat.mul_mod, hz, ← Nat.mul_mod]
    obtain ⟨res, hres, hspec⟩ := smooth_spec ht (show 0 < z * g % q by rw [hzk]; exact hpos _)
    have step : ∀ (ss1 : List Sys) (count' : ℕ), AllOk D table.length fac ss1 →
        count' = total table.length ss1 →
        (if count' < table.length * fac.length then
          search table g q fac f (z * g % q) (k + 1) ss1 count' else some ss1) = some ss' →
        AllOk D table.length fac ss' ∧ ∀ i < table.length, Has ss' i := by
      intro ss1 count' hok' hc' h'
      split at h'
      · exact search_sound hpos ht hf hD f (z * g % q) (k + 1) ss1 count'
          (by rw [Nat.mod_mod, hzk]) hok' hc' ss' h'
      · rename_i hlt
        obtain rfl := Option.some.inj h'
        refine ⟨hok', total_full.1 ?_⟩
        rw [← hok'.length_eq, ← hc']
        omega
    unfold search at h
    rw [hres] at h
    cases res with
    | none => exact step ss count hok hc h
    | some rel =>
      obtain ⟨h1, h2, h3⟩ := hspec rel rfl
      obtain ⟨ss1, n, e1, e2, e3, _, _⟩ := absorb_spec (k := k + 1) (D := D) h2
        (fun c hc => (h3 c hc).1) fac ss
        (fun l hl => ⟨hf l hl, hD rel (k + 1) h3 (by rw [h1, hzk]) l hl⟩) hok
      simp only [e1] at h
      exact step ss1 (count + n) e2 (by rw [e3, hc]) h

theorem start_ok (D : ℕ → ℕ) (r : ℕ) : ∀ ls : List ℕ, AllOk D r ls (ls.map fun _ => Sys.empty)
  | [] => List.Forall₂.nil
  | _ :: ls => by
    refine List.Forall₂.cons ⟨?_, ?_, ?_⟩ (start_ok D r ls)
    · intro i row h; simp [Sys.empty] at h
    · intro j h; simp [Sys.empty] at h
    · simp [Sys.empty]

theorem start_total (r : ℕ) (ls : List ℕ) : total r (ls.map fun _ => Sys.empty) = 0 := by
  unfold total
  rw [List.map_map]
  apply List.sum_eq_zero
  intro x hx
  obtain ⟨l, _, rfl⟩ := List.mem_map.1 hx
  simp [filled, Sys.empty]

/-- An answer of step 1 is `D` modulo the product of the factors, for every `D` that satisfies the
relations. -/
theorem step1_sound (hpos : ∀ k, 0 < g ^ k % q) (ht : ∀ p ∈ table, 1 < p)
    (hf : ∀ l ∈ fac, l.Prime) (hn : fac.Nodup) (hne : fac ≠ []) (hD : Compat table fac g q D)
    {fuel : ℕ} {ind : List ℕ} (h : step1 table fuel g q fac = some ind) :
    ind.length = table.length ∧
      ∀ i (_ : i < ind.length), ind[i] ≡ D i [MOD fac.prod] := by
  unfold step1 at h
  cases hs : search table g q fac fuel 1 0 (fac.map fun _ => Sys.empty) 0 with
  | none => rw [hs] at h; simp at h
  | some ss =>
    rw [hs] at h
    obtain ⟨e2, e3⟩ := search_sound hpos ht hf hD fuel 1 0 _ 0 (by simp)
      (start_ok D table.length fac) (start_total _ _).symm ss hs
    obtain ⟨mats, f1, f2⟩ := backAll_spec fac ss hf e2 e3
    have hcop : fac.Pairwise Nat.Coprime := by
      refine hn.imp_of_mem ?_
      intro a b ha hb hab
      exact (Nat.coprime_primes (hf a ha) (hf b hb)).2 hab
    obtain ⟨xs, g1, g2, g3⟩ := combine_spec hne hcop f2 table.length 0 (by omega)
    simp only [f1, g1] at h
    obtain rfl := Option.some.inj h
    refine ⟨g2, fun i hi => ?_⟩
    have := (g3 i hi).2
    rwa [zero_add] at this

theorem prodRel_cast' : ∀ rel : List Cell,
    (∀ c ∈ rel, (g : ZMod q) ^ D c.1 = (table.getD c.1 0 : ℕ)) →
    ((prodRel (fun i => table.getD i 0) rel : ℕ) : ZMod q) = (g : ZMod q) ^ dotN D rel
  | [], _ => by simp [prodRel, dotN]
  | c :: rel, h => by
    have ih := prodRel_cast' rel fun d hd => h d (List.mem_cons_of_mem _ hd)
    have hlog := h c (by simp)
    have h1 : prodRel (fun i => table.getD i 0) (c :: rel) =
        table.getD c.1 0 ^ c.2 * prodRel (fun i => table.getD i 0) rel := by simp [prodRel]
    have h2 : dotN D (c :: rel) = c.2 * D c.1 + dotN D rel := by simp [dotN]
    rw [h1, h2, Nat.cast_mul, ih, Nat.cast_pow, ← hlog, pow_add, ← pow_mul, mul_comm (D c.1)]

end setup

end Pbc.IndexCalculus
