import Verif.Model.IndexCalculus
import Verif.Lemmas.MontFp
import Mathlib.Data.ZMod.Basic
import Mathlib.Data.Nat.ChineseRemainder
import Mathlib.Data.Nat.GCD.BigOperators
import Mathlib.Algebra.BigOperators.Group.List.Basic
import Mathlib.Tactic.Ring
import Mathlib.Tactic.LinearCombination

/-!
# Index calculus: lemmas

The parts of `Pbc.IndexCalculus` one by one: division, factoring over the table, the merge of two
sorted relations, elimination, back substitution, Garner's algorithm.
-/

set_option autoImplicit false

namespace Pbc.IndexCalculus

/-! ### Division -/

theorem strip_spec {p : ℕ} (hp : 1 < p) : ∀ (f z j : ℕ), 0 < z → z < f →
    ∃ w v, strip p f z j = some (w, j + v) ∧ z = p ^ v * w ∧ ¬ p ∣ w ∧ 0 < w
  | 0, z, j, _, h => by omega
  | f + 1, z, j, hz, h => by
    unfold strip
    by_cases hd : p ∣ z
    · rw [if_pos hd]
      obtain ⟨c, rfl⟩ := hd
      rw [Nat.mul_div_cancel_left _ (by omega)]
      have hc : 0 < c := Nat.pos_of_mul_pos_left hz
      have hlt : c < p * c := by
        calc c = 1 * c := (one_mul c).symm
          _ < p * c := Nat.mul_lt_mul_of_pos_right hp hc
      obtain ⟨w, v, h1, h2, h3, h4⟩ := strip_spec hp f c (j + 1) hc (by omega)
      refine ⟨w, v + 1, ?_, ?_, h3, h4⟩
      · rw [h1, show j + 1 + v = j + (v + 1) by omega]
      · rw [pow_succ, mul_comm (p ^ v) p, mul_assoc, ← h2]
    · rw [if_neg hd]
      exact ⟨z, 0, rfl, by simp, hd, hz⟩

theorem strip_zero (p : ℕ) : ∀ f j : ℕ, strip p f 0 j = none
  | 0, _ => rfl
  | f + 1, j => by unfold strip; rw [if_pos (dvd_zero p), Nat.zero_div, strip_zero p f]

/-! ### Factoring over the table -/

/-- The number a relation stands for, with `P` the primes. -/
def prodRel (P : ℕ → ℕ) (rel : List Cell) : ℕ := (rel.map fun c => P c.1 ^ c.2).prod

theorem prodRel_append (P : ℕ → ℕ) (a b : List Cell) :
    prodRel P (a ++ b) = prodRel P a * prodRel P b := by simp [prodRel]

theorem scan_spec {P : ℕ → ℕ} : ∀ (ps : List (ℕ × ℕ)) (z : ℕ) (rel : List Cell),
    (∀ c ∈ ps, c.2 = P c.1 ∧ 1 < c.2) → ps.Pairwise (fun a b => a.1 < b.1) → 0 < z →
    ∃ (b : Bool) (w : ℕ) (new : List Cell), scan ps z rel = some (b, w, rel ++ new) ∧ 0 < w ∧
      prodRel P new * w = z ∧ (b = true → w = 1) ∧
      new.Pairwise (fun a b => a.1 < b.1) ∧ ∀ c ∈ new, c.1 ∈ ps.map Prod.fst ∧ 0 < c.2
  | [], z, rel, _, _, hz => ⟨false, z, [], by simp [scan], hz, by simp [prodRel], by simp, by simp,
      by simp⟩
  | (i, p) :: ps, z, rel, hP, hs, hz => by
    obtain ⟨hpe, hp⟩ := hP (i, p) (by simp)
    simp only at hpe hp
    obtain ⟨w, v, h1, h2, h3, h4⟩ := strip_spec hp (z + 1) z 0 hz (by omega)
    rw [List.pairwise_cons] at hs
    unfold scan
    rw [h1, zero_add]
    by_cases hv : v = 0
    · simp only [hv, if_true]
      obtain ⟨b, w', new, e1, e2, e3, e4, e5, e6⟩ := scan_spec ps w rel
        (fun c hc => hP c (List.mem_cons_of_mem _ hc)) hs.2 h4
      refine ⟨b, w', new, e1, e2, ?_, e4, e5, fun c hc => ⟨?_, (e6 c hc).2⟩⟩
      · rw [e3, h2, hv]; simp
      · rw [List.map_cons]; exact List.mem_cons_of_mem _ (e6 c hc).1
    · simp only [if_neg hv]
      by_cases hw : w = 1
      · simp only [hw, if_true]
        refine ⟨true, 1, [(i, v)], rfl, by omega, ?_, fun _ => rfl, by simp, ?_⟩
        · rw [h2, hw]; simp [prodRel, hpe]
        · intro c hc
          rw [List.mem_singleton] at hc
          subst hc
          exact ⟨by simp, by simp; omega⟩
      · simp only [if_neg hw]
        obtain ⟨b, w', new, e1, e2, e3, e4, e5, e6⟩ := scan_spec ps w (rel ++ [(i, v)])
          (fun c hc => hP c (List.mem_cons_of_mem _ hc)) hs.2 h4
        refine ⟨b, w', (i, v) :: new, by rw [e1]; simp, e2, ?_, e4, ?_, ?_⟩
        · rw [h2, ← e3, hpe]; simp only [prodRel, List.map_cons, List.prod_cons]; ring
        · rw [List.pairwise_cons]
          refine ⟨fun c hc => ?_, e5⟩
          obtain ⟨d, hd1, hd2⟩ := List.mem_map.1 (e6 c hc).1
          rw [← hd2]
          exact hs.1 d hd1
        · intro c hc
          rcases List.mem_cons.1 hc with rfl | hc
          · exact ⟨by simp, by simp; omega⟩
          · refine ⟨?_, (e6 c hc).2⟩
            rw [List.map_cons]; exact List.mem_cons_of_mem _ (e6 c hc).1

theorem bundles_spec {P : ℕ → ℕ} : ∀ (bs : List (List (ℕ × ℕ))) (z : ℕ) (rel : List Cell),
    (∀ c ∈ bs.flatten, c.2 = P c.1 ∧ 1 < c.2) → bs.flatten.Pairwise (fun a b => a.1 < b.1) → 0 < z →
    ∃ (b : Bool) (w : ℕ) (new : List Cell), bundles bs z rel = some (b, w, rel ++ new) ∧ 0 < w ∧
      prodRel P new * w = z ∧ (b = true → w = 1) ∧
      new.Pairwise (fun a b => a.1 < b.1) ∧ ∀ c ∈ new, c.1 ∈ bs.flatten.map Prod.fst ∧ 0 < c.2
  | [], z, rel, _, _, hz => ⟨false, z, [], by simp [bundles], hz, by simp [prodRel], by simp,
      by simp, by simp⟩
  | b :: bs, z, rel, hP, hs, hz => by
    rw [List.flatten_cons] at hP hs
    rw [List.pairwise_append] at hs
    have hP1 : ∀ c ∈ b, c.2 = P c.1 ∧ 1 < c.2 := fun c hc => hP c (List.mem_append_left _ hc)
    have hP2 : ∀ c ∈ bs.flatten, c.2 = P c.1 ∧ 1 < c.2 :=
      fun c hc => hP c (List.mem_append_right _ hc)
    unfold bundles
    by_cases hg : Nat.gcd (b.map Prod.snd).prod z = 1
    · rw [if_pos hg]
      obtain ⟨b', w', new, e1, e2, e3, e4, e5, e6⟩ := bundles_spec bs z rel hP2 hs.2.1 hz
      refine ⟨b', w', new, e1, e2, e3, e4, e5, fun c hc => ⟨?_, (e6 c hc).2⟩⟩
      rw [List.flatten_cons, List.map_append]
      exact List.mem_append_right _ (e6 c hc).1
    · rw [if_neg hg]
      obtain ⟨b', w', new, e1, e2, e3, e4, e5, e6⟩ := scan_spec b z rel hP1 hs.1 hz
      rw [e1]
      cases b' with
      | true =>
        refine ⟨true, w', new, rfl, e2, e3, e4, e5, fun c hc => ⟨?_, (e6 c hc).2⟩⟩
        rw [List.flatten_cons, List.map_append]
        exact List.mem_append_left _ (e6 c hc).1
      | false =>
        obtain ⟨b2, w2, new2, f1, f2, f3, f4, f5, f6⟩ :=
          bundles_spec bs w' (rel ++ new) hP2 hs.2.1 e2
        refine ⟨b2, w2, new ++ new2, by simpa using f1, f2, ?_, f4, ?_, ?_⟩
        · rw [prodRel_append, mul_assoc, f3, e3]
        · rw [List.pairwise_append]
          refine ⟨e5, f5, fun c hc d hd => ?_⟩
          obtain ⟨c', hc1, hc2⟩ := List.mem_map.1 (e6 c hc).1
          obtain ⟨d', hd1, hd2⟩ := List.mem_map.1 (f6 d hd).1
          rw [← hc2, ← hd2]
          exact hs.2.2 c' hc1 d' hd1
        · intro c hc
          rw [List.flatten_cons, List.map_append]
          rcases List.mem_append.1 hc with hc | hc
          · exact ⟨List.mem_append_left _ (e6 c hc).1, (e6 c hc).2⟩
          · exact ⟨List.mem_append_right _ (f6 c hc).1, (f6 c hc).2⟩

theorem mem_numbered {table : List ℕ} {c : ℕ × ℕ} :
    c ∈ numbered table ↔ table[c.1]? = some c.2 := by
  unfold numbered
  rw [List.mem_map]
  constructor
  · rintro ⟨⟨p, i⟩, h, rfl⟩
    exact List.mem_zipIdx_iff_getElem?.1 h
  · intro h
    exact ⟨(c.2, c.1), List.mem_zipIdx_iff_getElem?.2 h, rfl⟩

theorem numbered_pairwise (table : List ℕ) :
    (numbered table).Pairwise (fun a b => a.1 < b.1) := by
  unfold numbered
  rw [List.pairwise_map, List.pairwise_iff_getElem]
  intro i j hi hj hij
  simpa using hij

/-- The bundles. -/
def parts (ps : List (ℕ × ℕ)) (n : ℕ) : List (List (ℕ × ℕ)) :=
  (List.range n).map fun i => (ps.drop (10 + 20 * i)).take 20

theorem parts_flatten (ps : List (ℕ × ℕ)) : ∀ n : ℕ,
    (parts ps n).flatten = (ps.drop 10).take (20 * n)
  | 0 => by simp [parts]
  | n + 1 => by
    have ih := parts_flatten ps n
    unfold parts at ih ⊢
    rw [List.range_succ, List.map_append, List.flatten_append, ih, Nat.mul_succ, List.take_add]
    simp [List.drop_drop]

theorem parts_all (ps : List (ℕ × ℕ)) :
    (parts ps ((ps.length + 9) / 20)).flatten = ps.drop 10 := by
  rw [parts_flatten, List.take_of_length_le]
  rw [List.length_drop]
  omega

theorem numbered_length (table : List ℕ) : (numbered table).length = table.length := by
  simp [numbered]

/-- One try: what it finds is a factorisation of `z`. -/
theorem smooth_spec {table : List ℕ} (ht : ∀ p ∈ table, 1 < p) {z : ℕ} (hz : 0 < z) :
    ∃ res, smooth table z = some res ∧ ∀ rel, res = some rel →
      prodRel (fun i => table.getD i 0) rel = z ∧ rel.Pairwise (fun a b => a.1 < b.1) ∧
      ∀ c ∈ rel, c.1 < table.length ∧ 0 < c.2 := by
  set P := fun i => table.getD i 0 with hPdef
  have hP : ∀ c ∈ numbered table, c.2 = P c.1 ∧ 1 < c.2 := by
    intro c hc
    have h := mem_numbered.1 hc
    refine ⟨?_, ht _ (List.mem_of_getElem? h)⟩
    simp [hPdef, List.getD, h]
  have hlt : ∀ c ∈ numbered table, c.1 < table.length := by
    intro c hc
    exact (List.getElem?_eq_some_iff.1 (mem_numbered.1 hc)).1
  have hpw := numbered_pairwise table
  obtain ⟨b, w, new, e1, e2, e3, e4, e5, e6⟩ := scan_spec (P := P) ((numbered table).take 10) z []
    (fun c hc => hP c (List.mem_of_mem_take hc)) (hpw.sublist (List.take_sublist _ _)) hz
  have hb := parts_all (numbered table)
  rw [numbered_length] at hb
  unfold smooth
  simp only [e1, List.nil_append]
  cases b with
  | true =>
    refine ⟨_, rfl, fun rel hrel => ?_⟩
    obtain rfl : new = rel := by simpa using hrel
    refine ⟨by rw [← e3, e4 rfl, mul_one], e5, fun c hc => ⟨?_, (e6 c hc).2⟩⟩
    obtain ⟨d, hd1, hd2⟩ := List.mem_map.1 (e6 c hc).1
    rw [← hd2]
    exact hlt d (List.mem_of_mem_take hd1)
  | false =>
    obtain ⟨b2, w2, new2, f1, f2, f3, f4, f5, f6⟩ := bundles_spec (P := P)
      (parts (numbered table) ((table.length + 9) / 20)) w new
      (fun c hc => hP c (List.mem_of_mem_drop (by rwa [hb] at hc)))
      (by rw [hb]; exact hpw.sublist (List.drop_sublist _ _)) e2
    unfold parts at f1
    simp only [f1]
    cases b2 with
    | false => exact ⟨_, rfl, fun rel hrel => by simp at hrel⟩
    | true =>
      refine ⟨_, rfl, fun rel hrel => ?_⟩
      obtain rfl : new ++ new2 = rel := by simpa using hrel
      rw [hb] at f6
      refine ⟨?_, ?_, ?_⟩
      · rw [prodRel_append, ← e3, ← f3, f4 rfl, mul_one]
      · rw [List.pairwise_append]
        refine ⟨e5, f5, fun c hc d hd => ?_⟩
        obtain ⟨c', hc1, hc2⟩ := List.mem_map.1 (e6 c hc).1
        obtain ⟨d', hd1, hd2⟩ := List.mem_map.1 (f6 d hd).1
        rw [← hc2, ← hd2]
        rw [← List.take_append_drop 10 (numbered table), List.pairwise_append] at hpw
        exact hpw.2.2 c' hc1 d' hd1
      · intro c hc
        rcases List.mem_append.1 hc with hc | hc
        · obtain ⟨d, hd1, hd2⟩ := List.mem_map.1 (e6 c hc).1
          rw [← hd2]
          exact ⟨hlt d (List.mem_of_mem_take hd1), (e6 c hc).2⟩
        · obtain ⟨d, hd1, hd2⟩ := List.mem_map.1 (f6 c hc).1
          rw [← hd2]
          exact ⟨hlt d (List.mem_of_mem_drop hd1), (f6 c hc).2⟩

/-! A prime of the table is recognised. -/

theorem strip_ne {p z : ℕ} (hp : p.Prime) (hz : z.Prime) (h : p ≠ z) :
    strip p (z + 1) z 0 = some (z, 0) := by
  unfold strip
  rw [if_neg]
  intro hd
  exact h ((Nat.prime_dvd_prime_iff_eq hp hz).1 hd)

theorem strip_self {z : ℕ} (hz : z.Prime) : strip z (z + 1) z 0 = some (1, 1) := by
  unfold strip
  rw [if_pos (dvd_refl z), Nat.div_self hz.pos]
  obtain ⟨m, rfl⟩ : ∃ m, z = m + 1 := ⟨z - 1, by have := hz.pos; omega⟩
  unfold strip
  rw [if_neg]
  intro hd
  exact hz.one_lt.ne' (Nat.dvd_one.1 hd)

theorem scan_skip {z : ℕ} (hz : z.Prime) : ∀ (ps : List (ℕ × ℕ)) (rel : List Cell),
    (∀ c ∈ ps, c.2.Prime ∧ c.2 ≠ z) → scan ps z rel = some (false, z, rel)
  | [], rel, _ => rfl
  | (i, p) :: ps, rel, h => by
    unfold scan
    rw [strip_ne (h (i, p) (by simp)).1 hz (h (i, p) (by simp)).2]
    simp only [if_true]
    exact scan_skip hz ps rel fun c hc => h c (List.mem_cons_of_mem _ hc)

theorem scan_hit {z i : ℕ} (hz : z.Prime) : ∀ (ps : List (ℕ × ℕ)) (rel : List Cell),
    (∀ c ∈ ps, c.2.Prime) → (∀ c ∈ ps, c.2 = z → c.1 = i) → (i, z) ∈ ps →
    scan ps z rel = some (true, 1, rel ++ [(i, 1)])
  | [], rel, _, _, h => by simp at h
  | (k, p) :: ps, rel, hp, hu, h => by
    unfold scan
    by_cases he : p = z
    · have hk : k = i := hu (k, p) (by simp) he
      rw [he, strip_self hz, hk]
      simp
    · rw [strip_ne (hp (k, p) (by simp)) hz he]
      simp only [if_true]
      refine scan_hit hz ps rel (fun c hc => hp c (List.mem_cons_of_mem _ hc))
        (fun c hc => hu c (List.mem_cons_of_mem _ hc)) ?_
      rcases List.mem_cons.1 h with h | h
      · exact absurd (Prod.ext_iff.1 h).2.symm he
      · exact h

theorem bundles_hit {z i : ℕ} (hz : z.Prime) : ∀ (bs : List (List (ℕ × ℕ))) (rel : List Cell),
    (∀ c ∈ bs.flatten, c.2.Prime) → (∀ c ∈ bs.flatten, c.2 = z → c.1 = i) → (i, z) ∈ bs.flatten →
    bundles bs z rel = some (true, 1, rel ++ [(i, 1)])
  | [], rel, _, _, h => by simp at h
  | b :: bs, rel, hp, hu, h => by
    rw [List.flatten_cons] at hp hu h
    unfold bundles
    by_cases hb : (i, z) ∈ b
    · rw [if_neg, scan_hit hz b rel (fun c hc => hp c (List.mem_append_left _ hc))
        (fun c hc => hu c (List.mem_append_left _ hc)) hb]
      intro hg
      have : z ∣ (b.map Prod.snd).prod := List.dvd_prod (List.mem_map.2 ⟨(i, z), hb, rfl⟩)
      rw [Nat.gcd_eq_right this] at hg
      exact hz.one_lt.ne' hg
    · have hne : ∀ c ∈ b, c.2 ≠ z := by
        intro c hc he
        have := hu c (List.mem_append_left _ hc) he
        apply hb
        rwa [← this, ← he]
      rw [if_pos]
      · refine bundles_hit hz bs rel (fun c hc => hp c (List.mem_append_right _ hc))
          (fun c hc => hu c (List.mem_append_right _ hc)) ?_
        rcases List.mem_append.1 h with h | h
        · exact absurd h hb
        · exact h
      · rw [← Nat.coprime_iff_gcd_eq_one, Nat.coprime_list_prod_left_iff]
        intro p hpm
        obtain ⟨c, hc, rfl⟩ := List.mem_map.1 hpm
        exact (Nat.coprime_primes (hp c (List.mem_append_left _ hc)) hz).2 (hne c hc)

/-- A prime of the table is found as the relation that consists of itself. -/
theorem smooth_prime {table : List ℕ} (ht : ∀ p ∈ table, p.Prime) (hn : table.Nodup) {i z : ℕ}
    (hi : table[i]? = some z) : smooth table z = some (some [(i, 1)]) := by
  have hz : z.Prime := ht z (List.mem_of_getElem? hi)
  have hp : ∀ c ∈ numbered table, c.2.Prime := fun c hc =>
    ht _ (List.mem_of_getElem? (mem_numbered.1 hc))
  have hu : ∀ c ∈ numbered table, c.2 = z → c.1 = i := by
    intro c hc he
    have h := mem_numbered.1 hc
    rw [he] at h
    exact (List.getElem?_inj (List.getElem?_eq_some_iff.1 h).1 hn).1 (h.trans hi.symm)
  have hm : (i, z) ∈ numbered table := mem_numbered.2 hi
  rw [← List.take_append_drop 10 (numbered table), List.mem_append] at hm
  have hb := parts_all (numbered table)
  rw [numbered_length] at hb
  unfold smooth
  by_cases ht1 : (i, z) ∈ (numbered table).take 10
  · simp only [scan_hit hz _ [] (fun c hc => hp c (List.mem_of_mem_take hc))
      (fun c hc => hu c (List.mem_of_mem_take hc)) ht1]
    rfl
  · have hm2 := hm.resolve_left ht1
    have hne : ∀ c ∈ (numbered table).take 10, c.2.Prime ∧ c.2 ≠ z := by
      intro c hc
      refine ⟨hp c (List.mem_of_mem_take hc), fun he => ht1 ?_⟩
      have := hu c (List.mem_of_mem_take hc) he
      rwa [← this, ← he]
    have h2 := bundles_hit (i := i) hz (parts (numbered table) ((table.length + 9) / 20)) []
      (fun c hc => hp c (List.mem_of_mem_drop (by rwa [hb] at hc)))
      (fun c hc => hu c (List.mem_of_mem_drop (by rwa [hb] at hc))) (by rwa [hb])
    unfold parts at h2
    simp only [scan_skip hz _ [] hne, h2]
    rfl

/-! ### The merge of two sorted relations -/

section linear

variable {l : ℕ}

/-- The value of a relation on `D`. -/
def dot (D : ℕ → ZMod l) (cs : List Cell) : ZMod l := (cs.map fun c => (c.2 : ZMod l) * D c.1).sum

theorem dot_cons (D : ℕ → ZMod l) (c : Cell) (cs : List Cell) :
    dot D (c :: cs) = (c.2 : ZMod l) * D c.1 + dot D cs := by simp [dot]

theorem dot_nil (D : ℕ → ZMod l) : dot D [] = 0 := rfl

theorem dot_append (D : ℕ → ZMod l) (a b : List Cell) : dot D (a ++ b) = dot D a + dot D b := by
  simp [dot]

/-- A sorted relation with coefficients that are not zero and numbers below `b`. -/
structure Good (l b : ℕ) (cs : List Cell) : Prop where
  sorted : cs.Pairwise fun x y => x.1 < y.1
  range : ∀ c ∈ cs, c.1 < b ∧ 0 < c.2 ∧ c.2 < l

theorem Good.tail {b : ℕ} {c : Cell} {cs : List Cell} (h : Good l b (c :: cs)) : Good l b cs :=
  ⟨(List.pairwise_cons.1 h.sorted).2, fun d hd => h.range d (List.mem_cons_of_mem _ hd)⟩

/-- The number of entries of `row` that have no partner in `rel`. -/
def missing (rel row : List Cell) : ℕ :=
  (row.filter fun c => decide (c.1 ∉ rel.map Prod.fst)).length

theorem missing_congr {rel rel' row : List Cell}
    (h : ∀ c ∈ row, (c.1 ∈ rel.map Prod.fst ↔ c.1 ∈ rel'.map Prod.fst)) :
    missing rel row = missing rel' row := by
  unfold missing
  congr 1
  apply List.filter_congr
  intro c hc
  simp only [decide_eq_decide, not_iff_not]
  exact h c hc

theorem mul_mod_pos (hl : l.Prime) {a b : ℕ} (ha : 0 < a ∧ a < l) (hb : 0 < b ∧ b < l) :
    0 < a * b % l := by
  rw [Nat.pos_iff_ne_zero]
  intro h
  rcases (hl.dvd_mul).1 (Nat.dvd_of_mod_eq_zero h) with h | h
  · exact absurd (Nat.le_of_dvd ha.1 h) (by omega)
  · exact absurd (Nat.le_of_dvd hb.1 h) (by omega)

theorem cast_mul_mod (a b : ℕ) : ((a * b % l : ℕ) : ZMod l) = (a : ZMod l) * b := by
  rw [ZMod.natCast_mod, Nat.cast_mul]

theorem cast_order_sub {x : ℕ} (h : x ≤ l) : ((l - x : ℕ) : ZMod l) = -(x : ZMod l) := by
  rw [Nat.cast_sub h, ZMod.natCast_self, zero_sub]

theorem merge_spec (hl : l.Prime) {z0 : ℕ} (hz : 0 < z0 ∧ z0 < l) (D : ℕ → ZMod l) {b : ℕ} :
    ∀ (room : ℕ) (rel row : List Cell), Good l b rel → Good l b row →
      missing rel row ≤ room → ∃ out, merge l z0 room rel row = some out ∧ Good l b out ∧
        dot D out = dot D rel - z0 * dot D row ∧
        ∀ c ∈ out, c.1 ∈ rel.map Prod.fst ∨ c.1 ∈ row.map Prod.fst
  | room, rel, [], h1, _, _ =>
    ⟨rel, by rw [merge], h1, by simp [dot_nil], fun c hc => Or.inl (List.mem_map.2 ⟨c, hc, rfl⟩)⟩
  | room, [], (k, e) :: row, h1, h2, hr => by
    have hm : missing [] ((k, e) :: row) = missing [] row + 1 := by simp [missing]
    rw [hm] at hr
    obtain ⟨room, rfl⟩ : ∃ m, room = m + 1 := ⟨room - 1, by omega⟩
    obtain ⟨out, e1, e2, e3, e4⟩ := merge_spec hl hz D room [] row h1
      h2.tail (by omega)
    obtain ⟨hk1, hk2, hk3⟩ := h2.range (k, e) (by simp)
    simp only at hk1 hk2 hk3
    have hpos := mul_mod_pos hl hz ⟨hk2, hk3⟩
    have hlt := Nat.mod_lt (z0 * e) hl.pos
    have hs := (List.pairwise_cons.1 h2.sorted).1
    refine ⟨(k, l - z0 * e % l) :: out, by rw [merge, if_neg (by omega), Nat.add_sub_cancel, e1]; rfl, ⟨?_, ?_⟩, ?_, ?_⟩
    · rw [List.pairwise_cons]
      refine ⟨fun c hc => ?_, e2.sorted⟩
      rcases e4 c hc with h | h
      · simp at h
      · obtain ⟨d, hd, hd'⟩ := List.mem_map.1 h
        rw [← hd']
        exact hs d hd
    · intro c hc
      rcases List.mem_cons.1 hc with rfl | hc
      · exact ⟨hk1, by simp only; omega, by simp only; omega⟩
      · exact e2.range c hc
    · rw [dot_cons, e3, dot_cons]
      simp only [cast_order_sub hlt.le, cast_mul_mod, dot_nil]
      ring
    · intro c hc
      right
      rcases List.mem_cons.1 hc with rfl | hc
      · simp
      · rcases e4 c hc with h | h
        · simp at h
        · rw [List.map_cons]; exact List.mem_cons_of_mem _ h
  | room, (i, a) :: rel, (k, e) :: row, h1, h2, hr => by
    obtain ⟨hk1, hk2, hk3⟩ := h2.range (k, e) (by simp)
    obtain ⟨hi1, hi2, hi3⟩ := h1.range (i, a) (by simp)
    simp only at hk1 hk2 hk3 hi1 hi2 hi3
    have hpos := mul_mod_pos hl hz ⟨hk2, hk3⟩
    have hlt := Nat.mod_lt (z0 * e) hl.pos
    have hs1 := (List.pairwise_cons.1 h1.sorted).1
    have hs2 := (List.pairwise_cons.1 h2.sorted).1
    simp only at hs1 hs2
    -- the fields of a result with a new first cell
    have build : ∀ (x : Cell) (out rel' row' : List Cell), Good l b out →
        (x.1 < b ∧ 0 < x.2 ∧ x.2 < l) →
        (∀ c ∈ out, c.1 ∈ rel'.map Prod.fst ∨ c.1 ∈ row'.map Prod.fst) →
        (∀ c ∈ rel', x.1 < c.1) → (∀ c ∈ row', x.1 < c.1) → Good l b (x :: out) := by
      intro x out rel' row' g hx hm hr1 hr2
      refine ⟨List.pairwise_cons.2 ⟨fun c hc => ?_, g.sorted⟩, fun c hc => ?_⟩
      · rcases hm c hc with h | h
        · obtain ⟨d, hd, hd'⟩ := List.mem_map.1 h
          rw [← hd']
          exact hr1 d hd
        · obtain ⟨d, hd, hd'⟩ := List.mem_map.1 h
          rw [← hd']
          exact hr2 d hd
      · rcases List.mem_cons.1 hc with rfl | hc
        · exact hx
        · exact g.range c hc
    have memb : ∀ c : Cell, (c.1 ∈ rel.map Prod.fst ∨ c.1 ∈ row.map Prod.fst) →
        (c.1 ∈ ((i, a) :: rel).map Prod.fst ∨ c.1 ∈ ((k, e) :: row).map Prod.fst) := by
      intro c h
      rw [List.map_cons, List.map_cons]
      exact h.imp (List.mem_cons_of_mem _) (List.mem_cons_of_mem _)
    rw [merge.eq_3]
    rcases Nat.lt_trichotomy i k with hik | hik | hik
    · rw [if_neg (by omega), if_neg (by omega)]
      have hmiss : missing ((i, a) :: rel) ((k, e) :: row) = missing rel ((k, e) :: row) := by
        apply missing_congr
        intro c hc
        rw [List.map_cons, List.mem_cons]
        refine ⟨fun h => h.resolve_left ?_, Or.inr⟩
        rcases List.mem_cons.1 hc with rfl | hc
        · simp only; omega
        · have := hs2 c hc
          omega
      obtain ⟨out, e1, e2, e3, e4⟩ := merge_spec hl hz D room rel
        ((k, e) :: row) h1.tail h2 (by omega)
      refine ⟨(i, a) :: out, by rw [e1]; rfl, build _ _ rel ((k, e) :: row) e2 ⟨hi1, hi2, hi3⟩ e4 hs1 ?_,
        ?_, ?_⟩
      · intro c hc
        rcases List.mem_cons.1 hc with rfl | hc
        · exact hik
        · exact hik.trans (hs2 c hc)
      · rw [dot_cons, e3, dot_cons D (i, a) rel]; ring
      · intro c hc
        rcases List.mem_cons.1 hc with rfl | hc
        · left; simp
        · rw [List.map_cons]
          exact (e4 c hc).imp (List.mem_cons_of_mem _) id
    · subst hik
      rw [if_pos rfl]
      have hmiss : missing ((i, a) :: rel) ((i, e) :: row) = missing rel row := by
        have h1 : missing ((i, a) :: rel) ((i, e) :: row) = missing ((i, a) :: rel) row := by
          simp [missing]
        rw [h1]
        apply missing_congr
        intro c hc
        rw [List.map_cons, List.mem_cons]
        refine ⟨fun h => h.resolve_left ?_, Or.inr⟩
        have := hs2 c hc
        simp only
        omega
      by_cases hz1 : z0 * e % l = a
      · rw [if_pos hz1]
        obtain ⟨out, e1, e2, e3, e4⟩ := merge_spec hl hz D (room + 1) rel
          row h1.tail h2.tail (by omega)
        refine ⟨out, e1, e2, ?_, fun c hc => memb c (e4 c hc)⟩
        rw [e3, dot_cons, dot_cons, ← hz1]
        simp only [cast_mul_mod]
        ring
      · rw [if_neg hz1]
        obtain ⟨out, e1, e2, e3, e4⟩ := merge_spec hl hz D room rel
          row h1.tail h2.tail (by omega)
        by_cases hc1 : a < z0 * e % l
        · rw [if_pos hc1]
          refine ⟨(i, a + (l - z0 * e % l)) :: out, by rw [e1]; rfl,
            build _ _ rel row e2 ⟨hi1, by simp only; omega, by simp only; omega⟩ e4 hs1 hs2, ?_, ?_⟩
          · rw [dot_cons, e3, dot_cons, dot_cons]
            simp only [Nat.cast_add, cast_order_sub hlt.le, cast_mul_mod]
            ring
          · intro c hc
            rcases List.mem_cons.1 hc with rfl | hc
            · left; simp
            · exact memb c (e4 c hc)
        · rw [if_neg hc1]
          refine ⟨(i, a - z0 * e % l) :: out, by rw [e1]; rfl,
            build _ _ rel row e2 ⟨hi1, by simp only; omega, by simp only; omega⟩ e4 hs1 hs2, ?_, ?_⟩
          · rw [dot_cons, e3, dot_cons, dot_cons]
            simp only [Nat.cast_sub (not_lt.1 hc1), cast_mul_mod]
            ring
          · intro c hc
            rcases List.mem_cons.1 hc with rfl | hc
            · left; simp
            · exact memb c (e4 c hc)
    · rw [if_neg (by omega), if_pos hik]
      have hmiss : missing ((i, a) :: rel) ((k, e) :: row) = missing ((i, a) :: rel) row + 1 := by
        unfold missing
        rw [List.filter_cons_of_pos, List.length_cons]
        simp only [decide_eq_true_eq, List.map_cons, List.mem_cons, not_or]
        refine ⟨by omega, fun h => ?_⟩
        obtain ⟨d, hd, hd'⟩ := List.mem_map.1 h
        have := hs1 d hd
        omega
      rw [hmiss] at hr
      obtain ⟨room, rfl⟩ : ∃ m, room = m + 1 := ⟨room - 1, by omega⟩
      obtain ⟨out, e1, e2, e3, e4⟩ := merge_spec hl hz D room
        ((i, a) :: rel) row h1 h2.tail (by omega)
      refine ⟨(k, l - z0 * e % l) :: out, by rw [if_neg (by omega), Nat.add_sub_cancel, e1]; rfl,
        build _ _ ((i, a) :: rel) row e2 ⟨hk1, by simp only; omega, by simp only; omega⟩ e4 ?_ hs2, ?_, ?_⟩
      · intro c hc
        rcases List.mem_cons.1 hc with rfl | hc
        · exact hik
        · exact hik.trans (hs1 c hc)
      · rw [dot_cons, e3, dot_cons, dot_cons]
        simp only [cast_order_sub hlt.le, cast_mul_mod]
        ring
      · intro c hc
        rcases List.mem_cons.1 hc with rfl | hc
        · right; simp
        · rw [List.map_cons (l := row)]
          exact (e4 c hc).imp id (List.mem_cons_of_mem _)
termination_by _ rel row => rel.length + row.length
decreasing_by all_goals simp only [List.length_cons, List.length_nil]; omega

/-! ### Elimination -/

/-- A row whose pivot is `i`. -/
structure RowOk (D : ℕ → ZMod l) (i : ℕ) (row : Row) : Prop where
  const_lt : row.const < l
  value : (row.const : ZMod l) = dot D row.cells
  shape : ∃ init, row.cells = init ++ [(i, 1)] ∧ Good l i init

/-- A matrix all of whose rows hold for `D`. -/
structure SysOk (D : ℕ → ZMod l) (r : ℕ) (s : Sys) : Prop where
  rows : ∀ i row, s.rows i = some row → i < r ∧ RowOk D i row
  found : ∀ j < s.minfound, (s.rows j).isSome
  bound : s.minfound ≤ r

/-- The number of rows. -/
def filled (r : ℕ) (s : Sys) : ℕ := ((Finset.range r).filter fun i => (s.rows i).isSome).card

theorem advance_spec {rows : ℕ → Option Row} {r : ℕ} : ∀ (f m : ℕ), m < r → (rows m).isSome →
    (∀ j < m, (rows j).isSome) →
    (∀ j < advance rows r f m, (rows j).isSome) ∧ advance rows r f m ≤ r
  | 0, m, hm, h1, h2 => by
    unfold advance
    refine ⟨fun j hj => ?_, hm⟩
    rcases Nat.lt_succ_iff_lt_or_eq.1 hj with h | rfl
    · exact h2 j h
    · exact h1
  | f + 1, m, hm, h1, h2 => by
    have h3 : ∀ j < m + 1, (rows j).isSome := by
      intro j hj
      rcases Nat.lt_succ_iff_lt_or_eq.1 hj with h | rfl
      · exact h2 j h
      · exact h1
    unfold advance
    by_cases hr : r ≤ m + 1
    · rw [if_pos hr]; exact ⟨h3, hm⟩
    · rw [if_neg hr]
      by_cases hs : (rows (m + 1)).isSome
      · rw [if_pos hs]; exact advance_spec f (m + 1) (by omega) hs h3
      · rw [if_neg hs]; exact ⟨h3, hm⟩

theorem good_snoc {b i a : ℕ} {init : List Cell} (h : Good l b (init ++ [(i, a)])) :
    Good l i init ∧ i < b ∧ 0 < a ∧ a < l := by
  have hs := List.pairwise_append.1 h.sorted
  refine ⟨⟨hs.1, fun c hc => ⟨?_, (h.range c (by simp [hc])).2⟩⟩, h.range (i, a) (by simp)⟩
  exact hs.2.2 c hc (i, a) (by simp)

theorem good_mono {b b' : ℕ} {cs : List Cell} (h : Good l b cs) (hb : b ≤ b') : Good l b' cs :=
  ⟨h.sorted, fun c hc => ⟨(h.range c hc).1.trans_le hb, (h.range c hc).2⟩⟩

theorem good_scale (hl : l.Prime) {b u : ℕ} (hu : 0 < u ∧ u < l) {cs : List Cell}
    (h : Good l b cs) : Good l b (cs.map fun c => (c.1, c.2 * u % l)) := by
  refine ⟨?_, fun c hc => ?_⟩
  · rw [List.pairwise_map]; exact h.sorted
  · obtain ⟨d, hd, rfl⟩ := List.mem_map.1 hc
    obtain ⟨h1, h2, h3⟩ := h.range d hd
    exact ⟨h1, mul_mod_pos hl ⟨h2, h3⟩ hu, Nat.mod_lt _ hl.pos⟩

theorem dot_scale (D : ℕ → ZMod l) (u : ℕ) : ∀ cs : List Cell,
    dot D (cs.map fun c => (c.1, c.2 * u % l)) = dot D cs * u
  | [] => by simp [dot_nil]
  | c :: cs => by
    rw [List.map_cons, dot_cons, dot_scale D u cs, dot_cons]
    simp only [cast_mul_mod]
    ring

/-- A sorted relation below `b` has at most `b` entries; with another one, what is missing fits. -/
theorem missing_le {b : ℕ} {rel row : List Cell} (h1 : Good l b rel) (h2 : Good l b row) :
    rel.length + missing rel row ≤ b := by
  have hn : ∀ {cs : List Cell}, (cs.Pairwise fun x y => x.1 < y.1) → (cs.map Prod.fst).Nodup := by
    intro cs h
    rw [List.Nodup, List.pairwise_map]
    exact h.imp fun h => h.ne
  have hnd : (rel.map Prod.fst ++
      (row.filter fun c => decide (c.1 ∉ rel.map Prod.fst)).map Prod.fst).Nodup := by
    rw [List.nodup_append]
    refine ⟨hn h1.sorted, hn (h2.sorted.sublist List.filter_sublist), ?_⟩
    intro x hx y hy hxy
    obtain ⟨c, hc, rfl⟩ := List.mem_map.1 hy
    have := (List.mem_filter.1 hc).2
    rw [decide_eq_true_eq] at this
    exact this (hxy ▸ hx)
  have hsub : (rel.map Prod.fst ++
      (row.filter fun c => decide (c.1 ∉ rel.map Prod.fst)).map Prod.fst) ⊆ List.range b := by
    intro x hx
    rw [List.mem_range]
    rcases List.mem_append.1 hx with h | h
    · obtain ⟨c, hc, rfl⟩ := List.mem_map.1 h
      exact (h1.range c hc).1
    · obtain ⟨c, hc, rfl⟩ := List.mem_map.1 h
      exact (h2.range c (List.mem_filter.1 hc).1).1
  have := (hnd.subperm hsub).length_le
  simpa [missing] using this

theorem invert_spec (hl : l.Prime) {a : ℕ} (ha : 0 < a ∧ a < l) :
    ∃ u, invert a l = some u ∧ 0 < u ∧ u < l ∧ (a * u) % l = 1 ∧ (a : ZMod l) * u = 1 := by
  have hc : Nat.Coprime a l :=
    (Nat.coprime_comm.1 ((Nat.Prime.coprime_iff_not_dvd hl).2 fun h =>
      absurd (Nat.le_of_dvd ha.1 h) (by omega)))
  obtain ⟨h1, h2⟩ := Mont.mpzInvert_spec hl.pos hc
  refine ⟨Mont.mpzInvert a l, by unfold invert; rw [if_pos hc], ?_, h1, ?_, ?_⟩
  · rw [Nat.pos_iff_ne_zero]
    intro h
    rw [h, mul_zero, Nat.ModEq, Nat.zero_mod, Nat.mod_eq_of_lt hl.one_lt] at h2
    omega
  · rw [Nat.ModEq, Nat.mod_eq_of_lt hl.one_lt] at h2
    exact h2
  · have := (ZMod.natCast_eq_natCast_iff _ _ _).2 h2
    push_cast at this
    exact this

theorem reduce_spec (hl : l.Prime) (D : ℕ → ZMod l) {r : ℕ} {s : Sys} (hs : SysOk D r s) :
    ∀ (f b : ℕ) (relm : List Cell) (km : ℕ), b < f → b ≤ r → Good l b relm → km < l →
      (km : ZMod l) = dot D relm →
      ∃ s' ins, reduce r l f s relm km = some (s', ins) ∧ SysOk D r s' ∧
        (∀ i, (s.rows i).isSome → (s'.rows i).isSome) ∧
        filled r s' = filled r s + (if ins then 1 else 0) ∧
        ∀ c, relm.getLast? = some c → (s'.rows c.1).isSome
  | 0, b, _, _, h, _, _, _, _ => by omega
  | f + 1, b, relm, km, hbf, hbr, hg, hkm, hv => by
    unfold reduce
    rcases List.eq_nil_or_concat relm with rfl | ⟨init, ⟨rind, z0⟩, rfl⟩
    · exact ⟨s, false, rfl, hs, fun _ h => h, by simp, by simp⟩
    rw [List.concat_eq_append] at *
    obtain ⟨hgi, hrb, hz1, hz2⟩ := good_snoc hg
    have hlast : (init ++ [(rind, z0)]).getLast? = some (rind, z0) := by simp
    rw [hlast]
    simp only
    by_cases hmf : rind < s.minfound
    · rw [if_pos hmf]
      refine ⟨s, false, rfl, hs, fun _ h => h, by simp, fun c hc => ?_⟩
      obtain rfl : (rind, z0) = c := by simpa using hc
      exact hs.found rind hmf
    rw [if_neg hmf]
    cases hrow : s.rows rind with
    | none =>
      obtain ⟨u, hu1, hu2, hu3, hu4, hu5⟩ := invert_spec hl ⟨hz1, hz2⟩
      simp only [hu1]
      have hrr : rind < r := by omega
      set rows' := Function.update s.rows rind (some (newRow l u (init ++ [(rind, z0)]) km))
        with hrows'
      have hmono : ∀ i, (s.rows i).isSome → (rows' i).isSome := by
        intro i hi
        rw [hrows', Function.update_apply]
        split
        · rfl
        · exact hi
      have hnew : (rows' rind).isSome := by rw [hrows', Function.update_self]; rfl
      refine ⟨_, _, rfl, ⟨?_, ?_, ?_⟩, hmono, ?_, ?_⟩
      · intro i row hi
        simp only [hrows', Function.update_apply] at hi
        split at hi
        · rename_i he
          subst he
          obtain rfl := Option.some.inj hi
          refine ⟨hrr, Nat.mod_lt _ hl.pos, ?_, init.map fun c => (c.1, c.2 * u % l), ?_,
            good_scale hl ⟨hu2, hu3⟩ hgi⟩
          · simp only [newRow]
            rw [dot_scale, ← hv, cast_mul_mod]
          · simp [newRow, hu4]
        · exact hs.rows i row hi
      · simp only
        split
        · rename_i he
          exact (advance_spec r s.minfound (by omega) (by rw [← he]; exact hnew)
            (fun j hj => hmono j (hs.found j hj))).1
        · exact fun j hj => hmono j (hs.found j hj)
      · simp only
        split
        · rename_i he
          exact (advance_spec r s.minfound (by omega) (by rw [← he]; exact hnew)
            (fun j hj => hmono j (hs.found j hj))).2
        · exact hs.bound
      · unfold filled
        have hset : ((Finset.range r).filter fun i => (rows' i).isSome) =
            insert rind ((Finset.range r).filter fun i => (s.rows i).isSome) := by
          ext i
          rw [Finset.mem_insert, Finset.mem_filter, Finset.mem_filter, hrows',
            Function.update_apply]
          by_cases hi : i = rind
          · subst hi; simp [hrr]
          · simp [hi]
        rw [hset, Finset.card_insert_of_notMem]
        · rfl
        · rw [Finset.mem_filter, hrow]; simp
      · intro c hc
        obtain rfl : (rind, z0) = c := by simpa using hc
        exact hnew
    | some row =>
      obtain ⟨_, hro⟩ := hs.rows rind row hrow
      obtain ⟨rinit, hshape, hgr⟩ := hro.shape
      have hmiss := missing_le hgi hgr
      simp only [List.length_append, List.length_singleton, Nat.add_sub_cancel,
        List.dropLast_concat, hshape]
      obtain ⟨out, e1, e2, e3, e4⟩ := merge_spec hl ⟨hz1, hz2⟩ D (r - init.length) init rinit hgi hgr
        (by omega)
      simp only [e1]
      have hz1lt := Nat.mod_lt (z0 * row.const) hl.pos
      obtain ⟨s', ins, h1, h2, h3, h4, h5⟩ := reduce_spec hl D hs f rind out
        (if z0 * row.const % l ≤ km then km - z0 * row.const % l else km + (l - z0 * row.const % l))
        (by omega) (by omega) e2 (by split <;> omega) (by
          have hrv := hro.value
          rw [hshape, dot_append, dot_cons, dot_nil] at hrv
          rw [dot_append, dot_cons, dot_nil] at hv
          simp only [Nat.cast_one, one_mul, add_zero] at hrv hv
          have : ((if z0 * row.const % l ≤ km then km - z0 * row.const % l
              else km + (l - z0 * row.const % l) : ℕ) : ZMod l) = km - z0 * row.const := by
            split
            · rename_i h
              rw [Nat.cast_sub h, cast_mul_mod]
            · rw [Nat.cast_add, cast_order_sub hz1lt.le, cast_mul_mod]; ring
          rw [this, e3, hv, hrv]
          ring)
      refine ⟨s', ins, h1, h2, h3, h4, fun c hc => ?_⟩
      obtain rfl : (rind, z0) = c := by simpa using hc
      exact h3 rind (by rw [hrow]; rfl)

end linear

end Pbc.IndexCalculus
