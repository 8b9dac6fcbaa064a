import Verif.Lemmas.Objects

/-!
# What set-up allocates, clearing releases (C128, C130)
-/

set_option autoImplicit false

namespace Pbc.Obj

open Spec.Obj

/-- **C128**, parameter sets of all types. -/
theorem C128_params (k : ℕ) : Restores paramA ∧ Restores paramA1 ∧ Restores (paramD k) ∧ Restores paramE ∧
    Restores paramF ∧ Restores paramG ∧ Restores paramI :=
  ⟨(fits_of (by decide +kernel)).restores, (fits_of (by decide +kernel)).restores, (fits_paramD k).restores,
    (fits_of (by decide +kernel)).restores, (fits_of (by decide +kernel)).restores,
    (fits_of (by decide +kernel)).restores, (fits_of (by decide +kernel)).restores⟩

/-- **C128**, pairings of all types. -/
theorem C128_pairings (k : ℕ) : Restores pairingA ∧ Restores pairingA1 ∧ Restores (pairingD k) ∧ Restores pairingE ∧
    Restores pairingF ∧ Restores pairingG ∧ Restores pairingI := by
  refine ⟨(fits_of (by decide +kernel)).restores, (fits_of (by decide +kernel)).restores, ?_,
    (fits_of (by decide +kernel)).restores, (fits_of (by decide +kernel)).restores,
    (fits_of (by decide +kernel)).restores, (fits_of (by decide +kernel)).restores⟩
  by_cases h : k = 6
  · subst h
    exact (fits_of (by decide +kernel)).restores
  · have e : pairingD k = pairingD 0 := by simp [pairingD, h]
    rw [e]
    exact (fits_of (by decide +kernel)).restores

/-- **C128**, elements of all kinds of fields. -/
theorem C128_elements (n : ℕ) : Restores pair ∧ Restores (tuple n) :=
  ⟨(fits_of (by decide +kernel)).restores, (fits_tuple n).restores⟩

/-- **C128**, fields: polynomial extensions of every degree, curves with and without cofactor and quotient, the fields of
characteristic three. -/
theorem C128_fields (n : ℕ) (nqr cof quo : Bool) :
    Restores (polymodField n nqr) ∧ Restores (curveField cof quo) ∧ Restores gf3mField := by
  refine ⟨(fits_polymodField n nqr).restores, ?_, (fits_of (by decide +kernel)).restores⟩
  cases cof <;> cases quo <;> exact (fits_of (by decide +kernel)).restores

/-- **C128**, tables for powers of every window size and length of exponent. -/
theorem C128_tables (bits k : ℕ) : Restores (powWindow k) ∧ Restores (baseTable bits k) :=
  ⟨(fits_powWindow k).restores, (fits_baseTable bits k).restores⟩

/-- **C128**, lists of solutions of Pell equations and coefficients of class polynomials. -/
theorem C128_lists (c : ℕ) : Restores (pell c) ∧ Restores (hilbert c) :=
  ⟨(fits_pell c).restores, (fits_hilbert c).restores⟩

/-- **C130**, preprocessing for type A and for elliptic nets.  Missing: preprocessing for type A1, for which the
statement is false. -/
theorem C130_preprocessing_partial (exp1 exp2 rbits : ℕ) (h : exp1 ≤ exp2) :
    Restores (ppA exp1 exp2) ∧ Restores (ppEllnet rbits) :=
  ⟨(fits_ppA h).restores, (fits_ppEllnet rbits).restores⟩

/-- **C130** fails for preprocessing of type A1: `pairing_pp_clear` never clears the elements, so three are left for every bit
of the group order after the first (at least), and six where the bit is set. -/
theorem C130_a1_fails (r : ℕ) (hr : 2 ≤ r) : ∃ K : Finset Nm, Leaves (ppA1 r) K ∧
    K.card = 3 * (topBit r + 1) + 3 * ((List.range (topBit r)).filter fun i => r.testBit (i + 1)).length :=
  ⟨_, (fits_ppA1 hr).leaves, card_leftA1 r⟩

/-- **C130** fails for preprocessing of type A with `exp1 > exp2` in the parameters: the loop writes past the end of its
block. -/
theorem C130_a_fails (exp1 exp2 : ℕ) (h : exp2 < exp1) (H : Finset Nm) (hH : Apart (ppA exp1 exp2) H) :
    life (ppA exp1 exp2) H = none := by
  have key : ∀ l₁ l₂ (H : Finset Nm), Nm.oob ∉ H → Nm.oob ∉ l₁ →
      make (ppA exp1 exp2) (l₁ ++ .item (exp2 + 1) 0 :: l₂) H = none := by
    intro l₁
    induction l₁ with
    | nil =>
      intro l₂ H h0 _
      rw [List.nil_append, make, if_neg]
      rintro ⟨-, h1⟩
      exact h0 (h1 .oob (by simp [ppA]))
    | cons n l ih =>
      intro l₂ H h0 h1
      rw [List.cons_append, make]
      split
      · refine ih l₂ _ ?_ fun hm => h1 (List.mem_cons_of_mem _ hm)
        rw [Finset.mem_insert]
        rintro (e | e)
        · exact h1 (by rw [e]; exact List.mem_cons_self)
        · exact h0 e
      · rfl
  have hm : Nm.item (exp2 + 1) 0 ∈ (ppA exp1 exp2).init := by
    simp only [ppA, List.mem_cons, List.mem_flatMap, List.mem_append]
    refine Or.inr ⟨exp2 + 1, ?_, by simp⟩
    rcases Nat.lt_or_ge (exp2 + 1) exp1 with h' | h'
    · exact Or.inl (Or.inl (by simpa using h'))
    · refine Or.inr ?_
      simp; omega
  obtain ⟨l₁, l₂, e⟩ := List.append_of_mem hm
  have ho : Nm.oob ∉ (ppA exp1 exp2).init := by simp [ppA]
  rw [life, e, key l₁ l₂ H hH.2 (fun hx => ho (by rw [e]; simp [hx]))]
  rfl

/-- **C130** fails when the method is changed in between (`pairing_option_set`, type A): what the default method prepared is
cleared as if it were prepared for elliptic nets, which is undefined. -/
theorem C130_method_fails (exp1 exp2 rbits : ℕ) (h : exp1 ≤ exp2) (hr : 0 < rbits) (H : Finset Nm)
    (hH : Apart (ppA exp1 exp2) H) (hs : Nm.seq ∉ H) :
    (make (ppA exp1 exp2) (ppA exp1 exp2).init H).bind (drop (ppEllnet rbits) (ppEllnet rbits).clear) = none := by
  have h1 := make_eq (fits_ppA h) hH.1 (ppA exp1 exp2).init [] rfl
  rw [List.toFinset_nil, Finset.union_empty] at h1
  rw [h1, Option.bind_some]
  obtain ⟨m, rfl⟩ : ∃ m, rbits = m + 1 := ⟨rbits - 1, by omega⟩
  have e : ∃ l, (ppEllnet (m + 1)).clear = .item 0 0 :: l := by
    simp only [ppEllnet, List.range_succ_eq_map, List.flatMap_cons, List.map_cons, List.cons_append]
    exact ⟨_, rfl⟩
  obtain ⟨l, e⟩ := e
  rw [e, drop, if_neg]
  rintro ⟨-, h2⟩
  have := h2 .seq (by simp [ppEllnet])
  rw [Finset.mem_union] at this
  rcases this with h3 | h3
  · exact hs h3
  · simp [ppA] at h3

/-- **C130** for the copies of parameter values: after reading a text with the keys `keys` exactly those values are left for
which the same key comes again later. -/
theorem C130_strings (keys : List String) : ∃ K : Finset Nm, Leaves (strings keys) K ∧
    ∀ m, m ∈ K ↔ ∃ i j, i < j ∧ j < keys.length ∧ keys[j]? = keys[i]? ∧ m = .str i :=
  ⟨_, (fits_strings keys).leaves, fun m => by rw [List.mem_toFinset, mem_overridden]⟩

/-- **C130** for the copies of parameter values: nothing is left exactly when no key comes twice. -/
theorem C130_strings_iff (keys : List String) : Restores (strings keys) ↔ keys.Nodup := by
  obtain ⟨K, hK, hm⟩ := C130_strings keys
  have hA : Apart (strings keys) ∅ := ⟨by simp, by simp⟩
  have hl := hK.2 ∅ hA
  rw [Finset.empty_union] at hl
  constructor
  · intro h
    have := h ∅ hA
    rw [hl, Option.some.injEq] at this
    rw [List.nodup_iff_getElem?_ne_getElem?]
    intro i j hij hj e
    have : Nm.str i ∈ K := (hm _).2 ⟨i, j, hij, hj, e.symm, rfl⟩
    simp_all
  · intro h H hH
    have : K = ∅ := by
      rw [Finset.eq_empty_iff_forall_notMem]
      intro m hk
      obtain ⟨i, j, hij, hj, e, -⟩ := (hm m).1 hk
      rw [List.nodup_iff_getElem?_ne_getElem?] at h
      exact h i j hij hj e.symm
    have := hK.2 H hH
    rwa [‹K = ∅›, Finset.union_empty] at this

/-- Fields are released after everything built on them, for types A1, D, F and G.  Missing: types A, E and I. -/
theorem C130_order_partial (k : ℕ) : Ordered pairingA1 ∧ Ordered (pairingD k) ∧ Ordered pairingF ∧ Ordered pairingG := by
  refine ⟨ordered_iff.2 (by decide +kernel), ?_, ordered_iff.2 (by decide +kernel), ordered_iff.2 (by decide +kernel)⟩
  by_cases h : k = 6
  · subst h
    exact ordered_iff.2 (by decide +kernel)
  · have e : pairingD k = pairingD 0 := by simp [pairingD, h]
    rw [e]
    exact ordered_iff.2 (by decide +kernel)

/-- Not so for types A, E and I: the base field goes before the field or curve built on it. -/
theorem C130_order_fails : ¬ Ordered pairingA ∧ ¬ Ordered pairingE ∧ ¬ Ordered pairingI := by
  refine ⟨?_, ?_, ?_⟩ <;> rw [ordered_iff] <;> decide +kernel

/-! ### The notions are not empty -/

/-- A type D pairing while a type A parameter set with other names is alive. -/
example : life (pairingD 6) {.p, .x} = some {.p, .x} := (C128_pairings 6).2.2.1 _ ⟨by decide, by decide⟩

/-- Forgetting one part is noticed. -/
example : ¬ Restores { pair with clear := [.x, .data] } := fun h => by
  have := h ∅ ⟨by simp, by simp⟩
  exact absurd this (by decide +kernel)

/-- Releasing the block first is noticed. -/
example : ¬ Restores { pair with clear := [.data, .x, .y] } := fun h => by
  have := h ∅ ⟨by simp, by simp⟩
  exact absurd this (by decide +kernel)

/-- The order 7 of type A1: bits 111, two entries, the first merged. -/
example : topBit 7 = 1 ∧ entrySize 7 0 = 6 ∧ entrySize 7 1 = 3 := by decide +kernel

/-- A text with `q` twice. -/
example : ¬ Restores (strings ["type", "q", "r", "q"]) := fun h => absurd ((C130_strings_iff _).1 h) (by decide)

end Pbc.Obj
