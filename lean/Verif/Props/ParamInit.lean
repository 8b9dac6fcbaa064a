import Verif.Model.ParamInit
import Verif.Props.Param

/-!
# Properties of initialising parameters from texts
-/

set_option autoImplicit false

namespace Pbc.Param

open Darray

/-! ## Specification -/

/-- The name of the type. -/
def typeName : Par → String
  | .a .. => "a"
  | .a1 .. => "a1"
  | .d .. => "d"
  | .e .. => "e"
  | .f .. => "f"
  | .g .. => "g"
  | .i .. => "i"

/-- The values of parameters by name, in no particular order, without the coefficients of type D. -/
def fields : Par → List (String × ℤ)
  | .a q r h exp2 exp1 sign1 sign0 =>
    [("q", q), ("r", r), ("h", h), ("exp1", exp1), ("exp2", exp2), ("sign0", sign0), ("sign1", sign1)]
  | .a1 p n l => [("p", p), ("n", n), ("l", l)]
  | .d q n h r a b k nk hk _ nqr =>
    [("q", q), ("n", n), ("h", h), ("r", r), ("a", a), ("b", b), ("k", k), ("nk", nk), ("hk", hk), ("nqr", nqr)]
  | .e q r h a b exp2 exp1 sign1 sign0 =>
    [("q", q), ("r", r), ("h", h), ("a", a), ("b", b), ("exp1", exp1), ("exp2", exp2), ("sign0", sign0),
     ("sign1", sign1)]
  | .f q r b beta alpha0 alpha1 =>
    [("q", q), ("r", r), ("b", b), ("beta", beta), ("alpha0", alpha0), ("alpha1", alpha1)]
  | .g q n h r a b nk hk c0 c1 c2 c3 c4 nqr =>
    [("q", q), ("n", n), ("h", h), ("r", r), ("a", a), ("b", b), ("nk", nk), ("hk", hk), ("nqr", nqr),
     ("coeff0", c0), ("coeff1", c1), ("coeff2", c2), ("coeff3", c3), ("coeff4", c4)]
  | .i m t n n2 => [("m", m), ("t", t), ("n", n), ("n2", n2)]

/-- The coefficients of type D. -/
def coeffs : Par → List ℤ
  | .d _ _ _ _ _ _ _ _ _ c _ => c
  | _ => []

/-- The numbers that are kept as `int` fit into one, and type D has `k/2` coefficients. -/
def Sane : Par → Prop
  | .a _ _ _ exp2 exp1 sign1 sign0 => ∀ z ∈ [exp2, exp1, sign1, sign0], -(2 ^ 31) ≤ z ∧ z < 2 ^ 31
  | .a1 _ _ l => -(2 ^ 31) ≤ l ∧ l < 2 ^ 31
  | .d _ _ _ _ _ _ k _ _ c _ => 0 ≤ k ∧ k < 2 ^ 31 ∧ (c.length : ℤ) = k / 2
  | .e _ _ _ _ _ exp2 exp1 sign1 sign0 => ∀ z ∈ [exp2, exp1, sign1, sign0], -(2 ^ 31) ≤ z ∧ z < 2 ^ 31
  | .f .. => True
  | .g .. => True
  | .i m t _ _ => ∀ z ∈ [m, t], -(2 ^ 31) ≤ z ∧ z < 2 ^ 31

/-- The bindings say what the parameters are: of several bindings of a name the last counts; other names may be
bound too. -/
def Describes (l : List (List Char × List Char)) (p : Par) : Prop :=
  lastBinding l "type".toList = some (typeName p).toList ∧
    (∀ kv ∈ fields p, lastBinding l kv.1.toList = some (intStr kv.2)) ∧
    ∀ i z, (coeffs p)[i]? = some z → lastBinding l ("coeff".toList ++ natStr i) = some (intStr z)

/-- The names that have to be bound. -/
def required : List (String × List String) :=
  [("a", ["q", "r", "h", "exp2", "exp1", "sign1", "sign0"]), ("a1", ["p", "n", "l"]),
   ("e", ["q", "r", "h", "a", "b", "exp2", "exp1", "sign1", "sign0"]),
   ("f", ["q", "r", "b", "beta", "alpha0", "alpha1"]),
   ("g", ["q", "n", "h", "r", "a", "b", "nk", "hk", "nqr", "coeff0", "coeff1", "coeff2", "coeff3", "coeff4"]),
   ("i", ["m", "t", "n", "n2"])]

/-! ## Reading -/

theorem lookup_table (l : List (List Char × List Char)) (k : List Char) :
    lookupMpz (tableOf (l.map Prod.swap)) k = (lastBinding l k).map fun v => (mpzSetStr v).getD 0 := by
  rw [lookupMpz, (C62_map _ k).2, (C62_map _ k).1, mapOf_last]
  cases lastBinding l k <;> rfl

theorem lookup_int {l : List (List Char × List Char)} {k : List Char} {z : ℤ}
    (h : lastBinding l k = some (intStr z)) : lookupMpz (tableOf (l.map Prod.swap)) k = some z := by
  rw [lookup_table, h]; simp [mpzSetStr_intStr]

theorem lookup_small {l : List (List Char × List Char)} {k : List Char} {z : ℤ}
    (h : lastBinding l k = some (intStr z)) (hz : -(2 ^ 31) ≤ z ∧ z < 2 ^ 31) :
    lookupInt (tableOf (l.map Prod.swap)) k = some z := by
  rw [lookupInt, lookup_int h, Option.map_some, toInt_small hz.1 hz.2]

theorem finish_ok {l : List (Option ℤ)} (h : ∀ o ∈ l, o.isSome = true) (p : Par) : finish l p = .ok p := by
  have : errs l = 0 := by
    rw [errs, List.length_eq_zero_iff, List.filter_eq_nil_iff]
    intro o ho
    have := h o ho
    cases o with
    | none => cases this
    | some z => simp
  rw [finish, if_pos this]

theorem setTab_type (l : List (List Char × List Char)) (t : List Char)
    (h : lastBinding l "type".toList = some t) :
    setTab (tableOf (l.map Prod.swap)) =
      match funtab.find? fun p => t = p.1 with
      | none => .err 1
      | some p => p.2 (tableOf (l.map Prod.swap)) := by
  rw [setTab, (C62_map _ _).2, (C62_map _ _).1, mapOf_last, h]
  rfl

theorem setTab_of {l : List (List Char × List Char)} {t : String} {init : Table → Res}
    (h : lastBinding l "type".toList = some t.toList)
    (hm : (t, init) ∈ [("a", initA), ("a1", initA1), ("d", initD), ("e", initE), ("f", initF), ("g", initG),
      ("i", initI)]) : setTab (tableOf (l.map Prod.swap)) = init (tableOf (l.map Prod.swap)) := by
  rw [setTab_type l _ h]
  simp only [List.mem_cons, List.not_mem_nil, or_false, Prod.mk.injEq] at hm
  rcases hm with ⟨rfl, rfl⟩ | ⟨rfl, rfl⟩ | ⟨rfl, rfl⟩ | ⟨rfl, rfl⟩ | ⟨rfl, rfl⟩ | ⟨rfl, rfl⟩ | ⟨rfl, rfl⟩ <;>
    simp [funtab, List.find?]

theorem setTab_describes {l : List (List Char × List Char)} {p : Par} (hd : Describes l p) (hs : Sane p) :
    setTab (tableOf (l.map Prod.swap)) = .ok p := by
  obtain ⟨ht, hf, hc⟩ := hd
  cases p with
  | a q r h exp2 exp1 sign1 sign0 =>
    simp only [fields, List.mem_cons, List.not_mem_nil, or_false, forall_eq_or_imp, forall_eq] at hf
    obtain ⟨h1, h2, h3, h4, h5, h6, h7⟩ := hf
    simp only [Sane, List.mem_cons, List.not_mem_nil, or_false, forall_eq_or_imp, forall_eq] at hs
    obtain ⟨s1, s2, s3, s4⟩ := hs
    rw [setTab_of (t := "a") (init := initA) ht (by simp), initA, lookup_int h1, lookup_int h2, lookup_int h3, lookup_small h5 s1, lookup_small h4 s2,
      lookup_small h7 s3, lookup_small h6 s4]
    rfl
  | a1 p n k =>
    simp only [fields, List.mem_cons, List.not_mem_nil, or_false, forall_eq_or_imp, forall_eq] at hf
    obtain ⟨h1, h2, h3⟩ := hf
    rw [setTab_of (t := "a1") (init := initA1) ht (by simp), initA1, lookup_int h1, lookup_int h2, lookup_small h3 hs]
    rfl
  | e q r h a b exp2 exp1 sign1 sign0 =>
    simp only [fields, List.mem_cons, List.not_mem_nil, or_false, forall_eq_or_imp, forall_eq] at hf
    obtain ⟨h1, h2, h3, ha, hb, h4, h5, h6, h7⟩ := hf
    simp only [Sane, List.mem_cons, List.not_mem_nil, or_false, forall_eq_or_imp, forall_eq] at hs
    obtain ⟨s1, s2, s3, s4⟩ := hs
    rw [setTab_of (t := "e") (init := initE) ht (by simp), initE, lookup_int h1, lookup_int h2, lookup_int h3, lookup_int ha, lookup_int hb, lookup_small h5 s1,
      lookup_small h4 s2, lookup_small h7 s3, lookup_small h6 s4]
    rfl
  | f q r b beta alpha0 alpha1 =>
    simp only [fields, List.mem_cons, List.not_mem_nil, or_false, forall_eq_or_imp, forall_eq] at hf
    obtain ⟨h1, h2, h3, h4, h5, h6⟩ := hf
    rw [setTab_of (t := "f") (init := initF) ht (by simp), initF, lookup_int h1, lookup_int h2, lookup_int h3, lookup_int h4, lookup_int h5, lookup_int h6]
    rfl
  | g q n h r a b nk hk c0 c1 c2 c3 c4 nqr =>
    simp only [fields, List.mem_cons, List.not_mem_nil, or_false, forall_eq_or_imp, forall_eq] at hf
    obtain ⟨h1, h2, h3, h4, h5, h6, h7, h8, h9, h10, h11, h12, h13, h14⟩ := hf
    rw [setTab_of (t := "g") (init := initG) ht (by simp), initG, lookup_int h1, lookup_int h2, lookup_int h3, lookup_int h4, lookup_int h5, lookup_int h6,
      lookup_int h7, lookup_int h8, lookup_int h9, lookup_int h10, lookup_int h11, lookup_int h12,
      lookup_int h13, lookup_int h14]
    rfl
  | i m t n n2 =>
    simp only [fields, List.mem_cons, List.not_mem_nil, or_false, forall_eq_or_imp, forall_eq] at hf
    obtain ⟨h1, h2, h3, h4⟩ := hf
    simp only [Sane, List.mem_cons, List.not_mem_nil, or_false, forall_eq_or_imp, forall_eq] at hs
    rw [setTab_of (t := "i") (init := initI) ht (by simp), initI, lookup_small h1 hs.1, lookup_small h2 hs.2, lookup_int h3, lookup_int h4]
    rfl
  | d q n h r a b k nk hk coeff nqr =>
    simp only [fields, List.mem_cons, List.not_mem_nil, or_false, forall_eq_or_imp, forall_eq] at hf
    obtain ⟨h1, h2, h3, h4, h5, h6, h7, h8, h9, h10⟩ := hf
    obtain ⟨s1, s2, s3⟩ := hs
    rw [setTab_of (t := "d") (init := initD) ht (by simp), initD, lookup_int h1, lookup_int h2, lookup_int h3, lookup_int h4, lookup_int h5, lookup_int h6,
      lookup_small h7 ⟨by omega, s2⟩, lookup_int h8, lookup_int h9, lookup_int h10]
    have hk : (val (some k)).tdiv 2 = (coeff.length : ℤ) := by
      rw [s3]; exact Int.tdiv_eq_ediv_of_nonneg s1
    have hcs : ((List.range coeff.length).map fun i => lookupMpz (tableOf (l.map Prod.swap)) (coeffKey i)) =
        coeff.map some := by
      apply List.ext_getElem (by simp)
      intro i hi hi'
      simp only [List.length_map, List.length_range] at hi
      simp only [List.getElem_map, List.getElem_range]
      exact lookup_int (hc i coeff[i] (List.getElem?_eq_getElem hi))
    dsimp only
    rw [hk, if_neg (by omega), Int.toNat_natCast, hcs, finish_ok]
    · simp [val, Function.comp_def]
    · intro o ho
      simp only [List.mem_append, List.mem_cons, List.not_mem_nil, or_false, List.mem_map] at ho
      rcases ho with (rfl | rfl | rfl | rfl | rfl | rfl | rfl | rfl | rfl | rfl) | ⟨x, _, rfl⟩ <;> rfl

/-- **C106.**  Any text that describes parameters, with whatever layout, comments, order and repetitions, is read
as those parameters, from a string or from a buffer. -/
theorem C106_read {l : List (List Char × List Char)} {s : List Char} (h : Says l s) {p : Par}
    (hd : Describes l p) (hs : Sane p) (junk : List Char) :
    initSetBuf (s ++ '\x00' :: junk) 0 = some (.ok p) ∧ initSetBuf (s ++ junk) s.length = some (.ok p) ∧
      pairingInit (s ++ '\x00' :: junk) 0 = some (some (0, some p)) ∧
      pairingInit (s ++ junk) s.length = some (some (0, some p)) := by
  obtain ⟨h1, h2⟩ := C60_read h junk
  have hne : s ≠ [] := by
    rintro rfl
    have hl : l = [] := by
      generalize hs0 : ([] : List Char) = s0 at h
      cases h with
      | done => rfl
      | bind => simp at hs0
    subst hl
    simp [Describes, lastBinding] at hd
  have h3 := setTab_describes hd hs
  refine ⟨?_, ?_, ?_, ?_⟩
  · rw [initSetBuf, h1, Option.map_some, h3]
  · rw [initSetBuf, h2 hne, Option.map_some, h3]
  · rw [pairingInit, initSetBuf, h1, Option.map_some, h3]; rfl
  · rw [pairingInit, initSetBuf, h2 hne, Option.map_some, h3]; rfl

/-! ## Writing -/

theorem last_of_nodup {l : List (List Char × List Char)} (hn : (l.map Prod.fst).Nodup)
    {p : List Char × List Char} (hp : p ∈ l) : lastBinding l p.1 = some p.2 := by
  rw [lastBinding]
  have : l.reverse.find? (fun q => decide (q.1 = p.1)) = some p := by
    rw [List.find?_eq_some_iff_append]
    refine ⟨by simp, ?_⟩
    obtain ⟨a, b, e⟩ := List.append_of_mem (List.mem_reverse.2 hp)
    refine ⟨a, b, e, ?_⟩
    have hn' : (l.reverse.map Prod.fst).Nodup := by
      rw [List.map_reverse, List.nodup_reverse]; exact hn
    rw [e, List.map_append, List.map_cons, List.nodup_append] at hn'
    intro x hx
    have := hn'.2.2 x.1 (List.mem_map_of_mem hx) p.1 (by simp)
    simpa using this
  rw [this]; rfl

theorem natStr_injective {i j : ℕ} (h : natStr i = natStr j) : i = j := by
  have := congrArg parseMag h
  rw [parseMag_natStr, parseMag_natStr] at this
  exact Option.some.inj this

theorem coeffKey_injective {i j : ℕ} (h : coeffKey i = coeffKey j) : i = j :=
  natStr_injective (List.append_cancel_left h)

theorem coeffKey_word (i : ℕ) : IsWord (coeffKey i) := by
  have h1 : ∀ c ∈ "coeff".toList, ¬ NotInWord c := by decide
  have h2 : ∀ c ∈ "0123456789".toList, ¬ NotInWord c := by decide
  refine ⟨by simp [coeffKey], fun c hc => ?_, by simp [coeffKey]⟩
  rcases List.mem_append.1 hc with h | h
  · exact h1 c h
  · exact h2 c ((natStr_word i).1 c h)

theorem natStr_length_le {i : ℕ} (h : i < 100) : (natStr i).length ≤ 2 := by
  have : ∀ i < 100, (natStr i).length ≤ 2 := by decide +kernel
  exact this i h

theorem outCoeffs_eq (coeff : List ℤ) (i n : ℕ) (h : i + n ≤ coeff.length) (hn : i + n ≤ 100) :
    outCoeffs coeff i n =
      some ((List.range' i n).map fun j => (coeffKey j, coeff.getD j 0)) := by
  induction n generalizing i with
  | zero => rfl
  | succ n ih =>
    have h1 : ¬ ((coeffKey i).length + 1 > 8) := by
      have := natStr_length_le (i := i) (by omega)
      rw [coeffKey, List.length_append]
      have : "coeff".toList.length = 5 := by decide
      omega
    have h2 : coeff[i]? = some (coeff.getD i 0) := by
      rw [List.getD_eq_getElem?_getD, List.getElem?_eq_getElem (by omega)]; rfl
    rw [outCoeffs, if_neg h1, h2, Option.bind_some, ih (i + 1) (by omega) (by omega)]
    rw [List.range'_succ]
    rfl

/-- **C106.**  What `pbc_param_out_str` writes describes the parameters (type D up to a degree of 201). -/
theorem outStr_describes {p : Par} (hs : Sane p) (hd : (coeffs p).length ≤ 100) :
    ∃ l s, outStr p = some s ∧ Says l s ∧ Describes l p := by
  have key : ∀ (t : List Char) (vals : List (List Char × ℤ)), IsWord t → (∀ kv ∈ vals, IsWord kv.1) →
      ("type".toList :: vals.map Prod.fst).Nodup → Says (bindings t vals) (outParam t vals) ∧
      lastBinding (bindings t vals) "type".toList = some t ∧
      ∀ kv ∈ vals, lastBinding (bindings t vals) kv.1 = some (intStr kv.2) := by
    intro t vals ht hk hn
    have hn' : ((bindings t vals).map Prod.fst).Nodup := by
      have : (bindings t vals).map Prod.fst = "type".toList :: vals.map Prod.fst := by
        simp [bindings, Function.comp_def]
      rw [this]; exact hn
    refine ⟨outParam_says ht hk, last_of_nodup hn' (p := ("type".toList, t)) (by simp [bindings]), ?_⟩
    intro kv hkv
    exact last_of_nodup hn' (p := (kv.1, intStr kv.2)) (by
      simp only [bindings, List.mem_cons, List.mem_map]
      exact Or.inr ⟨kv, hkv, rfl⟩)
  have hw : ∀ w ∈ ["a", "a1", "d", "e", "f", "g", "i", "q", "r", "h", "n", "b", "p", "l", "k", "m", "t", "n2", "nk",
      "hk", "exp1", "exp2", "sign0", "sign1", "beta", "alpha0", "alpha1", "coeff0", "coeff1", "coeff2", "coeff3",
      "coeff4", "nqr"], IsWord w.toList := by
    unfold IsWord
    decide
  have hfin : ∀ (t : String) (vals : List (String × ℤ)) (p : Par), coeffs p = [] →
      outStr p = some (outParam t.toList (vals.map fun kv => (kv.1.toList, kv.2))) → typeName p = t →
      (∀ w ∈ t :: vals.map Prod.fst, IsWord w.toList) → ("type" :: vals.map Prod.fst).Nodup →
      (∀ kv ∈ fields p, kv ∈ vals) → ∃ l s, outStr p = some s ∧ Says l s ∧ Describes l p := by
    intro t vals p hc ho ht hw hn hf
    have hn' : ("type".toList :: (vals.map fun kv => (kv.1.toList, kv.2)).map Prod.fst).Nodup := by
      have : "type".toList :: (vals.map fun kv => (kv.1.toList, kv.2)).map Prod.fst =
          ("type" :: vals.map Prod.fst).map String.toList := by
        simp [Function.comp_def]
      rw [this]
      exact hn.map (fun a b h => String.toList_inj.1 h)
    obtain ⟨h1, h2, h3⟩ := key t.toList (vals.map fun kv => (kv.1.toList, kv.2)) (hw t (by simp)) (by
      intro kv hkv
      obtain ⟨x, hx, rfl⟩ := List.mem_map.1 hkv
      exact hw x.1 (by simp only [List.mem_cons, List.mem_map]; exact Or.inr ⟨x, hx, rfl⟩)) hn'
    refine ⟨_, _, ho, h1, by rw [h2, ht], fun kv hkv => ?_, fun i z hz => ?_⟩
    · exact h3 (kv.1.toList, kv.2) (List.mem_map.2 ⟨kv, hf kv hkv, rfl⟩)
    · rw [hc] at hz; simp at hz
  cases p with
  | a q r h exp2 exp1 sign1 sign0 =>
    refine hfin "a" [("q", q), ("h", h), ("r", r), ("exp2", exp2), ("exp1", exp1), ("sign1", sign1),
      ("sign0", sign0)] _ rfl rfl rfl (fun w hx => hw w ?_) (by simp) (by simp [fields])
    revert w; simp
  | a1 p n l =>
    refine hfin "a1" [("p", p), ("n", n), ("l", l)] _ rfl rfl rfl (fun w hx => hw w ?_) (by simp)
      (by simp [fields])
    revert w; simp
  | e q r h a b exp2 exp1 sign1 sign0 =>
    refine hfin "e" [("q", q), ("r", r), ("h", h), ("a", a), ("b", b), ("exp2", exp2), ("exp1", exp1),
      ("sign1", sign1), ("sign0", sign0)] _ rfl rfl rfl (fun w hx => hw w ?_) (by simp) (by simp [fields])
    revert w; simp
  | f q r b beta alpha0 alpha1 =>
    refine hfin "f" [("q", q), ("r", r), ("b", b), ("beta", beta), ("alpha0", alpha0), ("alpha1", alpha1)] _ rfl
      rfl rfl (fun w hx => hw w ?_) (by simp) (by simp [fields])
    revert w; simp
  | g q n h r a b nk hk c0 c1 c2 c3 c4 nqr =>
    refine hfin "g" [("q", q), ("n", n), ("h", h), ("r", r), ("a", a), ("b", b), ("nk", nk), ("hk", hk),
      ("coeff0", c0), ("coeff1", c1), ("coeff2", c2), ("coeff3", c3), ("coeff4", c4), ("nqr", nqr)] _ rfl
      rfl rfl (fun w hx => hw w ?_) (by simp) (by simp [fields])
    revert w; simp
  | i m t n n2 =>
    refine hfin "i" [("m", m), ("t", t), ("n", n), ("n2", n2)] _ rfl rfl rfl (fun w hx => hw w ?_) (by simp)
      (by simp [fields])
    revert w; simp
  | d q n h r a b k nk hk coeff nqr =>
    obtain ⟨s1, s2, s3⟩ := hs
    have hlen : (k.tdiv 2).toNat = coeff.length := by
      rw [Int.tdiv_eq_ediv_of_nonneg s1, ← s3, Int.toNat_natCast]
    set cs := (List.range' 0 coeff.length).map fun j => (coeffKey j, coeff.getD j 0) with hcs
    have ho : outCoeffs coeff 0 (k.tdiv 2).toNat = some cs := by
      rw [hlen, outCoeffs_eq coeff 0 coeff.length (by omega) (by simpa [coeffs] using hd)]
    set v1 : List (List Char × ℤ) := [("q".toList, q), ("n".toList, n), ("h".toList, h), ("r".toList, r),
      ("a".toList, a), ("b".toList, b), ("k".toList, k), ("nk".toList, nk), ("hk".toList, hk)] with hv1
    have hout : outStr (.d q n h r a b k nk hk coeff nqr) =
        some (outParam "d".toList (v1 ++ cs ++ [("nqr".toList, nqr)])) := by
      rw [outStr, ho]; rfl
    have hcm : ∀ kv ∈ cs, ∃ j, j < coeff.length ∧ kv = (coeffKey j, coeff.getD j 0) := by
      intro kv hkv
      obtain ⟨j, hj, rfl⟩ := List.mem_map.1 hkv
      exact ⟨j, by simpa using hj, rfl⟩
    have hword : ∀ kv ∈ v1 ++ cs ++ [("nqr".toList, nqr)], IsWord kv.1 := by
      intro kv hkv
      simp only [List.mem_append] at hkv
      rcases hkv with (hkv | hkv) | hkv
      · simp only [hv1, List.mem_cons, List.not_mem_nil, or_false] at hkv
        rcases hkv with rfl | rfl | rfl | rfl | rfl | rfl | rfl | rfl | rfl
        exacts [hw "q" (by simp), hw "n" (by simp), hw "h" (by simp), hw "r" (by simp), hw "a" (by simp),
          hw "b" (by simp), hw "k" (by simp), hw "nk" (by simp), hw "hk" (by simp)]
      · obtain ⟨j, _, rfl⟩ := hcm kv hkv
        exact coeffKey_word j
      · simp only [List.mem_cons, List.not_mem_nil, or_false] at hkv
        rw [hkv]; exact hw "nqr" (by simp)
    have hlong : ∀ j, ∃ d t, coeffKey j = 'c' :: 'o' :: 'e' :: 'f' :: 'f' :: d :: t := by
      intro j
      cases hd : natStr j with
      | nil => exact ((natStr_word j).2 hd).elim
      | cons d t => exact ⟨d, t, by rw [coeffKey, hd]; rfl⟩
    have hnd : ("type".toList :: (v1 ++ cs ++ [("nqr".toList, nqr)]).map Prod.fst).Nodup := by
      have hcs' : cs.map Prod.fst = (List.range' 0 coeff.length).map coeffKey := by
        rw [hcs, List.map_map]; rfl
      rw [List.map_append, List.map_append, hcs']
      have e : ("type".toList :: (v1.map Prod.fst ++ (List.range' 0 coeff.length).map coeffKey ++
          [("nqr".toList, nqr)].map Prod.fst)).Perm
          (("type".toList :: "nqr".toList :: v1.map Prod.fst) ++ (List.range' 0 coeff.length).map coeffKey) := by
        rw [List.cons_append]
        refine List.Perm.cons _ ?_
        exact List.perm_append_singleton "nqr".toList _
      rw [e.nodup_iff, List.nodup_append]
      refine ⟨by simp [hv1], (List.nodup_range').map (fun _ _ h => coeffKey_injective h), ?_⟩
      intro x hx y hy
      obtain ⟨j, _, rfl⟩ := List.mem_map.1 hy
      obtain ⟨dd, t, hj⟩ := hlong j
      rw [hj]
      have : ∀ x ∈ ("type".toList :: "nqr".toList :: v1.map Prod.fst), x.length ≤ 4 := by
        simp [hv1]
      intro he
      have := this x hx
      rw [he] at this
      simp only [List.length_cons] at this
      omega
    obtain ⟨h1, h2, h3⟩ := key "d".toList _ (hw "d" (by simp)) hword hnd
    refine ⟨_, _, hout, h1, h2, fun kv hkv => ?_, fun i z hz => ?_⟩
    · refine h3 (kv.1.toList, kv.2) ?_
      simp only [fields, List.mem_cons, List.not_mem_nil, or_false] at hkv
      simp only [hv1, List.mem_append, List.mem_cons, List.not_mem_nil, or_false]
      rcases hkv with rfl | rfl | rfl | rfl | rfl | rfl | rfl | rfl | rfl | rfl <;> simp
    · have hz' : coeff[i]? = some z := hz
      have hi : i < coeff.length := by
        by_contra hc
        rw [List.getElem?_eq_none (by omega)] at hz'
        cases hz'
      refine h3 (coeffKey i, z) ?_
      simp only [List.mem_append]
      refine Or.inl (Or.inr ?_)
      rw [hcs, List.mem_map]
      refine ⟨i, by simpa using hi, ?_⟩
      rw [List.getD_eq_getElem?_getD, hz']; rfl

/-- **C106.**  Parameters written out and read back are the same parameters: for every type (type D up to a degree
of 201), from a string or a buffer, whatever follows in memory. -/
theorem C106_round_trip_partial {p : Par} (hs : Sane p) (hd : (coeffs p).length ≤ 100) (junk : List Char) :
    ∃ s, outStr p = some s ∧
      initSetBuf (s ++ '\x00' :: junk) 0 = some (.ok p) ∧ initSetBuf (s ++ junk) s.length = some (.ok p) ∧
      pairingInit (s ++ '\x00' :: junk) 0 = some (some (0, some p)) ∧
      pairingInit (s ++ junk) s.length = some (some (0, some p)) := by
  obtain ⟨l, s, h1, h2, h3⟩ := outStr_describes hs hd
  exact ⟨s, h1, C106_read h2 h3 hs junk⟩

/-- **C106 fails** for type D of degree 202 and more: writing the parameters overflows a buffer. -/
theorem C106_write_fails (q n h r a b k nk hk : ℤ) (coeff : List ℤ) (nqr : ℤ) (hk2 : 202 ≤ k) :
    outStr (.d q n h r a b k nk hk coeff nqr) = none := by
  have hlong : ∀ (m i : ℕ), i ≤ 100 → 100 < i + m → outCoeffs coeff i m = none := by
    intro m
    induction m with
    | zero => intro i h1 h2; omega
    | succ m ih =>
      intro i h1 h2
      rw [outCoeffs]
      by_cases hi : i = 100
      · subst hi
        rw [if_pos (by decide)]
      · by_cases hl : (coeffKey i).length + 1 > 8
        · rw [if_pos hl]
        · rw [if_neg hl, ih (i + 1) (by omega) (by omega)]
          cases coeff[i]? <;> rfl
  have hlen : 100 < (k.tdiv 2).toNat := by
    rw [Int.tdiv_eq_ediv_of_nonneg (by omega)]; omega
  rw [outStr, hlong _ 0 (by omega) (by omega)]
  rfl

/-! ## Errors -/

/-- **C106.**  A text without a type, or with a type that is not known, is an error, and no pairing is made. -/
theorem C106_unknown {l : List (List Char × List Char)} {s : List Char} (h : Says l s)
    (ht : ∀ t ∈ ["a", "a1", "d", "e", "f", "g", "i"], lastBinding l "type".toList ≠ some t.toList)
    (junk : List Char) :
    initSetBuf (s ++ '\x00' :: junk) 0 = some (.err 1) ∧
      pairingInit (s ++ '\x00' :: junk) 0 = some (some (1, none)) := by
  have h3 : setTab (tableOf (l.map Prod.swap)) = .err 1 := by
    cases hl : lastBinding l "type".toList with
    | none => rw [setTab, (C62_map _ _).2, mapOf_last, hl]; rfl
    | some t =>
      rw [setTab_type l t hl]
      have : (funtab.find? fun p => t = p.1) = none := by
        rw [List.find?_eq_none]
        intro p hp
        have hp : p.1 ∈ funtab.map Prod.fst := List.mem_map_of_mem hp
        simp only [funtab, List.map_cons, List.map_nil, List.mem_cons, List.not_mem_nil, or_false] at hp
        simp only [decide_eq_true_eq]
        rintro rfl
        rcases hp with h | h | h | h | h | h | h
        exacts [ht "a" (by simp) (by rw [hl, h]), ht "d" (by simp) (by rw [hl, h]), ht "e" (by simp) (by rw [hl, h]),
          ht "f" (by simp) (by rw [hl, h]), ht "g" (by simp) (by rw [hl, h]), ht "a1" (by simp) (by rw [hl, h]),
          ht "i" (by simp) (by rw [hl, h])]
      rw [this]
  obtain ⟨h1, _⟩ := C60_read h junk
  refine ⟨?_, ?_⟩
  · rw [initSetBuf, h1, Option.map_some, h3]
  · rw [pairingInit, initSetBuf, h1, Option.map_some, h3]; rfl

theorem isNone_lookup (l : List (List Char × List Char)) (k : List Char) :
    (lookupMpz (tableOf (l.map Prod.swap)) k).isNone = (lastBinding l k).isNone := by
  rw [lookup_table]; cases lastBinding l k <;> rfl

theorem isNone_lookupInt (l : List (List Char × List Char)) (k : List Char) :
    (lookupInt (tableOf (l.map Prod.swap)) k).isNone = (lastBinding l k).isNone := by
  rw [lookupInt, Option.isNone_map, isNone_lookup]

theorem errs_cons (o : Option ℤ) (l : List (Option ℤ)) : errs (o :: l) = (if o.isNone then 1 else 0) + errs l := by
  rw [errs, errs, List.filter_cons]
  split <;> simp [Nat.add_comm]

/-- **C106.**  The result code is the number of required names that are not bound (all types but D). -/
theorem C106_missing {l : List (List Char × List Char)} {s : List Char} (h : Says l s)
    (t : String) (ks : List String) (hks : (t, ks) ∈ required) (ht : lastBinding l "type".toList = some t.toList)
    (junk : List Char) :
    ∃ p, typeName p = t ∧
      let c := (ks.filter fun k => (lastBinding l k.toList).isNone).length
      initSetBuf (s ++ '\x00' :: junk) 0 = some (if c = 0 then .ok p else .err c) ∧
      pairingInit (s ++ '\x00' :: junk) 0 = some (some (if c = 0 then (0, some p) else (1, none))) := by
  have hcount : ∀ ks : List String, (ks.filter fun k => (lastBinding l k.toList).isNone).length =
      errs (ks.map fun k => lookupMpz (tableOf (l.map Prod.swap)) k.toList) := by
    intro ks
    induction ks with
    | nil => rfl
    | cons k ks ih =>
      rw [List.map_cons, errs_cons, ← ih, isNone_lookup, List.filter_cons]
      split <;> simp [Nat.add_comm]
  have hfin : (∃ o p, setTab (tableOf (l.map Prod.swap)) = finish o p ∧ typeName p = t ∧
      errs o = (ks.filter fun k => (lastBinding l k.toList).isNone).length) →
      ∃ p, typeName p = t ∧
      let c := (ks.filter fun k => (lastBinding l k.toList).isNone).length
      initSetBuf (s ++ '\x00' :: junk) 0 = some (if c = 0 then .ok p else .err c) ∧
      pairingInit (s ++ '\x00' :: junk) 0 = some (some (if c = 0 then (0, some p) else (1, none))) := by
    rintro ⟨o, p, hp, hpt, ho⟩
    rw [finish, ho] at hp
    obtain ⟨h1, _⟩ := C60_read h junk
    refine ⟨p, hpt, ?_, ?_⟩
    · rw [initSetBuf, h1, Option.map_some, hp]
    · rw [pairingInit, initSetBuf, h1, Option.map_some, hp]
      by_cases hc : (ks.filter fun k => (lastBinding l k.toList).isNone).length = 0
      · rw [if_pos hc, if_pos hc]; rfl
      · rw [if_neg hc, if_neg hc]; rfl
  simp only [required, List.mem_cons, List.not_mem_nil, or_false, Prod.mk.injEq] at hks
  rcases hks with ⟨rfl, rfl⟩ | ⟨rfl, rfl⟩ | ⟨rfl, rfl⟩ | ⟨rfl, rfl⟩ | ⟨rfl, rfl⟩ | ⟨rfl, rfl⟩
  · apply hfin
    rw [setTab_of (t := "a") (init := initA) ht (by simp), hcount]
    refine ⟨_, _, rfl, rfl, ?_⟩
    simp only [errs_cons, isNone_lookup, isNone_lookupInt, List.map_cons, List.map_nil]
  · apply hfin
    rw [setTab_of (t := "a1") (init := initA1) ht (by simp), hcount]
    refine ⟨_, _, rfl, rfl, ?_⟩
    simp only [errs_cons, isNone_lookup, isNone_lookupInt, List.map_cons, List.map_nil]
  · apply hfin
    rw [setTab_of (t := "e") (init := initE) ht (by simp), hcount]
    refine ⟨_, _, rfl, rfl, ?_⟩
    simp only [errs_cons, isNone_lookup, isNone_lookupInt, List.map_cons, List.map_nil]
  · apply hfin
    rw [setTab_of (t := "f") (init := initF) ht (by simp), hcount]
    refine ⟨_, _, rfl, rfl, ?_⟩
    simp only [errs_cons, isNone_lookup, isNone_lookupInt, List.map_cons, List.map_nil]
  · apply hfin
    rw [setTab_of (t := "g") (init := initG) ht (by simp), hcount]
    refine ⟨_, _, rfl, rfl, ?_⟩
    simp only [errs_cons, isNone_lookup, isNone_lookupInt, List.map_cons, List.map_nil]
  · apply hfin
    rw [setTab_of (t := "i") (init := initI) ht (by simp), hcount]
    refine ⟨_, _, rfl, rfl, ?_⟩
    simp only [errs_cons, isNone_lookup, isNone_lookupInt, List.map_cons, List.map_nil]

/-- **C106.**  Type D: the names are those of the parameters and, for `k` not negative, `coeff0` up to
`coeff(k/2-1)`. -/
theorem C106_missing_D {l : List (List Char × List Char)} {s : List Char} (h : Says l s) (k : ℤ) (hk : 0 ≤ k)
    (hk' : k < 2 ^ 31) (ht : lastBinding l "type".toList = some "d".toList)
    (hkb : lastBinding l "k".toList = some (intStr k)) (junk : List Char) :
    ∃ p, typeName p = "d" ∧
      let c := (["q", "n", "h", "r", "a", "b", "k", "nk", "hk", "nqr"].filter
          fun k => (lastBinding l k.toList).isNone).length +
        ((List.range (k / 2).toNat).filter fun i => (lastBinding l ("coeff".toList ++ natStr i)).isNone).length
      initSetBuf (s ++ '\x00' :: junk) 0 = some (if c = 0 then .ok p else .err c) := by
  obtain ⟨h1, _⟩ := C60_read h junk
  have hap : ∀ a b : List (Option ℤ), errs (a ++ b) = errs a + errs b := by
    intro a b; rw [errs, errs, errs, List.filter_append, List.length_append]
  have hcount : ∀ ks : List String, (ks.filter fun k => (lastBinding l k.toList).isNone).length =
      errs (ks.map fun k => lookupMpz (tableOf (l.map Prod.swap)) k.toList) := by
    intro ks
    induction ks with
    | nil => rfl
    | cons k ks ih =>
      rw [List.map_cons, errs_cons, ← ih, isNone_lookup, List.filter_cons]
      split <;> simp [Nat.add_comm]
  have hcount' : ∀ is : List ℕ, (is.filter fun i => (lastBinding l ("coeff".toList ++ natStr i)).isNone).length =
      errs (is.map fun i => lookupMpz (tableOf (l.map Prod.swap)) (coeffKey i)) := by
    intro is
    induction is with
    | nil => rfl
    | cons i is ih =>
      rw [List.map_cons, errs_cons, ← ih, isNone_lookup, List.filter_cons, coeffKey]
      split <;> simp [Nat.add_comm]
  have hlk := lookup_small hkb ⟨by omega, hk'⟩
  rw [initSetBuf, h1, Option.map_some, setTab_of (t := "d") (init := initD) ht (by simp), hcount, hcount']
  have hd : (val (lookupInt (tableOf (l.map Prod.swap)) "k".toList)).tdiv 2 = k / 2 := by
    rw [hlk]; exact Int.tdiv_eq_ediv_of_nonneg hk
  obtain ⟨o, p, hp, hpt, ho⟩ : ∃ o p, initD (tableOf (l.map Prod.swap)) = finish o p ∧ typeName p = "d" ∧
      errs o = errs (["q", "n", "h", "r", "a", "b", "k", "nk", "hk", "nqr"].map
        fun k => lookupMpz (tableOf (l.map Prod.swap)) k.toList) +
        errs ((List.range (k / 2).toNat).map fun i => lookupMpz (tableOf (l.map Prod.swap)) (coeffKey i)) := by
    unfold initD
    dsimp only
    rw [hd, if_neg (by omega)]
    refine ⟨_, _, rfl, rfl, ?_⟩
    rw [hap]
    simp only [errs_cons, isNone_lookup, isNone_lookupInt, List.map_cons, List.map_nil]
  refine ⟨p, hpt, ?_⟩
  rw [hp, finish, ho]

/-- **C106**: nothing is checked: any integers at all, and texts that are no numbers, make parameters.  Here is a
type A text whose "prime" is 15 and whose cofactor is not a number. -/
theorem C106_unchecked_fails : initSetBuf
    "type a q 15 r 3 h zzz exp2 1 exp1 1 sign1 1 sign0 1 \x00".toList 0 = some (.ok (.a 15 3 0 1 1 1 1)) := by
  decide +kernel

/-- **C106 fails** for a negative degree: the program ends. -/
theorem C106_negative_fails : initSetBuf "type d k -6 \x00".toList 0 = some .die := by
  decide +kernel

/-! ## Cases -/

/-- The generated parameters of type I, written and read. -/
example : Sane (.i 97 12 (3 ^ 97 + 1 + 3 ^ 49) 7) ∧ (coeffs (.i 97 12 (3 ^ 97 + 1 + 3 ^ 49) 7)).length ≤ 100 := by
  refine ⟨?_, ?_⟩
  · simp [Sane]
  · simp [coeffs]

/-- A type D text, in another order, with a comment and with the degree given twice. -/
example : initSetBuf "coeff1 8 # c\n k 9 type d q 7 nqr 3 n 1 h 2 coeff0 4 r -5 a 1 b 1 k 4 nk 0x10 hk 1\n\x00".toList 0 =
    some (.ok (.d 7 1 2 (-5) 1 1 4 16 1 [4, 8] 3)) := by decide +kernel

example : initSetBuf "type f q 5 r 3 x 1\n\x00".toList 0 = some (.err 4) := by decide +kernel

end Pbc.Param
