import Verif.Lemmas.DispatchKinds

/-!
# C133, C134: every operation of every field and group

C133: once a field or group has been set up, each of the public operations on its elements can be
called: the call runs routines of the library, whatever the memory of the structure held before.

The library does not have this: `field_init` leaves twenty members of the table unset and does not
clear them, and the set-ups do not all fill them in.  The theorems give, for each kind and for all
previous contents of the memory, exactly the operations that can be called; what is missing from
C133 are the operations in the lists.

C134: no operation of a field or group answers with a placeholder that ignores its argument.  Again
the theorems give the exact lists.
-/

set_option autoImplicit false

namespace Pbc.Dispatch
open Spec.Dispatch

/-- C133 for the integers modulo a prime and all towers of quadratic and polynomial extensions over
them: everything can be called but the operations reserved to other groups. -/
theorem C133_fields_partial {γ : Type} {k : Kind} (hk : Ext IsPrime k) (old : ℕ → Raw γ) (o : Op) :
    Runs (setUp k old) o ↔ o ∉ [Op.multiDoub, Op.multiAdd, Op.cubic] := runs_ext hk old o

/-- C133 for elliptic curves: no square root. -/
theorem C133_curves_partial {γ : Type} (odd : Bool) {k : Kind} (hk : Ext IsPrime k)
    (old : ℕ → Raw γ) (o : Op) :
    Runs (setUp (.curve odd k) old) o ↔ o ∉ [Op.sqrt, Op.cubic] := runs_curve odd hk old o

/-- C133 for GT: no square root, no test for squares, no sign. -/
theorem C133_gt_partial {γ : Type} {k : Kind} (hk : Ext IsPrime k) (old : ℕ → Raw γ) (o : Op) :
    Runs (setUp (.gt k) old) o ↔
      o ∉ [Op.isSqr, Op.sqrt, Op.sign, Op.multiDoub, Op.multiAdd, Op.cubic] := runs_gt hk old o

/-- C133 for polynomials: nothing that needs an inverse, and no hashing. -/
theorem C133_poly_partial {γ : Type} {k : Kind} (hk : Ext IsPrime k) (old : ℕ → Raw γ) (o : Op) :
    Runs (setUp (.poly k) old) o ↔
      o ∉ [Op.isSqr, Op.sqrt, Op.div, Op.halve, Op.invert, Op.fromHash, Op.multiDoub, Op.multiAdd,
        Op.cubic] :=
  runs_kind (l := poly) poly (.val (-1)) special _ rfl rfl (runs_ext hk _) (by decide +kernel) o

/-- C133 for the integers. -/
theorem C133_z_partial {γ : Type} (old : ℕ → Raw γ) (o : Op) :
    Runs (setUp .z old) o ↔ o ∉ [Op.multiDoub, Op.multiAdd, Op.cubic] :=
  runs_kind (l := zRing) zRing (.val (-1)) Op.all _ rfl rfl runs_nil (by decide +kernel) o

/-- C133 for nested lists of integers. -/
theorem C133_multiz_partial {γ : Type} (old : ℕ → Raw γ) (o : Op) :
    Runs (setUp .multiz old) o ↔
      o ∉ [Op.isSqr, Op.sqrt, Op.halve, Op.invert, Op.multiDoub, Op.multiAdd, Op.cubic] :=
  runs_kind (l := multizRing) multizRing (.val (-1)) Op.all _ rfl rfl runs_nil
    (by decide +kernel) o

/-- C133 for `GF(3^m)`. -/
theorem C133_gf3m_partial {γ : Type} (n : ℕ) (old : ℕ → Raw γ) (o : Op) :
    Runs (setUp (.gf3m n) old) o ↔
      o ∉ [Op.isSqr, Op.fromHash, Op.sign, Op.multiDoub, Op.multiAdd] :=
  runs_kind (l := gf3m n) (gf3m 0) (.val 0) Op.all _ (rep_nat n) rfl runs_nil
    (by decide +kernel) o

/-- C133 for `GF(3^{2m})`: no inverse, no bytes. -/
theorem C133_gf32m_partial {γ : Type} (n : ℕ) (old : ℕ → Raw γ) (o : Op) :
    Runs (setUp (.gf32m (.gf3m n)) old) o ↔
      o ∉ [Op.isSqr, Op.sqrt, Op.div, Op.halve, Op.invert, Op.fromHash, Op.sign, Op.toBytes,
        Op.fromBytes, Op.lengthInBytes, Op.multiDoub, Op.multiAdd] :=
  runs_kind (l := gf32m) gf32m (.stale 0) _ _ rfl rfl (C133_gf3m_partial n _) (by decide +kernel) o

/-- C133 for `GF(3^{6m})`: no negative, no inverse, no bytes. -/
theorem C133_gf36m_partial {γ : Type} (n : ℕ) (old : ℕ → Raw γ) (o : Op) :
    Runs (setUp (.gf33m (.gf32m (.gf3m n))) old) o ↔
      o ∉ [Op.isSqr, Op.sqrt, Op.div, Op.halve, Op.invert, Op.neg, Op.fromHash, Op.sign,
        Op.toBytes, Op.fromBytes, Op.lengthInBytes, Op.multiDoub, Op.multiAdd] :=
  runs_kind (l := gf33m) gf33m (.stale 0) _ _ rfl rfl (C133_gf32m_partial n _) (by decide +kernel) o

/-- C133 for the points of type I. -/
theorem C133_points_typeI_partial {γ : Type} (n : ℕ) (old : ℕ → Raw γ) (o : Op) :
    Runs (setUp (.etaT (.gf3m n)) old) o ↔
      o ∉ [Op.isSqr, Op.sqrt, Op.cubic, Op.fromHash, Op.sign, Op.toBytes, Op.fromBytes,
        Op.lengthInBytes, Op.multiDoub, Op.multiAdd] :=
  runs_kind (l := etaT) etaT (.stale 0) _ _ rfl rfl (C133_gf3m_partial n _) (by decide +kernel) o

/-- C133 for GT of type I: no inverse, so no negative, no difference and no quotient; no bytes. -/
theorem C133_gt_typeI_partial {γ : Type} (n : ℕ) (old : ℕ → Raw γ) (o : Op) :
    Runs (setUp (.gtI (.gf33m (.gf32m (.gf3m n)))) old) o ↔
      o ∉ [Op.sub, Op.div, Op.halve, Op.invert, Op.neg, Op.isSqr, Op.sqrt, Op.cubic, Op.fromHash,
        Op.sign, Op.toBytes, Op.fromBytes, Op.lengthInBytes, Op.multiDoub, Op.multiAdd] :=
  runs_kind (l := gt (.stale (old 1).len) ++ gtI) (gt (.stale 0) ++ gtI) (.stale 0) _ _ rfl rfl
    (C133_gf36m_partial n _) (by decide +kernel) o

/-- C133 for the group of a singular curve, whose structure never goes through `field_init`. -/
theorem C133_singular_partial {γ : Type} {k : Kind} (hk : Ext IsPrime k) (old : ℕ → Raw γ)
    (o : Op) :
    Runs (setUp (.singular k) old) o ↔
      o ∈ [Op.init, Op.clear, Op.random, Op.set, Op.invert, Op.neg, Op.square, Op.doub, Op.mul,
        Op.add, Op.set1, Op.set0, Op.is1, Op.is0, Op.mulMpz, Op.outStr, Op.fieldClear] := by
  have h := runs_iff (execAll (fresh (old 0)) singular) (setUp k fun i => old (i + 1)) special
    (Op.all.filter fun o => !([Op.init, Op.clear, Op.random, Op.set, Op.invert, Op.neg, Op.square,
      Op.doub, Op.mul, Op.add, Op.set1, Op.set0, Op.is1, Op.is0, Op.mulMpz, Op.outStr,
      Op.fieldClear] : List Op).contains o) 8
    (view (shape (fun _ => none) singular) (.stale 0))
    (fun o => by
      rw [jump_view, ← view_stale _ (old 0).len]
      have : (fun x => ((execAll (fresh (old 0)) singular).slot x).view) =
          shape (fun _ => none) singular := by
        funext x
        rw [shape_eq]
        rfl
      rw [this, lenOf_eq]
      rfl) (runs_ext hk _) (by decide +kernel) o
  rw [show setUp (.singular k) old = execAll (fresh (old 0)) singular ::
    setUp k (fun i => old (i + 1)) from rfl, h]
  cases o <;> decide +kernel

/-- A curve whose coordinates have variable length has no length: `element_length_in_bytes` reads
`fixed_length_in_bytes`, which nothing has written. -/
theorem C133_variable_length_curve_fails {γ : Type} (odd : Bool) (k : Kind) (old : ℕ → Raw γ) {z : ℤ}
    (hz : z < 0) (hk : topLen (setUp k fun i => old (i + 1)) = .val z) :
    ¬ Runs (setUp (.curve odd k) old) .lengthInBytes := by
  have hlen : (build (old 0) (curve odd (.val z))).len = .stale (old 0).len := by
    rw [build, lenOf_eq, lenOf_append, curve, if_pos (by exact hz)]
    rfl
  have hj : jump (build (old 0) (curve odd (.val z))) .lengthInBytes = .lost := by
    unfold jump
    rw [if_pos rfl, hlen]
  intro h
  have h' : Runs (build (old 0) (curve odd (topLen (setUp k fun i => old (i + 1)))) ::
    setUp k fun i => old (i + 1)) .lengthInBytes := h
  rw [hk] at h'
  cases h' with
  | returns h => rw [hj] at h; cases h
  | runs h _ _ => rw [hj] at h; cases h

/-- C133 put together: in the four structures of a pairing of types A to G everything but six
operations can be called, whatever the memory held. -/
theorem C133_pairing_partial {γ : Type} {zr q q2 qk : Kind} (odd odd2 : Bool) (hz : IsPrime zr)
    (h1 : Ext IsPrime q) (h2 : Ext IsPrime q2) (hT : Ext IsPrime qk) (old : ℕ → Raw γ) {o : Op}
    (ho : o ∉ [Op.isSqr, Op.sqrt, Op.sign, Op.multiDoub, Op.multiAdd, Op.cubic]) :
    Runs (setUp zr old) o ∧ Runs (setUp (.curve odd q) old) o ∧
      Runs (setUp (.curve odd2 q2) old) o ∧ Runs (setUp (.gt qk) old) o := by
  refine ⟨(C133_fields_partial (.base hz) old o).mpr ?_, (C133_curves_partial odd h1 old o).mpr ?_,
    (C133_curves_partial odd2 h2 old o).mpr ?_, (C133_gt_partial hT old o).mpr ho⟩ <;>
  · intro h
    apply ho
    simp only [List.mem_cons, List.not_mem_nil, or_false] at h ⊢
    tauto

/-- C134 for the prime fields that the library uses by default, and all extensions of them: no
operation ends in a placeholder. -/
theorem C134_fields {γ : Type} {k : Kind} (hk : Ext HasText k) (old : ℕ → Raw γ) (o : Op) :
    ¬ Ignores (setUp k old) o := by
  rw [ignores_ext text_prime [] (.inl rfl) (fun k old o h => ignores_text h old o) hk old o]
  simp

/-- C134 fails for the other three implementations and all extensions of them: text is not read and
not printed. -/
theorem C134_no_text_fails {γ : Type} {k : Kind} (hk : Ext NoText k) (old : ℕ → Raw γ) (o : Op) :
    Ignores (setUp k old) o ↔ o ∈ [Op.setStr, Op.snprint] :=
  ignores_ext noText_prime _ (.inr rfl) (fun _ old o h => ignores_noText h old o) hk old o

/-- C134 fails for curves: integers. -/
theorem C134_curves_fails {γ : Type} (odd : Bool) {k : Kind} (hk : Ext HasText k) (old : ℕ → Raw γ)
    (o : Op) :
    Ignores (setUp (.curve odd k) old) o ↔
      o ∈ [Op.setMpz, Op.setSi, Op.addUi, Op.mulSi, Op.halve, Op.toMpz] :=
  ignores_curve odd (ext_mono text_prime hk) [] _ old
    (fun o => ⟨fun h => absurd h (C134_fields hk _ o), fun h => by cases h⟩)
    (by cases odd <;> decide +kernel) o

/-- C134 fails for GT: integers. -/
theorem C134_gt_fails {γ : Type} {k : Kind} (hk : Ext HasText k) (old : ℕ → Raw γ) (o : Op) :
    Ignores (setUp (.gt k) old) o ↔
      o ∈ [Op.setMpz, Op.setSi, Op.addUi, Op.mulSi, Op.halve] :=
  ignores_gt (ext_mono text_prime hk) [] _ old
    (fun o => ⟨fun h => absurd h (C134_fields hk _ o), fun h => by cases h⟩)
    (by decide +kernel) o

/-- C134 fails for polynomials: random elements and text. -/
theorem C134_poly_fails {γ : Type} {k : Kind} (hk : Ext HasText k) (old : ℕ → Raw γ) (o : Op) :
    Ignores (setUp (.poly k) old) o ↔ o ∈ [Op.setStr, Op.random] :=
  ignores_kind (l := poly) poly (.val (-1)) [] _ rfl rfl
    (fun o => ⟨fun h => absurd h (C134_fields hk _ o), fun h => by cases h⟩) (by decide +kernel) o

/-- C134 fails for the integers: they are printed as `?` into a buffer. -/
theorem C134_z_fails {γ : Type} (old : ℕ → Raw γ) (o : Op) :
    Ignores (setUp .z old) o ↔ o ∈ [Op.snprint] :=
  ignores_kind (l := zRing) zRing (.val (-1)) [] _ rfl rfl ignores_nil (by decide +kernel) o

/-- C134 fails for nested lists of integers. -/
theorem C134_multiz_fails {γ : Type} (old : ℕ → Raw γ) (o : Op) :
    Ignores (setUp .multiz old) o ↔ o ∈ [Op.snprint] :=
  ignores_kind (l := multizRing) multizRing (.val (-1)) [] _ rfl rfl ignores_nil
    (by decide +kernel) o

/-- C134 fails for `GF(3^m)`: integers and text. -/
theorem C134_gf3m_fails {γ : Type} (n : ℕ) (old : ℕ → Raw γ) (o : Op) :
    Ignores (setUp (.gf3m n) old) o ↔
      o ∈ [Op.setMpz, Op.setMultiz, Op.setStr, Op.setSi, Op.addUi, Op.mulMpz, Op.mulSi, Op.halve,
        Op.snprint, Op.toMpz] :=
  ignores_kind (l := gf3m n) (gf3m 0) (.val 0) [] _ (rep_nat n) rfl ignores_nil
    (by decide +kernel) o

/-- C134 fails for the points of type I. -/
theorem C134_points_typeI_fails {γ : Type} (n : ℕ) (old : ℕ → Raw γ) (o : Op) :
    Ignores (setUp (.etaT (.gf3m n)) old) o ↔
      o ∈ [Op.setMpz, Op.setMultiz, Op.setStr, Op.setSi, Op.addUi, Op.mulSi, Op.halve,
        Op.snprint, Op.toMpz] :=
  ignores_kind (l := etaT) etaT (.stale 0) _ _ rfl rfl (C134_gf3m_fails n _) (by decide +kernel) o

/-- The memory held the numbers 0, 1, 2, … -/
private def junk : ℕ → Raw ℕ := fun i => ⟨fun _ => i, 7⟩

-- type A: Zr, points over `Fq` and GT in `Fq²` of 64-byte numbers
example : Runs (setUp (.montFp 20) junk) .sqrt ∧ Runs (setUp (.curve true (.montFp 64)) junk) .add ∧
    Runs (setUp (.gt (.fi (.montFp 64))) junk) .powMpz ∧
    ¬ Runs (setUp (.gt (.fi (.montFp 64))) junk) .sqrt :=
  ⟨(C133_fields_partial (.base (.mont _)) _ _).mpr (by decide),
    (C133_curves_partial true (.base (.mont _)) _ _).mpr (by decide),
    (C133_gt_partial (.fi (.base (.mont _))) _ _).mpr (by decide),
    fun h => (C133_gt_partial (.fi (.base (.mont _))) _ _).mp h (by decide)⟩

-- type D: GT in the quadratic extension of the cubic extension
example : Runs (setUp (.gt (.quadratic (.polymod 3 (.montFp 22)))) junk) .toBytes :=
  (C133_pairing_partial (q := .montFp 22) (q2 := .polymod 3 (.montFp 22)) true true (.mont 20)
    (.base (.mont 22)) (.polymod 3 (.base (.mont 22)))
    (.quadratic (.polymod 3 (.base (.mont 22)))) junk (by decide)).2.2.2

-- type I: points can be added, elements of GT can be multiplied but not inverted
example : Runs (setUp (.etaT (.gf3m 16)) junk) .add ∧
    Runs (setUp (.gtI (.gf33m (.gf32m (.gf3m 16)))) junk) .mul ∧
    ¬ Runs (setUp (.gtI (.gf33m (.gf32m (.gf3m 16)))) junk) .invert :=
  ⟨(C133_points_typeI_partial 16 _ _).mpr (by decide), (C133_gt_typeI_partial 16 _ _).mpr (by decide),
    fun h => (C133_gt_typeI_partial 16 _ _).mp h (by decide)⟩

example : Runs (setUp (.gf33m (.gf32m (.gf3m 16))) junk) .cubic ∧
    ¬ Runs (setUp (.gf32m (.gf3m 16)) junk) .invert ∧ Runs (setUp (.gf3m 16) junk) .invert :=
  ⟨(C133_gf36m_partial 16 _ _).mpr (by decide),
    fun h => (C133_gf32m_partial 16 _ _).mp h (by decide), (C133_gf3m_partial 16 _ _).mpr (by decide)⟩

example : Runs (setUp .z junk) .sqrt ∧ ¬ Runs (setUp .multiz junk) .sqrt ∧
    ¬ Runs (setUp (.poly (.montFp 20)) junk) .div ∧
    ¬ Runs (setUp (.singular (.montFp 20)) junk) .sub :=
  ⟨(C133_z_partial _ _).mpr (by decide), fun h => (C133_multiz_partial _ _).mp h (by decide),
    fun h => (C133_poly_partial (.base (.mont _)) _ _).mp h (by decide),
    fun h => absurd ((C133_singular_partial (.base (.mont _)) _ _).mp h) (by decide)⟩

-- a curve over a quadratic extension of the integers
example : ¬ Runs (setUp (.curve true (.quadratic .z)) junk) .lengthInBytes :=
  C133_variable_length_curve_fails true (.quadratic .z) junk (z := -1) (by decide) rfl

example : ¬ Ignores (setUp (.quadratic (.polymod 3 (.montFp 22))) junk) .setStr ∧
    Ignores (setUp (.quadratic (.fastFp true 22)) junk) .setStr ∧
    Ignores (setUp (.curve true (.montFp 64)) junk) .mulSi ∧
    ¬ Ignores (setUp (.curve true (.montFp 64)) junk) .mulMpz ∧
    Ignores (setUp (.gt (.fi (.montFp 64))) junk) .setSi :=
  ⟨C134_fields (.quadratic (.polymod 3 (.base (.mont 22)))) _ _,
    (C134_no_text_fails (.quadratic (.base (.fast true 22))) _ _).mpr (by decide),
    (C134_curves_fails true (.base (.mont 64)) _ _).mpr (by decide),
    fun h => absurd ((C134_curves_fails true (.base (.mont 64)) _ _).mp h) (by decide),
    (C134_gt_fails (.fi (.base (.mont 64))) _ _).mpr (by decide)⟩

example : Ignores (setUp (.poly (.montFp 20)) junk) .random ∧ Ignores (setUp .z junk) .snprint ∧
    Ignores (setUp .multiz junk) .snprint ∧ Ignores (setUp (.gf3m 16) junk) .setSi ∧
    Ignores (setUp (.etaT (.gf3m 16)) junk) .mulSi :=
  ⟨(C134_poly_fails (.base (.mont 20)) _ _).mpr (by decide), (C134_z_fails _ _).mpr (by decide),
    (C134_multiz_fails _ _).mpr (by decide), (C134_gf3m_fails 16 _ _).mpr (by decide),
    (C134_points_typeI_fails 16 _ _).mpr (by decide)⟩

end Pbc.Dispatch
