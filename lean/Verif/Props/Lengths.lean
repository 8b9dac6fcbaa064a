import Verif.Model.Lengths
import Verif.Lemmas.DispatchKinds
import Verif.Props.Polymod
import Verif.Props.Curve

/-! # C142: the lengths announced are those of the bytes written -/

set_option autoImplicit false

namespace Pbc.Lengths

open Pbc.Dispatch
open Pbc.Quad (El Codec RoundTrip codec)
open Props (fpCodec)
open Pbc.Curve (Pt)

theorem fromLoop_length {A : Type} (c : Codec A) (k : ℕ) (data : List ℕ) (n : ℕ) :
    (Poly.fromLoop c k data n).1.length = k := by
  induction k generalizing data n with
  | zero => rfl
  | succ k ih => simp [Poly.fromLoop, ih]

/-- The bytes of the elements of `A[x]/(f)`, `f` of degree `n`, as the routines of `Verif/Model/Polymod.lean` write and read
them. -/
def polyCodec {A : Type} (c : Codec A) (n : ℕ) : Codec (Fin n → A) where
  enc a := (List.ofFn a).flatMap c.enc
  dec data := (fun i => (Polymod.fromBytes c n data).1.get ⟨i, by rw [Polymod.fromBytes, fromLoop_length]; exact i.2⟩,
    (Polymod.fromBytes c n data).2)

theorem polyCodec_enc {A : Type} (c : Codec A) (n : ℕ) (a : ℕ → A) :
    (polyCodec c n).enc (fun i => a i) = Polymod.toBytes c n a := by
  show (List.ofFn fun i : Fin n => a i).flatMap c.enc = _
  have e : (List.ofFn fun i : Fin n => a i) = (List.range n).map a := by apply List.ext_getElem <;> simp
  rw [e, List.flatMap_map]
  rfl

/-- Fields of coordinates: how an element of the field of this kind is written and read. -/
inductive Wire (p : ℕ) [NeZero p] : Kind → (A : Type) → Codec A → Prop
  | naive (odd : Bool) : Wire p (.naiveFp odd (fpLength p)) (ZMod p) (fpCodec p)
  | fast (odd : Bool) : Wire p (.fastFp odd (fpLength p)) (ZMod p) (fpCodec p)
  | faster (odd : Bool) : Wire p (.fasterFp odd (fpLength p)) (ZMod p) (fpCodec p)
  | mont : Wire p (.montFp (fpLength p)) (ZMod p) (fpCodec p)
  | quadratic {k : Kind} {A : Type} {c : Codec A} : Wire p k A c → Wire p (.quadratic k) (El A) (codec c)
  | fi {k : Kind} {A : Type} {c : Codec A} : Wire p k A c → Wire p (.fi k) (El A) (codec c)
  | polymod (n : ℕ) {k : Kind} {A : Type} {c : Codec A} :
    Wire p k A c → Wire p (.polymod n k) (Fin n → A) (polyCodec c n)

theorem polyCodec_roundTrip {A : Type} {c : Codec A} {L : ℕ} (h : RoundTrip c L) (n : ℕ) :
    RoundTrip (polyCodec c n) (L * n) := by
  intro a rest
  by_cases hn : n = 0
  · subst hn
    refine ⟨by simp [polyCodec], by simp [polyCodec], Prod.ext (funext fun i => i.elim0) ?_⟩
    simp [polyCodec, Polymod.fromBytes, Poly.fromLoop]
  have h0 : 0 < n := Nat.pos_of_ne_zero hn
  let b : ℕ → A := fun i => if hi : i < n then a ⟨i, hi⟩ else a ⟨0, h0⟩
  have hb : a = fun i : Fin n => b i := by funext i; simp [b]
  obtain ⟨h1, h2, h3⟩ := Props.C75_round_trip c L h n b rest
  have e : (polyCodec c n).enc a = Polymod.toBytes c n b := by rw [hb]; exact polyCodec_enc c n b
  rw [e]
  refine ⟨by rw [h1, Nat.mul_comm], h2, Prod.ext (funext fun i => ?_) ?_⟩
  · rw [hb]
    show (Polymod.fromBytes c n _).1.get _ = b i
    simp [h3]
  · show (Polymod.fromBytes c n _).2 = _
    rw [h3, Nat.mul_comm]

variable {p : ℕ} [NeZero p] {k : Kind} {A : Type} {c : Codec A} {γ : Type}

/-- **C142** for prime fields in all implementations but the one for small primes, and all towers of extensions over them: the
length announced is the number of bytes that `element_to_bytes` writes and `element_from_bytes` reads. -/
theorem C142_fields (hw : Wire p k A c) (old : ℕ → Raw γ) :
    ∃ L : ℕ, length (setUp k old) = .val L ∧ RoundTrip c L := by
  induction hw generalizing old with
  | naive odd => exact ⟨_, rfl, Props.C27_fp_round_trip p⟩
  | fast odd => exact ⟨_, rfl, Props.C27_fp_round_trip p⟩
  | faster odd => exact ⟨_, rfl, Props.C27_fp_round_trip p⟩
  | mont => exact ⟨_, rfl, Props.C27_fp_round_trip p⟩
  | quadratic _ ih =>
    obtain ⟨L, hL, h⟩ := ih fun i => old (i + 1)
    refine ⟨2 * L, ?_, (Props.C27_round_trip _ L h).1⟩
    rw [length] at hL
    show (build (old 0) (quadratic (topLen _))).len = _
    rw [hL, len_quadratic]
  | fi _ ih =>
    obtain ⟨L, hL, h⟩ := ih fun i => old (i + 1)
    refine ⟨2 * L, ?_, (Props.C27_round_trip _ L h).1⟩
    rw [length] at hL
    show (build (old 0) (fi (topLen _))).len = _
    rw [hL, len_fi]
  | polymod n _ ih =>
    obtain ⟨L, hL, h⟩ := ih fun i => old (i + 1)
    refine ⟨L * n, ?_, polyCodec_roundTrip h n⟩
    rw [length] at hL
    show (build (old 0) (polymod n (topLen _))).len = _
    rw [hL, len_polymod]

/-- **C142** for groups of points over such fields: the three forms of a point, written, have the lengths announced, both by the
functions for pairings and by those for elements, and reading takes as many. -/
theorem C142_points [Field A] [DecidableEq A] (hw : Wire p k A c) (odd : Bool) (old : ℕ → Raw γ) (sgn : A → ℤ) (sq : A → A) (ca cb : A) :
    ∃ L : ℕ,
      length (setUp (.curve odd k) old) = .val (2 * L : ℕ) ∧
      lengthC (setUp (.curve odd k) old) = .val (L + 1 : ℕ) ∧ elementC (setUp (.curve odd k) old) = .val (L + 1 : ℕ) ∧
      lengthX (setUp (.curve odd k) old) = .val L ∧ elementX (setUp (.curve odd k) old) = .val L ∧
      ∀ (P : Pt A) (rest : List ℕ),
        (Curve.toBytes c P).length = 2 * L ∧ (Curve.fromBytes c ca cb (Curve.toBytes c P ++ rest)).2 = 2 * L ∧
        (Curve.toBytesCompressed c sgn P).length = L + 1 ∧
        (∃ Q, Curve.fromBytesCompressed c sq sgn ca cb (Curve.toBytesCompressed c sgn P ++ rest) = some (Q, L + 1)) ∧
        (Curve.toBytesXOnly c P).length = L ∧
        (Curve.fromBytesXOnly c sq ca cb (Curve.toBytesXOnly c P ++ rest)).2 = L := by
  obtain ⟨L, hL, h⟩ := C142_fields hw fun i => old (i + 1)
  rw [length] at hL
  have ht : topLen (setUp (.curve odd k) old) = .val (2 * L : ℕ) := by
    show (build (old 0) (curve odd (topLen _))).len = _
    rw [hL, len_curve]
  have ht' : topLen (setUp (.curve odd k) old).tail = .val L := hL
  refine ⟨L, ht, ?_, ?_, ?_, ht', ?_⟩
  · rw [lengthC, ht]; simp only [LenCell.map, LenCell.val.injEq]; rw [Nat.cast_mul, Nat.cast_ofNat, Int.mul_tdiv_cancel_left _ (by decide)]; try rfl
  · rw [elementC, ht']; simp [LenCell.map]
  · rw [lengthX, ht]; simp only [LenCell.map, LenCell.val.injEq]; rw [Nat.cast_mul, Nat.cast_ofNat, Int.mul_tdiv_cancel_left _ (by decide)]; try rfl
  · intro P rest
    have hx := fun r => (h P.x r).2.2
    have hy := fun r => (h P.y r).2.2
    have lx := (h P.x []).1
    have ly := (h P.y []).1
    refine ⟨?_, ?_, ?_, ?_, lx, ?_⟩
    · rw [Curve.toBytes, List.length_append, lx, ly]; omega
    · simp only [Curve.toBytes, Curve.fromBytes, List.append_assoc, hx, List.drop_left' lx, hy]; omega
    · rw [Curve.toBytesCompressed, List.length_append, lx]; rfl
    · simp only [Curve.toBytesCompressed, Curve.fromBytesCompressed, List.append_assoc, hx]
      rw [List.getElem?_append_right (by omega), lx, Nat.sub_self]
      exact ⟨_, rfl⟩
    · simp only [Curve.toBytesXOnly, Curve.fromBytesXOnly, hx]

/-- **C142** for GT, whose elements are written as those of the field. -/
theorem C142_gt (hw : Wire p k A c) (old : ℕ → Raw γ) :
    ∃ L : ℕ, length (setUp (.gt k) old) = .val L ∧ RoundTrip c L := by
  obtain ⟨L, hL, h⟩ := C142_fields hw fun i => old (i + 1)
  refine ⟨L, ?_, h⟩
  rw [length] at hL
  show (build (old 0) (gt (topLen _))).len = _
  rw [hL, build, lenOf_eq, lenOf_append]
  rfl

/-- **C142, discrepancy.** For G1, G2 and GT of type I what is announced is whatever the memory held before. -/
theorem C142_typeI_fails (n : ℕ) (old : ℕ → Raw γ) :
    length (setUp (.etaT (.gf3m n)) old) = .stale (old 0).len ∧
    length (setUp (.gtI (.gf33m (.gf32m (.gf3m n)))) old) = .stale (old 1).len := ⟨rfl, rfl⟩

/-- The groups of a pairing of type F over a field with the implementation used by default: G2 over a quadratic extension, GT in
an extension of degree 6 of it. -/
example (old : ℕ → Raw γ) :
    length (setUp (.curve true (.quadratic (.montFp (fpLength 1009)))) old) = .val 8 ∧
    lengthC (setUp (.curve true (.quadratic (.montFp (fpLength 1009)))) old) = .val 5 ∧
    length (setUp (.gt (.polymod 6 (.quadratic (.montFp (fpLength 1009))))) old) = .val 24 ∧
    Wire 1009 (.polymod 6 (.quadratic (.montFp (fpLength 1009)))) _ (polyCodec (codec (fpCodec 1009)) 6) :=
  ⟨rfl, rfl, rfl, .polymod 6 (.quadratic .mont)⟩

/-- A compressed point over a field of 1009 elements takes three bytes. -/
example (P : Pt (ZMod 1009)) : (Curve.toBytesCompressed (fpCodec 1009) (fun x => x.val) P).length = 3 := by
  haveI : Fact (Nat.Prime 1009) := ⟨by norm_num⟩
  obtain ⟨L, h, -, -, -, -, h'⟩ := C142_points (γ := Unit) (p := 1009) (k := .montFp (fpLength 1009)) .mont true
    (fun _ => ⟨fun _ => (), 0⟩) (fun x => x.val) id 1 1
  have e : (LenCell.val 4) = .val (2 * L : ℕ) := h
  rw [(h' P []).2.2.1]
  simp at e
  omega

end Pbc.Lengths
