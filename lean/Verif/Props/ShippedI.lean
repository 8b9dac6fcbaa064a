import Verif.Props.Shipped
import Verif.Props.NonDegI
import Verif.Lemmas.ShippedPrimes2

/-! # C140, type I: `i.param` -/

set_option autoImplicit false

namespace Pbc.Shipped

open Pbc.Param
open Pbc.Curve (Pt)
open Pbc.Ternary (E3 El trinomial Reps fieldInit)
open Pbc.EtaT (pairing npow random)
open Spec (EC PtRep)

private instance fact3 : Fact (Nat.Prime 3) := ⟨by decide⟩

/-- The group order is prime; the polynomial for the field of `3^m` elements is irreducible; the field can be set up with
words of any size, and then all its elements but 0 are inverted; the curve has `n n2` points, of which `n` are killed by `n`;
the pairing of any two points is defined, scalars come out of it as exponents, and on points killed by `n` its values are `n`-th
roots of unity; and of the points produced by `element_random` (unless the first value drawn is 0), which are killed by `n`, only
`O` pairs to 1. -/
def GoodI (m t n n2 : ℕ) : Prop :=
  n.Prime ∧ ¬ n ∣ n2 ∧ ∃ _ : Fact (Irreducible (trinomial m t)), Nat.card (AdjoinRoot (trinomial m t)) = 3 ^ m ∧
    (∀ w, 0 < w → ∃ P : Ternary.Params w, fieldInit m t = some P ∧
      ∀ (a : El w) (x : AdjoinRoot (trinomial m t)), Reps m t P.len a x → x ≠ 0 →
        ∃ e z, Ternary.invert P a = some e ∧ Reps m t P.len e z ∧ z * x = 1) ∧
    ∀ [DecidableEq (AdjoinRoot (trinomial m t))],
      Nat.card (EC (-1 : AdjoinRoot (trinomial m t)) 1).Point = n * n2 ∧
      Nat.card {x : (EC (-1 : AdjoinRoot (trinomial m t)) 1).Point // n • x = 0} = n ∧
      (∀ (x y : (EC (-1 : AdjoinRoot (trinomial m t)) 1).Point) (P Q P' Q' : Pt (AdjoinRoot (trinomial m t))) (i j : ℕ),
        PtRep P x → PtRep Q y → PtRep P' (i • x) → PtRep Q' (j • y) →
        ∃ v, pairing m P Q = some v ∧ pairing m P' Q' = some (npow v (i * j)) ∧
          (n • x = 0 ∨ n • y = 0 → npow v n = E3.one)) ∧
      ∀ (sqrt : AdjoinRoot (trinomial m t) → AdjoinRoot (trinomial m t)) x x' draws draws' old old' P Q, x ≠ 0 → x' ≠ 0 →
        random sqrt n2 (x :: draws) old = some P → random sqrt n2 (x' :: draws') old' = some Q →
        (∃ y : (EC (-1 : AdjoinRoot (trinomial m t)) 1).Point, PtRep P y ∧ n • y = 0) ∧
        (pairing m P Q = some E3.one ↔ P.inf = true ∨ Q.inf = true)

theorem goodI (size : ℤ) (p : EtaT.Params) (h : EtaT.paramGen size = some p) (hn : p.n.Prime) (hd : ¬ p.n ∣ p.n2) :
    GoodI p.m p.t p.n p.n2 := by
  have i1 : Fact (Irreducible (trinomial p.m p.t)) := ⟨EtaT.C104_irreducible size p h⟩
  refine ⟨hn, hd, i1, (EtaT.C104_elements size p h).2, fun w hw => EtaT.C104_invert hw size p h, ?_⟩
  intro _
  obtain ⟨hm, hnn, -, -, h0, ht, -⟩ := EtaT.C103_parameters size p h
  have hc := (EtaT.C104_elements size p h).2
  have hfin : Module.Finite (ZMod 3) (AdjoinRoot (trinomial p.m p.t)) :=
    (Pbc.Ternary.tri_monic h0 ht).finite_adjoinRoot
  have : Finite (AdjoinRoot (trinomial p.m p.t)) := Module.finite_of_finite (ZMod 3)
  have : Fintype (AdjoinRoot (trinomial p.m p.t)) := Fintype.ofFinite _
  have : CharP (AdjoinRoot (trinomial p.m p.t)) 3 :=
    charP_of_injective_algebraMap (algebraMap (ZMod 3) (AdjoinRoot (trinomial p.m p.t))).injective 3
  rw [Nat.card_eq_fintype_card] at hc
  refine ⟨by rw [EtaT.C103_card hc hm, hnn], (EtaT.C107_typeI_generated size p h).1, ?_, ?_⟩
  · intro x y P Q P' Q' i j hP hQ hP' hQ'
    exact EtaT.C104_pairing size p h hP hQ i j hP' hQ'
  · intro sqrt x x' draws draws' old old' P Q hx hx' hP hQ
    obtain ⟨y, hy, hy'⟩ := EtaT.C99_random_partial hc hm sqrt hnn x hx draws old P hP
    obtain ⟨z, hz, hz'⟩ := EtaT.C99_random_partial hc hm sqrt hnn x' hx' draws' old' Q hQ
    exact ⟨⟨_, hy, hy'⟩, EtaT.C107_typeI_iff hc hm hn hnn hd hy hz hy' hz'⟩

/-- **C140** for `i.param`: it is read as what it says, and gives a working pairing, unless 0 is drawn (C99). -/
theorem C140_i_partial : Reads iText iPar ∧ ∃ m t n n2 : ℕ, iPar = .i m t n n2 ∧ GoodI m t n n2 :=
  ⟨i_reads, _, _, _, _, rfl,
    goodI 100 ⟨97, 12, 2726865189058261010774960798134976187171462721, 7⟩ rfl i_n (by decide)⟩

end Pbc.Shipped
