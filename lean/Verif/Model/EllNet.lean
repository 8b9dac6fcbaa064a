import Verif.Model.PairingE

/-!
# The Shipsey-Stange methods: elliptic nets

`a_pairing_ellnet` with its preprocessed form (`/repo/ecc/a_param.c:364-1050`), `e_pairing_ellnet`
(`/repo/ecc/e_param.c:486-792`) and `g_pairing_ellnet` (`/repo/ecc/g_param.c:789-1124`).

`F` is the base field, `V` the type of the elements `dm1`, `d0`, `d1`.  Temporaries of a routine are
distinct elements, so calls are written as functions of values.  Inverting 0 is `none`.
-/

set_option autoImplicit false

namespace Pbc.EllNet

open Pbc.Curve (Pt)
open Pbc.Quad (El inv?)

variable {F K V : Type*}

/-! ### The loop, common to the three types -/

/-- `c_{k-3}, …, c_{k+4}`. -/
structure Block (F : Type*) where
  cm3 : F
  cm2 : F
  cm1 : F
  c0 : F
  c1 : F
  c2 : F
  c3 : F
  c4 : F

/-- The squares and products at the start of a round. -/
structure St (F : Type*) where
  sm2 : F
  sm1 : F
  s0 : F
  s1 : F
  s2 : F
  s3 : F
  tm2 : F
  tm1 : F
  t0 : F
  t1 : F
  t2 : F
  t3 : F

/-- Those kept by preprocessing (`struct ellnet_pp_st_s`, `/repo/ecc/a_param.c:672-675`). -/
structure Rec (F : Type*) where
  sm1 : F
  s0 : F
  s1 : F
  s2 : F
  tm1 : F
  t0 : F
  t1 : F
  t2 : F

/-- `d_{k-1}, d_k, d_{k+1}`. -/
structure DBlock (V : Type*) where
  dm1 : V
  d0 : V
  d1 : V

/-- What a round does to elements of the target field. -/
structure Ops (F V : Type*) where
  square : V → V
  mul : V → V → V
  sub : V → V → V
  /-- Multiply by an element of the base field. -/
  scale : V → F → V
  mulA : V → V
  mulB : V → V

section

variable [Field F]

/-- `/repo/ecc/a_param.c:492-504` and `:796-808`, `/repo/ecc/e_param.c:631-643`,
`/repo/ecc/g_param.c:948-960`. -/
def sts (c : Block F) : St F where
  sm2 := c.cm2 ^ 2
  sm1 := c.cm1 ^ 2
  s0 := c.c0 ^ 2
  s1 := c.c1 ^ 2
  s2 := c.c2 ^ 2
  s3 := c.c3 ^ 2
  tm2 := c.cm3 * c.cm1
  tm1 := c.cm2 * c.c0
  t0 := c.cm1 * c.c1
  t1 := c.c0 * c.c2
  t2 := c.c1 * c.c3
  t3 := c.c2 * c.c4

/-- The part kept. -/
def St.keep (s : St F) : Rec F := ⟨s.sm1, s.s0, s.s1, s.s2, s.tm1, s.t0, s.t1, s.t2⟩

/-- The new `c`s: double-and-add (`/repo/ecc/a_param.c:511-545`, `:815-849`,
`/repo/ecc/e_param.c:650-684`, `/repo/ecc/g_param.c:967-1001`) or double (`/repo/ecc/a_param.c:569-603`,
`:853-887`, `/repo/ecc/e_param.c:701-735`, `/repo/ecc/g_param.c:1024-1058`). -/
def stepC (C : F) (bit : Bool) (s : St F) : Block F :=
  if bit then
    { cm3 := (s.t0 * s.sm2 - s.tm2 * s.s0) * C
      cm2 := s.t0 * s.sm1 - s.tm1 * s.s0
      cm1 := (s.t1 * s.sm1 - s.tm1 * s.s1) * C
      c0 := s.t1 * s.s0 - s.t0 * s.s1
      c1 := (s.t2 * s.s0 - s.t0 * s.s2) * C
      c2 := s.t2 * s.s1 - s.t1 * s.s2
      c3 := (s.t3 * s.s1 - s.t1 * s.s3) * C
      c4 := s.t3 * s.s2 - s.t2 * s.s3 }
  else
    { cm3 := s.tm1 * s.sm2 - s.tm2 * s.sm1
      cm2 := (s.t0 * s.sm2 - s.tm2 * s.s0) * C
      cm1 := s.t0 * s.sm1 - s.tm1 * s.s0
      c0 := (s.t1 * s.sm1 - s.tm1 * s.s1) * C
      c1 := s.t1 * s.s0 - s.t0 * s.s1
      c2 := (s.t2 * s.s0 - s.t0 * s.s2) * C
      c3 := s.t2 * s.s1 - s.t1 * s.s2
      c4 := (s.t3 * s.s1 - s.t1 * s.s3) * C }

/-- The new `d`s (`/repo/ecc/a_param.c:506-507`, `:547-566` and `:605-623`; `:989-990`, `:994-1013` and
`:1016-1034`; `/repo/ecc/e_param.c:645-646`, `:686-698` and `:737-748`; `/repo/ecc/g_param.c:962-963`,
`:1003-1021` and `:1060-1077`). -/
def stepD (o : Ops F V) (bit : Bool) (s : Rec F) (d : DBlock V) : DBlock V :=
  let u := o.square d.d0
  let v := o.mul d.dm1 d.d1
  if bit then
    { dm1 := o.sub (o.scale v s.s0) (o.scale u s.t0)
      d0 := o.mulA (o.sub (o.scale v s.s1) (o.scale u s.t1))
      d1 := o.mulB (o.sub (o.scale v s.s2) (o.scale u s.t2)) }
  else
    { dm1 := o.sub (o.scale v s.sm1) (o.scale u s.tm1)
      d0 := o.sub (o.scale v s.s0) (o.scale u s.t0)
      d1 := o.mulA (o.sub (o.scale v s.s1) (o.scale u s.t1)) }

/-- The loop from bit `m` of `r` down to bit 0 (`/repo/ecc/a_param.c:491-627`,
`/repo/ecc/e_param.c:630-752`, `/repo/ecc/g_param.c:947-1081`). -/
def loop (o : Ops F V) (C : F) (r : ℕ) : ℕ → Block F → DBlock V → Block F × DBlock V
  | 0, c, d => (stepC C (r.testBit 0) (sts c), stepD o (r.testBit 0) (sts c).keep d)
  | m + 1, c, d =>
    loop o C r m (stepC C (r.testBit (m + 1)) (sts c)) (stepD o (r.testBit (m + 1)) (sts c).keep d)

/-- The first block for `Y² = X³ + a X + b`: `k = 1` (`/repo/ecc/e_param.c:518-574` and `:593-595`,
`/repo/ecc/g_param.c:824-880` and `:910-912`). -/
def first (a b x y : F) : Block F :=
  let c1 := 2 * y
  let cm3 := -c1
  let cm2 := x ^ 2
  let C := cm2 ^ 2
  let cm1 := b * x
  let cm1 := 2 * cm1
  let c4 := a ^ 2
  let c2 := cm1 * cm2
  let c2 := 2 * c2
  let c0 := a * C
  let c2 := c2 + c0
  let c0 := c4 * cm2
  let c2 := c2 - c0
  let c0 := 2 * c2
  let c0 := 2 * c0
  let c2 := c2 + c0
  let c0 := cm1 * a
  let c3 := b ^ 2
  let c3 := 2 * c3
  let c3 := 2 * c3
  let c0 := c0 + c3
  let c0 := 2 * c0
  let c3 := a * c4
  let c0 := c0 + c3
  let c2 := c2 - c0
  let c0 := cm2 * C
  let c3 := c0 + c2
  let c3 := c3 * c1
  let c3 := 2 * c3
  let c0 := a * cm2
  let c0 := c0 + cm1
  let c0 := 2 * c0
  let c0 := c0 + C
  let c2 := 2 * c0
  let c0 := c0 + c2
  let c2 := c0 - c4
  let c0 := 1
  let cm2 := -c0
  let C := c1 ^ 2
  let c4 := C * c1
  let c4 := c4 * c3
  let C := c2 ^ 2
  let C := C * c2
  let c4 := c4 - C
  let cm1 := 0
  ⟨cm3, cm2, cm1, c0, c1, c2, c3, c4⟩

/-- The first block for `Y² = X³ + X` (`/repo/ecc/a_param.c:394-431` and `:454-456`; `:724-761` and
`:763-765`). -/
def firstA (x y : F) : Block F :=
  let c1 := 2 * y
  let c0 : F := 1
  let cm3 := -c1
  let cm2 := -c0
  let cm1 := x ^ 2
  let C := cm1 ^ 2
  let c2 := C - cm1
  let c3 := 2 * c2
  let c3 := 2 * c3
  let c3 := c3 + c2
  let c2 := C * cm1
  let c3 := c3 + c2
  let c3 := c3 + cm2
  let c3 := c3 * c1
  let c3 := 2 * c3
  let cm1 := 2 * cm1
  let cm1 := cm1 + C
  let C := 2 * cm1
  let C := C + cm1
  let c2 := C + cm2
  let C := c1 ^ 2
  let c4 := C * c1
  let c4 := c4 * c3
  let C := c2 ^ 2
  let C := C * c2
  let c4 := c4 - C
  let cm1 := 0
  ⟨cm3, cm2, cm1, c0, c1, c2, c3, c4⟩

end

/-! ### Type A -/

section A

variable [Field K] [DecidableEq K]

/-- The field operations of a round (`/repo/ecc/a_param.c:547-566`, `:605-623`, `:994-1034`): `A` is in the
base field. -/
def opsA (A : K) (B : El K) : Ops K (El K) where
  square := PairingA.square2
  mul := PairingA.mul2
  sub f g := ⟨f.x - g.x, f.y - g.y⟩
  scale f c := ⟨f.x * c, f.y * c⟩
  mulA f := ⟨f.x * A, f.y * A⟩
  mulB f := PairingA.mul2 f B

/-- `A`, `B` and the first `d`s (`/repo/ecc/a_param.c:433-452` and `:459-460`; `:954-974`). -/
def setupA (x y x2 y2 : K) : Option (Ops K (El K) × DBlock (El K)) :=
  let A := x + x2
  let C := 2 * x
  let C := C - x2
  let cm1 := A ^ 2
  let cm1 := C * cm1
  let d1 : El K := ⟨y, y2⟩
  let d1 := PairingA.square2 d1
  let d1 : El K := ⟨d1.x - cm1, d1.y⟩
  let B : El K := ⟨-d1.x, -d1.y⟩
  match PairingA.invert2 B with
  | none => none
  | some B =>
    match inv? A with
    | none => none
    | some A =>
      let d1 : El K := ⟨-(y * A), y2 * A⟩
      let d1 := PairingA.square2 d1
      let d1 : El K := ⟨C - d1.x, -d1.y⟩
      some (opsA A B, ⟨PairingA.one2, PairingA.one2, d1⟩)

/-- `a_pairing_ellnet` (`/repo/ecc/a_param.c:364-670`). -/
def pairingA (inv : K → K) (r phikonr : ℕ) (P Q : Pt K) : Option (El K) :=
  match setupA P.x P.y Q.x Q.y with
  | none => none
  | some (o, d) =>
    let c := firstA P.x P.y
    match inv? c.c1 with
    | none => none
    | some C => PairingA.tateexp inv (loop o C r (PairingD.start r) c d).2.d1 phikonr

/-- What `a_pairing_ellnet_pp_init` leaves (`struct ellnet_pp_s`, `/repo/ecc/a_param.c:679-683`). -/
structure PpA (K : Type*) where
  x : K
  y : K
  seq : List (Rec K)

/-- The loop of `a_pairing_ellnet_pp_init` (`/repo/ecc/a_param.c:785-890`): `seq` has `cap` entries, writing
past them is `none`. -/
def ppLoopA (C : K) (r cap : ℕ) : ℕ → Block K → List (Rec K) → Option (List (Rec K))
  | 0, c, t => if t.length < cap then some (t ++ [(sts c).keep]) else none
  | m + 1, c, t =>
    if t.length < cap then
      ppLoopA C r cap m (stepC C (r.testBit (m + 1)) (sts c)) (t ++ [(sts c).keep])
    else none

/-- `a_pairing_ellnet_pp_init` (`/repo/ecc/a_param.c:687-910`). -/
def ppInitA (r : ℕ) (P : Pt K) : Option (PpA K) :=
  let c := firstA P.x P.y
  match inv? c.c1 with
  | none => none
  | some C => (ppLoopA C r (Gen.bits r) (PairingD.start r) c []).map fun t => ⟨P.x, P.y, t⟩

/-- The loop of `a_pairing_ellnet_pp_apply` (`/repo/ecc/a_param.c:975-1038`), from entry `k`; reading past the
entries written is `none`. -/
def ppApplyLoopA (o : Ops K (El K)) (r : ℕ) (t : List (Rec K)) : ℕ → ℕ → DBlock (El K) →
    Option (DBlock (El K))
  | 0, k, d =>
    match t[k]? with
    | none => none
    | some s => some (stepD o (r.testBit 0) s d)
  | m + 1, k, d =>
    match t[k]? with
    | none => none
    | some s => ppApplyLoopA o r t m (k + 1) (stepD o (r.testBit (m + 1)) s d)

/-- `a_pairing_ellnet_pp_apply` (`/repo/ecc/a_param.c:932-1050`). -/
def ppApplyA (inv : K → K) (r phikonr : ℕ) (pp : PpA K) (Q : Pt K) : Option (El K) :=
  match setupA pp.x pp.y Q.x Q.y with
  | none => none
  | some (o, d) =>
    match ppApplyLoopA o r pp.seq (PairingD.start r) 0 d with
    | none => none
    | some d => PairingA.tateexp inv d.d1 phikonr

end A

/-! ### Type E -/

section E

variable [Field K] [DecidableEq K]

/-- The field operations of a round (`/repo/ecc/e_param.c:686-698`, `:737-748`). -/
def opsE (A B : K) : Ops K K where
  square f := f ^ 2
  mul f g := f * g
  sub f g := f - g
  scale f c := f * c
  mulA f := f * A
  mulB f := f * B

/-- `A`, `B` and the first `d`s (`/repo/ecc/e_param.c:576-591` and `:598-599`). -/
def setupE (x y x2 y2 : K) : Option (Ops K K × DBlock K) :=
  let A := x - x2
  let C := 2 * x
  let C := C + x2
  let cm1 := A ^ 2
  let cm1 := C * cm1
  let d1 := y + y2
  let d1 := d1 ^ 2
  let B := cm1 - d1
  match inv? B with
  | none => none
  | some B =>
    match inv? A with
    | none => none
    | some A =>
      let d1 := y - y2
      let d1 := d1 * A
      let d1 := d1 ^ 2
      let d1 := C - d1
      some (opsE A B, ⟨1, 1, d1⟩)

/-- `e_pairing_ellnet` (`/repo/ecc/e_param.c:486-792`); `b` is the last coefficient of the curve. -/
def pairingE (b : K) (r : ℕ) (p : PairingE.Data K) (P Q : Pt K) : Option K :=
  match setupE P.x P.y Q.x Q.y with
  | none => none
  | some (o, d) =>
    let c := first p.a b P.x P.y
    match inv? c.c1 with
    | none => none
    | some C =>
      let s := loop o C r (PairingD.start r) c d
      match inv? s.1.c1 with
      | none => none
      | some c1 => Gen.powMpz (s.2.d1 * c1) p.phikonr

end E

/-! ### Type G -/

section G

variable [Field F] [DecidableEq F] [Field K] [DecidableEq K]

/-- The field operations of a round (`/repo/ecc/g_param.c:1003-1021`, `:1060-1077`). -/
def opsG (E : PairingD.Ext F K) (v : K) (A B : El K) : Ops F (El K) where
  square := PairingD.square2 v
  mul := PairingD.mul2 v
  sub f g := ⟨f.x - g.x, f.y - g.y⟩
  scale f c := ⟨PairingD.constMul E c f.x, PairingD.constMul E c f.y⟩
  mulA f := PairingD.mul2 v f A
  mulB f := PairingD.mul2 v f B

/-- `element_set(element_item(e, 0), c)`. -/
def setItem0 (E : PairingD.Ext F K) (e : K) (c : F) : K :=
  E.make (Function.update (E.item e) 0 c)

/-- `A`, `B` and the first `d`s (`/repo/ecc/g_param.c:882-908` and `:915-916`); fresh elements are 0. -/
def setupG (p : PairingD.Data F K) (x y : F) (x2 y2 : K) : Option (Ops F (El K) × DBlock (El K)) :=
  let d0 : El K := ⟨x2 * p.nqrinv, 0⟩
  let A : El K := ⟨-d0.x, -d0.y⟩
  let A : El K := ⟨PairingD.addItem0 p.E A.x x, A.y⟩
  let C := 2 * x
  let d0 : El K := ⟨PairingD.addItem0 p.E d0.x C, d0.y⟩
  let dm1 := PairingD.square2 p.nqr A
  let dm1 := PairingD.mul2 p.nqr d0 dm1
  let d1 : El K := ⟨setItem0 p.E 0 y, y2 * p.nqrinv2⟩
  let d1 := PairingD.square2 p.nqr d1
  let d1 : El K := ⟨dm1.x - d1.x, dm1.y - d1.y⟩
  match PairingD.invert2 p.nqr d1 with
  | none => none
  | some B =>
    match PairingD.invert2 p.nqr A with
    | none => none
    | some A =>
      let d1 : El K := ⟨setItem0 p.E 0 (-y), y2 * p.nqrinv2⟩
      let d1 := PairingD.mul2 p.nqr d1 A
      let d1 := PairingD.square2 p.nqr d1
      let d1 : El K := ⟨d0.x - d1.x, d0.y - d1.y⟩
      some (opsG p.E p.nqr A B, ⟨PairingD.one2, PairingD.one2, d1⟩)

/-- `g_pairing_ellnet` (`/repo/ecc/g_param.c:789-1124`). -/
def pairingG (p : PairingD.Data F K) (P : Pt F) (Q : Pt K) : Option (El K) :=
  match setupG p P.x P.y Q.x Q.y with
  | none => none
  | some (o, d) =>
    let c := first p.a p.b P.x P.y
    match inv? c.c1 with
    | none => none
    | some C => PairingD.tatepowerG p (loop o C p.r (PairingD.start p.r) c d).2.d1

end G

end Pbc.EllNet
