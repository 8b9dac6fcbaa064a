import Verif.Model.PairingA

/-!
# `/repo/ecc/d_param.c` and `/repo/ecc/g_param.c`: the pairings of types D and G

`F` is the field `F_q`, `K` the extension `F_q^d` built as polynomials modulo an irreducible one, and
`F_q^k` with `k = 2 d` is the field of pairs over `K` with the operations `fq_*` of
`/repo/arith/fieldquadratic.c`.  `F` and `K` are Mathlib fields; the routines read and write the
coefficients of elements of `K` directly, which `Ext` gives them.  Temporaries of a routine are
distinct elements, so calls are written as functions of values.  Inverting 0 is `none`
(`pbc_die("division by zero")` in `poly_div`, `/repo/arith/poly.c:416`).
-/

set_option autoImplicit false

namespace Pbc.PairingD

open Pbc.Curve (Pt)
open Pbc.Quad (El inv?)
open Pbc.PairingA (Abc copy lucasLoop)

variable {F K : Type*}

/-- `F_q^d` seen through its coefficients: `element_item(x, i)` and `polymod_field_degree`
(`/repo/arith/poly.c`). -/
structure Ext (F K : Type*) where
  d : ℕ
  item : K → ℕ → F
  make : (ℕ → F) → K

section fqk

variable [Field K] [DecidableEq K]

/-- `element_mul(f, f, g)` in `F_q^k`: `fq_mul` (`/repo/arith/fieldquadratic.c:197-233`). -/
def mul2 (v : K) (f g : El K) : El K := Quad.mul v (fun i => if i = 0 then f else g) 0 0 1 0

/-- `element_square(f, f)` in `F_q^k`: `fq_square` (`/repo/arith/fieldquadratic.c:249-269`). -/
def square2 (v : K) (f : El K) : El K := Quad.square v (fun _ => f) 0 0 0

/-- `element_invert(g, f)` in `F_q^k`: `fq_invert` (`/repo/arith/fieldquadratic.c:290-309`). -/
def invert2 (v : K) (f : El K) : Option (El K) := (Quad.invert v (fun _ => f) 0 1).map (· 0)

/-- `element_set1` in `F_q^k` (`/repo/arith/fieldquadratic.c:76-80`). -/
def one2 : El K := ⟨1, 0⟩

/-- The operations `generic_pow_mpz` calls on `F_q^k`. -/
structure Fk (v : K) where
  val : El K

instance (v : K) : Mul (Fk v) := ⟨fun f g => ⟨mul2 v f.val g.val⟩⟩
instance (v : K) : One (Fk v) := ⟨⟨one2⟩⟩
instance (v : K) : Gen.Sqr (Fk v) := ⟨fun f => ⟨square2 v f.val⟩⟩

/-- `element_pow_mpz` on `F_q^k` (`/repo/arith/field.c:113-126`). -/
def pow2 (v : K) (f : El K) (n : ℕ) : Option (El K) := (Gen.powMpz (⟨f⟩ : Fk v) n).map (·.val)

end fqk

section lines

variable [Field F] [DecidableEq F]

/-- `element_double(Z, Z)`: `curve_double` (`/repo/ecc/curve.c:139-151`). -/
def dbl (ca : F) (V : Pt F) : Option (Pt F) := (Curve.double ca (fun _ => V) 0 0).map (· 0)

/-- `element_add(Z, Z, P)`: `curve_mul` (`/repo/ecc/curve.c:153-207`). -/
def add (ca : F) (V P : Pt F) : Option (Pt F) :=
  (Curve.add ca (fun i => if i = 0 then V else P) 0 0 1).map (· 0)

/-- The line of `do_tangent` in `cc_miller_no_denom_affine` (`/repo/ecc/d_param.c:342-356`,
`/repo/ecc/g_param.c:329-343`) and of `do_tangents` (`/repo/ecc/d_param.c:623-633`). -/
def tangent (ca Zx Zy : F) : Abc F :=
  let a := Zx ^ 2
  let a := a * ((3 : ℤ) : F)
  let a := a + ca
  let a := -a
  let b := Zy + Zy
  let t0 := b * Zy
  let c := a * Zx
  let c := c + t0
  let c := -c
  ⟨a, b, c⟩

/-- The line of `do_tangent` in `d_pairing_pp_init` (`/repo/ecc/d_param.c:833-844`) and
`g_pairing_pp_init` (`/repo/ecc/g_param.c:657-668`). -/
def tangentPp (ca Zx Zy : F) : Abc F :=
  let a := Zx ^ 2
  let t0 := 2 * a
  let a := a + t0
  let a := a + ca
  let a := -a
  let b := Zy + Zy
  let t0 := b * Zy
  let c := a * Zx
  let c := c + t0
  let c := -c
  ⟨a, b, c⟩

/-- The line of `do_line` (`/repo/ecc/d_param.c:369-374`, `:652-657`, `:855-860`,
`/repo/ecc/g_param.c:357-362`, `:679-684`, `/repo/ecc/f_param.c:189-194`). -/
def line (Zx Zy Px Py : F) : Abc F :=
  let b := Px - Zx
  let a := Zy - Py
  let t0 := b * Zy
  let c := a * Zx
  let c := c + t0
  let c := -c
  ⟨a, b, c⟩

/-- Where the loops start (`/repo/ecc/d_param.c:392-393`, `:681-682`, `:877-878`, `:926-927`;
`/repo/ecc/g_param.c:380-381`, `:701-702`, `:744-745`; `/repo/ecc/f_param.c:216-217`). -/
def start (r : ℕ) : ℕ :=
  let m := Gen.bits r
  if m > 2 then m - 2 else 0

/-- The loop of `cc_miller_no_denom_affine` (`/repo/ecc/d_param.c:395-407`,
`/repo/ecc/g_param.c:383-393`) and of `cc_miller_no_denom` (`/repo/ecc/f_param.c:220-232`).  `tan` gives
the line of `do_tangent`, `step` multiplies the accumulator by the value of a line, `sq` is
`element_square`. -/
def loop {V : Type*} (tan : F → F → Abc F) (ca : F) (r : ℕ) (P : Pt F) (step : Abc F → V → V)
    (sq : V → V) : ℕ → Pt F → V → Option V
  | 0, Z, v => some (step (tan Z.x Z.y) v)
  | m + 1, Z, v =>
    let v := step (tan Z.x Z.y) v
    match dbl ca Z with
    | none => none
    | some Z =>
      if r.testBit (m + 1) then
        let v := step (line Z.x Z.y P.x P.y) v
        match add ca Z P with
        | none => none
        | some Z => loop tan ca r P step sq m Z (sq v)
      else loop tan ca r P step sq m Z (sq v)

end lines

section pairing

variable [Field F] [DecidableEq F] [Field K] [DecidableEq K]

/-- The data of the pairing (`/repo/ecc/d_param.c:34-42`, `/repo/ecc/g_param.c:38-43`): the curve
`Y² = X³ + a X + b` over `F`, the nonresidue `nqr` of `K`, and what `d_init_pairing` and
`g_init_pairing` compute. -/
structure Data (F K : Type*) where
  E : Ext F K
  a : F
  b : F
  nqr : K
  nqrinv : K
  nqrinv2 : K
  k : ℕ
  r : ℕ
  xpowq : K
  xpowq2 : K
  xpowq3 : K
  xpowq4 : K
  phikonr : ℕ
  tateexp : ℕ

/-- `d_miller_evalfn` (`/repo/ecc/d_param.c:99-112`, `/repo/ecc/g_param.c:86-102`). -/
def evalfn (E : Ext F K) (l : Abc F) (Qx Qy : K) : El K :=
  let re := fun i => E.item Qx i * l.a
  let im := fun i => E.item Qy i * l.b
  let re := Function.update re 0 (re 0 + l.c)
  ⟨E.make re, E.make im⟩

/-- `cc_miller_no_denom_affine` (`/repo/ecc/d_param.c:321-421`, `/repo/ecc/g_param.c:308-411`). -/
def millerAffine (p : Data F K) (P : Pt F) (Qx Qy : K) : Option (El K) :=
  loop (tangent p.a) p.a p.r P (fun l v => mul2 p.nqr v (evalfn p.E l Qx Qy)) (square2 p.nqr)
    (start p.r) (copy P) one2

/-! ### Projective coordinates

The code sets both `Zx` and `Zy` to the first coordinate of `Z` (`/repo/ecc/d_param.c:281-282`,
`/repo/ecc/g_param.c:270-271`), so both names stand for one and the same field element `s`. -/

/-- The variables of `cc_miller_no_denom_proj`: the element called `Zx` and `Zy`, and `z`, `z2`. -/
structure Shared (F : Type*) where
  s : F
  z : F
  z2 : F

/-- `proj_double` (`/repo/ecc/d_param.c:131-169`, `/repo/ecc/g_param.c:119-157`). -/
def projDouble (ca : F) (Z : Shared F) : Shared F :=
  let t0 := Z.s ^ 2
  let t1 := 2 * t0
  let t0 := t0 + t1
  let t1 := Z.z2 ^ 2
  let t1 := t1 * ca
  let t0 := t0 + t1
  let z := Z.s * Z.z
  let z := 2 * z
  let z2 := z ^ 2
  let t2 := Z.s ^ 2
  let t1 := Z.s * t2
  let t1 := 2 * t1
  let t1 := 2 * t1
  let t3 := 2 * t1
  let s := t0 ^ 2
  let s := s - t3
  let t2 := t2 ^ 2
  let t2 := 2 * t2
  let t2 := 2 * t2
  let t2 := 2 * t2
  let t1 := t1 - s
  let t0 := t0 * t1
  let s := t0 - t2
  ⟨s, z, z2⟩

/-- `proj_mixin` (`/repo/ecc/d_param.c:171-212`, `/repo/ecc/g_param.c:159-200`). -/
def projMixin (Px Py : F) (Z : Shared F) : Shared F :=
  let t2 := Z.z2 * Px
  let t3 := Z.s - t2
  let t0 := Z.z2 * Py
  let t0 := t0 * Z.z
  let t1 := Z.s - t0
  let t2 := Z.s + t2
  let t0 := Z.s + t0
  let z := Z.z * t3
  let z2 := z ^ 2
  let t4 := t3 ^ 2
  let t3 := t4 * t3
  let s := t1 ^ 2
  let t4 := t2 * t4
  let s := s - t4
  let t4 := t4 - s
  let t4 := t4 - s
  let t4 := t4 * t1
  let t0 := t0 * t3
  let t4 := t4 - t0
  let s := t4 / 2
  ⟨s, z, z2⟩

/-- The line of `do_tangent` (`/repo/ecc/d_param.c:214-238`, `/repo/ecc/g_param.c:202-226`). -/
def tangentProj (ca : F) (Z : Shared F) : Abc F :=
  let a := Z.z2 ^ 2
  let a := a * ca
  let b := Z.s ^ 2
  let t0 := 2 * b
  let b := b + t0
  let a := a + b
  let a := -a
  let b := Z.z * Z.z2
  let b := b * Z.s
  let b := b * ((2 : ℤ) : F)
  let c := Z.s * a
  let a := a * Z.z2
  let t0 := Z.s ^ 2
  let t0 := t0 * ((2 : ℤ) : F)
  let c := c + t0
  let c := -c
  ⟨a, b, c⟩

/-- The line of `do_line` (`/repo/ecc/d_param.c:244-260`, `/repo/ecc/g_param.c:232-248`). -/
def lineProj (Px Py : F) (Z : Shared F) : Abc F :=
  let t0 := Z.s * Z.z
  let t1 := Z.z2 * Z.z
  let a := Py * t1
  let a := Z.s - a
  let b := Px * t1
  let b := b - t0
  let t0 := t0 * Py
  let c := Z.s * Px
  let c := t0 - c
  ⟨a, b, c⟩

/-- The loop of `cc_miller_no_denom_proj` (`/repo/ecc/d_param.c:288-298`,
`/repo/ecc/g_param.c:277-287`). -/
def projLoop (p : Data F K) (P : Pt F) (Qx Qy : K) : ℕ → Shared F → El K → El K
  | 0, Z, v => mul2 p.nqr v (evalfn p.E (tangentProj p.a Z) Qx Qy)
  | m + 1, Z, v =>
    let v := mul2 p.nqr v (evalfn p.E (tangentProj p.a Z) Qx Qy)
    let Z := projDouble p.a Z
    if p.r.testBit (m + 1) then
      let v := mul2 p.nqr v (evalfn p.E (lineProj P.x P.y Z) Qx Qy)
      let Z := projMixin P.x P.y Z
      projLoop p P Qx Qy m Z (square2 p.nqr v)
    else projLoop p P Qx Qy m Z (square2 p.nqr v)

/-- `cc_miller_no_denom_proj` (`/repo/ecc/d_param.c:116-317`, `/repo/ecc/g_param.c:104-306`). -/
def millerProj (p : Data F K) (P : Pt F) (Qx Qy : K) : Option (El K) :=
  some (projLoop p P Qx Qy (start p.r) ⟨(copy P).x, 1, 1⟩ one2)

/-! ### The final powering -/

/-- `polymod_const_mul` (`/repo/arith/poly.c:1550-1558`). -/
def constMul (E : Ext F K) (a : F) (e : K) : K := E.make (fun i => a * E.item e i)

/-- `element_add(e0re0, e0re0, c)` where `e0re0` is coefficient 0 of `e`. -/
def addItem0 (E : Ext F K) (e : K) (c : F) : K :=
  E.make (Function.update (E.item e) 0 (E.item e 0 + c))

/-- `element_sub(e0im0, e0im0, c)` where `e0im0` is coefficient 0 of `e`. -/
def subItem0 (E : Ext F K) (e : K) (c : F) : K :=
  E.make (Function.update (E.item e) 0 (E.item e 0 - c))

/-- `qpower` of `cc_tatepower` (`/repo/ecc/d_param.c:507-527`); `pos` is `sign > 0`. -/
def qpowerD (p : Data F K) (pos : Bool) (i : El K) : El K :=
  let E := p.E
  let re := constMul E (E.item i.x 1) p.xpowq
  let e2 := constMul E (E.item i.x 2) p.xpowq2
  let re := re + e2
  let re := addItem0 E re (E.item i.x 0)
  if pos then
    let im := constMul E (E.item i.y 1) p.xpowq
    let e2 := constMul E (E.item i.y 2) p.xpowq2
    let im := im + e2
    ⟨re, addItem0 E im (E.item i.y 0)⟩
  else
    let im := -constMul E (E.item i.y 1) p.xpowq
    let e2 := constMul E (E.item i.y 2) p.xpowq2
    let im := im - e2
    ⟨re, subItem0 E im (E.item i.y 0)⟩

/-- `qpower` of `tatepower10` (`/repo/ecc/g_param.c:485-516`). -/
def qpowerG (p : Data F K) (pos : Bool) (i : El K) : El K :=
  let E := p.E
  let re := constMul E (E.item i.x 1) p.xpowq
  let re := re + constMul E (E.item i.x 2) p.xpowq2
  let re := re + constMul E (E.item i.x 3) p.xpowq3
  let re := re + constMul E (E.item i.x 4) p.xpowq4
  let re := addItem0 E re (E.item i.x 0)
  if pos then
    let im := constMul E (E.item i.y 1) p.xpowq
    let im := im + constMul E (E.item i.y 2) p.xpowq2
    let im := im + constMul E (E.item i.y 3) p.xpowq3
    let im := im + constMul E (E.item i.y 4) p.xpowq4
    ⟨re, addItem0 E im (E.item i.y 0)⟩
  else
    let im := -constMul E (E.item i.y 1) p.xpowq
    let im := im - constMul E (E.item i.y 2) p.xpowq2
    let im := im - constMul E (E.item i.y 3) p.xpowq3
    let im := im - constMul E (E.item i.y 4) p.xpowq4
    ⟨re, subItem0 E im (E.item i.y 0)⟩

/-- The body of `lucas_even` (`/repo/ecc/g_param.c:413-469`, `/repo/ecc/d_param.c:446-502`); its loop
is the one of `lucas_odd` (`/repo/ecc/a_param.c:241-260`). -/
def lucasBody (i : El K) (cofactor : ℕ) : Option (El K) :=
  let t0 : K := ((2 : ℤ) : K)
  let t1 := 2 * i.x
  let v := lucasLoop t0 t1 cofactor (Gen.bits cofactor - 1) (t0, t1)
  let v0 := 2 * v.1
  let in0 := t1 * v.2
  let in0 := in0 - v0
  let t1 := t1 ^ 2
  let t1 := t1 - t0
  let t1 := t1 - t0
  let v0 := v.2 / 2
  match inv? t1 with
  | none => none
  | some t1 =>
    let v1 := in0 * t1
    let v1 := v1 * i.y
    some ⟨v0, v1⟩

/-- `lucas_even` of type D (`/repo/ecc/d_param.c:441-502`). -/
def lucasEven (i : El K) (cofactor : ℕ) : Option (El K) :=
  if Quad.is1 i then some i else lucasBody i cofactor

/-- The first step of the final powering (`/repo/ecc/d_param.c:543-551`,
`/repo/ecc/g_param.c:517-526`). -/
def tateFirst (p : Data F K) (qpower : Bool → El K → El K) (i : El K) : Option (El K) :=
  let e3 := qpower true i
  let e0 : El K := ⟨i.x, -i.y⟩
  let e3 := mul2 p.nqr e3 e0
  let e0 := qpower false i
  let e0 := mul2 p.nqr e0 i
  match invert2 p.nqr e0 with
  | none => none
  | some e0 => some (mul2 p.nqr e3 e0)

/-- `cc_tatepower` (`/repo/ecc/d_param.c:505-564`). -/
def tatepowerD (p : Data F K) (i : El K) : Option (El K) :=
  if p.k = 6 then
    (tateFirst p (qpowerD p) i).bind fun e => lucasEven e p.phikonr
  else pow2 p.nqr i p.tateexp

/-- `tatepower10` (`/repo/ecc/g_param.c:471-536`). -/
def tatepowerG (p : Data F K) (i : El K) : Option (El K) :=
  (tateFirst p (qpowerG p) i).bind fun e => lucasBody e p.phikonr

/-- Map from the twist (`/repo/ecc/d_param.c:579-581`, `/repo/ecc/g_param.c:551-553`). -/
def untwist (p : Data F K) (Q : Pt K) : K × K :=
  let Qx := Q.x * p.nqrinv
  let Qy := Q.y * p.nqrinv2
  (Qx, Qy)

/-- `cc_pairing` (`/repo/ecc/d_param.c:570-587`, `/repo/ecc/g_param.c:541-558`); `miller` is
`cc_miller_no_denom_fn`, `final` the final powering. -/
def pairing (p : Data F K) (miller : Data F K → Pt F → K → K → Option (El K))
    (final : Data F K → El K → Option (El K)) (P : Pt F) (Q : Pt K) : Option (El K) :=
  let q := untwist p Q
  (miller p P q.1 q.2).bind (final p)

/-! ### Preprocessing -/

/-- `store_abc` into the table of `cap` entries; `none` is a write past its end. -/
def store (cap : ℕ) (t : List (Abc F)) (l : Abc F) : Option (List (Abc F)) :=
  if t.length < cap then some (t ++ [l]) else none

/-- The loop of `d_pairing_pp_init` (`/repo/ecc/d_param.c:883-894`) and `g_pairing_pp_init`
(`/repo/ecc/g_param.c:707-716`). -/
def ppLoop (cap : ℕ) (ca : F) (r : ℕ) (P : Pt F) : ℕ → Pt F → List (Abc F) → Option (List (Abc F))
  | 0, Z, t => store cap t (tangentPp ca Z.x Z.y)
  | m + 1, Z, t =>
    match store cap t (tangentPp ca Z.x Z.y) with
    | none => none
    | some t =>
      match dbl ca Z with
      | none => none
      | some Z =>
        if r.testBit (m + 1) then
          match store cap t (line Z.x Z.y P.x P.y) with
          | none => none
          | some t =>
            match add ca Z P with
            | none => none
            | some Z => ppLoop cap ca r P m Z t
        else ppLoop cap ca r P m Z t

/-- `d_pairing_pp_init` (`/repo/ecc/d_param.c:794-902`) and `g_pairing_pp_init`
(`/repo/ecc/g_param.c:619-722`): the table has room for `2 m` entries. -/
def ppInit (p : Data F K) (P : Pt F) : Option (List (Abc F)) :=
  ppLoop (2 * start p.r) p.a p.r P (start p.r) (copy P) []

/-- The loop of `d_pairing_pp_apply` (`/repo/ecc/d_param.c:946-960`) and `g_pairing_pp_apply`
(`/repo/ecc/g_param.c:765-779`); `i` is the position of `pp`, `none` a read past the stored entries. -/
def ppApplyLoop {V : Type*} (r : ℕ) (step : Abc F → V → V) (sq : V → V) (t : List (Abc F)) :
    ℕ → ℕ → V → Option V
  | 0, i, v => (t[i]?).map fun l => step l v
  | m + 1, i, v =>
    match t[i]? with
    | none => none
    | some l =>
      let v := step l v
      if r.testBit (m + 1) then
        match t[i + 1]? with
        | none => none
        | some l => ppApplyLoop r step sq t m (i + 2) (sq (step l v))
      else ppApplyLoop r step sq t m (i + 1) (sq v)

/-- `d_pairing_pp_apply` (`/repo/ecc/d_param.c:921-966`) and `g_pairing_pp_apply`
(`/repo/ecc/g_param.c:741-785`). -/
def ppApply (p : Data F K) (final : Data F K → El K → Option (El K)) (t : List (Abc F)) (Q : Pt K) :
    Option (El K) :=
  let q := untwist p Q
  (ppApplyLoop p.r (fun l v => mul2 p.nqr v (evalfn p.E l q.1 q.2)) (square2 p.nqr) t (start p.r) 0
    one2).bind (final p)

/-- Number of entries `d_pairing_pp_clear` clears (`/repo/ecc/d_param.c:904-919`,
`/repo/ecc/g_param.c:724-739`). -/
def clearCount (r : ℕ) : ℕ :=
  let m := Gen.bits r + ((List.range (Gen.bits r)).filter (r.testBit ·)).length
  if m > 3 then m - 3 else 0

/-! ### Products of pairings

`Z[j]` is element `j` of a store and, where `element_multi_add` reads it, `in1[j]` is element
`n_prod + j`. -/

/-- `do_tangents` (`/repo/ecc/d_param.c:612-637`). -/
def doTangents (p : Data F K) (Z : Curve.Mem F) (Q : ℕ → K × K) : ℕ → El K → El K
  | 0, v => v
  | j + 1, v => mul2 p.nqr (doTangents p Z Q j v)
      (evalfn p.E (tangent p.a (Z j).x (Z j).y) (Q j).1 (Q j).2)

/-- `do_lines` (`/repo/ecc/d_param.c:639-662`). -/
def doLines (p : Data F K) (Z : Curve.Mem F) (P : ℕ → Pt F) (Q : ℕ → K × K) : ℕ → El K → El K
  | 0, v => v
  | j + 1, v => mul2 p.nqr (doLines p Z P Q j v)
      (evalfn p.E (line (Z j).x (Z j).y (P j).x (P j).y) (Q j).1 (Q j).2)

/-- The loop of `cc_millers_no_denom_affine` (`/repo/ecc/d_param.c:684-696`). -/
def prodLoop (p : Data F K) (P : ℕ → Pt F) (Q : ℕ → K × K) (nProd : ℕ) :
    ℕ → Curve.Mem F → El K → Option (El K)
  | 0, Z, v => some (doTangents p Z Q nProd v)
  | m + 1, Z, v =>
    let v := doTangents p Z Q nProd v
    match Curve.multiDouble p.a Z id id nProd with
    | none => none
    | some Z =>
      if p.r.testBit (m + 1) then
        let v := doLines p Z P Q nProd v
        match Curve.multiAdd p.a Z id id (nProd + ·) nProd with
        | none => none
        | some Z => prodLoop p P Q nProd m Z (square2 p.nqr v)
      else prodLoop p P Q nProd m Z (square2 p.nqr v)

/-- `cc_millers_no_denom_affine` (`/repo/ecc/d_param.c:591-707`). -/
def prodMiller (p : Data F K) (P : ℕ → Pt F) (Q : ℕ → K × K) (nProd : ℕ) : Option (El K) :=
  prodLoop p P Q nProd (start p.r) (fun j => if j < nProd then copy (P j) else P (j - nProd)) one2

/-- `cc_pairings_affine` (`/repo/ecc/d_param.c:710-736`). -/
def prodPairings (p : Data F K) (P : ℕ → Pt F) (Q : ℕ → Pt K) (nProd : ℕ) : Option (El K) :=
  (prodMiller p P (fun j => untwist p (Q j)) nProd).bind (tatepowerD p)

/-- `cc_is_almost_coddh` (`/repo/ecc/d_param.c:739-784`, `/repo/ecc/g_param.c:560-605`). -/
def almostCoddh (p : Data F K) (miller : Data F K → Pt F → K → K → Option (El K))
    (final : Data F K → El K → Option (El K)) (a b : Pt F) (c d : Pt K) : Option Bool :=
  match pairing p miller final a d, pairing p miller final b c with
  | some t0, some t1 =>
    let t2 := mul2 p.nqr t0 t1
    if Quad.is1 t2 then some true
    else
      match invert2 p.nqr t1 with
      | none => none
      | some t1 => some (Quad.is1 (mul2 p.nqr t0 t1))
  | _, _ => none

/-! ### Setting up -/

/-- `element_set1(((element_t *) e->data)[1])` of a fresh element (`/repo/ecc/d_param.c:1048`,
`/repo/ecc/g_param.c:1309`). -/
def gen (E : Ext F K) : K := E.make (fun i => if i = 1 then 1 else 0)

/-- What `d_init_pairing` computes (`/repo/ecc/d_param.c:993-1095`) for an even `k`, from the field
`F` of `q` elements, `K` with `d = k / 2`, and the parameters.  `q^k` is the order of `F_q^k`.
Constants the code does not compute for this `k` are 0. -/
def initD (E : Ext F K) (q k r : ℕ) (a b : F) (nqr : F) : Option (Data F K) :=
  let nqr := E.make (fun i => if i = 0 then nqr else 0)
  match inv? nqr with
  | none => none
  | some nqrinv =>
    if k = 6 then
      let z := q * q
      let z := z - q
      let z := z + 1
      let z := z / r
      match Gen.powMpz (gen E) q with
      | none => none
      | some e => some ⟨E, a, b, nqr, nqrinv, nqrinv ^ 2, k, r, e, e ^ 2, 0, 0, z, 0⟩
    else some ⟨E, a, b, nqr, nqrinv, nqrinv ^ 2, k, r, 0, 0, 0, 0, 0, (q ^ k - 1) / r⟩

/-- What `g_init_pairing` computes (`/repo/ecc/g_param.c:1248-1354`); the intermediate values of
`phikonr` may be negative. -/
def initG (E : Ext F K) (q r : ℕ) (a b : F) (nqr : F) : Option (Data F K) :=
  let nqr := E.make (fun i => if i = 0 then nqr else 0)
  match inv? nqr with
  | none => none
  | some nqrinv =>
    let z : ℤ := 1
    let z := z - q
    let z0 : ℤ := q * q
    let z := z + z0
    let z0 := z0 * q
    let z := z - z0
    let z0 := z0 * q
    let z := z + z0
    let z := z.toNat / r
    match Gen.powMpz (gen E) q with
    | none => none
    | some e =>
      let e2 := e ^ 2
      let e4 := e2 ^ 2
      let e3 := e2 * e
      some ⟨E, a, b, nqr, nqrinv, nqrinv ^ 2, 10, r, e, e2, e3, e4, z, 0⟩

/-! ### The functions the user calls -/

/-- `pairing_apply` and `element_pairing` (`/repo/include/pbc_pairing.h:118-146`). -/
def apply (map : Pt F → Pt K → Option (El K)) (P : Pt F) (Q : Pt K) : Option (El K) :=
  if P.inf then some one2
  else if Q.inf then some one2
  else map P Q

/-- `pairing_pp_init` (`/repo/include/pbc_pairing.h:54-61`); `some none` is a null `p->pairing`. -/
def applyInit {T : Type*} (init : Pt F → Option T) (P : Pt F) : Option (Option T) :=
  if P.inf then some none else (init P).map some

/-- `pairing_pp_apply` (`/repo/include/pbc_pairing.h:79-89`). -/
def applyPp {T : Type*} (app : T → Pt K → Option (El K)) (p : Option T) (Q : Pt K) : Option (El K) :=
  match p with
  | none => some one2
  | some p => if Q.inf then some one2 else app p Q

/-- The checks of `element_prod_pairing` (`/repo/include/pbc_pairing.h:158-169`). -/
def anyZero (P : ℕ → Pt F) (Q : ℕ → Pt K) : ℕ → Bool
  | 0 => false
  | n + 1 => anyZero P Q n || (P n).inf || (Q n).inf

/-- `element_prod_pairing` (`/repo/include/pbc_pairing.h:153-171`). -/
def prodPairing (map : (ℕ → Pt F) → (ℕ → Pt K) → ℕ → Option (El K)) (P : ℕ → Pt F) (Q : ℕ → Pt K)
    (n : ℕ) : Option (El K) :=
  if anyZero P Q n then some one2 else map P Q n

/-- `generic_prod_pairings` (`/repo/ecc/pairing.c:35-46`), used by type G. -/
def genericProd (v : K) (map : Pt F → Pt K → Option (El K)) (P : ℕ → Pt F) (Q : ℕ → Pt K) :
    ℕ → Option (El K)
  | 0 => none
  | 1 => map (P 0) (Q 0)
  | n + 2 =>
    match genericProd v map P Q (n + 1), map (P (n + 1)) (Q (n + 1)) with
    | some out, some tmp => some (mul2 v out tmp)
    | _, _ => none

end pairing

/-- The exponent with which points of the twist are compared, for type D with `d = k / 2`
(`/repo/ecc/d_param.c:1060-1070`) and type G with `d = 5` (`/repo/ecc/g_param.c:1327-1337`); the argument of
`field_curve_set_quotient_cmp`.  Also whether the `mpz_divexact` was exact, as GMP requires. -/
def quotient (q n r : ℤ) (d : ℕ) : ℤ × Bool :=
  let ndonr := q - n
  let ndonr := ndonr + 1
  let ndonr := -ndonr
  let ndonr := Curve.orderExtn q ndonr d
  (ndonr / r, decide (ndonr % r = 0))

end Pbc.PairingD
