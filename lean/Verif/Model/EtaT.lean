import Verif.Model.Ternary
import Verif.Model.Curve
import Mathlib.Algebra.QuadraticAlgebra.Basic

/-!
# `/repo/ecc/eta_T_3.c`: the type I pairing

Points of `Y² = X³ - X + 1` over `GF(3^m)` and the reduced `η_T` pairing.  The base field is a
Mathlib field `F` (of characteristic 3 in the theorems); `gf3m_cubic` is `x ^ 3`; inverting 0 is
`none`.  Elements of the field of `3^(6m)` elements are `E3 (E2 F)`, with the multiplication and
cubing routines of `/repo/arith/ternary_extension_field.c` (`Model/Ternary.lean`).
-/

set_option autoImplicit false

namespace Pbc.Ternary

variable {K : Type*} [CommRing K]

/-! `gf33m` over `gf32m` calls the routines of `gf32m`; they make `E2 K` a ring. -/

instance : Zero (E2 K) := ⟨⟨0, 0⟩⟩
instance : One (E2 K) := ⟨E2.one⟩
instance : Add (E2 K) := ⟨E2.add⟩
instance : Sub (E2 K) := ⟨E2.sub⟩
instance : Neg (E2 K) := ⟨E2.neg⟩
instance : Mul (E2 K) := ⟨E2.mul⟩
instance : SMul ℕ (E2 K) := ⟨fun n a => ⟨n • a.c0, n • a.c1⟩⟩
instance : SMul ℤ (E2 K) := ⟨fun n a => ⟨n • a.c0, n • a.c1⟩⟩
instance : NatCast (E2 K) := ⟨fun n => ⟨n, 0⟩⟩
instance : IntCast (E2 K) := ⟨fun n => ⟨n, 0⟩⟩
instance : Pow (E2 K) ℕ := ⟨fun a n => npowRec n a⟩

/-- The same element in Mathlib's algebra of the pairs `x + y i`, `i² = -1`. -/
def E2.alg (a : E2 K) : QuadraticAlgebra K (-1) 0 := ⟨a.c0, a.c1⟩

theorem E2.alg_injective : Function.Injective (E2.alg : E2 K → _) := by
  rintro ⟨a, b⟩ ⟨c, d⟩ h
  simpa [E2.alg, QuadraticAlgebra.ext_iff] using h

theorem E2.alg_mul (a b : E2 K) : (a * b).alg = a.alg * b.alg := by
  show (E2.mul a b).alg = _
  ext <;> simp [E2.alg, E2.mul] <;> ring

theorem E2.alg_pow (a : E2 K) (n : ℕ) : (a ^ n).alg = a.alg ^ n := by
  induction n with
  | zero => rw [pow_zero]; rfl
  | succ n ih =>
    show (npowRec n a * a).alg = _
    rw [E2.alg_mul, pow_succ, ← ih]
    rfl

instance : CommRing (E2 K) :=
  Function.Injective.commRing E2.alg E2.alg_injective rfl rfl (fun _ _ => rfl) E2.alg_mul (fun _ => rfl)
    (fun _ _ => rfl)
    (fun n a => by
      show E2.alg ⟨n • a.c0, n • a.c1⟩ = _
      ext <;> simp [E2.alg])
    (fun n a => by
      show E2.alg ⟨n • a.c0, n • a.c1⟩ = _
      ext <;> simp [E2.alg])
    E2.alg_pow
    (fun n => by
      show E2.alg ⟨(n : K), 0⟩ = _
      ext <;> simp [E2.alg])
    (fun n => by
      show E2.alg ⟨(n : K), 0⟩ = _
      ext <;> simp [E2.alg])

end Pbc.Ternary

namespace Pbc.EtaT

open Pbc.Curve (Pt Mem wInf wX wY fresh)
open Pbc.Quad (inv?)
open Pbc.Ternary (E2 E3)

variable {F : Type*} [Field F] [DecidableEq F]

/-! ### Points -/

/-- `point_set` (`/repo/ecc/eta_T_3.c:44-51`). -/
def set (m : Mem F) (e a : ℕ) : Mem F :=
  let inf := (m a).inf
  let m := wInf m e inf
  if inf then m
  else
    let m := wX m e (m a).x
    wY m e (m a).y

/-- `point_cmp` (`/repo/ecc/eta_T_3.c:69-79`); `true` means different. -/
def cmp (p q : Pt F) : Bool :=
  if p.inf = q.inf then
    if p.inf then false else decide (p.x ≠ q.x) || decide (p.y ≠ q.y)
  else true

/-- `point_is0`, also `is1` (`/repo/ecc/eta_T_3.c:85-87`). -/
def is0 (p : Pt F) : Bool := p.inf

/-- Doubling (`/repo/ecc/eta_T_3.c:147-153`). -/
def addSame (m : Mem F) (c a : ℕ) : Option (Mem F) :=
  match inv? (m a).y with
  | none => none
  | some v0 =>
    let v1 := v0 * v0
    let m := wX m c (v1 + (m a).x)
    let v2 := v0 ^ 3
    let v2 := v2 + (m a).y
    let m := wY m c (-v2)
    some (wInf m c false)

/-- Addition of different points (`/repo/ecc/eta_T_3.c:157-170`). -/
def addDiff (m : Mem F) (c a b : ℕ) : Option (Mem F) :=
  let v0 := (m b).x - (m a).x
  match inv? v0 with
  | none => none
  | some v1 =>
    let v0 := (m b).y - (m a).y
    let v2 := v0 * v1
    let v3 := v2 * v2
    let v4 := v2 ^ 3
    let v0 := (m a).x + (m b).x
    let v3 := v3 - v0
    let v0 := (m a).y + (m b).y
    let v4 := v0 - v4
    let m := wInf m c false
    let m := wX m c v3
    some (wY m c v4)

/-- `point_add` (`/repo/ecc/eta_T_3.c:120-177`). -/
def add (m : Mem F) (c a b : ℕ) : Option (Mem F) :=
  if (m a).inf then some (set m c b)
  else if (m b).inf then some (set m c a)
  else if (m a).x = (m b).x then
    let ny2 := -(m b).y
    if (m a).y = ny2 then some (wInf m c true)
    else if (m a).y = (m b).y then addSame m c a
    else addDiff m c a b
  else addDiff m c a b

/-- `point_invert` (`/repo/ecc/eta_T_3.c:179-186`). -/
def invert (m : Mem F) (e a : ℕ) : Mem F :=
  let inf := (m a).inf
  let m := wInf m e inf
  if inf then m
  else
    let m := wX m e (m a).x
    wY m e (-(m a).y)

/-- `generic_double` (`/repo/arith/field.c:402-404`), which is what `field_init_eta_T_3`
(`/repo/ecc/eta_T_3.c:204-220`) leaves in place. -/
def double (m : Mem F) (c a : ℕ) : Option (Mem F) := add m c a a

/-- `generic_sub` (`/repo/arith/field.c:445-456`); `t` is the temporary. -/
def sub (t : ℕ) (m : Mem F) (c a b : ℕ) : Option (Mem F) :=
  if c ≠ a then
    let m := invert m c b
    add m c c a
  else
    let m := invert m t b
    add m c t a

/-- `point_add` as a function of values, for the generic power routine whose operands and results
are private temporaries. -/
def addV (p q : Pt F) : Option (Pt F) :=
  (add (fun i => if i = 1 then p else if i = 2 then q else fresh) 0 1 2).map (· 0)

/-- Points with the operations the generic power routine calls; `none` is a failed inversion. -/
structure GPt (F : Type*) where
  val : Option (Pt F)

instance : Mul (GPt F) := ⟨fun p q => ⟨p.val.bind fun p => q.val.bind fun q => addV p q⟩⟩
instance : One (GPt F) := ⟨⟨some fresh⟩⟩
/-- `generic_square` (`/repo/arith/field.c:383-385`). -/
instance : Gen.Sqr (GPt F) := ⟨fun p => ⟨p.val.bind fun p => addV p p⟩⟩

/-- `point_set` from an element outside the store (a temporary). -/
def setFrom (m : Mem F) (e : ℕ) (p : Pt F) : Mem F :=
  let m := wInf m e p.inf
  if p.inf then m
  else
    let m := wX m e p.x
    wY m e p.y

/-- `element_mul_mpz` is `element_pow_mpz` (`/repo/ecc/eta_T_3.c:216`,
`/repo/arith/field.c:113-126`). -/
def mulMpz (m : Mem F) (c a n : ℕ) : Option (Mem F) :=
  ((Gen.powMpz (⟨some (m a)⟩ : GPt F) n).bind (·.val)).map (setFrom m c)

/-- The loop of `point_random` (`/repo/ecc/eta_T_3.c:99-108`) on the list of the values that
`element_random` delivers, with the square root routine of the base field.  `continue` jumps to the
test of the loop.  `none`: all values used up. -/
def randLoop (sqrt : F → F) : List F → F → F → F → Option (F × F)
  | [], _, _, _ => none
  | x :: draws, t, t2, y =>
    if x = 0 then
      if t2 = t then some (x, y) else randLoop sqrt draws t t2 y
    else
      let t := x ^ 3
      let t := t - x
      let t := t + 1
      let y := sqrt t
      let t2 := y * y
      if t2 = t then some (x, y) else randLoop sqrt draws t t2 y

/-- `point_random` (`/repo/ecc/eta_T_3.c:89-118`): `old` is the element before the call, `n2` the
cofactor. -/
def random (sqrt : F → F) (n2 : ℕ) (draws : List F) (old : Pt F) : Option (Pt F) :=
  match randLoop sqrt draws 0 0 old.y with
  | none => none
  | some (x, y) => (Gen.powMpz (⟨some ⟨false, x, y⟩⟩ : GPt F) n2).bind (·.val)

/-! ### The field of `3^(6m)` elements -/

/-- `gf33m_cubic` (`/repo/arith/ternary_extension_field.c:838-861`) over `gf32m`, whose cube is
`gf32m_cubic`. -/
def cubic (a : E3 (E2 F)) : E3 (E2 F) :=
  let a03 := a.c0.cubic
  let a13 := a.c1.cubic
  let a23 := a.c2.cubic
  let a03 := a03 + a13
  let a03 := a03 + a23
  let c0 := a03
  let a13 := a13 - a23
  ⟨c0, a13, a23⟩

/-! ### The Miller loop -/

/-- `algorithm4a` (`/repo/ecc/eta_T_3.c:222-258`). -/
def alg4a (t u : F) : E3 (E2 F) :=
  let c0 := t ^ 3
  let c1 := u ^ 3
  let c1 := -c1
  let m0 := c0 * c0
  let v0 := -m0
  let v0 := v0 - c0
  let v0 := v0 - 1
  let v2 := 1 - c0
  ⟨⟨v0, c1⟩, ⟨v2, 0⟩, ⟨-1, 0⟩⟩

/-- The element `-t² + u σ - t ρ - ρ²` as `algorithm4` and `algorithm5` build it
(`/repo/ecc/eta_T_3.c:319-323`, `345-354`, `437-441`, `453-460`). -/
def quadratic (t u : F) : E3 (E2 F) :=
  let nt := -t
  let nt2 := t * nt
  ⟨⟨nt2, u⟩, ⟨nt, 0⟩, ⟨-1, 0⟩⟩

/-- The local variables of the loops that change: `xq`, `yq`, `R`. -/
structure St (F : Type*) where
  xq : F
  yq : F
  R : E3 (E2 F)

/-- `yp` after `/repo/ecc/eta_T_3.c:287-290` and `405-408`. -/
def signY (m : ℕ) (yp : F) : F := if m % 12 = 1 ∨ m % 12 = 11 then -yp else yp

/-- The first line (`/repo/ecc/eta_T_3.c:301-318`, `419-436`); fresh elements are zero. -/
def firstLine (m : ℕ) (yp t yq : F) : E3 (E2 F) :=
  let v1 := yp * t
  if m % 12 = 7 ∨ m % 12 = 11 then
    let nyp := -yp
    let nyq := -yq
    ⟨⟨v1, nyq⟩, ⟨nyp, 0⟩, ⟨0, 0⟩⟩
  else
    let v1 := -v1
    ⟨⟨v1, yq⟩, ⟨yp, 0⟩, ⟨0, 0⟩⟩

/-- What precedes the loop in `algorithm4` and `algorithm5` (`/repo/ecc/eta_T_3.c:283-324`,
`401-442`); `xp` is already incremented and `yp` has its sign. -/
def start (m : ℕ) (xp yp xq yq : F) : St F :=
  let xq := xq ^ 3
  let yq := yq ^ 3
  let t := xp + xq
  let v2 := yp * yq
  let a1 := firstLine m yp t yq
  let a2 := quadratic t v2
  ⟨xq, yq, a1.mul a2⟩

/-- Body of the loop of `algorithm4` (`/repo/ecc/eta_T_3.c:444-462`). -/
def step4 (xp yp : F) (s : St F) : St F :=
  let R := cubic s.R
  let xq := s.xq ^ 3
  let xq := xq ^ 3
  let xq := xq - 1
  let yq := s.yq ^ 3
  let yq := yq ^ 3
  let yq := -yq
  let t := xp + xq
  let u := yp * yq
  let S := quadratic t u
  ⟨xq, yq, R.mul S⟩

/-- `algorithm4` (`/repo/ecc/eta_T_3.c:378-479`). -/
def alg4 (m : ℕ) (xp yp xq yq : F) : E3 (E2 F) :=
  let xp := xp + 1
  let yp := signY m yp
  ((step4 xp yp)^[(m - 1) / 2] (start m xp yp xq yq)).R

/-- Body of the loop of `algorithm5` (`/repo/ecc/eta_T_3.c:326-357`). -/
def step5 (xp yp : F) (s : St F) : St F :=
  let R := cubic s.R
  let R := cubic R
  let xq := s.xq ^ 3
  let xq := xq ^ 3
  let xq := xq - 1
  let yq := s.yq ^ 3
  let yq := yq ^ 3
  let t := xp + xq
  let u := yp * yq
  let nu := -u
  let S := alg4a t nu
  let xq := xq ^ 3
  let xq := xq ^ 3
  let xq := xq - 1
  let yq := yq ^ 3
  let yq := yq ^ 3
  let t := xp + xq
  let u := yp * yq
  let S2 := quadratic t u
  let S := S.mul S2
  ⟨xq, yq, R.mul S⟩

/-- `algorithm5` (`/repo/ecc/eta_T_3.c:260-376`). -/
def alg5 (m : ℕ) (xp yp xq yq : F) : E3 (E2 F) :=
  let xp := xp + 1
  let yp := signY m yp
  ((step5 xp yp)^[(m - 1) / 4] (start m xp yp xq yq)).R

/-! ### The final powering -/

/-- `algorithm6` (`/repo/ecc/eta_T_3.c:481-527`).  Inverting 0 in the cubic extension ends in
inverting 0 in the base: `none`. -/
def alg6 (u : E3 (E2 F)) : Option (E3 (E2 F)) :=
  let v0 : E3 F := ⟨u.c0.c0, u.c1.c0, u.c2.c0⟩
  let v1 : E3 F := ⟨u.c0.c1, u.c1.c1, u.c2.c1⟩
  let m0 := v0.mul v0
  let m1 := v1.mul v1
  let m2 := v0.mul v1
  let a0 := m0.sub m1
  let a1 := m0.add m1
  if a1.c0 = 0 ∧ a1.c1 = 0 ∧ a1.c2 = 0 then none
  else
    let i := a1.invert fun x => x⁻¹
    let v0 := a0.mul i
    let v1 := m2.mul i
    some ⟨⟨v0.c0, v1.c0⟩, ⟨v0.c1, v1.c1⟩, ⟨v0.c2, v1.c2⟩⟩

/-- `algorithm7` (`/repo/ecc/eta_T_3.c:529-636`). -/
def alg7 (m : ℕ) (u : E3 (E2 F)) : E3 (E2 F) :=
  let u0 := u.c0.c0
  let u1 := u.c0.c1
  let u2 := u.c1.c0
  let u3 := u.c1.c1
  let u4 := u.c2.c0
  let u5 := u.c2.c1
  let a0 := u0 + u1
  let a1 := u2 + u3
  let a2 := u4 - u5
  let m0 := u0 * u4
  let m1 := u1 * u5
  let m2 := u2 * u4
  let m3 := u3 * u5
  let m4 := a0 * a2
  let m5 := u1 * u2
  let m6 := u0 * u3
  let m7 := a0 * a1
  let m8 := a1 * a2
  let a3 := m5 + m6
  let a3 := a3 - m7
  let a4 := -m2
  let a4 := a4 - m3
  let a5 := m3 - m2
  let a6 := m1 - m0
  let a6 := a6 + m4
  if m % 6 = 1 then
    let v0 := m0 + m1
    let v0 := v0 + a4
    let v0 := 1 + v0
    let v1 := m5 - m6
    let v1 := v1 + a6
    let v2 := a4 - a3
    let v3 := m8 + a5
    let v3 := v3 - a6
    let v4 := a3 + a4
    let v4 := -v4
    let v5 := m8 + a5
    ⟨⟨v0, v1⟩, ⟨v2, v3⟩, ⟨v4, v5⟩⟩
  else
    let v0 := m0 + m1
    let v0 := v0 - a4
    let v0 := 1 + v0
    let v1 := m6 - m5
    let v1 := v1 + a6
    let v2 := a3
    let v3 := m8 + a5
    let v3 := v3 + a6
    let v4 := a3 + a4
    let v4 := -v4
    let v5 := m8 + a5
    let v5 := -v5
    ⟨⟨v0, v1⟩, ⟨v2, v3⟩, ⟨v4, v5⟩⟩

/-- `w <= w^{-μ b}` (`/repo/ecc/eta_T_3.c:653-661`). -/
def conjIf (m : ℕ) (w : E3 (E2 F)) : E3 (E2 F) :=
  if m % 12 = 1 ∨ m % 12 = 11 then
    ⟨⟨w.c0.c0, -w.c0.c1⟩, ⟨w.c1.c0, -w.c1.c1⟩, ⟨w.c2.c0, -w.c2.c1⟩⟩
  else w

/-- `algorithm8` (`/repo/ecc/eta_T_3.c:638-665`). -/
def alg8 (m : ℕ) (u : E3 (E2 F)) : Option (E3 (E2 F)) :=
  match alg6 u with
  | none => none
  | some v =>
    let v := alg7 m v
    let w := cubic^[(m + 1) / 2] v
    let v := alg7 m v
    let w := conjIf m w
    some (v.mul w)

/-- `eta_T_pairing` (`/repo/ecc/eta_T_3.c:667-681`). -/
def pairing (m : ℕ) (P R : Pt F) : Option (E3 (E2 F)) :=
  if P.inf || R.inf then some E3.one
  else
    let c := if (m - 1) / 2 % 2 = 0 then alg5 m P.x P.y R.x R.y else alg4 m P.x P.y R.x R.y
    alg8 m c

/-! ### Parameters -/

/-- `params` (`/repo/ecc/eta_T_3.c:14-21`): degree, middle exponent, group order, cofactor. -/
structure Params where
  m : ℕ
  t : ℕ
  n : ℕ
  n2 : ℕ

/-- `pbc_param_init_i_gen` (`/repo/ecc/eta_T_3.c:769-834`); `none` is `pbc_die`. -/
def paramGen (size : ℤ) : Option Params :=
  if size ≤ 150 then some ⟨97, 12, 2726865189058261010774960798134976187171462721, 7⟩
  else if size ≤ 206 then some ⟨199, 164,
    167725321489096000055336949742738378351010268990525380470313869, 527874953560391326545598291952743⟩
  else if size ≤ 259 then some ⟨235, 26,
    1124316700897695330265827797088699345032488681307846555184025129863722718180241,
    11819693021332914275777073321995059⟩
  else if size ≤ 316 then some ⟨385, 22,
    140884762419712839999909157778648717913595360839856026704744558309545986970238264714753014287541,
    34899486997246711147841377458771182755186809219564106252058066150110543296498189654810187⟩
  else if size ≤ 376 then some ⟨337, 30,
    250796519030408069744426774377542635685621984993105288007781750196791322190409525696108840742205849171229571431053,
    245777055088325363697128811262733732423405120899⟩
  else if size ≤ 430 then some ⟨373, 198,
    2840685307599487500956683789051368080919805957805957356540760731597378326586402072132959867084691357708217739285576524329854284197,
    3256903458766749542151641063558247849550904613763⟩
  else if size ≤ 484 then some ⟨395, 338,
    80172097064154181257340545445945701478615643539554910656655431171167598268341527430200810544156625333601812351266052856520678455274751591367269291,
    3621365590261279902324876775553649595261567⟩
  else if size ≤ 552 then some ⟨433, 120,
    15699907553631673835088720676147779193076555382157913339177784853763686462870506492752576492212322736133645158157557950634628006965882177348385366381692092784577773463,
    24980791723059119877470531054938874784049⟩
  else if size ≤ 644 then some ⟨467, 48,
    108220469499363631995525712756135494735252733492048868417164002000654321383482753640072319529019505742300964525569770933946381504691909098938045089999753901375631613294579329433690943459352138231,
    60438898450096967424971813347⟩
  else if size ≤ 696 then some ⟨503, 104,
    545523657676112447260904563578912738373307867219686215849632469801471112426878939776725222290437653718473962733760874627315930933126581248465899651120481066111839081575164964589811985885719017214938514563804313,
    1799606423432800810122901025413⟩
  else if size ≤ 803 then some ⟨509, 358,
    102239946202586852409809887418093021457150612495255706614733003327526279081563687830782748305746187060264985869283524441819589592750998086186315250781067131293823177124077445718802216415539934838376431091001197641295264650596195201747790167311,
    7⟩
  else if size ≤ 892 then some ⟨617, 88,
    57591959284219511220590893724691916802833742568034971006633345422620650391172287893878655658086794200963521584019889327992536532560877385225451713282279597074750857647455565899702728629166541223955196002755787520206774906606158388947359746178875040401304783332742806641,
    42019638181715250622338241⟩
  else none

end Pbc.EtaT
