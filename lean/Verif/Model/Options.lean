import Verif.Model.EllNet

/-!
# Setting up pairings and choosing their methods

`pairing_init_pbc_param` and `default_option_set` (`/repo/ecc/pairing.c:55-86`), the `…_init_pairing` and
`…_option_set` functions of all types, and the inline functions `pairing_pp_init`, `pairing_pp_apply` and
`pairing_apply` (`/repo/include/pbc_pairing.h:56-137`), as a state machine over any number of pairings.

The state holds, for each pairing, the function pointers that options can change, and the three static
function pointers shared by all pairings of types D, G and E.  What the functions pointed to compute is in
the models of the types; here they are names.
-/

set_option autoImplicit false

namespace Pbc.Options

/-- The types of pairings (`/repo/ecc/param.c:118-131`). -/
inductive Ty | a | a1 | d | e | f | g | i
  deriving DecidableEq

/-- The two Miller routines a shared variable can point to. -/
inductive Mil | proj | affine
  deriving DecidableEq

/-- What `pairing->map` can point to: `a_pairing_proj`, `a_pairing_affine`, `a1_pairing_proj`, `a1_pairing`,
`a_pairing_ellnet`, `cc_pairing` of `d_param.c` and of `g_param.c`, `g_pairing_ellnet`, `e_pairing`,
`e_pairing_ellnet`, `f_pairing`, `eta_T_pairing`. -/
inductive Map | aProj | aAffine | a1Proj | a1Affine | aNet | dCc | gCc | gNet | eMiller | eNet | fMap | iMap
  deriving DecidableEq

/-- What `pairing->pp_init`, `pp_clear` and `pp_apply` can point to; the three are always set together. -/
inductive Pp | dflt | a | a1 | net | d | g
  deriving DecidableEq

/-- The pointers of a `pairing_t` that options can change, and its type, which fixes `option_set`. -/
structure Pairing where
  ty : Ty
  map : Map
  pp : Pp

/-- A `pairing_pp_t`: the pairing it was made for, or `none` (the null pointer) if it was made from `O`;
which `pp_init` made its data; and from which element. -/
structure PpObj (X : Type*) where
  pairing : Option ℕ
  made : Pp
  elem : X

/-- `cc_miller_no_denom_fn` of `/repo/ecc/d_param.c:424-425` and of `/repo/ecc/g_param.c`, `e_miller_fn` of
`/repo/ecc/e_param.c`, the pairings and the preprocessed objects. -/
structure World (X : Type*) where
  dFn : Mil
  gFn : Mil
  eFn : Mil
  pairings : ℕ → Option Pairing
  pps : ℕ → Option (PpObj X)

variable {X : Type*}

/-- `pairing->map` after initialisation (`/repo/ecc/a_param.c:1443, 2263`, `d_param.c:1006`, `g_param.c:1258`,
`e_param.c:840`, `f_param.c:405`, `eta_T_3.c:733`). -/
def firstMap : Ty → Map
  | .a => .aProj
  | .a1 => .a1Proj
  | .d => .dCc
  | .e => .eMiller
  | .f => .fMap
  | .g => .gCc
  | .i => .iMap

/-- The preprocessing routines after initialisation: the defaults of `/repo/ecc/pairing.c:76-78` unless the
type has its own (`/repo/ecc/a_param.c:1469-1471, 2269-2271`, `d_param.c:1087-1089`, `g_param.c:1346-1348`). -/
def firstPp : Ty → Pp
  | .a => .a
  | .a1 => .a1
  | .d => .d
  | .g => .g
  | _ => .dflt

/-- `pairing_init_pbc_param` on pairing `i`: besides the pairing itself, types D, G and E set their shared
variable (`/repo/ecc/d_param.c:1085`, `g_param.c:1344`, `e_param.c:841`). -/
def setUp (w : World X) (i : ℕ) (ty : Ty) : World X :=
  let w := { w with pairings := Function.update w.pairings i (some ⟨ty, firstMap ty, firstPp ty⟩) }
  match ty with
  | .d => { w with dFn := .affine }
  | .g => { w with gFn := .affine }
  | .e => { w with eFn := .proj }
  | _ => w

/-- Changing the pointers of pairing `i`. -/
def put (w : World X) (i : ℕ) (p : Pairing) : World X :=
  { w with pairings := Function.update w.pairings i (some p) }

/-- `a_pairing_option_set` with key `method` (`/repo/ecc/a_param.c:1399-1418`). -/
def optionA (w : World X) (i : ℕ) (value : String) : World X :=
  if value = "miller" then put w i ⟨.a, .aProj, .a⟩
  else if value = "miller-affine" then put w i ⟨.a, .aAffine, .a⟩
  else if value = "shipsey-stange" then put w i ⟨.a, .aNet, .net⟩
  else w

/-- `a1_pairing_option_set` (`/repo/ecc/a_param.c:2209-2228`). -/
def optionA1 (w : World X) (i : ℕ) (value : String) : World X :=
  if value = "miller" then put w i ⟨.a1, .a1Proj, .a1⟩
  else if value = "miller-affine" then put w i ⟨.a1, .a1Affine, .a1⟩
  else if value = "shipsey-stange" then put w i ⟨.a1, .aNet, .net⟩
  else w

/-- `d_pairing_option_set` (`/repo/ecc/d_param.c:427-436`): the pairing is not used. -/
def optionD (w : World X) (value : String) : World X :=
  if value = "miller" then { w with dFn := .proj }
  else if value = "miller-affine" then { w with dFn := .affine }
  else w

/-- `g_pairing_option_set` (`/repo/ecc/g_param.c:1149-1160`): the first two values do not set `map`. -/
def optionG (w : World X) (i : ℕ) (p : Pairing) (value : String) : World X :=
  if value = "miller" then { w with gFn := .proj }
  else if value = "miller-affine" then { w with gFn := .affine }
  else if value = "shipsey-stange" then put w i { p with map := .gNet }
  else w

/-- `e_pairing_option_set` (`/repo/ecc/e_param.c:799-813`). -/
def optionE (w : World X) (i : ℕ) (p : Pairing) (value : String) : World X :=
  if value = "miller" then put { w with eFn := .proj } i { p with map := .eMiller }
  else if value = "miller-affine" then put { w with eFn := .affine } i { p with map := .eMiller }
  else if value = "shipsey-stange" then put w i { p with map := .eNet }
  else w

/-- `pairing_option_set(pairing, key, value)` (`/repo/include/pbc_pairing.h:286-288`): every type compares the
key with `method`, types F and I ignore all (`/repo/ecc/pairing.c:55-59`).  A pairing that was never set up:
nothing (in C: a jump through an uninitialised pointer). -/
def optionSet (w : World X) (i : ℕ) (key value : String) : World X :=
  match w.pairings i with
  | none => w
  | some p =>
    if key = "method" then
      match p.ty with
      | .a => optionA w i value
      | .a1 => optionA1 w i value
      | .d => optionD w value
      | .e => optionE w i p value
      | .g => optionG w i p value
      | .f => w
      | .i => w
    else w

/-- `pairing_pp_init(p, in1, pairing)` for object `j` (`/repo/include/pbc_pairing.h:56-63`). -/
def ppInit (is0 : X → Bool) (w : World X) (j i : ℕ) (x : X) : World X :=
  match w.pairings i with
  | none => w
  | some p =>
    { w with pps := Function.update w.pps j (some (if is0 x then ⟨none, .dflt, x⟩ else ⟨some i, p.pp, x⟩)) }

/-- What a program does. -/
inductive Op (X : Type*)
  | init (i : ℕ) (ty : Ty)
  | option (i : ℕ) (key value : String)
  | ppInit (j i : ℕ) (x : X)

/-- Its effect. -/
def step (is0 : X → Bool) (w : World X) : Op X → World X
  | .init i ty => setUp w i ty
  | .option i k v => optionSet w i k v
  | .ppInit j i x => ppInit is0 w j i x

/-- A whole program. -/
def run (is0 : X → Bool) (w : World X) (l : List (Op X)) : World X := l.foldl (step is0) w

/-- The routine a call of `pairing->map` ends in, with the shared variable resolved at the time of the call
(`cc_pairing`, `/repo/ecc/d_param.c:570-588`; `e_pairing`, `/repo/ecc/e_param.c:472-482`). -/
inductive Routine | map (m : Map) | d (m : Mil) | g (m : Mil) | e (m : Mil)
  deriving DecidableEq

/-- The routine that `pairing_apply` on pairing `i` runs now. -/
def direct (w : World X) (i : ℕ) : Option Routine :=
  (w.pairings i).map fun p => match p.map with
    | .dCc => .d w.dFn
    | .gCc => .g w.gFn
    | .eMiller => .e w.eFn
    | m => .map m

/-- What `pairing_pp_apply` does with object `j` now (`/repo/include/pbc_pairing.h:81-91`): it calls the
`pp_apply` that the pairing has *now*.  If this is not the one belonging to the `pp_init` that made the data,
the data are read as something else: `none`.  Otherwise: which routines, and from which element. -/
def prepared (w : World X) (j : ℕ) : Option (PpObj X) :=
  match w.pps j with
  | none => none
  | some o => match o.pairing with
    | none => some o
    | some i => match w.pairings i with
      | none => none
      | some p => if p.pp = o.made then some o else none

/-- Before anything is set up. -/
def World.empty : World X := ⟨.proj, .proj, .proj, fun _ => none, fun _ => none⟩

open Pbc.Curve (Pt)
open Pbc.Quad (El)

section
variable {K : Type*} [Field K] [DecidableEq K]

/-- `pairing->map` for a pairing of type A with given parameters (`/repo/ecc/a_param.c`). -/
def mapA (inv : K → K) (p : PairingA.Params) (r : ℕ) : Routine → Pt K → Pt K → Option (El K)
  | .map .aProj => PairingA.pairingProj inv p
  | .map .aAffine => PairingA.pairingAffine inv p
  | .map .aNet => EllNet.pairingA inv r p.h
  | _ => fun _ _ => none

/-- `pairing->map` for a pairing of type A1. -/
def mapA1 (inv : K → K) (r l : ℕ) : Routine → Pt K → Pt K → Option (El K)
  | .map .a1Proj => PairingA.a1PairingProj r l
  | .map .a1Affine => PairingA.a1PairingAffine r l
  | .map .aNet => EllNet.pairingA inv r l
  | _ => fun _ _ => none

/-- `pairing_pp_apply` on an object of a pairing of type A: the data, computed when it was made, and their use. -/
def ppA (inv : K → K) (p : PairingA.Params) (r : ℕ) (o : PpObj (Pt K)) (Q : Pt K) : Option (El K) :=
  match o.pairing with
  | none => some PairingA.one2
  | some _ => match o.made with
    | .a => (PairingA.pairingPpInit (PairingA.ppInit p) o.elem).bind
        fun t => PairingA.pairingPpApply (PairingA.ppApply inv p) t Q
    | .net => (PairingA.pairingPpInit (EllNet.ppInitA r) o.elem).bind
        fun t => PairingA.pairingPpApply (EllNet.ppApplyA inv r p.h) t Q
    | _ => none

end

section
variable {F K : Type*} [Field F] [Field K] [DecidableEq F] [DecidableEq K]

/-- The Miller routine of types D and G. -/
def millerDG : Mil → PairingD.Data F K → Pt F → K → K → Option (El K)
  | .proj => PairingD.millerProj
  | .affine => PairingD.millerAffine

/-- `pairing->map` for a pairing of type D. -/
def mapD (p : PairingD.Data F K) : Routine → Pt F → Pt K → Option (El K)
  | .d m => PairingD.pairing p (millerDG m) PairingD.tatepowerD
  | _ => fun _ _ => none

/-- `pairing->map` for a pairing of type G. -/
def mapG (p : PairingD.Data F K) : Routine → Pt F → Pt K → Option (El K)
  | .g m => PairingD.pairing p (millerDG m) PairingD.tatepowerG
  | .map .gNet => EllNet.pairingG p
  | _ => fun _ _ => none

/-- `pairing_pp_apply` on an object of a pairing of type D or G; `final` is the final powering of the type. -/
def ppDG (p : PairingD.Data F K) (final : PairingD.Data F K → El K → Option (El K)) (o : PpObj (Pt F))
    (Q : Pt K) : Option (El K) :=
  match o.pairing with
  | none => some PairingD.one2
  | some _ => match o.made with
    | .d => (PairingD.applyInit (PairingD.ppInit p) o.elem).bind
        fun t => PairingD.applyPp (PairingD.ppApply p final) t Q
    | .g => (PairingD.applyInit (PairingD.ppInit p) o.elem).bind
        fun t => PairingD.applyPp (PairingD.ppApply p final) t Q
    | _ => none

/-- `pairing->map` for a pairing of type E. -/
def mapE (b : K) (r : ℕ) (p : PairingE.Data K) : Routine → Pt K → Pt K → Option K
  | .e .proj => PairingE.pairing PairingE.millerProj p
  | .e .affine => PairingE.pairing PairingE.millerAffine p
  | .map .eNet => EllNet.pairingE b r p
  | _ => fun _ _ => none

end

end Pbc.Options
