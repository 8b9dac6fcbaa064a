import Verif.Model.Options

/-!
# What choosing a method should do

Written from the manual (`pairing_option_set`) without the function pointers: every pairing has a type and
a method of its own; setting it up gives the default method; setting the option `method` of *this* pairing to
a value its type knows changes it; nothing else does.
-/

set_option autoImplicit false

namespace Spec.Options

open Pbc.Options

variable {X : Type*}

/-- The methods. -/
inductive Method | miller | millerAffine | shipseyStange
  deriving DecidableEq

/-- Their names. -/
def Method.name : Method → String
  | .miller => "miller"
  | .millerAffine => "miller-affine"
  | .shipseyStange => "shipsey-stange"

/-- The methods a type has. -/
def knows : Ty → Method → Bool
  | .f, _ => false
  | .i, _ => false
  | .d, m => m ≠ .shipseyStange
  | _, _ => true

/-- The method of a new pairing. -/
def first : Ty → Method
  | .d => .millerAffine
  | .g => .millerAffine
  | _ => .miller

/-- What one operation should do to the type and method of pairing `i`. -/
def effect (i : ℕ) (s : Option (Ty × Method)) : Op X → Option (Ty × Method)
  | .init j ty => if j = i then some (ty, first ty) else s
  | .option j k v =>
    if j = i ∧ k = "method" then
      s.map fun (ty, m) =>
        if v = "miller" ∧ knows ty .miller then (ty, .miller)
        else if v = "miller-affine" ∧ knows ty .millerAffine then (ty, .millerAffine)
        else if v = "shipsey-stange" ∧ knows ty .shipseyStange then (ty, .shipseyStange)
        else (ty, m)
    else s
  | .ppInit _ _ _ => s

/-- The type and method pairing `i` should have after the program `l`. -/
def intended (l : List (Op X)) (i : ℕ) : Option (Ty × Method) := l.foldl (effect i) none

/-- The routine for a type and a method. -/
def routine : Ty → Method → Routine
  | .a, .miller => .map .aProj
  | .a, .millerAffine => .map .aAffine
  | .a, .shipseyStange => .map .aNet
  | .a1, .miller => .map .a1Proj
  | .a1, .millerAffine => .map .a1Affine
  | .a1, .shipseyStange => .map .aNet
  | .d, .miller => .d .proj
  | .d, _ => .d .affine
  | .g, .miller => .g .proj
  | .g, .millerAffine => .g .affine
  | .g, .shipseyStange => .map .gNet
  | .e, .miller => .e .proj
  | .e, .millerAffine => .e .affine
  | .e, .shipseyStange => .map .eNet
  | .f, _ => .map .fMap
  | .i, _ => .map .iMap

end Spec.Options
