import Verif.Model.Setup
import Verif.Model.ParamGen
import Verif.Model.ParamInit
import Verif.Spec.Session
import Verif.Model.Quadratic
import Mathlib.NumberTheory.LegendreSymbol.JacobiSymbol
import Mathlib.Algebra.QuadraticAlgebra.Basic

/-!
# A program that generates parameters, sets up a pairing and computes with it

The prime field is `ZMod q`; the routines of the prime fields implement it (C01, C10, C20, C21).
-/

set_option autoImplicit false

namespace Pbc.Session

open Pbc.Curve (Pt addV)
open Pbc.CmGen (scalar)

/-- `zp_is_sqr` (`/repo/arith/naivefp.c:194-198`), `fp_is_sqr` (`/repo/arith/montfp.c:474-485`); `mpz_legendre` is the Jacobi
symbol in GMP. -/
def fpIsSqr (q : ℕ) (a : ZMod q) : Bool := if a = 0 then true else decide (jacobiSym (a.val : ℤ) q = 1)

/-- `element_sqrt` in a prime field (`/repo/arith/naivefp.c:259`, `/repo/arith/montfp.c:562`), `nqr` being what
`field_get_nqr` returns. -/
def fpSqrt (q : ℕ) [Fact q.Prime] (nqr : ZMod q) : ZMod q → ZMod q := Gen.tonelli q nqr

/-- What `a_out_str` and `a_init_pairing` find in the record (`/repo/ecc/a_param.c:29-46`, `:1544-1561`). -/
def parA (s : ParamGen.Result) : Param.Par := .a s.q s.r s.h s.exp2 s.exp1 s.sign1 s.sign0

/-- The same for type A1 (`/repo/ecc/a_param.c:1576-1595`, `:2300-2321`). -/
def parA1 (order : ℤ) (s : ℤ × ℕ) : Param.Par := .a1 s.1 order s.2

/-- The same for type E (`/repo/ecc/e_param.c:22-38`, `:984-1006`). -/
def parE (s : ParamGen.Result) (a b : ℤ) : Param.Par := .e s.q s.r s.h a b s.exp2 s.exp1 s.sign1 s.sign0

/-- The same for type F (`/repo/ecc/f_param.c:60-69`, `:532-590`); `element_to_mpz` of an element of a prime field is its
representative. -/
def parF {q : ℕ} (s : ParamGen.BN) (b beta alpha0 alpha1 : ZMod q) : Param.Par :=
  .f s.q s.r b.val beta.val alpha0.val alpha1.val

/-! ### The quadratic extension of a prime field -/

/-- The field of `q²` elements that `field_init_quadratic` sets up (`/repo/arith/fieldquadratic.c:600-660`), `nqr` being what
`field_get_nqr` returns for the field of `q` elements; its operations are those of `Quad` (C25). -/
abbrev Fq2 (q : ℕ) [Fact q.Prime] (nqr : ZMod q) : Type := QuadraticAlgebra (ZMod q) nqr 0

/-- `element_is_sqr` in the field of `q²` elements (`/repo/arith/fieldquadratic.c:339-355`, `:625`). -/
def fqIsSqr (q : ℕ) [Fact q.Prime] (nqr : ZMod q) (a : Fq2 q nqr) : Bool :=
  Quad.isSqr (fpIsSqr q) nqr ⟨a.re, a.im⟩

/-- `element_sqrt` there (`/repo/arith/fieldquadratic.c:357-393`); 0 stands for the garbage it leaves after dividing by 0. -/
def fqSqrt (q : ℕ) [Fact q.Prime] (nqr : ZMod q) (a : Fq2 q nqr) : Fq2 q nqr :=
  match Quad.sqrt (fpIsSqr q) (fpSqrt q nqr) nqr (fun _ => ⟨a.re, a.im⟩) 0 1 with
  | none => 0
  | some m => ⟨(m 0).x, (m 0).y⟩

/-- The elements of the base field, for which `element_sqrt` is not to be called. -/
def inBase {q : ℕ} [Fact q.Prime] {nqr : ZMod q} (a : Fq2 q nqr) : Bool := decide (a.im = 0)

/-- The coefficients of an element of the extension (`element_x`, `element_y`, `/repo/include/pbc_field.h:662-673`). -/
def ext2 (q : ℕ) [Fact q.Prime] (nqr : ZMod q) : PairingD.Ext (ZMod q) (Fq2 q nqr) :=
  ⟨2, fun x i => if i = 0 then x.re else if i = 1 then x.im else 0, fun f => ⟨f 0, f 1⟩⟩

section group

variable {K : Type*} [Field K] [DecidableEq K]

/-- `element_invert` and `element_neg` on a curve (`/repo/ecc/curve.c:79-89`), into a new element. -/
def invertV (p : Pt K) : Pt K := Curve.invert (fun i => if i = 1 then p else Curve.fresh) 0 1 0

/-- The elements of a curve with the coefficient `a` that a program can make: those sampled (drawn or hashed, `S`) and those
computed from such. -/
inductive Made (S : Pt K → Prop) (a : K) : Pt K → Prop
  | sampled (p : Pt K) : S p → Made S a p
  | mul (p q s : Pt K) : Made S a p → Made S a q → addV a p q = some s → Made S a s
  | pow (p s : Pt K) (n : ℕ) : Made S a p → scalar a p n = some s → Made S a s
  | inv (p : Pt K) : Made S a p → Made S a (invertV p)

/-- The group as a program sees it. -/
def ops (S : Pt K → Prop) (a : K) : Spec.Ops (Pt K) where
  made := Made S a
  mul := addV a
  pow := scalar a
  inv p := some (invertV p)

end group

section bls

variable {P Q L : Type*} [DecidableEq L] (G₁ : Spec.Ops P) (G₂ : Spec.Ops Q) (e : P → Q → Option L)

/-- The signature of `/repo/example/bls.c:47`: `h` is the hash of the message, `x` the secret key. -/
def blsSign (x : ℕ) (h : P) : Option P := G₁.pow h x

/-- The public key (`/repo/example/bls.c:37`). -/
def blsPublic (x : ℕ) (g : Q) : Option Q := G₂.pow g x

/-- The verification (`/repo/example/bls.c:70-82`). -/
def blsVerify (g pk : Q) (h sig : P) : Option Bool :=
  match e sig g, e h pk with
  | some t1, some t2 => some (decide (t1 = t2))
  | _, _ => none

end bls

end Pbc.Session
