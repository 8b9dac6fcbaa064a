/-
Model of the complex floats and of the modular function computed with them.

* `/repo/ecc/mpc.h:13-80`, `/repo/ecc/mpc.c:7-122` (without `mpc_out_str`)
* `/repo/ecc/hilbert.c:16-210` (`mpf_exp`, `mpc_cis`, `compute_q`, `compute_Delta`,
  `compute_h`, `compute_j`) and the constants of `precision_init`, `:292-322`

Simplifications.  GMP floats are elements of an ordered field `R` and every float operation is
exact.  `mpf_ui_div` by zero stops the program: `none`.  `compute_pi` is not modelled: the constant
is a parameter.  `mpf_get_ui` is the absolute value of the integral part, which is right as long
as it fits an `unsigned long`.  Loops that need not end take fuel.
-/
import Verif.Model.Hilbert

set_option autoImplicit false

namespace Pbc.Hilbert

/-- The variables of type `mpc_t`, by number; two arguments of a function may be the same
variable. -/
abbrev Store (R : Type*) := ℕ → Mpc R

namespace Store
variable {R : Type*}

/-- Assignment to the real part of a variable. -/
def setA (σ : Store R) (r : ℕ) (x : R) : Store R := fun i => if i = r then ⟨x, (σ r).b⟩ else σ i

/-- Assignment to the imaginary part of a variable. -/
def setB (σ : Store R) (r : ℕ) (x : R) : Store R := fun i => if i = r then ⟨(σ r).a, x⟩ else σ i

variable [Field R]

/-- `mpc_add`, `/repo/ecc/mpc.h:38-41`. -/
def add (σ : Store R) (r x y : ℕ) : Store R :=
  let σ := σ.setA r ((σ x).a + (σ y).a)
  σ.setB r ((σ x).b + (σ y).b)

/-- `mpc_sub`, `/repo/ecc/mpc.h:43-46`. -/
def sub (σ : Store R) (r x y : ℕ) : Store R :=
  let σ := σ.setA r ((σ x).a - (σ y).a)
  σ.setB r ((σ x).b - (σ y).b)

/-- `mpc_neg`, `/repo/ecc/mpc.h:48-51`. -/
def neg (σ : Store R) (r x : ℕ) : Store R :=
  let σ := σ.setA r (-(σ x).a)
  σ.setB r (-(σ x).b)

/-- `mpc_conj`, `/repo/ecc/mpc.h:53-56`. -/
def conj (σ : Store R) (r x : ℕ) : Store R :=
  let σ := σ.setA r (σ x).a
  σ.setB r (-(σ x).b)

/-- `mpc_set`, `/repo/ecc/mpc.h:58-61`. -/
def set (σ : Store R) (r x : ℕ) : Store R :=
  let σ := σ.setA r (σ x).a
  σ.setB r (σ x).b

/-- `mpc_set_ui`, `/repo/ecc/mpc.h:63-66`. -/
def setUi (σ : Store R) (r n : ℕ) : Store R :=
  let σ := σ.setA r (n : R)
  σ.setB r 0

/-- `mpc_add_ui`, `/repo/ecc/mpc.h:68-70`: the imaginary part is not copied. -/
def addUi (σ : Store R) (r x n : ℕ) : Store R := σ.setA r ((σ x).a + (n : R))

/-- `mpc_mul_ui`, `/repo/ecc/mpc.h:72-75`. -/
def mulUi (σ : Store R) (r x n : ℕ) : Store R :=
  let σ := σ.setA r ((σ x).a * (n : R))
  σ.setB r ((σ x).b * (n : R))

/-- `mpc_mul_mpf`, `/repo/ecc/mpc.h:77-80`. -/
def mulMpf (σ : Store R) (r x : ℕ) (f : R) : Store R :=
  let σ := σ.setA r ((σ x).a * f)
  σ.setB r ((σ x).b * f)

/-- `mpc_mul_2exp`, `/repo/ecc/mpc.c:26-30`. -/
def mul2exp (σ : Store R) (r x e : ℕ) : Store R :=
  let σ := σ.setA r ((σ x).a * 2 ^ e)
  σ.setB r ((σ x).b * 2 ^ e)

/-- `mpc_mul`, `/repo/ecc/mpc.c:7-24`. -/
def mul (σ : Store R) (r x y : ℕ) : Store R :=
  let ac := (σ x).a * (σ y).a
  let bd := (σ x).b * (σ y).b
  let f0 := (σ x).a + (σ x).b
  let σ := σ.setB r ((σ y).a + (σ y).b)
  let σ := σ.setB r ((σ r).b * f0)
  let σ := σ.setB r ((σ r).b - ac)
  let σ := σ.setB r ((σ r).b - bd)
  σ.setA r (ac - bd)

/-- `mpc_sqr`, `/repo/ecc/mpc.c:33-46`. -/
def sqr (σ : Store R) (r x : ℕ) : Store R :=
  let f0 := (σ x).a + (σ x).b
  let f1 := (σ x).a - (σ x).b
  let f0 := f0 * f1
  let f1 := (σ x).a * (σ x).b
  let σ := σ.setA r f0
  σ.setB r (f1 + f1)

/-- `mpc_inv`, `/repo/ecc/mpc.c:50-64`. -/
def inv [DecidableEq R] (σ : Store R) (r x : ℕ) : Option (Store R) :=
  let f0 := (σ x).a * (σ x).a
  let f1 := (σ x).b * (σ x).b
  let f0 := f0 + f1
  if f0 = 0 then none
  else
    let f0 := 1 / f0
    let σ := σ.setA r ((σ x).a * f0)
    let f0 := -f0
    some (σ.setB r ((σ x).b * f0))

/-- `mpc_muli`, `/repo/ecc/mpc.c:113-122`. -/
def muli (σ : Store R) (r x : ℕ) : Store R :=
  let f0 := -(σ x).b
  let σ := σ.setB r (σ x).a
  σ.setA r f0

end Store

section Pow

/-- The loop `for (m = 1; m <= n; m <<= 1);` of `mpc_pow_ui`, `/repo/ecc/mpc.c:97`, on
`unsigned int`. -/
def powStart (n : ℕ) : ℕ → ℕ → Option ℕ
  | 0, _ => none
  | k + 1, m => if m ≤ n then powStart n k ((m <<< 1) % 2 ^ 32) else some m

variable {R : Type*} [Field R]

/-- The loop of `mpc_pow_ui`, `/repo/ecc/mpc.c:102-108`. -/
def powLoop (z : Mpc R) (n : ℕ) : ℕ → ℕ → Mpc R → Option (Mpc R)
  | 0, _, _ => none
  | k + 1, m, z0 =>
    if m = 0 then some z0
    else
      let z0 := z0.mul z0
      let z0 := if m &&& n ≠ 0 then z0.mul z else z0
      powLoop z n k (m >>> 1) z0

/-- `mpc_pow_ui`, `/repo/ecc/mpc.c:90-111` (value; the result is computed in the local `z0`
and copied at the end, so the destination may be the argument). -/
def powUi (fuel : ℕ) (z : Mpc R) (n : ℕ) : Option (Mpc R) :=
  match powStart n fuel 1 with
  | none => none
  | some m => powLoop z n fuel (m >>> 1) ⟨1, 0⟩

end Pow

section Series
variable {R : Type*} [Field R] [LinearOrder R]

/-- The test that ends a series, `/repo/ecc/hilbert.c:33-37`, `:84-88`. -/
def small (eps f0 : R) : Bool := if 0 < f0 then decide (f0 < eps) else decide (-eps < f0)

/-- The loop of `mpf_exp`, `/repo/ecc/hilbert.c:30-39`. -/
def expLoop (eps a : R) : ℕ → ℕ → R → R → Option R
  | 0, _, _, _ => none
  | k + 1, i, f0, res =>
    let f0 := f0 * a / (i : R)
    if small eps f0 then some res else expLoop eps a k (i + 1) f0 (res + f0)

/-- `mpf_exp`, `/repo/ecc/hilbert.c:18-43`. -/
def mpfExp (fuel : ℕ) (eps a : R) : Option R := expLoop eps a fuel 2 a (a + 1)

/-- The loop of `mpc_cis`, `/repo/ecc/hilbert.c:63-89`. -/
def cisLoop (eps a : R) : ℕ → Bool → ℕ → R → Mpc R → Option (Mpc R)
  | 0, _, _, _, _ => none
  | k + 1, toggle, i, f0, z =>
    let toggle := !toggle
    let i := i + 1
    let f0 := f0 / (i : R) * a
    let rx := if toggle then z.a + f0 else z.a - f0
    let i := i + 1
    let f0 := f0 / (i : R) * a
    let ry := if toggle then z.b + f0 else z.b - f0
    if small eps f0 then some ⟨rx, ry⟩ else cisLoop eps a k toggle i f0 ⟨rx, ry⟩

/-- `mpc_cis`, `/repo/ecc/hilbert.c:45-93`. -/
def mpcCis (fuel : ℕ) (eps theta : R) : Option (Mpc R) :=
  cisLoop eps theta fuel true 1 theta ⟨1, theta⟩

/-- The loop for `eulere`, `/repo/ecc/hilbert.c:310-316`. -/
def eulerLoop (eps : R) : ℕ → ℕ → R → R → Option R
  | 0, _, _, _ => none
  | k + 1, i, f0, e =>
    let f0 := f0 / (i : R)
    if f0 < eps then some e else eulerLoop eps k (i + 1) f0 (e + f0)

/-- The constant `eulere`, `/repo/ecc/hilbert.c:308-316`. -/
def eulere (fuel : ℕ) (eps : R) : Option R := eulerLoop eps fuel 1 1 1

/-- The constant `epsilon`, `/repo/ecc/hilbert.c:303-304`. -/
def epsilon (prec : ℕ) : R := 1 / 2 ^ prec

variable [FloorRing R]

/-- `mpf_trunc`. -/
def trunc (x : R) : ℤ := if x < 0 then ⌈x⌉ else ⌊x⌋

/-- `compute_q`, `/repo/ecc/hilbert.c:96-141`; `pi` and `recipeulere` are the constants set by
`precision_init`. -/
def computeQ (fuel : ℕ) (eps pi recipeulere : R) (tau : Mpc R) : Option (Mpc R) :=
  let z0 : Mpc R := ⟨tau.a - (trunc tau.a : R), tau.b⟩
  let z0 : Mpc R := ⟨z0.a * pi, z0.b * pi⟩
  let z0 : Mpc R := ⟨z0.a * ((2 : ℕ) : R), z0.b * ((2 : ℕ) : R)⟩
  let z0 : Mpc R := ⟨-z0.b, z0.a⟩
  let pwr := (trunc z0.a).natAbs
  let f0 := recipeulere ^ pwr
  let z0 : Mpc R := ⟨z0.a + (pwr : R), z0.b⟩
  match mpfExp fuel eps z0.a, mpcCis fuel eps z0.b with
  | some f1, some q =>
    let f0 := f1 * f0
    some ⟨q.a * f0, q.b * f0⟩
  | _, _ => none

/-- The loop of `compute_Delta`, `/repo/ecc/hilbert.c:156-169`; the second argument counts the
passes left. -/
def deltaLoop (fuel : ℕ) (q : Mpc R) : ℕ → ℕ → Bool → Mpc R → Option (Mpc R)
  | 0, _, _, z0 => some z0
  | k + 1, n, d, z0 =>
    match powUi fuel q (n * (3 * n - 1) / 2), powUi fuel q n with
    | some z1, some z2 =>
      let z2 := z2.mul z1
      let z1 := z1.add z2
      if d then deltaLoop fuel q k (n + 1) false ⟨z0.a - z1.a, z0.b - z1.b⟩
      else deltaLoop fuel q k (n + 1) true (z0.add z1)
    | _, _ => none

/-- `compute_Delta`, `/repo/ecc/hilbert.c:144-177`. -/
def computeDelta (fuel : ℕ) (q : Mpc R) : Option (Mpc R) :=
  match deltaLoop fuel q 99 1 true ⟨1, 0⟩ with
  | none => none
  | some z0 =>
    match powUi fuel z0 24 with
    | none => none
    | some z0 => some (z0.mul q)

/-- `mpc_inv`, value. -/
def Mpc.inv (z : Mpc R) : Option (Mpc R) :=
  let f0 := z.a * z.a + z.b * z.b
  if f0 = 0 then none else some ⟨z.a * (1 / f0), z.b * -(1 / f0)⟩

/-- `mpc_div`, `/repo/ecc/mpc.c:66-73`. -/
def Mpc.div (z w : Mpc R) : Option (Mpc R) :=
  match w.inv with
  | none => none
  | some c0 => some (z.mul c0)

/-- `compute_h`, `/repo/ecc/hilbert.c:181-194`. -/
def computeH (fuel : ℕ) (eps pi recipeulere : R) (tau : Mpc R) : Option (Mpc R) :=
  match computeQ fuel eps pi recipeulere tau with
  | none => none
  | some q =>
    match computeDelta fuel (q.mul q), computeDelta fuel q with
    | some z0, some z1 => z0.div z1
    | _, _ => none

/-- `compute_j`, `/repo/ecc/hilbert.c:197-210`. -/
def computeJ (fuel : ℕ) (eps pi recipeulere : R) (tau : Mpc R) : Option (Mpc R) :=
  match computeH fuel eps pi recipeulere tau with
  | none => none
  | some h =>
    let z0 : Mpc R := ⟨h.a * 2 ^ 8, h.b * 2 ^ 8⟩
    let z0 : Mpc R := ⟨z0.a + ((1 : ℕ) : R), z0.b⟩
    match powUi fuel z0 3 with
    | none => none
    | some z0 => z0.div h

end Series

end Pbc.Hilbert
