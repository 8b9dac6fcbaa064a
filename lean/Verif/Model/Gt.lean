import Mathlib.Algebra.Field.Basic
import Mathlib.Algebra.Module.NatInt
import Mathlib.Data.ZMod.Basic
import Mathlib.Logic.Function.Basic

/-!
# The target group and the functions on any pairing (`/repo/ecc/pairing.c`), and the demonstration
programs (`/repo/example/*.c`)

The field below the target group is any field `L` with decidable equality; its operations are those
proved of the concrete fields elsewhere.  The groups of points are additive groups with decidable
equality.
-/

set_option autoImplicit false

namespace Pbc.Gt

section gt

variable {L : Type} [Field L] [DecidableEq L]

/-- An element of the target group is an element of the field below (`mulg_init`,
`/repo/ecc/pairing.c:135-140`). -/
abbrev Regs (L : Type) := ℕ → L

/-- The operations of the interface, on numbered variables. -/
inductive Op
  | init (c : ℕ)
  | set0 (c : ℕ)
  | set1 (c : ℕ)
  | set (c a : ℕ)
  | add (c a b : ℕ)
  | sub (c a b : ℕ)
  | neg (c a : ℕ)
  | doub (c a : ℕ)
  | mulMpz (c a : ℕ) (z : ℕ)
  | mul (c a b : ℕ)
  | div (c a b : ℕ)
  | invert (c a : ℕ)
  | square (c a : ℕ)
  | powMpz (c a : ℕ) (z : ℕ)

/-- `mulg_set1` (`/repo/ecc/pairing.c:191-193`). -/
def set1 : L := 1

/-- `mulg_mul` (`:195-197`). -/
def mul (a b : L) : L := a * b

/-- `mulg_div` (`:199-201`): the division of the field. -/
def div (a b : L) : L := a * b⁻¹

/-- `mulg_invert` (`:203-205`). -/
def invert (a : L) : L := a⁻¹

/-- `mulg_pow_mpz` (`:211-213`), for exponents that are not negative. -/
def powMpz (a : L) (n : ℕ) : L := a ^ n

/-- The table set by `pairing_GT_init` (`/repo/ecc/pairing.c:233-283`), with the defaults of
`field_init` (`/repo/arith/field.c:569-618`) for `doub` (`generic_double`, `:401-403`) and `square`
(`generic_square`, `:383-385`). -/
def step (s : Regs L) : Op → Regs L
  | .init c => Function.update s c set1
  | .set0 c => Function.update s c set1
  | .set1 c => Function.update s c set1
  | .set c a => Function.update s c (s a)
  | .add c a b => Function.update s c (mul (s a) (s b))
  | .sub c a b => Function.update s c (div (s a) (s b))
  | .neg c a => Function.update s c (invert (s a))
  | .doub c a => Function.update s c (mul (s a) (s a))
  | .mulMpz c a z => Function.update s c (powMpz (s a) z)
  | .mul c a b => Function.update s c (mul (s a) (s b))
  | .div c a b => Function.update s c (div (s a) (s b))
  | .invert c a => Function.update s c (invert (s a))
  | .square c a => Function.update s c (mul (s a) (s a))
  | .powMpz c a z => Function.update s c (powMpz (s a) z)

/-- A sequence of operations. -/
def run (s : Regs L) (l : List Op) : Regs L := l.foldl step s

/-- `mulg_is1`, for `is0` and `is1` (`/repo/ecc/pairing.c:207-209`). -/
def is1 (a : L) : Bool := a = 1

/-- `mulg_cmp` (`:151-153`): zero for equal elements. -/
def cmp0 (a b : L) : Bool := a = b

/-- `zero_set_mpz` (`/repo/arith/field.c:420-423`), the default for `set_mpz`, which the table of the
target group does not set: `element_set0`. -/
def setMpz (_z : ℤ) : L := set1

/-- `generic_set_si` (`:429-435`). -/
def setSi (n : ℤ) : L := setMpz n

/-- `generic_mul_si` (`:394-400`), the default for `mul_si`, which the table does not set. -/
def mulSi (a : L) (n : ℤ) : L := mul a (setSi n)

/-- `generic_halve` (`:405-412`), not set either. -/
def halve (a : L) : L := mul a (invert (setSi 2))

/-- `gt_random`, `gt_from_hash` (`/repo/ecc/pairing.c:118-128`): `x` is what the field below makes of
the random bytes or of the hash. -/
def sample (finalpow : L → L) (x : L) : L := finalpow x

/-- `mulg_from_bytes` (`/repo/ecc/pairing.c:178-180`). -/
def fromBytes {Bytes : Type} (fieldFromBytes : Bytes → L) (b : Bytes) : L := fieldFromBytes b

/-- `mulg_to_bytes` (`/repo/ecc/pairing.c:174-176`). -/
def toBytes {Bytes : Type} (fieldToBytes : L → Bytes) (x : L) : Bytes := fieldToBytes x

end gt

section points

variable {A : Type} [AddCommGroup A]

/-- `zero_set_mpz` and `generic_set_si` for a curve: `field_init_curve_ab` sets neither
(`/repo/ecc/curve.c:694-745`), and `set0` is `curve_set1`. -/
def pointSetSi (_n : ℤ) : A := 0

/-- `element_mul_si` on a point: `generic_mul_si` (`/repo/arith/field.c:394-400`), where
`element_mul` is `curve_mul`. -/
def pointMulSi (a : A) (n : ℤ) : A := a + pointSetSi n

/-- `element_halve` on a point: `generic_halve` (`/repo/arith/field.c:405-412`). -/
def pointHalve (a : A) : A := a + -pointSetSi 2

end points

section pairing

variable {A B L : Type} [AddCommGroup A] [AddCommGroup B] [DecidableEq A] [DecidableEq B] [Field L]
  [DecidableEq L]

/-- `pairing_apply`, `element_pairing` (`/repo/include/pbc_pairing.h:118-146`). -/
def apply (map : A → B → L) (P : A) (Q : B) : L :=
  if P = 0 then set1 else if Q = 0 then set1 else map P Q

/-- `generic_is_almost_coddh` (`/repo/ecc/pairing.c:15-33`). -/
def isAlmostCoddh (map : A → B → L) (a b : A) (c d : B) : Bool :=
  let t0 := apply map a d
  let t1 := apply map b c
  if cmp0 t0 t1 then true
  else
    let t0 := mul t0 t1
    is1 t0

/-- The loop of `generic_prod_pairings` (`/repo/ecc/pairing.c:35-46`); note that it calls `map`. -/
def prodLoop (map : A → B → L) : L → List (A × B) → L
  | out, [] => out
  | out, (P, Q) :: l => prodLoop map (mul out (map P Q)) l

/-- `element_prod_pairing` with `generic_prod_pairings` (`/repo/include/pbc_pairing.h:153-171`). -/
def prodPairing (map : A → B → L) : List (A × B) → Option L
  | [] => none
  | (P, Q) :: l =>
    if ((P, Q) :: l).any fun x => x.1 = 0 ∨ x.2 = 0 then some set1
    else some (prodLoop map (map P Q) l)

variable {r : ℕ}

/-- `element_mul_zn` on a point (`/repo/include/pbc_field.h:311-318`). -/
def mulZn {A : Type} [AddCommGroup A] (P : A) (a : ZMod r) : A := a.val • P

/-- `element_pow_zn` on an element of the target group (`/repo/include/pbc_field.h:374-381`). -/
def powZn {L : Type} [Field L] (t : L) (a : ZMod r) : L := powMpz t a.val

/-! ## The demonstration programs -/

/-- The public key and the signature of `/repo/example/bls.c:37-51`. -/
def blsSign (x : ZMod r) (h : A) : A := mulZn h x

/-- The public key (`/repo/example/bls.c:37`). -/
def blsPublic (x : ZMod r) (g : B) : B := mulZn g x

/-- The verification (`/repo/example/bls.c:69-82`). -/
def blsVerify (map : A → B → L) (g pk : B) (h sig : A) : Bool :=
  cmp0 (apply map sig g) (apply map h pk)

/-- The verification of a signature known up to its sign (`/repo/example/bls.c:98-111`). -/
def blsVerifyX (map : A → B → L) (g pk : B) (h sig : A) : Bool :=
  let temp1 := apply map sig g
  let temp2 := apply map h pk
  if cmp0 temp1 temp2 then true else cmp0 (invert temp1) temp2

/-- The three keys of `/repo/example/joux.c:35-58`. -/
def joux (map : A → A → L) (P : A) (a b c : ZMod r) : L × L × L :=
  let t1 := mulZn P a
  let t2 := mulZn P b
  let t3 := mulZn P c
  (powZn (apply map t2 t3) a, powZn (apply map t1 t3) b, powZn (apply map t1 t2) c)

/-- `/repo/example/hess.c:44-85`: `t3` is the hash of the message, `toMpz` reads an element of the
target group as an integer.  The answer is whether the signature is accepted. -/
def hess (map : A → A → L) (toMpz : L → ℤ) (P P1 Qid : A) (s k t3 : ZMod r) : Bool :=
  let Ppub := mulZn P s
  let Did := mulZn Qid s
  let t1 := apply map P1 P
  let r1 := powZn t1 k
  let v := t3 * (toMpz r1 : ZMod r)
  let u := mulZn Did v + mulZn P1 k
  let t6 := apply map u P
  let Ppub := -Ppub
  let t7 := powZn (apply map Qid Ppub) v
  let r1 := mul t6 t7
  t3 * (toMpz r1 : ZMod r) = v

/-- `/repo/example/paterson.c:43-88`: `t1` is the hash of the message, `hash` the hash of the bytes
of a point. -/
def paterson (map : A → A → L) (hash : A → ZMod r) (P Qid : A) (s k t1 : ZMod r) : Bool :=
  let Ppub := mulZn P s
  let Did := mulZn Qid s
  let R := mulZn P k
  let t2 := mulZn P t1
  let t3 := hash R
  let t4 := mulZn Did t3
  let t5 := t4 + t2
  let k := k⁻¹
  let S := mulZn t5 k
  let t7 := mulZn P t1
  let t6 := apply map P t7
  let t8 := apply map Ppub Qid
  let t9 := powZn t8 t3
  let t10 := mul t6 t9
  let t11 := apply map R S
  cmp0 t10 t11

/-- The two session keys of `/repo/example/yuanli.c:70-137`. -/
def yuanli (map : A → A → L) (P Qa Qb : A) (s a b : ZMod r) : L × L :=
  let Ppub := mulZn P s
  let Sa := mulZn Qa s
  let Sb := mulZn Qb s
  let Ta := mulZn P a
  let Tb := mulZn P b
  let Kab := apply map (mulZn Ppub a + Sa) (Tb + Qb)
  let h := mulZn Ta b
  let Kba := apply map (Ta + Qa) (mulZn Ppub b + Sb)
  let temp4 := apply map h (Qa + Qb)
  (mul temp4 Kab, mul temp4 Kba)

/-- The two values compared at the end of `/repo/example/zhangkim.c:50-107`: what was signed and what
the verifier computes. -/
def zhangkim (map : A → A → L) (toMpz : L → ℤ) (P Qid : A) (s r1 a b t5 : ZMod r) : ZMod r × ZMod r :=
  let Ppub := mulZn P s
  let Sid := mulZn Qid s
  let R := mulZn P r1
  let t1 := R + mulZn P a
  let t2 := mulZn Qid b + t1
  let t3 := apply map t2 Ppub
  let t6 := t5 * (toMpz t3 : ZMod r)
  let c := t6 + b
  let S := mulZn Sid c + mulZn Ppub r1
  let S := S + mulZn Ppub a
  let c := c - b
  let t10 := apply map Qid Ppub
  let t10 := powZn t10 (-c)
  let t11 := apply map S P
  let t12 := mul t11 t10
  (t6, t5 * (toMpz t12 : ZMod r))

/-- The two values compared by `/repo/example/zss.c:31-55`; `H` is the hash of the message. -/
def zss (map : A → A → L) (P : A) (x H : ZMod r) : L × L :=
  let Ppub := mulZn P x
  let S := mulZn P (H + x)⁻¹
  let t2 := mulZn P H + Ppub
  (apply map t2 S, apply map P P)

end pairing

end Pbc.Gt
