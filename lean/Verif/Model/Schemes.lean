import Verif.Model.Gt

/-! # The signing and verifying halves of the example programs

`Verif/Model/Gt.lean` has the programs as they run, from the keys to the verdict.  Here the two halves are separate, so that
the verifying half can be given any signature. -/

set_option autoImplicit false

namespace Pbc.Schemes

open Pbc.Gt

variable {A L : Type} [AddCommGroup A] [DecidableEq A] [Field L] [DecidableEq L] {r : ℕ} [NeZero r]

/-- Signing (`/repo/example/zss.c:38-42`): the signature. -/
def zssSign (P : A) (x H : ZMod r) : A := mulZn P (H + x)⁻¹

/-- Verifying (`/repo/example/zss.c:46-55`). -/
def zssVerify (map : A → A → L) (P Ppub : A) (H : ZMod r) (S : A) : Bool :=
  let t2 := mulZn P H + Ppub
  cmp0 (apply map t2 S) (apply map P P)

/-- Signing (`/repo/example/paterson.c:52-67`): `t1` is the hash of the message; the signature is the pair of `R` and `S`. -/
def patersonSign (hash : A → ZMod r) (P Did : A) (k t1 : ZMod r) : A × A :=
  let R := mulZn P k
  let t2 := mulZn P t1
  let t3 := hash R
  let t5 := mulZn Did t3 + t2
  (R, mulZn t5 k⁻¹)

/-- Verifying (`/repo/example/paterson.c:71-88`).  The program uses the `t3` it has from signing; it is the hash of `R`. -/
def patersonVerify (map : A → A → L) (hash : A → ZMod r) (P Ppub Qid : A) (t1 : ZMod r) (sg : A × A) : Bool :=
  let t7 := mulZn P t1
  let t6 := apply map P t7
  let t9 := powZn (apply map Ppub Qid) (hash sg.1)
  cmp0 (mul t6 t9) (apply map sg.1 sg.2)

/-- Signing (`/repo/example/hess.c:53-66`): `t3` is the hash of the message; the signature is the pair of `u` and `v`. -/
def hessSign (map : A → A → L) (toMpz : L → ℤ) (P Did P1 : A) (k t3 : ZMod r) : A × ZMod r :=
  let v := t3 * (toMpz (powZn (apply map P1 P) k) : ZMod r)
  (mulZn Did v + mulZn P1 k, v)

/-- Verifying (`/repo/example/hess.c:70-85`). -/
def hessVerify (map : A → A → L) (toMpz : L → ℤ) (P Ppub Qid : A) (t3 : ZMod r) (sg : A × ZMod r) : Bool :=
  let t6 := apply map sg.1 P
  let t7 := powZn (apply map Qid (-Ppub)) sg.2
  t3 * (toMpz (mul t6 t7) : ZMod r) = sg.2

/-- Blinding (`/repo/example/zhangkim.c:67-78`): what the user sends to the signer; `t5` is the hash of the message. -/
def zkBlind (map : A → A → L) (toMpz : L → ℤ) (Ppub Qid P R : A) (a b t5 : ZMod r) : ZMod r :=
  let t2 := mulZn Qid b + (R + mulZn P a)
  t5 * (toMpz (apply map t2 Ppub) : ZMod r) + b

/-- Signing (`/repo/example/zhangkim.c:81-84`): what the signer sends back. -/
def zkSign (Ppub Sid : A) (r1 c : ZMod r) : A := mulZn Sid c + mulZn Ppub r1

/-- Unblinding (`/repo/example/zhangkim.c:87-90`). -/
def zkUnblind (Ppub : A) (a b : ZMod r) (c : ZMod r) (S : A) : A × ZMod r := (S + mulZn Ppub a, c - b)

/-- Verifying (`/repo/example/zhangkim.c:95-108`). -/
def zkVerify (map : A → A → L) (toMpz : L → ℤ) (P Ppub Qid : A) (t5 : ZMod r) (sg : A × ZMod r) : Bool :=
  let t10 := powZn (apply map Qid Ppub) (-sg.2)
  let t11 := apply map sg.1 P
  t5 * (toMpz (mul t11 t10) : ZMod r) = sg.2

end Pbc.Schemes
