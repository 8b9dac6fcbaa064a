import Verif.Model.Param

/-!
# From parameter texts to parameters and back

The contents of a `pbc_param_t` of every type, what `pbc_param_out_str` writes and what
`pbc_param_init_set_str`, `pbc_param_init_set_buf` and `pairing_init_set_buf` make of a text.
-/

set_option autoImplicit false

namespace Pbc.Param

open Darray

/-- The parameters of the seven types (`/repo/ecc/a_param.c:20-28`, `:1566-1571`, `/repo/ecc/d_param.c:23-34`,
`/repo/ecc/e_param.c:18-26`, `/repo/ecc/f_param.c:18-27`, `/repo/ecc/g_param.c:21-31`,
`/repo/ecc/eta_T_3.c:14-21`).  `int` fields are integers too. -/
inductive Par
  | a (q r h exp2 exp1 sign1 sign0 : ℤ)
  | a1 (p n l : ℤ)
  | d (q n h r a b k nk hk : ℤ) (coeff : List ℤ) (nqr : ℤ)
  | e (q r h a b exp2 exp1 sign1 sign0 : ℤ)
  | f (q r b beta alpha0 alpha1 : ℤ)
  | g (q n h r a b nk hk coeff0 coeff1 coeff2 coeff3 coeff4 nqr : ℤ)
  | i (m t n n2 : ℤ)
deriving DecidableEq

/-- The lines `coeff0 … coeff(d-1)` of `d_out_str` (`/repo/ecc/d_param.c:88-91`); `none`: the name does not fit
into the buffer of 8 characters, or there is no such coefficient. -/
def outCoeffs (coeff : List ℤ) : ℕ → ℕ → Option (List (List Char × ℤ))
  | _, 0 => some []
  | i, n + 1 =>
    if (coeffKey i).length + 1 > 8 then none
    else coeff[i]?.bind fun c => (outCoeffs coeff (i + 1) n).map ((coeffKey i, c) :: ·)

/-- `pbc_param_out_str`: `a_out_str` (`/repo/ecc/a_param.c:36-46`), `a1_out_str` (`:1586-1593`), `d_out_str`
(`/repo/ecc/d_param.c:73-93`), `e_out_str` (`/repo/ecc/e_param.c:50-62`), `f_out_str`
(`/repo/ecc/f_param.c:60-69`), `g_out_str` (`/repo/ecc/g_param.c:66-84`), `eta_T_3_out_str`
(`/repo/ecc/eta_T_3.c:738-744`). -/
def outStr : Par → Option (List Char)
  | .a q r h exp2 exp1 sign1 sign0 => some <| outParam "a".toList
      [("q".toList, q), ("h".toList, h), ("r".toList, r), ("exp2".toList, exp2), ("exp1".toList, exp1),
       ("sign1".toList, sign1), ("sign0".toList, sign0)]
  | .a1 p n l => some <| outParam "a1".toList [("p".toList, p), ("n".toList, n), ("l".toList, l)]
  | .d q n h r a b k nk hk coeff nqr => (outCoeffs coeff 0 (k.tdiv 2).toNat).map fun cs =>
      outParam "d".toList
        ([("q".toList, q), ("n".toList, n), ("h".toList, h), ("r".toList, r), ("a".toList, a), ("b".toList, b),
          ("k".toList, k), ("nk".toList, nk), ("hk".toList, hk)] ++ cs ++ [("nqr".toList, nqr)])
  | .e q r h a b exp2 exp1 sign1 sign0 => some <| outParam "e".toList
      [("q".toList, q), ("r".toList, r), ("h".toList, h), ("a".toList, a), ("b".toList, b),
       ("exp2".toList, exp2), ("exp1".toList, exp1), ("sign1".toList, sign1), ("sign0".toList, sign0)]
  | .f q r b beta alpha0 alpha1 => some <| outParam "f".toList
      [("q".toList, q), ("r".toList, r), ("b".toList, b), ("beta".toList, beta), ("alpha0".toList, alpha0),
       ("alpha1".toList, alpha1)]
  | .g q n h r a b nk hk c0 c1 c2 c3 c4 nqr => some <| outParam "g".toList
      [("q".toList, q), ("n".toList, n), ("h".toList, h), ("r".toList, r), ("a".toList, a), ("b".toList, b),
       ("nk".toList, nk), ("hk".toList, hk), ("coeff0".toList, c0), ("coeff1".toList, c1),
       ("coeff2".toList, c2), ("coeff3".toList, c3), ("coeff4".toList, c4), ("nqr".toList, nqr)]
  | .i m t n n2 => some <| outParam "i".toList
      [("m".toList, m), ("t".toList, t), ("n".toList, n), ("n2".toList, n2)]

/-- The result of an initialiser: parameters, an error code, or the end of the program (`pbc_die`). -/
inductive Res
  | ok (p : Par)
  | err (code : ℕ)
  | die
deriving DecidableEq

/-- `err += lookup_…`. -/
def errs (l : List (Option ℤ)) : ℕ := (l.filter fun o => o.isNone).length

/-- `return err`. -/
def finish (l : List (Option ℤ)) (p : Par) : Res := if errs l = 0 then .ok p else .err (errs l)

/-- What a field holds: the number found, or what `mpz_init` left.  (An `int` that is not found is not set; then
there is an error.) -/
def val (o : Option ℤ) : ℤ := o.getD 0

/-- `pbc_param_init_a` (`/repo/ecc/a_param.c:1489-1502`). -/
def initA (tab : Table) : Res :=
  let q := lookupMpz tab "q".toList
  let r := lookupMpz tab "r".toList
  let h := lookupMpz tab "h".toList
  let exp2 := lookupInt tab "exp2".toList
  let exp1 := lookupInt tab "exp1".toList
  let sign1 := lookupInt tab "sign1".toList
  let sign0 := lookupInt tab "sign0".toList
  finish [q, r, h, exp2, exp1, sign1, sign0] (.a (val q) (val r) (val h) (val exp2) (val exp1) (val sign1) (val sign0))

/-- `pbc_param_init_a1` (`/repo/ecc/a_param.c:2289-2298`). -/
def initA1 (tab : Table) : Res :=
  let p := lookupMpz tab "p".toList
  let n := lookupMpz tab "n".toList
  let l := lookupInt tab "l".toList
  finish [p, n, l] (.a1 (val p) (val n) (val l))

/-- `pbc_param_init_d` (`/repo/ecc/d_param.c:1199-1225`); `k` is zero if it is not found (`:1193`), and a
negative number of coefficients makes `pbc_realloc` give up. -/
def initD (tab : Table) : Res :=
  let q := lookupMpz tab "q".toList
  let n := lookupMpz tab "n".toList
  let h := lookupMpz tab "h".toList
  let r := lookupMpz tab "r".toList
  let a := lookupMpz tab "a".toList
  let b := lookupMpz tab "b".toList
  let k := lookupInt tab "k".toList
  let nk := lookupMpz tab "nk".toList
  let hk := lookupMpz tab "hk".toList
  let nqr := lookupMpz tab "nqr".toList
  let d := (val k).tdiv 2
  if d < 0 then .die
  else
    let coeff := (List.range d.toNat).map fun i => lookupMpz tab (coeffKey i)
    finish ([q, n, h, r, a, b, k, nk, hk, nqr] ++ coeff)
      (.d (val q) (val n) (val h) (val r) (val a) (val b) (val k) (val nk) (val hk) (coeff.map val) (val nqr))

/-- `pbc_param_init_e` (`/repo/ecc/e_param.c:891-906`). -/
def initE (tab : Table) : Res :=
  let q := lookupMpz tab "q".toList
  let r := lookupMpz tab "r".toList
  let h := lookupMpz tab "h".toList
  let a := lookupMpz tab "a".toList
  let b := lookupMpz tab "b".toList
  let exp2 := lookupInt tab "exp2".toList
  let exp1 := lookupInt tab "exp1".toList
  let sign1 := lookupInt tab "sign1".toList
  let sign0 := lookupInt tab "sign0".toList
  finish [q, r, h, a, b, exp2, exp1, sign1, sign0]
    (.e (val q) (val r) (val h) (val a) (val b) (val exp2) (val exp1) (val sign1) (val sign0))

/-- `pbc_param_init_f` (`/repo/ecc/f_param.c:467-479`). -/
def initF (tab : Table) : Res :=
  let q := lookupMpz tab "q".toList
  let r := lookupMpz tab "r".toList
  let b := lookupMpz tab "b".toList
  let beta := lookupMpz tab "beta".toList
  let alpha0 := lookupMpz tab "alpha0".toList
  let alpha1 := lookupMpz tab "alpha1".toList
  finish [q, r, b, beta, alpha0, alpha1] (.f (val q) (val r) (val b) (val beta) (val alpha0) (val alpha1))

/-- `pbc_param_init_g` (`/repo/ecc/g_param.c:1378-1402`). -/
def initG (tab : Table) : Res :=
  let q := lookupMpz tab "q".toList
  let n := lookupMpz tab "n".toList
  let h := lookupMpz tab "h".toList
  let r := lookupMpz tab "r".toList
  let a := lookupMpz tab "a".toList
  let b := lookupMpz tab "b".toList
  let nk := lookupMpz tab "nk".toList
  let hk := lookupMpz tab "hk".toList
  let nqr := lookupMpz tab "nqr".toList
  let c0 := lookupMpz tab "coeff0".toList
  let c1 := lookupMpz tab "coeff1".toList
  let c2 := lookupMpz tab "coeff2".toList
  let c3 := lookupMpz tab "coeff3".toList
  let c4 := lookupMpz tab "coeff4".toList
  finish [q, n, h, r, a, b, nk, hk, nqr, c0, c1, c2, c3, c4]
    (.g (val q) (val n) (val h) (val r) (val a) (val b) (val nk) (val hk) (val c0) (val c1) (val c2) (val c3)
      (val c4) (val nqr))

/-- `pbc_param_init_i` (`/repo/ecc/eta_T_3.c:758-767`). -/
def initI (tab : Table) : Res :=
  let m := lookupInt tab "m".toList
  let t := lookupInt tab "t".toList
  let n := lookupMpz tab "n".toList
  let n2 := lookupMpz tab "n2".toList
  finish [m, t, n, n2] (.i (val m) (val t) (val n) (val n2))

/-- `funtab` (`/repo/ecc/param.c:171-182`). -/
def funtab : List (List Char × (Table → Res)) :=
  [("a".toList, initA), ("d".toList, initD), ("e".toList, initE), ("f".toList, initF), ("g".toList, initG),
   ("a1".toList, initA1), ("i".toList, initI)]

/-- `param_set_tab` (`/repo/ecc/param.c:168-198`). -/
def setTab (tab : Table) : Res :=
  if has tab "type".toList then
    match «at» tab "type".toList with
    | none => .err 1
    | some s =>
      match funtab.find? fun p => s = p.1 with
      | none => .err 1
      | some p => p.2 tab
  else .err 1

/-- `pbc_param_init_set_buf` (`/repo/ecc/param.c:212-220`) on memory; `none` is an access outside.  With the
limit zero this is `pbc_param_init_set_str` (`:202-210`). -/
def initSetBuf (mem : List Char) (len : ℕ) : Option Res := (readSymtab mem len).map setTab

/-- `pairing_init_set_buf` (`/repo/ecc/pairing.c:88-98`): the result and the parameters the pairing is made from.
With the length zero this is `pairing_init_set_str` (`:100-102`).  Initialising the pairing from the parameters is
not part of this function. -/
def pairingInit (mem : List Char) (len : ℕ) : Option (Option (ℕ × Option Par)) :=
  (initSetBuf mem len).map fun
    | .ok p => some (0, some p)
    | .err _ => some (1, none)
    | .die => none

end Pbc.Param
