import Verif.Model.Darray
import Mathlib.Data.Nat.Digits.Defs

/-!
# Reading and writing pairing parameters (`/repo/ecc/param.c`)

Memory from the input pointer on is a list of characters; running off the list is an access past the
memory that is there, `none`.  `left` counts the characters before `end` (`none`: no limit).
-/

set_option autoImplicit false

namespace Pbc.Param

open Darray

/-- The white space of `token_get` (`/repo/ecc/param.c:55`). -/
def ws (c : Char) : Bool := c = ' ' || c = '\t' || c = '\r' || c = '\n'

/-- The characters that end a word (`/repo/ecc/param.c:77`). -/
def delim (c : Char) : Bool := ws c || c = '<' || c = '/' || c = '>'

/-- A position in the input: the rest of the memory and the characters left before `end`. -/
abbrev Pos := List Char × Option ℕ

/-- The first loop of `token_get` (`/repo/ecc/param.c:49-64`): skip white space and comments.
`comment` is true inside a comment.  The inner `none` is the end of the input. -/
def skip (comment : Bool) (mem : List Char) (left : Option ℕ) : Option (Option (Char × Pos)) :=
  if left = some 0 then some none
  else
    match mem with
    | [] => none
    | c :: rest =>
      if c = '\x00' then some none
      else if comment then skip (c ≠ '\n') rest (left.map (· - 1))
      else if ws c then skip false rest (left.map (· - 1))
      else if c = '#' then skip true rest (left.map (· - 1))
      else some (some (c, rest, left.map (· - 1)))

/-- The second loop of `token_get` (`/repo/ecc/param.c:70-78`): the rest of a word.  The character
that ends it is consumed.  (The buffer grows as needed, `:71-76`.) -/
def word (mem : List Char) (left : Option ℕ) : Option (List Char × Pos) :=
  if left = some 0 then some ([], mem, left)
  else
    match mem with
    | [] => none
    | c :: rest =>
      if c = '\x00' then some ([], c :: rest, left)
      else if delim c then some ([], rest, left.map (· - 1))
      else (word rest (left.map (· - 1))).map fun w => (c :: w.1, w.2)

/-- `token_get` (`/repo/ecc/param.c:42-83`); the inner `none` is `token_eof`. -/
def tokenGet (p : Pos) : Option (Option (List Char × Pos)) :=
  (skip false p.1 p.2).bind fun
    | none => some none
    | some (c, p') => (word p'.1 p'.2).map fun w => some (c :: w.1, w.2)

/-- A table from names to texts. -/
abbrev Table := List (List Char × List Char)

/-- The loop of `read_symtab` (`/repo/ecc/param.c:98-109`), with fuel. -/
def readLoop : ℕ → Table → Pos → Option Table
  | 0, _, _ => none
  | f + 1, tab, p =>
    (tokenGet p).bind fun
      | none => some tab
      | some (key, p1) =>
        (tokenGet p1).bind fun
          | none => some tab
          | some (val, p2) => readLoop f (put tab val key) p2

/-- `read_symtab` (`/repo/ecc/param.c:94-111`): `limit = 0` means no limit. -/
def readSymtab (mem : List Char) (limit : ℕ) : Option Table :=
  readLoop (mem.length + 1) [] (mem, if limit = 0 then none else some limit)

/-! ### Numbers -/

/-- `mpz_out_str(stream, 0, z)`: decimal. -/
def natStr (n : ℕ) : List Char :=
  if n = 0 then ['0'] else (Nat.digits 10 n).reverse.map Nat.digitChar

/-- `mpz_out_str(stream, 0, z)`. -/
def intStr (z : ℤ) : List Char := if z < 0 then '-' :: natStr z.natAbs else natStr z.natAbs

/-- The value of a digit; letters count in either case. -/
def digitVal (c : Char) : ℕ :=
  if '0' ≤ c ∧ c ≤ '9' then c.toNat - 48
  else if 'a' ≤ c ∧ c ≤ 'z' then c.toNat - 87
  else if 'A' ≤ c ∧ c ≤ 'Z' then c.toNat - 55
  else 99

/-- The digits of a number in a base; `none` for a character that is not a digit or for no digit. -/
def parseDigits (base : ℕ) (s : List Char) : Option ℕ :=
  if s = [] ∨ ∃ c ∈ s, base ≤ digitVal c then none
  else some (s.foldl (fun n c => base * n + digitVal c) 0)

/-- The magnitude read by `mpz_set_str(z, s, 0)`: `0x`, `0b` and `0` prefixes choose the base; a
prefix with nothing behind it is zero. -/
def parseMag : List Char → Option ℕ
  | ['0', 'x'] | ['0', 'X'] | ['0', 'b'] | ['0', 'B'] => some 0
  | '0' :: 'x' :: s => parseDigits 16 s
  | '0' :: 'X' :: s => parseDigits 16 s
  | '0' :: 'b' :: s => parseDigits 2 s
  | '0' :: 'B' :: s => parseDigits 2 s
  | '0' :: s => parseDigits 8 ('0' :: s)
  | s => parseDigits 10 s

/-- `mpz_set_str(z, s, 0)` on a text without white space; `none` is the result `-1`, with `z`
unchanged. -/
def mpzSetStr : List Char → Option ℤ
  | '-' :: s => (parseMag s).map fun n : ℕ => -(n : ℤ)
  | s => (parseMag s).map fun n : ℕ => (n : ℤ)

/-- `lookup_mpz` (`/repo/ecc/param.c:142-150`) with `lookup` (134-140); the `none` result is the
error code 1.  The result of `mpz_set_str` is not looked at: a text that is no number leaves the
value, which is zero after `mpz_init`. -/
def lookupMpz (tab : Table) (key : List Char) : Option ℤ :=
  if has tab key then («at» tab key).map fun data => (mpzSetStr data).getD 0 else none

/-- `(int) mpz_get_si(z)`: the low 64 bits of `|z|`, with the sign, cut to an `int`. -/
def toInt (z : ℤ) : ℤ := Int.bmod (z.sign * (z.natAbs % 2 ^ 63 : ℕ)) (2 ^ 32)

/-- `lookup_int` (`/repo/ecc/param.c:152-166`). -/
def lookupInt (tab : Table) (key : List Char) : Option ℤ := (lookupMpz tab key).map toInt

/-- `param_out_type` (`/repo/ecc/param.c:115-117`). -/
def outType (t : List Char) : List Char := "type ".toList ++ t ++ ['\n']

/-- `param_out_mpz`, `param_out_int` (`/repo/ecc/param.c:119-132`). -/
def outMpz (key : List Char) (z : ℤ) : List Char := key ++ [' '] ++ intStr z ++ ['\n']

/-- A parameter file as the `*_out_str` functions write it (`/repo/ecc/a_param.c:36-46`, `:1586-1593`,
`/repo/ecc/d_param.c:73-93`, `/repo/ecc/e_param.c:50-62`, `/repo/ecc/f_param.c:60-69`,
`/repo/ecc/g_param.c:66-84`): the type, then one line for each value. -/
def outParam (t : List Char) (vals : List (List Char × ℤ)) : List Char :=
  outType t ++ (vals.map fun kv => outMpz kv.1 kv.2).flatten

/-- What the initialisers `pbc_param_init_*` read: `true` marks `lookup_int`. -/
def initParam (tab : Table) (keys : List (List Char × Bool)) : Option (List ℤ) :=
  keys.mapM fun k => if k.2 then lookupInt tab k.1 else lookupMpz tab k.1

/-- The names written for type A (`/repo/ecc/a_param.c:39-45`). -/
def outKeysA : List String := ["q", "h", "r", "exp2", "exp1", "sign1", "sign0"]
/-- The names read for type A (`/repo/ecc/a_param.c:1494-1500`). -/
def inKeysA : List (String × Bool) := [("q", false), ("r", false), ("h", false), ("exp2", true),
  ("exp1", true), ("sign1", true), ("sign0", true)]
/-- The names written for type A1 (`/repo/ecc/a_param.c:1590-1592`). -/
def outKeysA1 : List String := ["p", "n", "l"]
/-- The names read for type A1 (`/repo/ecc/a_param.c:2294-2296`). -/
def inKeysA1 : List (String × Bool) := [("p", false), ("n", false), ("l", true)]
/-- The names of the coefficients (`sprintf(s, "coeff%d", i)`, `/repo/ecc/d_param.c:89,1221`,
`/repo/ecc/g_param.c:80,1398`). -/
def coeffKey (i : ℕ) : List Char := "coeff".toList ++ natStr i
/-- The names written for type D (`/repo/ecc/d_param.c:79-92`), without the coefficients. -/
def outKeysD : List String := ["q", "n", "h", "r", "a", "b", "k", "nk", "hk"]
/-- The names read for type D (`/repo/ecc/d_param.c:1206-1215`), without the coefficients. -/
def inKeysD : List (String × Bool) := [("q", false), ("n", false), ("h", false), ("r", false),
  ("a", false), ("b", false), ("k", true), ("nk", false), ("hk", false), ("nqr", false)]
/-- The names written for type E (`/repo/ecc/e_param.c:53-61`). -/
def outKeysE : List String := ["q", "r", "h", "a", "b", "exp2", "exp1", "sign1", "sign0"]
/-- The names read for type E (`/repo/ecc/e_param.c:896-904`). -/
def inKeysE : List (String × Bool) := [("q", false), ("r", false), ("h", false), ("a", false),
  ("b", false), ("exp2", true), ("exp1", true), ("sign1", true), ("sign0", true)]
/-- The names written for type F (`/repo/ecc/f_param.c:63-68`). -/
def outKeysF : List String := ["q", "r", "b", "beta", "alpha0", "alpha1"]
/-- The names read for type F (`/repo/ecc/f_param.c:472-477`). -/
def inKeysF : List (String × Bool) := [("q", false), ("r", false), ("b", false), ("beta", false),
  ("alpha0", false), ("alpha1", false)]
/-- The names written for type G (`/repo/ecc/g_param.c:71-83`), five coefficients. -/
def outKeysG : List String := ["q", "n", "h", "r", "a", "b", "nk", "hk", "coeff0", "coeff1",
  "coeff2", "coeff3", "coeff4", "nqr"]
/-- The names read for type G (`/repo/ecc/g_param.c:1384-1400`). -/
def inKeysG : List (String × Bool) := [("q", false), ("n", false), ("h", false), ("r", false),
  ("a", false), ("b", false), ("nk", false), ("hk", false), ("nqr", false), ("coeff0", false),
  ("coeff1", false), ("coeff2", false), ("coeff3", false), ("coeff4", false)]

end Pbc.Param
