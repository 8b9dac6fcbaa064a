import Mathlib.Data.List.Basic
import Mathlib.Data.Int.Basic

/-!
# Multinomials with integer coefficients (`/repo/arith/multiz.c`)

`none` is a read past the end of an array (`darray_at(x, 0)` of an empty list).
-/

set_option autoImplicit false

namespace Pbc.Multiz

/-- `struct multiz_s` (`/repo/arith/multiz.c:29-37`): an integer or a list of multinomials. -/
inductive MZ
  | int (z : ℤ)
  | arr (l : List MZ)

mutual

/-- `multiz_new_unary` (`/repo/arith/multiz.c:161-189`): apply `f` to every integer of the tree. -/
def unary (f : ℤ → ℤ) : MZ → MZ
  | .int z => .int (f z)
  | .arr l => .arr (unaryL f l)

/-- `darray_forall4(y->a, add_to_x, …)` (`/repo/arith/multiz.c:173-177,182-187`). -/
def unaryL (f : ℤ → ℤ) : List MZ → List MZ
  | [] => []
  | a :: l => unary f a :: unaryL f l

end

/-- `multiz_clone`, then walk to the first integer and replace it
(`/repo/arith/multiz.c:208-213` and `:218-223`). -/
def modFirst (f : ℤ → ℤ) : MZ → Option MZ
  | .int z => some (.int (f z))
  | .arr [] => none
  | .arr (a :: l) => (modFirst f a).map fun a' => .arr (a' :: l)

/-- `multiz_new_bin` with an integer on the left (`/repo/arith/multiz.c:202-214`). -/
def binZL (f : ℤ → ℤ → ℤ) (a : ℤ) : MZ → Option MZ
  | .int b => some (.int (f a b))
  | .arr l => modFirst (fun z => f a z) (.arr l)

/-- `multiz_new_bin` with an integer on the right (`/repo/arith/multiz.c:203-206,217-224`): the list
case calls `fun(z, b, z)`. -/
def binZR (f : ℤ → ℤ → ℤ) (b : ℤ) : MZ → Option MZ
  | .int a => some (.int (f a b))
  | .arr l => modFirst (fun z => f b z) (.arr l)

mutual

/-- `multiz_new_bin` (`/repo/arith/multiz.c:200-247`). -/
def bin (f : ℤ → ℤ → ℤ) : MZ → MZ → Option MZ
  | .int a, b => binZL f a b
  | .arr l, .int b => binZR f b (.arr l)
  | .arr l, .arr l' => (binL f l l').map .arr

/-- The two loops over the entries; the shorter list is padded with zeros
(`/repo/arith/multiz.c:232-243`). -/
def binL (f : ℤ → ℤ → ℤ) : List MZ → List MZ → Option (List MZ)
  | [], l' => l'.mapM (binZL f 0)
  | a :: l, [] => (a :: l).mapM (binZR f 0)
  | a :: l, b :: l' => (bin f a b).bind fun c => (binL f l l').map (c :: ·)

end

/-- `multiz_new_add` (`/repo/arith/multiz.c:248-250`), `f_add` (252-256). -/
def add : MZ → MZ → Option MZ := bin (· + ·)

/-- `multiz_new_sub` (`/repo/arith/multiz.c:258-260`), `f_sub` (261-265). -/
def sub : MZ → MZ → Option MZ := bin (· - ·)

/-- One entry of a product of lists (`/repo/arith/multiz.c:288-299`): `rows` are the functions
`multiz_new_mul(a_j, ·)`, `bs` the entries of `b`; the sum over `j` from `0` to `i`, starting from
the integer zero. -/
def mulEntry (rows : List (MZ → Option MZ)) (bs : List MZ) (i : ℕ) : Option MZ :=
  (List.range (i + 1)).foldlM (fun z j =>
    ((rows.getD j (fun b => some (unary (· * 0) b))) (bs.getD (i - j) (.int 0))).bind fun y =>
      add z y) (.int 0)

mutual

/-- `multiz_new_mul` (`/repo/arith/multiz.c:271-305`). -/
def mul : MZ → MZ → Option MZ
  | .int a, b => some (unary (· * a) b)
  | .arr l, .int b => some (unary (· * b) (.arr l))
  | .arr l, .arr l' =>
    ((List.range (l.length + l'.length - 1)).mapM (mulEntry (mulRows l) l')).map .arr

/-- `multiz_new_mul(a_j, ·)` for every entry `a_j` (`/repo/arith/multiz.c:292`). -/
def mulRows : List MZ → List (MZ → Option MZ)
  | [] => []
  | a :: l => mul a :: mulRows l

end

/-- `f_mul_mpz` (`/repo/arith/multiz.c:312-316`) and `f_mul_si` (322-326). -/
def mulMpz (a : MZ) (z : ℤ) : MZ := unary (· * z) a

/-- `multiz_new_neg` (`/repo/arith/multiz.c:333-335`), `f_neg` (343-347). -/
def neg (a : MZ) : MZ := unary (fun z => -z) a

/-- `f_set`, `multiz_clone` (`/repo/arith/multiz.c:196-198,337-341`). -/
def clone (a : MZ) : MZ := unary id a

/-- `multiz_is0` (`/repo/arith/multiz.c:379-381`). -/
def is0 : MZ → Bool
  | .int z => z = 0
  | .arr _ => false

mutual

/-- The sign of the leading coefficient, found by `darray_last`
(`/repo/arith/multiz.c:412-414,419-421,428-430,434-436`); `none` for an empty list. -/
def leadSgn : MZ → Option ℤ
  | .int z => some z.sign
  | .arr l => leadSgnL l

/-- `leadSgn` of the last entry. -/
def leadSgnL : List MZ → Option ℤ
  | [] => none
  | [a] => leadSgn a
  | _ :: b :: l => leadSgnL (b :: l)

end

mutual

/-- `multiz_cmp` (`/repo/arith/multiz.c:405-443`). -/
def cmp : MZ → MZ → Option ℤ
  | .int a, .int b => some (a - b).sign
  | .int _, .arr l' => (leadSgn (.arr l')).map fun s => -s
  | .arr l, .int _ => leadSgn (.arr l)
  | .arr l, .arr l' =>
    if l'.length < l.length then leadSgn (.arr l)
    else if l.length < l'.length then (leadSgn (.arr l')).map fun s => -s
    else cmpL l l'

/-- The loop of `multiz_cmp` from the last entry to the first (`/repo/arith/multiz.c:438-442`). -/
def cmpL : List MZ → List MZ → Option ℤ
  | a :: l, b :: l' => (cmpL l l').bind fun s => if s ≠ 0 then some s else cmp a b
  | _, _ => some 0

end

end Pbc.Multiz
