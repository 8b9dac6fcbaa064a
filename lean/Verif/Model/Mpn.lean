import Mathlib.Data.Nat.Bitwise

/-!
# GMP's limb-level functions (`mpn_*`)

PBC's prime-field backends call GMP's `mpn_*` functions on arrays of machine words ("limbs").
An array of limbs is modelled as a little-endian `List ℕ`; `β` is the limb base
(`2^64` or `2^32` in C).  Only the functions used by `/repo/arith/montfp.c`,
`/repo/arith/fasterfp.c` and `/repo/arith/fastfp.c` are modelled.  Their meaning is the one
documented in the GMP manual ("Low-level Functions"), done limb by limb.
-/

set_option autoImplicit false

namespace Pbc

/-- The natural number denoted by a little-endian array of limbs
(`mpz_import(z, n, -1, sizeof(mp_limb_t), 0, 0, d)`, `/repo/arith/montfp.c:412`). -/
def val (β : ℕ) : List ℕ → ℕ
  | [] => 0
  | x :: xs => x + β * val β xs

/-- `set_limbs` (`/repo/arith/montfp.c:44-49`): `mpz_export` followed by zero padding to `t`
limbs.  The C code requires that the number fits in `t` limbs; here higher limbs would be
dropped. -/
def toLimbs (β : ℕ) : ℕ → ℕ → List ℕ
  | 0, _ => []
  | t + 1, n => n % β :: toLimbs β t (n / β)

/-- `mpn_add_n`, with carry in; returns the limbs and the carry out
(used at `/repo/arith/montfp.c:232,289,326`). -/
def mpnAddN (β : ℕ) : List ℕ → List ℕ → ℕ → List ℕ × ℕ
  | x :: xs, y :: ys, c =>
    let r := mpnAddN β xs ys ((x + y + c) / β)
    ((x + y + c) % β :: r.1, r.2)
  | _, _, c => ([], c)

/-- `mpn_sub_n`, with borrow in; returns the limbs and the borrow out
(used at `/repo/arith/montfp.c:115,237,302,324,351`). -/
def mpnSubN (β : ℕ) : List ℕ → List ℕ → ℕ → List ℕ × ℕ
  | x :: xs, y :: ys, c =>
    let r := mpnSubN β xs ys (if x < y + c then 1 else 0)
    ((β + x - (y + c)) % β :: r.1, r.2)
  | _, _, c => ([], c)

/-- `mpn_cmp` (used at `/repo/arith/montfp.c:114,158,240,318,350,455`): compares from the most
significant limb down. -/
def mpnCmp : List ℕ → List ℕ → Ordering
  | x :: xs, y :: ys =>
    match mpnCmp xs ys with
    | Ordering.eq => compare x y
    | o => o
  | _, _ => Ordering.eq

/-- `mpn_mul_1` with carry in (used at `/repo/arith/montfp.c:341`). -/
def mpnMul1 (β : ℕ) : List ℕ → ℕ → ℕ → List ℕ × ℕ
  | x :: xs, a, c =>
    let r := mpnMul1 β xs a ((x * a + c) / β)
    ((x * a + c) % β :: r.1, r.2)
  | [], _, c => ([], c)

/-- `mpn_addmul_1`: `z += b * a`, with carry in; returns the low limbs and the carry limb
(used at `/repo/arith/montfp.c:110,342,346,347`). -/
def mpnAddmul1 (β : ℕ) : List ℕ → List ℕ → ℕ → ℕ → List ℕ × ℕ
  | z :: zs, x :: xs, a, c =>
    let r := mpnAddmul1 β zs xs a ((z + x * a + c) / β)
    ((z + x * a + c) % β :: r.1, r.2)
  | _, _, _, c => ([], c)

/-- `mpn_add_1` (used at `/repo/arith/montfp.c:112`): adds a single limb, returns the carry. -/
def mpnAdd1 (β : ℕ) : List ℕ → ℕ → List ℕ × ℕ
  | z :: zs, c =>
    let r := mpnAdd1 β zs ((z + c) / β)
    ((z + c) % β :: r.1, r.2)
  | [], c => ([], c)

/-- `mpn_sub_1` (used at `/repo/arith/fasterfp.c:86`, `/repo/arith/fastfp.c:61`): subtracts a
single limb, returns the borrow. -/
def mpnSub1 (β : ℕ) : List ℕ → ℕ → List ℕ × ℕ
  | z :: zs, c =>
    let r := mpnSub1 β zs (if z < c then 1 else 0)
    ((β + z - c) % β :: r.1, r.2)
  | [], c => ([], c)

/-- `mpn_lshift(.., 1)` (used at `/repo/arith/montfp.c:260`): shifts left by one bit, returns the
bit shifted out. `c` is the bit shifted in. -/
def mpnLshift1 (β : ℕ) : List ℕ → ℕ → List ℕ × ℕ
  | x :: xs, c =>
    let r := mpnLshift1 β xs (2 * x / β)
    (((2 * x) % β + c) :: r.1, r.2)
  | [], c => ([], c)

/-- `mpn_rshift(.., 1)` (used at `/repo/arith/montfp.c:292`): shifts right by one bit; the bit
shifted out is ignored by the callers. -/
def mpnRshift1 (β : ℕ) : List ℕ → List ℕ
  | x :: y :: xs => (x / 2 + (y % 2) * (β / 2)) :: mpnRshift1 β (y :: xs)
  | [x] => [x / 2]
  | [] => []

/-- `mpn_mul_n` (used at `/repo/arith/fasterfp.c:299`): the `2t`-limb product.  Modelled on
values: GMP documents the result as the product. -/
def mpnMulN (β : ℕ) (t : ℕ) (a b : List ℕ) : List ℕ := toLimbs β (2 * t) (val β a * val β b)

/-- The remainder computed by `mpn_tdiv_qr` (used at `/repo/arith/fasterfp.c:301`), `t` limbs.
Modelled on values: GMP documents the result as the remainder. -/
def mpnTdivR (β : ℕ) (t : ℕ) (n d : List ℕ) : List ℕ := toLimbs β t (val β n % val β d)

/-- An array of limbs whose entries are words. -/
def Limbs (β : ℕ) (t : ℕ) (l : List ℕ) : Prop := l.length = t ∧ ∀ x ∈ l, x < β

end Pbc
