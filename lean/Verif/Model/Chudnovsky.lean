import Mathlib.Data.Nat.Factorial.Basic
import Mathlib.Analysis.Real.Sqrt

/-!
# The constant π of the class polynomial code (`/repo/ecc/hilbert.c:212-290`)

`mpz_t` and `mpq_t` are exact.  The last three steps (`mpf_set_q`, `mpf_sqrt_ui`, `mpf_mul`) round to
the precision of GMP floats; here they are exact real operations.
-/

set_option autoImplicit false

namespace Pbc.Chudnovsky

/-- `k1` (`/repo/ecc/hilbert.c:238`). -/
def k1 : ℕ := 545140134
/-- `k2` (`/repo/ecc/hilbert.c:239`). -/
def k2 : ℕ := 13591409
/-- `k3` (`/repo/ecc/hilbert.c:216`). -/
def k3 : ℕ := 640320
/-- `k4` (`/repo/ecc/hilbert.c:240`). -/
def k4 : ℕ := 100100025
/-- `k5` (`/repo/ecc/hilbert.c:241`). -/
def k5 : ℕ := 327843840
/-- `k6` (`/repo/ecc/hilbert.c:217`). -/
def k6 : ℕ := 53360
/-- `d` (`/repo/ecc/hilbert.c:243-244`). -/
def d : ℕ := k4 * k5 * 2 ^ 3

/-- The fraction `q` of one round (`/repo/ecc/hilbert.c:248-262`). -/
def frac (n : ℕ) : ℚ :=
  let z0 := (6 * n).factorial
  let z1 := k1 * n
  let z1 := z1 + k2
  let z0 := z0 * z1
  let z1 := (3 * n).factorial
  let z2 := n.factorial
  let z2 := z2 ^ 3
  let z1 := z1 * z2
  let z2 := d ^ n
  let z1 := z1 * z2
  (z0 : ℚ) / (z1 : ℚ)

/-- The loop (`/repo/ecc/hilbert.c:247-269`): rounds left, `n`, `toggle`, `p`. -/
def loop : ℕ → ℕ → Bool → ℚ → ℚ
  | 0, _, _, p => p
  | k + 1, n, toggle, p => loop k (n + 1) (!toggle) (if toggle then p + frac n else p - frac n)

/-- `nlimit` (`/repo/ecc/hilbert.c:224`). -/
def nlimit (prec : ℕ) : ℕ := prec / 47 + 1

/-- `compute_pi` (`/repo/ecc/hilbert.c:212-290`). -/
noncomputable def computePi (prec : ℕ) : ℝ :=
  let p := loop (nlimit prec) 0 true 0
  let q := p⁻¹
  let q := q * k6
  (q : ℝ) * Real.sqrt k3

end Pbc.Chudnovsky
