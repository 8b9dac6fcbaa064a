import Verif.Model.MontFp

/-! # `/repo/benchmark/timersa.c`: powers modulo a product of two primes by the Chinese remainder theorem -/

set_option autoImplicit false

namespace Pbc.Rsa

/-- Garner's algorithm with the two powers before it (`/repo/benchmark/timersa.c:54-73`): what is left in `adp`.  `mpz_powm`
gives the power modulo its last argument. -/
def garner (p q ipmq : ℤ) (a d : ℕ) : ℤ :=
  let adp := (a : ℤ) ^ d % p
  let adq := (a : ℤ) ^ d % q
  let adq := adq - adp
  let adq := adq * ipmq
  let adq := adq % q
  let adq := adq * p
  adp + adq

/-- One pass of the loop (`/repo/benchmark/timersa.c:37-77`) with the element `a` (its representative) and the exponent `d`
drawn in it: `p` and `q` afterwards, and `b` as both methods leave it. -/
def pass (N : ℕ) (ipmq : ℤ) (s : ℤ × ℤ) (a d : ℕ) : (ℤ × ℤ) × ZMod N × ZMod N :=
  let naive := (a : ZMod N) ^ d
  let p := s.1 - 1
  let q := s.2 - 1
  let p := p + 1
  let q := q + 1
  ((p, q), naive, ((garner p q ipmq a d : ℤ) : ZMod N))

/-- The loop: what both methods computed, pass by pass. -/
def loop (N : ℕ) (ipmq : ℤ) : ℤ × ℤ → List (ℕ × ℕ) → List (ZMod N × ZMod N)
  | _, [] => []
  | s, (a, d) :: l => (pass N ipmq s a d).2 :: loop N ipmq (pass N ipmq s a d).1 l

/-- The program (`/repo/benchmark/timersa.c:5-81`) without its clock: `p` and `q` are the primes drawn, `inv p q` is what
`mpz_invert` leaves. -/
def main (inv : ℕ → ℕ → ℕ) (p q : ℕ) (draws : List (ℕ × ℕ)) : List (ZMod (p * q) × ZMod (p * q)) :=
  loop (p * q) (inv p q) (p, q) draws

end Pbc.Rsa
