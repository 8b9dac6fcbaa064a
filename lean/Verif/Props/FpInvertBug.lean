import Verif.Props.FpBugs

/-!
# The lost carry of `mont_mul` reaches `element_invert`

`C07_lost_carry`: `fp_invert` of the Montgomery backend (`/repo/arith/montfp.c:401-422`) finishes
with a `mont_mul`, so that it too is wrong for some moduli whose top word is all ones.
-/

set_option autoImplicit false

namespace Props

open Spec Pbc Pbc.Mont

/-- A certificate that `p` is prime: `p - 1` is the product of the primes in `fs`, and `a` has order
`p - 1` modulo `p` (`f` bounds the number of bits of `p`). -/
theorem prime_of_cert {p : ℕ} (a f : ℕ) (fs : List ℕ) (hfs : ∀ q ∈ fs, q.Prime)
    (h1 : p - 1 = fs.prod) (hf : p - 1 < 2 ^ f) (h2 : powModAux p f a (p - 1) 1 % p = 1 % p)
    (h3 : ∀ q ∈ fs, powModAux p f a ((p - 1) / q) 1 % p ≠ 1 % p) : p.Prime := by
  refine lucas_primality p (a : ℕ) (zmod_pow_eq ?_) fun q hq hd => zmod_pow_ne ?_
  · rw [powMod_eq _ f _ _ hf]; exact h2
  · rw [h1] at hd
    obtain ⟨r, hr, hd⟩ := (Prime.dvd_prod_iff hq.prime).1 hd
    have := (Nat.prime_dvd_prime_iff_eq hq (hfs r hr)).1 hd
    subst this
    rw [powMod_eq _ f _ _ (lt_of_le_of_lt (Nat.div_le_self _ _) hf)]
    exact h3 q hr

/-- A prime of the certificate of `invP`. -/
def certP0 : ℕ := 1673493931

theorem certP0_prime : certP0.Prime := by
  refine prime_of_cert 2 260
    [2, 3, 3, 5, 2309, 8053]
    ?_ (by decide +kernel) (by decide +kernel) (by decide +kernel) (by decide +kernel)
  intro q hq
  simp only [List.mem_cons, List.not_mem_nil, or_false] at hq
  rcases hq with rfl | rfl | rfl | rfl | rfl | rfl
  · norm_num
  · norm_num
  · norm_num
  · norm_num
  · norm_num
  · norm_num

/-- A prime of the certificate of `invP`. -/
def certP1 : ℕ := 339266087816078385324253

theorem certP1_prime : certP1.Prime := by
  refine prime_of_cert 5 260
    [2, 2, 3, 3, 11, 43, 79, 547, 12517, 42829, 860051]
    ?_ (by decide +kernel) (by decide +kernel) (by decide +kernel) (by decide +kernel)
  intro q hq
  simp only [List.mem_cons, List.not_mem_nil, or_false] at hq
  rcases hq with rfl | rfl | rfl | rfl | rfl | rfl | rfl | rfl | rfl | rfl | rfl
  · norm_num
  · norm_num
  · norm_num
  · norm_num
  · norm_num
  · norm_num
  · norm_num
  · norm_num
  · norm_num
  · norm_num
  · norm_num

/-- A prime of the certificate of `invP`. -/
def certP2 : ℕ := 20814072030065379340734882183229186381

theorem certP2_prime : certP2.Prime := by
  refine prime_of_cert 6 260
    [2, 2, 3, 5, 13, 47, certP0, certP1]
    ?_ (by decide +kernel) (by decide +kernel) (by decide +kernel) (by decide +kernel)
  intro q hq
  simp only [List.mem_cons, List.not_mem_nil, or_false] at hq
  rcases hq with rfl | rfl | rfl | rfl | rfl | rfl | rfl | rfl
  · norm_num
  · norm_num
  · norm_num
  · norm_num
  · norm_num
  · norm_num
  · exact certP0_prime
  · exact certP1_prime

/-- A prime of the certificate of `invP`. -/
def certP3 : ℕ := 3040237405957796003338929021256310113856031124007

theorem certP3_prime : certP3.Prime := by
  refine prime_of_cert 5 260
    [2, 389, 997, 188311, certP2]
    ?_ (by decide +kernel) (by decide +kernel) (by decide +kernel) (by decide +kernel)
  intro q hq
  simp only [List.mem_cons, List.not_mem_nil, or_false] at hq
  rcases hq with rfl | rfl | rfl | rfl | rfl
  · norm_num
  · norm_num
  · norm_num
  · norm_num
  · exact certP2_prime

/-- A prime of the certificate of `invP`. -/
def certP4 : ℕ := 468155741845040002236516315067659906608613949696278109899111299

theorem certP4_prime : certP4.Prime := by
  refine prime_of_cert 2 260
    [2, 23, 61, 67, 19289, 42463, certP3]
    ?_ (by decide +kernel) (by decide +kernel) (by decide +kernel) (by decide +kernel)
  intro q hq
  simp only [List.mem_cons, List.not_mem_nil, or_false] at hq
  rcases hq with rfl | rfl | rfl | rfl | rfl | rfl | rfl
  · norm_num
  · norm_num
  · norm_num
  · norm_num
  · norm_num
  · norm_num
  · exact certP3_prime

/-- A 256-bit prime whose two most significant 64-bit words are all ones. -/
def invP : ℕ := 115792089237316195423570985008687907853269984665640515298622771403636659017857

theorem invP_prime : invP.Prime := by
  refine prime_of_cert 15 260
    [2, 2, 2, 2, 2, 2, 2, 3, 79, 42397, 192307, certP4]
    ?_ (by decide +kernel) (by decide +kernel) (by decide +kernel) (by decide +kernel)
  intro q hq
  simp only [List.mem_cons, List.not_mem_nil, or_false] at hq
  rcases hq with rfl | rfl | rfl | rfl | rfl | rfl | rfl | rfl | rfl | rfl | rfl | rfl
  · norm_num
  · norm_num
  · norm_num
  · norm_num
  · norm_num
  · norm_num
  · norm_num
  · norm_num
  · norm_num
  · norm_num
  · norm_num
  · exact certP4_prime

/-- What `field_init_mont_fp` computes for `invP` on a 64-bit machine. -/
def invF : Field :=
  { w := 64
    p := invP
    t := 4
    P := [929178491448547457, 18446744073706909370, 18446744073709551615, 18446744073709551615]
    negpinv := 5357341615130220671
    R := toLimbs (2 ^ 64) 4 48740834812604276470622079
    R3 := toLimbs (2 ^ 64) 4
      115792089237316195423067705102199366383108204061739253415994745439058964199039 }

theorem init_invP : init 64 invP = invF := by
  have hs : (Nat.size invP + 64 - 1) / 64 = 4 := by decide +kernel
  have hi : mpzInvert invP ((2 ^ 64) ^ 4)
      = 85454204063254283256696435018550445690631148591292470840150038837950211352449 :=
    mpzInvert_unique (by norm_num) (by norm_num) (by unfold invP; norm_num)
  unfold init invF
  simp only [hs, hi]
  congr 1

/-- **C07 is false as stated** for the default backend on a 64-bit machine: there is a 256-bit prime
and an element, set from a reduced nonzero integer `x`, such that `element_invert` gives a value `z`
with `x z ≠ 1`.  The Montgomery form of the modulus' `R^3` has a top word of all ones there, and the
final `mont_mul` of `fp_invert` loses a carry. -/
theorem C07_lost_carry :
    ∃ p : ℕ, p.Prime ∧ p % 2 = 1 ∧ ∃ x : ℕ, 0 < x ∧ x < p ∧ ∀ m0 fresh, ∃ m z,
      run (init 64 p) fresh m0 [.setMpz 0 x, .invert 1 0] = some m ∧
      toMpz (init 64 p) (m 1) = some z ∧ x * z % p ≠ 1 := by
  refine ⟨invP, invP_prime, by decide,
    2792342311439488342682456866015609643496670093219845336654093669101908154215,
    by norm_num, by decide, fun m0 fresh => ?_⟩
  rw [init_invP]
  have hx : ∀ c, setMpz invF c
      (2792342311439488342682456866015609643496670093219845336654093669101908154215 : ℕ)
      = ⟨true, toLimbs (2 ^ 64) 4
        59108499816853991827213699853194260541211237436934812731171016470561231861649⟩ := by
    intro c
    unfold setMpz
    rw [if_neg (by norm_num)]
    have : ((((2792342311439488342682456866015609643496670093219845336654093669101908154215 : ℕ)
      : ℤ) * 2 ^ (invF.w * invF.t)) % (invF.p : ℤ)).toNat
      = 59108499816853991827213699853194260541211237436934812731171016470561231861649 := by
      decide +kernel
    simp only [this]
    rw [if_neg (by norm_num)]
    rfl
  have hi : ∀ c, invert invF c ⟨true, toLimbs (2 ^ 64) 4
        59108499816853991827213699853194260541211237436934812731171016470561231861649⟩
      = ⟨true, toLimbs (2 ^ 64) 4
        64738451463146691413813180875175123448002157967678773816559061981696443361621⟩ := by
    intro c
    unfold invert
    have h1 : mpzInvert (val invF.β (toLimbs (2 ^ 64) 4
        59108499816853991827213699853194260541211237436934812731171016470561231861649)) invF.p
        = 340282366920938463459017018296267521584 :=
      mpzInvert_unique (by decide +kernel) (by decide +kernel) (by decide +kernel)
    simp only [h1]
    congr 1
  refine ⟨_, 90261936003109768582551733310998408701139020108494303573274906366446210652912, rfl, ?_,
    ?_⟩
  · simp only [FpOp.dest, Function.update_self, Function.update_apply, hx]
    simp only [reduceIte, hi]
    decide +kernel
  · decide +kernel

end Props
