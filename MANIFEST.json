{
 "claims": [
  {
   "property": "C01",
   "status": "proved",
   "theorems": [
    "Props.C01_program",
    "Props.C01_program_prime",
    "Props.C01_is0_is1",
    "Props.C01_composite_zero_product"
   ],
   "note": "Montgomery backend, any program over a register file with any aliasing, any odd modulus (prime or not); operations that multiply need a top word that is not all ones. Preconditions that are needed (zero products for composite moduli etc.) are in Spec.montSafe and shown necessary in Verif/Props/FpBugs.lean."
  },
  {
   "property": "C02",
   "status": "partial",
   "theorems": [
    "Props.C02_mont_mul_partial",
    "Props.C02_lost_carry"
   ],
   "note": "Proved when the top word of the modulus is not all ones. False otherwise: C02_lost_carry gives a 128-bit prime and operands."
  },
  {
   "property": "C03",
   "status": "partial",
   "theorems": [
    "Props.C03_halve_partial",
    "Props.C03_halve_depends_on_destination",
    "Props.C03_half_ne_zero"
   ],
   "note": "Proved when the destination is nonzero or the operand is zero. False otherwise for every odd modulus: C03_halve_depends_on_destination."
  },
  {
   "property": "C04",
   "status": "partial",
   "theorems": [
    "Props.C04_cmp_partial",
    "Props.C04_faster_partial",
    "Props.C04_fast",
    "Props.C04_naive",
    "Props.C04_cmp_stale"
   ],
   "note": "All four backends. Montgomery: proved unless the first argument is nonzero and the second is zero; false in that case (C04_cmp_stale). Faster: the same restriction. Fast and naive: no restriction."
  },
  {
   "property": "C05",
   "status": "proved",
   "theorems": [
    "Props.C05_bytes_round_trip",
    "Props.C05_bytes_injective",
    "Props.C05_faster",
    "Props.C05_fast",
    "Props.C05_naive"
   ],
   "note": "All four backends."
  },
  {
   "property": "C06",
   "status": "partial",
   "theorems": [
    "Props.C06_from_bytes_partial",
    "Props.C06_from_bytes_multiple"
   ],
   "note": "Proved for buffers that are zero or not a multiple of p. False for the encoding of p: C06_from_bytes_multiple."
  },
  {
   "property": "C07",
   "status": "partial",
   "theorems": [
    "Props.C07_invert_partial",
    "Props.C07_faster",
    "Props.C07_fast",
    "Props.C07_naive",
    "Props.C07_lost_carry"
   ],
   "note": "Three backends: every nonzero element modulo every odd prime. Montgomery backend: every unit modulo any odd modulus whose top word is not all ones. False otherwise: C07_lost_carry gives a 256-bit prime (with a primality certificate) and an element whose computed inverse is wrong."
  },
  {
   "property": "C08",
   "status": "partial",
   "theorems": [
    "Props.C08_pow_partial",
    "Props.C08_zero_pow_zero"
   ],
   "note": "Proved except 0^0, which gives 0 in two of the backends: C08_zero_pow_zero."
  },
  {
   "property": "C09",
   "status": "proved",
   "theorems": [
    "Props.C09_sign",
    "Props.C09_faster",
    "Props.C09_fast",
    "Props.C09_naive"
   ],
   "note": "All four backends."
  },
  {
   "property": "C10",
   "status": "proved",
   "theorems": [
    "Props.C10_faster",
    "Props.C10_fast",
    "Props.C10_naive",
    "Props.C10_backends_agree",
    "Props.C10_is0_is1"
   ],
   "note": "All four multi-word backends, any program within Spec.commonSafe, including zero and one tests."
  },
  {
   "property": "C11",
   "status": "partial",
   "theorems": [
    "Props.C11_hash_range_partial",
    "Props.C11_hash_hits_limit",
    "Props.C11_mont_from_hash",
    "Props.C11_naive_zero_not_zero"
   ],
   "note": "z <= limit and the exact value are proved; z < limit is false (C11_hash_hits_limit). The Montgomery backend still always yields a canonical element (C11_mont_from_hash); the naive backend can yield a non-canonical zero (C11_naive_zero_not_zero)."
  },
  {
   "property": "C12",
   "status": "proved",
   "theorems": [
    "Props.C12_hash_fill"
   ],
   "note": "Buffer content for every digest length; the list model makes an overrun a wrong length."
  },
  {
   "property": "C13",
   "status": "proved",
   "theorems": [
    "Props.C13_out_raw_n",
    "Props.C13_out_of_bounds"
   ],
   "note": "Also shows that the bound is necessary."
  },
  {
   "property": "C14",
   "status": "proved",
   "theorems": [
    "Props.C14_set_str",
    "Props.C14_bad_base",
    "Props.C14_round_trip"
   ],
   "note": "Strings are byte lists, C locale, no sign, as in the code."
  },
  {
   "property": "C15",
   "status": "proved",
   "theorems": [
    "Props.C15_trickle",
    "Props.C15_read_back",
    "Props.C15_exact"
   ],
   "note": "The GMP length estimate is a parameter (exact or one too large)."
  },
  {
   "property": "C16",
   "status": "proved",
   "theorems": [
    "Props.C16_trial_divide",
    "Props.C16_complete",
    "Props.C16_zero_hangs"
   ],
   "note": "Primality test and next prime are taken to be exact. n = 0 is shown to hang."
  },
  {
   "property": "C17",
   "status": "proved",
   "theorems": [
    "Props.C17_pow",
    "Props.C17_window"
   ],
   "note": ""
  },
  {
   "property": "C18",
   "status": "proved",
   "theorems": [
    "Props.C18_pow2",
    "Props.C18_pow3"
   ],
   "note": ""
  },
  {
   "property": "C19",
   "status": "partial",
   "theorems": [
    "Props.C19_pp_pow_partial",
    "Props.C19_fp_wrong",
    "Props.C19_order_zero"
   ],
   "note": "Holds for exponents up to the declared order and in groups annihilated by it; false in every prime field p > 2 (C19_fp_wrong) and divides by zero when the order is 0 (C19_order_zero)."
  },
  {
   "property": "C20",
   "status": "proved",
   "theorems": [
    "Props.C20_sqrt"
   ],
   "note": "Over every finite field of odd order; the field operations are those of the field (C01)."
  },
  {
   "property": "C21",
   "status": "proved",
   "theorems": [
    "Props.C21_is_sqr",
    "Props.C21_backends"
   ],
   "note": "All four backends; the Legendre symbol computed by GMP is Mathlib's Jacobi symbol."
  },
  {
   "property": "C22",
   "status": "partial",
   "theorems": [
    "Pbc.Z.C22_ring_partial",
    "Pbc.Z.C22_halve_fails",
    "Pbc.Z.C22_pow",
    "Pbc.Z.C22_sqrt",
    "Pbc.Z.C22_is_sqr_fails",
    "Pbc.Z.C22_cmp",
    "Pbc.Z.C22_bytes_partial",
    "Pbc.Z.C22_from_bytes_count_fails",
    "Pbc.Z.C22_zero_fails",
    "Pbc.Z.C22_length"
   ],
   "note": "Ring operations, powers, comparison, square roots and the byte round trip of nonzero integers proved; halve returns 0, is_sqr accepts any perfect power, length_in_bytes one short when bits%8=0, from_bytes returns 4 too few and zero is not written: failure theorems."
  },
  {
   "property": "C23",
   "status": "partial",
   "theorems": [
    "Pbc.Multiz.C23_add",
    "Pbc.Multiz.C23_mul",
    "Pbc.Multiz.C23_unary",
    "Pbc.Multiz.C23_sub_partial",
    "Pbc.Multiz.C23_sub_fails",
    "Pbc.Multiz.C23_cmp_fails",
    "Pbc.Multiz.C23_cmp_partial",
    "Pbc.Multiz.C23_cmp_order"
   ],
   "note": "Sums, products, negation, scalar multiples proved for all nested multinomials; subtraction proved for aligned shapes, with an exact formula for the wrong result of list-minus-integer and integer-minus-list."
  },
  {
   "property": "C24",
   "status": "proved",
   "theorems": [
    "Props.C24_programs",
    "Props.C24_mul_any",
    "Props.C24_invert",
    "Props.C24_tests"
   ],
   "note": "Any program with any aliasing over any base field and non-square v."
  },
  {
   "property": "C25",
   "status": "proved",
   "theorems": [
    "Props.C25_programs",
    "Props.C25_agree"
   ],
   "note": "Any program over K(i), and equality with the general routines with v = -1."
  },
  {
   "property": "C26",
   "status": "partial",
   "theorems": [
    "Props.C26_is_sqr",
    "Props.C26_fi_is_sqr",
    "Props.C26_sqrt_partial",
    "Props.C26_fi_sqrt_partial",
    "Props.C26_sqrt_base_fails",
    "Props.C26_base_is_sqr"
   ],
   "note": "is_sqr proved for finite fields. sqrt proved for squares outside the base field; false for squares of the base field (C26_sqrt_base_fails, C26_base_is_sqr)."
  },
  {
   "property": "C27",
   "status": "proved",
   "theorems": [
    "Props.C27_fp_round_trip",
    "Props.C27_round_trip",
    "Props.C27_injective",
    "Props.C27_sign",
    "Props.C27_from_hash"
   ],
   "note": "Relative to the base field's encoding and sign; instantiated for the prime fields."
  },
  {
   "property": "C28",
   "status": "proved",
   "theorems": [
    "Props.C28_program",
    "Props.C28_operations",
    "Props.C28_tests",
    "Props.C28_sign"
   ],
   "note": "All programs over R[X] refine polynomial arithmetic and keep arrays normalised, any aliasing."
  },
  {
   "property": "C29",
   "status": "proved",
   "theorems": [
    "Props.C29_division",
    "Props.C29_unique",
    "Props.C29_zero"
   ],
   "note": "Existence, degree bound and agreement with Mathlib's Euclidean division; division by zero never returns."
  },
  {
   "property": "C30",
   "status": "partial",
   "theorems": [
    "Props.C30_gcd_partial",
    "Props.C30_zero_fails",
    "Props.C30_make_monic",
    "Props.C30_monic_gcd_partial"
   ],
   "note": "gcd proved when the second argument is nonzero; with second argument zero the code dies (C30_zero_fails)."
  },
  {
   "property": "C31",
   "status": "proved",
   "theorems": [
    "Props.C31_multiplication",
    "Props.C31_any_root",
    "Props.C31_tests",
    "Props.C31_linear"
   ],
   "note": "All commutative rings, all monic moduli of positive degree, all aliasing; the result is the remainder modulo f."
  },
  {
   "property": "C32",
   "status": "proved",
   "theorems": [
    "Props.C32_inverse",
    "Props.C32_programs"
   ],
   "note": "Irreducible f; single inversion and arbitrary programs over the field."
  },
  {
   "property": "C33",
   "status": "proved",
   "theorems": [
    "Props.C33_programs",
    "Props.C33_on_curve",
    "Props.C33_tests"
   ],
   "note": "All programs of calls refine Mathlib's group of points; tests and comparison included."
  },
  {
   "property": "C34",
   "status": "proved",
   "theorems": [
    "Props.C34_scalar"
   ],
   "note": ""
  },
  {
   "property": "C35",
   "status": "partial",
   "theorems": [
    "Props.C35_double_partial",
    "Props.C35_double_y0_fails",
    "Props.C35_double_fresh_fails",
    "Props.C35_add_partial",
    "Props.C35_add_x_fails"
   ],
   "note": "Correct when the common inversion is of a nonzero product and outputs do not hold O; the other cases are proved to fail."
  },
  {
   "property": "C36",
   "status": "proved",
   "theorems": [
    "Props.C36_from_bytes"
   ],
   "note": ""
  },
  {
   "property": "C37",
   "status": "partial",
   "theorems": [
    "Props.C37_round_trip_partial",
    "Props.C37_identity",
    "Props.C37_identity_fails",
    "Props.C37_compressed",
    "Props.C37_x_only"
   ],
   "note": "Non-O points round trip (plain and compressed); O is proved to round trip exactly when its leftover coordinates are off the curve."
  },
  {
   "property": "C38",
   "status": "partial",
   "theorems": [
    "Props.C38_partial",
    "Props.C38_fails"
   ],
   "note": "Exactly characterised: on the curve iff the right-hand side is a square; counterexample given."
  },
  {
   "property": "C39",
   "status": "proved",
   "theorems": [
    "Props.C39_from_hash",
    "Props.C39_random"
   ],
   "note": "For all executions in which the search terminates."
  },
  {
   "property": "C40",
   "status": "proved",
   "theorems": [
    "Props.C40_trace",
    "Props.C40_zero",
    "Props.C40_points"
   ],
   "note": "C40_trace: the recurrence for all q, t, n. C40_points: the result is the number of points over the extension (the theorem of Weil for elliptic curves in odd characteristic, proved in Lemmas/Height, Hasse, Weil)."
  },
  {
   "property": "C41",
   "status": "proved",
   "theorems": [
    "Props.C41_curve_j",
    "Props.C41_twist"
   ],
   "note": ""
  },
  {
   "property": "C42",
   "status": "proved",
   "theorems": [
    "Props.C42_programs",
    "Props.C42_iso",
    "Props.C42_random"
   ],
   "note": "Group law of Mathlib on nonsingular points, isomorphic to the multiplicative group; random can return the node when the first draw is 0 (C42_random)."
  },
  {
   "property": "C43",
   "status": "partial",
   "theorems": [
    "Props.C43_generic_prod_fails",
    "Pbc.PairingA.C43_typeA",
    "Pbc.PairingA.C43_prod_fails",
    "Pbc.PairingA.C43_prod_fails_instance",
    "Pbc.PairingD.C43_typeD",
    "Pbc.PairingF.C43_typeF"
   ],
   "note": "Pairing and preprocessed pairing with O give 1 (type A; the tests are in the shared inline functions). The product claim is false: C43_prod_fails shows that one identity among the inputs makes the whole product 1, with an instance where the true product is not 1."
  },
  {
   "property": "C44",
   "status": "proved",
   "theorems": [
    "Pbc.PairingA.C44_typeA",
    "Pbc.PairingA.C44_typeA1",
    "Pbc.PairingD.C44_typeD",
    "Pbc.PairingF.C44_typeF"
   ],
   "note": "Types A and A1: equality with the affine method for all points of the plane; equality with the default projective method on the r-torsion is in C80/C81. Types D and G: for all points of the plane, whenever preprocessing stays inside its table (C54). Type F: as long as the element keeps its value (C91)."
  },
  {
   "property": "C45",
   "status": "proved",
   "theorems": [
    "Props.C45_generic",
    "Pbc.PairingA.C45_typeA",
    "Pbc.PairingA.C45_typeA1",
    "Pbc.PairingD.C45_typeD",
    "Pbc.PairingD.C45_generic",
    "Pbc.PairingE.C45_typeE",
    "Pbc.PairingF.C45_typeF"
   ],
   "note": "Types A, A1, D, E and F, all lengths >= 1; the generic routine (types E, F, G) for arguments other than O."
  },
  {
   "property": "C46",
   "status": "partial",
   "theorems": [
    "Pbc.PairingA.C46_typeA",
    "Pbc.PairingA.C46_typeA1",
    "Pbc.PairingD.C46_typeD_fails",
    "Pbc.PairingE.C46_typeE"
   ],
   "note": "Types A, A1 and E agree. For types D and G the claim is false (C46_typeD_fails): the code lets Zx and Zy name the same coordinate."
  },
  {
   "property": "C47",
   "status": "proved",
   "theorems": [
    "Pbc.PairingA.C47_neg"
   ],
   "note": "On the r-torsion, default projective method."
  },
  {
   "property": "C48",
   "status": "proved",
   "theorems": [
    "Pbc.PairingA.C48_finalpow",
    "Pbc.PairingA.C48_typeA",
    "Pbc.PairingA.C48_typeA1",
    "Pbc.PairingD.C48_typeD",
    "Pbc.PairingD.C48_typeG",
    "Pbc.PairingE.C48_typeE",
    "Pbc.PairingF.C48_typeF"
   ],
   "note": "All inputs, on the curve or not, all methods of types A and A1; GT random/from_hash through the final powering; types D, E, F and G for nonzero arguments of the final powering."
  },
  {
   "property": "C49",
   "status": "partial",
   "theorems": [
    "Pbc.PairingA.C49_lucas_odd",
    "Pbc.PairingA.C49_odd_cofactor",
    "Pbc.PairingD.C49_lucas_even",
    "Pbc.PairingD.C49_lucas_even_fails"
   ],
   "note": "lucas_odd for all even cofactors, with the exact value for odd ones; lucas_even for all odd cofactors except at -1 (and at 1 for type G), where it divides by zero (C49_lucas_even_fails)."
  },
  {
   "property": "C50",
   "status": "partial",
   "theorems": [
    "Pbc.PairingD.C50_typeD",
    "Pbc.PairingD.C50_typeG_partial",
    "Pbc.PairingF.C50_typeF",
    "Pbc.PairingF.C50_typeF_zero"
   ],
   "note": "Type D (k = 6 and the generic case) and type F for every nonzero element. Type G: exactly the elements whose (q^5-1)(q+1)-th power is 1 make it fail."
  },
  {
   "property": "C51",
   "status": "proved",
   "theorems": [
    "Pbc.PairingF.C51_typeF"
   ],
   "note": "Type F: the sparse multiplication of a line value into the accumulator equals the product in the field of q^12 elements, for every accumulator."
  },
  {
   "property": "C52",
   "status": "partial",
   "theorems": [
    "Props.C52_group",
    "Props.C52_roots",
    "Props.C52_sample_partial",
    "Props.C52_bytes",
    "Props.C52_from_bytes_fails"
   ],
   "note": "Both notations compute in the group of units for every sequence of operations, and roots of unity stay roots of unity. A random element needs the field below not to give zero (C52_sample_partial); parsing does not check membership (C52_from_bytes_fails). Exponents are not negative."
  },
  {
   "property": "C53",
   "status": "partial",
   "theorems": [
    "Props.C53_coddh",
    "Pbc.PairingD.C53_typeD",
    "Pbc.PairingD.C53_typeD_identity_fails",
    "Pbc.PairingE.C53_typeE",
    "Pbc.PairingF.C53_typeF",
    "Pbc.NonDeg.C53_typeD_all"
   ],
   "note": "For every bilinear map on groups of prime order, generic routine, and types E and F; type D's own routine when no argument is O. With O among the arguments type D's routine can fail (C53_typeD_identity_fails)."
  },
  {
   "property": "C54",
   "status": "partial",
   "theorems": [
    "Pbc.PairingD.C54_partial",
    "Pbc.PairingD.C54_fails",
    "Pbc.PairingD.C54_iff"
   ],
   "note": "Types D and G, every odd r >= 3 with r + 1 not a power of two; for the others every pp_init writes past the table (C54_fails)."
  },
  {
   "property": "C55",
   "status": "partial",
   "theorems": [
    "Pbc.EllNet.C55_block",
    "Pbc.EllNet.C55_typeA",
    "Pbc.EllNet.C55_typeA1_partial",
    "Pbc.EllNet.C55_typeG",
    "Pbc.EllNet.C55_typeE_partial",
    "Pbc.EllNet.C55_typeE_fails",
    "Pbc.EllNet.C55_typeE_iff"
   ],
   "note": "Types A (direct and preprocessed) and G: equality with Miller's algorithm for all arguments (C55_typeA, C55_typeG); the block of division polynomials for all points with 2y != 0 (C55_block). Type E: equality for all P, Q killed by r unless Q = P, -P or 2P (C55_typeE_partial), and for these three the method divides by zero, so the set of good pairs is known exactly (C55_typeE_iff, C55_typeE_fails). Type A1: points of order exactly n (C55_typeA1_partial)."
  },
  {
   "property": "C56",
   "status": "proved",
   "theorems": [
    "Pbc.ParamGen.C56_typeA",
    "Pbc.ParamGen.C56_typeE",
    "Pbc.ParamGen.C56_typeA1",
    "Pbc.ParamGen.C56_typeA1_wrap_fails",
    "Pbc.ParamGen.C56_typeA_pairing",
    "Pbc.ParamGen.C56_typeA1_pairing",
    "Pbc.ParamGen.C56_typeF",
    "Pbc.ParamGen.C56_typeF_divexact"
   ],
   "note": "Types A, A1, E and F: every generated parameter set satisfies the relations, for all random choices; end-to-end theorems connect generated A and A1 parameters to the bilinearity theorems. The recorded A1 cofactor wraps modulo 2^32 (C56_typeA1_wrap_fails). The choice of curve coefficients for E and F is not modelled."
  },
  {
   "property": "C57",
   "status": "proved",
   "theorems": [
    "Props.C57_sound",
    "Props.C57_advance",
    "Props.C57_ends",
    "Props.C57_pos"
   ],
   "note": "Soundness, advance by the unit, positivity and termination for every positive non-square D and every N."
  },
  {
   "property": "C58",
   "status": "proved",
   "theorems": [
    "Props.C58_sound",
    "Props.C58_overflow_fails"
   ],
   "note": "For every D with 3D < 2^32 (the range in the statement). C58_overflow_fails: outside that range a wrong curve is reported."
  },
  {
   "property": "C59",
   "status": "partial",
   "theorems": [
    "Pbc.ListCurves.C59_guarded",
    "Props.C59_no_die",
    "Props.C59_embedding",
    "Props.C59_cm_partial",
    "Props.C59_sign_fails",
    "Props.C59_fails"
   ],
   "note": "The embedding degree part holds for every D, and the process-ending branch is unreachable. The CM equation holds for solutions U = 5 mod 15 (C59_cm_partial) and always fails for U = 10 mod 15 (C59_sign_fails, C59_fails). C59_guarded: for D = 1 mod 3, in particular for all D that gengparam accepts, every curve reported satisfies the equation, as the wrong sign only gives multiples of 3."
  },
  {
   "property": "C60",
   "status": "partial",
   "theorems": [
    "Pbc.Param.C60_read",
    "Pbc.Param.C60_limit",
    "Pbc.Param.C60_zero_limit_fails",
    "Pbc.Param.C60_lookup",
    "Pbc.Param.C60_bad_number_fails",
    "Pbc.Param.C60_round_trip",
    "Pbc.Param.C60_keys",
    "Pbc.Param.C60_digits",
    "Pbc.Param.C60_bases"
   ],
   "note": "reading, limits, lookup and round trip proved for all texts; a length of 0 means no limit and a malformed number reads as 0 (C60_*_fails)"
  },
  {
   "property": "C61",
   "status": "partial",
   "theorems": [
    "Props.C61_brute",
    "Props.C61_brute_ends",
    "Props.C61_rho_prime_partial",
    "Props.C61_rho_useless_fails",
    "Props.C61_rho_composite",
    "Props.C61_rho_tables",
    "Props.C61_rho_ends"
   ],
   "note": "Brute force is proved (answer correct, and found whenever there is one). Pollard rho: the answer is a logarithm or zero; C61_rho_useless_fails shows the zero answer on a useless collision."
  },
  {
   "property": "C62",
   "status": "proved",
   "theorems": [
    "Pbc.Darray.C62_map",
    "Pbc.Darray.C62_order"
   ],
   "note": "symbol table behaves as a map with insertion order"
  },
  {
   "property": "C63",
   "status": "partial",
   "theorems": [
    "Pbc.Darray.C63_list",
    "Pbc.Darray.C63_queries",
    "Pbc.Darray.C63_copy_empty_fails",
    "Pbc.Darray.C63_remove_with_test"
   ],
   "note": "darray is the list it holds; copying an empty array and removal while testing differ from the claim (C63_copy_empty_fails, C63_remove_with_test)"
  },
  {
   "property": "C64",
   "status": "partial",
   "theorems": [
    "Props.C64_snprint",
    "Props.C64_snprintf_partial",
    "Props.C64_plain",
    "Props.C64_percent_fails",
    "Props.C64_default_fails",
    "Props.C64_dangling_fails",
    "Props.C64_overrun_fails",
    "Props.C64_fprintf_partial",
    "Props.C64_quad_count_fails"
   ],
   "note": "Under the contract on element_snprint and without double percent signs; the _fails theorems show double percent, dangling percent, overrun of the %Z buffer and wrong counts."
  },
  {
   "property": "C65",
   "status": "proved",
   "theorems": [
    "Pbc.Ternary.C65_init",
    "Pbc.Ternary.C65_unique",
    "Pbc.Ternary.C65_cmp",
    "Pbc.Ternary.C65_zero",
    "Pbc.Ternary.C65_one",
    "Pbc.Ternary.C65_add",
    "Pbc.Ternary.C65_sub",
    "Pbc.Ternary.C65_neg",
    "Pbc.Ternary.C65_mul",
    "Pbc.Ternary.C65_cubic",
    "Pbc.Ternary.C65_invert",
    "Pbc.Ternary.C65_invert_field",
    "Pbc.Ternary.C65_program",
    "Pbc.Ternary.C65_is0",
    "Pbc.Ternary.C65_is1",
    "Pbc.Ternary.C65_pow"
   ],
   "note": "Words of any width, any trinomial with 0<t<m, every operand sharing; results are canonical and reduced, and a program theorem covers sequences of calls. Inversion needs the operand prime to the trinomial."
  },
  {
   "property": "C66",
   "status": "proved",
   "theorems": [
    "Pbc.Ternary.C66_gf32m",
    "Pbc.Ternary.C66_gf32m_cubic",
    "Pbc.Ternary.C66_gf33m",
    "Pbc.Ternary.C66_gf33m_cubic",
    "Pbc.Ternary.C66_gf33m_invert",
    "Pbc.Ternary.C66_gf33m_invert_finite"
   ],
   "note": "Over an abstract base field; gf33m inversion needs that x^3-x-1 has no root, which holds for GF(3^m) when 3 does not divide m."
  },
  {
   "property": "C67",
   "status": "partial",
   "theorems": [
    "Pbc.Ternary.C67_roundtrip",
    "Pbc.Ternary.C67_check_fails"
   ],
   "note": "Round trip proved; C67_check_fails: reading accepts bytes that stand for no element."
  },
  {
   "property": "C68",
   "status": "proved",
   "theorems": [
    "Pbc.Random.C68_range",
    "Pbc.Random.C68_randomb",
    "Pbc.Random.C68_uniform",
    "Pbc.Random.C68_reachable",
    "Pbc.Random.C68_short_read_fails"
   ],
   "note": "uniform over [0,limit) when the source is; short reads of the random file use stale buffer bytes (C68_short_read_fails)"
  },
  {
   "property": "C69",
   "status": "partial",
   "theorems": [
    "Pbc.Tiny.C69_add",
    "Pbc.Tiny.C69_invert",
    "Pbc.Tiny.C69_mul_partial",
    "Pbc.Tiny.C69_mul_fails",
    "Pbc.Tiny.C69_mul_si_fails",
    "Pbc.Tiny.C69_set_si",
    "Pbc.Tiny.C69_double_alias_fails",
    "Pbc.Tiny.C69_bytes"
   ],
   "note": "add, invert, set_si, bytes proved; products wrong for large p, mul_si with negative, aliasing double (C69_*_fails)"
  },
  {
   "property": "C70",
   "status": "proved",
   "theorems": [
    "Props.C70_sub",
    "Props.C70_div"
   ],
   "note": ""
  },
  {
   "property": "C71",
   "status": "proved",
   "theorems": [
    "Props.C71_complete",
    "Props.C71_sound",
    "Props.C71_x_only"
   ],
   "note": "Completeness, uniqueness of the signature in a group of prime order, and the variant with the x coordinate only."
  },
  {
   "property": "C72",
   "status": "partial",
   "theorems": [
    "Props.C72_odd",
    "Props.C72_even_fails"
   ],
   "note": "Right for odd orders; proved wrong for even orders."
  },
  {
   "property": "C73",
   "status": "partial",
   "theorems": [
    "Props.C73_scalar_partial",
    "Props.C73_scalar_fails"
   ],
   "note": "Right as polynomials; normalised only when the integer annihilates no coefficient; failure theorem for the rest."
  },
  {
   "property": "C74",
   "status": "partial",
   "theorems": [
    "Props.C74_round_trip_partial",
    "Props.C74_length_fails",
    "Props.C74_unnormalised"
   ],
   "note": "Round trip below 65536 coefficients; failure theorem above; from_bytes does not normalise (C74_unnormalised)."
  },
  {
   "property": "C75",
   "status": "proved",
   "theorems": [
    "Props.C75_round_trip",
    "Props.C75_injective"
   ],
   "note": "Round trip and injectivity for every coefficient codec that round trips."
  },
  {
   "property": "C76",
   "status": "partial",
   "theorems": [
    "Props.C76_is_sqr_partial",
    "Props.C76_zero_fails"
   ],
   "note": "Correct for nonzero elements; 0 is reported not to be a square (C76_zero_fails)."
  },
  {
   "property": "C77",
   "status": "proved",
   "theorems": [
    "Props.C77_verified",
    "Props.C77_attempt",
    "Props.C77_returns",
    "Props.C77_nonsquare"
   ],
   "note": "Every returned value is a root for every random sequence; exact success condition of an attempt; no return on non-squares."
  },
  {
   "property": "C78",
   "status": "proved",
   "theorems": [
    "Props.C78_irreducible",
    "Props.C78_nonmonic_fails"
   ],
   "note": "Rabin criterion proved; monic polynomials of any degree over any finite field. C78_nonmonic_fails shows the restriction to monic is needed."
  },
  {
   "property": "C79",
   "status": "partial",
   "theorems": [
    "Props.C79_find_root_partial",
    "Props.C79_progress",
    "Props.C79_can_return",
    "Props.C79_linear_fails"
   ],
   "note": "Degree at least 2; degree 1 is an out-of-bounds write (C79_linear_fails). Progress and possibility of return proved."
  },
  {
   "property": "C80",
   "status": "proved",
   "theorems": [
    "Pbc.PairingA.C80_typeA",
    "Pbc.PairingA.C80_tate",
    "Pbc.PairingA.C80_smul"
   ],
   "note": "The map is characterised independently of the code by C80_tate. Non-degeneracy is C107."
  },
  {
   "property": "C81",
   "status": "partial",
   "theorems": [
    "Pbc.PairingA.C81_typeA1_partial",
    "Pbc.PairingA.C81_full_order",
    "Pbc.PairingA.C81_small_order_fails"
   ],
   "note": "Holds when the chain meets no exceptional step (Chain), in particular for points of exact order n. False in general: C81_small_order_fails."
  },
  {
   "property": "C82",
   "status": "partial",
   "theorems": [
    "Props.C82_mnt_partial",
    "Props.C82_first_fails",
    "Props.C82_freeman_fails",
    "Props.C82_mnt_ends",
    "Props.C82_freeman_ends"
   ],
   "note": "Both searches end. The bit limit is not respected: first solutions are not compared with it (C82_first_fails), MNT orders may have bitlimit + 10 bits (C82_mnt_partial), Freeman orders about twice the limit (C82_freeman_fails)."
  },
  {
   "property": "C83",
   "status": "partial",
   "theorems": [
    "Props.C83_gt_mul_si_fails",
    "Props.C83_gt_halve_fails",
    "Props.C83_point_mul_si_fails",
    "Props.C83_point_halve_fails",
    "Props.C83_point_mul_si_partial",
    "Props.C83_gt_mul_si_partial"
   ],
   "note": "Fails: generic_mul_si and generic_halve leave points and elements of GT unchanged (C83_*_fails); the _partial theorems say exactly when the answer is nevertheless right."
  },
  {
   "property": "C84",
   "status": "proved",
   "theorems": [
    "Props.C84_joux",
    "Props.C84_hess",
    "Props.C84_paterson",
    "Props.C84_yuanli",
    "Props.C84_zhangkim",
    "Props.C84_zss"
   ],
   "note": "Over any bilinear map; type A and A1 are such maps by C80/C81."
  },
  {
   "property": "C85",
   "status": "partial",
   "theorems": [
    "Pbc.Ternary.C85_fails"
   ],
   "note": "The code violates it: every integer constant becomes 0 (C85_fails). C65_program covers integers divisible by 3."
  },
  {
   "property": "C86",
   "status": "partial",
   "theorems": [
    "Pbc.Ternary.C86_partial",
    "Pbc.Ternary.C86_fails"
   ],
   "note": "Holds when the degree is not a multiple of the word size, fails otherwise."
  },
  {
   "property": "C87",
   "status": "partial",
   "theorems": [
    "Pbc.Ternary.C87_partial",
    "Pbc.Ternary.C87_fails"
   ],
   "note": "Holds for odd degrees, fails for every nonzero square other than 1 when the degree is even."
  },
  {
   "property": "C88",
   "status": "partial",
   "theorems": [
    "Pbc.PairingD.C88_typeD",
    "Pbc.PairingD.C88_typeG_partial",
    "Pbc.PairingD.C88_typeG_fails",
    "Pbc.NonDeg.C88_typeD_all",
    "Pbc.NonDeg.C88_typeG_all_partial"
   ],
   "note": "Type D: complete, without assumptions on the twist when the field of the twist has more than 61 elements and characteristic not 3 (C88_typeD_all). Type G: the value is right whenever one is returned, and one is returned unless it would be 1; on points of order two of the twist none is returned (C88_typeG_fails); on G1 x G2 (points of order dividing r, r^2 not dividing the order of the twist) a value is always returned (C107_typeG)."
  },
  {
   "property": "C89",
   "status": "proved",
   "theorems": [
    "Pbc.NonDeg.C89_quotientF",
    "Props.C89_typeD_code",
    "Pbc.PairingD.C89_typeD",
    "Pbc.PairingD.C89_typeD_converse",
    "Pbc.PairingF.C89_typeF",
    "Pbc.PairingF.C89_typeF_converse"
   ],
   "note": "Types D and F; both directions. The partner exists for every P other than O: type D (C107_cmp; C89_typeD_code with the exponent the code sets), type F with the number set by the initialisation (C107_typeF_cmp, C89_quotientF)."
  },
  {
   "property": "C90",
   "status": "proved",
   "theorems": [
    "Pbc.PairingF.C90_typeF",
    "Pbc.PairingF.C90_typeF_scalars"
   ],
   "note": "All fields of q, q^2, q^12 elements with a generator satisfying x^6 = -alpha, all points; no assumption on the order of the twist."
  },
  {
   "property": "C91",
   "status": "partial",
   "theorems": [
    "Pbc.PairingE.C91_typeE_fails",
    "Pbc.PairingF.C91_typeF_partial",
    "Pbc.PairingF.C91_typeF_fails"
   ],
   "note": "Types E and F keep the address of the element, so later changes of it are seen (C91_typeF_fails, C91_typeE_fails); other elements do not matter."
  },
  {
   "property": "C92",
   "status": "proved",
   "theorems": [
    "Props.C92_typeD_points",
    "Props.C92_typeF_points",
    "Props.C92_typeD",
    "Props.C92_typeF"
   ],
   "note": "Types D and G for odd k/2 (with even k/2 the nonresidue is taken from F_q and becomes a square, so these pairings do not exist), type F. The _points theorems state the orders as numbers of points."
  },
  {
   "property": "C93",
   "status": "proved",
   "theorems": [
    "Pbc.PairingE.C93_typeE",
    "Pbc.PairingE.C93_typeE_scalars",
    "Pbc.PairingE.C93_typeE_fails"
   ],
   "note": "Both Miller routines, all points killed by r, r > 5; the condition on the random point is needed (C93_typeE_fails)."
  },
  {
   "property": "C94",
   "status": "proved",
   "theorems": [
    "Pbc.PairingE.C94_typeE"
   ],
   "note": "All admissible random points, both routines."
  },
  {
   "property": "C95",
   "status": "proved",
   "theorems": [
    "Pbc.PairingE.C95_typeE"
   ],
   "note": "All sequences of operations on other pairings; e_pairing_ellnet enters as an arbitrary function that does not read the shared variable."
  },
  {
   "property": "C96",
   "status": "partial",
   "theorems": [
    "Props.C96_prime",
    "Props.C96_integers_partial",
    "Props.C96_quad",
    "Props.C96_polymod",
    "Props.C96_curve",
    "Props.C96_curve_O",
    "Props.C96_print_prime",
    "Props.C96_print_zmod",
    "Props.C96_print_quad",
    "Props.C96_print_polymod",
    "Props.C96_print_curve",
    "Props.C96_base_zero",
    "Props.C96_negative_fails",
    "Props.C96_multiz_fails",
    "Props.C96_default_fails",
    "Props.C96_default_count_fails"
   ],
   "note": "Proved for prime fields, quadratic and polynomial extensions, curves, GT (delegates) and integers from zero on. The code fails for negative integers (C96_negative_fails), lists of integers (C96_multiz_fails), and fields without a set_str of their own such as polynomial rings (C96_default_fails). Bytes of 128 and more, on which isspace(char) is undefined in C, are taken as ordinary characters."
  },
  {
   "property": "C97",
   "status": "partial",
   "theorems": [
    "Props.C97_prime",
    "Props.C97_integers",
    "Props.C97_quad",
    "Props.C97_polymod",
    "Props.C97_curve",
    "Props.C97_refused_fails",
    "Props.C97_cut_fails",
    "Props.C97_missing_fails"
   ],
   "note": "Memory safety is proved for all of them, and validity of the point when the count is non-zero. With count 0 the code may leave a pair off the curve (C97_refused_fails, C97_cut_fails); missing numbers are read as 0 (C97_missing_fails)."
  },
  {
   "property": "C98",
   "status": "proved",
   "theorems": [
    "Pbc.EtaT.C98_programs",
    "Pbc.EtaT.C98_equation",
    "Pbc.EtaT.C98_on_curve",
    "Pbc.EtaT.C98_tests"
   ],
   "note": "Points modelled with aliasing; field operations are those of a Mathlib field of characteristic 3."
  },
  {
   "property": "C99",
   "status": "partial",
   "theorems": [
    "Pbc.EtaT.C99_random_partial",
    "Pbc.EtaT.C99_random_fails"
   ],
   "note": "Holds when the first value drawn is not 0; C99_random_fails shows that a first draw of 0 leaves the loop with the off-curve point (0,0)."
  },
  {
   "property": "C100",
   "status": "proved",
   "theorems": [
    "Pbc.EtaT.C100_final"
   ],
   "note": "Over any field of 3^m elements, m prime to 6."
  },
  {
   "property": "C101",
   "status": "proved",
   "theorems": [
    "Pbc.EtaT.C101_unrolled"
   ],
   "note": ""
  },
  {
   "property": "C102",
   "status": "proved",
   "theorems": [
    "Pbc.EtaT.C102_bilinear",
    "Pbc.EtaT.C102_scalars",
    "Pbc.EtaT.C102_symmetric",
    "Pbc.EtaT.C102_order"
   ],
   "note": "Non-degeneracy is not claimed."
  },
  {
   "property": "C103",
   "status": "proved",
   "theorems": [
    "Pbc.EtaT.C103_order",
    "Pbc.EtaT.C103_parameters",
    "Pbc.EtaT.C103_card",
    "Pbc.EtaT.C103_torsion",
    "Pbc.EtaT.C103_coprime"
   ],
   "note": "Exact number of points (C103_card) by the curve over the cubic extension; coprimality of order and cofactor by kernel computation. Primality of the group orders is not claimed."
  },
  {
   "property": "C104",
   "status": "proved",
   "theorems": [
    "Pbc.EtaT.C104_irreducible",
    "Pbc.EtaT.C104_elements",
    "Pbc.EtaT.C104_invert",
    "Pbc.EtaT.C104_pairing"
   ],
   "note": "All twelve trinomials of the generator's table are certified irreducible by kernel computation on a checker whose soundness is proved; the field axioms, inversion and bilinearity theorems are then instantiated."
  },
  {
   "property": "C105",
   "status": "partial",
   "theorems": [
    "Pbc.SetMultiz.C105_generic",
    "Pbc.SetMultiz.C105_quadratic_partial",
    "Pbc.SetMultiz.C105_polymod_partial",
    "Pbc.SetMultiz.C105_polymod_length",
    "Pbc.SetMultiz.C105_poly",
    "Pbc.SetMultiz.C105_items_generic",
    "Pbc.SetMultiz.C105_items_quadratic",
    "Pbc.SetMultiz.C105_items_polymod",
    "Pbc.SetMultiz.C105_items_poly",
    "Pbc.SetMultiz.C105_items_curve_partial",
    "Pbc.SetMultiz.C105_items_infinity_fails",
    "Pbc.SetMultiz.C105_curve_fails",
    "Pbc.SetMultiz.C105_curve_other",
    "Pbc.SetMultiz.C105_quadratic_long_fails",
    "Pbc.SetMultiz.C105_polymod_long_fails",
    "Pbc.SetMultiz.C105_empty_fails"
   ],
   "note": "Prime fields and polynomial rings in full; quadratic and quotient extensions for lists of at most the degree (longer lists are cut off: _long_fails). Items read back for all fields and finite points; the point at infinity has no items and reading them back does nothing (C105_items_infinity_fails). curve_set_multiz accepts points off the curve (C105_curve_fails); empty lists are read out of bounds (C105_empty_fails)."
  },
  {
   "property": "C106",
   "status": "partial",
   "theorems": [
    "Pbc.Param.C106_read",
    "Pbc.Param.C106_round_trip_partial",
    "Pbc.Param.C106_write_fails",
    "Pbc.Param.C106_unknown",
    "Pbc.Param.C106_missing",
    "Pbc.Param.C106_missing_D",
    "Pbc.Param.C106_unchecked_fails",
    "Pbc.Param.C106_negative_fails"
   ],
   "note": "Reading in full (all types, layouts); writing and reading back for all types, type D up to degree 201: beyond that d_out_str overflows its name buffer (C106_write_fails). Error codes in full. Negative degrees end the program and no value is checked (C106_negative_fails, C106_unchecked_fails). The initialisation of the pairing from the parameters is not part of this property."
  },
  {
   "property": "C107",
   "status": "proved",
   "theorems": [
    "Pbc.NonDeg.C107_order",
    "Pbc.NonDeg.C107_exists",
    "Pbc.NonDeg.C107_torsion",
    "Pbc.NonDeg.C107_card",
    "Pbc.NonDeg.C107_ne",
    "Pbc.NonDeg.C107_typeA",
    "Pbc.NonDeg.C107_typeA1",
    "Pbc.NonDeg.C107_multiple_fails",
    "Pbc.NonDeg.C107_cofactor_fails",
    "Pbc.NonDeg.C107_bls",
    "Pbc.NonDeg.C107_typeD_partial",
    "Pbc.NonDeg.C107_cmp_partial",
    "Pbc.NonDeg.C107_fails_instance",
    "Pbc.NonDeg.C107_typeD",
    "Pbc.NonDeg.C107_typeD_iff",
    "Pbc.NonDeg.C107_cmp",
    "Pbc.NonDeg.C107_typeG",
    "Pbc.NonDeg.C107_typeG_exists",
    "Pbc.PairingE.C107_typeE",
    "Pbc.NonDeg.C107_typeF",
    "Pbc.NonDeg.C107_typeF_cmp",
    "Pbc.NonDeg.C107_typeF_generated",
    "Pbc.EtaT.C107_typeI",
    "Pbc.EtaT.C107_typeI_torsion",
    "Pbc.EtaT.C107_typeI_iff",
    "Pbc.EtaT.C107_typeI_generated",
    "Pbc.NonDeg.C107_typeD_twist",
    "Pbc.NonDeg.C107_typeG_twist"
   ],
   "note": "Types A and A1: every P other than O has a partner (any odd r), number of points q + 1, and for r prime not dividing the cofactor the pairing routine returns 1 only for O; one valid BLS signature. Fails when r divides the cofactor (C107_multiple_fails, C107_cofactor_fails, instance with q = 587). Types D and G: every P of G1 other than O has a partner on the twist (characteristic not 2 or 3, discriminant not 0, more than 61 elements), and on points of order r of the twist the value is 1 only for O when r^2 does not divide its order (C107_typeD_iff, C107_typeG). r divides the order of the twist whenever it divides that of the curve (C107_typeD_twist, C107_typeG_twist). Type F: for the parameters that are generated (C107_typeF_generated) the value is 1 only for O (C107_typeF). Type E: for generated parameters every P of G1 other than O has a partner (C107_typeE). Type I: every point other than O has a partner, any m prime to 6 (C107_typeI); in the group of order n for every generated parameter set (C107_typeI_generated); value 1 only for O when the group order is prime (C107_typeI_iff)."
  },
  {
   "property": "C108",
   "status": "partial",
   "theorems": [
    "Pbc.Options.C108_own_method",
    "Pbc.Options.C108_ignored",
    "Pbc.Options.C108_single_partial",
    "Pbc.Options.C108_typeG_single_partial",
    "Pbc.Options.C108_shared_fails",
    "Pbc.Options.C108_typeG_sticks_fails",
    "Pbc.Options.C108_typeA",
    "Pbc.Options.C108_typeA1_partial",
    "Pbc.Options.C108_pp_partial",
    "Pbc.Options.C108_pp_fails",
    "Pbc.Options.C108_pp_typeD",
    "Pbc.Options.C108_typeD_fails",
    "Pbc.Options.C108_typeG_net",
    "Pbc.Options.C108_typeE_partial",
    "Pbc.Options.C108_typeA1_fails"
   ],
   "note": "Types A, A1, F, I: the routine run is that of the method last set for the pairing, after every program; type A: the value does not depend on it; preprocessed data stay usable unless the method changes between Miller and shipsey-stange. Types D, E, G: only with a single pairing of the type (shared variables, C108_shared_fails). A1: points of full order. E: all second arguments but the first, its negative and its double, where shipsey-stange fails."
  },
  {
   "property": "C109",
   "status": "partial",
   "theorems": [
    "Pbc.Hilbert.C109_ops",
    "Pbc.Hilbert.C109_inv",
    "Pbc.Hilbert.C109_add_ui_partial",
    "Pbc.Hilbert.C109_add_ui_fails",
    "Pbc.Hilbert.C109_pow_partial",
    "Pbc.Hilbert.C109_pow_fails",
    "Pbc.Hilbert.C109_exp",
    "Pbc.Hilbert.C109_euler",
    "Pbc.Hilbert.C109_cis",
    "Pbc.Hilbert.C109_q_partial",
    "Pbc.Hilbert.C109_delta",
    "Pbc.Hilbert.C109_j",
    "Pbc.Hilbert.C109_conj"
   ],
   "note": "All operations under every aliasing, series, q, Delta, j over exact reals with proved error bounds. mpc_add_ui only with equal imaginary parts (C109_add_ui_fails); powers below 2^31 (C109_pow_fails: larger exponents never end). The rounding of GMP floats is not modelled; q is proved given pi (C126) and the reciprocal."
  },
  {
   "property": "C110",
   "status": "partial",
   "theorems": [
    "Pbc.Hilbert.C110_count",
    "Pbc.Hilbert.C110_product",
    "Pbc.Hilbert.C110_hilbert_partial",
    "Pbc.Hilbert.C110_primitive",
    "Pbc.Hilbert.C110_imprimitive_fails",
    "Pbc.Hilbert.C110_computed"
   ],
   "note": "Enumeration, count, product and rounding proved for every D; the rounding step assumes the computed coefficients are within 1/2 of integers (floating error not modelled), and the code's j is related to its own series (C109), not to Mathlib's modular forms. Fails for non-fundamental D (C110_imprimitive_fails)."
  },
  {
   "property": "C111",
   "status": "partial",
   "theorems": [
    "Props.C111_invariant",
    "Props.C111_order_partial",
    "Props.C111_unlucky_fails",
    "Props.C111_no_root_fails",
    "Props.C111_class_number_one_fails",
    "Props.C111_orders_typeD",
    "Props.C111_orders_typeG",
    "Props.C111_irreducible",
    "Props.C111_nqr_partial",
    "Props.C111_nqr_zero_fails",
    "Props.C111_gen_partial",
    "Props.C111_nk_points",
    "Props.C111_order_large_partial"
   ],
   "note": "Invariant, orders, irreducibility proved; nk is the number of points over the extension (C111_nk_points). That one of the two twists has n points is the CM theorem: a hypothesis; for large r (C111_order_large_partial) it is needed only if the curve was twisted. Lucky draw needed; the failures are proved."
  },
  {
   "property": "C112",
   "status": "partial",
   "theorems": [
    "Props.C112_alpha",
    "Props.C112_curve",
    "Props.C112_accepts",
    "Props.C112_curve_can_return",
    "Props.C112_curve_unlucky_fails",
    "Props.C112_twist",
    "Props.C112_twist_unlucky_fails",
    "Props.C112_twist_can_return",
    "Props.C112_beta"
   ],
   "note": "Exact counts proved (BN curves, no unproved theory) for every draw not killed by accident; square roots are assumed right only outside the base field (C26); existence of acceptable choices proved under the same assumption; the unlucky draws are proved to fail."
  },
  {
   "property": "C113",
   "status": "proved",
   "theorems": [
    "Props.C113_curve",
    "Props.C113_typeE",
    "Pbc.PairingE.C113_torsion",
    "Pbc.PairingE.C113_cofactor"
   ],
   "note": "Unconditional: the curve is y^2=x^3+1 with q-1 points (superspecial count over q = 3m^2+1); G1 has r^2 elements and is not cyclic (C113_torsion); the cofactor carries every point into G1 (C113_cofactor)."
  },
  {
   "property": "C114",
   "status": "proved",
   "theorems": [
    "Pbc.EtaT.C114_typeI",
    "Pbc.NonDeg.C114_typeA",
    "Pbc.NonDeg.C114_typeA1",
    "Pbc.PairingE.C114_typeE_curve",
    "Pbc.PairingE.C114_typeE",
    "Pbc.PairingE.C114_typeE_self",
    "Pbc.PairingE.C114_typeE_self_fails"
   ],
   "note": "Types A, A1 (points of order r) and E, all Miller routines. Type E by a reciprocity law for Miller functions. Self-pairing on type E: not 1 when r = 2 mod 3 (C114_typeE_self), 1 for some element when r = 1 mod 3 (C114_typeE_self_fails). Type I: C114_typeI (prime group order), C102_symmetric (multiples of one point)."
  },
  {
   "property": "C115",
   "status": "partial",
   "theorems": [
    "Pbc.Calc.C115_tokens",
    "Pbc.Calc.C115_last_line_fails"
   ],
   "note": "all texts; a # comment in an unterminated last line is not one (C115_last_line_fails)"
  },
  {
   "property": "C116",
   "status": "partial",
   "theorems": [
    "Pbc.Calc.C116_parse",
    "Pbc.Calc.C116_program",
    "Pbc.Calc.C116_sound",
    "Pbc.Calc.C116_accepts",
    "Pbc.Calc.C116_assign_ternary_fails",
    "Pbc.Calc.C116_assign_compare_fails",
    "Pbc.Calc.C116_empty_statement_fails"
   ],
   "note": "round trip, soundness and completeness against the ambiguous grammar; assignment precedence and empty statements by failure theorems"
  },
  {
   "property": "C117",
   "status": "partial",
   "theorems": [
    "Pbc.Calc.C117_by_value_partial",
    "Pbc.Calc.C117_depth",
    "Pbc.Calc.C117_assign_operand_fails",
    "Pbc.Calc.C117_assign_compare_fails",
    "Pbc.Calc.C117_output_kept",
    "Pbc.Calc.C117_check_stops"
   ],
   "note": "refinement to by-value semantics for programs without assignments as operands; with them it is false (C117_assign_operand_fails, C117_assign_compare_fails)"
  },
  {
   "property": "C118",
   "status": "partial",
   "theorems": [
    "Pbc.Calc.C118_call_is_assignments",
    "Pbc.Calc.C118_parameters_fails",
    "Pbc.Calc.C118_arguments_fails",
    "Pbc.Calc.C118_no_value_fails",
    "Pbc.Calc.C118_assign_result_fails"
   ],
   "note": "calls are assignments plus body; locality and result values fail"
  },
  {
   "property": "C119",
   "status": "partial",
   "theorems": [
    "Pbc.Calc.C119_arity",
    "Pbc.Calc.C119_type_mismatch",
    "Pbc.Calc.C119_reserved",
    "Pbc.Calc.C119_assign_reserved",
    "Pbc.Calc.C119_define_reserved_fails",
    "Pbc.Calc.C119_extend_fails",
    "Pbc.Calc.C119_cast_fails",
    "Pbc.Calc.C119_comparison",
    "Pbc.Calc.C119_type_safe",
    "Pbc.Calc.C119_type",
    "Pbc.Calc.C119_type_names",
    "Pbc.Calc.C119_names",
    "Pbc.Calc.C119_names_differ",
    "Pbc.Calc.C119_message"
   ],
   "note": "arity, types, reserved names; define of reserved names, extend and casts fail"
  },
  {
   "property": "C120",
   "status": "partial",
   "theorems": [
    "Pbc.Setup.C120_typeA",
    "Pbc.Setup.C120_typeA1",
    "Pbc.Setup.C120_typeA_pairing",
    "Pbc.Setup.C120_typeE",
    "Pbc.Setup.C120_typeD",
    "Pbc.Setup.C120_typeF",
    "Pbc.Setup.C120_uniform",
    "Pbc.Setup.C120_generator_fails",
    "Pbc.Setup.C120_typeD_G2",
    "Pbc.Setup.C120_typeD_G2_fails",
    "Pbc.Setup.C120_typeF_G2",
    "Pbc.Setup.C120_typeF_G2_fails"
   ],
   "note": "Types A, A1, E and G1 of D, F, G: full membership, with order hypotheses discharged by the parameter theorems (for D/G the order of the curve over F_q is what generation aims at). G2 of D, F and G: only membership up to the cofactor holds; failure theorems show elements not killed by r. Generator may be O: failure theorem."
  },
  {
   "property": "C121",
   "status": "partial",
   "theorems": [
    "Pbc.Session.C121_typeA",
    "Pbc.Session.C121_typeA1_partial",
    "Pbc.Session.C121_typeE",
    "Pbc.Session.C121_bls",
    "Pbc.Session.C121_bls_unique",
    "Pbc.Session.C121_typeD_partial",
    "Pbc.Session.C121_typeF_partial",
    "Pbc.Session.C121_typeD_starts",
    "Pbc.Session.C121_typeA_starts",
    "Pbc.Session.C121_typeA1_starts",
    "Pbc.Session.C121_typeE_starts",
    "Pbc.Session.C121_typeF_starts"
   ],
   "note": "Types A and E in full (E: when R is not killed by 2r, as the code never checks); A1 of prime order in full, composite order for arguments O or of order n (C81 fails otherwise); F for draws avoiding square roots in the base field (C26) and the unlucky draws of C112. Existence of such sessions proved for all four types. D: for any curve of order h r (C121_typeD_partial, C121_typeD_starts); that generation finds such a curve is C111. G excluded by C88_typeG_fails."
  },
  {
   "property": "C122",
   "status": "partial",
   "theorems": [
    "Pbc.Singular.C122_value_partial",
    "Pbc.Singular.C122_random_fails"
   ],
   "note": "The property fails: C122_random_fails. C122_value_partial gives the value for a generator P and random points other than O, P, -Q, P - Q, whenever one is returned; points P of smaller order (the loop then works with the stale coordinates of O) are not covered."
  },
  {
   "property": "C123",
   "status": "proved",
   "theorems": [
    "Props.C123_interval",
    "Props.C123_certificate"
   ],
   "note": "Hasse's theorem proved from the degree form on the group of rational maps (Lemmas/ScaleHom, Height, HasseCount, Hasse)."
  },
  {
   "property": "C124",
   "status": "proved",
   "theorems": [
    "Pbc.Memory.C124_wiped",
    "Pbc.Memory.C124_plain_fails",
    "Pbc.Memory.C124_gmp_grow",
    "Pbc.Memory.C124_gmp_free"
   ],
   "note": "All programs, by an invariant on the heap (C124_wiped); the functions given to GMP; C124_plain_fails is about the default build."
  },
  {
   "property": "C125",
   "status": "partial",
   "theorems": [
    "Pbc.Memory.C125_plain_partial",
    "Pbc.Memory.C125_safe_partial",
    "Pbc.Memory.C125_shrink_fails",
    "Pbc.Memory.C125_calloc_fails",
    "Pbc.Memory.C125_wrap_fails",
    "Pbc.Memory.C125_gmp_shrink_fails"
   ],
   "note": "All programs in the default build with products below 2^64; with SAFE_CLEAN, programs that make no block smaller. Failure theorems: making a block smaller (also GMP's), the product in pbc_calloc, sizes that wrap."
  },
  {
   "property": "C126",
   "status": "partial",
   "theorems": [
    "Pbc.Chudnovsky.C126_series",
    "Pbc.Chudnovsky.C126_pi_partial",
    "Pbc.Chudnovsky.C126_first_term_fails"
   ],
   "note": "Convergence and the error bound against the value of the series for every precision; against pi itself up to 10^-19. Missing: the theorem of the Chudnovsky brothers (the series gives pi exactly), and the rounding of the last three GMP operations."
  },
  {
   "property": "C127",
   "status": "proved",
   "theorems": [
    "Pbc.Life.C127_defined"
   ],
   "note": "All 254 routines with such local variables, as control flow skeletons (tests are free choices)."
  },
  {
   "property": "C128",
   "status": "proved",
   "theorems": [
    "Pbc.Obj.C128_params",
    "Pbc.Obj.C128_pairings",
    "Pbc.Obj.C128_elements",
    "Pbc.Obj.C128_fields",
    "Pbc.Obj.C128_tables",
    "Pbc.Obj.C128_lists"
   ],
   "note": "All kinds of objects for all sizes; preprocessed pairings and parameter texts are C130."
  },
  {
   "property": "C129",
   "status": "partial",
   "theorems": [
    "Pbc.Life.C129_tidy_partial",
    "Pbc.Life.C129_fails",
    "Pbc.Life.C129_fails_calls"
   ],
   "note": "239 of the 254 routines; proved false for the other 15 (C129_fails, C129_fails_calls: n calls leave at least n blocks)."
  },
  {
   "property": "C130",
   "status": "partial",
   "theorems": [
    "Pbc.Obj.C130_preprocessing_partial",
    "Pbc.Obj.C130_a1_fails",
    "Pbc.Obj.C130_a_fails",
    "Pbc.Obj.C130_method_fails",
    "Pbc.Obj.C130_strings",
    "Pbc.Obj.C130_strings_iff",
    "Pbc.Obj.C130_order_partial",
    "Pbc.Obj.C130_order_fails"
   ],
   "note": "Types A and elliptic nets in full for exp1 <= exp2. Fails for type A1 (exact number of elements left), repeated keys (exact set), a change of method in between, exp1 > exp2."
  },
  {
   "property": "C131",
   "status": "proved",
   "theorems": [
    "Pbc.MultizHeap.C131_call",
    "Pbc.MultizHeap.C131_programs",
    "Pbc.MultizHeap.C131_values",
    "Pbc.MultizHeap.C131_no_leak",
    "Pbc.MultizHeap.C131_apart"
   ],
   "note": "Heap of nodes with explicit allocation and release; every call refines the by-value store and keeps ownership exact (C131_call, C131_programs); values read back (C131_values); nothing left after clearing (C131_no_leak). Recursion depth is a fuel parameter: the theorems hold for every fuel from some bound on."
  },
  {
   "property": "C132",
   "status": "partial",
   "theorems": [
    "Pbc.MultizHeap.C132_item_reads_partial",
    "Pbc.MultizHeap.C132_item_modified_fails",
    "Pbc.MultizHeap.C132_listed_then_cleared_fails"
   ],
   "note": "Reading a component is proved. The full claim is false: modifying a component or clearing a member leaves a dangling node in the list (…_fails, for every state)."
  },
  {
   "property": "C133",
   "status": "partial",
   "theorems": [
    "Pbc.Dispatch.C133_fields_partial",
    "Pbc.Dispatch.C133_curves_partial",
    "Pbc.Dispatch.C133_gt_partial",
    "Pbc.Dispatch.C133_poly_partial",
    "Pbc.Dispatch.C133_z_partial",
    "Pbc.Dispatch.C133_multiz_partial",
    "Pbc.Dispatch.C133_gf3m_partial",
    "Pbc.Dispatch.C133_gf32m_partial",
    "Pbc.Dispatch.C133_gf36m_partial",
    "Pbc.Dispatch.C133_points_typeI_partial",
    "Pbc.Dispatch.C133_gt_typeI_partial",
    "Pbc.Dispatch.C133_singular_partial",
    "Pbc.Dispatch.C133_variable_length_curve_fails",
    "Pbc.Dispatch.C133_pairing_partial"
   ],
   "note": "the code does not meet the property: the theorems give exactly the operations that can be called, kind by kind, for all memory contents and all towers"
  },
  {
   "property": "C134",
   "status": "partial",
   "theorems": [
    "Pbc.Dispatch.C134_fields",
    "Pbc.Dispatch.C134_no_text_fails",
    "Pbc.Dispatch.C134_curves_fails",
    "Pbc.Dispatch.C134_gt_fails",
    "Pbc.Dispatch.C134_poly_fails",
    "Pbc.Dispatch.C134_z_fails",
    "Pbc.Dispatch.C134_multiz_fails",
    "Pbc.Dispatch.C134_gf3m_fails",
    "Pbc.Dispatch.C134_points_typeI_fails"
   ],
   "note": "C134_fields proves it for the default prime fields and all extensions; for the other kinds the exact failing lists are proved"
  },
  {
   "property": "C135",
   "status": "partial",
   "theorems": [
    "Pbc.Sources.C135_function",
    "Pbc.Sources.C135_file",
    "Pbc.Sources.C135_deterministic",
    "Pbc.Sources.C135_default_deterministic",
    "Pbc.Sources.C135_default_urandom",
    "Pbc.Sources.C135_name_fails",
    "Pbc.Sources.C135_missing_fails",
    "Pbc.Sources.C135_repeats_fails",
    "Pbc.Sources.C135_streams_fails"
   ],
   "note": "Last selection, reproducibility and the default proved for all programs; successive draws from an ordinary file repeat, failures are not reported or leak, the name is kept by address: the _fails theorems"
  },
  {
   "property": "C136",
   "status": "partial",
   "theorems": [
    "Pbc.FpChoice.C136_choice",
    "Pbc.FpChoice.C136_values_partial",
    "Pbc.FpChoice.C136_choice_fails"
   ],
   "note": "Choice proved in full; values independent of it for calls outside the exceptions of C01-C11; 0^0 shows the choice (C136_choice_fails)"
  },
  {
   "property": "C137",
   "status": "partial",
   "theorems": [
    "Pbc.IndexCalculus.C137_generator",
    "Pbc.IndexCalculus.C137_crt",
    "Pbc.IndexCalculus.C137_table",
    "Pbc.IndexCalculus.C137_partial",
    "Pbc.IndexCalculus.C137_fails",
    "Pbc.IndexCalculus.C137_zero_fails",
    "Pbc.IndexCalculus.C137_small_fails",
    "Pbc.IndexCalculus.C137_composite_fails",
    "Pbc.IndexCalculus.C137_outside_fails"
   ],
   "note": "With a proper list of the prime factors of q-1 (squarefree), primes below q in the table: step 1 ends within q-1 powers, never overruns relm, and its table of logarithms is right; Garner's CRT; is_gen on units; step 2; non-generator branch with division of logarithms. As the code is, no answer is ever reached: the list of factors is dangling (C137_fails). Further failures: zero as base/draw/value, primes from q on in the table, composite cofactor, values outside the group."
  },
  {
   "property": "C138",
   "status": "partial",
   "theorems": [
    "Pbc.Calc.C138_terminal_partial",
    "Pbc.Calc.C138_readline",
    "Pbc.Calc.C138_last_line_fails",
    "Pbc.Calc.C138_long_line_fails",
    "Pbc.Calc.C138_easy_fails"
   ],
   "note": "With readline: all lines, with and without -y, last line with or without a newline (C138_readline). Without readline the claim holds for programs without -y whose lines have at most 1022 characters and all end with a newline (C138_terminal_partial); otherwise it is false: the last unterminated line is dropped, long lines are cut with a newline in the middle, and -y gives a syntax error after every line (the _fails theorems)."
  },
  {
   "property": "C139",
   "status": "proved",
   "theorems": [
    "Pbc.Getopt.C139_getopt",
    "Pbc.Getopt.C139_unique",
    "Pbc.Getopt.C139_calculator"
   ],
   "note": "All option tables (letters other than ':', as for every getopt), all commands, any state left over when optind is set to 0."
  },
  {
   "property": "C140",
   "status": "partial",
   "theorems": [
    "Pbc.Shipped.C140_a",
    "Pbc.Shipped.C140_d159",
    "Pbc.Shipped.C140_d201",
    "Pbc.Shipped.C140_d224",
    "Pbc.Shipped.C140_d105171",
    "Pbc.Shipped.C140_d277699",
    "Pbc.Shipped.C140_d278027",
    "Pbc.Shipped.C140_e",
    "Pbc.Shipped.C140_f",
    "Pbc.Shipped.C140_g149_partial",
    "Pbc.Shipped.C140_i_partial"
   ],
   "note": "Complete for the files a, d*, e and f: read as written, q and r prime, order of the curve, irreducibility, bilinear, not degenerate, set-ups exist; type D: comparison of elements of the second group agrees with the pairing; type E: only O pairs with itself to 1. g149: the same, non-degenerate as far as C88 goes (C140_g149_partial). i: the same for random elements whose first draw is not 0, hence C140_i_partial (for 0 see C99_random_fails). a1: read as written (a1_reads); the factors of n are unknown. Type E unless 2r kills the random point R of the set-up. Type F without the square roots of C26."
  },
  {
   "property": "C141",
   "status": "partial",
   "theorems": [
    "Pbc.RandomWin.C141_range",
    "Pbc.RandomWin.C141_same",
    "Pbc.RandomWin.C141_uniform",
    "Pbc.RandomWin.C141_failure_fails"
   ],
   "note": "Complete for systems whose calls succeed (C141_range, C141_same, C141_uniform); that a failing CryptGenRandom is noticed is false (C141_failure_fails). The system calls are parameters."
  },
  {
   "property": "C142",
   "status": "partial",
   "theorems": [
    "Pbc.Lengths.C142_fields",
    "Pbc.Lengths.C142_points",
    "Pbc.Lengths.C142_gt",
    "Pbc.Lengths.C142_typeI_fails"
   ],
   "note": "Complete for prime fields (all implementations but the one for small primes), their towers, groups of points and GT; false for the groups of type I (C142_typeI_fails)."
  },
  {
   "property": "C143",
   "status": "proved",
   "theorems": [
    "Pbc.BlsProgram.C143_typeA",
    "Pbc.BlsProgram.C143_a"
   ],
   "note": "C143_typeA for all type A parameters, C143_a for the shipped a.param, with the whole of main: key, signature, compression and decompression, verification, x-only encoding with both guesses, random signature. Printed values other than the verdicts, and the random source, are not modelled. The hypothesis that the signature is not O is needed: O does not survive compression (C37)."
  },
  {
   "property": "C144",
   "status": "partial",
   "theorems": [
    "Pbc.Rsa.C144_garner",
    "Pbc.Rsa.C144_main_partial",
    "Pbc.Rsa.C144_equal_fails"
   ],
   "note": "C144_garner for all coprime p, q; C144_main_partial for different primes, all passes. C144_equal_fails: nothing checks that the two primes drawn differ, and if they are the same the methods differ (whatever mpz_invert leaves). The clock is not modelled."
  },
  {
   "property": "C145",
   "status": "partial",
   "theorems": [
    "Pbc.DemoInit.C145_read_partial",
    "Pbc.DemoInit.C145_safe",
    "Pbc.DemoInit.C145_cut",
    "Pbc.DemoInit.C145_long_fails",
    "Pbc.DemoInit.C145_shipped"
   ],
   "note": "C145_read_partial for files of at most 16384 characters, C145_shipped for all twelve shipped files, C145_safe for every file. C145_long_fails: only the first 16384 characters are read and nothing is reported, so longer files that describe parameters are refused (C145_cut: the rest makes no difference). Read errors half-way are not modelled."
  },
  {
   "property": "C146",
   "status": "proved",
   "theorems": [
    "Pbc.ListCurves.C146_mnt_needs",
    "Pbc.ListCurves.C146_mnt_list",
    "Pbc.ListCurves.C146_mnt_from",
    "Pbc.ListCurves.C146_gend",
    "Pbc.ListCurves.C146_freeman_needs",
    "Pbc.ListCurves.C146_freeman_list",
    "Pbc.ListCurves.C146_geng"
   ],
   "note": "C146_mnt_needs, C146_mnt_list, C146_mnt_from, C146_gend for MNT curves; C146_freeman_needs, C146_freeman_list, C146_geng for Freeman curves. Searches are those of the model of mnt.c (C57, C58, C59, C82); the lists are what is printed if all searches end. atoi is not modelled (the argument is an int)."
  },
  {
   "property": "C147",
   "status": "proved",
   "theorems": [
    "Pbc.Schemes.C147_zss",
    "Pbc.Schemes.C147_zss_none",
    "Pbc.Schemes.C147_paterson",
    "Pbc.Schemes.C147_paterson_O",
    "Pbc.Schemes.C147_hess",
    "Pbc.Schemes.C147_zhangkim",
    "Pbc.Schemes.C147_blind",
    "Pbc.Schemes.C147_typeA"
   ],
   "note": "The pairing is a parameter (hypotheses: bilinear, not trivial, prime order; met by type A, C147_typeA). program_halves shows that the programs modelled for C84 are these halves run one after the other. The program paterson passes the hash of R from the signing half to the verifying half; the model computes it from R."
  },
  {
   "property": "C148",
   "status": "proved",
   "theorems": [
    "Pbc.HilbertPoly.C148_meaning",
    "Pbc.HilbertPoly.C148_main",
    "Pbc.HilbertPoly.C148_shown"
   ],
   "note": "pbc_hilbert is a parameter (C109, C110); the output is a list of characters; UPPER = 2^31 - 1, where the loop variable overflows, is excluded."
  },
  {
   "property": "C149",
   "status": "partial",
   "theorems": [
    "Pbc.GetTime.C149_elapsed",
    "Pbc.GetTime.C149_difference",
    "Pbc.GetTime.C149_windows_partial",
    "Pbc.GetTime.C149_windows_fails"
   ],
   "note": "Complete for clocks whose readings fit in a long (C149_elapsed, C149_difference); on Windows from 1970 to 2038 (C149_windows_partial). C149_windows_fails: a long of 32 bits is full in 2038 and the difference of readings before and after overflows. double is taken as exact."
  }
 ]
}