{"id": "C01", "title": "Prime-field arithmetic agrees with integer arithmetic mod p", "statement": "For elements of Z/p (default backend, odd p), converting to an integer after any program of element_set_mpz/set_si/set0/set1/set/add/sub/neg/double/halve/mul/square/mul_mpz/mul_si/pow_mpz/invert/random/from_bytes gives exactly the integer result reduced mod p, for every operand, in place or not, as long as the calls avoid the exceptional points that have their own entries: products when the top word of p is all ones (C02), halving into a destination that holds zero (C03), byte strings holding a nonzero multiple of p (C06), 0^0 (C08), and, for composite p, products and powers that vanish without a vanishing factor.", "quantifier": "all odd moduli, all operand values, all aliasing patterns, all finite programs of these operations outside the listed points", "why_tests_cant": "The domain is every modulus / operand; tests sample a handful of random values, and the failing inputs have probability around 2^-64.", "anchors": ["arith/montfp.c: fp_set_mpz, fp_set_si, fp_add, fp_sub, fp_neg, fp_double, fp_mul, mont_mul, fp_to_mpz, mont_reduce", "arith/fp.c: field_init_fp"]}
{"id": "C02", "title": "Montgomery multiplication is correct for every odd modulus", "statement": "element_mul in the default backend returns a*b mod p for every odd modulus p and all reduced a, b.", "quantifier": "all odd multi-limb moduli, all reduced operands", "why_tests_cant": "A carry is lost only if the modulus' top limb and operand limbs are all ones; random testing has probability about 2^-64 of meeting it.", "anchors": ["arith/montfp.c: mont_mul (lines 334-364), fp_mul"]}
{"id": "C03", "title": "element_halve does not depend on the destination's old value", "statement": "element_halve(c, a) sets c to a/2 whatever c held before.", "quantifier": "all odd moduli, all a, all previous contents of the destination", "why_tests_cant": "Depends on the combination of parity of the hidden representation and of the zero flag of the destination; a test that always halves in place never sees it.", "anchors": ["arith/montfp.c: fp_halve (278-295)", "arith/fasterfp.c: fp_halve"]}
{"id": "C04", "title": "element_cmp returns 0 exactly for equal elements", "statement": "For elements of Z/p, element_cmp(a,b) is 0 if and only if a and b are the same residue; in particular it does not depend on how the elements were produced.", "quantifier": "all pairs of elements reachable by any operation history", "why_tests_cant": "The answer depends on stale memory left behind by earlier operations, so it is a property of histories rather than of values.", "anchors": ["arith/montfp.c: fp_cmp (450-458)", "arith/fasterfp.c: fp_cmp", "include/pbc_field.h: element_cmp"]}
{"id": "C05", "title": "Serialising then parsing a field element is the identity", "statement": "element_from_bytes(element_to_bytes(x)) = x for every x in Z/p, consuming and producing exactly element_length_in_bytes bytes; different elements have different encodings.", "quantifier": "all odd moduli (Montgomery backend) and all odd primes (the other three backends), all elements in states reached by any program of calls that avoids the exceptional points of C02, C03, C06 and C08", "why_tests_cant": "Round trip must hold for every residue, including those with leading zero bytes.", "anchors": ["arith/montfp.c: fp_to_bytes, fp_from_bytes", "arith/naivefp.c: zp_to_bytes, zp_from_bytes", "arith/field.c: pbc_mpz_out_raw_n (629-638)"]}
{"id": "C06", "title": "Parsing arbitrary bytes yields a canonical element", "statement": "element_from_bytes on any buffer of the right length yields an element whose integer value lies in [0,p) and equals the big-endian buffer mod p; in particular an encoding of a multiple of p gives an element that element_is0 recognises.", "quantifier": "all moduli, all buffers", "why_tests_cant": "The bad buffers are encodings of nonzero multiples of p: at most 255 out of 256^n buffers.", "anchors": ["arith/montfp.c: fp_from_bytes (498-517), fp_to_mpz (122-139)", "arith/naivefp.c: zp_from_bytes", "arith/fasterfp.c: fp_from_bytes"]}
{"id": "C07", "title": "Inversion is inversion", "statement": "For every nonzero a in Z/p with p an odd prime, element_invert gives b with a*b = 1, and b is again canonical.", "quantifier": "all odd prime moduli, all nonzero elements in states reached by any program of calls that avoids the exceptional points of C02, C03, C06 and C08", "why_tests_cant": "The domain is every modulus / operand; tests sample a handful of random values, and the failing inputs have probability around 2^-64.", "anchors": ["arith/montfp.c: fp_invert (401-422)", "arith/fasterfp.c: fp_invert"]}
{"id": "C08", "title": "Exponentiation in Z/p", "statement": "element_pow_mpz(x,a,n) equals a^n for all n >= 0 including 0^0 = 1, in every Z/p backend.", "quantifier": "all moduli, elements and exponents", "why_tests_cant": "The exceptional case (base 0, exponent 0) is one point of the domain and backends disagree there.", "anchors": ["arith/montfp.c: fp_pow_mpz (379-396)", "arith/fasterfp.c: fp_pow_mpz", "arith/naivefp.c: zp_pow_mpz"]}
{"id": "C09", "title": "element_sign is odd", "statement": "For Z/p with p odd: element_sign(a) = 0 iff a = 0, and element_sign(-a) = -element_sign(a), so exactly one of a, -a has sign 1.", "quantifier": "all odd moduli (Montgomery backend) and all odd primes (the other backends), all elements in states reached by any program of calls that avoids the exceptional points of C02, C03, C06 and C08", "why_tests_cant": "The domain is every modulus / operand; tests sample a handful of random values, and the failing inputs have probability around 2^-64.", "anchors": ["arith/montfp.c: fp_sgn_odd (460-472)", "arith/naivefp.c: zp_sgn_odd", "include/pbc_field.h: element_sign"]}
{"id": "C10", "title": "Backends agree", "statement": "naive, fast, faster and Montgomery backends, driven by the same sequence of operations, give the same integers.", "quantifier": "all odd primes, all operation sequences avoiding the listed exceptional points", "why_tests_cant": "Requires equality over every program, not over sampled ones.", "anchors": ["arith/naivefp.c", "arith/fastfp.c", "arith/fasterfp.c", "arith/montfp.c", "arith/fp.c: pbc_tweak_use_fp"]}
{"id": "C11", "title": "Hash to integer is in range", "statement": "pbc_mpz_from_hash(z, limit, data, len) terminates with 0 <= z < limit for every digest, so element_from_hash gives a canonical element in every backend.", "quantifier": "all limits > 0, all digests of all lengths", "why_tests_cant": "The failing digests are exactly those whose expansion, shifted, hits the limit itself: about one in 2^bits.", "anchors": ["arith/field.c: pbc_mpz_from_hash (643-668)", "arith/naivefp.c: zp_from_hash", "arith/montfp.c: fp_from_hash"]}
{"id": "C12", "title": "Hash expansion fills the whole buffer", "statement": "pbc_mpz_from_hash never writes outside its buffer and fills exactly (bits(limit)+7)/8 bytes with H||0||H||1||..., for every digest length including 0.", "quantifier": "all digest lengths and limits", "why_tests_cant": "Memory-safety for every length.", "anchors": ["arith/field.c: pbc_mpz_from_hash (643-664)"]}
{"id": "C13", "title": "Fixed-width big-endian integer encoding round trips", "statement": "For 0 <= z < 256^n, pbc_mpz_out_raw_n writes exactly n bytes which big-endian import maps back to z.", "quantifier": "all n and all z < 256^n", "why_tests_cant": "Infinite domain.", "anchors": ["arith/field.c: pbc_mpz_out_raw_n (629-638)"]}
{"id": "C14", "title": "Text to integer", "statement": "pbc_mpz_set_str reads the longest prefix made of white space and digits of the base and returns its value and its length; printing a non-negative number in the base and parsing gives the number back, also with trailing junk; bases outside 2..36 read nothing.", "quantifier": "all strings, all bases", "why_tests_cant": "All strings.", "anchors": ["arith/field.c: pbc_mpz_set_str (725-755)"]}
{"id": "C15", "title": "Digit printer", "statement": "pbc_mpz_trickle emits the digits of n in base 2..10, most significant first, so that reading them back gives n, and stops at the first callback that returns nonzero.", "quantifier": "all n >= 0, bases 2..10, all callbacks", "why_tests_cant": "All integers; the length estimate of GMP may be one too large for some of them.", "anchors": ["arith/field.c: pbc_mpz_trickle (808-845)"]}
{"id": "C16", "title": "Trial division gives a factorisation", "statement": "pbc_trial_divide reports factors f_i with multiplicities m_i with prod f_i^m_i = n, the f_i increasing, every f_i prime except that, when a limit is given, the last may be a composite cofactor with no prime factor up to the limit.", "quantifier": "all n >= 1 and limits, callbacks that never abort", "why_tests_cant": "All integers.", "anchors": ["arith/field.c: pbc_trial_divide (760-804)"]}
{"id": "C17", "title": "Generic windowed exponentiation", "statement": "element_pow_mpz in any ring using the generic routine returns a^n for every n >= 0, independently of the window size chosen.", "quantifier": "all monoids, elements, exponents, window sizes 1..", "why_tests_cant": "Exponents of every bit length and pattern; windows change at fixed thresholds.", "anchors": ["arith/field.c: element_pow_wind (67-111), generic_pow_mpz, optimal_pow_window_size"]}
{"id": "C18", "title": "Simultaneous exponentiation", "statement": "element_pow2_mpz and element_pow3_mpz return a1^n1 a2^n2 (a3^n3) for all exponents >= 0.", "quantifier": "all commutative monoids, elements and exponents", "why_tests_cant": "All exponents.", "anchors": ["arith/field.c: element_pow2_mpz (153-189), element_pow3_mpz (191-241)"]}
{"id": "C19", "title": "Exponentiation after preprocessing", "statement": "element_pp_pow(out, n, p) equals element_pow_mpz(out, in, n) for every n >= 0 where p was made from in.", "quantifier": "all structures with their declared order, elements, exponents", "why_tests_cant": "Holds in groups of the declared order but is false for exponents above p in Z/p; random exponents below the order never show it.", "anchors": ["arith/field.c: element_build_base_table, element_pow_base_table (251-331)"]}
{"id": "C20", "title": "Square roots in prime fields", "statement": "For an odd prime p and a nonresidue used by the field, element_sqrt of a square returns x with x^2 = a, for every square a including 0.", "quantifier": "all odd primes, all squares, all nonresidues", "why_tests_cant": "The domain is every modulus / operand; tests sample a handful of random values, and the failing inputs have probability around 2^-64.", "anchors": ["arith/field.c: element_tonelli (672-720)"]}
{"id": "C21", "title": "Squareness test in prime fields", "statement": "element_is_sqr(a) is nonzero iff a = y^2 for some y.", "quantifier": "all odd primes, all elements, the four backends", "why_tests_cant": "The domain is every modulus / operand; tests sample a handful of random values, and the failing inputs have probability around 2^-64.", "anchors": ["arith/montfp.c: fp_is_sqr", "arith/naivefp.c: zp_is_sqr"]}
{"id": "C22", "title": "The ring Z", "statement": "Operations on the integer ring follow the documented element contract: halve divides by two, is_sqr decides perfect squares, length_in_bytes bounds what to_bytes writes, from_bytes returns the number of bytes to_bytes wrote and gives the value back.", "quantifier": "all integers", "why_tests_cant": "Infinite domain; violations occur for whole classes (every bit length divisible by 8, every negative number ...).", "anchors": ["arith/z.c: z_halve, z_is_sqr, z_to_bytes, z_from_bytes, z_length_in_bytes"]}
{"id": "C23", "title": "Nested integer lists (multiz)", "statement": "Addition, subtraction and multiplication of multiz values agree with coefficientwise/polynomial arithmetic on nested lists, scalars acting as constants.", "quantifier": "all pairs of nested lists", "why_tests_cant": "Recursive unbounded structure.", "anchors": ["arith/multiz.c: multiz_new_bin, multiz_new_mul, multiz_new_unary, multiz_cmp"]}
{"id": "C24", "title": "Quadratic extension arithmetic", "statement": "add, sub, neg, double, mul, square, mul_mpz, halve, invert on the quadratic extension K(sqrt v) (Karatsuba formulas) coincide with arithmetic of a+b sqrt v; invert(x)*x = 1 for every x != 0 when v is a non-square.", "quantifier": "all base fields, non-squares, elements, aliasings", "why_tests_cant": "Every pair of elements.", "anchors": ["arith/fieldquadratic.c: fq_mul (197-233), fq_square, fq_invert (290-309), fq_add..."]}
{"id": "C25", "title": "Gaussian extension arithmetic", "statement": "The same for the specialised K(i) routines with v = -1, and they agree with the general routines.", "quantifier": "all base fields where -1 is not a square, elements", "why_tests_cant": "Every pair of elements.", "anchors": ["arith/fieldquadratic.c: fi_mul (425-457), fi_square, fi_invert (479-496)"]}
{"id": "C26", "title": "Square test and square roots in quadratic extensions", "statement": "element_is_sqr decides squares in K(sqrt v); element_sqrt of a square returns a root, for every square.", "quantifier": "all finite odd base fields, all squares", "why_tests_cant": "Failing squares lie in the base field (a set of measure 1/q).", "anchors": ["arith/fieldquadratic.c: fq_is_sqr (339-355), fq_sqrt (357-393), fi_is_sqr, fi_sqrt"]}
{"id": "C27", "title": "Quadratic extension encoding", "statement": "to_bytes/from_bytes round trip in quadratic extensions and concatenate the coordinates; sign is odd; cmp decides equality.", "quantifier": "all elements", "why_tests_cant": "All elements.", "anchors": ["arith/fieldquadratic.c: fq_to_bytes (323-329), fq_from_bytes (331-337), fq_sgn, fq_cmp"]}
{"id": "C28", "title": "Polynomial ring arithmetic", "statement": "add, sub, neg, mul, const_mul, square of polynomials agree with polynomial arithmetic, results are normalised (no leading zero) whenever the inputs are, so degree and equality tests are right.", "quantifier": "all coefficient rings, all polynomials", "why_tests_cant": "All polynomials.", "anchors": ["arith/poly.c: poly_add (196-218), poly_sub (220-246), poly_mul (296-330), remove_leading_zeroes (87-98)"]}
{"id": "C29", "title": "Polynomial division", "statement": "poly_div returns q, r with a = q b + r and deg r < deg b, for every a and every nonzero b.", "quantifier": "all fields, all polynomials", "why_tests_cant": "All polynomials.", "anchors": ["arith/poly.c: poly_div (406-452)"]}
{"id": "C30", "title": "Polynomial gcd", "statement": "poly_gcd returns a gcd, and after make_monic the monic gcd.", "quantifier": "all fields, all polynomial pairs not both zero", "why_tests_cant": "All polynomials.", "anchors": ["arith/poly.c: poly_gcd (1342-1363), poly_make_monic (1366-1379)"]}
{"id": "C31", "title": "Polynomial-mod ring multiplication", "statement": "Multiplication and squaring in K[x]/(f), including the special Karatsuba code for degrees 3 and 6, agree with multiplication modulo f for every monic f.", "quantifier": "all commutative rings, all monic f, all elements", "why_tests_cant": "All elements; special code paths per degree.", "anchors": ["arith/poly.c: polymod_mul (1005-1047), polymod_mul_degree3/6 (870-1002), polymod_square (1091-1143), compute_x_powers (1302-1333)"]}
{"id": "C32", "title": "Inversion in polynomial-mod fields", "statement": "For irreducible f and nonzero a in K[x]/(f), the extended Euclid code returns b with a b = 1.", "quantifier": "all fields, irreducible f, nonzero a", "why_tests_cant": "All elements.", "anchors": ["arith/poly.c: polymod_invert, poly_invert (454-492)"]}
{"id": "C33", "title": "Points stay on the curve and obey the group law", "statement": "element_add/double/neg on curve elements compute the elliptic-curve group operations of y^2 = x^3 + a x + b, for all pairs of points including O, equal points, opposite points and points of order two.", "quantifier": "all fields of characteristic not 2 (nonsingular curves), all pairs of points, all operation histories", "why_tests_cant": "Exceptional cases are measure zero for random points.", "anchors": ["ecc/curve.c: curve_mul (153-207), double_no_check (102-137), curve_double, curve_invert"]}
{"id": "C34", "title": "Scalar multiplication", "statement": "element_mul_mpz(P,n) on a curve is n*P for all n >= 0; element_pow_zn likewise.", "quantifier": "all curves, points, scalars", "why_tests_cant": "All scalars.", "anchors": ["ecc/curve.c: field_init_curve_ab (mul_mpz = element_pow_mpz)", "arith/field.c: generic_pow_mpz"]}
{"id": "C35", "title": "Batch doubling and addition", "statement": "element_multi_double and element_multi_add set every n[i] to the same value as the single operations would.", "quantifier": "all arrays of points, in place and into fresh arrays", "why_tests_cant": "Wrong only if some array element is exceptional (O, 2-torsion, equal x) or the output array differs from the input; one bad element corrupts the others.", "anchors": ["ecc/curve.c: multi_double (210-281), multi_add (284-365)", "arith/field.c: element_multi_double, element_multi_add"]}
{"id": "C36", "title": "Parsed points are on the curve", "statement": "element_from_bytes on a curve yields, for any buffer, either the encoded on-curve point or O; nothing off the curve is ever produced.", "quantifier": "all buffers", "why_tests_cant": "Security property over all adversarial buffers.", "anchors": ["ecc/curve.c: curve_from_bytes (603-623), curve_is_valid_point (57-77)"]}
{"id": "C37", "title": "Point encodings round trip", "statement": "from_bytes(to_bytes(P)) = P for every point P, including O; likewise compressed form for every point other than O.", "quantifier": "all curves, all points", "why_tests_cant": "O and 2-torsion points are never hit by random tests.", "anchors": ["ecc/curve.c: curve_to_bytes, curve_from_bytes, element_to_bytes_compressed, element_from_bytes_compressed (762-818)"]}
{"id": "C38", "title": "Compressed parsing validates", "statement": "element_from_bytes_compressed / x_only yield an on-curve point for every buffer.", "quantifier": "all buffers", "why_tests_cant": "Adversarial buffers: half of all x-coordinates have no point.", "anchors": ["ecc/curve.c: 762-818"]}
{"id": "C39", "title": "Hash to point lands on the curve", "statement": "element_from_hash on a curve yields a point of the curve (after multiplication by the cofactor, if set), for every digest for which the search terminates.", "quantifier": "all digests", "why_tests_cant": "All digests.", "anchors": ["ecc/curve.c: curve_from_hash (455-482)"]}
{"id": "C40", "title": "Point order over extension fields", "statement": "pbc_mpz_trace_n gives t_n with t_n = alpha^n + beta^n where alpha, beta are the roots of X^2 - tX + q, for all n >= 1, so curve_order_extn is q^n + 1 - t_n. If t = q + 1 - N for the number N of points of a curve over the field of q elements, then curve_order_extn is the number of points of that curve over the field of q^n elements.", "quantifier": "all q, t, n >= 1; all curves over all finite fields of odd characteristic and all their extensions", "why_tests_cant": "All n.", "anchors": ["ecc/curve.c: pbc_mpz_trace_n (942-965), pbc_mpz_curve_order_extn (968-980)"]}
{"id": "C41", "title": "Curve from j-invariant and twist", "statement": "field_init_curve_j gives a curve with the requested j-invariant (j != 0, 1728); field_reinit_curve_twist keeps the j-invariant and maps points (x,y) to (vx, v sqrt(v) y).", "quantifier": "all fields of characteristic > 3, all j", "why_tests_cant": "All j.", "anchors": ["ecc/curve.c: field_init_curve_j (912-930), field_reinit_curve_twist (885-901)"]}
{"id": "C42", "title": "Singular curve group", "statement": "The node curve y^2 = x^3 + x^2: add/double/invert keep points on the curve and correspond to multiplication under (x,y) -> (y+x)/(y-x).", "quantifier": "all fields of char not 2, all nonsingular points", "why_tests_cant": "All pairs of points.", "anchors": ["ecc/singular.c: sn_add (130-186), sn_double_no_check (68-103), sn_invert"]}
{"id": "C43", "title": "Pairing with the identity", "statement": "element_pairing, pairing_pp_apply give 1 if either argument is O, and element_prod_pairing ignores pairs containing O.", "quantifier": "all pairings and arguments", "why_tests_cant": "Identity arguments have probability 1/r.", "anchors": ["include/pbc_pairing.h: pairing_apply (118-135), pairing_pp_apply (79-89), element_prod_pairing (153-171)"]}
{"id": "C44", "title": "Preprocessed pairing equals direct pairing", "statement": "pairing_pp_init(P); pairing_pp_apply(Q) = element_pairing(P,Q) (types A, A1, D), for all P, Q.", "quantifier": "all parameters, all points", "why_tests_cant": "All points.", "anchors": ["ecc/a_param.c: a_pairing_pp_init (149-207), a_pairing_pp_apply (317-360), a1_pairing_pp_init (1632), a1_pairing_pp_apply (1728)", "ecc/d_param.c: d_pairing_pp_init (794), d_pairing_pp_apply (921)"]}
{"id": "C45", "title": "Product of pairings", "statement": "element_prod_pairing(P_i,Q_i) equals the product of element_pairing(P_i,Q_i), for all arrays of non-identity points whose Miller loops meet no exceptional step.", "quantifier": "all array lengths >= 1 and points", "why_tests_cant": "All arrays.", "anchors": ["ecc/a_param.c: a_pairings_affine (1283-1383), a1_pairings_affine (2100)", "ecc/d_param.c: cc_pairings_affine (710)", "ecc/pairing.c: generic_prod_pairings (35-46)"]}
{"id": "C46", "title": "Pairing methods agree", "statement": "The projective and affine Miller methods give the same pairing value (types A, A1, D, E), for all points.", "quantifier": "all parameters, all points", "why_tests_cant": "All points; one method is not the default and hardly exercised.", "anchors": ["ecc/a_param.c: a_pairing_proj (1053), a_pairing_affine (1201), a1_pairing_proj (1840), a1_pairing (2017)", "ecc/d_param.c: cc_miller_no_denom_proj (116-318), cc_miller_no_denom_affine (321-422)"]}
{"id": "C47", "title": "Pairing respects negation", "statement": "e(-P,Q) = e(P,-Q) = e(P,Q)^-1 for type A pairings, all P, Q.", "quantifier": "all parameters, all points", "why_tests_cant": "All points.", "anchors": ["ecc/a_param.c: a_pairing_affine, a_tateexp, a_miller_evalfn"]}
{"id": "C48", "title": "Pairing values are r-th roots of unity", "statement": "Every output of a type A / A1 pairing, of element_random and element_from_hash on GT satisfies z^r = 1.", "quantifier": "all parameters satisfying the documented relation r h = q + 1, all inputs with nonzero Miller value", "why_tests_cant": "All inputs.", "anchors": ["ecc/a_param.c: a_tateexp (285-303), a_finalpow", "ecc/pairing.c: gt_from_hash, gt_random"]}
{"id": "C49", "title": "Lucas final powering", "statement": "The Lucas-sequence ladder used for the final powering of type A (lucas_odd) returns in^cofactor for unitary in, for every cofactor of the required parity; type D/G (lucas_even) likewise.", "quantifier": "all fields, all unitary elements, all cofactors", "why_tests_cant": "All cofactors; parity assumption is undocumented in the API.", "anchors": ["ecc/a_param.c: lucas_odd (226-283)", "ecc/d_param.c: lucas_even (441-502)"]}
{"id": "C50", "title": "Final powering exponents", "statement": "The Frobenius-based final powering of types D (k = 6) and F (k = 12) equals raising to (q^k - 1)/r.", "quantifier": "all parameters, all nonzero field elements", "why_tests_cant": "All elements.", "anchors": ["ecc/f_param.c: f_tateexp (250-283), f_init_pairing (335-447)", "ecc/d_param.c: cc_tatepower (505-564)"]}
{"id": "C51", "title": "Sparse line multiplication (type F)", "statement": "The hand-scheduled multiplication in the type F Miller loop equals multiplication by a Qx x^4 + b Qy x^3 + c in F_q^12.", "quantifier": "all elements", "why_tests_cant": "All elements.", "anchors": ["ecc/f_param.c: cc_miller_no_denom do_term, f_miller_evalfn (109-149)"]}
{"id": "C52", "title": "GT is a multiplicative group view of the field", "statement": "All GT operations (additive and multiplicative notation) act as multiplication of the underlying field element; generated and parsed values round trip.", "quantifier": "all elements and operation sequences", "why_tests_cant": "All histories.", "anchors": ["ecc/pairing.c: mulg_* (131-283)"]}
{"id": "C53", "title": "Almost-coDDH test", "statement": "is_almost_coddh(g, g^x, h, h^y) for a bilinear non-degenerate pairing of prime order returns true exactly for y = x or y = -x.", "quantifier": "all groups of prime order r with a bilinear non-degenerate map, all x, y, generators", "why_tests_cant": "All exponents.", "anchors": ["ecc/pairing.c: generic_is_almost_coddh (15-33)", "ecc/d_param.c: cc_is_almost_coddh (739-784)"]}
{"id": "C54", "title": "Preprocessing storage bounds", "statement": "pairing_pp_init (type D) never writes more coefficient triples than it allocated, and pp_clear clears exactly the stored ones.", "quantifier": "all group orders r", "why_tests_cant": "Fails only for orders whose binary expansion is all ones (Mersenne primes).", "anchors": ["ecc/d_param.c: d_pairing_pp_init (794-902), d_pairing_pp_clear (904-919)", "ecc/g_param.c: g_pairing_pp_init (619)"]}
{"id": "C55", "title": "The Shipsey-Stange methods compute the same pairing as Miller's algorithm", "statement": "With method shipsey-stange, pairing_apply (types A, E, G) and pairing_pp_apply (type A) return the same value as with the Miller methods, and the block of terms kept by the loop is, after the bits of r, the sequence of division polynomials of P at r-3,...,r+4. (On type E the method divides by zero when Q is P, -P or 2P, and only then.)", "quantifier": "all parameters of types A, E and G with r >= 7, all points P killed by r and all arguments Q of the pairing", "why_tests_cant": "The recurrences are identities between division polynomials at all indices; a test fixes r and two points, and the arguments on which the method divides by zero have negligible probability.", "anchors": ["ecc/a_param.c: a_pairing_ellnet (364-670), a_pairing_ellnet_pp_init, a_pairing_ellnet_pp_apply (672-1050)", "ecc/e_param.c: e_pairing_ellnet (486-792)", "ecc/g_param.c: g_pairing_ellnet (789-1124)"]}
{"id": "C56", "title": "Type A / A1 / E / F parameter generation relations", "statement": "Parameters produced by the generators satisfy the documented relations (type A: r = 2^a +- 2^b +- 1, q + 1 = r h, 12 | h; A1: p + 1 = l n, as long as the cofactor l that is written fits in 32 bits; F: q, r from the BN polynomials, r | Phi_12(q), 4q - t^2 = 3 V^2; E: q = h r^2 + 1).", "quantifier": "all random choices and sizes on which generation terminates", "why_tests_cant": "All random choices.", "anchors": ["ecc/a_param.c: pbc_param_init_a_gen (1504-1562), pbc_param_init_a1_gen (2300)", "ecc/f_param.c: pbc_param_init_f_gen (481), tryminusx, tryplusx", "ecc/e_param.c: pbc_param_init_e_gen (908)"]}
{"id": "C57", "title": "Pell equation solver", "statement": "Every (x,y) produced for x^2 - D y^2 = N satisfies the equation, and the 'minimal solution' satisfies x^2 - D y^2 = 1; advancing a solution by the unit again gives a solution.", "quantifier": "all non-square D > 0, all N", "why_tests_cant": "Unbounded continued fraction expansions.", "anchors": ["ecc/mnt.c: general_pell (31-171), pbc_cm_search_d (288-343)"]}
{"id": "C58", "title": "MNT curves", "statement": "Every curve reported by pbc_cm_search_d satisfies 4q - t^2 = D V^2 for t = q + 1 - n, h r = n, and n divides q^2 - q + 1 (embedding degree 6).", "quantifier": "all discriminants D with 3D < 2^32, all bit limits", "why_tests_cant": "All discriminants.", "anchors": ["ecc/mnt.c: mnt_step2 (202-286), pbc_cm_search_d"]}
{"id": "C59", "title": "Freeman curves", "statement": "Every curve reported by pbc_cm_search_g satisfies the CM equation and n divides Phi_10(q); the 'should never reach here' branch is unreachable.", "quantifier": "all discriminants D, all bit limits", "why_tests_cant": "All discriminants.", "anchors": ["ecc/mnt.c: freeman_step2 (345-442), pbc_cm_search_g (444-496)"]}
{"id": "C60", "title": "Parameter text round trips", "statement": "Writing pairing parameters and reading them back yields the same values, whatever extra white space, blank lines, comments or key order; a missing key is an error; the last of duplicate keys wins; reading with a length limit never looks past it.", "quantifier": "all parameter values, all texts", "why_tests_cant": "All texts.", "anchors": ["ecc/param.c: token_get (42-83), read_symtab (94-111), lookup_mpz, param_out_mpz, pbc_param_init_set_buf", "misc/symtab.c"]}
{"id": "C61", "title": "Discrete logarithm", "statement": "element_dlog_brute_force returns the least x >= 1 with g^x = h when one exists; element_dlog_pollard_rho returns x with g^x = h whenever it returns with a usable collision, for prime group order.", "quantifier": "all groups, elements, random choices", "why_tests_cant": "All groups and random walks.", "anchors": ["arith/dlog.c: element_dlog_brute_force (36-53), element_dlog_pollard_rho (57-187)"]}
{"id": "C62", "title": "Symbol table is a map", "statement": "symtab_at/has after any sequence of puts return what a map would: the latest value put under the key, or nothing; iteration visits each key once in first-insertion order.", "quantifier": "all operation sequences", "why_tests_cant": "All histories.", "anchors": ["misc/symtab.c"]}
{"id": "C63", "title": "Dynamic array is a list", "statement": "darray operations behave like list operations and never write beyond the allocated capacity.", "quantifier": "all operation sequences", "why_tests_cant": "All histories, including those crossing the capacity doubling.", "anchors": ["misc/darray.c"]}
{"id": "C64", "title": "Formatted output length contract", "statement": "element_snprintf never writes more than the given size, always NUL-terminates when size > 0 and returns the length the untruncated output would have had; plain text is copied unchanged.", "quantifier": "all format strings, sizes and elements", "why_tests_cant": "All formats and sizes.", "anchors": ["misc/extend_printf.c"]}
{"id": "C65", "title": "Ternary field arithmetic", "statement": "The two-bit-plane representation of GF(3)[x]/(trinomial): add, sub, neg, double, mul, cube, invert compute the field operations coefficientwise/modulo the trinomial.", "quantifier": "all m, trinomials, elements", "why_tests_cant": "All elements.", "anchors": ["arith/ternary_extension_field.c: gf3m_add (149-159), gf3m_sub (162-172), gf3m_mult (300-319), gf3m_cubic (322-342), gf3m_invert (362-426), gf3m_reduct"]}
{"id": "C66", "title": "Cubic and sextic ternary towers", "statement": "GF(3^{2m}) over x^2+1, GF(3^{3m}) over x^3-x-1 (multiplication, cube, inversion) compute the field operations.", "quantifier": "all elements", "why_tests_cant": "All elements.", "anchors": ["arith/ternary_extension_field.c: gf32m_mult (611-637), gf33m_mult (778-835), gf33m_cubic (838-861), gf33m_invert (864-921)"]}
{"id": "C67", "title": "Ternary element encoding", "statement": "to_bytes/from_bytes round trip for GF(3^m).", "quantifier": "all elements", "why_tests_cant": "All elements.", "anchors": ["arith/ternary_extension_field.c: gf3m_to_bytes, gf3m_from_bytes (439-466)"]}
{"id": "C68", "title": "Random numbers are in range", "statement": "pbc_mpz_random reading from a byte source yields a value below the limit, uniformly if the bytes are uniform (each value below the limit has the same number of accepting byte strings).", "quantifier": "all limits > 0 and byte streams", "why_tests_cant": "A distribution statement and an all-streams statement.", "anchors": ["arith/random.c: file_mpz_random (27-56)"]}
{"id": "C69", "title": "Fp for small moduli (tinyfp)", "statement": "The word-sized F_p backend computes arithmetic mod p for every p that fits a word.", "quantifier": "all p < 2^64, all operands", "why_tests_cant": "Fails only when products exceed a word; small test primes never show it.", "anchors": ["arith/tinyfp.c: fp_mul (124-133), fp_add (85-97), fp_set_si (39-48), fp_sub"]}
{"id": "C70", "title": "Generic subtraction and division tolerate aliasing", "statement": "element_sub(c,a,b) and element_div(c,a,b) via the generic routines give a-b and a/b for every aliasing of c, a, b.", "quantifier": "all groups, all values, all aliasing patterns", "why_tests_cant": "All aliasings times all values.", "anchors": ["arith/field.c: generic_sub (445-456), generic_div (458-469)"]}
{"id": "C71", "title": "BLS-style verification is complete and sound at the equation level", "statement": "With a bilinear non-degenerate pairing of prime order, a signature h^x verifies against g^x and no other group element verifies.", "quantifier": "all groups, keys, messages", "why_tests_cant": "All group elements.", "anchors": ["example/bls.c: main"]}
{"id": "C72", "title": "Square test on curves", "statement": "element_is_sqr on a curve element of a group of order n tells whether the point is the double of another point.", "quantifier": "all curves, group orders and points", "why_tests_cant": "The even-order branch is untested and needs every point and order.", "anchors": ["ecc/curve.c: odd_curve_is_sqr (634-637), even_curve_is_sqr (641-656)"]}
{"id": "C73", "title": "Polynomials times integers stay normalised", "statement": "Doubling a polynomial or multiplying it by an integer gives the right polynomial with no leading zero coefficient, so that comparing with 0, degree and division by the result behave.", "quantifier": "all coefficient rings, all polynomials, all integers", "why_tests_cant": "The failure needs an integer divisible by the characteristic.", "anchors": ["arith/poly.c: poly_double (260-270), poly_mul_mpz (272-282), poly_mul_si (284-294)"]}
{"id": "C74", "title": "Polynomial byte encoding round trips", "statement": "Writing any polynomial to bytes and reading it back gives the same polynomial, the reported lengths agree, and whatever is read is a normalised polynomial.", "quantifier": "all coefficient encodings that round trip, all polynomials, all byte strings", "why_tests_cant": "Only very long polynomials or malformed encodings fail.", "anchors": ["arith/poly.c: poly_to_bytes (566-576), poly_from_bytes (578-587)"]}
{"id": "C75", "title": "Residue byte encoding round trips", "statement": "Writing an element of K[x]/(f) to bytes and reading it back, whatever follows, gives the same element and consumes exactly the bytes written; the length is n times that of a coefficient; different elements have different encodings.", "quantifier": "all coefficient encodings that round trip, all degrees, all elements", "why_tests_cant": "All elements and degrees.", "anchors": ["arith/poly.c: polymod_to_bytes (718-727), polymod_length_in_bytes (729-740), polymod_from_bytes (742-752)"]}
{"id": "C76", "title": "Square test in polynomial-mod fields", "statement": "element_is_sqr on an element of a finite field K[x]/(f) of odd order tells whether it is a square.", "quantifier": "all finite fields K of odd order, all irreducible f, all elements", "why_tests_cant": "Needs every element, including 0, of every extension.", "anchors": ["arith/poly.c: polymod_is_sqr (617-632)", "arith/field.c: generic_pow_mpz (113-126)"]}
{"id": "C77", "title": "Square roots in polynomial-mod fields", "statement": "Whenever element_sqrt in K[x]/(f) returns, whatever the random source produced, the square of the result is the argument; for a nonzero square argument one attempt with random value x succeeds exactly if x is a root or x^2 - a is not a square; on a non-square it never returns.", "quantifier": "all finite fields of odd order, all arguments, all random sequences", "why_tests_cant": "Depends on every random sequence.", "anchors": ["arith/poly.c: polymod_sqrt (636-716)"]}
{"id": "C78", "title": "Irreducibility test", "statement": "poly_is_irred returns 1 exactly for the irreducible polynomials.", "quantifier": "all finite fields, all monic polynomials of any degree (and degrees below 1)", "why_tests_cant": "All polynomials over all fields.", "anchors": ["arith/poly.c: poly_is_irred (1584-1626), checkgcd (1567-1577)", "arith/field.c: pbc_trial_divide (760-804)"]}
{"id": "C79", "title": "Root finding", "statement": "poly_findroot returns nonzero exactly if the polynomial has no root in the field, and otherwise, whenever it returns, whatever the random source produced, the result is a root; from every intermediate state some random value makes progress.", "quantifier": "all finite fields of odd order, all monic polynomials of positive degree, all random sequences", "why_tests_cant": "All polynomials and all random sequences.", "anchors": ["arith/poly.c: poly_findroot (1645-1724), poly_random_monic (1462-1469)"]}
{"id": "C80", "title": "Type A pairings are bilinear", "statement": "For type A parameters (r prime, r = 2^exp2 +- 2^exp1 +- 1 > 5, q + 1 = h r) there is one bilinear map e from pairs of r-torsion points to r-th roots of unity, the reduced Tate pairing with the distortion map (x,y) -> (-x, iy), and the projective, affine and preprocessed methods all succeed on all points of order dividing r (including O) and return e(P,Q). In particular e(aP, bQ) = e(P,Q)^(ab).", "quantifier": "all type A parameter sets, all points of order dividing r, all integers a, b", "why_tests_cant": "Bilinearity for all points and scalars is an algebraic law; tests sample a few random points of one parameter set.", "anchors": ["ecc/a_param.c: a_pairing_proj (1053-1198), a_pairing_affine (1201-1279), a_pairing_pp_init (149-207), a_pairing_pp_apply (317-360), a_tateexp (285-303)", "include/pbc_pairing.h: pairing_apply (118-135), pairing_pp_init (54-61), pairing_pp_apply (79-89)"]}
{"id": "C81", "title": "Type A1 pairings are bilinear", "statement": "For type A1 parameters (n odd, p + 1 = l n, n composite in normal use) the projective, affine and preprocessed methods all return the same bilinear map on all points of order dividing n, including the points of smaller order that composite-order schemes use.", "quantifier": "all type A1 parameter sets, all points of order dividing n", "why_tests_cant": "The points whose double-and-add chain meets O early are too rare at real sizes to be sampled.", "anchors": ["ecc/a_param.c: a1_pairing_proj (1840-2014), a1_pairing (2017-2097), a1_pairing_pp_init (1632-1726), a1_pairing_pp_apply (1728-1816)"]}
{"id": "C82", "title": "Curve searches end and respect the bit limit", "statement": "pbc_cm_search_d and pbc_cm_search_g return for every discriminant and limit, and the group order of every curve handed to the call-back has at most 'bitlimit' bits, as documented.", "quantifier": "all discriminants, all bit limits, all call-backs", "why_tests_cant": "Termination and a bound for every discriminant; the size of the solutions varies without pattern.", "anchors": ["include/pbc_mnt.h: pbc_cm_search_d, pbc_cm_search_g (27-47)", "ecc/mnt.c: pbc_cm_search_d (288-343), pbc_cm_search_g (444-496), mnt_step2, freeman_step2"]}
{"id": "C83", "title": "Multiples by machine integers in groups", "statement": "element_mul_si(x, a, n) is the n-th multiple (power) of a for curve points and elements of GT, as element_mul_mpz is; element_halve inverts doubling.", "quantifier": "all points, all elements of GT, all n", "why_tests_cant": "The library's own code only uses element_mul_si on fields; a test with n = 1 passes.", "anchors": ["arith/field.c: generic_mul_si (394-400), generic_halve (405-412), zero_set_mpz (420-423), field_init (569-618)", "ecc/curve.c: field_init_curve_ab (694-745)", "ecc/pairing.c: pairing_GT_init (233-283)"]}
{"id": "C84", "title": "Demonstration protocols", "statement": "With a bilinear pairing the demonstration programs agree with themselves: Joux's three keys and Yuan-Li's two keys are equal, and Hess, Paterson, Zhang-Kim and ZSS accept the signatures they make (nonce and hash sum invertible where they are inverted).", "quantifier": "all bilinear maps, points, keys, nonces, hashes", "why_tests_cant": "All random choices.", "anchors": ["example/joux.c", "example/hess.c", "example/paterson.c", "example/yuanli.c", "example/zhangkim.c", "example/zss.c"]}
{"id": "C85", "title": "Integer constants in ternary fields", "statement": "Setting an element of GF(3^m) from an integer, or multiplying it by an integer, gives the image of the integer in the field; halving divides by two.", "quantifier": "all ternary fields, elements and integers", "why_tests_cant": "Zero and multiples of three behave correctly; the defect shows only for the other residues.", "anchors": ["arith/field.c: zero_set_mpz (420-423), generic_set_si (429-435), generic_mul_si (394-400), generic_mul_mpz (386-392), generic_halve (405-412)", "arith/ternary_extension_field.c: field_init_gf3m (476-518)"]}
{"id": "C86", "title": "Random elements of ternary fields are elements", "statement": "element_random on GF(3^m) stores a reduced element in canonical form.", "quantifier": "all degrees, word sizes and answers of the random source", "why_tests_cant": "It depends on the degree being a multiple of the word size.", "anchors": ["arith/ternary_extension_field.c: gf3m_random (209-224)"]}
{"id": "C87", "title": "Square roots in ternary fields", "statement": "element_sqrt on GF(3^m) applied to a square gives one of its roots.", "quantifier": "all irreducible trinomials and squares", "why_tests_cant": "All elements; correct exactly for odd degrees.", "anchors": ["arith/ternary_extension_field.c: gf3m_sqrt (428-437)"]}
{"id": "C88", "title": "Type D and G pairings are bilinear", "statement": "With parameters of type D (embedding degree k) or G, pairing_init succeeds and element_pairing(P, Q) is the reduced Tate pairing: for P in G1 and any Q on the twist it returns a value e(P,Q), bilinear and an r-th root of unity, so e(aP,bQ)=e(P,Q)^(ab).", "quantifier": "all fields, curves, orders r, points", "why_tests_cant": "All fields, curves and points; tests sample a few points of one curve.", "anchors": ["ecc/d_param.c: d_init_pairing (993-1095), cc_pairing (570-587), cc_miller_no_denom_affine (321-421), cc_tatepower (505-564)", "ecc/g_param.c: g_init_pairing (1248-1354), cc_pairing (541-558), tatepower10 (471-536)"]}
{"id": "C89", "title": "Comparison in G2 agrees with the pairing", "statement": "Elements of G2 (type D) that element_cmp reports equal pair to the same value with every element of G1, and if they pair to the same value with an element of G1 with nontrivial pairing then element_cmp reports them equal.", "quantifier": "all points of the twist, all parameters with cofactor prime to r", "why_tests_cant": "G2 elements are represented by points of a larger group; equality is modulo the cofactor part.", "anchors": ["ecc/curve.c: curve_cmp (375-393)", "ecc/d_param.c: d_init_pairing (1060-1070)"]}
{"id": "C90", "title": "The type F pairing is bilinear", "statement": "With parameters of type F (q = 1 mod 6, r a prime dividing q^4-q^2+1), pairing_init succeeds and element_pairing(P, Q), for P in G1 and Q on the twist, returns a value e(P,Q) that is an r-th root of unity and bilinear, so e(aP,bQ)=e(P,Q)^(ab).", "quantifier": "all fields, curves, orders r, points", "why_tests_cant": "All fields, curves and points; the sextic untwisting, sparse line evaluation and Frobenius constants are only sampled by tests.", "anchors": ["ecc/f_param.c: f_init_pairing (335-447), f_pairing (289-311), cc_miller_no_denom (97-248), f_tateexp (250-283)"]}
{"id": "C91", "title": "Preprocessing a pairing takes a snapshot", "statement": "After pairing_pp_init(pp, P, pairing), pairing_pp_apply(out, Q, pp) returns the pairing of the value P had at that call, whatever is done with the element P afterwards.", "quantifier": "all points P, Q, all later values of the element", "why_tests_cant": "Tests do not modify or clear the preprocessed element before applying; the outcome depends on the pairing type.", "anchors": ["ecc/pairing.c: default_pp_init (61-64), default_pp_apply (66-68)", "include/pbc_pairing.h: pairing_pp_init (54-61), pairing_pp_apply (79-89)", "ecc/f_param.c: f_init_pairing (335-447)", "ecc/e_param.c: e_init_pairing (832-872)"]}
{"id": "C92", "title": "The exponent for comparing points of G2 is computed exactly", "statement": "When a pairing of type D, F or G is set up, the divisions performed to obtain the exponent used by element_cmp on G2 are exact; for D and G the exponent times r is the number of points of the twist over the field of q^(k/2) elements, for F the exponent times r^2 is the number of points of the curve over the field of q^12 elements.", "quantifier": "all q, n, r with r dividing n and q^(k/2)+1 (k/2 odd), for F all r dividing q^4-q^2+1", "why_tests_cant": "mpz_divexact silently returns nonsense if the division is not exact; tests see a few parameter files only.", "anchors": ["ecc/d_param.c: d_init_pairing (1060-1070)", "ecc/g_param.c: g_init_pairing (1327-1337)", "ecc/f_param.c: f_init_pairing (388-399)", "ecc/curve.c: pbc_mpz_curve_order_extn (968-980), pbc_mpz_trace_n (942-965)"]}
{"id": "C93", "title": "The type E pairing is bilinear", "statement": "For a pairing set up from type E parameters, element_pairing of two group elements of order dividing r returns an r-th root of unity e(P, Q), with either Miller routine, and e(xP, yQ) = e(P, Q)^(xy); provided the point the library draws at random during setup is, doubled, not killed by r. If it is the first argument itself the library divides by zero.", "quantifier": "all primes r = 2^exp2 +- 2^exp1 +- 1 above 5, all fields of q elements with r | q-1, all curves over them, all pairs of points killed by r, all integers x, y, all admissible random points", "why_tests_cant": "The routine divides by values of Miller functions at a random point; tests see only a few parameter sets and random points and cannot show that no division by zero or wrong branch occurs for other inputs.", "anchors": ["ecc/e_param.c: e_pairing, e_miller_proj, e_miller_affine, e_init_pairing, e_finalpow"]}
{"id": "C94", "title": "Type E pairing values do not depend on the random point", "statement": "Two programs that set up the same type E parameters draw different random points, yet compute the same pairing value for the same arguments, so signatures made by one verify in the other.", "quantifier": "all type E parameters, all pairs of admissible random points, all arguments killed by r, both Miller routines on either side", "why_tests_cant": "Each process draws one random point; agreement for all pairs of draws is a statement about all points of the curve.", "anchors": ["ecc/e_param.c: e_init_pairing, e_pairing", "ecc/curve.c: curve_set_gen_no_cofac"]}
{"id": "C95", "title": "Setting the method of one type E pairing does not affect others", "statement": "The selected Miller routine of type E pairings is a global variable; nevertheless no sequence of setups and pairing_option_set calls on other type E pairings changes any value a pairing computes.", "quantifier": "all type E parameters, all states of the global variable, all finite sequences of setups and option calls on other pairings, all arguments killed by r", "why_tests_cant": "The property is about arbitrary interleavings of operations on several pairing objects.", "anchors": ["ecc/e_param.c: e_pairing_option_set, e_miller_fn, e_init_pairing"]}
{"id": "C96", "title": "Printing an element and reading the text gives the element back", "statement": "The text that element_snprint / element_out_str produce for an element of Zr or a prime field (montfp, naivefp), of a quadratic extension, of a polynomial extension, of a curve, or of GT, is read by element_set_str (base 10 or 0) as the same element, whatever the variable held before; element_set_str returns the number of characters of the text. White space may precede the text and other text may follow. The same holds for numerals in any base from 2 to 36.", "quantifier": "all elements, all towers of extensions, all previous values, all white space before and all text after, all bases 2..36", "why_tests_cant": "Text round trips are quantified over all elements, all nestings of extensions and all surrounding texts.", "anchors": ["arith/montfp.c:fp_set_str", "arith/naivefp.c:zp_set_str", "arith/z.c:z_set_str", "arith/multiz.c:f_set_str", "arith/fieldquadratic.c:fq_set_str", "arith/poly.c:polymod_set_str", "ecc/curve.c:curve_set_str", "ecc/pairing.c:mulg_set_str", "arith/field.c:pbc_mpz_set_str", "arith/field.c:default_element_set_str"]}
{"id": "C97", "title": "Reading elements from untrusted text is safe", "statement": "For every text, base and previous value, element_set_str on elements of prime fields, the integers, quadratic and polynomial extensions and curves never looks past the end of the text and returns at most its length. If element_set_str on a point returns a non-zero count, the variable holds a point of the curve; if it returns 0 it holds a point of the curve too.", "quantifier": "all texts (malformed ones included), bases, previous values, towers", "why_tests_cant": "The texts are arbitrary; a fuzzer covers a vanishing part of them and cannot show that no text leads past the end or leaves a bad point.", "anchors": ["ecc/curve.c:curve_set_str", "arith/fieldquadratic.c:fq_set_str", "arith/poly.c:polymod_set_str", "arith/field.c:pbc_mpz_set_str"]}
{"id": "C98", "title": "Type I points form the group of the curve", "statement": "Any sequence of point operations on type I group elements (copy, neutral element, add, subtract, negate, double, multiply by an integer), with any aliasing of arguments and results, computes the group law of the curve y^2 = x^3 - x + 1; no call fails; elements that start on the curve stay on it; is0 and comparison answer for the points.", "quantifier": "all fields of characteristic 3, all programs of calls, all starting points of the curve", "why_tests_cant": "Addition has five cases selected by the operands and writes its result over operands that may alias; tests sample a few points of one curve.", "anchors": ["ecc/eta_T_3.c: point_add, point_invert, point_set, point_cmp, point_is0", "arith/field.c: generic_sub, generic_double, element_pow_mpz"]}
{"id": "C99", "title": "Random type I points lie in the subgroup", "statement": "element_random on a type I group element delivers a point of the curve that the group order kills.", "quantifier": "all fields of 3^m elements, m prime to 6, all sequences of random field elements, all square root routines", "why_tests_cant": "The failing draw has probability 3^-m; no test will meet it.", "anchors": ["ecc/eta_T_3.c: point_random"]}
{"id": "C100", "title": "Type I final powering", "statement": "The final powering of the type I pairing, computed by one inversion, two short products and cubings, raises every nonzero element to the power (3^(6m)-1)/N where N is the order of the curve; it fails on zero only.", "quantifier": "all fields of 3^m elements, m prime to 6, all elements of the field of 3^(6m) elements", "why_tests_cant": "The two short routines are identities that hold only for elements of norm 1 and depend on m mod 6 and m mod 12; a test covers one m.", "anchors": ["ecc/eta_T_3.c: algorithm6, algorithm7, algorithm8"]}
{"id": "C101", "title": "Type I unrolled loop equals the plain loop", "statement": "The doubled loop body used when (m-1)/2 is even, with its sparse cube, computes the same element as the plain loop.", "quantifier": "all fields of 3^m elements, m prime to 6 with (m-1)/2 even, all coordinates", "why_tests_cant": "The library picks one routine per field, so tests never compare the two.", "anchors": ["ecc/eta_T_3.c: algorithm4, algorithm4a, algorithm5"]}
{"id": "C102", "title": "Type I pairing is bilinear", "statement": "The type I pairing is defined for all points of the curve, additive in both arguments, satisfies e(aP,bQ)=e(P,Q)^(ab), is symmetric on multiples of one point, and its values are killed by the order of either argument.", "quantifier": "all fields of 3^m elements, m prime to 6, all points of the curve and all integers", "why_tests_cant": "Bilinearity is a statement about all pairs of points; tests try a few random ones for one field.", "anchors": ["ecc/eta_T_3.c: eta_T_pairing", "include/pbc_pairing.h: pairing_apply"]}
{"id": "C103", "title": "Type I curve order and parameter table", "statement": "The type I curve has exactly N = 3^m+1\u00b13^((m+1)/2) points, so multiplying any point by N gives the neutral element; every generated parameter set has m prime to 6, group order times cofactor equal to N, both odd and without a common factor, and a group order longer than requested; the points that the group order kills are exactly that many.", "quantifier": "all fields of 3^m elements, m prime to 6, all points; all requested sizes", "why_tests_cant": "A wrong digit in the table of group orders shows only in protocols that rely on the order.", "anchors": ["ecc/eta_T_3.c: pbc_param_init_i_gen, eta_T_3_init_pairing"]}
{"id": "C104", "title": "Generated type I parameters give a field", "statement": "For every parameter set the type I generator returns, the trinomial x^m+x^t+2 is irreducible over GF(3): the base field really is a field of 3^m elements, every nonzero element is inverted, and over this field the pairing is bilinear with values that are roots of unity of the generated order on points of that order.", "quantifier": "all requested sizes, all word sizes, all elements and points", "why_tests_cant": "A reducible trinomial leaves sums, products and almost all inversions intact; tests on random elements practically never hit a zero divisor.", "anchors": ["ecc/eta_T_3.c: pbc_param_init_i_gen, eta_T_3_init_pairing", "arith/ternary_extension_field.c: field_init_gf3m, gf3m_invert"]}
{"id": "C105", "title": "Elements from nested lists of integers", "statement": "Setting an element from a nested list of integers whose lists are non-empty and not longer than the degree of the extension they are read in gives the value of the list, read as a polynomial in the generators of the tower; integers stand for constants, and below the last generator only the first entry counts. The items of an element, read back, give the element.", "quantifier": "all towers of prime fields, quadratic extensions, polynomial quotients and polynomial rings, all nested lists, all elements, all points", "why_tests_cant": "The depth and shape of the list are unbounded and independent of the depth of the tower; tests only use a few shapes.", "anchors": ["arith/multiz.c: multiz_to_mpz, multiz_at, multiz_count", "arith/field.c: generic_set_multiz", "arith/fieldquadratic.c: fq_set_multiz, fq_item", "arith/poly.c: poly_set_multiz, polymod_set_multiz, poly_coeff, polymod_coeff", "ecc/curve.c: curve_set_multiz, curve_item"]}
{"id": "C106", "title": "Parameters written and read back", "statement": "A text that gives a type and the values of its parameters, in any order and layout and with repetitions, is read as exactly those parameters; what the library writes for any parameters of any of the seven types reads back as the same parameters. An unknown or missing type is an error; otherwise the result code is the number of required names that are missing, and a pairing is made only if it is zero.", "quantifier": "all parameters of all types, all texts, strings and buffers, whatever follows in memory", "why_tests_cant": "Tests read a handful of files the library itself wrote.", "anchors": ["ecc/param.c: param_set_tab, pbc_param_init_set_str, pbc_param_init_set_buf", "ecc/pairing.c: pairing_init_set_buf, pairing_init_set_str", "ecc/a_param.c: a_out_str, pbc_param_init_a, a1_out_str, pbc_param_init_a1", "ecc/d_param.c: d_out_str, pbc_param_init_d", "ecc/e_param.c: e_out_str, pbc_param_init_e", "ecc/f_param.c: f_out_str, pbc_param_init_f", "ecc/g_param.c: g_out_str, pbc_param_init_g", "ecc/eta_T_3.c: eta_T_3_out_str, pbc_param_init_i"]}
{"id": "C107", "title": "Pairings are not degenerate", "statement": "On types A and A1 every point other than the identity whose order divides r pairs with some point to a value other than 1. If r is a prime that does not divide the cofactor, the group G1 has exactly r elements and the pairing of two of its elements is 1 only if one of them is the identity, so exactly one element verifies as a signature of a given message. On types D and G every such point has a partner on the twist, the order of the twist is divisible by r whenever that of the curve is, and if the order of the twist is r times a number prime to r then the pairing of a point of G1 and a point of the twist of order r is 1 only if one of them is the identity. On type F, with parameters of the family that is generated, this holds with no further condition, and comparison in G2 is equality of the pairings with any point of G1 other than the identity. On type E, with parameters of the family that is generated, every element of G1 other than the identity pairs with some element to a value other than 1. On type I every point other than the identity pairs with some point to a value other than 1; for generated parameters the partner can be chosen in the group of points killed by the group order, and for a prime group order the value is 1 only if one of the points is the identity.", "quantifier": "all finite fields of the right kind, all orders and cofactors, all points", "why_tests_cant": "Tests find a pairing value other than 1 for one base point under one set of parameters; they cannot show that no parameters and no points make the pairing trivial.", "anchors": ["ecc/a_param.c: a_pairing_proj, a_pairing_affine, a_pairing_pp_apply, a1_pairing_proj, pbc_param_init_a_gen", "ecc/d_param.c: cc_pairing", "include/pbc_pairing.h: pairing_apply", "example/bls.c", "ecc/g_param.c: cc_pairing", "ecc/f_param.c: cc_pairing, f_init_pairing (388-399)", "ecc/e_param.c: e_pairing, e_miller_proj, e_miller_affine", "ecc/eta_T_3.c: eta_T_pairing, algorithm4a, algorithm8"]}
{"id": "C108", "title": "Choosing the method of a pairing", "statement": "Every pairing has a method of its own: after any sequence of set-ups and option settings the routine used is that of the method last set for this pairing, unknown options are ignored, and the value of the pairing does not depend on the method. Preprocessed data stay usable. (The last claims and the first fail for some types: types D, G and E share one variable among all pairings of the type, on types D and G one of the methods is wrong, type G cannot be set back, and preprocessed data of types A and A1 are misread after a change of method.)", "quantifier": "all programs: any number of pairings of any types, any sequence of set-ups, options with arbitrary keys and values, and preprocessing; all points", "why_tests_cant": "Tests use one pairing at a time and set its method before using it; interference needs several pairings and particular orders of calls.", "anchors": ["ecc/pairing.c: pairing_init_pbc_param, default_option_set", "ecc/a_param.c: a_pairing_option_set, a1_pairing_option_set, a_init_pairing, a1_init_pairing", "ecc/d_param.c: d_pairing_option_set, cc_miller_no_denom_fn", "ecc/g_param.c: g_pairing_option_set", "ecc/e_param.c: e_pairing_option_set, e_miller_fn", "include/pbc_pairing.h: pairing_option_set, pairing_pp_init, pairing_pp_apply"]}
{"id": "C109", "title": "Complex numbers and the modular function", "statement": "Every operation on complex numbers writes the complex sum, difference, product, square, conjugate, inverse, power into its destination, leaves other variables alone and allows the destination to be an operand. The exponential, e, cos+i sin, the nome q and the modular function end for every argument and their results are within the stated error of the true values. (Adding an integer into another variable loses the imaginary part; powers with exponents of 32 bits never end.)", "quantifier": "all real and complex arguments, all variables and aliasings, all exponents, all precisions", "why_tests_cant": "Tests evaluate a few points; errors of truncated series and aliasing faults depend on the argument and on which variables coincide.", "anchors": ["ecc/mpc.c: mpc_mul, mpc_inv, mpc_div, mpc_pow_ui, mpc_muli", "ecc/mpc.h: mpc_add, mpc_sub, mpc_add_ui, mpc_mul_ui, mpc_mul_mpf", "ecc/hilbert.c: mpf_exp, mpc_cis, compute_q, compute_Delta, compute_h, compute_j, precision_init"]}
{"id": "C110", "title": "Class polynomials", "statement": "pbc_hilbert(D) visits every reduced positive definite form of discriminant -D exactly once, allocates exactly as many coefficients as the polynomial has, and returns the coefficients of the product of X - j(tau) over these forms rounded to the nearest integers; for a fundamental discriminant the forms are exactly the primitive ones, so the degree is the class number. (For other discriminants imprimitive forms are included and the result is a proper multiple of the class polynomial.)", "quantifier": "all D >= 3 congruent to 0 or 3 modulo 4, all values of the modular function with the reflection symmetry", "why_tests_cant": "Tests compare a few published polynomials; whether any reduced form is missed or counted twice is a statement about all D.", "anchors": ["ecc/hilbert.c: pbc_hilbert, pbc_hilbert_free", "ecc/d_param.c: pbc_param_init_d_gen", "ecc/g_param.c: pbc_param_init_g_gen"]}
{"id": "C111", "title": "Generation of type D and G parameters", "statement": "Given the modulus q, the wanted number of points n and the class polynomial, parameter generation returns a nonsingular curve whose j-invariant is a root of the class polynomial in the field of q elements; if the two curves with that invariant have n and 2q+2-n points and the random point is not killed by n on the wrong one, the curve has exactly n points; nk is the number of points over the extension of degree k and is divisible by r^2, with hk the quotient; the polynomial of the extension is irreducible and the non-residue is one in the extension. (A random point at infinity or an unlucky point leaves the wrong curve; the absence of a root is ignored and the invariant zero used; a class polynomial of degree one reads outside the array; the coefficient drawn as non-residue may be wrong in extensions of even degree.)", "quantifier": "all finite prime fields, all CM triples produced by the searches, all class polynomials of degree at least two, all random draws", "why_tests_cant": "A test generates a handful of curves; that the order is right for every discriminant and every random draw needs the theory of twists and an analysis of the random test.", "anchors": ["ecc/d_param.c: compute_cm_curve, pbc_param_init_d_gen", "ecc/g_param.c: compute_cm_curve, pbc_param_init_g_gen", "ecc/curve.c: field_init_curve_j, field_reinit_curve_twist, pbc_mpz_curve_order_extn"]}
{"id": "C112", "title": "Generation of type F parameters", "statement": "The curve y^2 = x^3 + b returned by type F generation has exactly r points, and the twist over the quadratic extension selected by alpha has a number of points divisible by r, so that G2 has order r; X^6 + alpha is irreducible over the quadratic extension and beta is a non-residue. This holds whenever the random point was not at infinity; a suitable b and a suitable twist always exist, so the searches can end. (A random point at infinity makes the generator accept any curve or any twist.)", "quantifier": "all BN integers found by the search, all random draws", "why_tests_cant": "Six curves y^2 = x^3 + b and six twists exist for every prime; tests see the few primes generated.", "anchors": ["ecc/f_param.c: pbc_param_init_f_gen"]}
{"id": "C113", "title": "Generation of type E parameters", "statement": "Type E generation always records the curve y^2 = x^3 + 1, whatever random point is drawn, and this curve is nonsingular with exactly h r^2 = q - 1 points; the twisting step is never taken. Generation ends as soon as a drawn x-coordinate lies on the curve. All points of order r are rational: G1 has r^2 elements and is not cyclic. Multiplying any point of the curve by h gives a point killed by r.", "quantifier": "all (q, r, h) produced by the search with q prime, all random draws", "why_tests_cant": "The order of a curve over a random large prime field is not visible to a unit test without point counting.", "anchors": ["ecc/e_param.c: pbc_param_init_e_gen"]}
{"id": "C114", "title": "Symmetric pairings are symmetric", "statement": "For the types for which pairing_is_symmetric answers yes (A, A1, E), e(P,Q) = e(Q,P) for all elements P and Q of G1 (type A1: elements of full order n; types A, A1: when the cofactor is prime to the group order); the same holds for type I on the points killed by a prime group order that does not divide the cofactor. On type E this holds although G1 is not cyclic. On type E with r = 2 modulo 3 no element but the identity pairs to 1 with itself; with r = 1 modulo 3 some other element does.", "quantifier": "all parameters of the family, all elements of G1, both Miller routines", "why_tests_cant": "A test exchanges the arguments for a few random pairs under one set of parameters; on type E symmetry is a reciprocity law and no consequence of bilinearity, and self-pairings equal to 1 occur with probability about 2/r.", "anchors": ["include/pbc_pairing.h: pairing_is_symmetric, pairing_apply", "ecc/a_param.c: a_init_pairing, a1_init_pairing", "ecc/e_param.c: e_init_pairing, e_pairing"]}
{"id": "C115", "title": "The calculator splits text into tokens", "statement": "A text that spells a sequence of tokens, with blanks, line ends and comments in between, is read as exactly these tokens: words, numbers and the longer operators are taken whole and numbers stand for their value. With -y a line end ends the statement and = assigns. (A # comment in a last line without line end is not taken as a comment: failure theorem.)", "quantifier": "all texts, with any spacing and comments, both modes", "why_tests_cant": "Spacing and comments vary without bound; a test checks a few texts.", "anchors": ["pbc/parser.lex: the rules"]}
{"id": "C116", "title": "The calculator parses expressions by the precedences", "statement": "Any program written with parentheses only where the precedences and associativities require them is parsed to its own tree. Whatever is parsed follows the grammar, and exactly the token sequences which the grammar derives are accepted. (Assignment binds tighter than comparison and ?:, so x := a == b compares; there is no empty statement: failure theorems.)", "quantifier": "all programs of the grammar, all token sequences", "why_tests_cant": "Expressions nest without bound; a grammar with resolved conflicts has no finite set of tests.", "anchors": ["pbc/parser.y: input, stmt, expr, molecule, the %left and %right lines"]}
{"id": "C117", "title": "Variables of calculator programs hold values", "statement": "A program in which no operand, argument or list item is an assignment behaves as if variables held values, though the interpreter changes operands in place and lets names share cells: it ends in the same way with the same output and the same variables. The result does not depend on how deep evaluation is allowed to go. (With an assignment as operand it fails: after (x := a) + b the variable x holds the sum, and x := a == b leaves 0 or 1 in x: failure theorems.)", "quantifier": "all such programs, including definitions, calls and recursion, over all element operations", "why_tests_cant": "Aliasing shows only in particular combinations of assignments and operators; programs are unbounded.", "anchors": ["pbc/pbc.c: tree_eval, eval_id, eval_assign, eval_fun, eval_ternary, eval_list, fun_bin, fun_un, fun_cmp"]}
{"id": "C118", "title": "Calls of functions defined by the user", "statement": "A call does what assigning the arguments to the parameters from left to right and then running the body would do, without printing. (So parameters are global and later arguments see earlier parameters; a call never has a value, reads a null pointer as operand, and x := f() makes x undefined: failure theorems.)", "quantifier": "all functions, argument lists and states", "why_tests_cant": "Calls may be recursive and change any variable; the states are unbounded.", "anchors": ["pbc/pbc.c: v_def_call, eval_define"]}
{"id": "C119", "title": "Built-in functions and reserved names of the calculator", "statement": "A built-in function given the wrong number of arguments returns an error without evaluating any; an argument of the wrong type gives an error naming it and stops evaluation of later ones. A reserved name means the same in every state; assigning to it is an error that leaves variables alone. (A definition of a reserved name is accepted but ineffective; extend never works; a field used as a function does not convert between two fields other than M: failure theorems.)", "quantifier": "all built-in functions, arguments and states", "why_tests_cant": "The states are unbounded; the failures are silent.", "anchors": ["pbc/pbc.c: v_builtin, v_field_cast, eval_assign, eval_id, eval_define, run_extend, reserved"]}
{"id": "C120", "title": "Elements drawn or hashed after pairing set-up belong to the groups", "statement": "After a pairing is set up, every element that element_random or element_from_hash gives in a group of points lies on that group's curve and is killed by the group order, whatever the random source delivered at set-up and delivers now; so all promises made for elements of the groups (bilinearity, order of the values, inverse) hold for it, with no further hypothesis. If the generator found is not O, distinct scalars give distinct elements and, where the group is cyclic, every element is reached. (G2 of types D, F and G is the whole twist: elements there need not be killed by r, although the comparison with O says so after multiplication by r; and the generator of any group with a cofactor may be O, after which element_random gives only O: failure theorems.)", "quantifier": "all valid parameters of types A, A1, D, E, F, G, all deliveries of the random source, all hashes", "why_tests_cant": "The statement is about every value of the random source and every parameter set; the bad deliveries are rare.", "anchors": ["ecc/curve.c: field_init_curve_ab, field_init_curve_ab_map, field_reinit_curve_twist, curve_random_solvefory, curve_random_pointmul, curve_from_hash, field_curve_set_quotient_cmp", "ecc/a_param.c: a_init_pairing, a1_init_pairing", "ecc/d_param.c: d_init_pairing", "ecc/e_param.c: e_init_pairing", "ecc/f_param.c: f_init_pairing", "ecc/g_param.c: g_init_pairing"]}
{"id": "C121", "title": "From generating parameters to computing pairings and signatures", "statement": "Whatever parameters of type A, A1, E or F the generators return, they survive being written out and read back, and a pairing set up with them works: the operations on all elements a program can make (drawn, hashed, multiplied, raised, inverted) return such elements, the pairing is defined on all of them with values in the r-th roots of unity, turns products and powers in either argument into products and powers and inverses into inverses, and is not degenerate. Signatures made as in the BLS example with the secret key are then accepted, and nothing else is. Such a set-up with elements other than O exists for all generated parameters. The same holds for type D with any curve whose order is the product h r of the parameters. (Type A1 with composite order needs points of order n; type F needs draws that avoid the failing square roots and the unlucky draws of C112; type E needs a point R not killed by 2r.)", "quantifier": "all generated parameters, all random values delivered at generation, set-up and use, all elements a program can make", "why_tests_cant": "The chain of random choices, parameters and elements is unbounded; a test sees one session with one parameter set.", "anchors": ["ecc/a_param.c: pbc_param_init_a_gen, a_init_pairing, pbc_param_init_a1_gen, a1_init_pairing", "ecc/e_param.c: pbc_param_init_e_gen, e_init_pairing", "ecc/f_param.c: pbc_param_init_f_gen, f_init_pairing", "example/bls.c: main", "include/pbc_pairing.h: pairing_apply", "ecc/d_param.c: d_init_pairing"]}
{"id": "C122", "title": "The pairing of the nodal curve", "statement": "The pairing set up for the curve y^2 = x^3 + x^2 over the field of q elements, of order q - 1, is determined by its two arguments and bilinear. (It is not: for a generator P of the group and points Q, R with parameters u, w, R the point that is drawn in the routine, what is returned is the square of (w+1)(wu-1)/((w-1)(wu+1)), whatever P is; for Q other than O at most four random points R lead to the same value.)", "quantifier": "all finite fields of odd characteristic, all generators P, all points Q, all random points R", "why_tests_cant": "A test sees one random value and nothing to compare it with; that the result depends on the random point in all cases, and how, needs the function computed by the loop for all points.", "anchors": ["ecc/singular.c: sn_miller (305-412), sn_pairing (420-438), pairing_init_singular_with_node (440-459)"]}
{"id": "C123", "title": "A point proves the order of a curve", "statement": "A user who is given parameters (q, a, b, n = h r) with r a prime greater than 4 sqrt(q) and n within 2 sqrt(q) of q + 1 can check the order with a single point P: if the library finds n P = O and h P other than O, the curve has exactly n points. (The number of points of every curve is within 2 sqrt(q) of q + 1.)", "quantifier": "all finite fields of odd characteristic, all curves with discriminant other than 0, all points, all h and r", "why_tests_cant": "The number of points of a curve of cryptographic size cannot be counted by a test; that one point suffices is Hasse's theorem.", "anchors": ["ecc/curve.c: curve_mul, element_pow_mpz on curves", "ecc/d_param.c: compute_cm_curve (1140-1148)", "include/pbc_curve.h: field_init_curve_ab"]}
{"id": "C124", "title": "With --enable-safe-clean all memory is wiped before it goes back", "statement": "In a library configured with --enable-safe-clean, whatever a program does, every byte of every block that pbc_free, pbc_realloc or GMP give back to the system is zero when it goes back. (In the default build the comments \"pbc_free guarantees zeroing out the memory\" do not hold: blocks go back with all that was stored in them.)", "quantifier": "all programs (sequences of calls and stores), all sizes, all behaviours of the system's malloc", "why_tests_cant": "What a block held when it went back cannot be seen through the API; the sequences of calls are unbounded.", "anchors": ["misc/memory.c: gmp_free, gmp_realloc, default_pbc_malloc, default_pbc_realloc, default_pbc_free, pbc_calloc, pbc_strdup", "include/pbc_memory.h", "configure.ac: 134-139, 166-168"]}
{"id": "C125", "title": "The allocator keeps what is stored", "statement": "For every program that uses pbc_malloc, pbc_calloc, pbc_strdup, pbc_realloc and pbc_free without mistakes, no call is undefined, new pointers are not in use, and all bytes stored in a block are there until it is given back, also after the block is made larger or smaller. (With SAFE_CLEAN, making a block smaller with pbc_realloc or gmp_realloc writes past the end of the new block; pbc_calloc does not notice a product that wraps; sizes above 2^64 - 9 wrap.)", "quantifier": "all programs (sequences of calls and stores), all sizes, all behaviours of the system's malloc", "why_tests_cant": "A write a few bytes past a block goes unnoticed by tests; sequences of calls and sizes are unbounded.", "anchors": ["misc/memory.c: gmp_free, gmp_realloc, default_pbc_malloc, default_pbc_realloc, default_pbc_free, pbc_calloc, pbc_strdup", "include/pbc_memory.h", "configure.ac: 134-139, 166-168", "misc/darray.c: darray_copy (113-118)"]}
{"id": "C126", "title": "The constant pi", "statement": "For every precision asked for, the value of pi computed for class polynomials differs from pi by at most a small multiple of 2^-prec. (The series converges and the value is within 5/2^prec of the one the series defines, which agrees with pi to 19 decimals; the comment that each term gives over 47 bits does not hold for the first term, so for 44 to 46 bits the error is above 2^-prec.)", "quantifier": "all precisions", "why_tests_cant": "The precision depends on the discriminant and is unbounded; the rate of convergence is a statement on all terms.", "anchors": ["ecc/hilbert.c: compute_pi (212-290), precision_init (292-322)"]}
{"id": "C127", "title": "No temporary is used before it is set up or after it is cleared", "statement": "In every execution of a library routine (and of the calculator and the example programs), whatever branches are taken and however often loops run, no local big integer, element, field, point, parameter set or block is used or cleared while it is not initialised.", "quantifier": "all 254 routines that have local variables of these kinds, all executions (all outcomes of all tests, all numbers of loop passes), all prior states of the heap", "why_tests_cant": "A read of uninitialised or released memory gives right results most of the time, and the executions of the loops are unbounded.", "anchors": ["arith/*.c", "ecc/*.c", "misc/*.c", "pbc/*.c", "gen/*.c", "example/*.c"]}
{"id": "C128", "title": "What set-up allocates, clearing releases", "statement": "For every kind of object - parameter sets and pairings of all types, elements, fields, curves, tables for powers, lists of solutions and coefficients - set-up followed by the clear function is defined and leaves exactly the memory in use that was in use before: every part is released once, none is forgotten, and no clear routine reads a part that is already gone.", "quantifier": "all types, all embedding degrees, all field degrees, window sizes, exponent lengths, numbers of solutions, all other objects in memory", "why_tests_cant": "Leaks and reads of released memory do not change results; sizes are unbounded.", "anchors": ["ecc/a_param.c: a_param_init, a_clear, a_init_pairing, a_pairing_clear, a1_init, a1_clear, a1_init_pairing, a1_pairing_clear", "ecc/d_param.c: d_param_init, d_clear, d_init_pairing, d_pairing_clear", "ecc/e_param.c: e_init, e_clear, e_init_pairing, e_pairing_clear", "ecc/f_param.c: f_init, f_clear, f_init_pairing, f_pairing_clear", "ecc/g_param.c: g_init, g_clear, g_init_pairing, g_pairing_clear", "ecc/eta_T_3.c: param_init, eta_T_3_clear, eta_T_3_init_pairing, eta_T_3_pairing_clear", "arith/field.c: field_init, field_clear, build_pow_window, clear_pow_window, element_build_base_table, default_element_pp_clear", "arith/poly.c: polymod_init, polymod_clear, field_init_polymod, field_clear_polymod", "arith/fieldquadratic.c: fq_init, fq_clear", "arith/ternary_extension_field.c", "ecc/curve.c: curve_init, curve_clear, field_init_curve_ab, field_clear_curve, field_curve_set_quotient_cmp", "ecc/mnt.c: general_pell, pell_solution_clear", "ecc/hilbert.c: pbc_hilbert, pbc_hilbert_free"]}
{"id": "C129", "title": "Temporaries are cleared on every way out", "statement": "When a library routine (or a routine of the calculator or an example program) returns, the temporaries it initialised have been cleared, so that the memory in use is what it was before, whatever branches were taken and however often loops ran. (Fails for 15 routines: is_sqr of zero in four of the prime field backends, the file source of random numbers on a read error, parameter generation of types E and F, pairing_init_set_buf on failure, the pairing on singular curves, two routines of the calculator and four example programs; each call can leak again.)", "quantifier": "all 254 routines that have local variables of these kinds, all executions (all outcomes of all tests, all numbers of loop passes), all prior states of the heap, all numbers of calls", "why_tests_cant": "A leak gives right results, and the executions of the loops are unbounded.", "anchors": ["arith/*.c", "ecc/*.c", "misc/*.c", "pbc/*.c", "gen/*.c", "example/*.c", "arith/montfp.c: fp_is_sqr", "arith/fasterfp.c: fp_is_sqr", "arith/fastfp.c: fp_is_sqr", "arith/tinyfp.c: fp_is_sqr", "arith/random.c: file_mpz_random", "ecc/e_param.c: pbc_param_init_e_gen", "ecc/f_param.c: pbc_param_init_f_gen", "ecc/pairing.c: pairing_init_set_buf", "ecc/singular.c: sn_pairing"]}
{"id": "C130", "title": "Preprocessed pairings and parameter texts give back their memory", "statement": "pairing_pp_clear releases everything pairing_pp_init allocated, reading a parameter text leaves nothing behind but the parameters, and no field is released before what is built on it. (Fails for type A1, whose preprocessed elements are never cleared; for texts with a repeated key, where exactly the earlier values are lost; when the method is changed between preprocessing and clearing; for type A parameters with exp1 > exp2, where preprocessing writes outside its block; and types A, E and I release a base field first, which is harmless with the present clear routines.)", "quantifier": "all exponents exp1 and exp2, all group orders, all key lists, all other objects in memory", "why_tests_cant": "Leaks do not change results; sizes are unbounded.", "anchors": ["ecc/a_param.c: a_pairing_pp_init, a_pairing_pp_clear, a_pairing_ellnet_pp_init, a_pairing_ellnet_pp_clear, a1_pairing_pp_init, a1_pairing_pp_clear, a_pairing_option_set", "ecc/param.c: read_symtab, pbc_param_init_set_buf", "misc/symtab.c: symtab_put, symtab_forall_data", "ecc/e_param.c: e_pairing_clear", "ecc/eta_T_3.c: eta_T_3_pairing_clear"]}
{"id": "C131", "title": "Nested lists of integers own their memory", "statement": "In any program over elements of the ring of nested integer lists (the values the calculator works with), made of init, clear, set, negate, add, subtract, multiply, divide, random and the building of lists, every element holds the value that the by-value meaning of the calls gives it, in nodes of its own: no call reads or frees a node that was freed before, destinations may be the same as operands, and once every element is cleared or handed over to a list that is cleared no memory is left in use. Putting an element into a list hands it over.", "quantifier": "all programs, all nesting depths and lengths of lists, all integers, any number of elements, any sharing between destination and operands", "why_tests_cant": "Trees are unbounded, wrong sharing shows only when a node is reused, and leaks do not change results.", "anchors": ["arith/multiz.c: multiz_new, multiz_new_empty_list, f_init, multiz_free, f_clear, multiz_new_unary, multiz_clone, multiz_new_bin, multiz_new_add, multiz_new_sub, multiz_new_mul, f_set, f_neg, f_add, f_sub, f_mul, f_mul_mpz, f_mul_si, f_div, f_random, f_set_si, f_set_mpz, f_set0, f_set1, multiz_new_list, multiz_append", "misc/darray.c: darray_append, darray_at"]}
{"id": "C132", "title": "Components and members of nested lists can be used on their own", "statement": "A component got from a nested list may be read and, as the documentation of element_item says, modified, and an element that was put into a list may still be cleared by its owner. (Reading holds. Modifying does not: the list keeps the address of a freed node, after which it can neither be printed nor cleared; and clearing an element that was put into a list makes the list unusable.)", "quantifier": "all lists, all positions, all values written, all later calls", "why_tests_cant": "The failure appears only when freed memory is reused.", "anchors": ["arith/multiz.c: f_item, f_item_count, multiz_new_list, multiz_append, multiz_free, f_clear", "include/pbc_field.h: element_item"]}
{"id": "C133", "title": "Every operation can be called on every kind of element", "statement": "Once a field or group has been set up, each operation of the element interface can be called on its elements: the call, and every call that it makes in turn on the same field or on the field below, runs a routine of the library, whatever the memory of the structure held before. (This does not hold: operations that the set-up leaves unset jump through whatever the memory held. The theorems give the exact list for each kind: GT has no square root, square test or sign; curve points have no square root; GT of type I cannot be inverted, negated, subtracted, divided, or converted to or from bytes; points of type I have no bytes and no hash; polynomials have no division or hash; and so on.)", "quantifier": "all kinds of fields and groups, all towers of extensions of any depth and degree, all operations, all previous contents of the memory", "why_tests_cant": "The outcome depends on what the memory held; towers are unbounded, and a missing operation shows only when that operation is called on that kind of element.", "anchors": ["include/pbc_field.h: struct field_s, element_length_in_bytes and the element_* wrappers", "arith/field.c: field_init and the generic_* and default_* routines", "arith/naivefp.c, fastfp.c, fasterfp.c, montfp.c, tinyfp.c, z.c, multiz.c, fieldquadratic.c, poly.c, ternary_extension_field.c: field_init_*", "ecc/curve.c: field_init_curve_ab", "ecc/pairing.c: pairing_GT_init", "ecc/eta_T_3.c: field_init_eta_T_3, eta_T_3_init_pairing", "ecc/singular.c: field_init_curve_singular_with_node"]}
{"id": "C134", "title": "No operation ignores its argument", "statement": "No operation on an element of a set-up field or group ends in one of the placeholders that ignore what they are given: reading every integer or text as zero, converting every element to zero, always drawing zero, printing a question mark. (It holds for the default prime fields and every extension of them. It does not hold for other kinds; the theorems give the exact list for each: integers on curve points and in GT, text in three of the prime-field implementations, text and random elements of polynomials, printing of integers into a buffer, integers and text in ternary fields and on the points of type I.)", "quantifier": "all kinds of fields and groups, all towers of extensions, all operations, all previous contents of the memory", "why_tests_cant": "Towers are unbounded; a test with the argument zero passes.", "anchors": ["arith/field.c: zero_to_mpz, zero_set_mpz, zero_random, default_element_snprint, default_element_set_str, field_init", "all field_init_* functions", "ecc/pairing.c: pairing_GT_init", "ecc/curve.c: field_init_curve_ab"]}
{"id": "C135", "title": "The selected source of random numbers is the one that is used", "statement": "pbc_mpz_random and pbc_mpz_randomb draw from the source selected last by pbc_random_set_function, pbc_random_set_deterministic or pbc_random_set_file, whatever was drawn before. After pbc_random_set_deterministic the numbers are determined by the seed and the limits and lie below the limits. A selection made before the first draw is not overridden; without one the source is /dev/urandom, or the seed 0 if that cannot be opened. Successive draws from a file continue in the file; a source that fails is reported and its resources are released.", "quantifier": "all programs of selections and draws, all limits and seeds, all generators, file systems and user functions", "why_tests_cant": "The static state is reached by arbitrarily many sequences of calls, and reproducibility compares two arbitrary histories.", "anchors": ["arith/random.c:pbc_mpz_random", "arith/random.c:pbc_mpz_randomb", "arith/random.c:pbc_random_set_function", "arith/random.c:pbc_random_set_deterministic", "arith/random.c:pbc_random_set_file", "arith/random.c:file_mpz_random", "arith/init_random.c:pbc_init_random"]}
{"id": "C136", "title": "The choice of prime field implementation is respected and cannot be seen", "statement": "field_init_fp uses the implementation named last by pbc_tweak_use_fp for odd moduli that exceed a word (Montgomery's by default), naivefp for moduli of a word and fasterfp for even ones; a name that names nothing is reported and changes nothing; fields made earlier are not affected. The values computed with elements of the field do not depend on the choice.", "quantifier": "all sequences of names and field initialisations, all odd primes of any size, all programs of element operations, any aliasing, any contents of fresh memory", "why_tests_cant": "Independence of the choice compares four implementations on all programs and all primes.", "anchors": ["arith/fp.c:pbc_tweak_use_fp", "arith/fp.c:field_init_fp", "arith/naivefp.c:field_init_naive_fp", "arith/fastfp.c:field_init_fast_fp", "arith/fasterfp.c:field_init_faster_fp", "arith/montfp.c:field_init_mont_fp"]}
{"id": "C137", "title": "Index calculus finds the discrete logarithm", "statement": "pbc_mpz_index_calculus(x, g, h, q) ends and sets x to a number with g^x = h modulo q, for a prime q and h a power of g; the arrays of relations are never overrun, and the table of logarithms of small primes made on the way is right for every prime in it.", "quantifier": "all primes q, all bases g, all powers h of g, all tables of primes, all random draws", "why_tests_cant": "Termination and the bounds of the relation arrays depend on which powers of g factor over the table; the elimination works modulo all factors of q - 1 at once and its correctness is a statement about all systems of relations.", "anchors": ["guru/indexcalculus.c:pbc_mpz_index_calculus", "guru/indexcalculus.c:index_calculus_step1", "guru/indexcalculus.c:index_calculus_step2", "guru/indexcalculus.c:CRT", "guru/indexcalculus.c:is_gen", "guru/indexcalculus.c:addfm"]}
{"id": "C138", "title": "Programs typed at the terminal mean the same as in a file", "statement": "The tokens the calculator reads from lines typed at the terminal are those it reads from a file with the same lines: comments and statements may go over several lines, the last line counts whether or not it ends with a newline, lines may have any length, and with the option -y every line with an expression is evaluated without a complaint.", "quantifier": "all sequences of lines, with and without readline, with and without -y", "why_tests_cant": "The text is cut into pieces of at most 1023 characters at places that depend on all of it, and the scanner is restarted at each of them; that no cut changes a token is a statement about all texts.", "anchors": ["pbc/pbc_getline.c:pbc_getline", "pbc/pbc_getline.readline.c:pbc_getline", "pbc/pbc.c:yywrap_readline", "pbc/pbc.c:yywrap_return1", "pbc/pbc.c:main", "pbc/parser.lex"]}
{"id": "C139", "title": "Command line options are read as POSIX prescribes", "statement": "Calling the getopt that comes with the library (for Windows) until it returns -1 gives the options in the order given: letters may share a dash, an argument may follow its letter in the same word or be the next word whatever that looks like, letters not in the table and missing arguments give '?'. The options end at the first word that is not one, or after a word of two dashes, and optind and optarg then tell the first operand. The calculator is in the mode of -y exactly if y is among the letters given, and reads the first operand.", "quantifier": "all tables of options, all commands, any state left by an earlier use", "why_tests_cant": "The position within a word is kept between calls; all ways to group letters and arguments into words are infinitely many.", "anchors": ["pbc/XGetopt.win32.c:getopt", "pbc/pbc.c:main"]}
{"id": "C140", "title": "The parameter files that come with the library give working pairings", "statement": "Each of the files a, d159, d201, d224, d105171-196-185, d277699-175-167, d278027-190-181, e, f and i in param/ is read as the numbers it shows, from a string or a buffer with anything behind it. The numbers are right: q and r are prime, the curve has the order given, the polynomials for the extension fields are irreducible and the nonresidues are not squares. Pairings set up from these files work: they are bilinear on all elements made from random or hashed elements with the operations of the groups, the groups have order dividing r, and the pairing is not degenerate. The same is asked of the files a1 and g149.", "quantifier": "all elements made in any way, all choices of random elements in the set-up, all implementations of the extension fields", "why_tests_cant": "That numbers of 160 to 1000 bits are prime and a curve over such a field has exactly so many points cannot be tested by trying, and a pairing that fails for some elements is not found with a few.", "anchors": ["param/a.param", "param/a1.param", "param/d159.param", "param/d201.param", "param/d224.param", "param/d105171-196-185.param", "param/d277699-175-167.param", "param/d278027-190-181.param", "param/e.param", "param/f.param", "param/g149.param", "param/i.param", "ecc/param.c:pbc_param_init_set_buf", "ecc/pairing.c:pairing_init_set_buf"]}
{"id": "C141", "title": "Random numbers on Windows", "statement": "On Windows pbc_mpz_random delivers a number below the limit, each equally often if the bytes of the system are uniform, and the same number that a file with these bytes would give elsewhere. If there is no keyset yet, one is made. If no provider can be opened the variable keeps its value. A failing CryptGenRandom should not go unnoticed. (It does: the number is then what happens to be in memory, or the call does not end.)", "quantifier": "all limits, all byte sequences, all contents of fresh memory, all failures of the system calls", "why_tests_cant": "Uniformity is a statement about all byte sequences, and failures of the system's generator cannot be provoked.", "anchors": ["arith/init_random.win32.c:win32_mpz_random", "arith/init_random.win32.c:pbc_init_random"]}
{"id": "C142", "title": "The lengths announced are those of the bytes written", "statement": "A program that makes room for as many bytes as pairing_length_in_bytes_G1, _G2, _GT or _Zr (or their compressed and x_only forms, or element_length_in_bytes and its two forms) announce gets exactly that many bytes from the routines that write elements, and the routines that read take as many, so that elements written one after another are read back one after another. (For type I this does not hold: the length of G1, G2 and GT is whatever memory held.)", "quantifier": "all primes, all implementations of prime fields, all towers of extensions of any degrees, all elements and points, whatever the memory of the structures held before", "why_tests_cant": "A length that is wrong for some prime or some tower overruns the program's buffer only for that one.", "anchors": ["include/pbc_pairing.h:pairing_length_in_bytes_G1", "include/pbc_pairing.h:pairing_length_in_bytes_x_only_G1", "include/pbc_pairing.h:pairing_length_in_bytes_compressed_G1", "include/pbc_field.h:element_length_in_bytes", "ecc/curve.c:element_length_in_bytes_compressed", "ecc/curve.c:element_length_in_bytes_x_only", "arith/fieldquadratic.c:field_init_quadratic", "arith/poly.c:field_init_polymod", "ecc/pairing.c:pairing_GT_init"]}
{"id": "C143", "title": "The example program for short signatures prints what it should", "statement": "Run the example program for Boneh-Lynn-Shacham signatures with type A parameters (in particular with the file a.param that comes with the library). Whatever points, hash and secret key are drawn, as long as the system parameter and the hash of the message are not O and the secret key is not a multiple of r: the signature, after it was compressed to bytes and read back, verifies; the point read back from its first coordinate alone verifies at the first guess or, after inverting in the target group, at the second; and the randomly drawn signature is reported as not verifying, unless it happens to be the signature itself. No line with *BUG* is printed in any other case.", "quantifier": "all type A parameters with r not dividing h, all set-ups, all elements that can be made as system parameter, message hash and random signature, all secret keys not divisible by r", "why_tests_cant": "A run tries one choice of random elements; whether the first or second guess is right depends on which root element_sqrt returns, and that the random signature is refused depends on non-degeneracy for all elements.", "anchors": ["example/bls.c: main", "ecc/curve.c: element_to_bytes_compressed, element_from_bytes_compressed, element_to_bytes_x_only, element_from_bytes_x_only", "ecc/a_param.c: a_pairing_proj", "param/a.param"]}
{"id": "C144", "title": "RSA powers by the Chinese remainder theorem agree with plain powers", "statement": "In the RSA benchmark, in every pass of its loop the power computed by Garner's algorithm from the powers modulo the two primes is the power modulo their product (reduced to [0, pq)), so both methods leave the same element; the primes are the same after each pass as before it.", "quantifier": "all pairs of primes, all sequences of elements and exponents drawn", "why_tests_cant": "The program never compares the two results, and a test would try a few of 2^1024 elements.", "anchors": ["benchmark/timersa.c: main"]}
{"id": "C145", "title": "The example programs run with the parameters in the file they are given", "statement": "The helper with which the example and benchmark programs start makes the pairing from the parameters that the file (or standard input) describes; this holds for every parameter file that comes with the library. Whatever the file holds, nothing outside the buffer is read, and what was in memory before makes no difference; missing, empty and wrong files end the program.", "quantifier": "all files, all contents of the stack before the call; all texts that describe parameters", "why_tests_cant": "Files are unbounded; uninitialised stack contents differ from run to run.", "anchors": ["include/pbc_test.h: pbc_demo_pairing_init", "ecc/pairing.c: pairing_init_set_buf", "ecc/param.c: read_symtab", "param/*.param"]}
{"id": "C146", "title": "The programs that list and generate MNT and Freeman curves miss no discriminant", "statement": "The list of MNT curves has one line for every curve that the search reports for any discriminant up to 10^9, and no other line, with the discriminants in order; a discriminant with a curve is 3 modulo 8. The list of Freeman curves has a line for every reported curve up to 10^9 that satisfies the equation of the complex multiplication method, and every line is for such a curve; a discriminant with such a curve is 43 or 67 modulo 120. The programs that generate type D and type G parameters accept every discriminant for which there is a curve, and every curve the latter works with satisfies the equation.", "quantifier": "all discriminants, bit limits, arguments of the programs, and primality tests that accept primes only", "why_tests_cant": "A complete run takes 5*10^8 searches; that nothing is missed at the skipped discriminants is a statement about congruences.", "anchors": ["gen/listmnt.c: main", "gen/listfreeman.c: main", "gen/gendparam.c: main", "gen/gengparam.c: main", "ecc/mnt.c: pbc_cm_search_d, pbc_cm_search_g"]}
{"id": "C147", "title": "What the verifiers of the example programs accept", "statement": "With a bilinear pairing on a group of prime order that is not trivial, the verifiers of the example signature programs accept no more than the signers can make. ZSS: exactly one signature, and none if the hash is the negative of the secret key. Paterson: a pair whose first point is not O is accepted exactly if the signer makes it with some nonce; with O as first point all second points or none are accepted. Hess: exactly the pairs the signer makes with some nonce. Zhang-Kim: every unblinded signature is accepted, and the scheme is blind: every run as seen by the signer fits every accepted signature with exactly one choice of the user.", "quantifier": "all such pairings, keys, hashes of messages, hash functions on points, readings of target elements as integers, nonces, and all claimed signatures", "why_tests_cant": "Tests try the signature just made; that nothing else is accepted, and blindness, range over all signatures and choices.", "anchors": ["example/zss.c: main", "example/paterson.c: main", "example/hess.c: main", "example/zhangkim.c: main"]}
{"id": "C148", "title": "What the program that prints Hilbert polynomials prints", "statement": "hilbertpoly LOWER UPPER prints, for exactly the discriminants between LOWER and UPPER that are 0 or 3 modulo 4, in increasing order and once each, a line with the discriminant and lines that, read as a sum of terms, are the polynomial whose coefficients pbc_hilbert returned, provided it is monic (the highest coefficient is not looked at). Without UPPER the range is the single LOWER, without both it is 3.", "quantifier": "all ranges with 0 < LOWER and UPPER < 2^31 - 1, all monic integer polynomials of any degree with coefficients of any size and sign", "why_tests_cant": "All coefficients (signs, zeros), degrees and ranges.", "anchors": ["gen/hilbertpoly.c: main", "gen/hilbertpoly.c: xpow"]}
{"id": "C149", "title": "Elapsed time", "statement": "The first call of pbc_get_time returns 0, every later call the time on the system clock since the first call, whatever calls there were in between; the difference of what two calls return is the time between them.", "quantifier": "all sequences of clock readings (also of a clock that is set back), long of at least 32 bits; on Windows all times from 1970 on", "why_tests_cant": "All sequences and readings, including carries between seconds and microseconds and the year 2038.", "anchors": ["misc/get_time.c: pbc_get_time", "misc/get_time.win32.c: pbc_get_time", "misc/get_time.win32.c: gettimeofday"]}
