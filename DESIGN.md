# Design of the formal model of PBC

The subject is the PBC library (blynn/pbc) in `/repo`.  The model is in Lean 4, in
`lean/Verif/`.  Nothing in `/repo` was compiled or run; the model was written by reading it.

## 1. Layout

* `Verif/Spec/*`      – small specifications which do not mention the model (Mathlib objects, or
                         programs of API calls interpreted in a Mathlib structure).
* `Verif/Model/*`     – transcription of C functions to total, computable Lean functions, with
                         a comment citing file and lines at each definition.
* `Verif/Lemmas/*`    – helper lemmas (theory of elliptic curves, divisors, loops, certificates).
* `Verif/Props/*`     – the property theorems (`C01_...`) with a concrete `example` beside each.
* `properties.jsonl`  – the 149 properties in words; `MANIFEST.json` – their status and theorems.
* `seeded/LOG.jsonl`  – wrong programs tried against the theorems (1254 so far).

Naming: `Cxx_...` is (a part of) the property in full; `Cxx_..._partial` is a weakening, whose remark
says what is missing; `Cxx_..._fails` is a theorem that the code violates the property.

## 2. Modelling conventions

* GMP integers (`mpz_t`) are `Nat`/`Int`.  `mpz_*` functions mean what the GMP manual says.
* `mpn_*` functions are modelled limb by limb on little-endian lists of `Nat` limbs below
  `2^w`, for a word size `w ≥ 1` left as a parameter (the C code uses 64 or 32).
* Memory is explicit where its stale contents can be observed (the flag-plus-limbs
  representation of `montfp.c`; the coordinates left behind in a point set to O; buffers filled by short
  reads; uninitialised cells of dynamic arrays); elsewhere, an element is its value.
* Undefined behaviour, out-of-bounds access, `pbc_die`, division by zero and loops that do not end are
  `Option.none` (loops take a fuel argument; theorems either show that some fuel suffices or speak of all
  executions that end), never a default value.
* Aliasing: where a routine writes its result before it has read all operands, elements live in a store
  indexed by numbers and the theorem covers every choice of indices.  Otherwise a C call `f(c,a,b)` is a
  function of the old contents of `c`, `a`, `b`.
* Random choices, hash bytes, primality answers and GMP size estimates are parameters; theorems quantify over
  all of them.

## 3. Layering

Generic code works over any `field_t` through function pointers.  It is modelled over an arbitrary Lean
structure with the operations it uses (`Monoid`, `CommRing`, `Field`); it relies on the field it is given
being right.  The links are:

* prime fields: the four multi-word backends are related to `ZMod p` by C01–C10 (Montgomery limb by limb);
  from there up the prime field is a Mathlib field;
* quadratic and polynomial extensions are modelled over a Mathlib field, with the aliasing of coordinates, and
  related to Mathlib's extension (C24–C32); `Props/Quotient.lean`, `Props/PairingFInst.lean` build concrete
  instances of the fields the pairings ask for;
* curves: points over a Mathlib field, related to Mathlib's group of points of a Weierstrass curve (C33 on);
* pairings: Miller loops over points and Mathlib fields.  The independent description is the Tate pairing
  through functions with a prescribed divisor: `Tate.HasDiv` and `tate*` (in `Lemmas/Tate*.lean`) define it
  from places of the curve without mention of the code; C80_tate states the characterisation for type A;
* type I: base field any Mathlib field of characteristic 3 with `3^m` elements (C98–C103); C104 shows that the
  field the library builds from its generated parameters is one, C65 relates the bit-plane representation to it.

The seams (that a C function pointer table holds the functions the model composes) are by inspection.

## 4. Trusted base

* Lean 4.33.0's kernel.  Mathlib as installed (its theorems are checked by the same kernel).
* Axioms: only `propext`, `Classical.choice`, `Quot.sound`.  No own axioms, no `sorry`, no `native_decide`, no
  `bv_decide`.  Certificates (C103, C104, instances in examples) are evaluated by the kernel (`decide +kernel`).
* The faithfulness of the transcription C → Lean, by inspection (the comments give lines).
* GMP: `mpz_*`, `mpn_*` meet their documentation; where stated, `mpz_probab_prime_p` is a correct primality
  test and `mpz_nextprime` gives the next prime.
* The C compiler, `malloc` never returning `NULL`, no integer overflow in `int` byte counts unless modelled.
* libc: the C locale; `isspace`/`isdigit` on bytes from 128 on (undefined for negative `char`) are taken to
  answer no.

## 5. What is modelled

| C file | Lean model | modelled | left out |
|----|----|----|----|
| `arith/montfp.c` | `Mpn`, `MontFp`, `MontProgram` | all element functions, limb by limb | printing (see Printf), clear |
| `arith/fasterfp.c`, `fastfp.c`, `naivefp.c` | `OtherFp` | the element functions | same |
| `arith/tinyfp.c` | `Tinyfp` | all arithmetic with word truncation | – |
| `arith/z.c` | `Z` | ring, bytes, comparison, square roots | – |
| all `field_init_*`, `pairing_GT_init`, `field_init` | `Dispatch` | which routine each member of the table of a field or group holds after set-up, and which operations each routine calls in turn on its own field and on the field below | the calls made by the final powering of a pairing; members that are not functions, other than the fixed length; branches inside a routine (all its calls are counted) |
| `arith/random.c` (all but the reading loop, which is `Random`), `arith/init_random.c` | `Sources` | static variables, openings of files, streams left open, warnings; GMP's generator (its state after seeding depends on the seed only), the file system and the program's own functions are an environment; a device is what one opening of it delivers; Windows version not modelled |
| `arith/fp.c` | `FpChoice` | choice of the implementation by name, size and parity; the four implementations are `MontFp`, `OtherFp` |
| `guru/indexcalculus.c` | `IndexCalculus` | all but `slow_index_calculus_step1` (never called), messages and the release of memory; the number of primes in the table (floating point) is a parameter |
| `arith/multiz.c` | `Multiz`, `SetMultiz`, `MultizHeap` | arithmetic, comparison, text; conversion into every other field; allocation and freeing of nodes | byte routines (they treat a list node as an `mpz_t`: undefined); the addresses the allocator reuses (a freed address is never handed out again in the model, so every use of it shows) |
| `arith/field.c` | `FieldGeneric` | powers, pp, tonelli, generic sub/div, hashing, raw output, trial division, set_str digits | option tables |
| `arith/fieldquadratic.c` | `Quadratic` | `fq_*`, `fi_*`, encodings, is_sqr, sqrt | – |
| `arith/poly.c` | `Poly`, `Polymod`, `PolyFactor` | ring, division, gcd, inverses, residues, irreducibility, roots, square roots, bytes | – |
| `arith/ternary_extension_field.c` | `Ternary` | all of gf3m, gf32m, gf33m that exists (gf32m has no invert, gf33m no neg, neither has bytes) | – |
| `arith/random.c` | `Random` | file source and limits | deterministic source (`Sources`) |
| `include/pbc_pairing.h:183-238`, `ecc/curve.c:815-841` | `Lengths` | lengths announced | overflow of `int` |
| `arith/init_random.win32.c` | `RandomWin` | all | the system calls are parameters |
| `arith/dlog.c` | `Dlog` | both methods | – |
| sessions: generation, set-up, use (`*_param.c`, `example/bls.c`) | `Session` | the composition of the routines above into a program, over `ZMod q` and its quadratic extension with the library's square test and square root (C121) | the table of functions |
| `ecc/curve.c` | `Curve`, `Text`, `Setup` | points, encodings, hashing, counting, twists, multi operations, making a group (`Setup`) | – |
| `ecc/singular.c` | `Singular` | points, the Miller loop and the pairing | printing |
| `ecc/a_param.c` | `PairingA`, `EllNet`, `ParamGen` | all methods of types A and A1, pp, products, final powering, generation , options (`Options`) | initialisation of fields (the models take them as given) |
| `ecc/d_param.c`, `g_param.c` | `PairingD`, `EllNet` | Miller loops, pp, products, final powering, almost-coDDH, elliptic nets; choice of curve, orders, extension polynomial and non-residue (`CmGen`), class polynomials (`Hilbert`, `Mpc`) | the CM theorem itself (hypothesis of `C111_order_partial`) |
| `ecc/e_param.c` | `PairingE`, `EllNet`, `ParamGen` | Miller loops, elliptic net, generation relations, choice of curve coefficients (`CmGen`) | initialisation of fields |
| `ecc/f_param.c` | `PairingF`, `ParamGen` | Miller loop, final powering, pp, generation relations, choice of curve coefficients, alpha, beta and twist (`CmGen`) | initialisation of fields |
| `ecc/eta_T_3.c` | `EtaT` | points, pairing, final powering, parameter table | – |
| `ecc/hilbert.c`, `ecc/mpc.c`, `ecc/mpc.h` | `Hilbert`, `Mpc`, `Chudnovsky` | the enumeration of forms, the polynomial, complex operations, series, modular function, over exact reals with a given threshold | rounding of GMP floats |
| `ecc/mnt.c` | `Mnt` | Pell solver, MNT and Freeman searches | – |
| `ecc/pairing.c`, `include/pbc_pairing.h` | `Gt` and the pairing models | wrappers, GT, almost-coDDH | – |
| `ecc/param.c`, `misc/symtab.c`, `misc/darray.c`, `misc/extend_printf.c` | `Param`, `Darray`, `Printf` | reading, writing, tables, formats | – |
| `misc/memory.c` | `Memory` | both builds: malloc, realloc, free, calloc, strdup, the GMP functions | blocks are numbered, realloc of the C library always moves |
| local variables of 254 routines in `arith/`, `ecc/`, `misc/`, `pbc/`, `gen/`, `example/` | `Life`, `LifeArith`, `LifeEcc`, `LifeMisc` | control flow of each routine with, for each local big integer, element, field, point, parameter set or block of memory, where it is initialised, used and cleared | the skeletons are extracted from the text of the routines: tests are replaced by a free choice (both branches possible), values are dropped; variables whose ownership passes to the caller or to another object are left out |
| set-up and clear routines in `ecc/*_param.c`, `ecc/eta_T_3.c`, `ecc/curve.c`, `arith/poly.c`, `arith/fieldquadratic.c`, `arith/field.c`, `ecc/mnt.c`, `ecc/hilbert.c`, `ecc/param.c` | `Objects` | for each kind of object the list of parts made by set-up and released by clear, with what must exist for each | parts with routines of their own count as one; values dropped; prime field elements and the preprocessed pairings of types D and G (counted in C54) are not objects of this file |
| `example/*.c` | `Gt`, `Schemes` | the demonstration protocols; signing and verifying halves of the signature schemes | printing, timing |
| `example/bls.c` | `BlsProgram` | the whole program with its encodings of the signature | texts other than the verdicts, timing |
| `include/pbc_test.h` (`pbc_demo_pairing_init`) | `DemoInit` | the buffer, its length, the calls | `fread` errors |
| `gen/listmnt.c`, `gen/listfreeman.c`, `gen/gendparam.c`, `gen/gengparam.c` | `ListCurves` | arguments, discriminants tried, lines printed | layout of the text |
| `gen/hilbertpoly.c` | `HilbertPoly` | the program with its output, character by character | `atoi`; `pbc_hilbert` is a parameter |
| `misc/get_time.c`, `misc/get_time.win32.c` | `GetTime` | all | rounding of `double`; the clock is an input |
| `benchmark/timersa.c` | `Rsa` | the loop: power modulo N and by the Chinese remainder theorem | timing |
| `pbc/parser.lex`, `pbc/parser.y` | `CalcSyntax` | tokens, grammar with precedences, trees | recovery after a syntax error (`yyparse` ends) |
| `pbc/pbc.c` | `Calc` | evaluation on a heap of values, built-in functions, definitions, casts, printing of statements | element operations (parameters; modelled elsewhere), sharing of list items, `init_pairing_*` overwriting the pairing in place |
| `pbc/pbc_getline.c`, `pbc/pbc_getline.readline.c`, `yywrap_readline` and `main` of `pbc/pbc.c` | `CalcInput` | lines cut into buffers, a scanner that goes from one to the next, restarts of the parser | prompts, history, read errors |
| `pbc/XGetopt.win32.c` | `Getopt` | `getopt`, the loop of `pbc/pbc.c` | GNU's `getopt`, which moves operands to the end |
| `param/*.param` | `Shipped` | the twelve files byte for byte, and the numbers in them | |

Not modelled: `guru/*` other than `indexcalculus.c`; `gen/genaparam.c`, `gen/gena1param.c`, `gen/geneparam.c`, `gen/genfparam.c`
(a call of the generator and of the printing routine) and `benchmark/*` other than `timersa.c`, except for their local variables (`Life`);
`pbc/oldpbc.c` (in no makefile); thread safety, timing,
printing of diagnostics.

Primality of the numbers in `param/*.param` is proved by certificates (Pocklington, Lucas, in `Lemmas/Certify` and
`Lemmas/ShippedPrimes`), the orders of the curves by a point of large prime order and Hasse's theorem (C123), both evaluated
in the kernel.  For `e.param` the structure of the group of order `r²` is read off values of the pairing at two points, computed in the kernel by the same formulas (`Lemmas/CertPairing.lean`). Not certified: `a1.param` (its `n` is a product of unknown primes).

Claims not made: any computational hardness.

## 6. Where the code does not meet the property

Each item has a theorem named `..._fails` (or as given), valid for the model of the code as it is.

* Prime fields: lost carry of the Montgomery multiplication when the top word is all ones (C02), which also spoils `element_invert` for some 256-bit primes (C07_lost_carry); halving into a
  zero element (C03); comparison of a nonzero with a stale zero (C04); reading a multiple of p (C06); 0^0 (C08);
  hash equal to the limit (C11); products truncated in tinyfp (C69).
* Operations that set-up leaves unset, kind by kind (C133), and operations that end in a placeholder (C134).
* The example programs read the first 16384 characters of a parameter file and do not notice that there are more (`C145_long_fails`).
* RSA benchmark: nothing checks that the two primes differ (`C144_equal_fails`).
* Windows clock: the difference of two readings overflows when the second at which a 32-bit `long` is full (2038) lies between them (`C149_windows_fails`).
* Type I: the lengths in bytes of G1, G2 and GT are never set (`C142_typeI_fails`).
* Random numbers on Windows: a failing `CryptGenRandom` is not noticed; the number is what the fresh buffer holds (`C141_failure_fails`).
* A file selected as random source is opened anew for every number, so an ordinary file gives the same number again and again (`C135_repeats_fails`); a file that cannot be opened leaves the variable unchanged without a report (`C135_missing_fails`); the end of the file leaves the stream open (`C135_streams_fails`); the name is kept by address (`C135_name_fails`).
* `0^0` shows which implementation of a prime field was chosen (`C136_choice_fails`).
* Index calculus (C137): the list of factors of q - 1 holds the address of a local variable of the divider, so no answer is ever reached (`C137_fails`); with a proper list: multiples of q pass for generators and never end (`C137_zero_fails`), tables reaching beyond q (q = 3, 7, 11) never end (`C137_small_fails`), a composite cofactor is taken for a prime (`C137_composite_fails`), a value outside the group of the base is not noticed (`C137_outside_fails`). By reading: the rows are never freed (lines 423-431 test the wrong variable).
* Lines typed at the terminal without readline (C138): a last line without a newline is not read (`C138_last_line_fails`); a longer line is cut after 1023 characters and a newline put there (`C138_long_line_fails`); with `-y` a syntax error follows every line, as it is handed over with two newlines (`C138_easy_fails`).
* Integers: halve, is_sqr of perfect powers, byte lengths, zero (C22); subtraction and comparison in multiz (C23); a component of a nested list must not be modified, nor a member of one cleared (C132).
* Setting elements from nested lists: lists that are too long are cut off, empty lists are read past the end, points are not checked to lie on the curve, and the point at infinity has no list (C105).
* Parameters: `d_out_str` overflows a buffer of 8 characters for degrees of 202 and more; a negative degree ends the program; values are not checked at all (C106).
* Types D and G generation: a random point killed by n on the wrong curve (for instance infinity, when the random scalar is a multiple of the order) leaves the curve untwisted (`C111_unlucky_fails`); a class polynomial without a root is not noticed and the invariant 0 is used (`C111_no_root_fails`); a class polynomial of degree one makes the root finder read outside the array (`C111_class_number_one_fails`); when zero is drawn as non-residue it is accepted in the code's loop (`C111_nqr_zero_fails`).
* Type E groups: G1 has r^2 elements and is not cyclic, though r is recorded as its order (`C113_torsion`); if r is 1 modulo 3 some element other than O pairs to 1 with itself, so the pairing of a random element with itself need not generate GT (`C114_typeE_self_fails`).
* Type F generation: a random point at infinity makes the search accept any b (`C112_curve_unlucky_fails`) and any twist (`C112_twist_unlucky_fails`).
* Type A parameter generation does not exclude that r divides the cofactor; then a point of order r may pair to 1 with itself, and with all of G1 if the curve is cyclic (C107, instance q = 587, r = 7, h = 84).
* Groups of points after set-up (C120): G2 of types D, F and G is the whole twisted curve, with no cofactor applied, so random and hashed elements need not have order r, and `element_cmp` hides it by comparing after multiplication by the cofactor (`C120_typeD_G2_fails`, `C120_typeF_G2_fails`); the point drawn at set-up is not checked after multiplication by the cofactor, so the generator may be O and `element_random` then gives only O (`C120_generator_fails`).
* Calculator (C115–C119): a `#` comment at the very end of a file without newline is a syntax error; `x := a == b` and `x := a ? b : c` assign `a` first; an empty statement is an error; with an assignment as operand the variable is changed by the operator (`(x := a) + b`, and so `x := a == b` leaves the truth value in x); parameters are global, later arguments see earlier parameters, calls have no value and crash as operands; `define` of a reserved name is silently ineffective; `extend` reads beyond its arguments; casts between fields other than M do nothing.
* Class polynomials (C109, C110): `mpc_add_ui` does not write the imaginary part of its destination, `mpc_pow_ui` does not end for exponents of 32 bits, and `pbc_hilbert` includes imprimitive forms, so for D = g²E the result is a multiple of the polynomial of E. The first term of the series for π gives 45 bits, not 47 (C126).
* Methods (C108): types D, G and E keep the Miller routine in one static variable per file, so setting the method of one pairing, or setting up another one, changes what every other pairing of the type runs; on types D and G the projective routine is wrong (C46), so this changes values. Type G never leaves `shipsey-stange`. On types A and A1 preprocessed data are read by the routines of the method set *now*, so changing the method between `pairing_pp_init` and `pairing_pp_apply` or `pairing_pp_clear` misreads memory. On type A1 the three methods give three different results for points of smaller order than n.
* Preprocessed powers for exponents beyond the order (C19); integer multiples and halving in groups of points and
  GT do nothing (C83).
* Quadratic extensions: root of a base field element (C26).  Polynomials: gcd with 0 (C30), leading zeros after
  multiplication by an integer (C73), more than 65535 coefficients (C74), 0 not a square (C76), non-monic
  irreducibility (C78), linear polynomials in root finding (C79).
* Curves: batch operations with O or opposite points (C35), serialised O (C37), compressed points not checked
  (C38), even order is_sqr (C72), text of a point refused but left in place (C97).
* Pairings: products with an O (C43), D/G projective coordinates (C46), Lucas ladders at ±1 and odd cofactors (C49),
  type G final powering when the value is 1 (C50, C88), D almost-coDDH with O (C53), D/G table overrun (C54), type E
  elliptic net at Q = ±P, 2P (C55), A1 small orders (C81), E/F preprocessing keeps an address (C91), type E unlucky
  random point (C93), type I first random draw 0 (C99), the pairing of the nodal curve depends on a random point (C122).  GT elements parsed unchecked (C52).
* Parameter search: A1 cofactor wraps (C56), 3D beyond 32 bits (C58), Freeman sign (C59), bit limits (C82).
* Allocator: with `SAFE_CLEAN` making a block smaller (`pbc_realloc`, `gmp_realloc`, so `darray_copy` into a fresh array) writes
  past the new block, sizes wrap, `pbc_calloc` does not check its product (C125); the default build wipes nothing (C124).
* Text and tables: length 0 and malformed numbers (C60), useless rho collision (C61), empty darray copy (C63), printf
  (C64), negative integers and lists (C96), missing numbers (C97), short random reads (C68).
* Ternary fields: integer constants are 0 (C85), random with w | m (C86), roots in even degree (C87), unchecked
  bytes (C67).  Further, by reading only: type I GT cannot be inverted (gf32m has no `invert`), type I sets no
  `finalpow` so hashing to its GT calls an uninitialised pointer, type I G1 has no `from_hash`/`to_bytes`.
* Temporaries (C129): `fp_is_sqr` of 0 in montfp, fasterfp, fastfp and tinyfp returns before the `mpz_clear`; `file_mpz_random` leaves two integers when the file cannot be read; `pbc_param_init_e_gen` leaves `Fq` and `cc`; `pbc_param_init_f_gen` leaves a point and an element; `pairing_init_set_buf` leaves the parameters when they are bad; `sn_pairing` leaves `e0`; the calculator leaks on a type mismatch and in `nextprime`; the examples hess, paterson, yuanli and zhangkim leave one or two elements. Each call of such a routine can leak again, without bound.
* Objects (C130): `a1_pairing_pp_clear` frees the blocks but never clears the elements in them (3 for each entry, 6 for merged ones); `read_symtab` overwrites the pointer to an earlier value of the same key, which is lost; `pairing_option_set("method", ...)` between `pairing_pp_init` and `pairing_pp_clear` makes the latter read the wrong structure; `exp1 > exp2` in type A parameters makes `a_pairing_pp_init` write past its block; types A, E and I clear a base field before the field, curve or point built on it (harmless now).

## 7. Status per property (71 proved, 78 partial)

| id | property | status | remarks |
|----|----|----|----|
| C01 | Prime-field arithmetic agrees with integer arithmetic mod p | proved | Montgomery backend, any program over a register file with any aliasing, any odd modulus (prime or not); operations that multiply need a top word that is not all ones. Preconditions that are needed (zero products for composite moduli etc.) are in Spec.montSafe and shown necessary in Verif/Props/FpBugs.lean. |
| C02 | Montgomery multiplication is correct for every odd modulus | partial | Proved when the top word of the modulus is not all ones. False otherwise: C02_lost_carry gives a 128-bit prime and operands. |
| C03 | element_halve does not depend on the destination's old value | partial | Proved when the destination is nonzero or the operand is zero. False otherwise for every odd modulus: C03_halve_depends_on_destination. |
| C04 | element_cmp returns 0 exactly for equal elements | partial | All four backends. Montgomery: proved unless the first argument is nonzero and the second is zero; false in that case (C04_cmp_stale). Faster: the same restriction. Fast and naive: no restriction. |
| C05 | Serialising then parsing a field element is the identity | proved | All four backends. |
| C06 | Parsing arbitrary bytes yields a canonical element | partial | Proved for buffers that are zero or not a multiple of p. False for the encoding of p: C06_from_bytes_multiple. |
| C07 | Inversion is inversion | partial | Three backends: every nonzero element modulo every odd prime. Montgomery backend: every unit modulo any odd modulus whose top word is not all ones. False otherwise: C07_lost_carry gives a 256-bit prime (with a primality certificate) and an element whose computed inverse is wrong. |
| C08 | Exponentiation in Z/p | partial | Proved except 0^0, which gives 0 in two of the backends: C08_zero_pow_zero. |
| C09 | element_sign is odd | proved | All four backends. |
| C10 | Backends agree | proved | All four multi-word backends, any program within Spec.commonSafe, including zero and one tests. |
| C11 | Hash to integer is in range | partial | z <= limit and the exact value are proved; z < limit is false (C11_hash_hits_limit). The Montgomery backend still always yields a canonical element (C11_mont_from_hash); the naive backend can yield a non-canonical zero (C11_naive_zero_not_zero). |
| C12 | Hash expansion fills the whole buffer | proved | Buffer content for every digest length; the list model makes an overrun a wrong length. |
| C13 | Fixed-width big-endian integer encoding round trips | proved | Also shows that the bound is necessary. |
| C14 | Text to integer | proved | Strings are byte lists, C locale, no sign, as in the code. |
| C15 | Digit printer | proved | The GMP length estimate is a parameter (exact or one too large). |
| C16 | Trial division gives a factorisation | proved | Primality test and next prime are taken to be exact. n = 0 is shown to hang. |
| C17 | Generic windowed exponentiation | proved |  |
| C18 | Simultaneous exponentiation | proved |  |
| C19 | Exponentiation after preprocessing | partial | Holds for exponents up to the declared order and in groups annihilated by it; false in every prime field p > 2 (C19_fp_wrong) and divides by zero when the order is 0 (C19_order_zero). |
| C20 | Square roots in prime fields | proved | Over every finite field of odd order; the field operations are those of the field (C01). |
| C21 | Squareness test in prime fields | proved | All four backends; the Legendre symbol computed by GMP is Mathlib's Jacobi symbol. |
| C22 | The ring Z | partial | Ring operations, powers, comparison, square roots and the byte round trip of nonzero integers proved; halve returns 0, is_sqr accepts any perfect power, length_in_bytes one short when bits%8=0, from_bytes returns 4 too few and zero is not written: failure theorems. |
| C23 | Nested integer lists (multiz) | partial | Sums, products, negation, scalar multiples proved for all nested multinomials; subtraction proved for aligned shapes, with an exact formula for the wrong result of list-minus-integer and integer-minus-list. |
| C24 | Quadratic extension arithmetic | proved | Any program with any aliasing over any base field and non-square v. |
| C25 | Gaussian extension arithmetic | proved | Any program over K(i), and equality with the general routines with v = -1. |
| C26 | Square test and square roots in quadratic extensions | partial | is_sqr proved for finite fields. sqrt proved for squares outside the base field; false for squares of the base field (C26_sqrt_base_fails, C26_base_is_sqr). |
| C27 | Quadratic extension encoding | proved | Relative to the base field's encoding and sign; instantiated for the prime fields. |
| C28 | Polynomial ring arithmetic | proved | All programs over R[X] refine polynomial arithmetic and keep arrays normalised, any aliasing. |
| C29 | Polynomial division | proved | Existence, degree bound and agreement with Mathlib's Euclidean division; division by zero never returns. |
| C30 | Polynomial gcd | partial | gcd proved when the second argument is nonzero; with second argument zero the code dies (C30_zero_fails). |
| C31 | Polynomial-mod ring multiplication | proved | All commutative rings, all monic moduli of positive degree, all aliasing; the result is the remainder modulo f. |
| C32 | Inversion in polynomial-mod fields | proved | Irreducible f; single inversion and arbitrary programs over the field. |
| C33 | Points stay on the curve and obey the group law | proved | All programs of calls refine Mathlib's group of points; tests and comparison included. |
| C34 | Scalar multiplication | proved |  |
| C35 | Batch doubling and addition | partial | Correct when the common inversion is of a nonzero product and outputs do not hold O; the other cases are proved to fail. |
| C36 | Parsed points are on the curve | proved |  |
| C37 | Point encodings round trip | partial | Non-O points round trip (plain and compressed); O is proved to round trip exactly when its leftover coordinates are off the curve. |
| C38 | Compressed parsing validates | partial | Exactly characterised: on the curve iff the right-hand side is a square; counterexample given. |
| C39 | Hash to point lands on the curve | proved | For all executions in which the search terminates. |
| C40 | Point order over extension fields | proved | C40_trace: the recurrence for all q, t, n. C40_points: the result is the number of points over the extension (the theorem of Weil for elliptic curves in odd characteristic, proved in Lemmas/Height, Hasse, Weil). |
| C41 | Curve from j-invariant and twist | proved |  |
| C42 | Singular curve group | proved | Group law of Mathlib on nonsingular points, isomorphic to the multiplicative group; random can return the node when the first draw is 0 (C42_random). |
| C43 | Pairing with the identity | partial | Pairing and preprocessed pairing with O give 1 (type A; the tests are in the shared inline functions). The product claim is false: C43_prod_fails shows that one identity among the inputs makes the whole product 1, with an instance where the true product is not 1. |
| C44 | Preprocessed pairing equals direct pairing | proved | Types A and A1: equality with the affine method for all points of the plane; equality with the default projective method on the r-torsion is in C80/C81. Types D and G: for all points of the plane, whenever preprocessing stays inside its table (C54). Type F: as long as the element keeps its value (C91). |
| C45 | Product of pairings | proved | Types A, A1, D, E and F, all lengths >= 1; the generic routine (types E, F, G) for arguments other than O. |
| C46 | Pairing methods agree | partial | Types A, A1 and E agree. For types D and G the claim is false (C46_typeD_fails): the code lets Zx and Zy name the same coordinate. |
| C47 | Pairing respects negation | proved | On the r-torsion, default projective method. |
| C48 | Pairing values are r-th roots of unity | proved | All inputs, on the curve or not, all methods of types A and A1; GT random/from_hash through the final powering; types D, E, F and G for nonzero arguments of the final powering. |
| C49 | Lucas final powering | partial | lucas_odd for all even cofactors, with the exact value for odd ones; lucas_even for all odd cofactors except at -1 (and at 1 for type G), where it divides by zero (C49_lucas_even_fails). |
| C50 | Final powering exponents | partial | Type D (k = 6 and the generic case) and type F for every nonzero element. Type G: exactly the elements whose (q^5-1)(q+1)-th power is 1 make it fail. |
| C51 | Sparse line multiplication (type F) | proved | Type F: the sparse multiplication of a line value into the accumulator equals the product in the field of q^12 elements, for every accumulator. |
| C52 | GT is a multiplicative group view of the field | partial | Both notations compute in the group of units for every sequence of operations, and roots of unity stay roots of unity. A random element needs the field below not to give zero (C52_sample_partial); parsing does not check membership (C52_from_bytes_fails). Exponents are not negative. |
| C53 | Almost-coDDH test | partial | For every bilinear map on groups of prime order, generic routine, and types E and F; type D's own routine when no argument is O. With O among the arguments type D's routine can fail (C53_typeD_identity_fails). |
| C54 | Preprocessing storage bounds | partial | Types D and G, every odd r >= 3 with r + 1 not a power of two; for the others every pp_init writes past the table (C54_fails). |
| C55 | The Shipsey-Stange methods compute the same pairing as Miller's algorithm | partial | Types A (direct and preprocessed) and G: equality with Miller's algorithm for all arguments (C55_typeA, C55_typeG); the block of division polynomials for all points with 2y != 0 (C55_block). Type E: equality for all P, Q killed by r unless Q = P, -P or 2P (C55_typeE_partial), and for these three the method divides by zero, so the set of good pairs is known exactly (C55_typeE_iff, C55_typeE_fails). Type A1: points of order exactly n (C55_typeA1_partial). |
| C56 | Type A / A1 / E / F parameter generation relations | proved | Types A, A1, E and F: every generated parameter set satisfies the relations, for all random choices; end-to-end theorems connect generated A and A1 parameters to the bilinearity theorems. The recorded A1 cofactor wraps modulo 2^32 (C56_typeA1_wrap_fails). The choice of curve coefficients for E and F is not modelled. |
| C57 | Pell equation solver | proved | Soundness, advance by the unit, positivity and termination for every positive non-square D and every N. |
| C58 | MNT curves | proved | For every D with 3D < 2^32 (the range in the statement). C58_overflow_fails: outside that range a wrong curve is reported. |
| C59 | Freeman curves | partial | The embedding degree part holds for every D, and the process-ending branch is unreachable. The CM equation holds for solutions U = 5 mod 15 (C59_cm_partial) and always fails for U = 10 mod 15 (C59_sign_fails, C59_fails). C59_guarded: for D = 1 mod 3, in particular for all D that gengparam accepts, every curve reported satisfies the equation, as the wrong sign only gives multiples of 3. |
| C60 | Parameter text round trips | partial | reading, limits, lookup and round trip proved for all texts; a length of 0 means no limit and a malformed number reads as 0 (C60_*_fails) |
| C61 | Discrete logarithm | partial | Brute force is proved (answer correct, and found whenever there is one). Pollard rho: the answer is a logarithm or zero; C61_rho_useless_fails shows the zero answer on a useless collision. |
| C62 | Symbol table is a map | proved | symbol table behaves as a map with insertion order |
| C63 | Dynamic array is a list | partial | darray is the list it holds; copying an empty array and removal while testing differ from the claim (C63_copy_empty_fails, C63_remove_with_test) |
| C64 | Formatted output length contract | partial | Under the contract on element_snprint and without double percent signs; the _fails theorems show double percent, dangling percent, overrun of the %Z buffer and wrong counts. |
| C65 | Ternary field arithmetic | proved | Words of any width, any trinomial with 0<t<m, every operand sharing; results are canonical and reduced, and a program theorem covers sequences of calls. Inversion needs the operand prime to the trinomial. |
| C66 | Cubic and sextic ternary towers | proved | Over an abstract base field; gf33m inversion needs that x^3-x-1 has no root, which holds for GF(3^m) when 3 does not divide m. |
| C67 | Ternary element encoding | partial | Round trip proved; C67_check_fails: reading accepts bytes that stand for no element. |
| C68 | Random numbers are in range | proved | uniform over [0,limit) when the source is; short reads of the random file use stale buffer bytes (C68_short_read_fails) |
| C69 | Fp for small moduli (tinyfp) | partial | add, invert, set_si, bytes proved; products wrong for large p, mul_si with negative, aliasing double (C69_*_fails) |
| C70 | Generic subtraction and division tolerate aliasing | proved |  |
| C71 | BLS-style verification is complete and sound at the equation level | proved | Completeness, uniqueness of the signature in a group of prime order, and the variant with the x coordinate only. |
| C72 | Square test on curves | partial | Right for odd orders; proved wrong for even orders. |
| C73 | Polynomials times integers stay normalised | partial | Right as polynomials; normalised only when the integer annihilates no coefficient; failure theorem for the rest. |
| C74 | Polynomial byte encoding round trips | partial | Round trip below 65536 coefficients; failure theorem above; from_bytes does not normalise (C74_unnormalised). |
| C75 | Residue byte encoding round trips | proved | Round trip and injectivity for every coefficient codec that round trips. |
| C76 | Square test in polynomial-mod fields | partial | Correct for nonzero elements; 0 is reported not to be a square (C76_zero_fails). |
| C77 | Square roots in polynomial-mod fields | proved | Every returned value is a root for every random sequence; exact success condition of an attempt; no return on non-squares. |
| C78 | Irreducibility test | proved | Rabin criterion proved; monic polynomials of any degree over any finite field. C78_nonmonic_fails shows the restriction to monic is needed. |
| C79 | Root finding | partial | Degree at least 2; degree 1 is an out-of-bounds write (C79_linear_fails). Progress and possibility of return proved. |
| C80 | Type A pairings are bilinear | proved | The map is characterised independently of the code by C80_tate. Non-degeneracy is C107. |
| C81 | Type A1 pairings are bilinear | partial | Holds when the chain meets no exceptional step (Chain), in particular for points of exact order n. False in general: C81_small_order_fails. |
| C82 | Curve searches end and respect the bit limit | partial | Both searches end. The bit limit is not respected: first solutions are not compared with it (C82_first_fails), MNT orders may have bitlimit + 10 bits (C82_mnt_partial), Freeman orders about twice the limit (C82_freeman_fails). |
| C83 | Multiples by machine integers in groups | partial | Fails: generic_mul_si and generic_halve leave points and elements of GT unchanged (C83_*_fails); the _partial theorems say exactly when the answer is nevertheless right. |
| C84 | Demonstration protocols | proved | Over any bilinear map; type A and A1 are such maps by C80/C81. |
| C85 | Integer constants in ternary fields | partial | The code violates it: every integer constant becomes 0 (C85_fails). C65_program covers integers divisible by 3. |
| C86 | Random elements of ternary fields are elements | partial | Holds when the degree is not a multiple of the word size, fails otherwise. |
| C87 | Square roots in ternary fields | partial | Holds for odd degrees, fails for every nonzero square other than 1 when the degree is even. |
| C88 | Type D and G pairings are bilinear | partial | Type D: complete, without assumptions on the twist when the field of the twist has more than 61 elements and characteristic not 3 (C88_typeD_all). Type G: the value is right whenever one is returned, and one is returned unless it would be 1; on points of order two of the twist none is returned (C88_typeG_fails); on G1 x G2 (points of order dividing r, r^2 not dividing the order of the twist) a value is always returned (C107_typeG). |
| C89 | Comparison in G2 agrees with the pairing | proved | Types D and F; both directions. The partner exists for every P other than O: type D (C107_cmp; C89_typeD_code with the exponent the code sets), type F with the number set by the initialisation (C107_typeF_cmp, C89_quotientF). |
| C90 | The type F pairing is bilinear | proved | All fields of q, q^2, q^12 elements with a generator satisfying x^6 = -alpha, all points; no assumption on the order of the twist. |
| C91 | Preprocessing a pairing takes a snapshot | partial | Types E and F keep the address of the element, so later changes of it are seen (C91_typeF_fails, C91_typeE_fails); other elements do not matter. |
| C92 | The exponent for comparing points of G2 is computed exactly | proved | Types D and G for odd k/2 (with even k/2 the nonresidue is taken from F_q and becomes a square, so these pairings do not exist), type F. The _points theorems state the orders as numbers of points. |
| C93 | The type E pairing is bilinear | proved | Both Miller routines, all points killed by r, r > 5; the condition on the random point is needed (C93_typeE_fails). |
| C94 | Type E pairing values do not depend on the random point | proved | All admissible random points, both routines. |
| C95 | Setting the method of one type E pairing does not affect others | proved | All sequences of operations on other pairings; e_pairing_ellnet enters as an arbitrary function that does not read the shared variable. |
| C96 | Printing an element and reading the text gives the element back | partial | Proved for prime fields, quadratic and polynomial extensions, curves, GT (delegates) and integers from zero on. The code fails for negative integers (C96_negative_fails), lists of integers (C96_multiz_fails), and fields without a set_str of their own such as polynomial rings (C96_default_fails). Bytes of 128 and more, on which isspace(char) is undefined in C, are taken as ordinary characters. |
| C97 | Reading elements from untrusted text is safe | partial | Memory safety is proved for all of them, and validity of the point when the count is non-zero. With count 0 the code may leave a pair off the curve (C97_refused_fails, C97_cut_fails); missing numbers are read as 0 (C97_missing_fails). |
| C98 | Type I points form the group of the curve | proved | Points modelled with aliasing; field operations are those of a Mathlib field of characteristic 3. |
| C99 | Random type I points lie in the subgroup | partial | Holds when the first value drawn is not 0; C99_random_fails shows that a first draw of 0 leaves the loop with the off-curve point (0,0). |
| C100 | Type I final powering | proved | Over any field of 3^m elements, m prime to 6. |
| C101 | Type I unrolled loop equals the plain loop | proved |  |
| C102 | Type I pairing is bilinear | proved | Non-degeneracy is not claimed. |
| C103 | Type I curve order and parameter table | proved | Exact number of points (C103_card) by the curve over the cubic extension; coprimality of order and cofactor by kernel computation. Primality of the group orders is not claimed. |
| C104 | Generated type I parameters give a field | proved | All twelve trinomials of the generator's table are certified irreducible by kernel computation on a checker whose soundness is proved; the field axioms, inversion and bilinearity theorems are then instantiated. |
| C105 | Elements from nested lists of integers | partial | Prime fields and polynomial rings in full; quadratic and quotient extensions for lists of at most the degree (longer lists are cut off: _long_fails). Items read back for all fields and finite points; the point at infinity has no items and reading them back does nothing (C105_items_infinity_fails). curve_set_multiz accepts points off the curve (C105_curve_fails); empty lists are read out of bounds (C105_empty_fails). |
| C106 | Parameters written and read back | partial | Reading in full (all types, layouts); writing and reading back for all types, type D up to degree 201: beyond that d_out_str overflows its name buffer (C106_write_fails). Error codes in full. Negative degrees end the program and no value is checked (C106_negative_fails, C106_unchecked_fails). The initialisation of the pairing from the parameters is not part of this property. |
| C107 | Pairings are not degenerate | proved | Types A and A1: every P other than O has a partner (any odd r), number of points q + 1, and for r prime not dividing the cofactor the pairing routine returns 1 only for O; one valid BLS signature. Fails when r divides the cofactor (C107_multiple_fails, C107_cofactor_fails, instance with q = 587). Types D and G: every P of G1 other than O has a partner on the twist (characteristic not 2 or 3, discriminant not 0, more than 61 elements), and on points of order r of the twist the value is 1 only for O when r^2 does not divide its order (C107_typeD_iff, C107_typeG). r divides the order of the twist whenever it divides that of the curve (C107_typeD_twist, C107_typeG_twist). Type F: for the parameters that are generated (C107_typeF_generated) the value is 1 only for O (C107_typeF). Type E: for generated parameters every P of G1 other than O has a partner (C107_typeE). Type I: every point other than O has a partner, any m prime to 6 (C107_typeI); in the group of order n for every generated parameter set (C107_typeI_generated); value 1 only for O when the group order is prime (C107_typeI_iff). |
| C108 | Choosing the method of a pairing | partial | Types A, A1, F, I: the routine run is that of the method last set for the pairing, after every program; type A: the value does not depend on it; preprocessed data stay usable unless the method changes between Miller and shipsey-stange. Types D, E, G: only with a single pairing of the type (shared variables, C108_shared_fails). A1: points of full order. E: all second arguments but the first, its negative and its double, where shipsey-stange fails. |
| C109 | Complex numbers and the modular function | partial | All operations under every aliasing, series, q, Delta, j over exact reals with proved error bounds. mpc_add_ui only with equal imaginary parts (C109_add_ui_fails); powers below 2^31 (C109_pow_fails: larger exponents never end). The rounding of GMP floats is not modelled; q is proved given pi (C126) and the reciprocal. |
| C110 | Class polynomials | partial | Enumeration, count, product and rounding proved for every D; the rounding step assumes the computed coefficients are within 1/2 of integers (floating error not modelled), and the code's j is related to its own series (C109), not to Mathlib's modular forms. Fails for non-fundamental D (C110_imprimitive_fails). |
| C111 | Generation of type D and G parameters | partial | Invariant, orders, irreducibility proved; nk is the number of points over the extension (C111_nk_points). That one of the two twists has n points is the CM theorem: a hypothesis; for large r (C111_order_large_partial) it is needed only if the curve was twisted. Lucky draw needed; the failures are proved. |
| C112 | Generation of type F parameters | partial | Exact counts proved (BN curves, no unproved theory) for every draw not killed by accident; square roots are assumed right only outside the base field (C26); existence of acceptable choices proved under the same assumption; the unlucky draws are proved to fail. |
| C113 | Generation of type E parameters | proved | Unconditional: the curve is y^2=x^3+1 with q-1 points (superspecial count over q = 3m^2+1); G1 has r^2 elements and is not cyclic (C113_torsion); the cofactor carries every point into G1 (C113_cofactor). |
| C114 | Symmetric pairings are symmetric | proved | Types A, A1 (points of order r) and E, all Miller routines. Type E by a reciprocity law for Miller functions. Self-pairing on type E: not 1 when r = 2 mod 3 (C114_typeE_self), 1 for some element when r = 1 mod 3 (C114_typeE_self_fails). Type I: C114_typeI (prime group order), C102_symmetric (multiples of one point). |
| C115 | The calculator splits text into tokens | partial | all texts; a # comment in an unterminated last line is not one (C115_last_line_fails) |
| C116 | The calculator parses expressions by the precedences | partial | round trip, soundness and completeness against the ambiguous grammar; assignment precedence and empty statements by failure theorems |
| C117 | Variables of calculator programs hold values | partial | refinement to by-value semantics for programs without assignments as operands; with them it is false (C117_assign_operand_fails, C117_assign_compare_fails) |
| C118 | Calls of functions defined by the user | partial | calls are assignments plus body; locality and result values fail |
| C119 | Built-in functions and reserved names of the calculator | partial | arity, types, reserved names; define of reserved names, extend and casts fail |
| C120 | Elements drawn or hashed after pairing set-up belong to the groups | partial | Types A, A1, E and G1 of D, F, G: full membership, with order hypotheses discharged by the parameter theorems (for D/G the order of the curve over F_q is what generation aims at). G2 of D, F and G: only membership up to the cofactor holds; failure theorems show elements not killed by r. Generator may be O: failure theorem. |
| C121 | From generating parameters to computing pairings and signatures | partial | Types A and E in full (E: when R is not killed by 2r, as the code never checks); A1 of prime order in full, composite order for arguments O or of order n (C81 fails otherwise); F for draws avoiding square roots in the base field (C26) and the unlucky draws of C112. Existence of such sessions proved for all four types. D: for any curve of order h r (C121_typeD_partial, C121_typeD_starts); that generation finds such a curve is C111. G excluded by C88_typeG_fails. |
| C122 | The pairing of the nodal curve | partial | The property fails: C122_random_fails. C122_value_partial gives the value for a generator P and random points other than O, P, -Q, P - Q, whenever one is returned; points P of smaller order (the loop then works with the stale coordinates of O) are not covered. |
| C123 | A point proves the order of a curve | proved | Hasse's theorem proved from the degree form on the group of rational maps (Lemmas/ScaleHom, Height, HasseCount, Hasse). |
| C124 | With --enable-safe-clean all memory is wiped before it goes back | proved | All programs, by an invariant on the heap (C124_wiped); the functions given to GMP; C124_plain_fails is about the default build. |
| C125 | The allocator keeps what is stored | partial | All programs in the default build with products below 2^64; with SAFE_CLEAN, programs that make no block smaller. Failure theorems: making a block smaller (also GMP's), the product in pbc_calloc, sizes that wrap. |
| C126 | The constant pi | partial | Convergence and the error bound against the value of the series for every precision; against pi itself up to 10^-19. Missing: the theorem of the Chudnovsky brothers (the series gives pi exactly), and the rounding of the last three GMP operations. |
| C127 | No temporary is used before it is set up or after it is cleared | proved | All 254 routines with such local variables, as control flow skeletons (tests are free choices). |
| C128 | What set-up allocates, clearing releases | proved | All kinds of objects for all sizes; preprocessed pairings and parameter texts are C130. |
| C129 | Temporaries are cleared on every way out | partial | 239 of the 254 routines; proved false for the other 15 (C129_fails, C129_fails_calls: n calls leave at least n blocks). |
| C130 | Preprocessed pairings and parameter texts give back their memory | partial | Types A and elliptic nets in full for exp1 <= exp2. Fails for type A1 (exact number of elements left), repeated keys (exact set), a change of method in between, exp1 > exp2. |
| C131 | Nested lists of integers own their memory | proved | Heap of nodes with explicit allocation and release; every call refines the by-value store and keeps ownership exact (C131_call, C131_programs); values read back (C131_values); nothing left after clearing (C131_no_leak). Recursion depth is a fuel parameter: the theorems hold for every fuel from some bound on. |
| C132 | Components and members of nested lists can be used on their own | partial | Reading a component is proved. The full claim is false: modifying a component or clearing a member leaves a dangling node in the list (…_fails, for every state). |
| C133 | Every operation can be called on every kind of element | partial | the code does not meet the property: the theorems give exactly the operations that can be called, kind by kind, for all memory contents and all towers |
| C134 | No operation ignores its argument | partial | C134_fields proves it for the default prime fields and all extensions; for the other kinds the exact failing lists are proved |
| C135 | The selected source of random numbers is the one that is used | partial | Last selection, reproducibility and the default proved for all programs; successive draws from an ordinary file repeat, failures are not reported or leak, the name is kept by address: the _fails theorems |
| C136 | The choice of prime field implementation is respected and cannot be seen | partial | Choice proved in full; values independent of it for calls outside the exceptions of C01-C11; 0^0 shows the choice (C136_choice_fails) |
| C137 | Index calculus finds the discrete logarithm | partial | With a proper list of the prime factors of q-1 (squarefree), primes below q in the table: step 1 ends within q-1 powers, never overruns relm, and its table of logarithms is right; Garner's CRT; is_gen on units; step 2; non-generator branch with division of logarithms. As the code is, no answer is ever reached: the list of factors is dangling (C137_fails). Further failures: zero as base/draw/value, primes from q on in the table, composite cofactor, values outside the group. |
| C138 | Programs typed at the terminal mean the same as in a file | partial | With readline: all lines, with and without -y, last line with or without a newline (C138_readline). Without readline the claim holds for programs without -y whose lines have at most 1022 characters and all end with a newline (C138_terminal_partial); otherwise it is false: the last unterminated line is dropped, long lines are cut with a newline in the middle, and -y gives a syntax error after every line (the _fails theorems). |
| C139 | Command line options are read as POSIX prescribes | proved | All option tables (letters other than ':', as for every getopt), all commands, any state left over when optind is set to 0. |
| C140 | The parameter files that come with the library give working pairings | partial | Complete for the files a, d*, e and f: read as written, q and r prime, order of the curve, irreducibility, bilinear, not degenerate, set-ups exist; type D: comparison of elements of the second group agrees with the pairing; type E: only O pairs with itself to 1. g149: the same, non-degenerate as far as C88 goes (C140_g149_partial). i: the same for random elements whose first draw is not 0, hence C140_i_partial (for 0 see C99_random_fails). a1: read as written (a1_reads); the factors of n are unknown. Type E unless 2r kills the random point R of the set-up. Type F without the square roots of C26. |
| C141 | Random numbers on Windows | partial | Complete for systems whose calls succeed (C141_range, C141_same, C141_uniform); that a failing CryptGenRandom is noticed is false (C141_failure_fails). The system calls are parameters. |
| C142 | The lengths announced are those of the bytes written | partial | Complete for prime fields (all implementations but the one for small primes), their towers, groups of points and GT; false for the groups of type I (C142_typeI_fails). |
| C143 | The example program for short signatures prints what it should | proved | C143_typeA for all type A parameters, C143_a for the shipped a.param, with the whole of main: key, signature, compression and decompression, verification, x-only encoding with both guesses, random signature. Printed values other than the verdicts, and the random source, are not modelled. The hypothesis that the signature is not O is needed: O does not survive compression (C37). |
| C144 | RSA powers by the Chinese remainder theorem agree with plain powers | partial | C144_garner for all coprime p, q; C144_main_partial for different primes, all passes. C144_equal_fails: nothing checks that the two primes drawn differ, and if they are the same the methods differ (whatever mpz_invert leaves). The clock is not modelled. |
| C145 | The example programs run with the parameters in the file they are given | partial | C145_read_partial for files of at most 16384 characters, C145_shipped for all twelve shipped files, C145_safe for every file. C145_long_fails: only the first 16384 characters are read and nothing is reported, so longer files that describe parameters are refused (C145_cut: the rest makes no difference). Read errors half-way are not modelled. |
| C146 | The programs that list and generate MNT and Freeman curves miss no discriminant | proved | C146_mnt_needs, C146_mnt_list, C146_mnt_from, C146_gend for MNT curves; C146_freeman_needs, C146_freeman_list, C146_geng for Freeman curves. Searches are those of the model of mnt.c (C57, C58, C59, C82); the lists are what is printed if all searches end. atoi is not modelled (the argument is an int). |
| C147 | What the verifiers of the example programs accept | proved | The pairing is a parameter (hypotheses: bilinear, not trivial, prime order; met by type A, C147_typeA). program_halves shows that the programs modelled for C84 are these halves run one after the other. The program paterson passes the hash of R from the signing half to the verifying half; the model computes it from R. |
| C148 | What the program that prints Hilbert polynomials prints | proved | pbc_hilbert is a parameter (C109, C110); the output is a list of characters; UPPER = 2^31 - 1, where the loop variable overflows, is excluded. |
| C149 | Elapsed time | partial | Complete for clocks whose readings fit in a long (C149_elapsed, C149_difference); on Windows from 1970 to 2038 (C149_windows_partial). C149_windows_fails: a long of 32 bits is full in 2038 and the difference of readings before and after overflows. double is taken as exact. |

## 8. Testing the theorems

Wrong programs are made by editing the model in a copy, one realistic slip at a time (wrong sign, operand,
bound, order of writes, forgotten case, off-by-one table entry), and rebuilding.  `seeded/LOG.jsonl` has one
line for each: the definition, the edit, the claim it breaks, the theorems that no longer prove, and the
theorems tightened when the edit went unnoticed.
