import Verif.Model.Life

/-!
# The temporaries of the routines of `/repo/arith`

One definition per routine with local variables that are initialised: integers (`mpz_t`), floating point numbers, elements, fields,
arrays, symbol tables, parameters, pairings, preprocessed data, and blocks that the routine gets from `pbc_malloc` and
frees.  The comment names the variables in order of their numbers.  Left out: arrays of such variables, parts of structures, parameters of the
routine, `mpz_t` headers that are pointed at existing limbs; a second mention of a variable without a jump in between.
Macros defined in the file are expanded.  A routine that initialises and can report failure
(`pbc_param_init_set_buf`) is taken to have initialised.
-/

set_option autoImplicit false

namespace Pbc.Life

/-- `element_dlog_brute_force` (`/repo/arith/dlog.c:36-53`); `g0`, `count`. -/
def dlog_element_dlog_brute_force : Routine where
  file := "arith/dlog.c"
  name := "element_dlog_brute_force"
  first := 36
  last := 53
  code := [
    .init 1, .init 0, .use 0, .use 1, .use 0, .fork 6 9, .use 0, .use 1, .goto 4, .use 1, .clear 1, .clear 0, .ret]

/-- `element_dlog_pollard_rho` (`/repo/arith/dlog.c:57-187`); `asum`, `bsum`, `g0`, `snark`, `hole`, `counter`, `buf`, `za`, `zb`, `zd`, `zm`. -/
def dlog_element_dlog_pollard_rho : Routine where
  file := "arith/dlog.c"
  name := "element_dlog_pollard_rho"
  first := 57
  last := 187
  code := [
    .init 5, .init 2, .init 3, .init 0, .init 1, .init 4, .fork 7 9, .use 2, .goto 6, .use 0, .use 1, .use 2,
    .use 3, .use 4, .use 5, .use 3, .init 6, .use 6, .fork 19 21, .use 6, .goto 18, .clear 6, .use 3, .use 0,
    .use 1, .use 4, .fork 27 61, .use 4, .use 3, .fork 30 60, .use 1, .use 0, .fork 33 57, .init 7, .init 8,
    .init 9, .init 10, .use 7, .use 0, .use 8, .use 1, .use 9, .use 10, .use 2, .use 8, .fork 46 48, .use 8,
    .goto 52, .use 8, .use 10, .use 9, .fork 43 52, .clear 10, .clear 7, .clear 8, .clear 9, .goto 59, .use 0,
    .use 1, .goto 61, .goto 25, .fork 62 63, .goto 71, .use 5, .fork 65 70, .use 0, .use 1, .use 3, .use 4, .use 5,
    .goto 15, .fork 72 73, .goto 71, .clear 2, .clear 3, .use 4, .fork 77 79, .use 4, .goto 75, .clear 4, .clear 0,
    .clear 1, .clear 5, .ret]

/-- `fp_set_mpz` (`/repo/arith/fasterfp.c:64-76`); `tmp`. -/
def fasterfp_fp_set_mpz : Routine where
  file := "arith/fasterfp.c"
  name := "fp_set_mpz"
  first := 64
  last := 76
  code := [
    .fork 1 2, .goto 5, .init 0, .use 0, .clear 0, .ret]

/-- `fp_out_str` (`/repo/arith/fasterfp.c:135-143`); `z`. -/
def fasterfp_fp_out_str : Routine where
  file := "arith/fasterfp.c"
  name := "fp_out_str"
  first := 135
  last := 143
  code := [
    .init 0, .use 0, .clear 0, .ret, .ret]

/-- `fp_mul` (`/repo/arith/fasterfp.c:282-306`); `buf`. -/
def fasterfp_fp_mul : Routine where
  file := "arith/fasterfp.c"
  name := "fp_mul"
  first := 282
  last := 306
  code := [
    .fork 1 2, .goto 5, .init 0, .use 0, .clear 0, .ret]

/-- `fp_mul_si` (`/repo/arith/fasterfp.c:347-367`); `tmp`. -/
def fasterfp_fp_mul_si : Routine where
  file := "arith/fasterfp.c"
  name := "fp_mul_si"
  first := 347
  last := 367
  code := [
    .fork 1 2, .goto 6, .init 0, .use 0, .clear 0, .fork 6 6, .ret]

/-- `fp_pow_mpz` (`/repo/arith/fasterfp.c:369-382`); `z`. -/
def fasterfp_fp_pow_mpz : Routine where
  file := "arith/fasterfp.c"
  name := "fp_pow_mpz"
  first := 369
  last := 382
  code := [
    .fork 1 2, .goto 5, .init 0, .use 0, .clear 0, .ret]

/-- `fp_invert` (`/repo/arith/fasterfp.c:384-394`); `z`. -/
def fasterfp_fp_invert : Routine where
  file := "arith/fasterfp.c"
  name := "fp_invert"
  first := 384
  last := 394
  code := [
    .init 0, .use 0, .clear 0, .ret]

/-- `fp_random` (`/repo/arith/fasterfp.c:396-408`); `z`. -/
def fasterfp_fp_random : Routine where
  file := "arith/fasterfp.c"
  name := "fp_random"
  first := 396
  last := 408
  code := [
    .init 0, .use 0, .fork 3 5, .use 0, .goto 5, .clear 0, .ret]

/-- `fp_from_hash` (`/repo/arith/fasterfp.c:410-417`); `z`. -/
def fasterfp_fp_from_hash : Routine where
  file := "arith/fasterfp.c"
  name := "fp_from_hash"
  first := 410
  last := 417
  code := [
    .init 0, .use 0, .clear 0, .ret]

/-- `fp_sgn_even` (`/repo/arith/fasterfp.c:436-448`); `sum`. -/
def fasterfp_fp_sgn_even : Routine where
  file := "arith/fasterfp.c"
  name := "fp_sgn_even"
  first := 436
  last := 448
  code := [
    .fork 1 2, .ret, .init 0, .use 0, .fork 5 6, .goto 7, .use 0, .clear 0, .ret, .ret]

/-- `fp_is_sqr` (`/repo/arith/fasterfp.c:451-462`); `z`. -/
def fasterfp_fp_is_sqr : Routine where
  file := "arith/fasterfp.c"
  name := "fp_is_sqr"
  first := 451
  last := 462
  code := [
    .init 0, .fork 2 3, .ret, .use 0, .clear 0, .ret, .ret]

/-- `fp_to_bytes` (`/repo/arith/fasterfp.c:464-478`); `z`. -/
def fasterfp_fp_to_bytes : Routine where
  file := "arith/fasterfp.c"
  name := "fp_to_bytes"
  first := 464
  last := 478
  code := [
    .fork 1 2, .goto 5, .init 0, .use 0, .clear 0, .ret, .ret]

/-- `fp_from_bytes` (`/repo/arith/fasterfp.c:480-496`); `z`. -/
def fasterfp_fp_from_bytes : Routine where
  file := "arith/fasterfp.c"
  name := "fp_from_bytes"
  first := 480
  last := 496
  code := [
    .init 0, .use 0, .fork 3 4, .goto 5, .use 0, .clear 0, .ret, .ret]

/-- `fp_set_mpz` (`/repo/arith/fastfp.c:48-54`); `tmp`. -/
def fastfp_fp_set_mpz : Routine where
  file := "arith/fastfp.c"
  name := "fp_set_mpz"
  first := 48
  last := 54
  code := [
    .init 0, .use 0, .clear 0, .ret]

/-- `fp_out_str` (`/repo/arith/fastfp.c:102-110`); `z`. -/
def fastfp_fp_out_str : Routine where
  file := "arith/fastfp.c"
  name := "fp_out_str"
  first := 102
  last := 110
  code := [
    .init 0, .use 0, .clear 0, .ret, .ret]

/-- `fp_mul` (`/repo/arith/fastfp.c:170-186`); `buf`. -/
def fastfp_fp_mul : Routine where
  file := "arith/fastfp.c"
  name := "fp_mul"
  first := 170
  last := 186
  code := [
    .init 0, .use 0, .clear 0, .ret]

/-- `fp_mul_si` (`/repo/arith/fastfp.c:229-241`); `tmp`. -/
def fastfp_fp_mul_si : Routine where
  file := "arith/fastfp.c"
  name := "fp_mul_si"
  first := 229
  last := 241
  code := [
    .init 0, .use 0, .clear 0, .fork 4 4, .ret]

/-- `fp_pow_mpz` (`/repo/arith/fastfp.c:243-250`); `z`. -/
def fastfp_fp_pow_mpz : Routine where
  file := "arith/fastfp.c"
  name := "fp_pow_mpz"
  first := 243
  last := 250
  code := [
    .init 0, .use 0, .clear 0, .ret]

/-- `fp_invert` (`/repo/arith/fastfp.c:252-259`); `z`. -/
def fastfp_fp_invert : Routine where
  file := "arith/fastfp.c"
  name := "fp_invert"
  first := 252
  last := 259
  code := [
    .init 0, .use 0, .clear 0, .ret]

/-- `fp_random` (`/repo/arith/fastfp.c:261-267`); `z`. -/
def fastfp_fp_random : Routine where
  file := "arith/fastfp.c"
  name := "fp_random"
  first := 261
  last := 267
  code := [
    .init 0, .use 0, .clear 0, .ret]

/-- `fp_from_hash` (`/repo/arith/fastfp.c:269-276`); `z`. -/
def fastfp_fp_from_hash : Routine where
  file := "arith/fastfp.c"
  name := "fp_from_hash"
  first := 269
  last := 276
  code := [
    .init 0, .use 0, .clear 0, .ret]

/-- `fp_sgn_even` (`/repo/arith/fastfp.c:290-301`); `sum`. -/
def fastfp_fp_sgn_even : Routine where
  file := "arith/fastfp.c"
  name := "fp_sgn_even"
  first := 290
  last := 301
  code := [
    .fork 1 2, .ret, .init 0, .use 0, .fork 5 6, .goto 7, .use 0, .clear 0, .ret, .ret]

/-- `fp_is_sqr` (`/repo/arith/fastfp.c:303-313`); `z`. -/
def fastfp_fp_is_sqr : Routine where
  file := "arith/fastfp.c"
  name := "fp_is_sqr"
  first := 303
  last := 313
  code := [
    .init 0, .fork 2 3, .ret, .use 0, .clear 0, .ret, .ret]

/-- `fp_to_bytes` (`/repo/arith/fastfp.c:315-325`); `z`. -/
def fastfp_fp_to_bytes : Routine where
  file := "arith/fastfp.c"
  name := "fp_to_bytes"
  first := 315
  last := 325
  code := [
    .init 0, .use 0, .clear 0, .ret, .ret]

/-- `fp_from_bytes` (`/repo/arith/fastfp.c:327-338`); `z`. -/
def fastfp_fp_from_bytes : Routine where
  file := "arith/fastfp.c"
  name := "fp_from_bytes"
  first := 327
  last := 338
  code := [
    .init 0, .use 0, .clear 0, .ret, .ret]

/-- `element_pow_wind` (`/repo/arith/field.c:67-111`); `result`. -/
def field_element_pow_wind : Routine where
  file := "arith/field.c"
  name := "element_pow_wind"
  first := 67
  last := 111
  code := [
    .fork 1 2, .ret, .init 0, .use 0, .fork 5 13, .use 0, .fork 7 8, .goto 12, .fork 9 10, .goto 10, .fork 11 12,
    .use 0, .goto 4, .use 0, .clear 0, .ret]

/-- `element_pow2_mpz` (`/repo/arith/field.c:153-189`); `result`, `a1a2`. -/
def field_element_pow2_mpz : Routine where
  file := "arith/field.c"
  name := "element_pow2_mpz"
  first := 153
  last := 189
  code := [
    .fork 1 2, .ret, .init 0, .use 0, .init 1, .use 1, .fork 7 18, .use 0, .fork 9 12, .use 0, .use 1, .goto 17,
    .fork 13 15, .use 0, .goto 17, .fork 16 17, .use 0, .goto 6, .use 0, .clear 0, .clear 1, .ret]

/-- `element_pow3_mpz` (`/repo/arith/field.c:191-241`); `result`. -/
def field_element_pow3_mpz : Routine where
  file := "arith/field.c"
  name := "element_pow3_mpz"
  first := 191
  last := 241
  code := [
    .fork 1 2, .ret, .init 0, .use 0, .fork 5 6, .goto 4, .fork 7 9, .use 0, .goto 6, .use 0, .clear 0,
    .fork 12 13, .goto 11, .ret]

/-- `element_build_base_table` (`/repo/arith/field.c:251-286`); `multiplier`. -/
def field_element_build_base_table : Routine where
  file := "arith/field.c"
  name := "element_build_base_table"
  first := 251
  last := 286
  code := [
    .init 0, .use 0, .fork 3 8, .fork 4 6, .use 0, .goto 3, .use 0, .goto 2, .clear 0, .ret, .ret]

/-- `element_pow_base_table` (`/repo/arith/field.c:292-331`); `result`, `n`. -/
def field_element_pow_base_table : Routine where
  file := "arith/field.c"
  name := "element_pow_base_table"
  first := 292
  last := 331
  code := [
    .init 1, .use 1, .fork 3 5, .clear 1, .ret, .use 1, .fork 7 8, .use 1, .init 0, .use 0, .use 1, .fork 12 18,
    .fork 13 15, .use 1, .goto 12, .fork 16 17, .use 0, .goto 11, .use 0, .clear 0, .clear 1, .ret]

/-- `generic_mul_mpz` (`/repo/arith/field.c:386-392`); `e0`. -/
def field_generic_mul_mpz : Routine where
  file := "arith/field.c"
  name := "generic_mul_mpz"
  first := 386
  last := 392
  code := [
    .init 0, .use 0, .clear 0, .ret]

/-- `generic_mul_si` (`/repo/arith/field.c:394-400`); `e0`. -/
def field_generic_mul_si : Routine where
  file := "arith/field.c"
  name := "generic_mul_si"
  first := 394
  last := 400
  code := [
    .init 0, .use 0, .clear 0, .ret]

/-- `generic_halve` (`/repo/arith/field.c:406-413`); `e0`. -/
def field_generic_halve : Routine where
  file := "arith/field.c"
  name := "generic_halve"
  first := 406
  last := 413
  code := [
    .init 0, .use 0, .clear 0, .ret]

/-- `generic_set_si` (`/repo/arith/field.c:429-435`); `z`. -/
def field_generic_set_si : Routine where
  file := "arith/field.c"
  name := "generic_set_si"
  first := 429
  last := 435
  code := [
    .init 0, .use 0, .clear 0, .ret]

/-- `generic_set_multiz` (`/repo/arith/field.c:437-443`); `z`. -/
def field_generic_set_multiz : Routine where
  file := "arith/field.c"
  name := "generic_set_multiz"
  first := 437
  last := 443
  code := [
    .init 0, .use 0, .clear 0, .ret]

/-- `generic_sub` (`/repo/arith/field.c:445-456`); `tmp`. -/
def field_generic_sub : Routine where
  file := "arith/field.c"
  name := "generic_sub"
  first := 445
  last := 456
  code := [
    .fork 1 2, .goto 5, .init 0, .use 0, .clear 0, .ret]

/-- `generic_div` (`/repo/arith/field.c:458-469`); `tmp`. -/
def field_generic_div : Routine where
  file := "arith/field.c"
  name := "generic_div"
  first := 458
  last := 469
  code := [
    .fork 1 2, .goto 5, .init 0, .use 0, .clear 0, .ret]

/-- `generic_add_ui` (`/repo/arith/field.c:471-482`); `e`, `z`. -/
def field_generic_add_ui : Routine where
  file := "arith/field.c"
  name := "generic_add_ui"
  first := 471
  last := 482
  code := [
    .init 0, .init 1, .use 1, .use 0, .clear 1, .clear 0, .ret]

/-- `generic_cmp` (`/repo/arith/field.c:484-499`); `buf1`, `buf2`. -/
def field_generic_cmp : Routine where
  file := "arith/field.c"
  name := "generic_cmp"
  first := 484
  last := 499
  code := [
    .fork 1 2, .ret, .fork 3 4, .ret, .init 0, .init 1, .use 0, .use 1, .clear 0, .clear 1, .ret, .ret]

/-- `generic_is0` (`/repo/arith/field.c:501-508`); `b`. -/
def field_generic_is0 : Routine where
  file := "arith/field.c"
  name := "generic_is0"
  first := 501
  last := 508
  code := [
    .init 0, .use 0, .clear 0, .ret, .ret]

/-- `generic_is1` (`/repo/arith/field.c:510-518`); `b`. -/
def field_generic_is1 : Routine where
  file := "arith/field.c"
  name := "generic_is1"
  first := 510
  last := 518
  code := [
    .init 0, .use 0, .clear 0, .ret, .ret]

/-- `pbc_mpz_from_hash` (`/repo/arith/field.c:643-668`); `buf`. -/
def field_pbc_mpz_from_hash : Routine where
  file := "arith/field.c"
  name := "pbc_mpz_from_hash"
  first := 643
  last := 668
  code := [
    .init 0, .fork 2 3, .goto 3, .use 0, .fork 5 6, .goto 10, .use 0, .fork 8 9, .goto 10, .goto 1, .use 0,
    .clear 0, .fork 13 14, .goto 12, .ret]

/-- `element_tonelli` (`/repo/arith/field.c:672-720`); `e`, `t`, `t0`, `ginv`, `e0`. -/
def field_element_tonelli : Routine where
  file := "arith/field.c"
  name := "element_tonelli"
  first := 672
  last := 720
  code := [
    .init 1, .init 0, .init 2, .init 3, .init 4, .use 3, .use 1, .use 0, .fork 9 16, .use 2, .use 4, .use 3,
    .use 0, .fork 14 15, .use 0, .goto 8, .use 4, .use 3, .use 0, .use 1, .clear 1, .clear 0, .clear 2, .clear 3,
    .clear 4, .ret]

/-- `pbc_trial_divide` (`/repo/arith/field.c:760-804`); `p`, `m`, `fac`. -/
def field_pbc_trial_divide : Routine where
  file := "arith/field.c"
  name := "pbc_trial_divide"
  first := 760
  last := 804
  code := [
    .init 2, .init 0, .init 1, .use 1, .use 0, .use 1, .fork 7 31, .use 1, .fork 9 11, .use 0, .use 1, .use 0,
    .fork 13 15, .use 0, .use 1, .use 1, .use 0, .fork 18 29, .use 2, .use 0, .use 1, .use 0, .fork 20 23, .use 2,
    .fork 25 29, .clear 2, .clear 1, .clear 0, .ret, .use 0, .goto 5, .clear 2, .clear 1, .clear 0, .ret, .ret]

/-- `pbc_mpz_trickle` (`/repo/arith/field.c:808-845`); `d`, `z`, `q`. -/
def field_pbc_mpz_trickle : Routine where
  file := "arith/field.c"
  name := "pbc_mpz_trickle"
  first := 808
  last := 845
  code := [
    .fork 1 1, .fork 2 3, .ret, .init 0, .init 1, .init 2, .use 1, .use 0, .fork 9 10, .use 0, .use 1, .fork 12 19,
    .use 2, .use 1, .use 0, .fork 16 17, .goto 24, .use 0, .goto 10, .fork 20 23, .fork 21 22, .goto 24, .goto 19,
    .use 1, .clear 2, .clear 1, .clear 0, .ret, .ret]

/-- `element_multi_double` (`/repo/arith/field.c:847-860`); `temp1`, `temp2`. -/
def field_element_multi_double : Routine where
  file := "arith/field.c"
  name := "element_multi_double"
  first := 847
  last := 860
  code := [
    .init 0, .init 1, .fork 3 6, .use 0, .use 1, .goto 2, .use 0, .use 1, .clear 0, .clear 1, .ret]

/-- `element_multi_add` (`/repo/arith/field.c:862-880`); `temp1`, `temp2`, `temp3`. -/
def field_element_multi_add : Routine where
  file := "arith/field.c"
  name := "element_multi_add"
  first := 862
  last := 880
  code := [
    .init 0, .init 1, .init 2, .fork 4 8, .use 0, .use 1, .use 2, .goto 3, .use 0, .use 1, .use 2, .clear 0,
    .clear 1, .clear 2, .ret]

/-- `fq_mul` (`/repo/arith/fieldquadratic.c:197-233`); `e0`, `e1`, `e2`. -/
def fieldquadratic_fq_mul : Routine where
  file := "arith/fieldquadratic.c"
  name := "fq_mul"
  first := 197
  last := 233
  code := [
    .init 0, .use 0, .init 1, .init 2, .use 1, .use 2, .clear 0, .clear 1, .clear 2, .ret]

/-- `fq_square` (`/repo/arith/fieldquadratic.c:249-269`); `e0`, `e1`. -/
def fieldquadratic_fq_square : Routine where
  file := "arith/fieldquadratic.c"
  name := "fq_square"
  first := 249
  last := 269
  code := [
    .init 0, .use 0, .init 1, .use 1, .clear 0, .clear 1, .ret]

/-- `fq_invert` (`/repo/arith/fieldquadratic.c:290-309`); `e0`, `e1`. -/
def fieldquadratic_fq_invert : Routine where
  file := "arith/fieldquadratic.c"
  name := "fq_invert"
  first := 290
  last := 309
  code := [
    .init 0, .use 0, .init 1, .use 1, .clear 0, .clear 1, .ret]

/-- `fq_is_sqr` (`/repo/arith/fieldquadratic.c:339-355`); `e0`, `e1`. -/
def fieldquadratic_fq_is_sqr : Routine where
  file := "arith/fieldquadratic.c"
  name := "fq_is_sqr"
  first := 339
  last := 355
  code := [
    .init 0, .use 0, .init 1, .use 1, .clear 0, .clear 1, .ret, .ret]

/-- `fq_sqrt` (`/repo/arith/fieldquadratic.c:357-393`); `e0`, `e1`, `e2`. -/
def fieldquadratic_fq_sqrt : Routine where
  file := "arith/fieldquadratic.c"
  name := "fq_sqrt"
  first := 357
  last := 393
  code := [
    .init 0, .use 0, .init 1, .init 2, .use 1, .use 2, .fork 7 9, .use 1, .use 0, .use 0, .use 1, .clear 0,
    .clear 1, .clear 2, .ret]

/-- `fi_mul` (`/repo/arith/fieldquadratic.c:425-457`); `e0`, `e1`, `e2`. -/
def fieldquadratic_fi_mul : Routine where
  file := "arith/fieldquadratic.c"
  name := "fi_mul"
  first := 425
  last := 457
  code := [
    .init 0, .use 0, .init 1, .init 2, .use 1, .use 2, .clear 0, .clear 1, .clear 2, .ret]

/-- `fi_square` (`/repo/arith/fieldquadratic.c:459-477`); `e0`, `e1`. -/
def fieldquadratic_fi_square : Routine where
  file := "arith/fieldquadratic.c"
  name := "fi_square"
  first := 459
  last := 477
  code := [
    .init 0, .use 0, .init 1, .use 1, .clear 0, .clear 1, .ret]

/-- `fi_invert` (`/repo/arith/fieldquadratic.c:479-496`); `e0`, `e1`. -/
def fieldquadratic_fi_invert : Routine where
  file := "arith/fieldquadratic.c"
  name := "fi_invert"
  first := 479
  last := 496
  code := [
    .init 0, .use 0, .init 1, .use 1, .clear 0, .clear 1, .ret]

/-- `fi_is_sqr` (`/repo/arith/fieldquadratic.c:498-525`); `e0`, `e1`. -/
def fieldquadratic_fi_is_sqr : Routine where
  file := "arith/fieldquadratic.c"
  name := "fi_is_sqr"
  first := 498
  last := 525
  code := [
    .init 0, .use 0, .init 1, .use 1, .clear 0, .clear 1, .ret, .ret]

/-- `fi_sqrt` (`/repo/arith/fieldquadratic.c:527-560`); `e0`, `e1`, `e2`. -/
def fieldquadratic_fi_sqrt : Routine where
  file := "arith/fieldquadratic.c"
  name := "fi_sqrt"
  first := 527
  last := 560
  code := [
    .init 0, .use 0, .init 1, .init 2, .use 1, .use 2, .fork 7 9, .use 1, .use 0, .use 0, .use 1, .clear 0,
    .clear 1, .clear 2, .ret]

/-- `fp_set_mpz` (`/repo/arith/montfp.c:64-80`); `tmp`. -/
def montfp_fp_set_mpz : Routine where
  file := "arith/montfp.c"
  name := "fp_set_mpz"
  first := 64
  last := 80
  code := [
    .fork 1 2, .goto 8, .init 0, .use 0, .fork 5 6, .goto 7, .use 0, .clear 0, .ret]

/-- `fp_set_si` (`/repo/arith/montfp.c:82-100`); `tmp`. -/
def montfp_fp_set_si : Routine where
  file := "arith/montfp.c"
  name := "fp_set_si"
  first := 82
  last := 100
  code := [
    .fork 1 2, .goto 8, .init 0, .use 0, .fork 5 6, .goto 7, .use 0, .clear 0, .ret]

/-- `fp_to_mpz` (`/repo/arith/montfp.c:122-139`); `tmp`. -/
def montfp_fp_to_mpz : Routine where
  file := "arith/montfp.c"
  name := "fp_to_mpz"
  first := 122
  last := 139
  code := [
    .fork 1 2, .goto 7, .init 0, .use 0, .clear 0, .fork 6 7, .goto 5, .ret]

/-- `fp_out_str` (`/repo/arith/montfp.c:167-175`); `z`. -/
def montfp_fp_out_str : Routine where
  file := "arith/montfp.c"
  name := "fp_out_str"
  first := 167
  last := 175
  code := [
    .init 0, .use 0, .clear 0, .ret, .ret]

/-- `fp_snprint` (`/repo/arith/montfp.c:177-185`); `z`. -/
def montfp_fp_snprint : Routine where
  file := "arith/montfp.c"
  name := "fp_snprint"
  first := 177
  last := 185
  code := [
    .init 0, .use 0, .clear 0, .ret, .ret]

/-- `fp_set_str` (`/repo/arith/montfp.c:187-195`); `z`. -/
def montfp_fp_set_str : Routine where
  file := "arith/montfp.c"
  name := "fp_set_str"
  first := 187
  last := 195
  code := [
    .init 0, .use 0, .clear 0, .ret, .ret]

/-- `mont_mul` (`/repo/arith/montfp.c:334-364`); `z`. -/
def montfp_mont_mul : Routine where
  file := "arith/montfp.c"
  name := "mont_mul"
  first := 334
  last := 364
  code := [
    .init 0, .use 0, .fork 3 5, .use 0, .goto 2, .use 0, .fork 7 9, .use 0, .goto 10, .use 0, .clear 0, .ret]

/-- `fp_pow_mpz` (`/repo/arith/montfp.c:379-396`); `z`. -/
def montfp_fp_pow_mpz : Routine where
  file := "arith/montfp.c"
  name := "fp_pow_mpz"
  first := 379
  last := 396
  code := [
    .fork 1 2, .goto 5, .init 0, .use 0, .clear 0, .ret]

/-- `fp_invert` (`/repo/arith/montfp.c:401-422`); `tmp`, `z`. -/
def montfp_fp_invert : Routine where
  file := "arith/montfp.c"
  name := "fp_invert"
  first := 401
  last := 422
  code := [
    .init 0, .init 1, .use 1, .use 0, .clear 1, .clear 0, .ret]

/-- `fp_random` (`/repo/arith/montfp.c:424-439`); `z`. -/
def montfp_fp_random : Routine where
  file := "arith/montfp.c"
  name := "fp_random"
  first := 424
  last := 439
  code := [
    .init 0, .use 0, .fork 3 5, .use 0, .goto 5, .clear 0, .ret]

/-- `fp_from_hash` (`/repo/arith/montfp.c:441-448`); `z`. -/
def montfp_fp_from_hash : Routine where
  file := "arith/montfp.c"
  name := "fp_from_hash"
  first := 441
  last := 448
  code := [
    .init 0, .use 0, .clear 0, .ret]

/-- `fp_sgn_odd` (`/repo/arith/montfp.c:460-472`); `z`. -/
def montfp_fp_sgn_odd : Routine where
  file := "arith/montfp.c"
  name := "fp_sgn_odd"
  first := 460
  last := 472
  code := [
    .fork 1 3, .ret, .goto 7, .init 0, .use 0, .clear 0, .ret, .ret]

/-- `fp_is_sqr` (`/repo/arith/montfp.c:474-485`); `z`. -/
def montfp_fp_is_sqr : Routine where
  file := "arith/montfp.c"
  name := "fp_is_sqr"
  first := 474
  last := 485
  code := [
    .init 0, .fork 2 3, .ret, .use 0, .clear 0, .ret, .ret]

/-- `fp_to_bytes` (`/repo/arith/montfp.c:487-496`); `z`. -/
def montfp_fp_to_bytes : Routine where
  file := "arith/montfp.c"
  name := "fp_to_bytes"
  first := 487
  last := 496
  code := [
    .init 0, .use 0, .clear 0, .ret, .ret]

/-- `fp_from_bytes` (`/repo/arith/montfp.c:498-517`); `z`. -/
def montfp_fp_from_bytes : Routine where
  file := "arith/montfp.c"
  name := "fp_from_bytes"
  first := 498
  last := 517
  code := [
    .init 0, .use 0, .fork 3 4, .goto 5, .use 0, .clear 0, .ret, .ret]

/-- `field_init_mont_fp` (`/repo/arith/montfp.c:533-600`); `z`. -/
def montfp_field_init_mont_fp : Routine where
  file := "arith/montfp.c"
  name := "field_init_mont_fp"
  first := 533
  last := 600
  code := [
    .init 0, .use 0, .clear 0, .ret]

/-- `f_div` (`/repo/arith/multiz.c:349-357`); `d`. -/
def multiz_f_div : Routine where
  file := "arith/multiz.c"
  name := "f_div"
  first := 349
  last := 357
  code := [
    .init 0, .use 0, .clear 0, .ret]

/-- `f_from_hash` (`/repo/arith/multiz.c:366-372`); `z`. -/
def multiz_f_from_hash : Routine where
  file := "arith/multiz.c"
  name := "f_from_hash"
  first := 366
  last := 372
  code := [
    .init 0, .use 0, .clear 0, .ret]

/-- `z_from_bytes` (`/repo/arith/multiz.c:480-509`); `z1`. -/
def multiz_z_from_bytes : Routine where
  file := "arith/multiz.c"
  name := "z_from_bytes"
  first := 480
  last := 509
  code := [
    .init 0, .fork 2 3, .goto 1, .fork 4 4, .fork 5 7, .use 0, .goto 4, .clear 0, .fork 9 9, .ret, .ret]

/-- `f_set_str` (`/repo/arith/multiz.c:520-528`); `z`. -/
def multiz_f_set_str : Routine where
  file := "arith/multiz.c"
  name := "f_set_str"
  first := 520
  last := 528
  code := [
    .init 0, .use 0, .clear 0, .ret, .ret]

/-- `zp_sgn_even` (`/repo/arith/naivefp.c:64-77`); `z`. -/
def naivefp_zp_sgn_even : Routine where
  file := "arith/naivefp.c"
  name := "zp_sgn_even"
  first := 64
  last := 77
  code := [
    .init 0, .fork 2 3, .goto 4, .use 0, .clear 0, .ret, .ret]

/-- `poly_set_multiz` (`/repo/arith/poly.c:144-162`); `z`. -/
def poly_poly_set_multiz : Routine where
  file := "arith/poly.c"
  name := "poly_set_multiz"
  first := 144
  last := 162
  code := [
    .fork 1 5, .init 0, .use 0, .clear 0, .ret, .fork 6 7, .goto 5, .ret]

/-- `poly_mul` (`/repo/arith/poly.c:296-330`); `prod`, `e0`. -/
def poly_poly_mul : Routine where
  file := "arith/poly.c"
  name := "poly_mul"
  first := 296
  last := 330
  code := [
    .fork 1 2, .ret, .init 0, .use 0, .init 1, .fork 6 11, .fork 7 10, .fork 8 9, .use 1, .goto 6, .goto 5, .use 0,
    .clear 1, .clear 0, .ret]

/-- `poly_div` (`/repo/arith/poly.c:406-452`); `q`, `r`, `binv`, `e0`. -/
def poly_poly_div : Routine where
  file := "arith/poly.c"
  name := "poly_div"
  first := 406
  last := 452
  code := [
    .fork 1 2, .halt, .fork 3 4, .ret, .init 1, .init 0, .init 2, .init 3, .use 0, .use 1, .use 2, .fork 12 17,
    .use 2, .fork 14 16, .use 3, .goto 13, .goto 11, .use 1, .use 0, .clear 0, .clear 1, .clear 3, .clear 2, .ret]

/-- `poly_invert` (`/repo/arith/poly.c:454-492`); `q`, `r0`, `r1`, `r2`, `b0`, `b1`, `b2`, `inv`. -/
def poly_poly_invert : Routine where
  file := "arith/poly.c"
  name := "poly_invert"
  first := 454
  last := 492
  code := [
    .init 4, .init 5, .init 6, .init 0, .init 1, .init 2, .init 3, .init 7, .use 4, .use 5, .use 1, .use 2, .use 0,
    .use 3, .use 1, .use 2, .fork 17 18, .goto 26, .use 6, .use 5, .use 0, .use 4, .use 1, .use 2, .use 3,
    .goto 12, .use 7, .use 2, .use 5, .clear 7, .clear 0, .clear 1, .clear 2, .clear 3, .clear 4, .clear 5,
    .clear 6, .ret]

/-- `polymod_invert` (`/repo/arith/poly.c:521-536`); `f`, `r1`. -/
def poly_polymod_invert : Routine where
  file := "arith/poly.c"
  name := "polymod_invert"
  first := 521
  last := 536
  code := [
    .init 0, .init 1, .use 0, .use 1, .clear 0, .clear 1, .ret]

/-- `polymod_is_sqr` (`/repo/arith/poly.c:617-632`); `z`, `e0`. -/
def poly_polymod_is_sqr : Routine where
  file := "arith/poly.c"
  name := "polymod_is_sqr"
  first := 617
  last := 632
  code := [
    .init 1, .init 0, .use 0, .use 1, .clear 1, .clear 0, .ret, .ret]

/-- `polymod_sqrt` (`/repo/arith/poly.c:636-716`); `kx`, `f`, `r`, `s`, `e0`, `z`. -/
def poly_polymod_sqrt : Routine where
  file := "arith/poly.c"
  name := "polymod_sqrt"
  first := 636
  last := 716
  code := [
    .init 0, .init 5, .use 0, .init 1, .init 2, .init 3, .init 4, .use 1, .use 5, .use 2, .use 4, .fork 12 13,
    .goto 37, .use 3, .use 5, .fork 16 28, .use 3, .fork 18 20, .use 3, .use 4, .use 5, .fork 22 27, .use 3,
    .use 2, .fork 25 27, .use 3, .use 4, .goto 15, .use 3, .fork 30 31, .goto 36, .use 4, .use 3, .fork 34 36,
    .use 4, .goto 37, .goto 9, .clear 5, .clear 1, .clear 2, .clear 3, .clear 4, .clear 0, .ret]

/-- `polymod_mul_degree3` (`/repo/arith/poly.c:910-930`); `c3`, `c4`, `p0`. -/
def poly_polymod_mul_degree3 : Routine where
  file := "arith/poly.c"
  name := "polymod_mul_degree3"
  first := 910
  last := 930
  code := [
    .init 2, .init 0, .init 1, .use 0, .use 1, .use 2, .clear 2, .clear 0, .clear 1, .ret]

/-- `polymod_mul_degree6` (`/repo/arith/poly.c:932-1002`); `p0`, `p1`, `p2`, `p3`. -/
def poly_polymod_mul_degree6 : Routine where
  file := "arith/poly.c"
  name := "polymod_mul_degree6"
  first := 932
  last := 1002
  code := [
    .init 0, .init 1, .init 2, .init 3, .use 0, .use 1, .use 2, .use 3, .clear 0, .clear 1, .clear 2, .clear 3, .ret]

/-- `polymod_mul` (`/repo/arith/poly.c:1005-1047`); `prod`, `p0`, `c0`, `high`. -/
def poly_polymod_mul : Routine where
  file := "arith/poly.c"
  name := "polymod_mul"
  first := 1005
  last := 1047
  code := [
    .init 3, .fork 2 4, .use 3, .goto 1, .init 0, .use 0, .init 1, .init 2, .fork 9 17, .fork 10 12, .use 2,
    .goto 9, .fork 13 16, .use 2, .use 3, .goto 12, .goto 8, .fork 18 22, .use 1, .use 3, .use 0, .goto 17,
    .clear 3, .use 0, .clear 0, .clear 1, .clear 2, .ret]

/-- `polymod_square_degree3` (`/repo/arith/poly.c:1049-1089`); `p0`, `c0`, `c2`. -/
def poly_polymod_square_degree3 : Routine where
  file := "arith/poly.c"
  name := "polymod_square_degree3"
  first := 1049
  last := 1089
  code := [
    .init 0, .init 1, .init 2, .use 0, .use 2, .use 1, .clear 0, .clear 1, .clear 2, .ret]

/-- `polymod_square` (`/repo/arith/poly.c:1091-1143`); `prod`, `p0`, `c0`, `high`. -/
def poly_polymod_square : Routine where
  file := "arith/poly.c"
  name := "polymod_square"
  first := 1091
  last := 1143
  code := [
    .init 3, .fork 2 4, .use 3, .goto 1, .init 0, .use 0, .init 1, .init 2, .fork 9 23, .use 2, .fork 11 13,
    .use 2, .goto 15, .use 3, .use 2, .fork 16 18, .use 2, .goto 15, .fork 19 22, .use 2, .use 3, .goto 18,
    .goto 8, .fork 24 28, .use 1, .use 3, .use 0, .goto 23, .clear 3, .use 0, .clear 0, .clear 1, .clear 2, .ret]

/-- `compute_x_powers` (`/repo/arith/poly.c:1302-1333`); `p0`. -/
def poly_compute_x_powers : Routine where
  file := "arith/poly.c"
  name := "compute_x_powers"
  first := 1302
  last := 1333
  code := [
    .init 0, .fork 2 3, .goto 1, .fork 4 8, .fork 5 6, .goto 4, .use 0, .goto 3, .clear 0, .ret]

/-- `poly_gcd` (`/repo/arith/poly.c:1342-1363`); `a`, `b`, `q`, `r`. -/
def poly_poly_gcd : Routine where
  file := "arith/poly.c"
  name := "poly_gcd"
  first := 1342
  last := 1363
  code := [
    .init 0, .init 1, .init 2, .init 3, .use 0, .use 1, .use 2, .use 3, .use 0, .use 1, .fork 11 12, .goto 16,
    .use 0, .use 1, .use 3, .goto 6, .use 1, .clear 0, .clear 1, .clear 2, .clear 3, .ret]

/-- `poly_is_irred` (`/repo/arith/poly.c:1584-1626`); `xpow`, `x`, `g`, `rxmod`, `deg`, `z`. -/
def poly_poly_is_irred : Routine where
  file := "arith/poly.c"
  name := "poly_is_irred"
  first := 1584
  last := 1626
  code := [
    .fork 1 2, .ret, .fork 3 4, .ret, .init 3, .use 3, .init 0, .init 1, .init 2, .use 1, .init 4, .init 5, .use 4,
    .use 5, .use 0, .use 2, .fork 17 21, .use 5, .use 0, .use 1, .fork 21 21, .clear 4, .clear 5, .clear 2,
    .clear 0, .clear 1, .clear 3, .ret, .ret]

/-- `poly_findroot` (`/repo/arith/poly.c:1645-1724`); `fpxmod`, `p`, `x`, `r`, `fac`, `g`, `q`. -/
def poly_poly_findroot : Routine where
  file := "arith/poly.c"
  name := "poly_findroot"
  first := 1645
  last := 1724
  code := [
    .init 6, .use 6, .init 0, .use 0, .init 1, .init 2, .init 5, .use 2, .use 1, .use 5, .clear 1, .clear 2,
    .clear 0, .fork 14 17, .clear 6, .clear 5, .ret, .use 5, .init 4, .init 2, .use 2, .use 6, .init 3, .use 5,
    .fork 25 26, .goto 50, .use 3, .use 4, .use 5, .fork 30 33, .use 5, .use 4, .goto 49, .use 5, .init 0, .use 0,
    .init 1, .use 1, .use 3, .use 6, .clear 1, .clear 0, .use 2, .use 4, .fork 45 48, .use 5, .use 4, .goto 49,
    .goto 26, .goto 23, .use 5, .clear 3, .clear 6, .clear 2, .clear 5, .clear 4, .ret, .ret]

/-- `file_mpz_random` (`/repo/arith/random.c:27-56`); `bytes`, `z`. -/
def random_file_mpz_random : Routine where
  file := "arith/random.c"
  name := "file_mpz_random"
  first := 27
  last := 56
  code := [
    .init 1, .fork 2 3, .ret, .init 0, .use 0, .fork 6 7, .ret, .fork 8 9, .use 0, .use 1, .use 0, .fork 12 13,
    .goto 14, .goto 4, .use 1, .clear 1, .clear 0, .ret]

/-- `pbc_mpz_randomb` (`/repo/arith/random.c:73-79`); `limit`. -/
def random_pbc_mpz_randomb : Routine where
  file := "arith/random.c"
  name := "pbc_mpz_randomb"
  first := 73
  last := 79
  code := [
    .init 0, .use 0, .clear 0, .ret]

/-- `gf3m_reduct` (`/repo/arith/ternary_extension_field.c:250-271`); `px`. -/
def ternary_extension_field_gf3m_reduct : Routine where
  file := "arith/ternary_extension_field.c"
  name := "gf3m_reduct"
  first := 250
  last := 271
  code := [
    .init 0, .use 0, .fork 3 10, .fork 4 6, .use 0, .goto 8, .fork 7 8, .use 0, .use 0, .goto 2, .clear 0, .ret]

/-- `gf3m_mult` (`/repo/arith/ternary_extension_field.c:300-319`); `aa`, `t`, `c`. -/
def ternary_extension_field_gf3m_mult : Routine where
  file := "arith/ternary_extension_field.c"
  name := "gf3m_mult"
  first := 300
  last := 319
  code := [
    .init 0, .use 0, .init 1, .init 2, .fork 5 8, .use 1, .use 2, .goto 4, .use 2, .clear 1, .clear 2, .clear 0,
    .ret]

/-- `gf3m_cubic` (`/repo/arith/ternary_extension_field.c:322-342`); `a`. -/
def ternary_extension_field_gf3m_cubic : Routine where
  file := "arith/ternary_extension_field.c"
  name := "gf3m_cubic"
  first := 322
  last := 342
  code := [
    .init 0, .fork 2 4, .use 0, .goto 1, .use 0, .clear 0, .ret]

/-- `gf3m_invert` (`/repo/arith/ternary_extension_field.c:362-426`); `S`, `R`, `t`, `U`, `V`, `t2`. -/
def ternary_extension_field_gf3m_invert : Routine where
  file := "arith/ternary_extension_field.c"
  name := "gf3m_invert"
  first := 362
  last := 426
  code := [
    .init 0, .init 1, .init 2, .use 0, .use 1, .init 3, .use 3, .init 4, .init 5, .fork 10 36, .use 1, .use 0,
    .fork 13 16, .use 1, .use 3, .goto 35, .use 2, .use 1, .use 0, .use 5, .use 3, .use 4, .fork 23 28, .use 0,
    .use 1, .use 3, .use 4, .goto 35, .use 3, .fork 30 32, .use 3, .goto 34, .fork 33 34, .use 3, .use 3, .goto 9,
    .use 1, .fork 38 39, .use 3, .use 3, .clear 0, .clear 1, .clear 3, .clear 4, .clear 2, .clear 5, .ret]

/-- `gf3m_sqrt` (`/repo/arith/ternary_extension_field.c:428-437`); `t`. -/
def ternary_extension_field_gf3m_sqrt : Routine where
  file := "arith/ternary_extension_field.c"
  name := "gf3m_sqrt"
  first := 428
  last := 437
  code := [
    .init 0, .use 0, .clear 0, .ret]

/-- `gf32m_mult` (`/repo/arith/ternary_extension_field.c:611-637`); `a0b0`, `a1b1`, `t0`, `t1`, `c1`. -/
def ternary_extension_field_gf32m_mult : Routine where
  file := "arith/ternary_extension_field.c"
  name := "gf32m_mult"
  first := 611
  last := 637
  code := [
    .init 0, .init 1, .init 2, .init 3, .init 4, .use 0, .use 1, .use 2, .use 3, .use 4, .clear 0, .clear 1,
    .clear 2, .clear 3, .clear 4, .ret]

/-- `gf32m_cubic` (`/repo/arith/ternary_extension_field.c:640-654`); `c0`, `c1`. -/
def ternary_extension_field_gf32m_cubic : Routine where
  file := "arith/ternary_extension_field.c"
  name := "gf32m_cubic"
  first := 640
  last := 654
  code := [
    .init 0, .init 1, .use 0, .use 1, .clear 0, .clear 1, .ret]

/-- `gf33m_mult` (`/repo/arith/ternary_extension_field.c:778-835`); `t0`, `t1`, `c1`, `a0b0`, `a1b1`, `a2b2`, `d1`, `d2`, `d3`. -/
def ternary_extension_field_gf33m_mult : Routine where
  file := "arith/ternary_extension_field.c"
  name := "gf33m_mult"
  first := 778
  last := 835
  code := [
    .init 0, .init 1, .init 2, .init 3, .init 4, .init 5, .use 3, .use 4, .use 5, .use 0, .use 1, .init 6, .use 6,
    .init 7, .use 7, .init 8, .use 8, .use 2, .clear 0, .clear 1, .clear 2, .clear 3, .clear 4, .clear 5, .clear 6,
    .clear 7, .clear 8, .ret]

/-- `gf33m_cubic` (`/repo/arith/ternary_extension_field.c:838-861`); `a03`, `a13`, `a23`. -/
def ternary_extension_field_gf33m_cubic : Routine where
  file := "arith/ternary_extension_field.c"
  name := "gf33m_cubic"
  first := 838
  last := 861
  code := [
    .init 0, .init 1, .init 2, .use 0, .use 1, .use 2, .clear 0, .clear 1, .clear 2, .ret]

/-- `gf33m_invert` (`/repo/arith/ternary_extension_field.c:864-921`); `a02`, `a12`, `a22`, `v0`, `delta`, `c0`, `c1`, `c2`, `c3`. -/
def ternary_extension_field_gf33m_invert : Routine where
  file := "arith/ternary_extension_field.c"
  name := "gf33m_invert"
  first := 864
  last := 921
  code := [
    .init 0, .init 1, .init 2, .use 0, .use 1, .use 2, .init 3, .use 3, .init 4, .use 4, .init 5, .use 5, .init 6,
    .use 6, .init 7, .use 7, .init 8, .use 8, .clear 0, .clear 1, .clear 2, .clear 3, .clear 4, .clear 5, .clear 6,
    .clear 7, .clear 8, .ret]

/-- `fp_set_mpz` (`/repo/arith/tinyfp.c:29-37`); `r`. -/
def tinyfp_fp_set_mpz : Routine where
  file := "arith/tinyfp.c"
  name := "fp_set_mpz"
  first := 29
  last := 37
  code := [
    .init 0, .use 0, .clear 0, .ret]

/-- `fp_out_str` (`/repo/arith/tinyfp.c:75-83`); `z`. -/
def tinyfp_fp_out_str : Routine where
  file := "arith/tinyfp.c"
  name := "fp_out_str"
  first := 75
  last := 83
  code := [
    .init 0, .use 0, .clear 0, .ret, .ret]

/-- `fp_pow_mpz` (`/repo/arith/tinyfp.c:160-168`); `z`. -/
def tinyfp_fp_pow_mpz : Routine where
  file := "arith/tinyfp.c"
  name := "fp_pow_mpz"
  first := 160
  last := 168
  code := [
    .init 0, .use 0, .clear 0, .ret]

/-- `fp_invert` (`/repo/arith/tinyfp.c:176-184`); `z`. -/
def tinyfp_fp_invert : Routine where
  file := "arith/tinyfp.c"
  name := "fp_invert"
  first := 176
  last := 184
  code := [
    .init 0, .use 0, .clear 0, .ret]

/-- `fp_random` (`/repo/arith/tinyfp.c:186-193`); `z`. -/
def tinyfp_fp_random : Routine where
  file := "arith/tinyfp.c"
  name := "fp_random"
  first := 186
  last := 193
  code := [
    .init 0, .use 0, .clear 0, .ret]

/-- `fp_from_hash` (`/repo/arith/tinyfp.c:195-202`); `z`. -/
def tinyfp_fp_from_hash : Routine where
  file := "arith/tinyfp.c"
  name := "fp_from_hash"
  first := 195
  last := 202
  code := [
    .init 0, .use 0, .clear 0, .ret]

/-- `fp_is_sqr` (`/repo/arith/tinyfp.c:216-226`); `z`. -/
def tinyfp_fp_is_sqr : Routine where
  file := "arith/tinyfp.c"
  name := "fp_is_sqr"
  first := 216
  last := 226
  code := [
    .init 0, .fork 2 3, .ret, .use 0, .clear 0, .ret, .ret]

/-- `z_from_bytes` (`/repo/arith/z.c:168-197`); `z1`. -/
def z_z_from_bytes : Routine where
  file := "arith/z.c"
  name := "z_from_bytes"
  first := 168
  last := 197
  code := [
    .init 0, .fork 2 3, .goto 1, .fork 4 4, .fork 5 7, .use 0, .goto 4, .clear 0, .fork 9 9, .ret, .ret]

/-- `z_set_str` (`/repo/arith/z.c:212-219`); `z`. -/
def z_z_set_str : Routine where
  file := "arith/z.c"
  name := "z_set_str"
  first := 212
  last := 219
  code := [
    .init 0, .use 0, .clear 0, .ret, .ret]

/-- The routines of this file that clear all their temporaries. -/
def tidyArith : List Routine := [
    dlog_element_dlog_brute_force, dlog_element_dlog_pollard_rho, fasterfp_fp_set_mpz, fasterfp_fp_out_str,
    fasterfp_fp_mul, fasterfp_fp_mul_si, fasterfp_fp_pow_mpz, fasterfp_fp_invert, fasterfp_fp_random,
    fasterfp_fp_from_hash, fasterfp_fp_sgn_even, fasterfp_fp_to_bytes, fasterfp_fp_from_bytes, fastfp_fp_set_mpz,
    fastfp_fp_out_str, fastfp_fp_mul, fastfp_fp_mul_si, fastfp_fp_pow_mpz, fastfp_fp_invert, fastfp_fp_random,
    fastfp_fp_from_hash, fastfp_fp_sgn_even, fastfp_fp_to_bytes, fastfp_fp_from_bytes, field_element_pow_wind,
    field_element_pow2_mpz, field_element_pow3_mpz, field_element_build_base_table, field_element_pow_base_table,
    field_generic_mul_mpz, field_generic_mul_si, field_generic_halve, field_generic_set_si,
    field_generic_set_multiz, field_generic_sub, field_generic_div, field_generic_add_ui, field_generic_cmp,
    field_generic_is0, field_generic_is1, field_pbc_mpz_from_hash, field_element_tonelli, field_pbc_trial_divide,
    field_pbc_mpz_trickle, field_element_multi_double, field_element_multi_add, fieldquadratic_fq_mul,
    fieldquadratic_fq_square, fieldquadratic_fq_invert, fieldquadratic_fq_is_sqr, fieldquadratic_fq_sqrt,
    fieldquadratic_fi_mul, fieldquadratic_fi_square, fieldquadratic_fi_invert, fieldquadratic_fi_is_sqr,
    fieldquadratic_fi_sqrt, montfp_fp_set_mpz, montfp_fp_set_si, montfp_fp_to_mpz, montfp_fp_out_str,
    montfp_fp_snprint, montfp_fp_set_str, montfp_mont_mul, montfp_fp_pow_mpz, montfp_fp_invert, montfp_fp_random,
    montfp_fp_from_hash, montfp_fp_sgn_odd, montfp_fp_to_bytes, montfp_fp_from_bytes, montfp_field_init_mont_fp,
    multiz_f_div, multiz_f_from_hash, multiz_z_from_bytes, multiz_f_set_str, naivefp_zp_sgn_even,
    poly_poly_set_multiz, poly_poly_mul, poly_poly_div, poly_poly_invert, poly_polymod_invert, poly_polymod_is_sqr,
    poly_polymod_sqrt, poly_polymod_mul_degree3, poly_polymod_mul_degree6, poly_polymod_mul,
    poly_polymod_square_degree3, poly_polymod_square, poly_compute_x_powers, poly_poly_gcd, poly_poly_is_irred,
    poly_poly_findroot, random_pbc_mpz_randomb, ternary_extension_field_gf3m_reduct,
    ternary_extension_field_gf3m_mult, ternary_extension_field_gf3m_cubic, ternary_extension_field_gf3m_invert,
    ternary_extension_field_gf3m_sqrt, ternary_extension_field_gf32m_mult, ternary_extension_field_gf32m_cubic,
    ternary_extension_field_gf33m_mult, ternary_extension_field_gf33m_cubic, ternary_extension_field_gf33m_invert,
    tinyfp_fp_set_mpz, tinyfp_fp_out_str, tinyfp_fp_pow_mpz, tinyfp_fp_invert, tinyfp_fp_random,
    tinyfp_fp_from_hash, z_z_from_bytes, z_z_set_str]

/-- The others. -/
def untidyArith : List Routine := [fasterfp_fp_is_sqr, fastfp_fp_is_sqr, montfp_fp_is_sqr, random_file_mpz_random, tinyfp_fp_is_sqr]

end Pbc.Life
