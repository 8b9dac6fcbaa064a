import Verif.Model.Life

/-!
# The temporaries of the routines of `/repo/ecc`

One definition per routine with local variables that are initialised: integers (`mpz_t`), floating point numbers, elements, fields,
arrays, symbol tables, parameters, pairings, preprocessed data, and blocks that the routine gets from `pbc_malloc` and
frees.  The comment names the variables in order of their numbers.  Left out: arrays of such variables, parts of structures, parameters of the
routine, `mpz_t` headers that are pointed at existing limbs; a second mention of a variable without a jump in between.
Macros defined in the file are expanded.  A routine that initialises and can report failure
(`pbc_param_init_set_buf`) is taken to have initialised.
-/

set_option autoImplicit false

namespace Pbc.Life

/-- `a_pairing_pp_init` (`/repo/ecc/a_param.c:149-207`); `V`, `V1`, `a`, `b`, `c`, `e0`. -/
def a_param_a_pairing_pp_init : Routine where
  file := "ecc/a_param.c"
  name := "a_pairing_pp_init"
  first := 149
  last := 207
  code := [
    .init 0, .init 1, .use 0, .use 1, .init 5, .init 2, .init 3, .init 4, .fork 9 15, .use 2, .use 3, .use 4,
    .use 5, .use 0, .goto 8, .fork 16 19, .use 1, .use 0, .goto 21, .use 1, .use 0, .fork 22 28, .use 2, .use 3,
    .use 4, .use 5, .use 0, .goto 21, .use 2, .use 3, .use 4, .use 5, .clear 5, .clear 2, .clear 3, .clear 4,
    .clear 0, .clear 1, .ret]

/-- `a_pairing_pp_apply` (`/repo/ecc/a_param.c:317-360`); `f`, `f0`. -/
def a_param_a_pairing_pp_apply : Routine where
  file := "ecc/a_param.c"
  name := "a_pairing_pp_apply"
  first := 317
  last := 360
  code := [
    .init 0, .init 1, .use 0, .fork 4 7, .use 0, .use 1, .goto 3, .fork 8 10, .use 0, .goto 11, .use 0,
    .fork 12 15, .use 0, .use 1, .goto 11, .use 0, .use 1, .clear 0, .clear 1, .ret]

/-- `a_pairing_ellnet` (`/repo/ecc/a_param.c:364-670`); `cm3`, `cm2`, `cm1`, `c0`, `c1`, `c2`, `c3`, `c4`, `dm1`, `d0`, `d1`, `A`, `B`, `C`, `sm2`, `sm1`, `s0`, `s1`, `s2`, `s3`, `tm2`, `tm1`, `t0`, `t1`, `t2`, `t3`, `e0`, `e1`, `u`, `v`. -/
def a_param_a_pairing_ellnet : Routine where
  file := "ecc/a_param.c"
  name := "a_pairing_ellnet"
  first := 364
  last := 670
  code := [
    .init 0, .init 1, .init 2, .init 3, .init 4, .init 5, .init 6, .init 7, .init 13, .init 8, .init 9, .init 10,
    .init 11, .init 12, .use 4, .use 3, .use 0, .use 1, .use 2, .use 13, .use 5, .use 6, .use 7, .use 11, .use 10,
    .use 12, .use 8, .use 9, .init 14, .init 15, .init 16, .init 17, .init 18, .init 19, .init 20, .init 21,
    .init 22, .init 23, .init 24, .init 25, .init 26, .init 27, .init 28, .init 29, .use 14, .use 1, .use 15,
    .use 2, .use 16, .use 3, .use 17, .use 4, .use 18, .use 5, .use 19, .use 6, .use 20, .use 0, .use 21, .use 22,
    .use 23, .use 24, .use 25, .use 7, .use 28, .use 9, .use 29, .use 8, .use 10, .fork 70 101, .use 26, .use 22,
    .use 14, .use 27, .use 20, .use 16, .use 0, .use 13, .use 15, .use 21, .use 1, .use 23, .use 17, .use 2,
    .use 3, .use 24, .use 18, .use 4, .use 5, .use 25, .use 19, .use 6, .use 7, .use 28, .use 8, .use 29, .use 9,
    .use 11, .use 10, .use 12, .goto 130, .use 26, .use 21, .use 14, .use 27, .use 20, .use 15, .use 0, .use 22,
    .use 16, .use 1, .use 13, .use 2, .use 23, .use 17, .use 3, .use 4, .use 24, .use 18, .use 5, .use 6, .use 25,
    .use 19, .use 7, .use 28, .use 8, .use 29, .use 9, .use 10, .use 11, .fork 131 132, .goto 133, .goto 44,
    .use 10, .use 9, .clear 8, .clear 9, .clear 10, .clear 0, .clear 1, .clear 2, .clear 3, .clear 4, .clear 5,
    .clear 6, .clear 7, .clear 14, .clear 15, .clear 16, .clear 17, .clear 18, .clear 19, .clear 20, .clear 21,
    .clear 22, .clear 23, .clear 24, .clear 25, .clear 26, .clear 27, .clear 11, .clear 12, .clear 13, .clear 28,
    .clear 29, .ret]

/-- `a_pairing_ellnet_pp_init` (`/repo/ecc/a_param.c:687-910`); `cm3`, `cm2`, `cm1`, `c0`, `c1`, `c2`, `c3`, `c4`, `C`, `sm2`, `s3`, `tm2`, `t3`, `e0`, `e1`. -/
def a_param_a_pairing_ellnet_pp_init : Routine where
  file := "ecc/a_param.c"
  name := "a_pairing_ellnet_pp_init"
  first := 687
  last := 910
  code := [
    .fork 1 2, .goto 0, .init 0, .init 1, .init 2, .init 3, .init 4, .init 5, .init 6, .init 7, .init 8, .use 4,
    .use 3, .use 0, .use 1, .use 2, .use 8, .use 5, .use 6, .use 7, .init 9, .init 10, .init 11, .init 12,
    .init 13, .init 14, .use 9, .use 1, .use 2, .use 3, .use 4, .use 5, .use 10, .use 6, .use 11, .use 0, .use 12,
    .use 7, .fork 39 40, .goto 73, .fork 41 57, .use 13, .use 9, .use 14, .use 11, .use 0, .use 8, .use 1, .use 2,
    .use 3, .use 4, .use 5, .use 12, .use 10, .use 6, .use 7, .goto 72, .use 13, .use 9, .use 14, .use 11, .use 0,
    .use 1, .use 8, .use 2, .use 3, .use 4, .use 5, .use 6, .use 12, .use 10, .use 7, .goto 26, .clear 0, .clear 1,
    .clear 2, .clear 3, .clear 4, .clear 5, .clear 6, .clear 7, .clear 9, .clear 10, .clear 11, .clear 12,
    .clear 13, .clear 14, .clear 8, .ret]

/-- `a_pairing_ellnet_pp_apply` (`/repo/ecc/a_param.c:932-1050`); `A`, `B`, `e0`, `e1`, `dm1`, `d0`, `d1`, `u`, `v`. -/
def a_param_a_pairing_ellnet_pp_apply : Routine where
  file := "ecc/a_param.c"
  name := "a_pairing_ellnet_pp_apply"
  first := 932
  last := 1050
  code := [
    .init 0, .init 1, .init 2, .init 3, .init 4, .init 5, .init 6, .init 7, .init 8, .use 0, .use 2, .use 3,
    .use 6, .use 1, .use 4, .use 5, .use 7, .use 5, .use 8, .use 4, .use 6, .fork 22 30, .use 7, .use 4, .use 8,
    .use 5, .use 0, .use 6, .use 1, .goto 36, .use 7, .use 4, .use 8, .use 5, .use 6, .use 0, .fork 37 38,
    .goto 39, .goto 16, .use 6, .use 5, .clear 0, .clear 1, .clear 2, .clear 3, .clear 4, .clear 5, .clear 6,
    .clear 7, .clear 8, .ret]

/-- `a_pairing_proj` (`/repo/ecc/a_param.c:1053-1198`); `V`, `V1`, `z`, `z2`, `f`, `f0`, `f1`, `a`, `b`, `c`, `e0`. -/
def a_param_a_pairing_proj : Routine where
  file := "ecc/a_param.c"
  name := "a_pairing_proj"
  first := 1053
  last := 1198
  code := [
    .init 0, .init 1, .use 0, .use 1, .init 4, .init 5, .init 6, .use 4, .init 7, .init 8, .init 9, .init 10,
    .init 2, .init 3, .use 2, .use 3, .fork 17 26, .use 4, .use 7, .use 8, .use 9, .use 2, .use 3, .use 10, .use 5,
    .goto 16, .use 2, .use 10, .use 3, .fork 30 35, .use 1, .use 0, .use 6, .use 4, .goto 39, .use 1, .use 0,
    .use 6, .use 4, .fork 40 49, .use 4, .use 7, .use 8, .use 9, .use 2, .use 3, .use 10, .use 5, .goto 39, .use 4,
    .use 6, .use 2, .use 10, .use 3, .use 7, .use 8, .use 9, .use 5, .clear 4, .clear 5, .clear 6, .clear 2,
    .clear 3, .clear 0, .clear 1, .clear 7, .clear 8, .clear 9, .clear 10, .ret]

/-- `a_pairing_affine` (`/repo/ecc/a_param.c:1201-1279`); `V`, `V1`, `f`, `f0`, `f1`, `a`, `b`, `c`, `e0`. -/
def a_param_a_pairing_affine : Routine where
  file := "ecc/a_param.c"
  name := "a_pairing_affine"
  first := 1201
  last := 1279
  code := [
    .init 0, .init 1, .use 0, .use 1, .init 2, .init 3, .init 4, .use 2, .init 5, .init 6, .init 7, .init 8,
    .fork 13 21, .use 2, .use 5, .use 6, .use 7, .use 8, .use 3, .use 0, .goto 12, .fork 22 27, .use 1, .use 0,
    .use 4, .use 2, .goto 31, .use 1, .use 0, .use 4, .use 2, .fork 32 40, .use 2, .use 5, .use 6, .use 7, .use 8,
    .use 3, .use 0, .goto 31, .use 2, .use 4, .use 5, .use 6, .use 7, .use 8, .use 3, .clear 2, .clear 3, .clear 4,
    .clear 0, .clear 1, .clear 5, .clear 6, .clear 7, .clear 8, .ret]

/-- `a_pairings_affine` (`/repo/ecc/a_param.c:1283-1383`); `V`, `V1`, `f`, `f0`, `f1`, `a`, `b`, `c`, `e0`. -/
def a_param_a_pairings_affine : Routine where
  file := "ecc/a_param.c"
  name := "a_pairings_affine"
  first := 1283
  last := 1383
  code := [
    .init 0, .init 1, .fork 3 6, .use 0, .use 1, .goto 2, .init 2, .init 3, .init 4, .use 2, .init 5, .init 6,
    .init 7, .init 8, .fork 15 27, .use 2, .fork 17 25, .use 0, .use 5, .use 6, .use 7, .use 8, .use 3, .use 2,
    .goto 16, .use 0, .goto 14, .fork 28 35, .fork 29 32, .use 1, .use 0, .goto 28, .use 4, .use 2, .goto 41,
    .fork 36 39, .use 1, .use 0, .goto 35, .use 4, .use 2, .fork 42 54, .use 2, .fork 44 52, .use 0, .use 5,
    .use 6, .use 7, .use 8, .use 3, .use 2, .goto 43, .use 0, .goto 41, .use 2, .use 4, .fork 57 66, .use 0,
    .use 1, .use 5, .use 6, .use 7, .use 8, .use 3, .use 2, .goto 56, .use 2, .use 3, .clear 2, .clear 3, .clear 4,
    .fork 72 75, .use 0, .use 1, .goto 71, .clear 0, .clear 1, .clear 5, .clear 6, .clear 7, .clear 8, .ret]

/-- `a_finalpow` (`/repo/ecc/a_param.c:1420-1429`); `t0`, `t1`. -/
def a_param_a_finalpow : Routine where
  file := "ecc/a_param.c"
  name := "a_finalpow"
  first := 1420
  last := 1429
  code := [
    .init 0, .init 1, .use 0, .use 1, .clear 0, .clear 1, .ret]

/-- `a_init_pairing` (`/repo/ecc/a_param.c:1431-1472`); `a`, `b`. -/
def a_param_a_init_pairing : Routine where
  file := "ecc/a_param.c"
  name := "a_init_pairing"
  first := 1431
  last := 1472
  code := [
    .init 0, .init 1, .use 0, .use 1, .clear 0, .clear 1, .ret]

/-- `a1_pairing_pp_init` (`/repo/ecc/a_param.c:1632-1726`); `V`, `a`, `b`, `c`, `a2`, `b2`, `c2`, `e0`, `e1`, `e2`. -/
def a_param_a1_pairing_pp_init : Routine where
  file := "ecc/a_param.c"
  name := "a1_pairing_pp_init"
  first := 1632
  last := 1726
  code := [
    .init 0, .use 0, .init 1, .init 2, .init 3, .init 7, .init 8, .init 9, .init 4, .init 5, .init 6, .use 1,
    .use 2, .use 3, .use 7, .fork 16 17, .goto 34, .use 0, .fork 19 30, .use 4, .use 5, .use 6, .use 7, .use 0,
    .use 1, .use 8, .use 3, .use 9, .use 2, .goto 33, .use 1, .use 2, .use 3, .goto 11, .use 1, .use 2, .use 3,
    .clear 4, .clear 5, .clear 6, .clear 9, .clear 8, .clear 7, .clear 1, .clear 2, .clear 3, .clear 0, .ret]

/-- `a1_pairing_pp_apply` (`/repo/ecc/a_param.c:1728-1816`); `f`, `f0`, `e0`, `e1`, `Qx2`, `Qy2`, `Qxy`. -/
def a_param_a1_pairing_pp_apply : Routine where
  file := "ecc/a_param.c"
  name := "a1_pairing_pp_apply"
  first := 1728
  last := 1816
  code := [
    .init 0, .init 1, .use 0, .init 2, .init 3, .init 4, .init 5, .init 6, .use 4, .use 5, .use 6, .fork 12 24,
    .fork 13 20, .use 2, .use 4, .use 3, .use 5, .use 1, .use 6, .goto 21, .use 1, .use 0, .use 1, .goto 11,
    .use 1, .use 0, .clear 4, .clear 5, .clear 6, .clear 0, .clear 1, .clear 3, .clear 2, .ret]

/-- `a1_pairing_proj` (`/repo/ecc/a_param.c:1840-2014`); `V`, `z`, `z2`, `f`, `f0`, `a`, `b`, `c`, `e0`. -/
def a_param_a1_pairing_proj : Routine where
  file := "ecc/a_param.c"
  name := "a1_pairing_proj"
  first := 1840
  last := 2014
  code := [
    .init 0, .use 0, .init 3, .init 4, .use 3, .init 5, .init 6, .init 7, .init 8, .init 1, .init 2, .use 1,
    .use 2, .use 5, .use 6, .use 7, .use 1, .use 2, .use 8, .use 4, .use 3, .fork 22 23, .goto 40, .use 8, .use 5,
    .use 2, .use 1, .use 6, .use 7, .fork 30 38, .use 5, .use 6, .use 7, .use 1, .use 2, .use 8, .use 4, .use 3,
    .use 3, .goto 13, .use 4, .use 3, .clear 3, .clear 4, .clear 1, .clear 2, .clear 0, .clear 5, .clear 6,
    .clear 7, .clear 8, .ret]

/-- `a1_pairing` (`/repo/ecc/a_param.c:2017-2097`); `V`, `f`, `f0`, `a`, `b`, `c`, `e0`. -/
def a_param_a1_pairing : Routine where
  file := "ecc/a_param.c"
  name := "a1_pairing"
  first := 2017
  last := 2097
  code := [
    .init 0, .use 0, .init 1, .init 2, .use 1, .init 3, .init 4, .init 5, .init 6, .use 3, .use 4, .use 5, .use 6,
    .use 2, .use 1, .fork 16 17, .goto 28, .use 0, .fork 19 26, .use 3, .use 4, .use 5, .use 6, .use 2, .use 1,
    .use 0, .use 1, .goto 9, .use 2, .use 1, .clear 1, .clear 2, .clear 0, .clear 3, .clear 4, .clear 5, .clear 6,
    .ret]

/-- `a1_pairings_affine` (`/repo/ecc/a_param.c:2100-2193`); `V`, `f`, `f0`, `a`, `b`, `c`, `e0`. -/
def a_param_a1_pairings_affine : Routine where
  file := "ecc/a_param.c"
  name := "a1_pairings_affine"
  first := 2100
  last := 2193
  code := [
    .init 0, .fork 2 4, .use 0, .goto 1, .init 1, .init 2, .use 1, .init 3, .init 4, .init 5, .init 6, .fork 12 20,
    .use 0, .use 3, .use 4, .use 5, .use 6, .use 2, .use 1, .goto 11, .fork 21 22, .goto 36, .use 0, .fork 24 34,
    .fork 25 33, .use 0, .use 3, .use 4, .use 5, .use 6, .use 2, .use 1, .goto 24, .use 0, .use 1, .goto 11,
    .use 2, .use 1, .clear 1, .clear 2, .fork 41 43, .use 0, .goto 40, .clear 0, .clear 3, .clear 4, .clear 5,
    .clear 6, .ret]

/-- `a1_init_pairing` (`/repo/ecc/a_param.c:2230-2273`); `a`, `b`. -/
def a_param_a1_init_pairing : Routine where
  file := "ecc/a_param.c"
  name := "a1_init_pairing"
  first := 2230
  last := 2273
  code := [
    .init 0, .init 1, .use 0, .use 1, .clear 0, .clear 1, .ret]

/-- `pbc_param_init_a1_gen` (`/repo/ecc/a_param.c:2300-2321`); `n`. -/
def a_param_pbc_param_init_a1_gen : Routine where
  file := "ecc/a_param.c"
  name := "pbc_param_init_a1_gen"
  first := 2300
  last := 2321
  code := [
    .init 0, .use 0, .fork 3 4, .goto 6, .use 0, .goto 2, .clear 0, .ret]

/-- `curve_is_valid_point` (`/repo/ecc/curve.c:57-77`); `t0`, `t1`. -/
def curve_curve_is_valid_point : Routine where
  file := "ecc/curve.c"
  name := "curve_is_valid_point"
  first := 57
  last := 77
  code := [
    .fork 1 2, .ret, .init 0, .init 1, .use 0, .use 1, .clear 0, .clear 1, .ret, .ret]

/-- `double_no_check` (`/repo/ecc/curve.c:102-137`); `lambda`, `e0`, `e1`. -/
def curve_double_no_check : Routine where
  file := "ecc/curve.c"
  name := "double_no_check"
  first := 102
  last := 137
  code := [
    .init 0, .init 1, .init 2, .use 0, .use 1, .use 2, .clear 0, .clear 1, .clear 2, .ret, .ret]

/-- `curve_mul` (`/repo/ecc/curve.c:153-207`); `lambda`, `e0`, `e1`. -/
def curve_curve_mul : Routine where
  file := "ecc/curve.c"
  name := "curve_mul"
  first := 153
  last := 207
  code := [
    .fork 1 2, .ret, .fork 3 4, .ret, .fork 5 12, .fork 6 10, .fork 7 9, .ret, .goto 10, .ret, .ret, .goto 21,
    .init 0, .init 1, .init 2, .use 1, .use 0, .use 2, .clear 0, .clear 1, .clear 2, .ret]

/-- `multi_double` (`/repo/ecc/curve.c:210-281`); `table`, `e0`, `e1`, `e2`. -/
def curve_multi_double : Routine where
  file := "ecc/curve.c"
  name := "multi_double"
  first := 210
  last := 281
  code := [
    .init 0, .init 1, .init 2, .init 3, .fork 5 11, .use 0, .fork 7 8, .goto 10, .fork 9 10, .goto 10, .goto 4,
    .fork 12 16, .use 0, .fork 14 15, .use 0, .goto 11, .use 3, .use 0, .fork 19 22, .use 0, .use 3, .goto 18,
    .use 0, .use 3, .fork 25 32, .fork 26 27, .goto 31, .use 3, .use 0, .use 2, .use 1, .goto 24, .clear 1,
    .clear 2, .clear 3, .fork 36 38, .use 0, .goto 35, .clear 0, .ret]

/-- `multi_add` (`/repo/ecc/curve.c:284-365`); `table`, `e0`, `e1`, `e2`. -/
def curve_multi_add : Routine where
  file := "ecc/curve.c"
  name := "multi_add"
  first := 284
  last := 365
  code := [
    .init 0, .init 1, .init 2, .init 3, .use 0, .fork 6 8, .use 0, .goto 5, .use 3, .use 0, .fork 11 15, .use 0,
    .use 3, .use 2, .goto 10, .use 0, .use 3, .fork 18 35, .fork 19 20, .goto 34, .fork 21 22, .goto 34,
    .fork 23 30, .fork 24 28, .fork 25 27, .goto 34, .goto 28, .goto 34, .goto 34, .goto 34, .use 3, .use 0,
    .use 1, .use 2, .goto 17, .clear 1, .clear 2, .clear 3, .fork 39 41, .use 0, .goto 38, .clear 0, .ret]

/-- `curve_cmp` (`/repo/ecc/curve.c:375-393`); `e`. -/
def curve_curve_cmp : Routine where
  file := "ecc/curve.c"
  name := "curve_cmp"
  first := 375
  last := 393
  code := [
    .fork 1 3, .ret, .goto 9, .fork 4 8, .init 0, .use 0, .clear 0, .ret, .ret, .ret]

/-- `curve_random_no_cofac_solvefory` (`/repo/ecc/curve.c:405-422`); `t`. -/
def curve_curve_random_no_cofac_solvefory : Routine where
  file := "ecc/curve.c"
  name := "curve_random_no_cofac_solvefory"
  first := 405
  last := 422
  code := [
    .init 0, .use 0, .fork 1 3, .use 0, .clear 0, .ret]

/-- `curve_random_pointmul` (`/repo/ecc/curve.c:430-438`); `x`. -/
def curve_curve_random_pointmul : Routine where
  file := "ecc/curve.c"
  name := "curve_random_pointmul"
  first := 430
  last := 438
  code := [
    .init 0, .use 0, .clear 0, .ret]

/-- `curve_from_hash` (`/repo/ecc/curve.c:455-482`); `t`, `t1`. -/
def curve_curve_from_hash : Routine where
  file := "ecc/curve.c"
  name := "curve_from_hash"
  first := 455
  last := 482
  code := [
    .init 0, .init 1, .use 0, .fork 4 5, .goto 7, .use 0, .goto 2, .use 0, .fork 9 9, .fork 10 10, .clear 0,
    .clear 1, .ret]

/-- `even_curve_is_sqr` (`/repo/ecc/curve.c:641-656`); `z`, `e1`. -/
def curve_even_curve_is_sqr : Routine where
  file := "ecc/curve.c"
  name := "even_curve_is_sqr"
  first := 641
  last := 656
  code := [
    .init 0, .init 1, .use 0, .use 1, .clear 0, .clear 1, .ret, .ret]

/-- `point_from_x` (`/repo/ecc/curve.c:778-791`); `t`. -/
def curve_point_from_x : Routine where
  file := "ecc/curve.c"
  name := "point_from_x"
  first := 778
  last := 791
  code := [
    .init 0, .use 0, .clear 0, .ret]

/-- `field_init_curve_ab_map` (`/repo/ecc/curve.c:867-882`); `a`, `b`. -/
def curve_field_init_curve_ab_map : Routine where
  file := "ecc/curve.c"
  name := "field_init_curve_ab_map"
  first := 867
  last := 882
  code := [
    .init 0, .init 1, .use 0, .use 1, .clear 0, .clear 1, .ret]

/-- `field_init_curve_j` (`/repo/ecc/curve.c:912-930`); `a`, `b`. -/
def curve_field_init_curve_j : Routine where
  file := "ecc/curve.c"
  name := "field_init_curve_j"
  first := 912
  last := 930
  code := [
    .init 0, .init 1, .use 0, .use 1, .clear 0, .clear 1, .ret]

/-- `field_init_curve_b` (`/repo/ecc/curve.c:932-938`); `a`. -/
def curve_field_init_curve_b : Routine where
  file := "ecc/curve.c"
  name := "field_init_curve_b"
  first := 932
  last := 938
  code := [
    .init 0, .use 0, .clear 0, .ret]

/-- `pbc_mpz_trace_n` (`/repo/ecc/curve.c:942-965`); `c0`, `c1`, `c2`, `t0`. -/
def curve_pbc_mpz_trace_n : Routine where
  file := "ecc/curve.c"
  name := "pbc_mpz_trace_n"
  first := 942
  last := 965
  code := [
    .init 0, .init 1, .init 2, .init 3, .use 2, .use 1, .fork 7 12, .use 0, .use 1, .use 3, .use 2, .goto 6,
    .use 1, .clear 3, .clear 2, .clear 1, .clear 0, .ret]

/-- `pbc_mpz_curve_order_extn` (`/repo/ecc/curve.c:968-980`); `z`, `tk`. -/
def curve_pbc_mpz_curve_order_extn : Routine where
  file := "ecc/curve.c"
  name := "pbc_mpz_curve_order_extn"
  first := 968
  last := 980
  code := [
    .init 0, .init 1, .use 0, .use 1, .clear 0, .clear 1, .ret]

/-- `cc_miller_no_denom_proj` (`/repo/ecc/d_param.c:116-318`); `v`, `Z`, `a`, `b`, `c`, `t0`, `t1`, `e0`, `z`, `z2`. -/
def d_param_cc_miller_no_denom_proj : Routine where
  file := "ecc/d_param.c"
  name := "cc_miller_no_denom_proj"
  first := 116
  last := 318
  code := [
    .init 2, .use 2, .init 3, .init 4, .init 5, .init 6, .init 7, .init 8, .init 9, .use 8, .use 9, .init 0,
    .init 1, .use 1, .use 0, .use 2, .use 9, .use 3, .use 5, .use 8, .use 4, .use 7, .use 0, .fork 24 25, .goto 43,
    .use 5, .use 6, .use 9, .use 8, .use 2, .use 3, .fork 32 41, .use 5, .use 8, .use 6, .use 9, .use 2, .use 3,
    .use 4, .use 7, .use 0, .use 0, .goto 15, .use 0, .clear 0, .clear 1, .clear 2, .clear 3, .clear 4, .clear 5,
    .clear 6, .clear 7, .clear 8, .clear 9, .ret]

/-- `cc_miller_no_denom_affine` (`/repo/ecc/d_param.c:321-422`); `v`, `Z`, `a`, `b`, `c`, `t0`, `e0`. -/
def d_param_cc_miller_no_denom_affine : Routine where
  file := "ecc/d_param.c"
  name := "cc_miller_no_denom_affine"
  first := 321
  last := 422
  code := [
    .init 2, .use 2, .init 3, .init 4, .init 5, .init 6, .init 0, .init 1, .use 1, .use 0, .use 2, .use 3, .use 5,
    .use 4, .use 6, .use 0, .fork 17 18, .goto 29, .use 1, .fork 20 27, .use 3, .use 2, .use 5, .use 4, .use 6,
    .use 0, .use 1, .use 0, .goto 10, .use 0, .clear 0, .clear 1, .clear 2, .clear 3, .clear 4, .clear 5, .clear 6,
    .ret]

/-- `lucas_even` (`/repo/ecc/d_param.c:441-502`); `temp`. -/
def d_param_lucas_even : Routine where
  file := "ecc/d_param.c"
  name := "lucas_even"
  first := 441
  last := 502
  code := [
    .fork 1 2, .ret, .init 0, .use 0, .fork 5 6, .goto 9, .fork 7 8, .goto 8, .goto 4, .clear 0, .ret]

/-- `cc_tatepower` (`/repo/ecc/d_param.c:505-564`); `e0`, `e2`, `e3`. -/
def d_param_cc_tatepower : Routine where
  file := "ecc/d_param.c"
  name := "cc_tatepower"
  first := 505
  last := 564
  code := [
    .fork 1 23, .init 0, .init 1, .init 2, .use 0, .use 1, .fork 7 9, .use 1, .goto 10, .use 1, .use 2, .use 0,
    .use 1, .fork 14 16, .use 1, .goto 17, .use 1, .use 0, .use 2, .clear 0, .clear 1, .clear 2, .goto 23, .ret]

/-- `cc_pairing` (`/repo/ecc/d_param.c:570-587`); `Qx`, `Qy`. -/
def d_param_cc_pairing : Routine where
  file := "ecc/d_param.c"
  name := "cc_pairing"
  first := 570
  last := 587
  code := [
    .init 0, .init 1, .use 0, .use 1, .clear 0, .clear 1, .ret]

/-- `cc_millers_no_denom_affine` (`/repo/ecc/d_param.c:591-707`); `v`, `a`, `b`, `c`, `t0`, `e0`, `Z`. -/
def d_param_cc_millers_no_denom_affine : Routine where
  file := "ecc/d_param.c"
  name := "cc_millers_no_denom_affine"
  first := 591
  last := 707
  code := [
    .init 6, .init 1, .use 1, .init 2, .init 3, .init 4, .init 5, .init 0, .fork 9 11, .use 6, .goto 8, .use 0,
    .fork 13 21, .use 6, .use 1, .use 2, .use 4, .use 3, .use 5, .use 0, .goto 12, .fork 22 23, .goto 37, .use 6,
    .fork 25 35, .fork 26 34, .use 6, .use 2, .use 1, .use 4, .use 3, .use 5, .use 0, .goto 25, .use 6, .use 0,
    .goto 12, .use 0, .clear 0, .fork 40 42, .use 6, .goto 39, .clear 6, .clear 1, .clear 2, .clear 3, .clear 4,
    .clear 5, .ret]

/-- `cc_pairings_affine` (`/repo/ecc/d_param.c:710-736`); `Qx`, `Qy`. -/
def d_param_cc_pairings_affine : Routine where
  file := "ecc/d_param.c"
  name := "cc_pairings_affine"
  first := 710
  last := 736
  code := [
    .init 0, .init 1, .fork 3 6, .use 0, .use 1, .goto 2, .use 0, .use 1, .fork 9 12, .use 0, .use 1, .goto 8,
    .clear 0, .clear 1, .ret]

/-- `cc_is_almost_coddh` (`/repo/ecc/d_param.c:739-784`); `t0`, `t1`, `t2`, `cx`, `cy`, `dx`, `dy`. -/
def d_param_cc_is_almost_coddh : Routine where
  file := "ecc/d_param.c"
  name := "cc_is_almost_coddh"
  first := 739
  last := 784
  code := [
    .init 3, .init 4, .init 5, .init 6, .init 0, .init 1, .init 2, .use 3, .use 5, .use 4, .use 6, .use 0, .use 1,
    .use 2, .fork 15 16, .goto 20, .use 1, .use 2, .use 0, .fork 20 20, .clear 3, .clear 4, .clear 5, .clear 6,
    .clear 0, .clear 1, .clear 2, .ret, .ret]

/-- `d_pairing_pp_init` (`/repo/ecc/d_param.c:794-902`); `Z`, `t0`, `a`, `b`, `c`. -/
def d_param_d_pairing_pp_init : Routine where
  file := "ecc/d_param.c"
  name := "d_pairing_pp_init"
  first := 794
  last := 902
  code := [
    .init 0, .use 0, .init 1, .init 2, .init 3, .init 4, .use 2, .use 1, .use 3, .use 4, .fork 11 12, .goto 20,
    .use 0, .fork 14 19, .use 3, .use 2, .use 1, .use 4, .use 0, .goto 6, .clear 1, .clear 2, .clear 3, .clear 4,
    .clear 0, .ret]

/-- `d_pairing_pp_apply` (`/repo/ecc/d_param.c:921-966`); `e0`, `Qx`, `Qy`, `v`. -/
def d_param_d_pairing_pp_apply : Routine where
  file := "ecc/d_param.c"
  name := "d_pairing_pp_apply"
  first := 921
  last := 966
  code := [
    .init 0, .init 3, .init 1, .init 2, .use 1, .use 2, .use 0, .use 1, .use 2, .fork 10 11, .goto 16, .fork 12 15,
    .use 0, .use 1, .use 2, .goto 6, .clear 0, .clear 1, .clear 2, .clear 3, .ret]

/-- `d_init_pairing` (`/repo/ecc/d_param.c:993-1095`); `a`, `b`, `irred`, `ndonr`. -/
def d_param_d_init_pairing : Routine where
  file := "ecc/d_param.c"
  name := "d_init_pairing"
  first := 993
  last := 1095
  code := [
    .fork 1 2, .halt, .init 0, .init 1, .use 0, .use 1, .init 2, .use 2, .fork 9 11, .use 2, .goto 8, .use 2,
    .clear 2, .fork 14 15, .goto 15, .init 3, .use 3, .clear 3, .clear 0, .clear 1, .ret]

/-- `compute_cm_curve` (`/repo/ecc/d_param.c:1100-1174`); `hp`, `root`, `fp`, `fpx`, `cc`, `P`, `z`. -/
def d_param_compute_cm_curve : Routine where
  file := "ecc/d_param.c"
  name := "compute_cm_curve"
  first := 1100
  last := 1174
  code := [
    .init 2, .use 2, .init 3, .use 3, .init 0, .use 0, .fork 7 9, .use 0, .goto 6, .use 2, .init 1, .use 1, .use 0,
    .clear 0, .clear 3, .init 4, .clear 1, .use 4, .init 5, .use 5, .fork 21 22, .use 4, .clear 5, .use 4, .init 6,
    .use 6, .clear 6, .clear 4, .clear 2, .ret]

/-- `pbc_param_init_d_gen` (`/repo/ecc/d_param.c:1227-1265`); `Fq`, `Fqx`, `Fqd`, `irred`, `nqr`. -/
def d_param_pbc_param_init_d_gen : Routine where
  file := "ecc/d_param.c"
  name := "pbc_param_init_d_gen"
  first := 1227
  last := 1265
  code := [
    .init 0, .use 0, .init 1, .use 1, .init 3, .use 3, .fork 5 7, .use 3, .init 2, .use 2, .init 4, .use 4,
    .fork 11 13, .fork 14 16, .use 3, .goto 13, .use 4, .clear 4, .clear 3, .clear 1, .clear 2, .clear 0, .ret]

/-- `e_miller_proj` (`/repo/ecc/e_param.c:64-300`); `v`, `vd`, `v1`, `vd1`, `Z`, `Z1`, `a`, `b`, `c`, `e0`, `e1`, `z`, `z2`. -/
def e_param_e_miller_proj : Routine where
  file := "ecc/e_param.c"
  name := "e_miller_proj"
  first := 64
  last := 300
  code := [
    .init 6, .init 7, .init 8, .init 9, .init 10, .init 11, .init 12, .use 11, .use 12, .init 0, .init 1, .init 2,
    .init 3, .init 4, .init 5, .use 4, .use 0, .use 1, .use 2, .use 3, .fork 21 31, .use 0, .use 1, .use 6,
    .use 12, .use 7, .use 9, .use 11, .use 8, .use 10, .goto 20, .use 11, .use 9, .use 12, .fork 35 44, .use 2,
    .use 1, .use 3, .use 0, .use 9, .use 12, .use 5, .use 4, .goto 50, .use 2, .use 0, .use 3, .use 1, .use 5,
    .use 4, .fork 51 61, .use 0, .use 1, .use 6, .use 12, .use 7, .use 9, .use 11, .use 8, .use 10, .goto 50,
    .use 11, .use 9, .use 12, .use 0, .use 2, .use 1, .use 3, .use 4, .use 5, .use 7, .use 6, .use 8, .use 10,
    .fork 75 79, .use 9, .use 12, .use 0, .use 1, .use 1, .use 0, .clear 0, .clear 1, .clear 2, .clear 3,
    .clear 11, .clear 12, .clear 4, .clear 5, .clear 6, .clear 7, .clear 8, .clear 9, .clear 10, .ret]

/-- `e_miller_affine` (`/repo/ecc/e_param.c:302-466`); `v`, `vd`, `v1`, `vd1`, `Z`, `Z1`, `a`, `b`, `c`, `e0`, `e1`. -/
def e_param_e_miller_affine : Routine where
  file := "ecc/e_param.c"
  name := "e_miller_affine"
  first := 302
  last := 466
  code := [
    .init 6, .init 7, .init 8, .init 9, .init 10, .init 0, .init 1, .init 2, .init 3, .init 4, .init 5, .use 4,
    .use 0, .use 1, .use 2, .use 3, .fork 17 26, .use 0, .use 1, .use 6, .use 7, .use 9, .use 8, .use 10, .use 4,
    .goto 16, .fork 27 35, .use 2, .use 1, .use 3, .use 0, .use 9, .use 5, .use 4, .goto 41, .use 2, .use 0,
    .use 3, .use 1, .use 5, .use 4, .fork 42 51, .use 0, .use 1, .use 6, .use 7, .use 9, .use 8, .use 10, .use 4,
    .goto 41, .use 0, .use 2, .use 1, .use 3, .use 4, .use 5, .use 7, .use 6, .use 8, .use 9, .use 10, .fork 63 66,
    .use 9, .use 0, .use 1, .use 1, .use 0, .clear 0, .clear 1, .clear 2, .clear 3, .clear 4, .clear 5, .clear 6,
    .clear 7, .clear 8, .clear 9, .clear 10, .ret]

/-- `e_pairing` (`/repo/ecc/e_param.c:472-482`); `QR`. -/
def e_param_e_pairing : Routine where
  file := "ecc/e_param.c"
  name := "e_pairing"
  first := 472
  last := 482
  code := [
    .init 0, .use 0, .clear 0, .ret]

/-- `e_pairing_ellnet` (`/repo/ecc/e_param.c:486-792`); `cm3`, `cm2`, `cm1`, `c0`, `c1`, `c2`, `c3`, `c4`, `dm1`, `d0`, `d1`, `A`, `B`, `C`, `sm2`, `sm1`, `s0`, `s1`, `s2`, `s3`, `tm2`, `tm1`, `t0`, `t1`, `t2`, `t3`, `e0`, `e1`, `u`, `v`. -/
def e_param_e_pairing_ellnet : Routine where
  file := "ecc/e_param.c"
  name := "e_pairing_ellnet"
  first := 486
  last := 792
  code := [
    .init 0, .init 1, .init 2, .init 3, .init 4, .init 5, .init 6, .init 7, .init 13, .init 8, .init 9, .init 10,
    .init 11, .init 12, .use 4, .use 0, .use 1, .use 13, .use 2, .use 7, .use 5, .use 3, .use 6, .use 11, .use 10,
    .use 12, .use 8, .use 9, .init 14, .init 15, .init 16, .init 17, .init 18, .init 19, .init 20, .init 21,
    .init 22, .init 23, .init 24, .init 25, .init 26, .init 27, .init 28, .init 29, .use 14, .use 1, .use 15,
    .use 2, .use 16, .use 3, .use 17, .use 4, .use 18, .use 5, .use 19, .use 6, .use 20, .use 0, .use 21, .use 22,
    .use 23, .use 24, .use 25, .use 7, .use 28, .use 9, .use 29, .use 8, .use 10, .fork 70 101, .use 26, .use 22,
    .use 14, .use 27, .use 20, .use 16, .use 0, .use 13, .use 15, .use 21, .use 1, .use 23, .use 17, .use 2,
    .use 3, .use 24, .use 18, .use 4, .use 5, .use 25, .use 19, .use 6, .use 7, .use 28, .use 8, .use 29, .use 9,
    .use 11, .use 10, .use 12, .goto 130, .use 26, .use 21, .use 14, .use 27, .use 20, .use 15, .use 0, .use 22,
    .use 16, .use 1, .use 13, .use 2, .use 23, .use 17, .use 3, .use 4, .use 24, .use 18, .use 5, .use 6, .use 25,
    .use 19, .use 7, .use 28, .use 8, .use 29, .use 9, .use 10, .use 11, .fork 131 132, .goto 133, .goto 44,
    .use 4, .use 10, .clear 8, .clear 9, .clear 10, .clear 0, .clear 1, .clear 2, .clear 3, .clear 4, .clear 5,
    .clear 6, .clear 7, .clear 14, .clear 15, .clear 16, .clear 17, .clear 18, .clear 19, .clear 20, .clear 21,
    .clear 22, .clear 23, .clear 24, .clear 25, .clear 26, .clear 27, .clear 11, .clear 12, .clear 13, .clear 28,
    .clear 29, .ret]

/-- `e_init_pairing` (`/repo/ecc/e_param.c:832-872`); `a`, `b`. -/
def e_param_e_init_pairing : Routine where
  file := "ecc/e_param.c"
  name := "e_init_pairing"
  first := 832
  last := 872
  code := [
    .init 0, .init 1, .use 0, .use 1, .clear 0, .clear 1, .ret]

/-- `pbc_param_init_e_gen` (`/repo/ecc/e_param.c:908-1007`); `n`, `Fq`, `cc`, `j`, `P`. -/
def e_param_pbc_param_init_e_gen : Routine where
  file := "ecc/e_param.c"
  name := "pbc_param_init_e_gen"
  first := 908
  last := 1007
  code := [
    .fork 1 1, .init 0, .fork 3 4, .goto 4, .fork 5 6, .goto 6, .fork 7 8, .goto 8, .fork 9 10, .goto 15,
    .fork 11 15, .use 0, .fork 13 14, .goto 15, .goto 10, .fork 2 16, .init 1, .use 1, .init 3, .use 3, .use 0,
    .init 2, .clear 3, .use 2, .init 4, .use 4, .fork 27 28, .use 2, .clear 4, .use 2, .clear 0, .ret]

/-- `point_random` (`/repo/ecc/eta_T_3.c:89-118`); `t`, `t2`, `e1`. -/
def eta_T_3_point_random : Routine where
  file := "ecc/eta_T_3.c"
  name := "point_random"
  first := 89
  last := 118
  code := [
    .init 0, .init 2, .use 2, .init 1, .fork 5 6, .goto 9, .use 0, .use 2, .use 1, .use 1, .use 0, .fork 4 12,
    .clear 0, .clear 1, .clear 2, .ret]

/-- `point_add` (`/repo/ecc/eta_T_3.c:120-177`); `v0`, `v1`, `v2`, `v3`, `v4`, `ny2`. -/
def eta_T_3_point_add : Routine where
  file := "ecc/eta_T_3.c"
  name := "point_add"
  first := 120
  last := 177
  code := [
    .fork 1 2, .ret, .fork 3 4, .ret, .init 0, .init 1, .init 2, .init 3, .init 4, .init 5, .fork 11 19, .use 5,
    .fork 13 14, .goto 24, .fork 15 19, .use 0, .use 1, .use 2, .goto 24, .use 0, .use 1, .use 2, .use 3, .use 4,
    .clear 0, .clear 1, .clear 2, .clear 3, .clear 4, .clear 5, .ret]

/-- `algorithm4a` (`/repo/ecc/eta_T_3.c:225-258`); `e1`, `c0`, `c1`, `m0`, `v0`, `v2`. -/
def eta_T_3_algorithm4a : Routine where
  file := "ecc/eta_T_3.c"
  name := "algorithm4a"
  first := 225
  last := 258
  code := [
    .init 0, .init 1, .init 2, .init 3, .init 4, .init 5, .use 0, .use 1, .use 2, .use 3, .use 4, .use 5, .clear 0,
    .clear 1, .clear 2, .clear 3, .clear 4, .clear 5, .ret]

/-- `algorithm5` (`/repo/ecc/eta_T_3.c:260-376`); `e1`, `xpp`, `ypp`, `xqq`, `yqq`, `t`, `nt`, `nt2`, `v1`, `v2`, `a1`, `a2`, `R`, `u`, `nu`, `S`, `S2`, `nyp`, `nyq`. -/
def eta_T_3_algorithm5 : Routine where
  file := "ecc/eta_T_3.c"
  name := "algorithm5"
  first := 260
  last := 376
  code := [
    .init 0, .init 1, .init 2, .init 3, .init 4, .init 5, .init 6, .init 7, .init 8, .init 9, .init 10, .init 11,
    .init 12, .init 13, .init 14, .init 15, .init 16, .use 0, .use 1, .use 2, .fork 21 21, .use 3, .use 4, .use 5,
    .use 6, .use 7, .use 9, .use 8, .fork 29 38, .init 17, .init 18, .use 17, .use 18, .use 10, .use 8, .clear 17,
    .clear 18, .goto 40, .use 8, .use 10, .use 11, .use 7, .use 9, .use 6, .use 0, .use 12, .use 10, .fork 48 58,
    .use 12, .use 0, .use 5, .use 13, .use 14, .use 15, .use 6, .use 7, .use 16, .goto 47, .use 12, .clear 0,
    .clear 1, .clear 2, .clear 3, .clear 4, .clear 5, .clear 6, .clear 7, .clear 8, .clear 9, .clear 10, .clear 11,
    .clear 12, .clear 13, .clear 14, .clear 15, .clear 16, .ret]

/-- `algorithm4` (`/repo/ecc/eta_T_3.c:380-479`); `e1`, `xpp`, `ypp`, `xqq`, `yqq`, `t`, `nt`, `nt2`, `v1`, `v2`, `a1`, `a2`, `R`, `u`, `S`, `nyp`, `nyq`. -/
def eta_T_3_algorithm4 : Routine where
  file := "ecc/eta_T_3.c"
  name := "algorithm4"
  first := 380
  last := 479
  code := [
    .init 0, .init 1, .init 2, .init 3, .init 4, .init 5, .init 6, .init 7, .init 8, .init 9, .init 10, .init 11,
    .init 12, .init 13, .init 14, .use 0, .use 1, .use 2, .fork 19 19, .use 3, .use 4, .use 5, .use 6, .use 7,
    .use 9, .use 8, .fork 27 36, .init 15, .init 16, .use 15, .use 16, .use 10, .use 8, .clear 15, .clear 16,
    .goto 38, .use 8, .use 10, .use 11, .use 7, .use 9, .use 6, .use 0, .use 12, .use 10, .fork 46 54, .use 12,
    .use 0, .use 5, .use 6, .use 7, .use 13, .use 14, .goto 45, .use 12, .clear 0, .clear 1, .clear 2, .clear 3,
    .clear 4, .clear 5, .clear 6, .clear 7, .clear 8, .clear 9, .clear 10, .clear 11, .clear 12, .clear 13,
    .clear 14, .ret]

/-- `algorithm6` (`/repo/ecc/eta_T_3.c:483-527`); `f3`, `v0`, `v1`, `m0`, `m1`, `m2`, `a0`, `a1`, `i`. -/
def eta_T_3_algorithm6 : Routine where
  file := "ecc/eta_T_3.c"
  name := "algorithm6"
  first := 483
  last := 527
  code := [
    .init 0, .use 0, .init 1, .init 2, .init 3, .init 4, .init 5, .init 6, .init 7, .init 8, .use 1, .use 2,
    .use 3, .use 4, .use 5, .use 6, .use 7, .use 8, .clear 1, .clear 2, .clear 3, .clear 4, .clear 5, .clear 6,
    .clear 7, .clear 8, .clear 0, .ret]

/-- `algorithm7` (`/repo/ecc/eta_T_3.c:531-636`); `a0`, `a1`, `a2`, `a3`, `a4`, `a5`, `a6`, `m0`, `m1`, `m2`, `m3`, `m4`, `m5`, `m6`, `m7`, `m8`, `v0`, `v1`, `v2`, `v3`, `v4`, `v5`, `e1`. -/
def eta_T_3_algorithm7 : Routine where
  file := "ecc/eta_T_3.c"
  name := "algorithm7"
  first := 531
  last := 636
  code := [
    .init 0, .init 1, .init 2, .init 3, .init 4, .init 5, .init 6, .init 7, .init 8, .init 9, .init 10, .init 11,
    .init 12, .init 13, .init 14, .init 15, .init 16, .init 17, .init 18, .init 19, .init 20, .init 21, .init 22,
    .use 22, .use 0, .use 1, .use 2, .use 7, .use 8, .use 9, .use 10, .use 11, .use 12, .use 13, .use 14, .use 15,
    .use 3, .use 4, .use 5, .use 6, .fork 41 58, .use 16, .use 7, .use 8, .use 4, .use 22, .use 17, .use 12,
    .use 13, .use 6, .use 18, .use 3, .use 19, .use 15, .use 5, .use 20, .use 21, .goto 74, .use 16, .use 7,
    .use 8, .use 4, .use 22, .use 17, .use 13, .use 12, .use 6, .use 18, .use 3, .use 19, .use 15, .use 5, .use 20,
    .use 21, .use 16, .use 17, .use 18, .use 19, .use 20, .use 21, .clear 0, .clear 1, .clear 2, .clear 3,
    .clear 4, .clear 5, .clear 6, .clear 7, .clear 8, .clear 9, .clear 10, .clear 11, .clear 12, .clear 13,
    .clear 14, .clear 15, .clear 16, .clear 17, .clear 18, .clear 19, .clear 20, .clear 21, .clear 22, .ret]

/-- `algorithm8` (`/repo/ecc/eta_T_3.c:640-665`); `v`, `w`. -/
def eta_T_3_algorithm8 : Routine where
  file := "ecc/eta_T_3.c"
  name := "algorithm8"
  first := 640
  last := 665
  code := [
    .init 0, .init 1, .use 0, .use 1, .fork 5 7, .use 1, .goto 4, .use 0, .fork 9 10, .use 1, .use 0, .use 1,
    .clear 0, .clear 1, .ret]

/-- `GT_random` (`/repo/ecc/eta_T_3.c:689-698`); `a`, `b`. -/
def eta_T_3_GT_random : Routine where
  file := "ecc/eta_T_3.c"
  name := "GT_random"
  first := 689
  last := 698
  code := [
    .init 0, .init 1, .use 0, .use 1, .clear 0, .clear 1, .ret]

/-- `cc_miller_no_denom` (`/repo/ecc/f_param.c:97-248`); `v`, `Z`, `a`, `b`, `c`, `t0`, `e0`, `e1`. -/
def f_param_cc_miller_no_denom : Routine where
  file := "ecc/f_param.c"
  name := "cc_miller_no_denom"
  first := 97
  last := 248
  code := [
    .init 2, .use 2, .init 3, .init 4, .init 5, .init 6, .init 7, .init 0, .init 1, .use 1, .use 0, .use 2, .use 3,
    .use 5, .use 4, .use 6, .use 7, .use 0, .fork 19 20, .use 7, .use 7, .use 2, .use 0, .use 3, .fork 25 25,
    .use 7, .use 0, .use 4, .use 6, .fork 30 31, .use 7, .use 7, .use 2, .use 0, .use 3, .fork 36 36, .use 7,
    .use 0, .use 4, .use 6, .fork 41 42, .use 7, .use 7, .use 2, .use 0, .use 3, .fork 47 47, .use 7, .use 0,
    .use 4, .use 6, .fork 52 53, .use 7, .use 7, .use 2, .use 0, .use 3, .fork 58 58, .use 7, .use 0, .use 4,
    .use 6, .fork 63 64, .use 7, .use 7, .use 2, .use 0, .use 3, .fork 69 69, .use 7, .use 0, .use 4, .use 6,
    .fork 74 75, .use 7, .use 7, .use 2, .use 0, .use 3, .fork 80 80, .use 7, .use 0, .use 4, .use 6, .fork 85 86,
    .goto 164, .use 1, .fork 88 162, .use 3, .use 2, .use 5, .use 4, .use 6, .use 7, .use 0, .fork 96 97, .use 7,
    .use 7, .use 2, .use 0, .use 3, .fork 102 102, .use 7, .use 0, .use 4, .use 6, .fork 107 108, .use 7, .use 7,
    .use 2, .use 0, .use 3, .fork 113 113, .use 7, .use 0, .use 4, .use 6, .fork 118 119, .use 7, .use 7, .use 2,
    .use 0, .use 3, .fork 124 124, .use 7, .use 0, .use 4, .use 6, .fork 129 130, .use 7, .use 7, .use 2, .use 0,
    .use 3, .fork 135 135, .use 7, .use 0, .use 4, .use 6, .fork 140 141, .use 7, .use 7, .use 2, .use 0, .use 3,
    .fork 146 146, .use 7, .use 0, .use 4, .use 6, .fork 151 152, .use 7, .use 7, .use 2, .use 0, .use 3,
    .fork 157 157, .use 7, .use 0, .use 4, .use 6, .use 1, .use 0, .goto 11, .use 0, .clear 0, .clear 1, .clear 2,
    .clear 3, .clear 4, .clear 5, .clear 6, .clear 7, .ret]

/-- `f_tateexp` (`/repo/ecc/f_param.c:250-283`); `x`, `y`, `epow`. -/
def f_param_f_tateexp : Routine where
  file := "ecc/f_param.c"
  name := "f_tateexp"
  first := 250
  last := 283
  code := [
    .init 0, .init 1, .init 2, .use 1, .use 2, .use 0, .clear 2, .clear 0, .clear 1, .ret]

/-- `f_pairing` (`/repo/ecc/f_param.c:289-311`); `x`, `y`. -/
def f_param_f_pairing : Routine where
  file := "ecc/f_param.c"
  name := "f_pairing"
  first := 289
  last := 311
  code := [
    .init 0, .init 1, .use 0, .use 1, .clear 0, .clear 1, .ret]

/-- `f_init_pairing` (`/repo/ecc/f_param.c:335-447`); `irred`, `e0`, `e1`, `e2`, `ndonr`, `xpowq`. -/
def f_param_f_init_pairing : Routine where
  file := "ecc/f_param.c"
  name := "f_init_pairing"
  first := 335
  last := 447
  code := [
    .init 0, .use 0, .clear 0, .init 1, .init 2, .init 3, .use 2, .use 1, .use 3, .clear 1, .init 1, .use 1,
    .clear 1, .clear 2, .clear 3, .init 4, .use 4, .clear 4, .init 5, .use 5, .clear 5, .ret]

/-- `pbc_param_init_f_gen` (`/repo/ecc/f_param.c:481-600`); `x`, `t`, `Fq`, `Fq2`, `Fq2x`, `e1`, `f`, `c`, `P`, `ctest`, `Ptest`, `z0`, `z1`. -/
def f_param_pbc_param_init_f_gen : Routine where
  file := "ecc/f_param.c"
  name := "pbc_param_init_f_gen"
  first := 481
  last := 600
  code := [
    .init 0, .init 1, .use 0, .use 1, .use 0, .fork 6 7, .goto 13, .use 0, .use 1, .fork 10 11, .goto 13, .use 0,
    .goto 3, .init 2, .use 2, .init 5, .use 5, .init 7, .use 7, .init 8, .use 8, .fork 22 23, .goto 26, .clear 8,
    .clear 7, .goto 16, .use 5, .clear 5, .use 2, .init 3, .use 3, .init 4, .use 4, .init 6, .use 6, .use 6,
    .fork 37 38, .goto 39, .goto 35, .init 11, .init 12, .use 3, .init 5, .use 5, .use 6, .init 9, .use 9,
    .init 10, .use 10, .use 11, .use 12, .use 1, .fork 53 55, .use 11, .use 6, .clear 5, .clear 10, .clear 9,
    .clear 11, .clear 12, .use 6, .clear 6, .clear 4, .clear 3, .clear 2, .clear 1, .clear 0, .ret]

/-- `cc_miller_no_denom_proj` (`/repo/ecc/g_param.c:104-306`); `v`, `Z`, `a`, `b`, `c`, `t0`, `t1`, `e0`, `z`, `z2`. -/
def g_param_cc_miller_no_denom_proj : Routine where
  file := "ecc/g_param.c"
  name := "cc_miller_no_denom_proj"
  first := 104
  last := 306
  code := [
    .init 2, .use 2, .init 3, .init 4, .init 5, .init 6, .init 7, .init 8, .init 9, .use 8, .use 9, .init 0,
    .init 1, .use 1, .use 0, .use 2, .use 9, .use 3, .use 5, .use 8, .use 4, .use 7, .use 0, .fork 24 25, .goto 43,
    .use 5, .use 6, .use 9, .use 8, .use 2, .use 3, .fork 32 41, .use 5, .use 8, .use 6, .use 9, .use 2, .use 3,
    .use 4, .use 7, .use 0, .use 0, .goto 15, .use 0, .clear 0, .clear 1, .clear 2, .clear 3, .clear 4, .clear 5,
    .clear 6, .clear 7, .clear 8, .clear 9, .ret]

/-- `cc_miller_no_denom_affine` (`/repo/ecc/g_param.c:308-408`); `v`, `Z`, `a`, `b`, `c`, `t0`, `e0`. -/
def g_param_cc_miller_no_denom_affine : Routine where
  file := "ecc/g_param.c"
  name := "cc_miller_no_denom_affine"
  first := 308
  last := 408
  code := [
    .init 2, .use 2, .init 3, .init 4, .init 5, .init 6, .init 0, .init 1, .use 1, .use 0, .use 2, .use 3, .use 5,
    .use 4, .use 6, .use 0, .fork 17 18, .goto 29, .use 1, .fork 20 27, .use 3, .use 2, .use 5, .use 4, .use 6,
    .use 0, .use 1, .use 0, .goto 10, .use 0, .clear 0, .clear 1, .clear 2, .clear 3, .clear 4, .clear 5, .clear 6,
    .ret]

/-- `lucas_even` (`/repo/ecc/g_param.c:413-469`); `temp`. -/
def g_param_lucas_even : Routine where
  file := "ecc/g_param.c"
  name := "lucas_even"
  first := 413
  last := 469
  code := [
    .init 0, .use 0, .fork 3 4, .goto 7, .fork 5 6, .goto 6, .goto 2, .clear 0, .ret]

/-- `tatepower10` (`/repo/ecc/g_param.c:471-536`); `e0`, `e1`, `e2`, `e3`. -/
def g_param_tatepower10 : Routine where
  file := "ecc/g_param.c"
  name := "tatepower10"
  first := 471
  last := 536
  code := [
    .init 0, .init 1, .init 2, .init 3, .use 0, .use 2, .fork 7 9, .use 2, .goto 10, .use 2, .use 3, .use 0,
    .use 2, .fork 14 16, .use 2, .goto 17, .use 2, .use 0, .use 3, .clear 0, .clear 1, .clear 2, .clear 3, .ret]

/-- `cc_pairing` (`/repo/ecc/g_param.c:541-558`); `Qx`, `Qy`. -/
def g_param_cc_pairing : Routine where
  file := "ecc/g_param.c"
  name := "cc_pairing"
  first := 541
  last := 558
  code := [
    .init 0, .init 1, .use 0, .use 1, .clear 0, .clear 1, .ret]

/-- `cc_is_almost_coddh` (`/repo/ecc/g_param.c:560-609`); `t0`, `t1`, `t2`, `cx`, `cy`, `dx`, `dy`. -/
def g_param_cc_is_almost_coddh : Routine where
  file := "ecc/g_param.c"
  name := "cc_is_almost_coddh"
  first := 560
  last := 609
  code := [
    .init 3, .init 4, .init 5, .init 6, .init 0, .init 1, .init 2, .use 3, .use 5, .use 4, .use 6, .use 0, .use 1,
    .use 2, .fork 15 16, .goto 20, .use 1, .use 2, .use 0, .fork 20 20, .clear 3, .clear 4, .clear 5, .clear 6,
    .clear 0, .clear 1, .clear 2, .ret, .ret]

/-- `g_pairing_pp_init` (`/repo/ecc/g_param.c:619-722`); `Z`, `t0`, `a`, `b`, `c`. -/
def g_param_g_pairing_pp_init : Routine where
  file := "ecc/g_param.c"
  name := "g_pairing_pp_init"
  first := 619
  last := 722
  code := [
    .init 0, .use 0, .init 1, .init 2, .init 3, .init 4, .use 2, .use 1, .use 3, .use 4, .fork 11 12, .goto 20,
    .use 0, .fork 14 19, .use 3, .use 2, .use 1, .use 4, .use 0, .goto 6, .clear 1, .clear 2, .clear 3, .clear 4,
    .clear 0, .ret]

/-- `g_pairing_pp_apply` (`/repo/ecc/g_param.c:741-785`); `e0`, `Qx`, `Qy`, `v`. -/
def g_param_g_pairing_pp_apply : Routine where
  file := "ecc/g_param.c"
  name := "g_pairing_pp_apply"
  first := 741
  last := 785
  code := [
    .init 0, .init 3, .init 1, .init 2, .use 1, .use 2, .use 0, .use 1, .use 2, .fork 10 11, .goto 16, .fork 12 15,
    .use 0, .use 1, .use 2, .goto 6, .clear 0, .clear 1, .clear 2, .clear 3, .ret]

/-- `g_pairing_ellnet` (`/repo/ecc/g_param.c:789-1124`); `cm3`, `cm2`, `cm1`, `c0`, `c1`, `c2`, `c3`, `c4`, `dm1`, `d0`, `d1`, `A`, `B`, `C`, `sm2`, `sm1`, `s0`, `s1`, `s2`, `s3`, `tm2`, `tm1`, `t0`, `t1`, `t2`, `t3`, `e0`, `e1`, `u`, `v`. -/
def g_param_g_pairing_ellnet : Routine where
  file := "ecc/g_param.c"
  name := "g_pairing_ellnet"
  first := 789
  last := 1124
  code := [
    .init 0, .init 1, .init 2, .init 3, .init 4, .init 5, .init 6, .init 7, .init 13, .init 8, .init 9, .init 10,
    .init 11, .init 12, .use 4, .use 0, .use 1, .use 13, .use 2, .use 7, .use 5, .use 3, .use 6, .use 9, .use 11,
    .use 8, .use 10, .use 12, .init 14, .init 15, .init 16, .init 17, .init 18, .init 19, .init 20, .init 21,
    .init 22, .init 23, .init 24, .init 25, .init 26, .init 27, .init 28, .init 29, .use 14, .use 1, .use 15,
    .use 2, .use 16, .use 3, .use 17, .use 4, .use 18, .use 5, .use 19, .use 6, .use 20, .use 0, .use 21, .use 22,
    .use 23, .use 24, .use 25, .use 7, .use 28, .use 9, .use 29, .use 8, .use 10, .fork 70 101, .use 26, .use 22,
    .use 14, .use 27, .use 20, .use 16, .use 0, .use 13, .use 15, .use 21, .use 1, .use 23, .use 17, .use 2,
    .use 3, .use 24, .use 18, .use 4, .use 5, .use 25, .use 19, .use 6, .use 7, .use 28, .use 8, .use 29, .use 9,
    .use 11, .use 10, .use 12, .goto 130, .use 26, .use 21, .use 14, .use 27, .use 20, .use 15, .use 0, .use 22,
    .use 16, .use 1, .use 13, .use 2, .use 23, .use 17, .use 3, .use 4, .use 24, .use 18, .use 5, .use 6, .use 25,
    .use 19, .use 7, .use 28, .use 8, .use 29, .use 9, .use 10, .use 11, .fork 131 132, .goto 133, .goto 44,
    .use 10, .clear 8, .clear 9, .clear 10, .clear 0, .clear 1, .clear 2, .clear 3, .clear 4, .clear 5, .clear 6,
    .clear 7, .clear 14, .clear 15, .clear 16, .clear 17, .clear 18, .clear 19, .clear 20, .clear 21, .clear 22,
    .clear 23, .clear 24, .clear 25, .clear 26, .clear 27, .clear 11, .clear 12, .clear 13, .clear 28, .clear 29,
    .ret]

/-- `g_finalpow` (`/repo/ecc/g_param.c:1162-1168`); `t0`. -/
def g_param_g_finalpow : Routine where
  file := "ecc/g_param.c"
  name := "g_finalpow"
  first := 1162
  last := 1168
  code := [
    .init 0, .use 0, .clear 0, .ret]

/-- `compute_cm_curve` (`/repo/ecc/g_param.c:1173-1246`); `hp`, `root`, `fp`, `fpx`, `cc`, `P`, `z`. -/
def g_param_compute_cm_curve : Routine where
  file := "ecc/g_param.c"
  name := "compute_cm_curve"
  first := 1173
  last := 1246
  code := [
    .init 2, .use 2, .init 3, .use 3, .init 0, .use 0, .fork 7 9, .use 0, .goto 6, .use 2, .init 1, .use 1, .use 0,
    .clear 0, .clear 3, .init 4, .clear 1, .use 4, .init 5, .use 5, .fork 21 22, .use 4, .clear 5, .use 4, .init 6,
    .use 6, .clear 6, .clear 4, .clear 2, .ret]

/-- `g_init_pairing` (`/repo/ecc/g_param.c:1248-1354`); `a`, `b`, `irred`, `z0`, `ndonr`. -/
def g_param_g_init_pairing : Routine where
  file := "ecc/g_param.c"
  name := "g_init_pairing"
  first := 1248
  last := 1354
  code := [
    .init 0, .init 1, .use 0, .use 1, .init 2, .use 2, .fork 7 9, .use 2, .goto 6, .use 2, .clear 2, .init 3,
    .use 3, .clear 3, .init 4, .use 4, .clear 4, .clear 0, .clear 1, .ret]

/-- `pbc_param_init_g_gen` (`/repo/ecc/g_param.c:1404-1441`); `Fq`, `Fqx`, `Fqd`, `irred`, `nqr`. -/
def g_param_pbc_param_init_g_gen : Routine where
  file := "ecc/g_param.c"
  name := "pbc_param_init_g_gen"
  first := 1404
  last := 1441
  code := [
    .init 0, .use 0, .init 1, .use 1, .init 3, .use 3, .fork 5 7, .use 3, .init 2, .use 2, .init 4, .use 4,
    .fork 11 13, .fork 14 16, .use 3, .goto 13, .use 4, .clear 4, .clear 3, .clear 1, .clear 2, .clear 0, .ret]

/-- `mpf_exp` (`/repo/ecc/hilbert.c:18-43`); `a`, `f0`. -/
def hilbert_mpf_exp : Routine where
  file := "ecc/hilbert.c"
  name := "mpf_exp"
  first := 18
  last := 43
  code := [
    .init 0, .use 0, .init 1, .use 1, .use 1, .use 0, .fork 7 11, .use 1, .fork 9 10, .goto 16, .goto 14, .use 1,
    .fork 13 14, .goto 16, .use 1, .goto 4, .clear 1, .clear 0, .ret]

/-- `mpc_cis` (`/repo/ecc/hilbert.c:45-93`); `a`, `f0`. -/
def hilbert_mpc_cis : Routine where
  file := "ecc/hilbert.c"
  name := "mpc_cis"
  first := 45
  last := 93
  code := [
    .init 0, .use 0, .init 1, .use 1, .use 1, .use 0, .fork 7 9, .use 1, .goto 10, .use 1, .use 1, .use 0,
    .fork 13 15, .use 1, .goto 16, .use 1, .use 1, .fork 18 22, .use 1, .fork 20 21, .goto 26, .goto 25, .use 1,
    .fork 24 25, .goto 26, .goto 4, .clear 1, .clear 0, .ret]

/-- `compute_q` (`/repo/ecc/hilbert.c:96-141`); `z0`, `f0`, `f1`. -/
def hilbert_compute_q : Routine where
  file := "ecc/hilbert.c"
  name := "compute_q"
  first := 96
  last := 141
  code := [
    .init 0, .init 1, .init 2, .use 0, .use 2, .use 1, .clear 0, .clear 1, .clear 2, .ret]

/-- `compute_Delta` (`/repo/ecc/hilbert.c:144-177`); `z0`, `z1`, `z2`. -/
def hilbert_compute_Delta : Routine where
  file := "ecc/hilbert.c"
  name := "compute_Delta"
  first := 144
  last := 177
  code := [
    .init 0, .init 1, .init 2, .use 0, .fork 5 14, .use 1, .use 2, .fork 8 11, .use 0, .use 1, .goto 13, .use 0,
    .use 1, .goto 4, .use 0, .clear 0, .clear 1, .clear 2, .ret]

/-- `compute_h` (`/repo/ecc/hilbert.c:181-194`); `z0`, `z1`, `q`. -/
def hilbert_compute_h : Routine where
  file := "ecc/hilbert.c"
  name := "compute_h"
  first := 181
  last := 194
  code := [
    .init 2, .init 0, .init 1, .use 2, .use 0, .use 1, .clear 2, .clear 0, .clear 1, .ret]

/-- `compute_j` (`/repo/ecc/hilbert.c:197-210`); `h`, `z0`. -/
def hilbert_compute_j : Routine where
  file := "ecc/hilbert.c"
  name := "compute_j"
  first := 197
  last := 210
  code := [
    .init 0, .init 1, .use 0, .use 1, .clear 1, .clear 0, .ret]

/-- `compute_pi` (`/repo/ecc/hilbert.c:212-290`); `k1`, `k2`, `k4`, `k5`, `d`, `z0`, `z1`, `z2`, `f1`. -/
def hilbert_compute_pi : Routine where
  file := "ecc/hilbert.c"
  name := "compute_pi"
  first := 212
  last := 290
  code := [
    .init 0, .init 1, .init 2, .init 3, .init 4, .init 5, .init 6, .init 7, .init 8, .use 0, .use 1, .use 2,
    .use 3, .use 4, .fork 15 24, .use 5, .use 6, .use 0, .use 1, .use 7, .use 4, .fork 22 23, .goto 23, .goto 14,
    .use 8, .clear 0, .clear 1, .clear 2, .clear 3, .clear 4, .clear 5, .clear 6, .clear 7, .clear 8, .ret]

/-- `precision_init` (`/repo/ecc/hilbert.c:292-322`); `f0`. -/
def hilbert_precision_init : Routine where
  file := "ecc/hilbert.c"
  name := "precision_init"
  first := 292
  last := 322
  code := [
    .init 0, .use 0, .use 0, .fork 4 5, .goto 7, .use 0, .goto 2, .clear 0, .ret]

/-- `pbc_hilbert` (`/repo/ecc/hilbert.c:333-532`); `alpha`, `j`, `sqrtD`, `f0`, `Pz`, `z0`, `z1`, `z2`. -/
def hilbert_pbc_hilbert : Routine where
  file := "ecc/hilbert.c"
  name := "pbc_hilbert"
  first := 333
  last := 532
  code := [
    .fork 1 2, .goto 5, .fork 3 5, .fork 4 5, .goto 5, .fork 6 8, .goto 2, .goto 10, .fork 9 10, .goto 11, .goto 0,
    .init 4, .init 0, .init 1, .init 5, .init 6, .init 7, .init 2, .init 3, .use 2, .fork 21 22, .goto 22,
    .fork 23 26, .fork 24 25, .goto 22, .goto 74, .use 3, .use 0, .use 2, .use 1, .fork 31 35, .use 4, .fork 33 35,
    .use 4, .goto 32, .fork 36 49, .use 1, .use 4, .fork 39 47, .use 6, .use 4, .fork 42 46, .use 5, .use 6,
    .use 4, .goto 41, .use 6, .use 4, .goto 73, .use 3, .use 1, .use 4, .fork 53 54, .goto 72, .fork 55 58, .use 6,
    .use 4, .goto 72, .use 7, .use 4, .use 6, .use 5, .fork 63 69, .use 5, .use 6, .use 0, .use 7, .use 4,
    .goto 62, .use 5, .use 7, .use 6, .use 4, .goto 23, .fork 75 76, .goto 77, .goto 20, .use 4, .fork 79 87,
    .use 4, .fork 81 83, .use 3, .goto 84, .use 3, .use 3, .use 4, .goto 78, .clear 4, .clear 5, .clear 6,
    .clear 7, .clear 3, .clear 2, .clear 0, .clear 1, .ret, .ret]

/-- `general_pell` (`/repo/ecc/mnt.c:31-171`); `listf`, `a0`, `twice_a0`, `a1`, `P0`, `P1`, `Q0`, `Q1`, `p0`, `p1`, `pnext`, `q0`, `q1`, `qnext`, `listp`, `listq`. -/
def mnt_general_pell : Routine where
  file := "ecc/mnt.c"
  name := "general_pell"
  first := 31
  last := 171
  code := [
    .init 0, .fork 2 3, .goto 6, .fork 4 5, .use 0, .goto 1, .init 1, .init 2, .init 3, .init 4, .init 5, .init 6,
    .init 7, .init 8, .init 9, .init 10, .init 11, .init 12, .init 13, .init 14, .init 15, .use 1, .use 4, .use 6,
    .use 5, .use 7, .use 3, .use 2, .use 8, .use 11, .use 9, .use 12, .fork 33 43, .use 0, .fork 35 43, .use 0,
    .use 7, .fork 38 42, .use 8, .use 14, .use 11, .use 15, .goto 33, .use 2, .use 3, .fork 46 47, .goto 60,
    .use 4, .use 5, .use 3, .use 7, .use 6, .use 1, .use 10, .use 9, .use 8, .use 13, .use 12, .use 11, .goto 32,
    .clear 0, .use 8, .use 11, .use 14, .fork 65 69, .fork 66 69, .use 14, .use 15, .goto 65, .clear 1, .clear 2,
    .clear 3, .clear 4, .clear 5, .clear 6, .clear 7, .clear 8, .clear 9, .clear 10, .clear 11, .clear 12,
    .clear 13, .use 14, .use 15, .clear 14, .clear 15, .ret]

/-- `mnt_step2` (`/repo/ecc/mnt.c:202-286`); `n`, `l`, `q`, `p`, `r`, `cofac`, `cm`. -/
def mnt_mnt_step2 : Routine where
  file := "ecc/mnt.c"
  name := "mnt_step2"
  first := 202
  last := 286
  code := [
    .init 1, .use 1, .fork 3 5, .use 1, .goto 11, .use 1, .fork 7 9, .use 1, .goto 11, .clear 1, .ret, .use 1,
    .init 2, .use 2, .fork 15 18, .clear 2, .clear 1, .ret, .init 0, .fork 20 24, .use 0, .use 2, .use 1, .goto 27,
    .use 0, .use 2, .use 1, .init 3, .init 4, .init 5, .use 5, .use 4, .use 0, .use 3, .fork 35 55, .use 4, .use 3,
    .fork 38 42, .use 5, .use 3, .use 4, .fork 38 42, .use 4, .fork 44 45, .goto 55, .use 3, .fork 47 54, .clear 4,
    .clear 3, .clear 5, .clear 2, .clear 1, .clear 0, .ret, .goto 35, .init 6, .use 6, .use 2, .use 4, .use 5,
    .use 0, .clear 6, .clear 5, .clear 4, .clear 3, .clear 2, .clear 1, .clear 0, .ret, .ret]

/-- `pbc_cm_search_d` (`/repo/ecc/mnt.c:288-343`); `D3`, `t0`, `t1`, `t2`, `ps`. -/
def mnt_pbc_cm_search_d : Routine where
  file := "ecc/mnt.c"
  name := "pbc_cm_search_d"
  first := 288
  last := 343
  code := [
    .init 0, .use 0, .fork 3 5, .clear 0, .ret, .init 1, .init 2, .init 3, .use 0, .init 4, .use 4, .fork 12 28,
    .fork 13 27, .use 4, .fork 15 16, .goto 28, .use 1, .use 4, .use 2, .use 0, .fork 21 22, .goto 28, .use 3,
    .use 4, .use 2, .use 1, .goto 12, .goto 12, .clear 4, .clear 1, .clear 2, .clear 3, .clear 0, .ret, .ret]

/-- `freeman_step2` (`/repo/ecc/mnt.c:345-442`); `n`, `x`, `q`, `p`, `r`, `cofac`, `cm`. -/
def mnt_freeman_step2 : Routine where
  file := "ecc/mnt.c"
  name := "freeman_step2"
  first := 345
  last := 442
  code := [
    .init 1, .use 1, .fork 3 5, .use 1, .goto 12, .use 1, .fork 7 9, .use 1, .goto 12, .halt, .clear 1, .ret,
    .use 1, .init 2, .init 4, .use 4, .use 2, .fork 18 22, .clear 2, .clear 4, .clear 1, .ret, .init 0, .use 0,
    .use 1, .use 4, .use 2, .init 3, .init 5, .use 5, .use 3, .fork 32 52, .use 4, .use 3, .fork 35 39, .use 5,
    .use 3, .use 4, .fork 35 39, .use 4, .fork 41 42, .goto 52, .use 3, .fork 44 51, .clear 4, .clear 3, .clear 5,
    .clear 2, .clear 1, .clear 0, .ret, .goto 32, .init 6, .use 6, .use 2, .use 4, .use 5, .use 0, .clear 6,
    .clear 5, .clear 4, .clear 3, .clear 2, .clear 1, .clear 0, .ret, .ret]

/-- `pbc_cm_search_g` (`/repo/ecc/mnt.c:444-496`); `D15`, `t0`, `t1`, `t2`, `ps`. -/
def mnt_pbc_cm_search_g : Routine where
  file := "ecc/mnt.c"
  name := "pbc_cm_search_g"
  first := 444
  last := 496
  code := [
    .init 0, .use 0, .fork 3 5, .clear 0, .ret, .init 1, .init 2, .init 3, .use 0, .init 4, .use 4, .fork 12 28,
    .fork 13 27, .use 4, .fork 15 16, .goto 28, .use 1, .use 4, .use 2, .use 0, .fork 21 22, .goto 28, .use 3,
    .use 4, .use 2, .use 1, .goto 12, .goto 12, .clear 4, .clear 1, .clear 2, .clear 3, .clear 0, .ret, .ret]

/-- `mpc_mul` (`/repo/ecc/mpc.c:7-24`); `ac`, `bd`, `f0`. -/
def mpc_mpc_mul : Routine where
  file := "ecc/mpc.c"
  name := "mpc_mul"
  first := 7
  last := 24
  code := [
    .init 0, .init 1, .init 2, .use 0, .use 1, .use 2, .clear 2, .clear 0, .clear 1, .ret]

/-- `mpc_sqr` (`/repo/ecc/mpc.c:33-46`); `f0`, `f1`. -/
def mpc_mpc_sqr : Routine where
  file := "ecc/mpc.c"
  name := "mpc_sqr"
  first := 33
  last := 46
  code := [
    .init 0, .init 1, .use 0, .use 1, .clear 0, .clear 1, .ret]

/-- `mpc_inv` (`/repo/ecc/mpc.c:50-64`); `f0`, `f1`. -/
def mpc_mpc_inv : Routine where
  file := "ecc/mpc.c"
  name := "mpc_inv"
  first := 50
  last := 64
  code := [
    .init 0, .init 1, .use 0, .use 1, .clear 0, .clear 1, .ret]

/-- `mpc_div` (`/repo/ecc/mpc.c:66-73`); `c0`. -/
def mpc_mpc_div : Routine where
  file := "ecc/mpc.c"
  name := "mpc_div"
  first := 66
  last := 73
  code := [
    .init 0, .use 0, .clear 0, .ret]

/-- `mpc_pow_ui` (`/repo/ecc/mpc.c:90-111`); `z0`. -/
def mpc_mpc_pow_ui : Routine where
  file := "ecc/mpc.c"
  name := "mpc_pow_ui"
  first := 90
  last := 111
  code := [
    .init 0, .fork 2 3, .goto 1, .use 0, .fork 5 9, .use 0, .fork 7 8, .use 0, .goto 4, .use 0, .clear 0, .ret]

/-- `mpc_muli` (`/repo/ecc/mpc.c:113-122`); `f0`. -/
def mpc_mpc_muli : Routine where
  file := "ecc/mpc.c"
  name := "mpc_muli"
  first := 113
  last := 122
  code := [
    .init 0, .use 0, .clear 0, .ret]

/-- `generic_is_almost_coddh` (`/repo/ecc/pairing.c:15-33`); `t0`, `t1`. -/
def pairing_generic_is_almost_coddh : Routine where
  file := "ecc/pairing.c"
  name := "generic_is_almost_coddh"
  first := 15
  last := 33
  code := [
    .init 0, .init 1, .use 0, .use 1, .fork 5 6, .goto 9, .use 0, .use 1, .fork 9 9, .clear 0, .clear 1, .ret, .ret]

/-- `generic_prod_pairings` (`/repo/ecc/pairing.c:35-46`); `tmp`. -/
def pairing_generic_prod_pairings : Routine where
  file := "ecc/pairing.c"
  name := "generic_prod_pairings"
  first := 35
  last := 46
  code := [
    .init 0, .fork 2 4, .use 0, .goto 1, .clear 0, .ret]

/-- `pairing_init_set_buf` (`/repo/ecc/pairing.c:88-98`); `par`. -/
def pairing_pairing_init_set_buf : Routine where
  file := "ecc/pairing.c"
  name := "pairing_init_set_buf"
  first := 88
  last := 98
  code := [
    .init 0, .fork 2 3, .ret, .use 0, .clear 0, .ret, .ret]

/-- `read_symtab` (`/repo/ecc/param.c:94-111`); `tok`. -/
def param_read_symtab : Routine where
  file := "ecc/param.c"
  name := "read_symtab"
  first := 94
  last := 111
  code := [
    .init 0, .use 0, .fork 3 4, .goto 9, .use 0, .fork 6 7, .goto 9, .use 0, .goto 1, .clear 0, .ret]

/-- `param_out_int` (`/repo/ecc/param.c:125-132`); `z`. -/
def param_param_out_int : Routine where
  file := "ecc/param.c"
  name := "param_out_int"
  first := 125
  last := 132
  code := [
    .init 0, .use 0, .clear 0, .ret]

/-- `lookup_int` (`/repo/ecc/param.c:152-166`); `z`. -/
def param_lookup_int : Routine where
  file := "ecc/param.c"
  name := "lookup_int"
  first := 152
  last := 166
  code := [
    .fork 1 2, .ret, .init 0, .use 0, .clear 0, .ret, .ret]

/-- `pbc_param_init_set_str` (`/repo/ecc/param.c:202-210`); `tab`. -/
def param_pbc_param_init_set_str : Routine where
  file := "ecc/param.c"
  name := "pbc_param_init_set_str"
  first := 202
  last := 210
  code := [
    .init 0, .use 0, .clear 0, .ret, .ret]

/-- `pbc_param_init_set_buf` (`/repo/ecc/param.c:212-220`); `tab`. -/
def param_pbc_param_init_set_buf : Routine where
  file := "ecc/param.c"
  name := "pbc_param_init_set_buf"
  first := 212
  last := 220
  code := [
    .init 0, .use 0, .clear 0, .ret, .ret]

/-- `sn_random` (`/repo/ecc/singular.c:50-66`); `t`. -/
def singular_sn_random : Routine where
  file := "ecc/singular.c"
  name := "sn_random"
  first := 50
  last := 66
  code := [
    .init 0, .fork 2 3, .goto 4, .use 0, .use 0, .fork 1 6, .use 0, .clear 0, .ret]

/-- `sn_double_no_check` (`/repo/ecc/singular.c:68-103`); `lambda`, `e0`, `e1`. -/
def singular_sn_double_no_check : Routine where
  file := "ecc/singular.c"
  name := "sn_double_no_check"
  first := 68
  last := 103
  code := [
    .init 0, .init 1, .init 2, .use 0, .use 1, .use 2, .clear 0, .clear 1, .clear 2, .ret, .ret]

/-- `sn_add` (`/repo/ecc/singular.c:130-186`); `lambda`, `e0`, `e1`. -/
def singular_sn_add : Routine where
  file := "ecc/singular.c"
  name := "sn_add"
  first := 130
  last := 186
  code := [
    .fork 1 2, .ret, .fork 3 4, .ret, .fork 5 12, .fork 6 10, .fork 7 9, .ret, .goto 10, .ret, .ret, .goto 21,
    .init 0, .init 1, .init 2, .use 1, .use 0, .use 2, .clear 0, .clear 1, .clear 2, .ret]

/-- `field_init_curve_singular_with_node` (`/repo/ecc/singular.c:278-302`); `defaultField`. -/
def singular_field_init_curve_singular_with_node : Routine where
  file := "ecc/singular.c"
  name := "field_init_curve_singular_with_node"
  first := 278
  last := 302
  code := [
    .init 0, .use 0, .clear 0, .ret]

/-- `sn_miller` (`/repo/ecc/singular.c:305-412`); `v`, `vd`, `Z`, `a`, `b`, `c`, `e0`, `e1`. -/
def singular_sn_miller : Routine where
  file := "ecc/singular.c"
  name := "sn_miller"
  first := 305
  last := 412
  code := [
    .init 3, .init 4, .init 5, .init 6, .init 7, .init 0, .init 1, .init 2, .use 2, .use 0, .use 1, .use 0, .use 1,
    .use 6, .use 3, .use 4, .use 5, .use 7, .use 2, .fork 20 28, .use 4, .use 3, .use 6, .use 5, .use 7, .use 0,
    .use 2, .use 1, .fork 29 30, .goto 31, .goto 11, .use 1, .use 0, .clear 0, .clear 1, .clear 2, .clear 3,
    .clear 4, .clear 5, .clear 6, .clear 7, .ret]

/-- `sn_pairing` (`/repo/ecc/singular.c:420-438`); `e0`, `R`, `QR`. -/
def singular_sn_pairing : Routine where
  file := "ecc/singular.c"
  name := "sn_pairing"
  first := 420
  last := 438
  code := [
    .init 1, .init 2, .use 1, .init 0, .use 2, .use 0, .clear 1, .clear 2, .ret]

/-- The routines of this file that clear all their temporaries. -/
def tidyEcc : List Routine := [
    a_param_a_pairing_pp_init, a_param_a_pairing_pp_apply, a_param_a_pairing_ellnet,
    a_param_a_pairing_ellnet_pp_init, a_param_a_pairing_ellnet_pp_apply, a_param_a_pairing_proj,
    a_param_a_pairing_affine, a_param_a_pairings_affine, a_param_a_finalpow, a_param_a_init_pairing,
    a_param_a1_pairing_pp_init, a_param_a1_pairing_pp_apply, a_param_a1_pairing_proj, a_param_a1_pairing,
    a_param_a1_pairings_affine, a_param_a1_init_pairing, a_param_pbc_param_init_a1_gen, curve_curve_is_valid_point,
    curve_double_no_check, curve_curve_mul, curve_multi_double, curve_multi_add, curve_curve_cmp,
    curve_curve_random_no_cofac_solvefory, curve_curve_random_pointmul, curve_curve_from_hash,
    curve_even_curve_is_sqr, curve_point_from_x, curve_field_init_curve_ab_map, curve_field_init_curve_j,
    curve_field_init_curve_b, curve_pbc_mpz_trace_n, curve_pbc_mpz_curve_order_extn,
    d_param_cc_miller_no_denom_proj, d_param_cc_miller_no_denom_affine, d_param_lucas_even, d_param_cc_tatepower,
    d_param_cc_pairing, d_param_cc_millers_no_denom_affine, d_param_cc_pairings_affine, d_param_cc_is_almost_coddh,
    d_param_d_pairing_pp_init, d_param_d_pairing_pp_apply, d_param_d_init_pairing, d_param_compute_cm_curve,
    d_param_pbc_param_init_d_gen, e_param_e_miller_proj, e_param_e_miller_affine, e_param_e_pairing,
    e_param_e_pairing_ellnet, e_param_e_init_pairing, eta_T_3_point_random, eta_T_3_point_add, eta_T_3_algorithm4a,
    eta_T_3_algorithm5, eta_T_3_algorithm4, eta_T_3_algorithm6, eta_T_3_algorithm7, eta_T_3_algorithm8,
    eta_T_3_GT_random, f_param_cc_miller_no_denom, f_param_f_tateexp, f_param_f_pairing, f_param_f_init_pairing,
    g_param_cc_miller_no_denom_proj, g_param_cc_miller_no_denom_affine, g_param_lucas_even, g_param_tatepower10,
    g_param_cc_pairing, g_param_cc_is_almost_coddh, g_param_g_pairing_pp_init, g_param_g_pairing_pp_apply,
    g_param_g_pairing_ellnet, g_param_g_finalpow, g_param_compute_cm_curve, g_param_g_init_pairing,
    g_param_pbc_param_init_g_gen, hilbert_mpf_exp, hilbert_mpc_cis, hilbert_compute_q, hilbert_compute_Delta,
    hilbert_compute_h, hilbert_compute_j, hilbert_compute_pi, hilbert_precision_init, hilbert_pbc_hilbert,
    mnt_general_pell, mnt_mnt_step2, mnt_pbc_cm_search_d, mnt_freeman_step2, mnt_pbc_cm_search_g, mpc_mpc_mul,
    mpc_mpc_sqr, mpc_mpc_inv, mpc_mpc_div, mpc_mpc_pow_ui, mpc_mpc_muli, pairing_generic_is_almost_coddh,
    pairing_generic_prod_pairings, param_read_symtab, param_param_out_int, param_lookup_int,
    param_pbc_param_init_set_str, param_pbc_param_init_set_buf, singular_sn_random, singular_sn_double_no_check,
    singular_sn_add, singular_field_init_curve_singular_with_node, singular_sn_miller]

/-- The others. -/
def untidyEcc : List Routine := [e_param_pbc_param_init_e_gen, f_param_pbc_param_init_f_gen, pairing_pairing_init_set_buf, singular_sn_pairing]

end Pbc.Life
