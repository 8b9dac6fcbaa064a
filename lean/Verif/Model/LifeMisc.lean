import Verif.Model.Life

/-!
# The temporaries of the routines of `/repo/misc`, `/repo/gen`, `/repo/example`, `/repo/pbc/pbc.c` and the inline routines of `/repo/include`

One definition per routine with local variables that are initialised: integers (`mpz_t`), floating point numbers, elements, fields,
arrays, symbol tables, parameters, pairings, preprocessed data, and blocks that the routine gets from `pbc_malloc` and
frees.  The comment names the variables in order of their numbers.  Left out: arrays of such variables, parts of structures, parameters of the
routine, `mpz_t` headers that are pointed at existing limbs; a second mention of a variable without a jump in between.
Macros defined in the file are expanded.  A routine that initialises and can report failure
(`pbc_param_init_set_buf`) is taken to have initialised.
-/

set_option autoImplicit false

namespace Pbc.Life

/-- `main` (`/repo/gen/gena1param.c:3-27`); `p`, `q`, `N`, `param`. -/
def gena1param_main : Routine where
  file := "gen/gena1param.c"
  name := "main"
  first := 3
  last := 27
  code := [
    .init 0, .init 1, .init 2, .use 0, .use 1, .use 2, .init 3, .use 3, .clear 3, .clear 0, .clear 1, .clear 2,
    .ret, .ret]

/-- `main` (`/repo/gen/genaparam.c:12-21`); `par`. -/
def genaparam_main : Routine where
  file := "gen/genaparam.c"
  name := "main"
  first := 12
  last := 21
  code := [
    .init 0, .use 0, .clear 0, .ret, .ret]

/-- `generate` (`/repo/gen/gendparam.c:7-16`); `param`. -/
def gendparam_generate : Routine where
  file := "gen/gendparam.c"
  name := "generate"
  first := 7
  last := 16
  code := [
    .init 0, .use 0, .clear 0, .ret, .ret]

/-- `main` (`/repo/gen/geneparam.c:12-21`); `par`. -/
def geneparam_main : Routine where
  file := "gen/geneparam.c"
  name := "main"
  first := 12
  last := 21
  code := [
    .init 0, .use 0, .clear 0, .ret, .ret]

/-- `main` (`/repo/gen/genfparam.c:10-24`); `fp`. -/
def genfparam_main : Routine where
  file := "gen/genfparam.c"
  name := "main"
  first := 10
  last := 24
  code := [
    .fork 1 3, .fork 2 3, .halt, .init 0, .use 0, .clear 0, .ret, .ret]

/-- `generate` (`/repo/gen/gengparam.c:4-14`); `param`. -/
def gengparam_generate : Routine where
  file := "gen/gengparam.c"
  name := "generate"
  first := 4
  last := 14
  code := [
    .init 0, .use 0, .clear 0, .ret, .ret]

/-- `main` (`/repo/example/bls.c:9-133`); `pairing`, `g`, `h`, `public_key`, `sig`, `secret_key`, `temp1`, `temp2`, `data`, `data`. -/
def bls_main : Routine where
  file := "example/bls.c"
  name := "main"
  first := 9
  last := 133
  code := [
    .init 0, .use 0, .init 1, .init 3, .init 2, .init 4, .init 6, .init 7, .init 5, .use 1, .use 5, .use 3, .use 2,
    .use 4, .init 8, .use 8, .fork 17 19, .use 8, .goto 16, .use 4, .use 8, .clear 8, .use 6, .use 1, .use 7,
    .use 2, .use 3, .fork 28 29, .goto 29, .use 0, .init 9, .use 9, .use 4, .fork 34 36, .use 9, .goto 33, .use 4,
    .use 9, .use 6, .use 1, .use 7, .fork 42 43, .goto 47, .use 6, .use 7, .fork 46 47, .goto 47, .clear 9, .use 4,
    .use 6, .use 1, .use 7, .fork 53 54, .goto 54, .clear 4, .clear 3, .clear 5, .clear 1, .clear 2, .clear 6,
    .clear 7, .clear 0, .ret, .ret]

/-- `main` (`/repo/example/hess.c:10-109`); `pairing`, `Qid`, `P`, `P1`, `Ppub`, `s`, `k`, `Did`, `r`, `v`, `u`, `t1`, `t3`, `t4`, `t5`, `t6`, `t7`, `t8`, `t2`. -/
def hess_main : Routine where
  file := "example/hess.c"
  name := "main"
  first := 10
  last := 109
  code := [
    .init 0, .use 0, .fork 3 4, .halt, .init 18, .use 0, .init 2, .init 3, .init 1, .init 7, .init 4, .init 13,
    .init 14, .init 10, .init 5, .init 6, .init 9, .init 12, .init 17, .init 8, .init 11, .init 15, .init 16,
    .use 2, .use 5, .use 1, .use 4, .use 7, .use 3, .use 6, .use 11, .use 8, .use 18, .use 12, .use 9, .use 13,
    .use 14, .use 10, .use 15, .use 16, .use 17, .fork 42 43, .goto 43, .clear 2, .clear 3, .clear 1, .clear 7,
    .clear 4, .clear 13, .clear 14, .clear 10, .clear 5, .clear 6, .clear 9, .clear 12, .clear 17, .clear 8,
    .clear 11, .clear 15, .clear 16, .clear 0, .ret, .ret]

/-- `main` (`/repo/example/joux.c:10-80`); `pairing`, `P`, `a`, `b`, `c`, `Ka`, `Kb`, `Kc`, `t1`, `t2`, `t3`, `t4`, `t5`, `t6`. -/
def joux_main : Routine where
  file := "example/joux.c"
  name := "main"
  first := 10
  last := 80
  code := [
    .init 0, .use 0, .fork 3 4, .halt, .use 0, .init 1, .init 8, .init 9, .init 10, .init 2, .init 3, .init 4,
    .init 11, .init 12, .init 13, .init 5, .init 6, .init 7, .use 1, .use 2, .use 3, .use 4, .use 8, .use 9,
    .use 10, .use 11, .use 5, .use 12, .use 6, .use 13, .use 7, .clear 1, .clear 2, .clear 3, .clear 4, .clear 5,
    .clear 6, .clear 7, .clear 8, .clear 9, .clear 10, .clear 11, .clear 12, .clear 13, .clear 0, .ret, .ret]

/-- `main` (`/repo/example/paterson.c:10-112`); `pairing`, `Ppub`, `s`, `P`, `R`, `k`, `S`, `Did`, `Qid`, `t1`, `t2`, `t3`, `t4`, `t5`, `t6`, `t7`, `t8`, `t9`, `t10`, `t11`. -/
def paterson_main : Routine where
  file := "example/paterson.c"
  name := "main"
  first := 10
  last := 112
  code := [
    .init 0, .use 0, .fork 3 4, .halt, .use 0, .init 3, .init 1, .init 8, .init 7, .init 4, .init 6, .init 10,
    .init 12, .init 13, .init 15, .init 2, .init 5, .init 9, .init 11, .init 14, .init 16, .init 17, .init 18,
    .init 19, .use 3, .use 2, .use 1, .use 8, .use 7, .use 5, .use 4, .use 9, .use 10, .use 11, .use 12, .use 13,
    .use 6, .use 15, .use 14, .use 16, .use 17, .use 18, .use 19, .fork 44 45, .goto 45, .clear 3, .clear 1,
    .clear 8, .clear 7, .clear 4, .clear 10, .clear 12, .clear 13, .clear 2, .clear 5, .clear 9, .clear 14,
    .clear 15, .clear 16, .clear 17, .clear 18, .clear 19, .clear 0, .ret, .ret]

/-- `main` (`/repo/example/yuanli.c:34-165`); `pairing`, `s`, `a`, `b`, `P`, `Ppub`, `Qa`, `Qb`, `Sa`, `Sb`, `Ta`, `Tb`, `Kab`, `Kba`, `K`, `temp1`, `temp2`, `temp3`, `temp4`, `temp5`, `h`. -/
def yuanli_main : Routine where
  file := "example/yuanli.c"
  name := "main"
  first := 34
  last := 165
  code := [
    .init 0, .use 0, .fork 3 4, .halt, .use 0, .init 1, .init 2, .init 3, .init 4, .init 5, .init 6, .init 7,
    .init 8, .init 9, .init 10, .init 11, .init 15, .init 16, .init 17, .init 20, .init 12, .init 13, .init 14,
    .init 18, .init 19, .use 4, .use 1, .use 5, .use 6, .use 7, .use 8, .use 9, .use 2, .use 10, .use 3, .use 11,
    .use 20, .use 15, .use 16, .use 12, .use 13, .use 17, .use 18, .use 14, .use 19, .fork 46 47, .goto 47,
    .clear 14, .clear 12, .clear 13, .clear 20, .clear 15, .clear 16, .clear 17, .clear 18, .clear 19, .clear 1,
    .clear 2, .clear 3, .clear 4, .clear 5, .clear 6, .clear 7, .clear 8, .clear 9, .clear 10, .clear 11, .ret, .ret]

/-- `main` (`/repo/example/zhangkim.c:10-139`); `pairing`, `P`, `Ppub`, `s`, `R`, `Qid`, `Sid`, `a`, `b`, `r`, `c`, `S`, `negc`, `t1`, `t2`, `t3`, `t5`, `t6`, `t7`, `t8`, `t9`, `t10`, `t11`, `t12`, `t14`, `t4`, `t13`. -/
def zhangkim_main : Routine where
  file := "example/zhangkim.c"
  name := "main"
  first := 10
  last := 139
  code := [
    .init 25, .init 26, .init 0, .use 0, .fork 5 6, .halt, .use 0, .init 1, .init 2, .init 5, .init 6, .init 4,
    .init 11, .init 13, .init 14, .init 18, .init 19, .init 20, .init 9, .init 3, .init 10, .init 7, .init 8,
    .init 12, .init 16, .init 17, .init 24, .init 15, .init 21, .init 22, .init 23, .use 1, .use 3, .use 2, .use 5,
    .use 6, .use 9, .use 4, .use 7, .use 8, .use 13, .use 14, .use 15, .use 25, .use 16, .use 17, .use 10, .use 18,
    .use 19, .use 11, .use 20, .use 21, .use 12, .use 22, .use 23, .use 26, .use 24, .fork 58 59, .goto 59,
    .clear 1, .clear 2, .clear 5, .clear 6, .clear 4, .clear 11, .clear 9, .clear 3, .clear 10, .clear 7, .clear 8,
    .clear 12, .clear 13, .clear 14, .clear 15, .clear 16, .clear 17, .clear 24, .clear 18, .clear 19, .clear 20,
    .clear 21, .clear 22, .clear 23, .clear 0, .ret, .ret]

/-- `main` (`/repo/example/zss.c:10-70`); `pairing`, `P`, `Ppub`, `x`, `S`, `H`, `t1`, `t2`, `t3`, `t4`. -/
def zss_main : Routine where
  file := "example/zss.c"
  name := "main"
  first := 10
  last := 70
  code := [
    .init 0, .use 0, .fork 3 4, .halt, .use 0, .init 3, .init 5, .init 6, .init 4, .init 1, .init 2, .init 7,
    .init 8, .init 9, .use 3, .use 1, .use 2, .use 5, .use 6, .use 4, .use 7, .use 8, .use 9, .fork 24 25,
    .goto 25, .clear 1, .clear 2, .clear 3, .clear 4, .clear 5, .clear 6, .clear 7, .clear 8, .clear 9, .clear 0,
    .ret, .ret]

/-- `v_builtin` (`/repo/pbc/pbc.c:133-150`); `arg`. -/
def pbc_v_builtin : Routine where
  file := "pbc/pbc.c"
  name := "v_builtin"
  first := 133
  last := 150
  code := [
    .fork 1 2, .ret, .init 0, .fork 4 8, .use 0, .fork 6 7, .ret, .goto 3, .use 0, .clear 0, .ret, .ret]

/-- `v_field_cast` (`/repo/pbc/pbc.c:176-203`); `z`. -/
def pbc_v_field_cast : Routine where
  file := "pbc/pbc.c"
  name := "v_field_cast"
  first := 176
  last := 203
  code := [
    .fork 1 8, .fork 2 3, .ret, .fork 4 5, .goto 7, .fork 6 7, .goto 7, .ret, .fork 9 12, .init 0, .use 0,
    .clear 0, .ret, .ret]

/-- `run_item` (`/repo/pbc/pbc.c:576-587`); `z`. -/
def pbc_run_item : Routine where
  file := "pbc/pbc.c"
  name := "run_item"
  first := 576
  last := 587
  code := [
    .init 0, .use 0, .clear 0, .ret, .ret]

/-- `run_nextprime` (`/repo/pbc/pbc.c:614-622`); `z`. -/
def pbc_run_nextprime : Routine where
  file := "pbc/pbc.c"
  name := "run_nextprime"
  first := 614
  last := 622
  code := [
    .init 0, .use 0, .ret, .ret]

/-- `run_zmod` (`/repo/pbc/pbc.c:672-681`); `z`. -/
def pbc_run_zmod : Routine where
  file := "pbc/pbc.c"
  name := "run_zmod"
  first := 672
  last := 681
  code := [
    .init 0, .use 0, .clear 0, .ret, .ret]

/-- `run_exit` (`/repo/pbc/pbc.c:720-725`); `z`. -/
def pbc_run_exit : Routine where
  file := "pbc/pbc.c"
  name := "run_exit"
  first := 720
  last := 725
  code := [
    .init 0, .use 0, .halt, .ret]

/-- `element_to_si` (`/repo/include/pbc_field.h:244-251`); `z`. -/
def pbc_field_element_to_si : Routine where
  file := "include/pbc_field.h"
  name := "element_to_si"
  first := 244
  last := 251
  code := [
    .init 0, .use 0, .clear 0, .ret, .ret]

/-- `element_mul_zn` (`/repo/include/pbc_field.h:311-319`); `z0`. -/
def pbc_field_element_mul_zn : Routine where
  file := "include/pbc_field.h"
  name := "element_mul_zn"
  first := 311
  last := 319
  code := [
    .init 0, .use 0, .clear 0, .ret]

/-- `element_pow_zn` (`/repo/include/pbc_field.h:374-381`); `z`. -/
def pbc_field_element_pow_zn : Routine where
  file := "include/pbc_field.h"
  name := "element_pow_zn"
  first := 374
  last := 381
  code := [
    .init 0, .use 0, .clear 0, .ret]

/-- `element_pow2_zn` (`/repo/include/pbc_field.h:496-506`); `z1`, `z2`. -/
def pbc_field_element_pow2_zn : Routine where
  file := "include/pbc_field.h"
  name := "element_pow2_zn"
  first := 496
  last := 506
  code := [
    .init 0, .init 1, .use 0, .use 1, .clear 0, .clear 1, .ret]

/-- `element_pow3_zn` (`/repo/include/pbc_field.h:519-533`); `z1`, `z2`, `z3`. -/
def pbc_field_element_pow3_zn : Routine where
  file := "include/pbc_field.h"
  name := "element_pow3_zn"
  first := 519
  last := 533
  code := [
    .init 0, .init 1, .init 2, .use 0, .use 1, .use 2, .clear 0, .clear 1, .clear 2, .ret]

/-- `element_pp_pow_zn` (`/repo/include/pbc_field.h:616-623`); `z`. -/
def pbc_field_element_pp_pow_zn : Routine where
  file := "include/pbc_field.h"
  name := "element_pp_pow_zn"
  first := 616
  last := 623
  code := [
    .init 0, .use 0, .clear 0, .ret]

/-- The routines of this file that clear all their temporaries. -/
def tidyMisc : List Routine := [
    gena1param_main, genaparam_main, gendparam_generate, geneparam_main, genfparam_main, gengparam_generate,
    bls_main, joux_main, zss_main, pbc_v_field_cast, pbc_run_item, pbc_run_zmod, pbc_run_exit,
    pbc_field_element_to_si, pbc_field_element_mul_zn, pbc_field_element_pow_zn, pbc_field_element_pow2_zn,
    pbc_field_element_pow3_zn, pbc_field_element_pp_pow_zn]

/-- The others. -/
def untidyMisc : List Routine := [hess_main, paterson_main, yuanli_main, zhangkim_main, pbc_v_builtin, pbc_run_nextprime]

end Pbc.Life
