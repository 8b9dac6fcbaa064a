import Verif.Model.LifeEcc
import Verif.Lemmas.Life

/-!
# Certificates for the routines of `Verif/Model/LifeEcc.lean`
-/

set_option autoImplicit false

namespace Pbc.Life

open Spec.Life

theorem a_param_a_pairing_pp_init_ok : Tidy a_param_a_pairing_pp_init.code := check_tidy (ann := [
    some 0, some 1, some 3, some 3, some 3, some 35, some 39, some 47, some 63, some 63, some 63, some 63, some 63,
    some 63, some 63, some 63, some 63, some 63, some 63, some 63, some 63, some 63, some 63, some 63, some 63,
    some 63, some 63, some 63, some 63, some 63, some 63, some 63, some 63, some 31, some 27, some 19, some 3,
    some 2, some 0]) (by decide +kernel)

theorem a_param_a_pairing_pp_apply_ok : Tidy a_param_a_pairing_pp_apply.code := check_tidy (ann := [
    some 0, some 1, some 3, some 3, some 3, some 3, some 3, some 3, some 3, some 3, some 3, some 3, some 3, some 3,
    some 3, some 3, some 3, some 3, some 2, some 0]) (by decide +kernel)

theorem a_param_a_pairing_ellnet_ok : Tidy a_param_a_pairing_ellnet.code := check_tidy (ann := [
    some 0, some 1, some 3, some 7, some 15, some 31, some 63, some 127, some 255, some 8447, some 8703, some 9215,
    some 10239, some 12287, some 16383, some 16383, some 16383, some 16383, some 16383, some 16383, some 16383,
    some 16383, some 16383, some 16383, some 16383, some 16383, some 16383, some 16383, some 16383, some 32767,
    some 65535, some 131071, some 262143, some 524287, some 1048575, some 2097151, some 4194303, some 8388607,
    some 16777215, some 33554431, some 67108863, some 134217727, some 268435455, some 536870911, some 1073741823,
    some 1073741823, some 1073741823, some 1073741823, some 1073741823, some 1073741823, some 1073741823,
    some 1073741823, some 1073741823, some 1073741823, some 1073741823, some 1073741823, some 1073741823,
    some 1073741823, some 1073741823, some 1073741823, some 1073741823, some 1073741823, some 1073741823,
    some 1073741823, some 1073741823, some 1073741823, some 1073741823, some 1073741823, some 1073741823,
    some 1073741823, some 1073741823, some 1073741823, some 1073741823, some 1073741823, some 1073741823,
    some 1073741823, some 1073741823, some 1073741823, some 1073741823, some 1073741823, some 1073741823,
    some 1073741823, some 1073741823, some 1073741823, some 1073741823, some 1073741823, some 1073741823,
    some 1073741823, some 1073741823, some 1073741823, some 1073741823, some 1073741823, some 1073741823,
    some 1073741823, some 1073741823, some 1073741823, some 1073741823, some 1073741823, some 1073741823,
    some 1073741823, some 1073741823, some 1073741823, some 1073741823, some 1073741823, some 1073741823,
    some 1073741823, some 1073741823, some 1073741823, some 1073741823, some 1073741823, some 1073741823,
    some 1073741823, some 1073741823, some 1073741823, some 1073741823, some 1073741823, some 1073741823,
    some 1073741823, some 1073741823, some 1073741823, some 1073741823, some 1073741823, some 1073741823,
    some 1073741823, some 1073741823, some 1073741823, some 1073741823, some 1073741823, some 1073741823,
    some 1073741823, some 1073741823, some 1073741823, some 1073741823, some 1073741823, some 1073741823,
    some 1073741823, some 1073741567, some 1073741055, some 1073740031, some 1073740030, some 1073740028,
    some 1073740024, some 1073740016, some 1073740000, some 1073739968, some 1073739904, some 1073739776,
    some 1073723392, some 1073690624, some 1073625088, some 1073494016, some 1073231872, some 1072707584,
    some 1071659008, some 1069561856, some 1065367552, some 1056978944, some 1040201728, some 1006647296,
    some 939538432, some 805320704, some 805318656, some 805314560, some 805306368, some 536870912, some 0]) (by decide +kernel)

theorem a_param_a_pairing_ellnet_pp_init_ok : Tidy a_param_a_pairing_ellnet_pp_init.code := check_tidy (ann := [
    some 0, some 0, some 0, some 1, some 3, some 7, some 15, some 31, some 63, some 127, some 255, some 511,
    some 511, some 511, some 511, some 511, some 511, some 511, some 511, some 511, some 511, some 1023, some 2047,
    some 4095, some 8191, some 16383, some 32767, some 32767, some 32767, some 32767, some 32767, some 32767,
    some 32767, some 32767, some 32767, some 32767, some 32767, some 32767, some 32767, some 32767, some 32767,
    some 32767, some 32767, some 32767, some 32767, some 32767, some 32767, some 32767, some 32767, some 32767,
    some 32767, some 32767, some 32767, some 32767, some 32767, some 32767, some 32767, some 32767, some 32767,
    some 32767, some 32767, some 32767, some 32767, some 32767, some 32767, some 32767, some 32767, some 32767,
    some 32767, some 32767, some 32767, some 32767, some 32767, some 32767, some 32766, some 32764, some 32760,
    some 32752, some 32736, some 32704, some 32640, some 32512, some 32000, some 30976, some 28928, some 24832,
    some 16640, some 256, some 0]) (by decide +kernel)

theorem a_param_a_pairing_ellnet_pp_apply_ok : Tidy a_param_a_pairing_ellnet_pp_apply.code := check_tidy (ann := [
    some 0, some 1, some 3, some 7, some 15, some 31, some 63, some 127, some 255, some 511, some 511, some 511,
    some 511, some 511, some 511, some 511, some 511, some 511, some 511, some 511, some 511, some 511, some 511,
    some 511, some 511, some 511, some 511, some 511, some 511, some 511, some 511, some 511, some 511, some 511,
    some 511, some 511, some 511, some 511, some 511, some 511, some 511, some 511, some 510, some 508, some 504,
    some 496, some 480, some 448, some 384, some 256, some 0]) (by decide +kernel)

theorem a_param_a_pairing_proj_ok : Tidy a_param_a_pairing_proj.code := check_tidy (ann := [
    some 0, some 1, some 3, some 3, some 3, some 19, some 51, some 115, some 115, some 243, some 499, some 1011,
    some 2035, some 2039, some 2047, some 2047, some 2047, some 2047, some 2047, some 2047, some 2047, some 2047,
    some 2047, some 2047, some 2047, some 2047, some 2047, some 2047, some 2047, some 2047, some 2047, some 2047,
    some 2047, some 2047, some 2047, some 2047, some 2047, some 2047, some 2047, some 2047, some 2047, some 2047,
    some 2047, some 2047, some 2047, some 2047, some 2047, some 2047, some 2047, some 2047, some 2047, some 2047,
    some 2047, some 2047, some 2047, some 2047, some 2047, some 2047, some 2047, some 2031, some 1999, some 1935,
    some 1931, some 1923, some 1922, some 1920, some 1792, some 1536, some 1024, some 0]) (by decide +kernel)

theorem a_param_a_pairing_affine_ok : Tidy a_param_a_pairing_affine.code := check_tidy (ann := [
    some 0, some 1, some 3, some 3, some 3, some 7, some 15, some 31, some 31, some 63, some 127, some 255,
    some 511, some 511, some 511, some 511, some 511, some 511, some 511, some 511, some 511, some 511, some 511,
    some 511, some 511, some 511, some 511, some 511, some 511, some 511, some 511, some 511, some 511, some 511,
    some 511, some 511, some 511, some 511, some 511, some 511, some 511, some 511, some 511, some 511, some 511,
    some 511, some 511, some 511, some 507, some 499, some 483, some 482, some 480, some 448, some 384, some 256,
    some 0]) (by decide +kernel)

theorem a_param_a_pairings_affine_ok : Tidy a_param_a_pairings_affine.code := check_tidy (ann := [
    some 0, some 1, some 3, some 3, some 3, some 3, some 3, some 7, some 15, some 31, some 31, some 63, some 127,
    some 255, some 511, some 511, some 511, some 511, some 511, some 511, some 511, some 511, some 511, some 511,
    some 511, some 511, some 511, some 511, some 511, some 511, some 511, some 511, some 511, some 511, some 511,
    some 511, some 511, some 511, some 511, some 511, some 511, some 511, some 511, some 511, some 511, some 511,
    some 511, some 511, some 511, some 511, some 511, some 511, some 511, some 511, some 511, some 511, some 511,
    some 511, some 511, some 511, some 511, some 511, some 511, some 511, some 511, some 511, some 511, some 511,
    some 511, some 507, some 499, some 483, some 483, some 483, some 483, some 483, some 482, some 480, some 448,
    some 384, some 256, some 0]) (by decide +kernel)

theorem a_param_a_finalpow_ok : Tidy a_param_a_finalpow.code := check_tidy (ann := [
    some 0, some 1, some 3, some 3, some 3, some 2, some 0]) (by decide +kernel)

theorem a_param_a_init_pairing_ok : Tidy a_param_a_init_pairing.code := check_tidy (ann := [
    some 0, some 1, some 3, some 3, some 3, some 2, some 0]) (by decide +kernel)

theorem a_param_a1_pairing_pp_init_ok : Tidy a_param_a1_pairing_pp_init.code := check_tidy (ann := [
    some 0, some 1, some 1, some 3, some 7, some 15, some 143, some 399, some 911, some 927, some 959, some 1023,
    some 1023, some 1023, some 1023, some 1023, some 1023, some 1023, some 1023, some 1023, some 1023, some 1023,
    some 1023, some 1023, some 1023, some 1023, some 1023, some 1023, some 1023, some 1023, some 1023, some 1023,
    some 1023, some 1023, some 1023, some 1023, some 1023, some 1023, some 1007, some 975, some 911, some 399,
    some 143, some 15, some 13, some 9, some 1, some 0]) (by decide +kernel)

theorem a_param_a1_pairing_pp_apply_ok : Tidy a_param_a1_pairing_pp_apply.code := check_tidy (ann := [
    some 0, some 1, some 3, some 3, some 7, some 15, some 31, some 63, some 127, some 127, some 127, some 127,
    some 127, some 127, some 127, some 127, some 127, some 127, some 127, some 127, some 127, some 127, some 127,
    some 127, some 127, some 127, some 127, some 111, some 79, some 15, some 14, some 12, some 4, some 0]) (by decide +kernel)

theorem a_param_a1_pairing_proj_ok : Tidy a_param_a1_pairing_proj.code := check_tidy (ann := [
    some 0, some 1, some 1, some 9, some 25, some 25, some 57, some 121, some 249, some 505, some 507, some 511,
    some 511, some 511, some 511, some 511, some 511, some 511, some 511, some 511, some 511, some 511, some 511,
    some 511, some 511, some 511, some 511, some 511, some 511, some 511, some 511, some 511, some 511, some 511,
    some 511, some 511, some 511, some 511, some 511, some 511, some 511, some 511, some 511, some 503, some 487,
    some 485, some 481, some 480, some 448, some 384, some 256, some 0]) (by decide +kernel)

theorem a_param_a1_pairing_ok : Tidy a_param_a1_pairing.code := check_tidy (ann := [
    some 0, some 1, some 1, some 3, some 7, some 7, some 15, some 31, some 63, some 127, some 127, some 127,
    some 127, some 127, some 127, some 127, some 127, some 127, some 127, some 127, some 127, some 127, some 127,
    some 127, some 127, some 127, some 127, some 127, some 127, some 127, some 127, some 125, some 121, some 120,
    some 112, some 96, some 64, some 0]) (by decide +kernel)

theorem a_param_a1_pairings_affine_ok : Tidy a_param_a1_pairings_affine.code := check_tidy (ann := [
    some 0, some 1, some 1, some 1, some 1, some 3, some 7, some 7, some 15, some 31, some 63, some 127, some 127,
    some 127, some 127, some 127, some 127, some 127, some 127, some 127, some 127, some 127, some 127, some 127,
    some 127, some 127, some 127, some 127, some 127, some 127, some 127, some 127, some 127, some 127, some 127,
    some 127, some 127, some 127, some 127, some 125, some 121, some 121, some 121, some 121, some 120, some 112,
    some 96, some 64, some 0]) (by decide +kernel)

theorem a_param_a1_init_pairing_ok : Tidy a_param_a1_init_pairing.code := check_tidy (ann := [
    some 0, some 1, some 3, some 3, some 3, some 2, some 0]) (by decide +kernel)

theorem a_param_pbc_param_init_a1_gen_ok : Tidy a_param_pbc_param_init_a1_gen.code := check_tidy (ann := [
    some 0, some 1, some 1, some 1, some 1, some 1, some 1, some 0]) (by decide +kernel)

theorem curve_curve_is_valid_point_ok : Tidy curve_curve_is_valid_point.code := check_tidy (ann := [
    some 0, some 0, some 0, some 1, some 3, some 3, some 3, some 2, some 0, none]) (by decide +kernel)

theorem curve_double_no_check_ok : Tidy curve_double_no_check.code := check_tidy (ann := [
    some 0, some 1, some 3, some 7, some 7, some 7, some 7, some 6, some 4, some 0, none]) (by decide +kernel)

theorem curve_curve_mul_ok : Tidy curve_curve_mul.code := check_tidy (ann := [
    some 0, some 0, some 0, some 0, some 0, some 0, some 0, some 0, none, some 0, some 0, none, some 0, some 1,
    some 3, some 7, some 7, some 7, some 7, some 6, some 4, some 0]) (by decide +kernel)

theorem curve_multi_double_ok : Tidy curve_multi_double.code := check_tidy (ann := [
    some 0, some 1, some 3, some 7, some 15, some 15, some 15, some 15, some 15, some 15, some 15, some 15,
    some 15, some 15, some 15, some 15, some 15, some 15, some 15, some 15, some 15, some 15, some 15, some 15,
    some 15, some 15, some 15, some 15, some 15, some 15, some 15, some 15, some 15, some 13, some 9, some 1,
    some 1, some 1, some 1, some 0]) (by decide +kernel)

theorem curve_multi_add_ok : Tidy curve_multi_add.code := check_tidy (ann := [
    some 0, some 1, some 3, some 7, some 15, some 15, some 15, some 15, some 15, some 15, some 15, some 15,
    some 15, some 15, some 15, some 15, some 15, some 15, some 15, some 15, some 15, some 15, some 15, some 15,
    some 15, some 15, none, some 15, some 15, none, some 15, some 15, some 15, some 15, some 15, some 15, some 13,
    some 9, some 1, some 1, some 1, some 1, some 0]) (by decide +kernel)

theorem curve_curve_cmp_ok : Tidy curve_curve_cmp.code := check_tidy (ann := [
    some 0, some 0, none, some 0, some 0, some 1, some 1, some 0, some 0, none]) (by decide +kernel)

theorem curve_curve_random_no_cofac_solvefory_ok : Tidy curve_curve_random_no_cofac_solvefory.code := check_tidy (ann := [
    some 0, some 1, some 1, some 1, some 1, some 0]) (by decide +kernel)

theorem curve_curve_random_pointmul_ok : Tidy curve_curve_random_pointmul.code := check_tidy (ann := [
    some 0, some 1, some 1, some 0]) (by decide +kernel)

theorem curve_curve_from_hash_ok : Tidy curve_curve_from_hash.code := check_tidy (ann := [
    some 0, some 1, some 3, some 3, some 3, some 3, some 3, some 3, some 3, some 3, some 3, some 2, some 0]) (by decide +kernel)

theorem curve_even_curve_is_sqr_ok : Tidy curve_even_curve_is_sqr.code := check_tidy (ann := [
    some 0, some 1, some 3, some 3, some 3, some 2, some 0, none]) (by decide +kernel)

theorem curve_point_from_x_ok : Tidy curve_point_from_x.code := check_tidy (ann := [
    some 0, some 1, some 1, some 0]) (by decide +kernel)

theorem curve_field_init_curve_ab_map_ok : Tidy curve_field_init_curve_ab_map.code := check_tidy (ann := [
    some 0, some 1, some 3, some 3, some 3, some 2, some 0]) (by decide +kernel)

theorem curve_field_init_curve_j_ok : Tidy curve_field_init_curve_j.code := check_tidy (ann := [
    some 0, some 1, some 3, some 3, some 3, some 2, some 0]) (by decide +kernel)

theorem curve_field_init_curve_b_ok : Tidy curve_field_init_curve_b.code := check_tidy (ann := [
    some 0, some 1, some 1, some 0]) (by decide +kernel)

theorem curve_pbc_mpz_trace_n_ok : Tidy curve_pbc_mpz_trace_n.code := check_tidy (ann := [
    some 0, some 1, some 3, some 7, some 15, some 15, some 15, some 15, some 15, some 15, some 15, some 15,
    some 15, some 15, some 7, some 3, some 1, some 0]) (by decide +kernel)

theorem curve_pbc_mpz_curve_order_extn_ok : Tidy curve_pbc_mpz_curve_order_extn.code := check_tidy (ann := [
    some 0, some 1, some 3, some 3, some 3, some 2, some 0]) (by decide +kernel)

theorem d_param_cc_miller_no_denom_proj_ok : Tidy d_param_cc_miller_no_denom_proj.code := check_tidy (ann := [
    some 0, some 4, some 4, some 12, some 28, some 60, some 124, some 252, some 508, some 1020, some 1020,
    some 1020, some 1021, some 1023, some 1023, some 1023, some 1023, some 1023, some 1023, some 1023, some 1023,
    some 1023, some 1023, some 1023, some 1023, some 1023, some 1023, some 1023, some 1023, some 1023, some 1023,
    some 1023, some 1023, some 1023, some 1023, some 1023, some 1023, some 1023, some 1023, some 1023, some 1023,
    some 1023, some 1023, some 1023, some 1023, some 1022, some 1020, some 1016, some 1008, some 992, some 960,
    some 896, some 768, some 512, some 0]) (by decide +kernel)

theorem d_param_cc_miller_no_denom_affine_ok : Tidy d_param_cc_miller_no_denom_affine.code := check_tidy (ann := [
    some 0, some 4, some 4, some 12, some 28, some 60, some 124, some 125, some 127, some 127, some 127, some 127,
    some 127, some 127, some 127, some 127, some 127, some 127, some 127, some 127, some 127, some 127, some 127,
    some 127, some 127, some 127, some 127, some 127, some 127, some 127, some 127, some 126, some 124, some 120,
    some 112, some 96, some 64, some 0]) (by decide +kernel)

theorem d_param_lucas_even_ok : Tidy d_param_lucas_even.code := check_tidy (ann := [
    some 0, some 0, some 0, some 1, some 1, some 1, some 1, some 1, some 1, some 1, some 0]) (by decide +kernel)

theorem d_param_cc_tatepower_ok : Tidy d_param_cc_tatepower.code := check_tidy (ann := [
    some 0, some 0, some 1, some 3, some 7, some 7, some 7, some 7, some 7, some 7, some 7, some 7, some 7, some 7,
    some 7, some 7, some 7, some 7, some 7, some 7, some 6, some 4, some 0, some 0]) (by decide +kernel)

theorem d_param_cc_pairing_ok : Tidy d_param_cc_pairing.code := check_tidy (ann := [
    some 0, some 1, some 3, some 3, some 3, some 2, some 0]) (by decide +kernel)

theorem d_param_cc_millers_no_denom_affine_ok : Tidy d_param_cc_millers_no_denom_affine.code := check_tidy (ann := [
    some 0, some 64, some 66, some 66, some 70, some 78, some 94, some 126, some 127, some 127, some 127, some 127,
    some 127, some 127, some 127, some 127, some 127, some 127, some 127, some 127, some 127, some 127, some 127,
    some 127, some 127, some 127, some 127, some 127, some 127, some 127, some 127, some 127, some 127, some 127,
    some 127, some 127, some 127, some 127, some 127, some 126, some 126, some 126, some 126, some 62, some 60,
    some 56, some 48, some 32, some 0]) (by decide +kernel)

theorem d_param_cc_pairings_affine_ok : Tidy d_param_cc_pairings_affine.code := check_tidy (ann := [
    some 0, some 1, some 3, some 3, some 3, some 3, some 3, some 3, some 3, some 3, some 3, some 3, some 3, some 2,
    some 0]) (by decide +kernel)

theorem d_param_cc_is_almost_coddh_ok : Tidy d_param_cc_is_almost_coddh.code := check_tidy (ann := [
    some 0, some 8, some 24, some 56, some 120, some 121, some 123, some 127, some 127, some 127, some 127,
    some 127, some 127, some 127, some 127, some 127, some 127, some 127, some 127, some 127, some 127, some 119,
    some 103, some 71, some 7, some 6, some 4, some 0, none]) (by decide +kernel)

theorem d_param_d_pairing_pp_init_ok : Tidy d_param_d_pairing_pp_init.code := check_tidy (ann := [
    some 0, some 1, some 1, some 3, some 7, some 15, some 31, some 31, some 31, some 31, some 31, some 31, some 31,
    some 31, some 31, some 31, some 31, some 31, some 31, some 31, some 31, some 29, some 25, some 17, some 1,
    some 0]) (by decide +kernel)

theorem d_param_d_pairing_pp_apply_ok : Tidy d_param_d_pairing_pp_apply.code := check_tidy (ann := [
    some 0, some 1, some 9, some 11, some 15, some 15, some 15, some 15, some 15, some 15, some 15, some 15,
    some 15, some 15, some 15, some 15, some 15, some 14, some 12, some 8, some 0]) (by decide +kernel)

theorem d_param_d_init_pairing_ok : Tidy d_param_d_init_pairing.code := check_tidy (ann := [
    some 0, some 0, some 0, some 1, some 3, some 3, some 3, some 7, some 7, some 7, some 7, some 7, some 7, some 3,
    some 3, some 3, some 11, some 11, some 3, some 2, some 0]) (by decide +kernel)

theorem d_param_compute_cm_curve_ok : Tidy d_param_compute_cm_curve.code := check_tidy (ann := [
    some 0, some 4, some 4, some 12, some 12, some 13, some 13, some 13, some 13, some 13, some 13, some 15,
    some 15, some 15, some 14, some 6, some 22, some 20, some 20, some 52, some 52, some 52, some 52, some 20,
    some 20, some 84, some 84, some 20, some 4, some 0]) (by decide +kernel)

theorem d_param_pbc_param_init_d_gen_ok : Tidy d_param_pbc_param_init_d_gen.code := check_tidy (ann := [
    some 0, some 1, some 1, some 3, some 3, some 11, some 11, some 11, some 11, some 15, some 15, some 31, some 31,
    some 31, some 31, some 31, some 31, some 31, some 15, some 7, some 5, some 1, some 0]) (by decide +kernel)

theorem e_param_e_miller_proj_ok : Tidy e_param_e_miller_proj.code := check_tidy (ann := [
    some 0, some 64, some 192, some 448, some 960, some 1984, some 4032, some 8128, some 8128, some 8128,
    some 8129, some 8131, some 8135, some 8143, some 8159, some 8191, some 8191, some 8191, some 8191, some 8191,
    some 8191, some 8191, some 8191, some 8191, some 8191, some 8191, some 8191, some 8191, some 8191, some 8191,
    some 8191, some 8191, some 8191, some 8191, some 8191, some 8191, some 8191, some 8191, some 8191, some 8191,
    some 8191, some 8191, some 8191, some 8191, some 8191, some 8191, some 8191, some 8191, some 8191, some 8191,
    some 8191, some 8191, some 8191, some 8191, some 8191, some 8191, some 8191, some 8191, some 8191, some 8191,
    some 8191, some 8191, some 8191, some 8191, some 8191, some 8191, some 8191, some 8191, some 8191, some 8191,
    some 8191, some 8191, some 8191, some 8191, some 8191, some 8191, some 8191, some 8191, some 8191, some 8191,
    some 8191, some 8191, some 8190, some 8188, some 8184, some 8176, some 6128, some 2032, some 2016, some 1984,
    some 1920, some 1792, some 1536, some 1024, some 0]) (by decide +kernel)

theorem e_param_e_miller_affine_ok : Tidy e_param_e_miller_affine.code := check_tidy (ann := [
    some 0, some 64, some 192, some 448, some 960, some 1984, some 1985, some 1987, some 1991, some 1999,
    some 2015, some 2047, some 2047, some 2047, some 2047, some 2047, some 2047, some 2047, some 2047, some 2047,
    some 2047, some 2047, some 2047, some 2047, some 2047, some 2047, some 2047, some 2047, some 2047, some 2047,
    some 2047, some 2047, some 2047, some 2047, some 2047, some 2047, some 2047, some 2047, some 2047, some 2047,
    some 2047, some 2047, some 2047, some 2047, some 2047, some 2047, some 2047, some 2047, some 2047, some 2047,
    some 2047, some 2047, some 2047, some 2047, some 2047, some 2047, some 2047, some 2047, some 2047, some 2047,
    some 2047, some 2047, some 2047, some 2047, some 2047, some 2047, some 2047, some 2047, some 2047, some 2046,
    some 2044, some 2040, some 2032, some 2016, some 1984, some 1920, some 1792, some 1536, some 1024, some 0]) (by decide +kernel)

theorem e_param_e_pairing_ok : Tidy e_param_e_pairing.code := check_tidy (ann := [
    some 0, some 1, some 1, some 0]) (by decide +kernel)

theorem e_param_e_pairing_ellnet_ok : Tidy e_param_e_pairing_ellnet.code := check_tidy (ann := [
    some 0, some 1, some 3, some 7, some 15, some 31, some 63, some 127, some 255, some 8447, some 8703, some 9215,
    some 10239, some 12287, some 16383, some 16383, some 16383, some 16383, some 16383, some 16383, some 16383,
    some 16383, some 16383, some 16383, some 16383, some 16383, some 16383, some 16383, some 16383, some 32767,
    some 65535, some 131071, some 262143, some 524287, some 1048575, some 2097151, some 4194303, some 8388607,
    some 16777215, some 33554431, some 67108863, some 134217727, some 268435455, some 536870911, some 1073741823,
    some 1073741823, some 1073741823, some 1073741823, some 1073741823, some 1073741823, some 1073741823,
    some 1073741823, some 1073741823, some 1073741823, some 1073741823, some 1073741823, some 1073741823,
    some 1073741823, some 1073741823, some 1073741823, some 1073741823, some 1073741823, some 1073741823,
    some 1073741823, some 1073741823, some 1073741823, some 1073741823, some 1073741823, some 1073741823,
    some 1073741823, some 1073741823, some 1073741823, some 1073741823, some 1073741823, some 1073741823,
    some 1073741823, some 1073741823, some 1073741823, some 1073741823, some 1073741823, some 1073741823,
    some 1073741823, some 1073741823, some 1073741823, some 1073741823, some 1073741823, some 1073741823,
    some 1073741823, some 1073741823, some 1073741823, some 1073741823, some 1073741823, some 1073741823,
    some 1073741823, some 1073741823, some 1073741823, some 1073741823, some 1073741823, some 1073741823,
    some 1073741823, some 1073741823, some 1073741823, some 1073741823, some 1073741823, some 1073741823,
    some 1073741823, some 1073741823, some 1073741823, some 1073741823, some 1073741823, some 1073741823,
    some 1073741823, some 1073741823, some 1073741823, some 1073741823, some 1073741823, some 1073741823,
    some 1073741823, some 1073741823, some 1073741823, some 1073741823, some 1073741823, some 1073741823,
    some 1073741823, some 1073741823, some 1073741823, some 1073741823, some 1073741823, some 1073741823,
    some 1073741823, some 1073741823, some 1073741823, some 1073741823, some 1073741823, some 1073741823,
    some 1073741823, some 1073741567, some 1073741055, some 1073740031, some 1073740030, some 1073740028,
    some 1073740024, some 1073740016, some 1073740000, some 1073739968, some 1073739904, some 1073739776,
    some 1073723392, some 1073690624, some 1073625088, some 1073494016, some 1073231872, some 1072707584,
    some 1071659008, some 1069561856, some 1065367552, some 1056978944, some 1040201728, some 1006647296,
    some 939538432, some 805320704, some 805318656, some 805314560, some 805306368, some 536870912, some 0]) (by decide +kernel)

theorem e_param_e_init_pairing_ok : Tidy e_param_e_init_pairing.code := check_tidy (ann := [
    some 0, some 1, some 3, some 3, some 3, some 2, some 0]) (by decide +kernel)

theorem eta_T_3_point_random_ok : Tidy eta_T_3_point_random.code := check_tidy (ann := [
    some 0, some 1, some 5, some 5, some 7, some 7, some 7, some 7, some 7, some 7, some 7, some 7, some 7, some 6,
    some 4, some 0]) (by decide +kernel)

theorem eta_T_3_point_add_ok : Tidy eta_T_3_point_add.code := check_tidy (ann := [
    some 0, some 0, some 0, some 0, some 0, some 1, some 3, some 7, some 15, some 31, some 63, some 63, some 63,
    some 63, some 63, some 63, some 63, some 63, some 63, some 63, some 63, some 63, some 63, some 63, some 63,
    some 62, some 60, some 56, some 48, some 32, some 0]) (by decide +kernel)

theorem eta_T_3_algorithm4a_ok : Tidy eta_T_3_algorithm4a.code := check_tidy (ann := [
    some 0, some 1, some 3, some 7, some 15, some 31, some 63, some 63, some 63, some 63, some 63, some 63,
    some 63, some 62, some 60, some 56, some 48, some 32, some 0]) (by decide +kernel)

theorem eta_T_3_algorithm5_ok : Tidy eta_T_3_algorithm5.code := check_tidy (ann := [
    some 0, some 1, some 3, some 7, some 15, some 31, some 63, some 127, some 255, some 511, some 1023, some 2047,
    some 4095, some 8191, some 16383, some 32767, some 65535, some 131071, some 131071, some 131071, some 131071,
    some 131071, some 131071, some 131071, some 131071, some 131071, some 131071, some 131071, some 131071,
    some 131071, some 262143, some 524287, some 524287, some 524287, some 524287, some 524287, some 393215,
    some 131071, some 131071, some 131071, some 131071, some 131071, some 131071, some 131071, some 131071,
    some 131071, some 131071, some 131071, some 131071, some 131071, some 131071, some 131071, some 131071,
    some 131071, some 131071, some 131071, some 131071, some 131071, some 131071, some 131071, some 131070,
    some 131068, some 131064, some 131056, some 131040, some 131008, some 130944, some 130816, some 130560,
    some 130048, some 129024, some 126976, some 122880, some 114688, some 98304, some 65536, some 0]) (by decide +kernel)

theorem eta_T_3_algorithm4_ok : Tidy eta_T_3_algorithm4.code := check_tidy (ann := [
    some 0, some 1, some 3, some 7, some 15, some 31, some 63, some 127, some 255, some 511, some 1023, some 2047,
    some 4095, some 8191, some 16383, some 32767, some 32767, some 32767, some 32767, some 32767, some 32767,
    some 32767, some 32767, some 32767, some 32767, some 32767, some 32767, some 32767, some 65535, some 131071,
    some 131071, some 131071, some 131071, some 131071, some 98303, some 32767, some 32767, some 32767, some 32767,
    some 32767, some 32767, some 32767, some 32767, some 32767, some 32767, some 32767, some 32767, some 32767,
    some 32767, some 32767, some 32767, some 32767, some 32767, some 32767, some 32767, some 32767, some 32766,
    some 32764, some 32760, some 32752, some 32736, some 32704, some 32640, some 32512, some 32256, some 31744,
    some 30720, some 28672, some 24576, some 16384, some 0]) (by decide +kernel)

theorem eta_T_3_algorithm6_ok : Tidy eta_T_3_algorithm6.code := check_tidy (ann := [
    some 0, some 1, some 1, some 3, some 7, some 15, some 31, some 63, some 127, some 255, some 511, some 511,
    some 511, some 511, some 511, some 511, some 511, some 511, some 511, some 509, some 505, some 497, some 481,
    some 449, some 385, some 257, some 1, some 0]) (by decide +kernel)

theorem eta_T_3_algorithm7_ok : Tidy eta_T_3_algorithm7.code := check_tidy (ann := [
    some 0, some 1, some 3, some 7, some 15, some 31, some 63, some 127, some 255, some 511, some 1023, some 2047,
    some 4095, some 8191, some 16383, some 32767, some 65535, some 131071, some 262143, some 524287, some 1048575,
    some 2097151, some 4194303, some 8388607, some 8388607, some 8388607, some 8388607, some 8388607, some 8388607,
    some 8388607, some 8388607, some 8388607, some 8388607, some 8388607, some 8388607, some 8388607, some 8388607,
    some 8388607, some 8388607, some 8388607, some 8388607, some 8388607, some 8388607, some 8388607, some 8388607,
    some 8388607, some 8388607, some 8388607, some 8388607, some 8388607, some 8388607, some 8388607, some 8388607,
    some 8388607, some 8388607, some 8388607, some 8388607, some 8388607, some 8388607, some 8388607, some 8388607,
    some 8388607, some 8388607, some 8388607, some 8388607, some 8388607, some 8388607, some 8388607, some 8388607,
    some 8388607, some 8388607, some 8388607, some 8388607, some 8388607, some 8388607, some 8388607, some 8388607,
    some 8388607, some 8388607, some 8388607, some 8388607, some 8388606, some 8388604, some 8388600, some 8388592,
    some 8388576, some 8388544, some 8388480, some 8388352, some 8388096, some 8387584, some 8386560, some 8384512,
    some 8380416, some 8372224, some 8355840, some 8323072, some 8257536, some 8126464, some 7864320, some 7340032,
    some 6291456, some 4194304, some 0]) (by decide +kernel)

theorem eta_T_3_algorithm8_ok : Tidy eta_T_3_algorithm8.code := check_tidy (ann := [
    some 0, some 1, some 3, some 3, some 3, some 3, some 3, some 3, some 3, some 3, some 3, some 3, some 3, some 2,
    some 0]) (by decide +kernel)

theorem eta_T_3_GT_random_ok : Tidy eta_T_3_GT_random.code := check_tidy (ann := [
    some 0, some 1, some 3, some 3, some 3, some 2, some 0]) (by decide +kernel)

theorem f_param_cc_miller_no_denom_ok : Tidy f_param_cc_miller_no_denom.code := check_tidy (ann := [
    some 0, some 4, some 4, some 12, some 28, some 60, some 124, some 252, some 253, some 255, some 255, some 255,
    some 255, some 255, some 255, some 255, some 255, some 255, some 255, some 255, some 255, some 255, some 255,
    some 255, some 255, some 255, some 255, some 255, some 255, some 255, some 255, some 255, some 255, some 255,
    some 255, some 255, some 255, some 255, some 255, some 255, some 255, some 255, some 255, some 255, some 255,
    some 255, some 255, some 255, some 255, some 255, some 255, some 255, some 255, some 255, some 255, some 255,
    some 255, some 255, some 255, some 255, some 255, some 255, some 255, some 255, some 255, some 255, some 255,
    some 255, some 255, some 255, some 255, some 255, some 255, some 255, some 255, some 255, some 255, some 255,
    some 255, some 255, some 255, some 255, some 255, some 255, some 255, some 255, some 255, some 255, some 255,
    some 255, some 255, some 255, some 255, some 255, some 255, some 255, some 255, some 255, some 255, some 255,
    some 255, some 255, some 255, some 255, some 255, some 255, some 255, some 255, some 255, some 255, some 255,
    some 255, some 255, some 255, some 255, some 255, some 255, some 255, some 255, some 255, some 255, some 255,
    some 255, some 255, some 255, some 255, some 255, some 255, some 255, some 255, some 255, some 255, some 255,
    some 255, some 255, some 255, some 255, some 255, some 255, some 255, some 255, some 255, some 255, some 255,
    some 255, some 255, some 255, some 255, some 255, some 255, some 255, some 255, some 255, some 255, some 255,
    some 255, some 255, some 255, some 255, some 255, some 255, some 255, some 255, some 255, some 255, some 255,
    some 254, some 252, some 248, some 240, some 224, some 192, some 128, some 0]) (by decide +kernel)

theorem f_param_f_tateexp_ok : Tidy f_param_f_tateexp.code := check_tidy (ann := [
    some 0, some 1, some 3, some 7, some 7, some 7, some 7, some 3, some 2, some 0]) (by decide +kernel)

theorem f_param_f_pairing_ok : Tidy f_param_f_pairing.code := check_tidy (ann := [
    some 0, some 1, some 3, some 3, some 3, some 2, some 0]) (by decide +kernel)

theorem f_param_f_init_pairing_ok : Tidy f_param_f_init_pairing.code := check_tidy (ann := [
    some 0, some 1, some 1, some 0, some 2, some 6, some 14, some 14, some 14, some 14, some 12, some 14, some 14,
    some 12, some 8, some 0, some 16, some 16, some 0, some 32, some 32, some 0]) (by decide +kernel)

theorem g_param_cc_miller_no_denom_proj_ok : Tidy g_param_cc_miller_no_denom_proj.code := check_tidy (ann := [
    some 0, some 4, some 4, some 12, some 28, some 60, some 124, some 252, some 508, some 1020, some 1020,
    some 1020, some 1021, some 1023, some 1023, some 1023, some 1023, some 1023, some 1023, some 1023, some 1023,
    some 1023, some 1023, some 1023, some 1023, some 1023, some 1023, some 1023, some 1023, some 1023, some 1023,
    some 1023, some 1023, some 1023, some 1023, some 1023, some 1023, some 1023, some 1023, some 1023, some 1023,
    some 1023, some 1023, some 1023, some 1023, some 1022, some 1020, some 1016, some 1008, some 992, some 960,
    some 896, some 768, some 512, some 0]) (by decide +kernel)

theorem g_param_cc_miller_no_denom_affine_ok : Tidy g_param_cc_miller_no_denom_affine.code := check_tidy (ann := [
    some 0, some 4, some 4, some 12, some 28, some 60, some 124, some 125, some 127, some 127, some 127, some 127,
    some 127, some 127, some 127, some 127, some 127, some 127, some 127, some 127, some 127, some 127, some 127,
    some 127, some 127, some 127, some 127, some 127, some 127, some 127, some 127, some 126, some 124, some 120,
    some 112, some 96, some 64, some 0]) (by decide +kernel)

theorem g_param_lucas_even_ok : Tidy g_param_lucas_even.code := check_tidy (ann := [
    some 0, some 1, some 1, some 1, some 1, some 1, some 1, some 1, some 0]) (by decide +kernel)

theorem g_param_tatepower10_ok : Tidy g_param_tatepower10.code := check_tidy (ann := [
    some 0, some 1, some 3, some 7, some 15, some 15, some 15, some 15, some 15, some 15, some 15, some 15,
    some 15, some 15, some 15, some 15, some 15, some 15, some 15, some 15, some 14, some 12, some 8, some 0]) (by decide +kernel)

theorem g_param_cc_pairing_ok : Tidy g_param_cc_pairing.code := check_tidy (ann := [
    some 0, some 1, some 3, some 3, some 3, some 2, some 0]) (by decide +kernel)

theorem g_param_cc_is_almost_coddh_ok : Tidy g_param_cc_is_almost_coddh.code := check_tidy (ann := [
    some 0, some 8, some 24, some 56, some 120, some 121, some 123, some 127, some 127, some 127, some 127,
    some 127, some 127, some 127, some 127, some 127, some 127, some 127, some 127, some 127, some 127, some 119,
    some 103, some 71, some 7, some 6, some 4, some 0, none]) (by decide +kernel)

theorem g_param_g_pairing_pp_init_ok : Tidy g_param_g_pairing_pp_init.code := check_tidy (ann := [
    some 0, some 1, some 1, some 3, some 7, some 15, some 31, some 31, some 31, some 31, some 31, some 31, some 31,
    some 31, some 31, some 31, some 31, some 31, some 31, some 31, some 31, some 29, some 25, some 17, some 1,
    some 0]) (by decide +kernel)

theorem g_param_g_pairing_pp_apply_ok : Tidy g_param_g_pairing_pp_apply.code := check_tidy (ann := [
    some 0, some 1, some 9, some 11, some 15, some 15, some 15, some 15, some 15, some 15, some 15, some 15,
    some 15, some 15, some 15, some 15, some 15, some 14, some 12, some 8, some 0]) (by decide +kernel)

theorem g_param_g_pairing_ellnet_ok : Tidy g_param_g_pairing_ellnet.code := check_tidy (ann := [
    some 0, some 1, some 3, some 7, some 15, some 31, some 63, some 127, some 255, some 8447, some 8703, some 9215,
    some 10239, some 12287, some 16383, some 16383, some 16383, some 16383, some 16383, some 16383, some 16383,
    some 16383, some 16383, some 16383, some 16383, some 16383, some 16383, some 16383, some 16383, some 32767,
    some 65535, some 131071, some 262143, some 524287, some 1048575, some 2097151, some 4194303, some 8388607,
    some 16777215, some 33554431, some 67108863, some 134217727, some 268435455, some 536870911, some 1073741823,
    some 1073741823, some 1073741823, some 1073741823, some 1073741823, some 1073741823, some 1073741823,
    some 1073741823, some 1073741823, some 1073741823, some 1073741823, some 1073741823, some 1073741823,
    some 1073741823, some 1073741823, some 1073741823, some 1073741823, some 1073741823, some 1073741823,
    some 1073741823, some 1073741823, some 1073741823, some 1073741823, some 1073741823, some 1073741823,
    some 1073741823, some 1073741823, some 1073741823, some 1073741823, some 1073741823, some 1073741823,
    some 1073741823, some 1073741823, some 1073741823, some 1073741823, some 1073741823, some 1073741823,
    some 1073741823, some 1073741823, some 1073741823, some 1073741823, some 1073741823, some 1073741823,
    some 1073741823, some 1073741823, some 1073741823, some 1073741823, some 1073741823, some 1073741823,
    some 1073741823, some 1073741823, some 1073741823, some 1073741823, some 1073741823, some 1073741823,
    some 1073741823, some 1073741823, some 1073741823, some 1073741823, some 1073741823, some 1073741823,
    some 1073741823, some 1073741823, some 1073741823, some 1073741823, some 1073741823, some 1073741823,
    some 1073741823, some 1073741823, some 1073741823, some 1073741823, some 1073741823, some 1073741823,
    some 1073741823, some 1073741823, some 1073741823, some 1073741823, some 1073741823, some 1073741823,
    some 1073741823, some 1073741823, some 1073741823, some 1073741823, some 1073741823, some 1073741823,
    some 1073741823, some 1073741823, some 1073741823, some 1073741823, some 1073741823, some 1073741823,
    some 1073741567, some 1073741055, some 1073740031, some 1073740030, some 1073740028, some 1073740024,
    some 1073740016, some 1073740000, some 1073739968, some 1073739904, some 1073739776, some 1073723392,
    some 1073690624, some 1073625088, some 1073494016, some 1073231872, some 1072707584, some 1071659008,
    some 1069561856, some 1065367552, some 1056978944, some 1040201728, some 1006647296, some 939538432,
    some 805320704, some 805318656, some 805314560, some 805306368, some 536870912, some 0]) (by decide +kernel)

theorem g_param_g_finalpow_ok : Tidy g_param_g_finalpow.code := check_tidy (ann := [
    some 0, some 1, some 1, some 0]) (by decide +kernel)

theorem g_param_compute_cm_curve_ok : Tidy g_param_compute_cm_curve.code := check_tidy (ann := [
    some 0, some 4, some 4, some 12, some 12, some 13, some 13, some 13, some 13, some 13, some 13, some 15,
    some 15, some 15, some 14, some 6, some 22, some 20, some 20, some 52, some 52, some 52, some 52, some 20,
    some 20, some 84, some 84, some 20, some 4, some 0]) (by decide +kernel)

theorem g_param_g_init_pairing_ok : Tidy g_param_g_init_pairing.code := check_tidy (ann := [
    some 0, some 1, some 3, some 3, some 3, some 7, some 7, some 7, some 7, some 7, some 7, some 3, some 11,
    some 11, some 3, some 19, some 19, some 3, some 2, some 0]) (by decide +kernel)

theorem g_param_pbc_param_init_g_gen_ok : Tidy g_param_pbc_param_init_g_gen.code := check_tidy (ann := [
    some 0, some 1, some 1, some 3, some 3, some 11, some 11, some 11, some 11, some 15, some 15, some 31, some 31,
    some 31, some 31, some 31, some 31, some 31, some 15, some 7, some 5, some 1, some 0]) (by decide +kernel)

theorem hilbert_mpf_exp_ok : Tidy hilbert_mpf_exp.code := check_tidy (ann := [
    some 0, some 1, some 1, some 3, some 3, some 3, some 3, some 3, some 3, some 3, some 3, some 3, some 3, some 3,
    some 3, some 3, some 3, some 1, some 0]) (by decide +kernel)

theorem hilbert_mpc_cis_ok : Tidy hilbert_mpc_cis.code := check_tidy (ann := [
    some 0, some 1, some 1, some 3, some 3, some 3, some 3, some 3, some 3, some 3, some 3, some 3, some 3, some 3,
    some 3, some 3, some 3, some 3, some 3, some 3, some 3, some 3, some 3, some 3, some 3, some 3, some 3, some 1,
    some 0]) (by decide +kernel)

theorem hilbert_compute_q_ok : Tidy hilbert_compute_q.code := check_tidy (ann := [
    some 0, some 1, some 3, some 7, some 7, some 7, some 7, some 6, some 4, some 0]) (by decide +kernel)

theorem hilbert_compute_Delta_ok : Tidy hilbert_compute_Delta.code := check_tidy (ann := [
    some 0, some 1, some 3, some 7, some 7, some 7, some 7, some 7, some 7, some 7, some 7, some 7, some 7, some 7,
    some 7, some 7, some 6, some 4, some 0]) (by decide +kernel)

theorem hilbert_compute_h_ok : Tidy hilbert_compute_h.code := check_tidy (ann := [
    some 0, some 4, some 5, some 7, some 7, some 7, some 7, some 3, some 2, some 0]) (by decide +kernel)

theorem hilbert_compute_j_ok : Tidy hilbert_compute_j.code := check_tidy (ann := [
    some 0, some 1, some 3, some 3, some 3, some 1, some 0]) (by decide +kernel)

theorem hilbert_compute_pi_ok : Tidy hilbert_compute_pi.code := check_tidy (ann := [
    some 0, some 1, some 3, some 7, some 15, some 31, some 63, some 127, some 255, some 511, some 511, some 511,
    some 511, some 511, some 511, some 511, some 511, some 511, some 511, some 511, some 511, some 511, some 511,
    some 511, some 511, some 511, some 510, some 508, some 504, some 496, some 480, some 448, some 384, some 256,
    some 0]) (by decide +kernel)

theorem hilbert_precision_init_ok : Tidy hilbert_precision_init.code := check_tidy (ann := [
    some 0, some 1, some 1, some 1, some 1, some 1, some 1, some 1, some 0]) (by decide +kernel)

theorem hilbert_pbc_hilbert_ok : Tidy hilbert_pbc_hilbert.code := check_tidy (ann := [
    some 0, some 0, some 0, some 0, some 0, some 0, some 0, none, some 0, some 0, some 0, some 0, some 16, some 17,
    some 19, some 51, some 115, some 243, some 247, some 255, some 255, some 255, some 255, some 255, some 255,
    some 255, some 255, some 255, some 255, some 255, some 255, some 255, some 255, some 255, some 255, some 255,
    some 255, some 255, some 255, some 255, some 255, some 255, some 255, some 255, some 255, some 255, some 255,
    some 255, some 255, some 255, some 255, some 255, some 255, some 255, some 255, some 255, some 255, some 255,
    some 255, some 255, some 255, some 255, some 255, some 255, some 255, some 255, some 255, some 255, some 255,
    some 255, some 255, some 255, some 255, some 255, some 255, some 255, some 255, some 255, some 255, some 255,
    some 255, some 255, some 255, some 255, some 255, some 255, some 255, some 255, some 239, some 207, some 143,
    some 15, some 7, some 3, some 2, some 0, none]) (by decide +kernel)

theorem mnt_general_pell_ok : Tidy mnt_general_pell.code := check_tidy (ann := [
    some 0, some 1, some 1, some 1, some 1, some 1, some 1, some 3, some 7, some 15, some 31, some 63, some 127,
    some 255, some 511, some 1023, some 2047, some 4095, some 8191, some 16383, some 32767, some 65535, some 65535,
    some 65535, some 65535, some 65535, some 65535, some 65535, some 65535, some 65535, some 65535, some 65535,
    some 65535, some 65535, some 65535, some 65535, some 65535, some 65535, some 65535, some 65535, some 65535,
    some 65535, some 65535, some 65535, some 65535, some 65535, some 65535, some 65535, some 65535, some 65535,
    some 65535, some 65535, some 65535, some 65535, some 65535, some 65535, some 65535, some 65535, some 65535,
    some 65535, some 65535, some 65534, some 65534, some 65534, some 65534, some 65534, some 65534, some 65534,
    some 65534, some 65534, some 65532, some 65528, some 65520, some 65504, some 65472, some 65408, some 65280,
    some 65024, some 64512, some 63488, some 61440, some 57344, some 49152, some 49152, some 49152, some 32768,
    some 0]) (by decide +kernel)

theorem mnt_mnt_step2_ok : Tidy mnt_mnt_step2.code := check_tidy (ann := [
    some 0, some 2, some 2, some 2, some 2, some 2, some 2, some 2, some 2, some 2, some 0, some 2, some 2, some 6,
    some 6, some 6, some 2, some 0, some 6, some 7, some 7, some 7, some 7, some 7, some 7, some 7, some 7, some 7,
    some 15, some 31, some 63, some 63, some 63, some 63, some 63, some 63, some 63, some 63, some 63, some 63,
    some 63, some 63, some 63, some 63, some 63, some 63, some 63, some 63, some 47, some 39, some 7, some 3,
    some 1, some 0, some 63, some 63, some 127, some 127, some 127, some 127, some 127, some 127, some 63, some 31,
    some 15, some 7, some 3, some 1, some 0, none]) (by decide +kernel)

theorem mnt_pbc_cm_search_d_ok : Tidy mnt_pbc_cm_search_d.code := check_tidy (ann := [
    some 0, some 1, some 1, some 1, some 0, some 1, some 3, some 7, some 15, some 15, some 31, some 31, some 31,
    some 31, some 31, some 31, some 31, some 31, some 31, some 31, some 31, some 31, some 31, some 31, some 31,
    some 31, some 31, some 31, some 31, some 15, some 13, some 9, some 1, some 0, none]) (by decide +kernel)

theorem mnt_freeman_step2_ok : Tidy mnt_freeman_step2.code := check_tidy (ann := [
    some 0, some 2, some 2, some 2, some 2, some 2, some 2, some 2, some 2, some 2, none, none, some 2, some 2,
    some 6, some 22, some 22, some 22, some 22, some 18, some 2, some 0, some 22, some 23, some 23, some 23,
    some 23, some 23, some 31, some 63, some 63, some 63, some 63, some 63, some 63, some 63, some 63, some 63,
    some 63, some 63, some 63, some 63, some 63, some 63, some 63, some 47, some 39, some 7, some 3, some 1,
    some 0, some 63, some 63, some 127, some 127, some 127, some 127, some 127, some 127, some 63, some 31,
    some 15, some 7, some 3, some 1, some 0, none]) (by decide +kernel)

theorem mnt_pbc_cm_search_g_ok : Tidy mnt_pbc_cm_search_g.code := check_tidy (ann := [
    some 0, some 1, some 1, some 1, some 0, some 1, some 3, some 7, some 15, some 15, some 31, some 31, some 31,
    some 31, some 31, some 31, some 31, some 31, some 31, some 31, some 31, some 31, some 31, some 31, some 31,
    some 31, some 31, some 31, some 31, some 15, some 13, some 9, some 1, some 0, none]) (by decide +kernel)

theorem mpc_mpc_mul_ok : Tidy mpc_mpc_mul.code := check_tidy (ann := [
    some 0, some 1, some 3, some 7, some 7, some 7, some 7, some 3, some 2, some 0]) (by decide +kernel)

theorem mpc_mpc_sqr_ok : Tidy mpc_mpc_sqr.code := check_tidy (ann := [
    some 0, some 1, some 3, some 3, some 3, some 2, some 0]) (by decide +kernel)

theorem mpc_mpc_inv_ok : Tidy mpc_mpc_inv.code := check_tidy (ann := [
    some 0, some 1, some 3, some 3, some 3, some 2, some 0]) (by decide +kernel)

theorem mpc_mpc_div_ok : Tidy mpc_mpc_div.code := check_tidy (ann := [
    some 0, some 1, some 1, some 0]) (by decide +kernel)

theorem mpc_mpc_pow_ui_ok : Tidy mpc_mpc_pow_ui.code := check_tidy (ann := [
    some 0, some 1, some 1, some 1, some 1, some 1, some 1, some 1, some 1, some 1, some 1, some 0]) (by decide +kernel)

theorem mpc_mpc_muli_ok : Tidy mpc_mpc_muli.code := check_tidy (ann := [
    some 0, some 1, some 1, some 0]) (by decide +kernel)

theorem pairing_generic_is_almost_coddh_ok : Tidy pairing_generic_is_almost_coddh.code := check_tidy (ann := [
    some 0, some 1, some 3, some 3, some 3, some 3, some 3, some 3, some 3, some 3, some 2, some 0, none]) (by decide +kernel)

theorem pairing_generic_prod_pairings_ok : Tidy pairing_generic_prod_pairings.code := check_tidy (ann := [
    some 0, some 1, some 1, some 1, some 1, some 0]) (by decide +kernel)

theorem param_read_symtab_ok : Tidy param_read_symtab.code := check_tidy (ann := [
    some 0, some 1, some 1, some 1, some 1, some 1, some 1, some 1, some 1, some 1, some 0]) (by decide +kernel)

theorem param_param_out_int_ok : Tidy param_param_out_int.code := check_tidy (ann := [
    some 0, some 1, some 1, some 0]) (by decide +kernel)

theorem param_lookup_int_ok : Tidy param_lookup_int.code := check_tidy (ann := [
    some 0, some 0, some 0, some 1, some 1, some 0, none]) (by decide +kernel)

theorem param_pbc_param_init_set_str_ok : Tidy param_pbc_param_init_set_str.code := check_tidy (ann := [
    some 0, some 1, some 1, some 0, none]) (by decide +kernel)

theorem param_pbc_param_init_set_buf_ok : Tidy param_pbc_param_init_set_buf.code := check_tidy (ann := [
    some 0, some 1, some 1, some 0, none]) (by decide +kernel)

theorem singular_sn_random_ok : Tidy singular_sn_random.code := check_tidy (ann := [
    some 0, some 1, some 1, some 1, some 1, some 1, some 1, some 1, some 0]) (by decide +kernel)

theorem singular_sn_double_no_check_ok : Tidy singular_sn_double_no_check.code := check_tidy (ann := [
    some 0, some 1, some 3, some 7, some 7, some 7, some 7, some 6, some 4, some 0, none]) (by decide +kernel)

theorem singular_sn_add_ok : Tidy singular_sn_add.code := check_tidy (ann := [
    some 0, some 0, some 0, some 0, some 0, some 0, some 0, some 0, none, some 0, some 0, none, some 0, some 1,
    some 3, some 7, some 7, some 7, some 7, some 6, some 4, some 0]) (by decide +kernel)

theorem singular_field_init_curve_singular_with_node_ok : Tidy singular_field_init_curve_singular_with_node.code := check_tidy (ann := [
    some 0, some 1, some 1, some 0]) (by decide +kernel)

theorem singular_sn_miller_ok : Tidy singular_sn_miller.code := check_tidy (ann := [
    some 0, some 8, some 24, some 56, some 120, some 248, some 249, some 251, some 255, some 255, some 255,
    some 255, some 255, some 255, some 255, some 255, some 255, some 255, some 255, some 255, some 255, some 255,
    some 255, some 255, some 255, some 255, some 255, some 255, some 255, some 255, some 255, some 255, some 255,
    some 255, some 254, some 252, some 248, some 240, some 224, some 192, some 128, some 0]) (by decide +kernel)

theorem e_param_pbc_param_init_e_gen_def : ∀ H s, Reach e_param_pbc_param_init_e_gen.code H s → ¬ Undefined e_param_pbc_param_init_e_gen.code s := check_defined (strict := false) (ann := [
    some 0, some 0, some 1, some 1, some 1, some 1, some 1, some 1, some 1, some 1, some 1, some 1, some 1, some 1,
    some 1, some 1, some 1, some 3, some 3, some 11, some 11, some 11, some 15, some 7, some 7, some 23, some 23,
    some 23, some 23, some 7, some 7, some 6]) (by decide +kernel)

theorem f_param_pbc_param_init_f_gen_def : ∀ H s, Reach f_param_pbc_param_init_f_gen.code H s → ¬ Undefined f_param_pbc_param_init_f_gen.code s := check_defined (strict := false) (ann := [
    some 0, some 1, some 3, some 3, some 3, some 3, some 3, some 3, some 3, some 3, some 3, some 3, some 3, some 3,
    some 7, some 7, some 39, some 39, some 167, some 167, some 423, some 423, some 423, some 423, some 167,
    some 39, some 423, some 423, some 391, some 391, some 399, some 399, some 415, some 415, some 479, some 479,
    some 479, some 479, some 479, some 479, some 2527, some 6623, some 6623, some 6655, some 6655, some 6655,
    some 7167, some 7167, some 8191, some 8191, some 8191, some 8191, some 8191, some 8191, some 8191, some 8191,
    some 8159, some 7135, some 6623, some 4575, some 479, some 479, some 415, some 399, some 391, some 387,
    some 385, some 384]) (by decide +kernel)

theorem pairing_pairing_init_set_buf_def : ∀ H s, Reach pairing_pairing_init_set_buf.code H s → ¬ Undefined pairing_pairing_init_set_buf.code s := check_defined (strict := false) (ann := [
    some 0, some 1, some 1, some 1, some 1, some 0, none]) (by decide +kernel)

theorem singular_sn_pairing_def : ∀ H s, Reach singular_sn_pairing.code H s → ¬ Undefined singular_sn_pairing.code s := check_defined (strict := false) (ann := [
    some 0, some 2, some 6, some 6, some 7, some 7, some 7, some 5, some 1]) (by decide +kernel)

theorem tidyEcc_ok : ∀ r ∈ tidyEcc, Tidy r.code := by
  simp only [tidyEcc, List.forall_mem_cons]
  exact ⟨a_param_a_pairing_pp_init_ok, a_param_a_pairing_pp_apply_ok, a_param_a_pairing_ellnet_ok,
    a_param_a_pairing_ellnet_pp_init_ok, a_param_a_pairing_ellnet_pp_apply_ok, a_param_a_pairing_proj_ok,
    a_param_a_pairing_affine_ok, a_param_a_pairings_affine_ok, a_param_a_finalpow_ok, a_param_a_init_pairing_ok,
    a_param_a1_pairing_pp_init_ok, a_param_a1_pairing_pp_apply_ok, a_param_a1_pairing_proj_ok,
    a_param_a1_pairing_ok, a_param_a1_pairings_affine_ok, a_param_a1_init_pairing_ok,
    a_param_pbc_param_init_a1_gen_ok, curve_curve_is_valid_point_ok, curve_double_no_check_ok, curve_curve_mul_ok,
    curve_multi_double_ok, curve_multi_add_ok, curve_curve_cmp_ok, curve_curve_random_no_cofac_solvefory_ok,
    curve_curve_random_pointmul_ok, curve_curve_from_hash_ok, curve_even_curve_is_sqr_ok, curve_point_from_x_ok,
    curve_field_init_curve_ab_map_ok, curve_field_init_curve_j_ok, curve_field_init_curve_b_ok,
    curve_pbc_mpz_trace_n_ok, curve_pbc_mpz_curve_order_extn_ok, d_param_cc_miller_no_denom_proj_ok,
    d_param_cc_miller_no_denom_affine_ok, d_param_lucas_even_ok, d_param_cc_tatepower_ok, d_param_cc_pairing_ok,
    d_param_cc_millers_no_denom_affine_ok, d_param_cc_pairings_affine_ok, d_param_cc_is_almost_coddh_ok,
    d_param_d_pairing_pp_init_ok, d_param_d_pairing_pp_apply_ok, d_param_d_init_pairing_ok,
    d_param_compute_cm_curve_ok, d_param_pbc_param_init_d_gen_ok, e_param_e_miller_proj_ok,
    e_param_e_miller_affine_ok, e_param_e_pairing_ok, e_param_e_pairing_ellnet_ok, e_param_e_init_pairing_ok,
    eta_T_3_point_random_ok, eta_T_3_point_add_ok, eta_T_3_algorithm4a_ok, eta_T_3_algorithm5_ok,
    eta_T_3_algorithm4_ok, eta_T_3_algorithm6_ok, eta_T_3_algorithm7_ok, eta_T_3_algorithm8_ok,
    eta_T_3_GT_random_ok, f_param_cc_miller_no_denom_ok, f_param_f_tateexp_ok, f_param_f_pairing_ok,
    f_param_f_init_pairing_ok, g_param_cc_miller_no_denom_proj_ok, g_param_cc_miller_no_denom_affine_ok,
    g_param_lucas_even_ok, g_param_tatepower10_ok, g_param_cc_pairing_ok, g_param_cc_is_almost_coddh_ok,
    g_param_g_pairing_pp_init_ok, g_param_g_pairing_pp_apply_ok, g_param_g_pairing_ellnet_ok,
    g_param_g_finalpow_ok, g_param_compute_cm_curve_ok, g_param_g_init_pairing_ok, g_param_pbc_param_init_g_gen_ok,
    hilbert_mpf_exp_ok, hilbert_mpc_cis_ok, hilbert_compute_q_ok, hilbert_compute_Delta_ok, hilbert_compute_h_ok,
    hilbert_compute_j_ok, hilbert_compute_pi_ok, hilbert_precision_init_ok, hilbert_pbc_hilbert_ok,
    mnt_general_pell_ok, mnt_mnt_step2_ok, mnt_pbc_cm_search_d_ok, mnt_freeman_step2_ok, mnt_pbc_cm_search_g_ok,
    mpc_mpc_mul_ok, mpc_mpc_sqr_ok, mpc_mpc_inv_ok, mpc_mpc_div_ok, mpc_mpc_pow_ui_ok, mpc_mpc_muli_ok,
    pairing_generic_is_almost_coddh_ok, pairing_generic_prod_pairings_ok, param_read_symtab_ok,
    param_param_out_int_ok, param_lookup_int_ok, param_pbc_param_init_set_str_ok, param_pbc_param_init_set_buf_ok,
    singular_sn_random_ok, singular_sn_double_no_check_ok, singular_sn_add_ok,
    singular_field_init_curve_singular_with_node_ok, singular_sn_miller_ok, by simp⟩

theorem untidyEcc_def : ∀ r ∈ untidyEcc, ∀ H s, Reach r.code H s → ¬ Undefined r.code s := by
  simp only [untidyEcc, List.forall_mem_cons]
  exact ⟨e_param_pbc_param_init_e_gen_def, f_param_pbc_param_init_f_gen_def, pairing_pairing_init_set_buf_def,
    singular_sn_pairing_def, by simp⟩

theorem e_param_pbc_param_init_e_gen_leaks : Leaks e_param_pbc_param_init_e_gen.code 2 :=
  leaks_of (n := 33) (l := [true, false, false, false, true, false, false]) (by decide +kernel)

theorem f_param_pbc_param_init_f_gen_leaks : Leaks f_param_pbc_param_init_f_gen.code 2 :=
  leaks_of (n := 69) (l := [true, true, true, false]) (by decide +kernel)

theorem pairing_pairing_init_set_buf_leaks : Leaks pairing_pairing_init_set_buf.code 1 :=
  leaks_of (n := 8) (l := [true]) (by decide +kernel)

theorem singular_sn_pairing_leaks : Leaks singular_sn_pairing.code 1 :=
  leaks_of (n := 10) (l := []) (by decide +kernel)

end Pbc.Life
