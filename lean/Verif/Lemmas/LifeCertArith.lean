import Verif.Model.LifeArith
import Verif.Lemmas.Life

/-!
# Certificates for the routines of `Verif/Model/LifeArith.lean`
-/

set_option autoImplicit false

namespace Pbc.Life

open Spec.Life

theorem dlog_element_dlog_brute_force_ok : Tidy dlog_element_dlog_brute_force.code := check_tidy (ann := [
    some 0, some 2, some 3, some 3, some 3, some 3, some 3, some 3, some 3, some 3, some 3, some 1, some 0]) (by decide +kernel)

theorem dlog_element_dlog_pollard_rho_ok : Tidy dlog_element_dlog_pollard_rho.code := check_tidy (ann := [
    some 0, some 32, some 36, some 44, some 45, some 47, some 63, some 63, some 63, some 63, some 63, some 63,
    some 63, some 63, some 63, some 63, some 63, some 127, some 127, some 127, some 127, some 127, some 63,
    some 63, some 63, some 63, some 63, some 63, some 63, some 63, some 63, some 63, some 63, some 63, some 191,
    some 447, some 959, some 1983, some 1983, some 1983, some 1983, some 1983, some 1983, some 1983, some 1983,
    some 1983, some 1983, some 1983, some 1983, some 1983, some 1983, some 1983, some 1983, some 959, some 831,
    some 575, some 63, some 63, some 63, some 63, some 63, some 63, some 63, some 63, some 63, some 63, some 63,
    some 63, some 63, some 63, some 63, some 63, some 63, some 63, some 59, some 51, some 51, some 51, some 51,
    some 51, some 35, some 34, some 32, some 0]) (by decide +kernel)

theorem fasterfp_fp_set_mpz_ok : Tidy fasterfp_fp_set_mpz.code := check_tidy (ann := [
    some 0, some 0, some 0, some 1, some 1, some 0]) (by decide +kernel)

theorem fasterfp_fp_out_str_ok : Tidy fasterfp_fp_out_str.code := check_tidy (ann := [
    some 0, some 1, some 1, some 0, none]) (by decide +kernel)

theorem fasterfp_fp_mul_ok : Tidy fasterfp_fp_mul.code := check_tidy (ann := [
    some 0, some 0, some 0, some 1, some 1, some 0]) (by decide +kernel)

theorem fasterfp_fp_mul_si_ok : Tidy fasterfp_fp_mul_si.code := check_tidy (ann := [
    some 0, some 0, some 0, some 1, some 1, some 0, some 0]) (by decide +kernel)

theorem fasterfp_fp_pow_mpz_ok : Tidy fasterfp_fp_pow_mpz.code := check_tidy (ann := [
    some 0, some 0, some 0, some 1, some 1, some 0]) (by decide +kernel)

theorem fasterfp_fp_invert_ok : Tidy fasterfp_fp_invert.code := check_tidy (ann := [
    some 0, some 1, some 1, some 0]) (by decide +kernel)

theorem fasterfp_fp_random_ok : Tidy fasterfp_fp_random.code := check_tidy (ann := [
    some 0, some 1, some 1, some 1, some 1, some 1, some 0]) (by decide +kernel)

theorem fasterfp_fp_from_hash_ok : Tidy fasterfp_fp_from_hash.code := check_tidy (ann := [
    some 0, some 1, some 1, some 0]) (by decide +kernel)

theorem fasterfp_fp_sgn_even_ok : Tidy fasterfp_fp_sgn_even.code := check_tidy (ann := [
    some 0, some 0, some 0, some 1, some 1, some 1, some 1, some 1, some 0, none]) (by decide +kernel)

theorem fasterfp_fp_to_bytes_ok : Tidy fasterfp_fp_to_bytes.code := check_tidy (ann := [
    some 0, some 0, some 0, some 1, some 1, some 0, none]) (by decide +kernel)

theorem fasterfp_fp_from_bytes_ok : Tidy fasterfp_fp_from_bytes.code := check_tidy (ann := [
    some 0, some 1, some 1, some 1, some 1, some 1, some 0, none]) (by decide +kernel)

theorem fastfp_fp_set_mpz_ok : Tidy fastfp_fp_set_mpz.code := check_tidy (ann := [
    some 0, some 1, some 1, some 0]) (by decide +kernel)

theorem fastfp_fp_out_str_ok : Tidy fastfp_fp_out_str.code := check_tidy (ann := [
    some 0, some 1, some 1, some 0, none]) (by decide +kernel)

theorem fastfp_fp_mul_ok : Tidy fastfp_fp_mul.code := check_tidy (ann := [
    some 0, some 1, some 1, some 0]) (by decide +kernel)

theorem fastfp_fp_mul_si_ok : Tidy fastfp_fp_mul_si.code := check_tidy (ann := [
    some 0, some 1, some 1, some 0, some 0]) (by decide +kernel)

theorem fastfp_fp_pow_mpz_ok : Tidy fastfp_fp_pow_mpz.code := check_tidy (ann := [
    some 0, some 1, some 1, some 0]) (by decide +kernel)

theorem fastfp_fp_invert_ok : Tidy fastfp_fp_invert.code := check_tidy (ann := [
    some 0, some 1, some 1, some 0]) (by decide +kernel)

theorem fastfp_fp_random_ok : Tidy fastfp_fp_random.code := check_tidy (ann := [
    some 0, some 1, some 1, some 0]) (by decide +kernel)

theorem fastfp_fp_from_hash_ok : Tidy fastfp_fp_from_hash.code := check_tidy (ann := [
    some 0, some 1, some 1, some 0]) (by decide +kernel)

theorem fastfp_fp_sgn_even_ok : Tidy fastfp_fp_sgn_even.code := check_tidy (ann := [
    some 0, some 0, some 0, some 1, some 1, some 1, some 1, some 1, some 0, none]) (by decide +kernel)

theorem fastfp_fp_to_bytes_ok : Tidy fastfp_fp_to_bytes.code := check_tidy (ann := [
    some 0, some 1, some 1, some 0, none]) (by decide +kernel)

theorem fastfp_fp_from_bytes_ok : Tidy fastfp_fp_from_bytes.code := check_tidy (ann := [
    some 0, some 1, some 1, some 0, none]) (by decide +kernel)

theorem field_element_pow_wind_ok : Tidy field_element_pow_wind.code := check_tidy (ann := [
    some 0, some 0, some 0, some 1, some 1, some 1, some 1, some 1, some 1, some 1, some 1, some 1, some 1, some 1,
    some 1, some 0]) (by decide +kernel)

theorem field_element_pow2_mpz_ok : Tidy field_element_pow2_mpz.code := check_tidy (ann := [
    some 0, some 0, some 0, some 1, some 1, some 3, some 3, some 3, some 3, some 3, some 3, some 3, some 3, some 3,
    some 3, some 3, some 3, some 3, some 3, some 3, some 2, some 0]) (by decide +kernel)

theorem field_element_pow3_mpz_ok : Tidy field_element_pow3_mpz.code := check_tidy (ann := [
    some 0, some 0, some 0, some 1, some 1, some 1, some 1, some 1, some 1, some 1, some 1, some 0, some 0, some 0]) (by decide +kernel)

theorem field_element_build_base_table_ok : Tidy field_element_build_base_table.code := check_tidy (ann := [
    some 0, some 1, some 1, some 1, some 1, some 1, some 1, some 1, some 1, some 0, none]) (by decide +kernel)

theorem field_element_pow_base_table_ok : Tidy field_element_pow_base_table.code := check_tidy (ann := [
    some 0, some 2, some 2, some 2, some 0, some 2, some 2, some 2, some 2, some 3, some 3, some 3, some 3, some 3,
    some 3, some 3, some 3, some 3, some 3, some 3, some 2, some 0]) (by decide +kernel)

theorem field_generic_mul_mpz_ok : Tidy field_generic_mul_mpz.code := check_tidy (ann := [
    some 0, some 1, some 1, some 0]) (by decide +kernel)

theorem field_generic_mul_si_ok : Tidy field_generic_mul_si.code := check_tidy (ann := [
    some 0, some 1, some 1, some 0]) (by decide +kernel)

theorem field_generic_halve_ok : Tidy field_generic_halve.code := check_tidy (ann := [
    some 0, some 1, some 1, some 0]) (by decide +kernel)

theorem field_generic_set_si_ok : Tidy field_generic_set_si.code := check_tidy (ann := [
    some 0, some 1, some 1, some 0]) (by decide +kernel)

theorem field_generic_set_multiz_ok : Tidy field_generic_set_multiz.code := check_tidy (ann := [
    some 0, some 1, some 1, some 0]) (by decide +kernel)

theorem field_generic_sub_ok : Tidy field_generic_sub.code := check_tidy (ann := [
    some 0, some 0, some 0, some 1, some 1, some 0]) (by decide +kernel)

theorem field_generic_div_ok : Tidy field_generic_div.code := check_tidy (ann := [
    some 0, some 0, some 0, some 1, some 1, some 0]) (by decide +kernel)

theorem field_generic_add_ui_ok : Tidy field_generic_add_ui.code := check_tidy (ann := [
    some 0, some 1, some 3, some 3, some 3, some 1, some 0]) (by decide +kernel)

theorem field_generic_cmp_ok : Tidy field_generic_cmp.code := check_tidy (ann := [
    some 0, some 0, some 0, some 0, some 0, some 1, some 3, some 3, some 3, some 2, some 0, none]) (by decide +kernel)

theorem field_generic_is0_ok : Tidy field_generic_is0.code := check_tidy (ann := [
    some 0, some 1, some 1, some 0, none]) (by decide +kernel)

theorem field_generic_is1_ok : Tidy field_generic_is1.code := check_tidy (ann := [
    some 0, some 1, some 1, some 0, none]) (by decide +kernel)

theorem field_pbc_mpz_from_hash_ok : Tidy field_pbc_mpz_from_hash.code := check_tidy (ann := [
    some 0, some 1, some 1, some 1, some 1, some 1, some 1, some 1, some 1, some 1, some 1, some 1, some 0, some 0,
    some 0]) (by decide +kernel)

theorem field_element_tonelli_ok : Tidy field_element_tonelli.code := check_tidy (ann := [
    some 0, some 2, some 3, some 7, some 15, some 31, some 31, some 31, some 31, some 31, some 31, some 31,
    some 31, some 31, some 31, some 31, some 31, some 31, some 31, some 31, some 31, some 29, some 28, some 24,
    some 16, some 0]) (by decide +kernel)

theorem field_pbc_trial_divide_ok : Tidy field_pbc_trial_divide.code := check_tidy (ann := [
    some 0, some 4, some 5, some 7, some 7, some 7, some 7, some 7, some 7, some 7, some 7, some 7, some 7, some 7,
    some 7, some 7, some 7, some 7, some 7, some 7, some 7, some 7, some 7, some 7, some 7, some 7, some 3, some 1,
    some 0, some 7, some 7, some 7, some 3, some 1, some 0, none]) (by decide +kernel)

theorem field_pbc_mpz_trickle_ok : Tidy field_pbc_mpz_trickle.code := check_tidy (ann := [
    some 0, some 0, some 0, some 0, some 1, some 3, some 7, some 7, some 7, some 7, some 7, some 7, some 7, some 7,
    some 7, some 7, some 7, some 7, some 7, some 7, some 7, some 7, some 7, some 7, some 7, some 3, some 1, some 0,
    none]) (by decide +kernel)

theorem field_element_multi_double_ok : Tidy field_element_multi_double.code := check_tidy (ann := [
    some 0, some 1, some 3, some 3, some 3, some 3, some 3, some 3, some 3, some 2, some 0]) (by decide +kernel)

theorem field_element_multi_add_ok : Tidy field_element_multi_add.code := check_tidy (ann := [
    some 0, some 1, some 3, some 7, some 7, some 7, some 7, some 7, some 7, some 7, some 7, some 7, some 6, some 4,
    some 0]) (by decide +kernel)

theorem fieldquadratic_fq_mul_ok : Tidy fieldquadratic_fq_mul.code := check_tidy (ann := [
    some 0, some 1, some 1, some 3, some 7, some 7, some 7, some 6, some 4, some 0]) (by decide +kernel)

theorem fieldquadratic_fq_square_ok : Tidy fieldquadratic_fq_square.code := check_tidy (ann := [
    some 0, some 1, some 1, some 3, some 3, some 2, some 0]) (by decide +kernel)

theorem fieldquadratic_fq_invert_ok : Tidy fieldquadratic_fq_invert.code := check_tidy (ann := [
    some 0, some 1, some 1, some 3, some 3, some 2, some 0]) (by decide +kernel)

theorem fieldquadratic_fq_is_sqr_ok : Tidy fieldquadratic_fq_is_sqr.code := check_tidy (ann := [
    some 0, some 1, some 1, some 3, some 3, some 2, some 0, none]) (by decide +kernel)

theorem fieldquadratic_fq_sqrt_ok : Tidy fieldquadratic_fq_sqrt.code := check_tidy (ann := [
    some 0, some 1, some 1, some 3, some 7, some 7, some 7, some 7, some 7, some 7, some 7, some 7, some 6, some 4,
    some 0]) (by decide +kernel)

theorem fieldquadratic_fi_mul_ok : Tidy fieldquadratic_fi_mul.code := check_tidy (ann := [
    some 0, some 1, some 1, some 3, some 7, some 7, some 7, some 6, some 4, some 0]) (by decide +kernel)

theorem fieldquadratic_fi_square_ok : Tidy fieldquadratic_fi_square.code := check_tidy (ann := [
    some 0, some 1, some 1, some 3, some 3, some 2, some 0]) (by decide +kernel)

theorem fieldquadratic_fi_invert_ok : Tidy fieldquadratic_fi_invert.code := check_tidy (ann := [
    some 0, some 1, some 1, some 3, some 3, some 2, some 0]) (by decide +kernel)

theorem fieldquadratic_fi_is_sqr_ok : Tidy fieldquadratic_fi_is_sqr.code := check_tidy (ann := [
    some 0, some 1, some 1, some 3, some 3, some 2, some 0, none]) (by decide +kernel)

theorem fieldquadratic_fi_sqrt_ok : Tidy fieldquadratic_fi_sqrt.code := check_tidy (ann := [
    some 0, some 1, some 1, some 3, some 7, some 7, some 7, some 7, some 7, some 7, some 7, some 7, some 6, some 4,
    some 0]) (by decide +kernel)

theorem montfp_fp_set_mpz_ok : Tidy montfp_fp_set_mpz.code := check_tidy (ann := [
    some 0, some 0, some 0, some 1, some 1, some 1, some 1, some 1, some 0]) (by decide +kernel)

theorem montfp_fp_set_si_ok : Tidy montfp_fp_set_si.code := check_tidy (ann := [
    some 0, some 0, some 0, some 1, some 1, some 1, some 1, some 1, some 0]) (by decide +kernel)

theorem montfp_fp_to_mpz_ok : Tidy montfp_fp_to_mpz.code := check_tidy (ann := [
    some 0, some 0, some 0, some 1, some 1, some 0, some 0, some 0]) (by decide +kernel)

theorem montfp_fp_out_str_ok : Tidy montfp_fp_out_str.code := check_tidy (ann := [
    some 0, some 1, some 1, some 0, none]) (by decide +kernel)

theorem montfp_fp_snprint_ok : Tidy montfp_fp_snprint.code := check_tidy (ann := [
    some 0, some 1, some 1, some 0, none]) (by decide +kernel)

theorem montfp_fp_set_str_ok : Tidy montfp_fp_set_str.code := check_tidy (ann := [
    some 0, some 1, some 1, some 0, none]) (by decide +kernel)

theorem montfp_mont_mul_ok : Tidy montfp_mont_mul.code := check_tidy (ann := [
    some 0, some 1, some 1, some 1, some 1, some 1, some 1, some 1, some 1, some 1, some 1, some 0]) (by decide +kernel)

theorem montfp_fp_pow_mpz_ok : Tidy montfp_fp_pow_mpz.code := check_tidy (ann := [
    some 0, some 0, some 0, some 1, some 1, some 0]) (by decide +kernel)

theorem montfp_fp_invert_ok : Tidy montfp_fp_invert.code := check_tidy (ann := [
    some 0, some 1, some 3, some 3, some 3, some 1, some 0]) (by decide +kernel)

theorem montfp_fp_random_ok : Tidy montfp_fp_random.code := check_tidy (ann := [
    some 0, some 1, some 1, some 1, some 1, some 1, some 0]) (by decide +kernel)

theorem montfp_fp_from_hash_ok : Tidy montfp_fp_from_hash.code := check_tidy (ann := [
    some 0, some 1, some 1, some 0]) (by decide +kernel)

theorem montfp_fp_sgn_odd_ok : Tidy montfp_fp_sgn_odd.code := check_tidy (ann := [
    some 0, some 0, none, some 0, some 1, some 1, some 0, none]) (by decide +kernel)

theorem montfp_fp_to_bytes_ok : Tidy montfp_fp_to_bytes.code := check_tidy (ann := [
    some 0, some 1, some 1, some 0, none]) (by decide +kernel)

theorem montfp_fp_from_bytes_ok : Tidy montfp_fp_from_bytes.code := check_tidy (ann := [
    some 0, some 1, some 1, some 1, some 1, some 1, some 0, none]) (by decide +kernel)

theorem montfp_field_init_mont_fp_ok : Tidy montfp_field_init_mont_fp.code := check_tidy (ann := [
    some 0, some 1, some 1, some 0]) (by decide +kernel)

theorem multiz_f_div_ok : Tidy multiz_f_div.code := check_tidy (ann := [
    some 0, some 1, some 1, some 0]) (by decide +kernel)

theorem multiz_f_from_hash_ok : Tidy multiz_f_from_hash.code := check_tidy (ann := [
    some 0, some 1, some 1, some 0]) (by decide +kernel)

theorem multiz_z_from_bytes_ok : Tidy multiz_z_from_bytes.code := check_tidy (ann := [
    some 0, some 1, some 1, some 1, some 1, some 1, some 1, some 1, some 0, some 0, none]) (by decide +kernel)

theorem multiz_f_set_str_ok : Tidy multiz_f_set_str.code := check_tidy (ann := [
    some 0, some 1, some 1, some 0, none]) (by decide +kernel)

theorem naivefp_zp_sgn_even_ok : Tidy naivefp_zp_sgn_even.code := check_tidy (ann := [
    some 0, some 1, some 1, some 1, some 1, some 0, none]) (by decide +kernel)

theorem poly_poly_set_multiz_ok : Tidy poly_poly_set_multiz.code := check_tidy (ann := [
    some 0, some 0, some 1, some 1, some 0, some 0, some 0, some 0]) (by decide +kernel)

theorem poly_poly_mul_ok : Tidy poly_poly_mul.code := check_tidy (ann := [
    some 0, some 0, some 0, some 1, some 1, some 3, some 3, some 3, some 3, some 3, some 3, some 3, some 3, some 1,
    some 0]) (by decide +kernel)

theorem poly_poly_div_ok : Tidy poly_poly_div.code := check_tidy (ann := [
    some 0, some 0, some 0, some 0, some 0, some 2, some 3, some 7, some 15, some 15, some 15, some 15, some 15,
    some 15, some 15, some 15, some 15, some 15, some 15, some 15, some 14, some 12, some 4, some 0]) (by decide +kernel)

theorem poly_poly_invert_ok : Tidy poly_poly_invert.code := check_tidy (ann := [
    some 0, some 16, some 48, some 112, some 113, some 115, some 119, some 127, some 255, some 255, some 255,
    some 255, some 255, some 255, some 255, some 255, some 255, some 255, some 255, some 255, some 255, some 255,
    some 255, some 255, some 255, some 255, some 255, some 255, some 255, some 255, some 127, some 126, some 124,
    some 120, some 112, some 96, some 64, some 0]) (by decide +kernel)

theorem poly_polymod_invert_ok : Tidy poly_polymod_invert.code := check_tidy (ann := [
    some 0, some 1, some 3, some 3, some 3, some 2, some 0]) (by decide +kernel)

theorem poly_polymod_is_sqr_ok : Tidy poly_polymod_is_sqr.code := check_tidy (ann := [
    some 0, some 2, some 3, some 3, some 3, some 1, some 0, none]) (by decide +kernel)

theorem poly_polymod_sqrt_ok : Tidy poly_polymod_sqrt.code := check_tidy (ann := [
    some 0, some 1, some 33, some 33, some 35, some 39, some 47, some 63, some 63, some 63, some 63, some 63,
    some 63, some 63, some 63, some 63, some 63, some 63, some 63, some 63, some 63, some 63, some 63, some 63,
    some 63, some 63, some 63, some 63, some 63, some 63, some 63, some 63, some 63, some 63, some 63, some 63,
    some 63, some 63, some 31, some 29, some 25, some 17, some 1, some 0]) (by decide +kernel)

theorem poly_polymod_mul_degree3_ok : Tidy poly_polymod_mul_degree3.code := check_tidy (ann := [
    some 0, some 4, some 5, some 7, some 7, some 7, some 7, some 3, some 2, some 0]) (by decide +kernel)

theorem poly_polymod_mul_degree6_ok : Tidy poly_polymod_mul_degree6.code := check_tidy (ann := [
    some 0, some 1, some 3, some 7, some 15, some 15, some 15, some 15, some 15, some 14, some 12, some 8, some 0]) (by decide +kernel)

theorem poly_polymod_mul_ok : Tidy poly_polymod_mul.code := check_tidy (ann := [
    some 0, some 8, some 8, some 8, some 8, some 9, some 9, some 11, some 15, some 15, some 15, some 15, some 15,
    some 15, some 15, some 15, some 15, some 15, some 15, some 15, some 15, some 15, some 15, some 7, some 7,
    some 6, some 4, some 0]) (by decide +kernel)

theorem poly_polymod_square_degree3_ok : Tidy poly_polymod_square_degree3.code := check_tidy (ann := [
    some 0, some 1, some 3, some 7, some 7, some 7, some 7, some 6, some 4, some 0]) (by decide +kernel)

theorem poly_polymod_square_ok : Tidy poly_polymod_square.code := check_tidy (ann := [
    some 0, some 8, some 8, some 8, some 8, some 9, some 9, some 11, some 15, some 15, some 15, some 15, some 15,
    some 15, some 15, some 15, some 15, some 15, some 15, some 15, some 15, some 15, some 15, some 15, some 15,
    some 15, some 15, some 15, some 15, some 7, some 7, some 6, some 4, some 0]) (by decide +kernel)

theorem poly_compute_x_powers_ok : Tidy poly_compute_x_powers.code := check_tidy (ann := [
    some 0, some 1, some 1, some 1, some 1, some 1, some 1, some 1, some 1, some 0]) (by decide +kernel)

theorem poly_poly_gcd_ok : Tidy poly_poly_gcd.code := check_tidy (ann := [
    some 0, some 1, some 3, some 7, some 15, some 15, some 15, some 15, some 15, some 15, some 15, some 15,
    some 15, some 15, some 15, some 15, some 15, some 15, some 14, some 12, some 8, some 0]) (by decide +kernel)

theorem poly_poly_is_irred_ok : Tidy poly_poly_is_irred.code := check_tidy (ann := [
    some 0, some 0, some 0, some 0, some 0, some 8, some 8, some 9, some 11, some 15, some 15, some 31, some 63,
    some 63, some 63, some 63, some 63, some 63, some 63, some 63, some 63, some 63, some 47, some 15, some 11,
    some 10, some 8, some 0, none]) (by decide +kernel)

theorem poly_poly_findroot_ok : Tidy poly_poly_findroot.code := check_tidy (ann := [
    some 0, some 64, some 64, some 65, some 65, some 67, some 71, some 103, some 103, some 103, some 103, some 101,
    some 97, some 96, some 96, some 32, some 0, some 96, some 96, some 112, some 116, some 116, some 116, some 124,
    some 124, some 124, some 124, some 124, some 124, some 124, some 124, some 124, some 124, some 124, some 124,
    some 125, some 125, some 127, some 127, some 127, some 127, some 125, some 124, some 124, some 124, some 124,
    some 124, some 124, some 124, some 124, some 124, some 124, some 116, some 52, some 48, some 16, some 0, none]) (by decide +kernel)

theorem random_pbc_mpz_randomb_ok : Tidy random_pbc_mpz_randomb.code := check_tidy (ann := [
    some 0, some 1, some 1, some 0]) (by decide +kernel)

theorem ternary_extension_field_gf3m_reduct_ok : Tidy ternary_extension_field_gf3m_reduct.code := check_tidy (ann := [
    some 0, some 1, some 1, some 1, some 1, some 1, some 1, some 1, some 1, some 1, some 1, some 0]) (by decide +kernel)

theorem ternary_extension_field_gf3m_mult_ok : Tidy ternary_extension_field_gf3m_mult.code := check_tidy (ann := [
    some 0, some 1, some 1, some 3, some 7, some 7, some 7, some 7, some 7, some 7, some 5, some 1, some 0]) (by decide +kernel)

theorem ternary_extension_field_gf3m_cubic_ok : Tidy ternary_extension_field_gf3m_cubic.code := check_tidy (ann := [
    some 0, some 1, some 1, some 1, some 1, some 1, some 0]) (by decide +kernel)

theorem ternary_extension_field_gf3m_invert_ok : Tidy ternary_extension_field_gf3m_invert.code := check_tidy (ann := [
    some 0, some 1, some 3, some 7, some 7, some 7, some 15, some 15, some 31, some 63, some 63, some 63, some 63,
    some 63, some 63, some 63, some 63, some 63, some 63, some 63, some 63, some 63, some 63, some 63, some 63,
    some 63, some 63, some 63, some 63, some 63, some 63, some 63, some 63, some 63, some 63, some 63, some 63,
    some 63, some 63, some 63, some 63, some 62, some 60, some 52, some 36, some 32, some 0]) (by decide +kernel)

theorem ternary_extension_field_gf3m_sqrt_ok : Tidy ternary_extension_field_gf3m_sqrt.code := check_tidy (ann := [
    some 0, some 1, some 1, some 0]) (by decide +kernel)

theorem ternary_extension_field_gf32m_mult_ok : Tidy ternary_extension_field_gf32m_mult.code := check_tidy (ann := [
    some 0, some 1, some 3, some 7, some 15, some 31, some 31, some 31, some 31, some 31, some 31, some 30,
    some 28, some 24, some 16, some 0]) (by decide +kernel)

theorem ternary_extension_field_gf32m_cubic_ok : Tidy ternary_extension_field_gf32m_cubic.code := check_tidy (ann := [
    some 0, some 1, some 3, some 3, some 3, some 2, some 0]) (by decide +kernel)

theorem ternary_extension_field_gf33m_mult_ok : Tidy ternary_extension_field_gf33m_mult.code := check_tidy (ann := [
    some 0, some 1, some 3, some 7, some 15, some 31, some 63, some 63, some 63, some 63, some 63, some 63,
    some 127, some 127, some 255, some 255, some 511, some 511, some 511, some 510, some 508, some 504, some 496,
    some 480, some 448, some 384, some 256, some 0]) (by decide +kernel)

theorem ternary_extension_field_gf33m_cubic_ok : Tidy ternary_extension_field_gf33m_cubic.code := check_tidy (ann := [
    some 0, some 1, some 3, some 7, some 7, some 7, some 7, some 6, some 4, some 0]) (by decide +kernel)

theorem ternary_extension_field_gf33m_invert_ok : Tidy ternary_extension_field_gf33m_invert.code := check_tidy (ann := [
    some 0, some 1, some 3, some 7, some 7, some 7, some 7, some 15, some 15, some 31, some 31, some 63, some 63,
    some 127, some 127, some 255, some 255, some 511, some 511, some 510, some 508, some 504, some 496, some 480,
    some 448, some 384, some 256, some 0]) (by decide +kernel)

theorem tinyfp_fp_set_mpz_ok : Tidy tinyfp_fp_set_mpz.code := check_tidy (ann := [
    some 0, some 1, some 1, some 0]) (by decide +kernel)

theorem tinyfp_fp_out_str_ok : Tidy tinyfp_fp_out_str.code := check_tidy (ann := [
    some 0, some 1, some 1, some 0, none]) (by decide +kernel)

theorem tinyfp_fp_pow_mpz_ok : Tidy tinyfp_fp_pow_mpz.code := check_tidy (ann := [
    some 0, some 1, some 1, some 0]) (by decide +kernel)

theorem tinyfp_fp_invert_ok : Tidy tinyfp_fp_invert.code := check_tidy (ann := [
    some 0, some 1, some 1, some 0]) (by decide +kernel)

theorem tinyfp_fp_random_ok : Tidy tinyfp_fp_random.code := check_tidy (ann := [
    some 0, some 1, some 1, some 0]) (by decide +kernel)

theorem tinyfp_fp_from_hash_ok : Tidy tinyfp_fp_from_hash.code := check_tidy (ann := [
    some 0, some 1, some 1, some 0]) (by decide +kernel)

theorem z_z_from_bytes_ok : Tidy z_z_from_bytes.code := check_tidy (ann := [
    some 0, some 1, some 1, some 1, some 1, some 1, some 1, some 1, some 0, some 0, none]) (by decide +kernel)

theorem z_z_set_str_ok : Tidy z_z_set_str.code := check_tidy (ann := [
    some 0, some 1, some 1, some 0, none]) (by decide +kernel)

theorem fasterfp_fp_is_sqr_def : ∀ H s, Reach fasterfp_fp_is_sqr.code H s → ¬ Undefined fasterfp_fp_is_sqr.code s := check_defined (strict := false) (ann := [
    some 0, some 1, some 1, some 1, some 1, some 0, none]) (by decide +kernel)

theorem fastfp_fp_is_sqr_def : ∀ H s, Reach fastfp_fp_is_sqr.code H s → ¬ Undefined fastfp_fp_is_sqr.code s := check_defined (strict := false) (ann := [
    some 0, some 1, some 1, some 1, some 1, some 0, none]) (by decide +kernel)

theorem montfp_fp_is_sqr_def : ∀ H s, Reach montfp_fp_is_sqr.code H s → ¬ Undefined montfp_fp_is_sqr.code s := check_defined (strict := false) (ann := [
    some 0, some 1, some 1, some 1, some 1, some 0, none]) (by decide +kernel)

theorem random_file_mpz_random_def : ∀ H s, Reach random_file_mpz_random.code H s → ¬ Undefined random_file_mpz_random.code s := check_defined (strict := false) (ann := [
    some 0, some 2, some 2, some 2, some 3, some 3, some 3, some 3, some 3, some 3, some 3, some 3, some 3, some 3,
    some 3, some 3, some 1, some 0]) (by decide +kernel)

theorem tinyfp_fp_is_sqr_def : ∀ H s, Reach tinyfp_fp_is_sqr.code H s → ¬ Undefined tinyfp_fp_is_sqr.code s := check_defined (strict := false) (ann := [
    some 0, some 1, some 1, some 1, some 1, some 0, none]) (by decide +kernel)

theorem tidyArith_ok : ∀ r ∈ tidyArith, Tidy r.code := by
  simp only [tidyArith, List.forall_mem_cons]
  exact ⟨dlog_element_dlog_brute_force_ok, dlog_element_dlog_pollard_rho_ok, fasterfp_fp_set_mpz_ok,
    fasterfp_fp_out_str_ok, fasterfp_fp_mul_ok, fasterfp_fp_mul_si_ok, fasterfp_fp_pow_mpz_ok,
    fasterfp_fp_invert_ok, fasterfp_fp_random_ok, fasterfp_fp_from_hash_ok, fasterfp_fp_sgn_even_ok,
    fasterfp_fp_to_bytes_ok, fasterfp_fp_from_bytes_ok, fastfp_fp_set_mpz_ok, fastfp_fp_out_str_ok,
    fastfp_fp_mul_ok, fastfp_fp_mul_si_ok, fastfp_fp_pow_mpz_ok, fastfp_fp_invert_ok, fastfp_fp_random_ok,
    fastfp_fp_from_hash_ok, fastfp_fp_sgn_even_ok, fastfp_fp_to_bytes_ok, fastfp_fp_from_bytes_ok,
    field_element_pow_wind_ok, field_element_pow2_mpz_ok, field_element_pow3_mpz_ok,
    field_element_build_base_table_ok, field_element_pow_base_table_ok, field_generic_mul_mpz_ok,
    field_generic_mul_si_ok, field_generic_halve_ok, field_generic_set_si_ok, field_generic_set_multiz_ok,
    field_generic_sub_ok, field_generic_div_ok, field_generic_add_ui_ok, field_generic_cmp_ok,
    field_generic_is0_ok, field_generic_is1_ok, field_pbc_mpz_from_hash_ok, field_element_tonelli_ok,
    field_pbc_trial_divide_ok, field_pbc_mpz_trickle_ok, field_element_multi_double_ok, field_element_multi_add_ok,
    fieldquadratic_fq_mul_ok, fieldquadratic_fq_square_ok, fieldquadratic_fq_invert_ok,
    fieldquadratic_fq_is_sqr_ok, fieldquadratic_fq_sqrt_ok, fieldquadratic_fi_mul_ok, fieldquadratic_fi_square_ok,
    fieldquadratic_fi_invert_ok, fieldquadratic_fi_is_sqr_ok, fieldquadratic_fi_sqrt_ok, montfp_fp_set_mpz_ok,
    montfp_fp_set_si_ok, montfp_fp_to_mpz_ok, montfp_fp_out_str_ok, montfp_fp_snprint_ok, montfp_fp_set_str_ok,
    montfp_mont_mul_ok, montfp_fp_pow_mpz_ok, montfp_fp_invert_ok, montfp_fp_random_ok, montfp_fp_from_hash_ok,
    montfp_fp_sgn_odd_ok, montfp_fp_to_bytes_ok, montfp_fp_from_bytes_ok, montfp_field_init_mont_fp_ok,
    multiz_f_div_ok, multiz_f_from_hash_ok, multiz_z_from_bytes_ok, multiz_f_set_str_ok, naivefp_zp_sgn_even_ok,
    poly_poly_set_multiz_ok, poly_poly_mul_ok, poly_poly_div_ok, poly_poly_invert_ok, poly_polymod_invert_ok,
    poly_polymod_is_sqr_ok, poly_polymod_sqrt_ok, poly_polymod_mul_degree3_ok, poly_polymod_mul_degree6_ok,
    poly_polymod_mul_ok, poly_polymod_square_degree3_ok, poly_polymod_square_ok, poly_compute_x_powers_ok,
    poly_poly_gcd_ok, poly_poly_is_irred_ok, poly_poly_findroot_ok, random_pbc_mpz_randomb_ok,
    ternary_extension_field_gf3m_reduct_ok, ternary_extension_field_gf3m_mult_ok,
    ternary_extension_field_gf3m_cubic_ok, ternary_extension_field_gf3m_invert_ok,
    ternary_extension_field_gf3m_sqrt_ok, ternary_extension_field_gf32m_mult_ok,
    ternary_extension_field_gf32m_cubic_ok, ternary_extension_field_gf33m_mult_ok,
    ternary_extension_field_gf33m_cubic_ok, ternary_extension_field_gf33m_invert_ok, tinyfp_fp_set_mpz_ok,
    tinyfp_fp_out_str_ok, tinyfp_fp_pow_mpz_ok, tinyfp_fp_invert_ok, tinyfp_fp_random_ok, tinyfp_fp_from_hash_ok,
    z_z_from_bytes_ok, z_z_set_str_ok, by simp⟩

theorem untidyArith_def : ∀ r ∈ untidyArith, ∀ H s, Reach r.code H s → ¬ Undefined r.code s := by
  simp only [untidyArith, List.forall_mem_cons]
  exact ⟨fasterfp_fp_is_sqr_def, fastfp_fp_is_sqr_def, montfp_fp_is_sqr_def, random_file_mpz_random_def,
    tinyfp_fp_is_sqr_def, by simp⟩

theorem fasterfp_fp_is_sqr_leaks : Leaks fasterfp_fp_is_sqr.code 1 :=
  leaks_of (n := 8) (l := [true]) (by decide +kernel)

theorem fastfp_fp_is_sqr_leaks : Leaks fastfp_fp_is_sqr.code 1 :=
  leaks_of (n := 8) (l := [true]) (by decide +kernel)

theorem montfp_fp_is_sqr_leaks : Leaks montfp_fp_is_sqr.code 1 :=
  leaks_of (n := 8) (l := [true]) (by decide +kernel)

theorem random_file_mpz_random_leaks : Leaks random_file_mpz_random.code 2 :=
  leaks_of (n := 19) (l := [false, true]) (by decide +kernel)

theorem tinyfp_fp_is_sqr_leaks : Leaks tinyfp_fp_is_sqr.code 1 :=
  leaks_of (n := 8) (l := [true]) (by decide +kernel)

end Pbc.Life
