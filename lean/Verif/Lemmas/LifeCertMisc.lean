import Verif.Model.LifeMisc
import Verif.Lemmas.Life

/-!
# Certificates for the routines of `Verif/Model/LifeMisc.lean`
-/

set_option autoImplicit false

namespace Pbc.Life

open Spec.Life

theorem gena1param_main_ok : Tidy gena1param_main.code := check_tidy (ann := [
    some 0, some 1, some 3, some 7, some 7, some 7, some 7, some 15, some 15, some 7, some 6, some 4, some 0, none]) (by decide +kernel)

theorem genaparam_main_ok : Tidy genaparam_main.code := check_tidy (ann := [
    some 0, some 1, some 1, some 0, none]) (by decide +kernel)

theorem gendparam_generate_ok : Tidy gendparam_generate.code := check_tidy (ann := [
    some 0, some 1, some 1, some 0, none]) (by decide +kernel)

theorem geneparam_main_ok : Tidy geneparam_main.code := check_tidy (ann := [
    some 0, some 1, some 1, some 0, none]) (by decide +kernel)

theorem genfparam_main_ok : Tidy genfparam_main.code := check_tidy (ann := [
    some 0, some 0, some 0, some 0, some 1, some 1, some 0, none]) (by decide +kernel)

theorem gengparam_generate_ok : Tidy gengparam_generate.code := check_tidy (ann := [
    some 0, some 1, some 1, some 0, none]) (by decide +kernel)

theorem bls_main_ok : Tidy bls_main.code := check_tidy (ann := [
    some 0, some 1, some 1, some 3, some 11, some 15, some 31, some 95, some 223, some 255, some 255, some 255,
    some 255, some 255, some 255, some 511, some 511, some 511, some 511, some 511, some 511, some 511, some 255,
    some 255, some 255, some 255, some 255, some 255, some 255, some 255, some 255, some 767, some 767, some 767,
    some 767, some 767, some 767, some 767, some 767, some 767, some 767, some 767, some 767, some 767, some 767,
    some 767, some 767, some 767, some 255, some 255, some 255, some 255, some 255, some 255, some 255, some 239,
    some 231, some 199, some 197, some 193, some 129, some 1, some 0, none]) (by decide +kernel)

theorem joux_main_ok : Tidy joux_main.code := check_tidy (ann := [
    some 0, some 1, some 1, some 1, some 1, some 1, some 3, some 259, some 771, some 1795, some 1799, some 1807,
    some 1823, some 3871, some 7967, some 16159, some 16191, some 16255, some 16383, some 16383, some 16383,
    some 16383, some 16383, some 16383, some 16383, some 16383, some 16383, some 16383, some 16383, some 16383,
    some 16383, some 16383, some 16381, some 16377, some 16369, some 16353, some 16321, some 16257, some 16129,
    some 15873, some 15361, some 14337, some 12289, some 8193, some 1, some 0, none]) (by decide +kernel)

theorem zss_main_ok : Tidy zss_main.code := check_tidy (ann := [
    some 0, some 1, some 1, some 1, some 1, some 1, some 9, some 41, some 105, some 121, some 123, some 127,
    some 255, some 511, some 1023, some 1023, some 1023, some 1023, some 1023, some 1023, some 1023, some 1023,
    some 1023, some 1023, some 1023, some 1023, some 1021, some 1017, some 1009, some 993, some 961, some 897,
    some 769, some 513, some 1, some 0, none]) (by decide +kernel)

theorem pbc_v_field_cast_ok : Tidy pbc_v_field_cast.code := check_tidy (ann := [
    some 0, some 0, some 0, some 0, some 0, some 0, some 0, some 0, some 0, some 0, some 1, some 1, some 0, none]) (by decide +kernel)

theorem pbc_run_item_ok : Tidy pbc_run_item.code := check_tidy (ann := [
    some 0, some 1, some 1, some 0, none]) (by decide +kernel)

theorem pbc_run_zmod_ok : Tidy pbc_run_zmod.code := check_tidy (ann := [
    some 0, some 1, some 1, some 0, none]) (by decide +kernel)

theorem pbc_run_exit_ok : Tidy pbc_run_exit.code := check_tidy (ann := [
    some 0, some 1, some 1, none]) (by decide +kernel)

theorem pbc_field_element_to_si_ok : Tidy pbc_field_element_to_si.code := check_tidy (ann := [
    some 0, some 1, some 1, some 0, none]) (by decide +kernel)

theorem pbc_field_element_mul_zn_ok : Tidy pbc_field_element_mul_zn.code := check_tidy (ann := [
    some 0, some 1, some 1, some 0]) (by decide +kernel)

theorem pbc_field_element_pow_zn_ok : Tidy pbc_field_element_pow_zn.code := check_tidy (ann := [
    some 0, some 1, some 1, some 0]) (by decide +kernel)

theorem pbc_field_element_pow2_zn_ok : Tidy pbc_field_element_pow2_zn.code := check_tidy (ann := [
    some 0, some 1, some 3, some 3, some 3, some 2, some 0]) (by decide +kernel)

theorem pbc_field_element_pow3_zn_ok : Tidy pbc_field_element_pow3_zn.code := check_tidy (ann := [
    some 0, some 1, some 3, some 7, some 7, some 7, some 7, some 6, some 4, some 0]) (by decide +kernel)

theorem pbc_field_element_pp_pow_zn_ok : Tidy pbc_field_element_pp_pow_zn.code := check_tidy (ann := [
    some 0, some 1, some 1, some 0]) (by decide +kernel)

theorem hess_main_def : ∀ H s, Reach hess_main.code H s → ¬ Undefined hess_main.code s := check_defined (strict := false) (ann := [
    some 0, some 1, some 1, some 1, some 1, some 262145, some 262145, some 262149, some 262157, some 262159,
    some 262287, some 262303, some 270495, some 286879, some 287903, some 287935, some 287999, some 288511,
    some 292607, some 423679, some 423935, some 425983, some 458751, some 524287, some 524287, some 524287,
    some 524287, some 524287, some 524287, some 524287, some 524287, some 524287, some 524287, some 524287,
    some 524287, some 524287, some 524287, some 524287, some 524287, some 524287, some 524287, some 524287,
    some 524287, some 524287, some 524283, some 524275, some 524273, some 524145, some 524129, some 515937,
    some 499553, some 498529, some 498497, some 498433, some 497921, some 493825, some 362753, some 362497,
    some 360449, some 327681, some 262145, some 262144, none]) (by decide +kernel)

theorem paterson_main_def : ∀ H s, Reach paterson_main.code H s → ¬ Undefined paterson_main.code s := check_defined (strict := false) (ann := [
    some 0, some 1, some 1, some 1, some 1, some 1, some 9, some 11, some 267, some 395, some 411, some 475,
    some 1499, some 5595, some 13787, some 46555, some 46559, some 46591, some 47103, some 49151, some 65535,
    some 131071, some 262143, some 524287, some 1048575, some 1048575, some 1048575, some 1048575, some 1048575,
    some 1048575, some 1048575, some 1048575, some 1048575, some 1048575, some 1048575, some 1048575, some 1048575,
    some 1048575, some 1048575, some 1048575, some 1048575, some 1048575, some 1048575, some 1048575, some 1048575,
    some 1048575, some 1048567, some 1048565, some 1048309, some 1048181, some 1048165, some 1047141, some 1043045,
    some 1034853, some 1034849, some 1034817, some 1034305, some 1017921, some 985153, some 919617, some 788545,
    some 526401, some 2113, some 2112, none]) (by decide +kernel)

theorem yuanli_main_def : ∀ H s, Reach yuanli_main.code H s → ¬ Undefined yuanli_main.code s := check_defined (strict := false) (ann := [
    some 0, some 1, some 1, some 1, some 1, some 1, some 3, some 7, some 15, some 31, some 63, some 127, some 255,
    some 511, some 1023, some 2047, some 4095, some 36863, some 102399, some 233471, some 1282047, some 1286143,
    some 1294335, some 1310719, some 1572863, some 2097151, some 2097151, some 2097151, some 2097151, some 2097151,
    some 2097151, some 2097151, some 2097151, some 2097151, some 2097151, some 2097151, some 2097151, some 2097151,
    some 2097151, some 2097151, some 2097151, some 2097151, some 2097151, some 2097151, some 2097151, some 2097151,
    some 2097151, some 2097151, some 2080767, some 2076671, some 2068479, some 1019903, some 987135, some 921599,
    some 790527, some 528383, some 4095, some 4093, some 4089, some 4081, some 4065, some 4033, some 3969,
    some 3841, some 3585, some 3073, some 2049, some 1, none]) (by decide +kernel)

theorem zhangkim_main_def : ∀ H s, Reach zhangkim_main.code H s → ¬ Undefined zhangkim_main.code s := check_defined (strict := false) (ann := [
    some 0, some 33554432, some 100663296, some 100663297, some 100663297, some 100663297, some 100663297,
    some 100663297, some 100663299, some 100663303, some 100663335, some 100663399, some 100663415, some 100665463,
    some 100673655, some 100690039, some 100952183, some 101476471, some 102525047, some 102525559, some 102525567,
    some 102526591, some 102526719, some 102526975, some 102531071, some 102596607, some 102727679, some 119504895,
    some 119537663, some 121634815, some 125829119, some 134217727, some 134217727, some 134217727, some 134217727,
    some 134217727, some 134217727, some 134217727, some 134217727, some 134217727, some 134217727, some 134217727,
    some 134217727, some 134217727, some 134217727, some 134217727, some 134217727, some 134217727, some 134217727,
    some 134217727, some 134217727, some 134217727, some 134217727, some 134217727, some 134217727, some 134217727,
    some 134217727, some 134217727, some 134217727, some 134217727, some 134217725, some 134217721, some 134217689,
    some 134217625, some 134217609, some 134215561, some 134215049, some 134215041, some 134214017, some 134213889,
    some 134213633, some 134209537, some 134201345, some 134184961, some 134152193, some 134086657, some 133955585,
    some 117178369, some 116916225, some 116391937, some 115343361, some 113246209, some 109051905, some 100663297,
    some 100663296, none]) (by decide +kernel)

theorem pbc_v_builtin_def : ∀ H s, Reach pbc_v_builtin.code H s → ¬ Undefined pbc_v_builtin.code s := check_defined (strict := false) (ann := [
    some 0, some 0, some 0, some 1, some 1, some 1, some 1, some 1, some 1, some 1, some 0, none]) (by decide +kernel)

theorem pbc_run_nextprime_def : ∀ H s, Reach pbc_run_nextprime.code H s → ¬ Undefined pbc_run_nextprime.code s := check_defined (strict := false) (ann := [
    some 0, some 1, some 1, none]) (by decide +kernel)

theorem tidyMisc_ok : ∀ r ∈ tidyMisc, Tidy r.code := by
  simp only [tidyMisc, List.forall_mem_cons]
  exact ⟨gena1param_main_ok, genaparam_main_ok, gendparam_generate_ok, geneparam_main_ok, genfparam_main_ok,
    gengparam_generate_ok, bls_main_ok, joux_main_ok, zss_main_ok, pbc_v_field_cast_ok, pbc_run_item_ok,
    pbc_run_zmod_ok, pbc_run_exit_ok, pbc_field_element_to_si_ok, pbc_field_element_mul_zn_ok,
    pbc_field_element_pow_zn_ok, pbc_field_element_pow2_zn_ok, pbc_field_element_pow3_zn_ok,
    pbc_field_element_pp_pow_zn_ok, by simp⟩

theorem untidyMisc_def : ∀ r ∈ untidyMisc, ∀ H s, Reach r.code H s → ¬ Undefined r.code s := by
  simp only [untidyMisc, List.forall_mem_cons]
  exact ⟨hess_main_def, paterson_main_def, yuanli_main_def, zhangkim_main_def, pbc_v_builtin_def, pbc_run_nextprime_def,
    by simp⟩

theorem hess_main_leaks : Leaks hess_main.code 1 :=
  leaks_of (n := 64) (l := [false, false]) (by decide +kernel)

theorem paterson_main_leaks : Leaks paterson_main.code 2 :=
  leaks_of (n := 66) (l := [false, false]) (by decide +kernel)

theorem yuanli_main_leaks : Leaks yuanli_main.code 1 :=
  leaks_of (n := 70) (l := [false, false]) (by decide +kernel)

theorem zhangkim_main_leaks : Leaks zhangkim_main.code 2 :=
  leaks_of (n := 87) (l := [false, false]) (by decide +kernel)

theorem pbc_v_builtin_leaks : Leaks pbc_v_builtin.code 1 :=
  leaks_of (n := 13) (l := [false, true, true]) (by decide +kernel)

theorem pbc_run_nextprime_leaks : Leaks pbc_run_nextprime.code 1 :=
  leaks_of (n := 5) (l := []) (by decide +kernel)

end Pbc.Life
