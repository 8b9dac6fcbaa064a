import Verif.Lemmas.LifeCertArith
import Verif.Lemmas.LifeCertEcc
import Verif.Lemmas.LifeCertMisc

/-!
# Temporaries (C127, C129)
-/

set_option autoImplicit false

namespace Pbc.Life

open Spec.Life

/-- **C127**: no routine, in no execution, uses or clears a local variable that is not initialised at that point, nor runs past its
end. -/
theorem C127_defined (r : Routine)
    (h : r ∈ tidyArith ++ untidyArith ++ (tidyEcc ++ untidyEcc) ++ (tidyMisc ++ untidyMisc)) (H : Finset ℕ) (s : St)
    (reach : Reach r.code H s) : ¬ Undefined r.code s := by
  simp only [List.mem_append] at h
  rcases h with ((h | h) | (h | h)) | (h | h)
  · exact (tidyArith_ok r h).defined H s reach
  · exact untidyArith_def r h H s reach
  · exact (tidyEcc_ok r h).defined H s reach
  · exact untidyEcc_def r h H s reach
  · exact (tidyMisc_ok r h).defined H s reach
  · exact untidyMisc_def r h H s reach

/-- **C129**, for the routines listed in `tidyArith`, `tidyEcc`, `tidyMisc`: in every execution nothing is used or cleared
that is not initialised, and on return all temporaries have been cleared.  Missing: the routines of `C129_fails`, for
which it is false. -/
theorem C129_tidy_partial (r : Routine) (h : r ∈ tidyArith ++ tidyEcc ++ tidyMisc) : Tidy r.code := by
  simp only [List.mem_append] at h
  rcases h with (h | h) | h
  · exact tidyArith_ok r h
  · exact tidyEcc_ok r h
  · exact tidyMisc_ok r h

/-- **C129** fails: each of these routines has a way to return that leaves temporaries allocated: one or two more than
before the call, whatever was allocated before. -/
theorem C129_fails :
    Leaks montfp_fp_is_sqr.code 1 ∧ Leaks fasterfp_fp_is_sqr.code 1 ∧ Leaks fastfp_fp_is_sqr.code 1 ∧
    Leaks tinyfp_fp_is_sqr.code 1 ∧ Leaks random_file_mpz_random.code 2 ∧
    Leaks e_param_pbc_param_init_e_gen.code 2 ∧ Leaks f_param_pbc_param_init_f_gen.code 2 ∧
    Leaks pairing_pairing_init_set_buf.code 1 ∧ Leaks singular_sn_pairing.code 1 ∧
    Leaks pbc_v_builtin.code 1 ∧ Leaks pbc_run_nextprime.code 1 ∧
    Leaks hess_main.code 1 ∧ Leaks paterson_main.code 2 ∧ Leaks yuanli_main.code 1 ∧ Leaks zhangkim_main.code 2 :=
  ⟨montfp_fp_is_sqr_leaks, fasterfp_fp_is_sqr_leaks, fastfp_fp_is_sqr_leaks, tinyfp_fp_is_sqr_leaks,
    random_file_mpz_random_leaks, e_param_pbc_param_init_e_gen_leaks, f_param_pbc_param_init_f_gen_leaks,
    pairing_pairing_init_set_buf_leaks, singular_sn_pairing_leaks, pbc_v_builtin_leaks, pbc_run_nextprime_leaks,
    hess_main_leaks, paterson_main_leaks, yuanli_main_leaks, zhangkim_main_leaks⟩

/-- **C129** fails without bound: `n` calls of such a routine can leave `n` blocks allocated that were not before. -/
theorem C129_fails_calls (r : Routine) (h : r ∈ untidyArith ++ untidyEcc ++ untidyMisc) (n : ℕ) (H : Finset ℕ) :
    ∃ H', Calls r.code n H H' ∧ H ⊆ H' ∧ H.card + n ≤ H'.card := by
  have key : ∃ k, 0 < k ∧ Leaks r.code k := by
    simp only [untidyArith, untidyEcc, untidyMisc, List.cons_append, List.nil_append, List.mem_cons,
      List.not_mem_nil, or_false] at h
    rcases h with rfl | rfl | rfl | rfl | rfl | rfl | rfl | rfl | rfl | rfl | rfl | rfl | rfl | rfl | rfl
    · exact ⟨_, Nat.one_pos, fasterfp_fp_is_sqr_leaks⟩
    · exact ⟨_, Nat.one_pos, fastfp_fp_is_sqr_leaks⟩
    · exact ⟨_, Nat.one_pos, montfp_fp_is_sqr_leaks⟩
    · exact ⟨_, Nat.two_pos, random_file_mpz_random_leaks⟩
    · exact ⟨_, Nat.one_pos, tinyfp_fp_is_sqr_leaks⟩
    · exact ⟨_, Nat.two_pos, e_param_pbc_param_init_e_gen_leaks⟩
    · exact ⟨_, Nat.two_pos, f_param_pbc_param_init_f_gen_leaks⟩
    · exact ⟨_, Nat.one_pos, pairing_pairing_init_set_buf_leaks⟩
    · exact ⟨_, Nat.one_pos, singular_sn_pairing_leaks⟩
    · exact ⟨_, Nat.one_pos, hess_main_leaks⟩
    · exact ⟨_, Nat.two_pos, paterson_main_leaks⟩
    · exact ⟨_, Nat.one_pos, yuanli_main_leaks⟩
    · exact ⟨_, Nat.two_pos, zhangkim_main_leaks⟩
    · exact ⟨_, Nat.one_pos, pbc_v_builtin_leaks⟩
    · exact ⟨_, Nat.one_pos, pbc_run_nextprime_leaks⟩
  obtain ⟨k, hk, hl⟩ := key
  obtain ⟨H', c, hs, hc⟩ := leaks_calls hl n H
  exact ⟨H', c, hs, by rw [hc]; exact Nat.add_le_add_left (Nat.le_mul_of_pos_right n hk) _⟩

/-! ### The notions are not empty -/

/-- 239 routines are tidy, 15 are not. -/
example : (tidyArith ++ tidyEcc ++ tidyMisc).length = 239 ∧ (untidyArith ++ untidyEcc ++ untidyMisc).length = 15 := by
  decide +kernel

/-- A tidy routine that does return, after initialising three temporaries: addition of points. -/
example : Leaks curve_curve_mul.code 0 := leaks_of (n := 80) (l := [false, false, false]) (by decide +kernel)

/-- A routine that forgets to clear is not tidy. -/
example : ¬ Tidy [.init 0, .use 0, .ret] := fun h => by
  obtain ⟨s, r, t, -, hc⟩ := leaks_of (p := [.init 0, .use 0, .ret]) (n := 4) (l := []) (k := 1) (by decide +kernel) ∅
  rw [h.balanced ∅ s r t] at hc
  simp at hc

/-- Nor is one that clears twice. -/
example : ¬ Tidy [.init 0, .clear 0, .clear 0, .ret] := fun h => by
  have r := (Relation.ReflTransGen.refl (r := Step [.init 0, .clear 0, .clear 0, .ret]) (a := start ∅)).tail
    (.init (x := 0) (b := 0) rfl (by simp [start]))
  exact h.defined ∅ _ (r.tail (.clear (x := 0) (b := 0) rfl (by simp [St.own]))) (by simp [Undefined, St.own, start])

end Pbc.Life
