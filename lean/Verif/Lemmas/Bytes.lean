import Verif.Model.Bytes
import Verif.Lemmas.Mpn

/-! Lemmas on byte encodings. -/

namespace Pbc

theorem importBE_foldl (l : List ℕ) (acc : ℕ) :
    l.foldl (fun acc b => 256 * acc + b) acc = 256 ^ l.length * acc + importBE l := by
  induction l generalizing acc with
  | nil => simp [importBE]
  | cons x xs ih =>
    simp only [List.foldl_cons, List.length_cons, importBE]
    rw [ih, ih (256 * 0 + x), pow_succ]; ring

theorem importBE_cons (x : ℕ) (xs : List ℕ) :
    importBE (x :: xs) = 256 ^ xs.length * x + importBE xs := by
  conv_lhs => unfold importBE
  rw [List.foldl_cons, importBE_foldl]; simp

theorem importBE_append (a b : List ℕ) :
    importBE (a ++ b) = 256 ^ b.length * importBE a + importBE b := by
  conv_lhs => unfold importBE
  rw [List.foldl_append, importBE_foldl]; rfl

theorem importBE_eq_val (l : List ℕ) : importBE l = val 256 l.reverse := by
  induction l with
  | nil => rfl
  | cons x xs ih =>
    rw [importBE_cons, List.reverse_cons, val_append, ih]
    simp [val]; ring

theorem importBE_replicate_zero (n : ℕ) (l : List ℕ) :
    importBE (List.replicate n 0 ++ l) = importBE l := by
  rw [importBE_append]
  have : importBE (List.replicate n 0) = 0 := by
    induction n with
    | zero => rfl
    | succ n ih => rw [List.replicate_succ, importBE_cons, ih]; simp
  rw [this]; simp

theorem importBE_lt {l : List ℕ} (h : ∀ x ∈ l, x < 256) : importBE l < 256 ^ l.length := by
  rw [importBE_eq_val]
  have := val_lt (β := 256) (t := l.length) (l := l.reverse)
    ⟨by simp, fun x hx => h x (List.mem_reverse.1 hx)⟩
  exact this

theorem lt_pow_count (z : ℕ) : z < 256 ^ ((Nat.size z + 7) / 8) := by
  have h1 : (256 : ℕ) = 2 ^ 8 := by norm_num
  rw [h1, ← pow_mul]
  exact lt_of_lt_of_le (Nat.lt_size_self z) (Nat.pow_le_pow_right (by norm_num) (by omega))

theorem count_le {n z : ℕ} (h : z < 256 ^ n) : (Nat.size z + 7) / 8 ≤ n := by
  have h1 : (256 : ℕ) = 2 ^ 8 := by norm_num
  rw [h1, ← pow_mul] at h
  have := Nat.size_le.2 h
  omega

/-- `pbc_mpz_out_raw_n` on a number that fits. -/
theorem outRawN_spec {n z : ℕ} (h : z < 256 ^ n) :
    ∃ l, outRawN n z = some l ∧ l.length = n ∧ (∀ x ∈ l, x < 256) ∧ importBE l = z := by
  unfold outRawN
  split
  · rename_i h0
    refine ⟨_, rfl, by simp, fun x hx => by rw [List.eq_of_mem_replicate hx]; norm_num, ?_⟩
    have := importBE_replicate_zero n []
    rw [List.append_nil] at this
    rw [this, h0]; rfl
  · have hc := count_le h
    have hl := toLimbs_limbs (β := 256) (by norm_num) ((Nat.size z + 7) / 8) z
    simp only
    rw [if_neg (by omega)]
    refine ⟨_, rfl, ?_, ?_, ?_⟩
    · simp only [List.length_append, List.length_replicate, exportBE, List.length_reverse, hl.1]
      omega
    · intro x hx
      rcases List.mem_append.1 hx with hx | hx
      · rw [List.eq_of_mem_replicate hx]; norm_num
      · exact hl.2 x (List.mem_reverse.1 hx)
    · rw [importBE_replicate_zero, importBE_eq_val, exportBE, List.reverse_reverse,
        val_toLimbs_of_lt (lt_pow_count z)]

/-- Numbers that do not fit are written out of bounds. -/
theorem outRawN_none {n z : ℕ} (h : 256 ^ n ≤ z) : outRawN n z = none := by
  unfold outRawN
  have h0 : z ≠ 0 := by
    have : 0 < 256 ^ n := by positivity
    omega
  rw [if_neg h0]
  simp only
  rw [if_pos]
  by_contra hc
  push Not at hc
  have h1 := lt_pow_count z
  have h2 : 256 ^ ((Nat.size z + 7) / 8) ≤ 256 ^ n := Nat.pow_le_pow_right (by norm_num) hc
  omega

theorem lt_fpLength {p x : ℕ} (h : x < p) : x < 256 ^ fpLength p :=
  h.trans (lt_pow_count p)

theorem importBE_inj {a b : List ℕ} (hlen : a.length = b.length) (ha : ∀ x ∈ a, x < 256)
    (hb : ∀ x ∈ b, x < 256) (h : importBE a = importBE b) : a = b := by
  rw [importBE_eq_val, importBE_eq_val] at h
  have := val_inj (β := 256) (t := a.length)
    ⟨by simp, fun x hx => ha x (List.mem_reverse.1 hx)⟩
    ⟨by simp [hlen], fun x hx => hb x (List.mem_reverse.1 hx)⟩ h
  exact List.reverse_injective this

end Pbc
