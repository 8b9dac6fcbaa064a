import Verif.Model.GetTime
import Mathlib.Tactic.Ring
import Mathlib.Tactic.NormNum
import Mathlib.Tactic.Linarith
import Mathlib.Tactic.FieldSimp

/-! # C149: `pbc_get_time` -/

set_option autoImplicit false
set_option linter.style.longLine false

namespace Pbc.GetTime

/-- What a clock shows, in seconds. -/
def secs (t : Tv) : ℚ := t.sec + t.usec / 1000000

/-- A proper reading on a machine whose `long` has `w` bits: differences of such readings do not overflow. -/
def Proper (w : ℕ) (t : Tv) : Prop := 0 ≤ t.sec ∧ t.sec < 2 ^ (w - 1) ∧ 0 ≤ t.usec ∧ t.usec < 1000000

theorem subLong_proper {w : ℕ} {a b : ℤ} (h1 : 0 ≤ a) (h2 : a < 2 ^ (w - 1)) (h3 : 0 ≤ b) (h4 : b < 2 ^ (w - 1)) :
    subLong w a b = some (a - b) := if_pos ⟨by linarith, by linarith⟩

theorem calls_later {w : ℕ} (hw : 32 ≤ w) (l : List Tv) (hl : ∀ t ∈ l, Proper w t) (st : St) (hf : st.first = false)
    (hp : Proper w st.last) : calls w st l = some (l.map fun t => st.res + (secs t - secs st.last)) := by
  have hb : (1000000 : ℤ) ≤ 2 ^ (w - 1) := by
    have : (2 : ℤ) ^ 31 ≤ 2 ^ (w - 1) := pow_le_pow_right₀ (by norm_num) (by omega)
    linarith [show (1000000 : ℤ) ≤ 2 ^ 31 by norm_num]
  induction l generalizing st with
  | nil => rfl
  | cons t l ih =>
    obtain ⟨a1, a2, a3, a4⟩ := hl t (by simp)
    obtain ⟨b1, b2, b3, b4⟩ := hp
    rw [calls, getTime, if_neg (by simp [hf]), subLong_proper a1 a2 b1 b2, subLong_proper a3 (by linarith) b3 (by linarith)]
    dsimp only [Option.bind_some]
    rw [ih (fun x hx => hl x (by simp [hx])) _ rfl ⟨a1, a2, a3, a4⟩, Option.map_some, List.map_cons]
    have he : ∀ x : ℚ, st.res + ((t.sec - st.last.sec : ℤ) : ℚ) + ((t.usec - st.last.usec : ℤ) : ℚ) / 1000000 + (x - secs t) =
        st.res + (x - secs st.last) := fun x => by
      unfold secs; push_cast; ring
    congr 1
    congr 1
    · have := he (secs t)
      rw [sub_self, add_zero] at this
      exact this
    · exact List.map_congr_left fun x _ => he (secs x)

/-- **C149**: the first call returns 0 and every later call the time on the clock since the first, whatever calls there were
in between and even if the clock is set back. -/
theorem C149_elapsed {w : ℕ} (hw : 32 ≤ w) (t₀ : Tv) (l : List Tv) (h0 : Proper w t₀) (hl : ∀ t ∈ l, Proper w t) :
    calls w start (t₀ :: l) = some (0 :: l.map fun t => secs t - secs t₀) := by
  rw [calls, getTime, if_pos (by rfl)]
  dsimp only [Option.bind_some]
  rw [calls_later hw l hl _ rfl h0, Option.map_some]
  simp [start]

/-- **C149**: the difference of what two calls return is the time between them, as the benchmarks use it. -/
theorem C149_difference {w : ℕ} (hw : 32 ≤ w) (l : List Tv) (hl : ∀ t ∈ l, Proper w t) (i j : ℕ) (hi : i < l.length)
    (hj : j < l.length) : ∃ rs, calls w start l = some rs ∧ ∃ (hi' : i < rs.length) (hj' : j < rs.length),
      rs[j] - rs[i] = secs l[j] - secs l[i] := by
  obtain _ | ⟨t₀, l⟩ := l
  · simp at hi
  · refine ⟨_, C149_elapsed hw t₀ l (hl _ (by simp)) fun t ht => hl t (by simp [ht]), by simpa using hi, by simpa using hj, ?_⟩
    have key : ∀ (k : ℕ) (h1 : k < (0 :: l.map fun t => secs t - secs t₀).length) (h2 : k < (t₀ :: l).length),
        (0 :: l.map fun t => secs t - secs t₀)[k] = secs (t₀ :: l)[k] - secs t₀ := by
      intro k h1 h2
      cases k <;> simp
    rw [key j _ hj, key i _ hi]
    ring

/-- 1 January 1970 in the count of Windows. -/
def epoch : ℤ := 116444736000000000

/-- **C149**: on Windows, from 1970 until a `long` is full in 2038, the reading is proper and is the time since 1970 rounded
down to microseconds. -/
theorem C149_windows_partial {n : ℤ} (h0 : epoch ≤ n) (h1 : n < epoch + 2 ^ 31 * 10000000) :
    Proper 32 (winTv n) ∧ secs (winTv n) = ((n - epoch) / 10 : ℤ) / 1000000 := by
  unfold epoch at *
  have e1 : (n - 116444736000000000).tdiv 10000000 = (n - 116444736000000000) / 10000000 := Int.tdiv_eq_ediv_of_nonneg (by omega)
  have e2 : (n.tdiv 10).tmod 1000000 = n / 10 % 1000000 := by
    rw [Int.tdiv_eq_ediv_of_nonneg (by omega), Int.tmod_eq_emod_of_nonneg (by omega)]
  have e3 : toLong ((n - 116444736000000000) / 10000000) = (n - 116444736000000000) / 10000000 := by unfold toLong; omega
  have e4 : toLong (n / 10 % 1000000) = n / 10 % 1000000 := by unfold toLong; omega
  have e : winTv n = ⟨(n - 116444736000000000) / 10000000, n / 10 % 1000000⟩ := by rw [winTv, e1, e2, e3, e4]
  rw [e]
  constructor
  · unfold Proper; dsimp only; omega
  · unfold secs
    dsimp only
    have : (n - 116444736000000000) / 10 = (n - 116444736000000000) / 10000000 * 1000000 + n / 10 % 1000000 := by omega
    rw [this]
    push_cast
    field_simp

/-- **C149**: on Windows the claim fails when the clock passes the second at which a `long` is full: the difference overflows. -/
theorem C149_windows_fails {n m : ℤ} (h0 : epoch ≤ n) (h1 : n < epoch + 2 ^ 31 * 10000000) (h2 : epoch + 2 ^ 31 * 10000000 ≤ m)
    (h3 : m ≤ n + (2 ^ 31 - 1) * 10000000) (l : List Tv) : calls 32 start (winTv n :: winTv m :: l) = none := by
  unfold epoch at *
  have e : ∀ k, 116444736000000000 ≤ k → (winTv k).sec = toLong ((k - 116444736000000000) / 10000000) := fun k hk => by
    rw [winTv]; dsimp only; rw [Int.tdiv_eq_ediv_of_nonneg (by omega)]
  have hs : subLong 32 (winTv m).sec (winTv n).sec = none := by
    rw [subLong, if_neg]
    rw [e m (by omega), e n h0]
    unfold toLong
    omega
  rw [calls, getTime, if_pos (by rfl)]
  dsimp only [Option.bind_some]
  rw [calls, getTime, if_neg (by simp), hs]
  rfl

/-- Three calls, one and a half and then half a second apart. -/
example : calls 64 start [⟨10, 700000⟩, ⟨12, 200000⟩, ⟨12, 700000⟩] = some [0, 3 / 2, 2] := by
  rw [C149_elapsed (by norm_num) _ _ (by unfold Proper; norm_num) (by
    intro t ht
    simp only [List.mem_cons, List.not_mem_nil, or_false] at ht
    rcases ht with rfl | rfl <;> (unfold Proper; norm_num))]
  norm_num [secs]

/-- One second before and one second after the moment in 2038. -/
example : calls 32 start [winTv (epoch + 2 ^ 31 * 10000000 - 10000000), winTv (epoch + 2 ^ 31 * 10000000 + 10000000)] = none :=
  C149_windows_fails (by norm_num [epoch]) (by norm_num [epoch]) (by norm_num [epoch]) (by norm_num [epoch]) []

end Pbc.GetTime
