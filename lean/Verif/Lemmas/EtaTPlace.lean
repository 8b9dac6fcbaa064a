import Verif.Lemmas.EtaTMiller
import Verif.Lemmas.BaseChange

/-! # The distortion map and the bilinear pairing behind the type I pairing -/

set_option autoImplicit false
set_option linter.unusedSectionVars false

namespace Pbc.EtaT

open Spec Tate
open WeierstrassCurve.Affine

private instance : Fact (Nat.Prime 3) := ⟨by decide⟩

/-- The fields of `3^m`, `3^(3m)` and `3^(6m)` elements. -/
structure Tower (F K L : Type*) [Field F] [Fintype F] [Field K] [Field L] [Algebra F K] [Algebra K L] (m : ℕ)
    (ρ : K) (σ : L) : Prop where
  card : Fintype.card F = 3 ^ m
  hρ : ρ ^ 3 = ρ + 1
  hσ : σ ^ 2 = -1
  irr : ∀ y : K, σ ≠ algebraMap K L y
  frobK : ∀ z : K, z ^ 3 ^ (3 * m) = z
  frobL : ∀ z : L, z ^ 3 ^ (6 * m) = z

variable {F : Type*} [Field F] [DecidableEq F] [CharP F 3] [Fintype F]
  {K : Type*} [Field K] [DecidableEq K] [CharP K 3] {L : Type*} [Field L] [CharP L 3]
  [Algebra F K] [Algebra K L] {m : ℕ} {ρ : K} {σ : L}

section
omit [DecidableEq K] [Field L] [CharP L 3] [Algebra K L]

theorem rho_pow (hρ : ρ ^ 3 = ρ + 1) (j : ℕ) : ρ ^ 3 ^ j = ρ + j := by
  induction j with
  | zero => simp
  | succ j ih =>
    rw [pow_succ, pow_mul, ih]
    have := add_pow ρ (j : K) 1
    rw [cast_pow, pow_one, hρ] at this
    rw [this]
    push_cast
    ring

end

theorem sigma_pow (hσ : σ ^ 2 = -1) (j : ℕ) : σ ^ 3 ^ j = (-1) ^ j * σ := by
  induction j with
  | zero => simp
  | succ j ih =>
    rw [pow_succ, pow_mul, ih, mul_pow, pow_succ σ 2, hσ, ← pow_mul, mul_comm j 3, pow_mul]
    ring

/-- Cubing, into the cubic extension. -/
def cube (F K : Type*) [Field F] [CharP F 3] [Field K] [Algebra F K] : F →+* K :=
  (algebraMap F K).comp (frobenius F 3)

theorem cube_apply (x : F) : cube F K x = algebraMap F K x ^ 3 := by
  simp [cube, frobenius_def]

namespace Tower

variable (T : Tower F K L m ρ σ)

include T in
theorem cube_q (x : F) : cube F K x ^ 3 ^ m = cube F K x := by
  rw [← map_pow, pow_q T.card]

include T in
theorem alg_q (x : F) : algebraMap F K x ^ 3 ^ m = algebraMap F K x := by
  rw [← map_pow, pow_q T.card]

/-- The place of a point: `(x, y) ↦ (ρ - x³, σ y³)`. -/
def place (x y : F) (h : y ^ 2 = x ^ 3 - x + 1) (hy : y ≠ 0) : Place L (-1 : K) 1 where
  x := ρ - cube F K x
  Y := σ * algebraMap K L (cube F K y)
  eqn := by
    have h3 := three (F := K)
    have e := congrArg (cube F K) h
    have hc := sub_pow ρ (cube F K x) 1
    rw [pow_one, T.hρ] at hc
    simp only [map_add, map_sub, map_pow, map_one] at e
    rw [mul_pow, T.hσ, ← map_pow, e, neg_one_mul, ← map_neg]
    congr 1
    linear_combination -hc - h3
  irr := fun z e => by
    have hy' : algebraMap K L (cube F K y) ≠ 0 := by simpa using hy
    refine T.irr (z / cube F K y) ?_
    rw [map_div₀, eq_div_iff hy', e]

theorem place_dist (hm : m % 2 = 1) {x y : F} (h : y ^ 2 = x ^ 3 - x + 1) (hy : y ≠ 0) :
    Dist m (T.place x y h hy) where
  fx := by
    simp only [place]
    rw [sub_pow, rho_pow T.hρ, T.cube_q]
    ring
  fY := by
    simp only [place]
    rw [mul_pow, sigma_pow T.hσ, ← map_pow, T.cube_q, Odd.neg_one_pow (Nat.odd_iff.2 hm)]
    ring

theorem place_neg (x y : F) (h : y ^ 2 = x ^ 3 - x + 1) (hy : y ≠ 0) (h' : (-y) ^ 2 = x ^ 3 - x + 1)
    (hy' : -y ≠ 0) : T.place x (-y) h' hy' = (T.place x y h hy).neg := by
  simp [place, Place.neg]

theorem collinear {x₁ y₁ x₂ y₂ x₃ y₃ : F}
    {h₁ : (EC (-1 : F) 1).Nonsingular x₁ y₁} {h₂ : (EC (-1 : F) 1).Nonsingular x₂ y₂}
    {h₃ : (EC (-1 : F) 1).Nonsingular x₃ y₃}
    (hadd : Point.some x₁ y₁ h₁ + Point.some x₂ y₂ h₂ = Point.some x₃ y₃ h₃)
    (n₁ : y₁ ≠ 0) (n₂ : y₂ ≠ 0) (n₃ : y₃ ≠ 0) :
    ∃ s t, Collinear (T.place x₁ y₁ (eqn h₁) n₁) (T.place x₂ y₂ (eqn h₂) n₂)
      (T.place x₃ y₃ (eqn h₃) n₃) s t := by
  have hxy : ¬(x₁ = x₂ ∧ y₁ = (EC (-1 : F) 1).negY x₂ y₂) := by
    rintro ⟨hx, hy⟩
    rw [Point.add_of_Y_eq hx hy] at hadd
    exact Point.some_ne_zero _ hadd.symm
  rw [Point.add_some hxy] at hadd
  have hx3 : x₃ = _ := (Point.some.inj hadd).1.symm
  have hy3 : y₃ = _ := (Point.some.inj hadd).2.symm
  obtain ⟨e1, e2, e3⟩ := sym_slope h₁.left h₂.left hxy rfl hx3
  have hy2 : y₂ = (EC (-1 : F) 1).slope x₁ x₂ y₁ y₂ * (x₂ - x₁) + y₁ := by
    by_cases hx : x₁ = x₂
    · have hy := Y_eq_of_Y_ne h₁.left h₂.left hx (fun e => hxy ⟨hx, e⟩)
      rw [hy, hx]; ring
    · rw [slope_of_X_ne hx]
      have := sub_ne_zero.mpr hx
      field_simp
      ring
  have hy3' : y₃ = -((EC (-1 : F) 1).slope x₁ x₂ y₁ y₂ * (x₃ - x₁) + y₁) := by
    rw [hy3, hx3, addY, Pbc.Curve.negY_EC, negAddY]
  clear hy3 hadd hx3
  generalize (EC (-1 : F) 1).slope x₁ x₂ y₁ y₂ = s at *
  have h3 : (3 : L) = 0 := three (F := L)
  have e1' := congrArg (algebraMap K L) (congrArg (cube F K) e1)
  have e2' := congrArg (algebraMap K L) (congrArg (cube F K) e2)
  have e3' := congrArg (algebraMap K L) (congrArg (cube F K) e3)
  have hρ := congrArg (algebraMap K L) T.hρ
  have hσ := T.hσ
  subst hy2 hy3'
  refine ⟨-σ * algebraMap K L (cube F K s),
    σ * algebraMap K L (cube F K s * ρ + cube F K (y₁ - s * x₁)), ?_, ?_, ?_, ?_, ?_, ?_⟩
  all_goals simp only [place]
  all_goals simp only [map_add, map_mul, map_sub, map_neg, map_pow, map_ofNat, map_one] at *
  all_goals generalize algebraMap K L (cube F K s) = s at *
  all_goals generalize algebraMap K L (cube F K x₁) = x₁ at *
  all_goals generalize algebraMap K L (cube F K x₂) = x₂ at *
  all_goals generalize algebraMap K L (cube F K x₃) = x₃ at *
  all_goals generalize algebraMap K L (cube F K y₁) = y₁ at *
  all_goals generalize algebraMap K L ρ = ρ at *
  · linear_combination s ^ 2 * hσ - e1' - ρ * h3
  · linear_combination (2 * s * (s * ρ + (y₁ - s * x₁))) * hσ + e2' - 2 * ρ * e1' - ρ ^ 2 * h3
  · linear_combination (s * ρ + (y₁ - s * x₁)) ^ 2 * hσ - ρ ^ 2 * e1' - e3' + ρ * e2' - hρ - h3
  · ring
  · ring
  · ring

/-! ### Bilinearity of the pairing with distorted points -/

/-- The Tate pairing of a point with the place of a point. -/
noncomputable def tateD (r e : ℕ) (P : (EC (-1 : K) 1).Point) : (EC (-1 : F) 1).Point → L
  | .zero => 1
  | .some x y h => if hy : y = 0 then 1 else tate r e P (T.place x y (eqn h) hy)

theorem tateD_zero_right (r e : ℕ) (P : (EC (-1 : K) 1).Point) : T.tateD r e P 0 = 1 := rfl

theorem tateD_some (r e : ℕ) (P : (EC (-1 : K) 1).Point) {x y : F} (h : (EC (-1 : F) 1).Nonsingular x y)
    (hy : y ≠ 0) : T.tateD r e P (.some x y h) = tate r e P (T.place x y (eqn h) hy) := by
  rw [tateD, dif_neg hy]

theorem tateD_zero_left (r e : ℕ) (Q : (EC (-1 : F) 1).Point) : T.tateD r e 0 Q = 1 := by
  rcases Q with _ | ⟨x, y, h⟩
  · rfl
  · rw [tateD]; split_ifs
    · rfl
    · exact tate_zero _ _ _

variable {r e : ℕ} {P P₁ P₂ : (EC (-1 : K) 1).Point}

theorem tateD_add_left (hk : Kills K L r e) (h0 : r ≠ 0) (h₁ : r • P₁ = 0) (h₂ : r • P₂ = 0)
    (Q : (EC (-1 : F) 1).Point) :
    T.tateD r e (P₁ + P₂) Q = T.tateD r e P₁ Q * T.tateD r e P₂ Q := by
  rcases Q with _ | ⟨x, y, h⟩
  · simp [tateD]
  · simp only [tateD]; split_ifs
    · simp
    · exact tate_add_left hk h0 h₁ h₂ _

theorem tateD_pow (hk : Kills K L r e) (h0 : r ≠ 0) (hr : r • P = 0) (Q : (EC (-1 : F) 1).Point) :
    T.tateD r e P Q ^ r = 1 := by
  rcases Q with _ | ⟨x, y, h⟩
  · simp [tateD]
  · simp only [tateD]; split_ifs
    · simp
    · exact tate_pow hk h0 hr _

theorem tateD_add_right (hk : Kills K L r e) (hodd : Odd r) (hr : r • P = 0)
    {Q₁ Q₂ : (EC (-1 : F) 1).Point} (h₁ : r • Q₁ = 0) (h₂ : r • Q₂ = 0) :
    T.tateD r e P (Q₁ + Q₂) = T.tateD r e P Q₁ * T.tateD r e P Q₂ := by
  have h0 : r ≠ 0 := hodd.pos.ne'
  by_cases z : P = 0
  · rw [z]; simp [tateD_zero_left]
  obtain ⟨f, F⟩ := exists_full (L := L) z h0 hr
  have h₃ : r • (Q₁ + Q₂) = 0 := by rw [smul_add, h₁, h₂, add_zero]
  rcases Q₁ with _ | ⟨x₁, y₁, n₁⟩
  · change T.tateD r e P (0 + Q₂) = T.tateD r e P 0 * _
    rw [zero_add, tateD_zero_right, one_mul]
  rcases Q₂ with _ | ⟨x₂, y₂, n₂⟩
  · change T.tateD r e P (_ + 0) = _ * T.tateD r e P 0
    rw [add_zero, tateD_zero_right, mul_one]
  have m₁ := y_ne_of_odd n₁ hodd h₁
  have m₂ := y_ne_of_odd n₂ hodd h₂
  rcases h : Point.some x₁ y₁ n₁ + Point.some x₂ y₂ n₂ with _ | ⟨x₃, y₃, n₃⟩
  · change T.tateD r e P 0 = _
    have hneg : Point.some x₂ y₂ n₂ = -Point.some x₁ y₁ n₁ :=
      (neg_eq_of_add_eq_zero_right h).symm
    rw [Point.neg_some, Point.some.injEq, Pbc.Curve.negY_EC] at hneg
    obtain ⟨rfl, rfl⟩ := hneg
    rw [tateD_zero_right, T.tateD_some r e P n₁ m₁, T.tateD_some r e P n₂ m₂, tate_eq hk z F,
      tate_eq hk z F, T.place_neg x₂ y₁ (eqn n₁) m₁, Full.neg_right hk F]
  · rw [h] at h₃
    have m₃ := y_ne_of_odd n₃ hodd h₃
    obtain ⟨s, t, hc⟩ := T.collinear h m₁ m₂ m₃
    rw [T.tateD_some r e P n₁ m₁, T.tateD_some r e P n₂ m₂, T.tateD_some r e P n₃ m₃, tate_eq hk z F,
      tate_eq hk z F, tate_eq hk z F, Full.add_right hk F hc]

end Tower

/-! ### The exponent -/

theorem order_odd (hg : Good m) : Odd (Spec.EtaT.order m) := by
  have h := order_mu hg
  have o1 : Odd ((3 : ℤ) ^ m) := Odd.pow (by decide)
  have o2 : Odd ((3 : ℤ) ^ ((m + 1) / 2)) := Odd.pow (by decide)
  have o3 : Odd (mu m) := by rcases mu_cases m with e | e <;> rw [e] <;> decide
  have : Odd ((Spec.EtaT.order m : ℕ) : ℤ) := by
    rw [h]
    exact (o1.add_odd odd_one).add_odd (o3.mul o2)
  exact_mod_cast this

theorem order_coprime (hg : Good m) : Nat.Coprime 3 (Spec.EtaT.order m) := by
  rw [Nat.Prime.coprime_iff_not_dvd (by decide)]
  intro hd
  have h := order_mu hg
  have h1 : (3 : ℤ) ∣ (Spec.EtaT.order m : ℕ) := by exact_mod_cast hd
  rw [h] at h1
  have h2 : (3 : ℤ) ∣ 3 ^ m := dvd_pow_self _ (by unfold Good at hg; omega)
  have h3 : (3 : ℤ) ∣ mu m * 3 ^ ((m + 1) / 2) := Dvd.dvd.mul_left (dvd_pow_self _ (by unfold Good at hg; omega)) _
  have h4 : (3 : ℤ) ∣ 1 := by
    have := dvd_sub (dvd_sub h1 h3) h2
    have e : (3 : ℤ) ^ m + 1 + mu m * 3 ^ ((m + 1) / 2) - mu m * 3 ^ ((m + 1) / 2) - 3 ^ m = 1 := by ring
    rwa [e] at this
  exact absurd h4 (by decide)

theorem conj_cast (hg : Good m) : (((3 : ℤ) ^ m + 1 - Spec.EtaT.trace m).toNat : ℤ) =
    3 ^ m + 1 - mu m * 3 ^ ((m + 1) / 2) := by
  have h1 := h_le hg
  have h2 : (0 : ℤ) < 3 ^ ((m + 1) / 2) := by positivity
  rw [trace_eq, Int.toNat_of_nonneg]
  rcases mu_cases m with e | e <;> rw [e] <;> linarith

theorem order_mul_expo (hg : Good m) : Spec.EtaT.order m * Spec.EtaT.expo m = 3 ^ (6 * m) - 1 := by
  have hmu2 : mu m * mu m = 1 := by rcases mu_cases m with e | e <;> rw [e] <;> rfl
  have h1 : 1 ≤ 3 ^ (3 * m) := Nat.one_le_pow _ _ (by decide)
  have h2 : 1 ≤ 3 ^ (6 * m) := Nat.one_le_pow _ _ (by decide)
  have : ((Spec.EtaT.order m * Spec.EtaT.expo m : ℕ) : ℤ) = ((3 ^ (6 * m) - 1 : ℕ) : ℤ) := by
    rw [Spec.EtaT.expo]
    push_cast [Nat.cast_sub h1, Nat.cast_sub h2]
    rw [conj_cast hg, order_mu hg, mul_comm 3 m, mul_comm 6 m, pow_mul, pow_mul]
    have hs := sq_h hg
    generalize (3 : ℤ) ^ ((m + 1) / 2) = s at *
    generalize (3 : ℤ) ^ m = q at *
    linear_combination (-(q ^ 3 - 1) * (q + 1) * s ^ 2) * hmu2 - (q ^ 3 - 1) * (q + 1) * hs
  exact_mod_cast this

theorem Tower.kills (T : Tower F K L m ρ σ) (hg : Good m) :
    Kills K L (Spec.EtaT.order m) (Spec.EtaT.expo m) where
  const c hc := by
    have h1 : 1 ≤ 3 ^ (3 * m) := Nat.one_le_pow _ _ (by decide)
    have : c ^ (3 ^ (3 * m) - 1) = 1 := by
      have e := T.frobK c
      rw [← Nat.sub_add_cancel h1, pow_succ] at e
      exact mul_right_cancel₀ hc (by rw [e, one_mul])
    rw [Spec.EtaT.expo, mul_assoc, pow_mul, ← map_pow, this, map_one, one_pow]
  rpow z hz := by
    have h1 : 1 ≤ 3 ^ (6 * m) := Nat.one_le_pow _ _ (by decide)
    rw [← pow_mul, order_mul_expo hg]
    have e := T.frobL z
    rw [← Nat.sub_add_cancel h1, pow_succ] at e
    exact mul_right_cancel₀ hz (by rw [e, one_mul])

/-! ### Points over the large field -/

theorem exists_up (F K : Type*) [Field F] [DecidableEq F] [CharP F 3] [Field K] [DecidableEq K] [Algebra F K] :
    ∃ ι : (EC (-1 : F) 1).Point →+ (EC (-1 : K) 1).Point,
      ∀ x y h, ∃ h', ι (.some x y h) = .some (algebraMap F K x) (algebraMap F K y) h' := by
  have aux : ∀ {a' b' : K}, algebraMap F K (-1) = a' → algebraMap F K 1 = b' →
      ∃ ι : (EC (-1 : F) 1).Point →+ (EC a' b').Point,
        ∀ x y h, ∃ h', ι (.some x y h) = .some (algebraMap F K x) (algebraMap F K y) h' := by
    rintro _ _ rfl rfl
    exact ⟨AddMonoidHom.mk' Pbc.PairingD.incl (Pbc.PairingD.incl_add two_ne), fun x y h => ⟨_, rfl⟩⟩
  exact aux (by simp) (by simp)

/-- The inclusion of points. -/
noncomputable def up (F K : Type*) [Field F] [DecidableEq F] [CharP F 3] [Field K] [DecidableEq K] [Algebra F K] :
    (EC (-1 : F) 1).Point →+ (EC (-1 : K) 1).Point := (exists_up F K).choose

theorem up_pt {x y : F} (h : y ^ 2 = x ^ 3 - x + 1) :
    ∃ h', up F K (pt x y h) = pt (algebraMap F K x) (algebraMap F K y) h' := by
  obtain ⟨h', e⟩ := (exists_up F K).choose_spec x y (nonsing h)
  exact ⟨eqn h', e⟩

/-- The multiple of the first point whose function the loop computes. -/
def wmul (m : ℕ) : ℤ := if m % 3 = 1 then -1 else 3 ^ m * 3 ^ m

theorem wmul_pt (hg : Good m) {x y : K} (qx : x ^ 3 ^ m = x) (qy : y ^ 3 ^ m = y)
    (h : y ^ 2 = x ^ 3 - x + 1) :
    ∃ h', wmul m • pt x y h =
      pt (x + ((m - 1) / 2 : ℕ)) ((-1) ^ ((m - 1) / 2) * (-(mu m : ℤ) * y)) h' := by
  have key : ∀ a b : ℕ, a % 3 = b % 3 → (a : K) = b := fun a b h => cast_mod h
  have h3 := three (F := K)
  have : (m % 3 = 1 ∧ (m - 1) / 2 % 3 = 0 ∧ (-1) ^ ((m - 1) / 2) * (-(mu m : ℤ) * y) = -y) ∨
      (m % 3 = 2 ∧ (m - 1) / 2 % 3 = 2 ∧ (-1) ^ ((m - 1) / 2) * (-(mu m : ℤ) * y) = y) := by
    rcases hg with h | h | h | h
    · refine Or.inl ⟨by omega, by omega, ?_⟩
      rw [mu, if_pos (Or.inl h), Even.neg_one_pow (Nat.even_iff.2 (by omega))]; simp
    · refine Or.inr ⟨by omega, by omega, ?_⟩
      rw [mu, if_neg (by omega), Even.neg_one_pow (Nat.even_iff.2 (by omega))]; simp
    · refine Or.inl ⟨by omega, by omega, ?_⟩
      rw [mu, if_neg (by omega), Odd.neg_one_pow (Nat.odd_iff.2 (by omega))]; simp
    · refine Or.inr ⟨by omega, by omega, ?_⟩
      rw [mu, if_pos (Or.inr h), Odd.neg_one_pow (Nat.odd_iff.2 (by omega))]; simp
  rcases this with ⟨h1, h2, h4⟩ | ⟨h1, h2, h4⟩
  · have ex : x = x + ((m - 1) / 2 : ℕ) := by rw [key _ 0 h2]; simp
    have hn : (-y) ^ 2 = x ^ 3 - x + 1 := by rw [neg_sq, h]
    have e : wmul m • pt x y h = pt x (-y) hn := by rw [wmul, if_pos h1, neg_smul, one_smul, pt_neg]
    exact ⟨by rw [← ex, h4, hn], e.trans (pt_congr ex h4.symm)⟩
  · obtain ⟨n1, e1⟩ := smul_q hg.odd qx qy h
    obtain ⟨n2, e2⟩ := smul_q hg.odd (x := x - m) (y := -y) (by rw [sub_pow, qx, cast_pow])
      (by rw [Odd.neg_pow (Odd.pow (by decide)), qy]) n1
    have ex : x - m - m = x + ((m - 1) / 2 : ℕ) := by
      rw [key _ 2 h2, key m 2 h1]; push_cast; linear_combination (-2 : K) * h3
    have e : wmul m • pt x y h = pt (x - m - m) (-(-y)) n2 := by
      rw [wmul, if_neg (by omega), mul_smul]
      have : ((3 : ℤ) ^ m) • ((3 : ℤ) ^ m) • pt x y h = (3 ^ m : ℕ) • (3 ^ m : ℕ) • pt x y h := by
        rw [← natCast_zsmul, ← natCast_zsmul]; push_cast; rfl
      rw [this, e1, e2]
    have ey : -(-y) = (-1) ^ ((m - 1) / 2) * (-(mu m : ℤ) * y) := by rw [h4, neg_neg]
    exact ⟨by rw [← ex, ← ey, n2], e.trans (pt_congr ex ey)⟩

end Pbc.EtaT
