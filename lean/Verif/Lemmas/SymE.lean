import Verif.Lemmas.NonDegE

/-!
# The pairing over the field of the curve is symmetric

When `r²` divides `q - 1`, the value of the function of `P` at `Q` and that of the function of `Q` at `P` have the
same `(q - 1) / r`-th power.  This is proved along Miller's chain for `Q`, with the reciprocity of the function of
`P` with lines.
-/

set_option autoImplicit false
set_option linter.unusedSectionVars false

namespace TateK

open WeierstrassCurve WeierstrassCurve.Affine WeierstrassCurve.Affine.CoordinateRing Polynomial
open Spec (EC tors mem_tors)
open Tate (eqn_of IsLine exists_line)

variable {K : Type*} [Field K] [DecidableEq K] {a b : K} {H : AddSubgroup (EC a b).Point}
  {P Q : (EC a b).Point} {r e : ℕ}

/-! ### Smaller subgroups -/

theorem Avoids.mono {M : Type*} [AddCommGroup M] {H H' : AddSubgroup M} (h : H' ≤ H) (hav : Avoids H) : Avoids H' := by
  intro a b c d
  obtain ⟨R, h1, h2, h3, h4⟩ := hav a b c d
  exact ⟨R, fun k => h1 (h k), fun k => h2 (h k), fun k => h3 (h k), fun k => h4 (h k)⟩

/-- A point off `H` is off every smaller subgroup. -/
def Off.incl {H' : AddSubgroup (EC a b).Point} (h : H' ≤ H) (A : Off H) : Off H' := ⟨A.x, A.y, A.ns, fun k => A.off (h k)⟩

theorem MilK.incl {H' : AddSubgroup (EC a b).Point} (h : H' ≤ H) {n : ℤ} {f : Off H' → K} (hf : MilK H' P n f) :
    MilK H P n (fun A => f (A.incl h)) := by
  induction hf with
  | one => exact MilK.one
  | @add n m f g α β γ hf hg hl ihf ihg =>
    refine MilK.scale (MilK.add ihf ihg hl) one_ne_zero (fun A => ?_)
    rw [one_mul]
    dsimp only
    have e2 : vval (n • P + m • P) (A.incl h) = vval (n • P + m • P) A := by
      cases n • P + m • P <;> rfl
    rw [e2]
    rfl
  | @neg n f hf ih =>
    refine MilK.scale (MilK.neg ih) one_ne_zero (fun A => ?_)
    rw [one_mul]
    dsimp only
    have e2 : vval (n • P) (A.incl h) = vval (n • P) A := by
      cases n • P <;> rfl
    rw [e2]
  | @scale n f g c hf hc he ih => exact MilK.scale ih hc (fun A => he _)

theorem IsChar.incl {H' : AddSubgroup (EC a b).Point} (h : H' ≤ H) {f : Off H' → K} {χ : (EC a b).Point → K}
    (hχ : IsChar r e f χ) : IsChar r e (fun A : Off H => f (A.incl h)) χ where
  add := hχ.add
  ne := hχ.ne
  root := hχ.root
  val A B := hχ.val (A.incl h) (B.incl h)

theorem vval_of {H' : AddSubgroup (EC a b).Point} (A : Off H) {C : Off H'} (h : C.pt = P) : vval P A = A.x - C.x := by
  subst h; rfl

theorem lvK_of {H' : AddSubgroup (EC a b).Point} {C : Off H'} (h : C.pt = P) (s t : K) :
    lvK s t P = C.y - s * C.x - t := by
  subst h; rfl

/-- A function for `P` off the multiples of `P`. -/
theorem exists_full_incl (hp : r.Prime) (hP : P ≠ 0) (hr : r • P = 0) (h : AddSubgroup.zmultiples P ≤ H) :
    ∃ f : Off (AddSubgroup.zmultiples P) → K, FullK _ P r f ∧ FullK H P r (fun A => f (A.incl h)) := by
  have hord : addOrderOf P = r :=
    ((Nat.dvd_prime hp).1 (addOrderOf_dvd_of_nsmul_eq_zero hr)).resolve_left
      fun h => hP (AddMonoid.addOrderOf_eq_one_iff.1 h)
  have h2 := hp.two_le
  obtain ⟨m, hm⟩ := exists_milK (H := AddSubgroup.zmultiples P) P (r - 2) (fun m h2 h3 h4 => by
    have := Nat.le_of_dvd (by omega) (addOrderOf_dvd_of_nsmul_eq_zero h4)
    omega)
  have hn : (((r - 2 + 1 : ℕ) : ℤ)) + 1 = r := by omega
  have hmem := AddSubgroup.mem_zmultiples P
  refine ⟨_, hm.full_pred hmem hr hn, ?_⟩
  have := (hm.incl h).full_pred (h hmem) hr hn
  convert this using 3 with A
  rcases P with _ | ⟨x, y, hn⟩ <;> rfl

/-! ### Normalised functions -/

/-- Functions with the constants of reciprocity equal to `-1`. -/
structure NormK (H : AddSubgroup (EC a b).Point) (P : (EC a b).Point) (r : ℕ) (f : Off H → K) : Prop where
  full : FullK H P r f
  tri : ∀ A B C s t, Col (H := H) A B C s t → f A * f B * f C = -lvK s t P ^ r
  pair : ∀ A B : Off H, B.pt = -A.pt → f A * f B = -vval P A ^ r

theorem FullK.smul {f : Off H → K} (hf : FullK H P r f) {c : K} (hc : c ≠ 0) : FullK H P r (fun A => c * f A) where
  div := hf.div.smul hc (fun _ => rfl)
  recip := by
    obtain ⟨d, hd, h⟩ := hf.recip
    refine ⟨c ^ 3 * d, mul_ne_zero (pow_ne_zero 3 hc) hd, fun A B C s t k => ?_⟩
    linear_combination c ^ 3 * h A B C s t k
  recipV := by
    obtain ⟨d, hd, h⟩ := hf.recipV
    refine ⟨c ^ 2 * d, mul_ne_zero (pow_ne_zero 2 hc) hd, fun A B k => ?_⟩
    linear_combination c ^ 2 * h A B k

theorem exists_neg (A : Off H) : ∃ B : Off H, B.pt = -A.pt :=
  exists_off fun h => A.pt_notMem (by simpa using H.neg_mem h)

theorem exists_triple (hav : Avoids H) : ∃ A B C : Off H, A.pt + B.pt + C.pt = 0 := by
  obtain ⟨R, h1, -, -, -⟩ := hav 0 0 0 0
  rw [zero_add] at h1
  obtain ⟨S, h2, h3, -, -⟩ := hav 0 R 0 0
  rw [zero_add] at h2
  obtain ⟨A, hA⟩ := exists_off h1
  obtain ⟨B, hB⟩ := exists_off h2
  obtain ⟨C, hC⟩ := exists_off (H := H) (P := -(R + S)) (fun h => h3 (by simpa using H.neg_mem h))
  exact ⟨A, B, C, by rw [hA, hB, hC]; abel⟩

theorem FullK.exists_norm {f : Off H → K} (hf : FullK H P r f) (hodd : Odd r) (hP : P ∈ H) (h0 : P ≠ 0) (hav : Avoids H) :
    ∃ c : K, c ≠ 0 ∧ NormK H P r (fun A => c * f A) := by
  obtain ⟨c, hc, h3⟩ := hf.recip
  obtain ⟨d, hd, h2⟩ := hf.recipV
  obtain ⟨A, B, C, hABC⟩ := exists_triple hav
  obtain ⟨A', hA'⟩ := exists_neg A
  obtain ⟨B', hB'⟩ := exists_neg B
  obtain ⟨C', hC'⟩ := exists_neg C
  obtain ⟨s, t, hco⟩ := exists_col hABC
  have coords : ∀ {A A' : Off H}, A'.pt = -A.pt → A'.x = A.x ∧ A'.y = -A.y := by
    intro A A' h
    rw [Off.pt, Off.pt, Point.neg_some] at h
    obtain ⟨h1, h2⟩ := Point.some.inj h
    rw [Pbc.Curve.negY_EC] at h2
    exact ⟨h1, h2⟩
  obtain ⟨a1, a2⟩ := coords hA'
  obtain ⟨b1, b2⟩ := coords hB'
  obtain ⟨c1, c2⟩ := coords hC'
  have hco' : Col A' B' C' (-s) (-t) := by
    refine ⟨?_, ?_, ?_, ?_, ?_, ?_⟩
    · rw [a1, b1, c1, ← hco.e1]; ring
    · rw [a1, b1, c1, ← hco.e2]; ring
    · rw [a1, b1, c1, ← hco.e3]; ring
    · rw [a1, a2, hco.y1]; ring
    · rw [b1, b2, hco.y2]; ring
    · rw [c1, c2, hco.y3]; ring
  have k1 := h3 _ _ _ _ _ hco
  have k2 := h3 _ _ _ _ _ hco'
  have hl := lvK_neg hco P
  have hl' : lvK s t (-P) = -lvK (-s) (-t) P := by
    rcases P with _ | ⟨x, y, hn⟩
    · exact absurd rfl h0
    · rw [Point.neg_some]
      simp only [lvK, Pbc.Curve.negY_EC]
      ring
  rw [hl'] at hl
  have v1 := h2 A A' hA'
  have v2 := h2 B B' hB'
  have v3 := h2 C C' hC'
  have key : d ^ 3 = -c ^ 2 := by
    have hv : vval P A * vval P B * vval P C ≠ 0 :=
      mul_ne_zero (mul_ne_zero (vval_ne hP A) (vval_ne hP B)) (vval_ne hP C)
    refine mul_right_cancel₀ (pow_ne_zero r hv) ?_
    have e1 : d ^ 3 * (vval P A * vval P B * vval P C) ^ r = c ^ 2 * (lvK s t P * lvK (-s) (-t) P) ^ r := by
      rw [mul_pow, mul_pow, mul_pow]
      calc _ = (d * vval P A ^ r) * (d * vval P B ^ r) * (d * vval P C ^ r) := by ring
        _ = (f A * f B * f C) * (f A' * f B' * f C') := by rw [← v1, ← v2, ← v3]; ring
        _ = _ := by rw [k1, k2]; ring
    have e2 : (lvK s t P * lvK (-s) (-t) P) ^ r = -(vval P A * vval P B * vval P C) ^ r := by
      rw [← hl, mul_neg, hodd.neg_pow, neg_neg]
    rw [e1, e2]
    ring
  have hdc : d / c ≠ 0 := div_ne_zero hd hc
  refine ⟨d / c, hdc, hf.smul hdc, fun A B C s t k => ?_, fun A B k => ?_⟩
  · calc d / c * f A * (d / c * f B) * (d / c * f C) = (d / c) ^ 3 * (f A * f B * f C) := by ring
      _ = d ^ 3 / c ^ 2 * lvK s t P ^ r := by rw [h3 _ _ _ _ _ k]; field_simp
      _ = _ := by rw [key]; field_simp
  · calc d / c * f A * (d / c * f B) = (d / c) ^ 2 * (f A * f B) := by ring
      _ = d ^ 3 / c ^ 2 * vval P A ^ r := by rw [h2 _ _ k]; field_simp
      _ = _ := by rw [key]; field_simp

/-- The homomorphism is the power of the values themselves. -/
theorem NormK.char {f : Off H → K} (hf : NormK H P r f) (hk : KillsK K r e) (he : Even e) (hP : P ∈ H) (hav : Avoids H)
    {χ : (EC a b).Point → K} (hχ : IsChar r e f χ) (A : Off H) : χ A.pt = f A ^ e := by
  obtain ⟨A₁, B₁, C₁, h1⟩ := exists_triple hav
  obtain ⟨A₂, h2⟩ := exists_neg A₁
  obtain ⟨s, t, hco⟩ := exists_col h1
  have hone : (-1 : K) ^ e = 1 := he.neg_one_pow
  have t1 : f A₁ ^ e * f B₁ ^ e * f C₁ ^ e = 1 := by
    rw [← mul_pow, ← mul_pow, hf.tri _ _ _ _ _ hco, neg_eq_neg_one_mul, mul_pow, hone, one_mul, hk _ (lvK_ne hco hP)]
  have t2 : f A₁ ^ e * f A₂ ^ e = 1 := by
    rw [← mul_pow, hf.pair _ _ h2, neg_eq_neg_one_mul, mul_pow, hone, one_mul, hk _ (vval_ne hP _)]
  obtain ⟨γ, hγ⟩ : ∃ γ, f A₁ ^ e = χ A₁.pt * γ := ⟨f A₁ ^ e / χ A₁.pt, by
    rw [mul_div_cancel₀ _ (hχ.ne _)]⟩
  have hall : ∀ B : Off H, f B ^ e = χ B.pt * γ := fun B => by
    rw [hχ.val B A₁, hγ, ← mul_assoc, ← hχ.add, sub_add_cancel]
  rw [hall, hall, hall] at t1
  rw [hall, hall] at t2
  have u1 : χ A₁.pt * χ B₁.pt * χ C₁.pt = 1 := by rw [← hχ.add, ← hχ.add, h1, hχ.zero]
  have u2 : χ A₁.pt * χ A₂.pt = 1 := by rw [← hχ.add, h2, add_neg_cancel, hχ.zero]
  have g3 : γ ^ 3 = 1 := by linear_combination t1 - γ ^ 3 * u1
  have g2 : γ ^ 2 = 1 := by linear_combination t2 - γ ^ 2 * u2
  have g1 : γ = 1 := by linear_combination g3 - γ * g2
  rw [hall, g1, mul_one]

/-! ### Miller's chain -/

/-- The multiples of `Q` off the multiples of `P`. -/
theorem notMem_of_prime (hp : r.Prime) (hQ : r • Q = 0) (hne : Q ∉ AddSubgroup.zmultiples P) {n : ℕ} (h1 : 1 ≤ n) (h2 : n < r) :
    n • Q ∉ AddSubgroup.zmultiples P := by
  intro h
  have hc : Nat.Coprime n r := ((Nat.Prime.coprime_iff_not_dvd hp).2 fun hd => by
    have := Nat.le_of_dvd (by omega) hd
    omega).symm
  have hb := Nat.gcd_eq_gcd_ab n r
  rw [hc] at hb
  apply hne
  have e : Q = (Nat.gcdA n r) • (n • Q) := by
    rw [← natCast_zsmul, smul_smul]
    calc Q = ((1 : ℕ) : ℤ) • Q := by simp
      _ = ((n : ℤ) * Nat.gcdA n r + r * Nat.gcdB n r) • Q := by rw [hb]
      _ = _ := by
        rw [add_smul, mul_comm (r : ℤ), mul_smul _ (r : ℤ), natCast_zsmul, hQ, smul_zero, add_zero, mul_comm]
  rw [e]
  exact AddSubgroup.zsmul_mem _ h _

/-- The value of the function of `P` at `Q`, along the chain for `Q`. -/
theorem chain (hp : r.Prime) (hodd : Odd r) (hQ0 : Q ≠ 0) (hQ : r • Q = 0) : ∀ n : ℕ, n + 1 < r →
    ∃ (m : Off (AddSubgroup.zmultiples Q) → K) (κ : K), MilK _ Q (n + 1 : ℕ) m ∧
      ∀ (P : (EC a b).Point) (f : Off (AddSubgroup.zmultiples P) → K) (A B : Off (AddSubgroup.zmultiples P))
        (C : Off (AddSubgroup.zmultiples Q)), NormK _ P r f → A.pt = Q → B.pt = (n + 1) • Q → C.pt = P →
        f A ^ (n + 1) = κ * f B * m C ^ r
  | 0, _ => by
    refine ⟨_, 1, by simpa using MilK.one, fun P f A B C hf hA hB hC => ?_⟩
    have : A = B := Off.ext (by rw [hA, hB, zero_add, one_smul])
    rw [this]
    simp
  | n + 1, hn => by
    obtain ⟨m, κ, hm, ih⟩ := chain hp hodd hQ0 hQ n (by omega)
    have hord : addOrderOf Q = r :=
      ((Nat.dvd_prime hp).1 (addOrderOf_dvd_of_nsmul_eq_zero hQ)).resolve_left
        fun h => hQ0 (AddMonoid.addOrderOf_eq_one_iff.1 h)
    have hne : ∀ m, 1 ≤ m → m < r → m • Q ≠ 0 := fun m h1 h2 h => by
      have := Nat.le_of_dvd (by omega) (addOrderOf_dvd_of_nsmul_eq_zero h)
      omega
    obtain ⟨α, β, γ, hl⟩ := exists_line (P₁ := ((n + 1 : ℕ) : ℤ) • Q) (P₂ := (1 : ℤ) • Q)
      (by rw [natCast_zsmul]; exact hne _ (by omega) (by omega))
      (by rw [one_smul]; exact hQ0)
      (by rw [← add_smul]; have := hne (n + 2) (by omega) (by omega)
          rw [← natCast_zsmul] at this; exact_mod_cast this)
    have hmil := MilK.add hm MilK.one hl
    rw [← Nat.cast_succ] at hmil
    refine ⟨_, κ * (-β⁻¹) ^ r, hmil, fun P f A B C hf hA hB hC => ?_⟩
    have hQP : Q ∉ AddSubgroup.zmultiples P := hA ▸ A.pt_notMem
    obtain ⟨B₀, hB₀⟩ := exists_off (notMem_of_prime hp hQ hQP (n := n + 1) (by omega) (by omega))
    obtain ⟨B', hB'⟩ := exists_neg B
    have hi := ih P f A B₀ C hf hA hB₀ hC
    obtain ⟨x₁, y₁, x₂, y₂, x₃, y₃, u, h₁, h₂, h₃, k1, k2, hST, hβ, hα, hγ, hy2, hy3, e1, e2, e3⟩ := isLine_coords hl
    have q1 : B₀.pt = Point.some x₁ y₁ h₁ := by rw [hB₀, ← k1, natCast_zsmul]
    have q2 : A.pt = Point.some x₂ y₂ h₂ := by rw [hA, ← k2, one_smul]
    have hsum : ((n + 1 : ℕ) : ℤ) • Q + (1 : ℤ) • Q = (n + 1 + 1) • Q := by
      rw [natCast_zsmul, one_smul, ← succ_nsmul]
    have q3 : B.pt = Point.some x₃ y₃ h₃ := by rw [hB, ← hST, hsum]
    have q4 : B'.pt = -Point.some x₃ y₃ h₃ := by rw [hB', q3]
    have q3' := q3
    rw [Point.neg_some] at q4
    obtain ⟨a1, a2⟩ := Point.some.inj q1
    obtain ⟨b1, b2⟩ := Point.some.inj q2
    obtain ⟨c1, c2⟩ := Point.some.inj q4
    obtain ⟨d1, d2⟩ := Point.some.inj q3
    rw [Pbc.Curve.negY_EC] at c2
    have hco : Col B₀ A B' u (y₁ - u * x₁) :=
      ⟨by rw [a1, b1, c1, e1], by rw [a1, b1, c1, e2], by rw [a1, b1, c1, e3],
        by rw [a1, a2]; ring, by rw [b1, b2, hy2]; ring, by rw [c1, c2, hy3]; ring⟩
    have w1 := hf.tri _ _ _ _ _ hco
    have w2 := hf.pair _ _ hB'
    have v1 : vval (((n + 1 : ℕ) : ℤ) • Q + (1 : ℤ) • Q) C = -vval P B := by
      rw [hST, vval_some, vval_of B hC, d1]
      ring
    have v2 : lvalK α β γ C = β * lvK u (y₁ - u * x₁) P := by
      rw [lvK_of hC, lvalK, hα, hγ]
      ring
    have nB := hf.full.ne_zero B'
    have nv : vval P B ≠ 0 := vval_ne (AddSubgroup.mem_zmultiples P) B
    have w3 : f B₀ * f A * vval P B ^ r = f B * lvK u (y₁ - u * x₁) P ^ r := by
      refine mul_right_cancel₀ nB ?_
      linear_combination vval P B ^ r * w1 - lvK u (y₁ - u * x₁) P ^ r * w2
    rw [v1, v2, pow_succ, hi]
    have w4 : f B₀ * f A = f B * (lvK u (y₁ - u * x₁) P / vval P B) ^ r := by
      rw [div_pow]
      field_simp
      linear_combination w3
    have w5 : (β * lvK u (y₁ - u * x₁) P / -vval P B) = -β * (lvK u (y₁ - u * x₁) P / vval P B) := by
      rw [div_neg]; ring
    have w6 : (-β⁻¹) ^ r * (-β) ^ r = 1 := by
      rw [← mul_pow, neg_mul_neg, inv_mul_cancel₀ hβ, one_pow]
    rw [w5, mul_one, mul_pow, mul_pow]
    linear_combination κ * m C ^ r * w4 - κ * f B * m C ^ r * (lvK u (y₁ - u * x₁) P / vval P B) ^ r * w6

/-- **Reciprocity**: the function of `P` at `Q` and the function of `Q` at `P`. -/
theorem recip_full (hp : r.Prime) (hodd : Odd r) (hQ0 : Q ≠ 0) (hQ : r • Q = 0) :
    ∃ (g : Off (AddSubgroup.zmultiples Q) → K) (κ : K), FullK _ Q r g ∧
      ∀ (P : (EC a b).Point) (f : Off (AddSubgroup.zmultiples P) → K) (A : Off (AddSubgroup.zmultiples P))
        (C : Off (AddSubgroup.zmultiples Q)), NormK _ P r f → A.pt = Q → C.pt = P → f A ^ r = κ * g C ^ r := by
  have h3 : 3 ≤ r := by
    have := hp.two_le
    obtain ⟨k, hk⟩ := hodd
    omega
  obtain ⟨m, κ, hm, h⟩ := chain hp hodd hQ0 hQ (r - 2) (by omega)
  have hn : (((r - 2 + 1 : ℕ) : ℤ)) + 1 = r := by omega
  refine ⟨_, κ, hm.full_pred (AddSubgroup.mem_zmultiples Q) hQ hn, fun P f A C hf hA hC => ?_⟩
  obtain ⟨B, hB⟩ := exists_neg A
  have hBQ : B.pt = (r - 2 + 1) • Q := by
    rw [hB, hA, neg_eq_iff_add_eq_zero, ← succ_nsmul', show r - 2 + 1 + 1 = r by omega, hQ]
  have e1 := h P f A B C hf hA hBQ hC
  have e2 := hf.pair A B hB
  have v : vval P A = -vval Q C := by
    rw [vval_of A hC, vval_of C hA]
    ring
  rw [v, hodd.neg_pow, neg_neg] at e2
  have e3 : f A ^ r = f A ^ (r - 2 + 1) * f A := by rw [← pow_succ, show r - 2 + 1 + 1 = r by omega]
  rw [e3, e1, mul_pow]
  linear_combination κ * m C ^ r * e2

/-- **Symmetry**, up to a factor that does not depend on `P`. -/
theorem char_symm {h : ℕ} (hp : r.Prime) (hodd : Odd r) (hk : KillsK K r (h * r)) (he : Even (h * r))
    (hav : Avoids (tors (A := (EC a b).Point) r)) (hQ0 : Q ≠ 0) (hQ : r • Q = 0)
    {g : Off (tors (A := (EC a b).Point) r) → K} (hg : FullK (tors r) Q r g)
    {ψ : (EC a b).Point → K} (hψ : IsChar r (h * r) g ψ) :
    ∃ κ : K, ∀ (P : (EC a b).Point) (f : Off (tors (A := (EC a b).Point) r) → K) (χ : (EC a b).Point → K),
      P ∉ AddSubgroup.zmultiples Q → r • P = 0 → FullK (tors r) P r f → IsChar r (h * r) f χ → χ Q = κ * ψ P := by
  have sub : ∀ {P : (EC a b).Point}, r • P = 0 → AddSubgroup.zmultiples P ≤ tors (A := (EC a b).Point) r := fun hP => by
    rw [AddSubgroup.zmultiples_le]; exact hP
  obtain ⟨g₁, κ₁, hg₁, hrec⟩ := recip_full hp hodd hQ0 hQ
  obtain ⟨ψ₁, hψ₁⟩ := exists_char hk (hav.mono (sub hQ)) (AddSubgroup.mem_zmultiples Q) hg₁
  obtain ⟨g₂, hg₂, hg₂'⟩ := exists_full_incl hp hQ0 hQ (sub hQ)
  have hψeq : ∀ T, ψ₁ T = ψ T := by
    have i1 := (hψ₁.congr hg₁ hg₂).incl (sub hQ)
    have i2 := hψ.congr hg hg₂'
    intro T
    obtain ⟨A, B, rfl⟩ := exists_sub hav T
    have := (i1.val A B).symm.trans (i2.val A B)
    exact mul_right_cancel₀ (pow_ne_zero _ (hg₂'.ne_zero B)) this
  obtain ⟨C₀, -, -, -⟩ := exists_triple (hav.mono (sub hQ))
  refine ⟨κ₁ ^ h * (g₁ C₀ ^ (h * r) / ψ C₀.pt), fun P f χ hPQ hP hf hχ => ?_⟩
  have hP0 : P ≠ 0 := by rintro rfl; exact hPQ (AddSubgroup.zero_mem _)
  have hQP : Q ∉ AddSubgroup.zmultiples P := by
    rintro ⟨k, hk⟩
    simp only at hk
    apply hPQ
    have hk0 : ¬ (r : ℤ) ∣ k := by
      rintro ⟨j, rfl⟩
      rw [mul_comm, mul_smul, natCast_zsmul, hP, smul_zero] at hk
      exact hQ0 hk.symm
    have hc : IsCoprime k (r : ℤ) := ((Nat.prime_iff_prime_int.1 hp).coprime_iff_not_dvd.2 hk0).symm
    obtain ⟨u, v, huv⟩ := hc
    refine ⟨u, ?_⟩
    simp only
    rw [← hk, smul_smul]
    calc (u * k) • P = (u * k) • P + (v * r) • P := by
          rw [mul_smul v, natCast_zsmul, hP, smul_zero, add_zero]
      _ = P := by rw [← add_smul, huv, one_smul]
  obtain ⟨f₁, hf₁, hf₁'⟩ := exists_full_incl hp hP0 hP (sub hP)
  have hav' := hav.mono (sub hP)
  obtain ⟨c, hc, hn⟩ := hf₁.exists_norm hodd (AddSubgroup.mem_zmultiples P) hP0 hav'
  obtain ⟨χ₁, hχ₁⟩ := exists_char hk hav' (AddSubgroup.mem_zmultiples P) hn.full
  have hχeq : ∀ T, χ₁ T = χ T := by
    have i1 := (hχ₁.congr hn.full hf₁).incl (sub hP)
    have i2 := hχ.congr hf hf₁'
    intro T
    obtain ⟨A, B, rfl⟩ := exists_sub hav T
    have := (i1.val A B).symm.trans (i2.val A B)
    exact mul_right_cancel₀ (pow_ne_zero _ (hf₁'.ne_zero B)) this
  obtain ⟨A, hA⟩ := exists_off hQP
  obtain ⟨C, hC⟩ := exists_off hPQ
  have e1 := hrec P _ A C hn hA hC
  have e2 := hn.char hk he (AddSubgroup.mem_zmultiples P) hav' hχ₁ A
  have e3 := hψ₁.val C C₀
  rw [hψeq, hC] at e3
  have e4 : ψ (P - C₀.pt) * ψ C₀.pt = ψ P := by rw [← hψ.add, sub_add_cancel]
  rw [hA] at e2
  rw [← hχeq, e2, mul_comm h r, pow_mul, e1, mul_pow, ← pow_mul, mul_comm r h, e3, ← e4]
  have := hψ.ne C₀.pt
  field_simp

end TateK
