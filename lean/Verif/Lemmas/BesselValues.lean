import Verif.Lemmas.BesselDeriv
import Mathlib.Data.Rat.Cast.Order
import Mathlib.Data.Nat.Factorial.Basic

/-!
# Values of the Bessel functions to any accuracy

The Taylor polynomials of `J_k` at 0 with the remainder `x^M / M!`, from `J_k' = (J_{k-1} - J_{k+1}) / 2` and `|J_k| ≤ 1` alone.
With rational arithmetic they decide on which side of a tolerance the second harmonic is at a given eccentricity.
-/

namespace Legwork.utils

open Real Legwork.Props Set
open Finset (range sum_range_succ sum_range_succ')
open scoped Nat

/-- The `m`th derivative of `J_k` at 0. -/
def besselCoeff : ℕ → ℤ → ℚ
  | 0, k => if k = 0 then 1 else 0
  | m + 1, k => (besselCoeff m (k - 1) - besselCoeff m (k + 1)) / 2

/-- The Taylor polynomial of `J_k` at 0 with `M` terms. -/
def besselTaylor : ℕ → ℤ → ℚ → ℚ
  | 0, _, _ => 0
  | M + 1, k, x => besselTaylor M k x + besselCoeff M k * x ^ M / (M ! : ℕ)

/-- The Taylor polynomial at a real number. -/
noncomputable def taylorR (M : ℕ) (k : ℤ) (x : ℝ) : ℝ := ∑ m ∈ range M, (besselCoeff m k : ℝ) * x ^ m / (m ! : ℕ)

private theorem taylorR_cast (M : ℕ) (k : ℤ) (x : ℚ) : taylorR M k x = besselTaylor M k x := by
  induction M with
  | zero => simp [taylorR, besselTaylor]
  | succ M ih =>
    rw [taylorR, sum_range_succ, ← taylorR, ih, besselTaylor]
    push_cast
    rfl

private theorem taylorR_zero (M : ℕ) (k : ℤ) : taylorR (M + 1) k 0 = if k = 0 then 1 else 0 := by
  rw [taylorR, sum_range_succ']
  simp only [besselCoeff]
  split_ifs <;> simp

private theorem hasDerivAt_taylorR (M : ℕ) (k : ℤ) (x : ℝ) :
    HasDerivAt (taylorR (M + 1) k) ((taylorR M (k - 1) x - taylorR M (k + 1) x) / 2) x := by
  induction M with
  | zero =>
    have : taylorR (0 + 1) k = fun _ => (besselCoeff 0 k : ℝ) := by
      funext y
      simp [taylorR]
    rw [this]
    simpa [taylorR] using hasDerivAt_const x (besselCoeff 0 k : ℝ)
  | succ M ih =>
    have h1 : taylorR (M + 1 + 1) k = fun y => taylorR (M + 1) k y + (besselCoeff (M + 1) k : ℝ) * y ^ (M + 1) / ((M + 1) ! : ℕ) := by
      funext y
      rw [taylorR, sum_range_succ, ← taylorR]
    rw [h1]
    have h2 := ih.add (((hasDerivAt_pow (M + 1) x).const_mul (besselCoeff (M + 1) k : ℝ)).div_const ((M + 1) ! : ℕ))
    refine h2.congr_deriv ?_
    rw [taylorR, taylorR, taylorR, taylorR, sum_range_succ, sum_range_succ, Nat.factorial_succ]
    simp only [besselCoeff]
    have : ((M : ℝ) + 1) ≠ 0 := by positivity
    have : ((M ! : ℕ) : ℝ) ≠ 0 := by positivity
    push_cast
    field_simp
    ring

theorem jv_abs_le_one (k : ℤ) (x : ℝ) : |jv k x| ≤ 1 := by
  have h := intervalIntegral.norm_integral_le_of_norm_le_const (a := 0) (b := π) (C := 1)
    (f := fun τ : ℝ => cos (k * τ - x * sin τ)) (fun τ _ => abs_cos_le_one _)
  rw [jv, abs_mul, abs_of_pos (by positivity : (0 : ℝ) < 1 / π)]
  rw [norm_eq_abs, sub_zero, abs_of_pos pi_pos, one_mul] at h
  calc 1 / π * |∫ τ in (0 : ℝ)..π, cos (k * τ - x * sin τ)| ≤ 1 / π * π := by gcongr
    _ = 1 := by field_simp

theorem jv_taylorR (M : ℕ) : ∀ (k : ℤ) {x : ℝ}, 0 ≤ x → |jv k x - taylorR M k x| ≤ x ^ M / (M ! : ℕ) := by
  induction M with
  | zero =>
    intro k x _
    simpa [taylorR] using jv_abs_le_one k x
  | succ M ih =>
    intro k x hx
    have hd : ∀ y, HasDerivAt (fun y => jv k y - taylorR (M + 1) k y)
        ((jv (k - 1) y - jv (k + 1) y) / 2 - (taylorR M (k - 1) y - taylorR M (k + 1) y) / 2) y :=
      fun y => (hasDerivAt_jv k y).sub (hasDerivAt_taylorR M k y)
    have hp : ∀ y : ℝ, HasDerivAt (fun y : ℝ => y ^ (M + 1) / ((M + 1) ! : ℕ)) (y ^ M / (M ! : ℕ)) y := by
      intro y
      refine ((hasDerivAt_pow (M + 1) y).div_const (((M + 1) ! : ℕ) : ℝ)).congr_deriv ?_
      rw [Nat.factorial_succ]
      have : ((M : ℝ) + 1) ≠ 0 := by positivity
      have : ((M ! : ℕ) : ℝ) ≠ 0 := by positivity
      push_cast
      field_simp
    have hb : ∀ y, 0 ≤ y →
        |(jv (k - 1) y - jv (k + 1) y) / 2 - (taylorR M (k - 1) y - taylorR M (k + 1) y) / 2| ≤ y ^ M / (M ! : ℕ) := by
      intro y hy
      have a := abs_le.1 (ih (k - 1) hy)
      have b := abs_le.1 (ih (k + 1) hy)
      rw [abs_le]
      constructor <;> linarith [a.1, a.2, b.1, b.2]
    have h0 : jv k 0 - taylorR (M + 1) k 0 = 0 := by rw [taylorR_zero, jv_zero, sub_self]
    have hz : (0 : ℝ) ^ (M + 1) / ((M + 1) ! : ℕ) = 0 := by simp
    have hup : MonotoneOn (fun y => (jv k y - taylorR (M + 1) k y) + y ^ (M + 1) / ((M + 1) ! : ℕ)) (Ici 0) := by
      refine monotoneOn_of_deriv_nonneg (convex_Ici 0)
        (fun y _ => ((hd y).add (hp y)).continuousAt.continuousWithinAt)
        (fun y _ => ((hd y).add (hp y)).differentiableAt.differentiableWithinAt) ?_
      intro y hy
      rw [interior_Ici] at hy
      have e1 := ((hd y).add (hp y)).deriv
      have e2 := (abs_le.1 (hb y (le_of_lt hy))).1
      rw [show (fun y => (jv k y - taylorR (M + 1) k y) + y ^ (M + 1) / ((M + 1) ! : ℕ)) =
        (fun y => jv k y - taylorR (M + 1) k y) + fun y : ℝ => y ^ (M + 1) / ((M + 1) ! : ℕ) from rfl, e1]
      linarith
    have hlo : MonotoneOn (fun y => y ^ (M + 1) / ((M + 1) ! : ℕ) - (jv k y - taylorR (M + 1) k y)) (Ici 0) := by
      refine monotoneOn_of_deriv_nonneg (convex_Ici 0)
        (fun y _ => ((hp y).sub (hd y)).continuousAt.continuousWithinAt)
        (fun y _ => ((hp y).sub (hd y)).differentiableAt.differentiableWithinAt) ?_
      intro y hy
      rw [interior_Ici] at hy
      have e1 := ((hp y).sub (hd y)).deriv
      have e2 := (abs_le.1 (hb y (le_of_lt hy))).2
      rw [show (fun y => y ^ (M + 1) / ((M + 1) ! : ℕ) - (jv k y - taylorR (M + 1) k y)) =
        (fun y : ℝ => y ^ (M + 1) / ((M + 1) ! : ℕ)) - fun y => jv k y - taylorR (M + 1) k y from rfl, e1]
      linarith
    have u := hup (self_mem_Ici : (0 : ℝ) ∈ Ici 0) hx hx
    have l := hlo (self_mem_Ici : (0 : ℝ) ∈ Ici 0) hx hx
    simp only [h0, hz] at u l
    rw [abs_le]
    constructor <;> linarith

/-- The Taylor polynomials approximate `J_k` with the remainder `x^M / M!`. -/
theorem jv_taylor (M : ℕ) (k : ℤ) {x : ℚ} (hx : 0 ≤ x) :
    |jv k x - besselTaylor M k x| ≤ (x : ℝ) ^ M / (M ! : ℕ) := by
  rw [← taylorR_cast]
  exact jv_taylorR M k (by exact_mod_cast hx)

/-- The power in the second harmonic with `J_0, …, J_4` replaced by eight terms of their Taylor series. -/
def gTwoApprox (e : ℚ) : ℚ :=
  let J : ℤ → ℚ := fun k => besselTaylor 8 k (2 * e)
  1 / 2 * ((J 0 - 2 * e * J 1 + J 2 + 2 * e * J 3 - J 4) ^ 2 + (1 - e ^ 2) * (J 0 - 2 * J 2 + J 4) ^ 2 + 1 / 3 * J 2 ^ 2)

theorem sq_close {a b d B : ℝ} (hd : |a - b| ≤ d) (ha : |a| ≤ B) (hb : |b| ≤ B) : |a ^ 2 - b ^ 2| ≤ d * (2 * B) := by
  have h0 : 0 ≤ d := (abs_nonneg _).trans hd
  have : a ^ 2 - b ^ 2 = (a - b) * (a + b) := by ring
  rw [this, abs_mul]
  have h1 : |a + b| ≤ 2 * B := (abs_add_le a b).trans (by linarith)
  gcongr

private theorem combo {e d j0 j1 j2 j3 j4 k0 k1 k2 k3 k4 : ℝ} (h0 : 0 ≤ e) (h1 : e ≤ 1 / 5) (hd : d ≤ 1 / 10)
    (a0 : |j0 - k0| ≤ d) (a1 : |j1 - k1| ≤ d) (a2 : |j2 - k2| ≤ d) (a3 : |j3 - k3| ≤ d) (a4 : |j4 - k4| ≤ d)
    (b0 : |j0| ≤ 1) (b1 : |j1| ≤ 1) (b2 : |j2| ≤ 1) (b3 : |j3| ≤ 1) (b4 : |j4| ≤ 1) :
    |1 / 2 * ((j0 - 2 * e * j1 + j2 + 2 * e * j3 - j4) ^ 2 + (1 - e ^ 2) * (j0 - 2 * j2 + j4) ^ 2 + 1 / 3 * j2 ^ 2) -
      1 / 2 * ((k0 - 2 * e * k1 + k2 + 2 * e * k3 - k4) ^ 2 + (1 - e ^ 2) * (k0 - 2 * k2 + k4) ^ 2 + 1 / 3 * k2 ^ 2)| ≤ 50 * d := by
  have hd0 : 0 ≤ d := (abs_nonneg _).trans a0
  simp only [abs_le] at a0 a1 a2 a3 a4 b0 b1 b2 b3 b4
  have m1 : |2 * e * (j1 - k1)| ≤ d := by
    rw [abs_mul, abs_of_nonneg (by linarith)]
    have : |j1 - k1| ≤ d := abs_le.2 a1
    calc 2 * e * |j1 - k1| ≤ 1 * d := by gcongr; linarith
      _ = d := one_mul d
  have m3 : |2 * e * (j3 - k3)| ≤ d := by
    rw [abs_mul, abs_of_nonneg (by linarith)]
    have : |j3 - k3| ≤ d := abs_le.2 a3
    calc 2 * e * |j3 - k3| ≤ 1 * d := by gcongr; linarith
      _ = d := one_mul d
  have n1 : |2 * e * j1| ≤ 1 := by
    rw [abs_mul, abs_of_nonneg (by linarith)]
    have : |j1| ≤ 1 := abs_le.2 b1
    calc 2 * e * |j1| ≤ 1 * 1 := by gcongr; linarith
      _ = 1 := one_mul 1
  have n3 : |2 * e * j3| ≤ 1 := by
    rw [abs_mul, abs_of_nonneg (by linarith)]
    have : |j3| ≤ 1 := abs_le.2 b3
    calc 2 * e * |j3| ≤ 1 * 1 := by gcongr; linarith
      _ = 1 := one_mul 1
  simp only [abs_le, mul_sub] at m1 m3 n1 n3
  have A : |(j0 - 2 * e * j1 + j2 + 2 * e * j3 - j4) ^ 2 - (k0 - 2 * e * k1 + k2 + 2 * e * k3 - k4) ^ 2| ≤ 5 * d * (2 * (55 / 10)) := by
    refine sq_close ?_ ?_ ?_ <;> rw [abs_le] <;> constructor <;> linarith [a0.1, a0.2, a2.1, a2.2, a4.1, a4.2, m1.1, m1.2, m3.1, m3.2,
      b0.1, b0.2, b2.1, b2.2, b4.1, b4.2, n1.1, n1.2, n3.1, n3.2]
  have B : |(j0 - 2 * j2 + j4) ^ 2 - (k0 - 2 * k2 + k4) ^ 2| ≤ 4 * d * (2 * (44 / 10)) := by
    refine sq_close ?_ ?_ ?_ <;> rw [abs_le] <;> constructor <;> linarith [a0.1, a0.2, a2.1, a2.2, a4.1, a4.2,
      b0.1, b0.2, b2.1, b2.2, b4.1, b4.2]
  have C : |j2 ^ 2 - k2 ^ 2| ≤ d * (2 * (11 / 10)) := by
    refine sq_close ?_ ?_ ?_ <;> rw [abs_le] <;> constructor <;> linarith [a2.1, a2.2, b2.1, b2.2]
  have hq : 0 ≤ 1 - e ^ 2 := by nlinarith
  have hq1 : 1 - e ^ 2 ≤ 1 := by linarith [sq_nonneg e]
  have B' : |(1 - e ^ 2) * ((j0 - 2 * j2 + j4) ^ 2 - (k0 - 2 * k2 + k4) ^ 2)| ≤ 4 * d * (2 * (44 / 10)) := by
    rw [abs_mul, abs_of_nonneg hq]
    calc (1 - e ^ 2) * |(j0 - 2 * j2 + j4) ^ 2 - (k0 - 2 * k2 + k4) ^ 2| ≤ 1 * (4 * d * (2 * (44 / 10))) := by gcongr
      _ = _ := one_mul _
  rw [mul_sub] at B'
  rw [abs_le] at A B' C ⊢
  constructor <;> linarith [A.1, A.2, B'.1, B'.2, C.1, C.2]

theorem peters_g_two_approx {e : ℚ} (h0 : 0 ≤ e) (h1 : e ≤ 1 / 5) :
    |peters_g 2 (e : ℝ) - gTwoApprox e| ≤ 50 * ((2 * e : ℝ) ^ 8 / 40320) := by
  have h0' : (0 : ℝ) ≤ e := by exact_mod_cast h0
  have h1' : (e : ℝ) ≤ 1 / 5 := by
    have : ((e : ℚ) : ℝ) ≤ ((1 / 5 : ℚ) : ℝ) := by exact_mod_cast h1
    simpa using this
  have key : ∀ k : ℤ, |jv k (2 * (e : ℝ)) - (besselTaylor 8 k (2 * e) : ℝ)| ≤ (2 * e : ℝ) ^ 8 / 40320 := by
    intro k
    have := jv_taylor 8 k (x := 2 * e) (by linarith)
    have f8 : (((8 ! : ℕ) : ℕ) : ℝ) = 40320 := by norm_num [Nat.factorial]
    rw [f8] at this
    push_cast at this
    exact this
  have hd : (2 * e : ℝ) ^ 8 / 40320 ≤ 1 / 10 := by
    have : (2 * e : ℝ) ^ 8 ≤ 1 := pow_le_one₀ (by linarith) (by linarith)
    linarith
  have := combo h0' h1' hd (key 0) (key 1) (key 2) (key 3) (key 4) (jv_abs_le_one _ _) (jv_abs_le_one _ _) (jv_abs_le_one _ _)
    (jv_abs_le_one _ _) (jv_abs_le_one _ _)
  refine le_trans (le_of_eq ?_) this
  congr 1
  unfold peters_g gTwoApprox
  norm_num

/-- Whether the second harmonic is outside the tolerance at `e`, in rational arithmetic: `s` is an upper bound of `√(1-e²)`. -/
def isOutside (tol e s : ℚ) : Bool :=
  0 ≤ e && e ≤ 1 / 5 && tol ≤ 1 && 0 < s && 1 - e ^ 2 ≤ s ^ 2 &&
    (gTwoApprox e + 50 * ((2 * e) ^ 8 / 40320)) * ((1 - e ^ 2) ^ 3 * s) < (1 - tol) * (1 + (73 / 24) * e ^ 2 + (37 / 96) * e ^ 4)

/-- Whether it is within the tolerance: `s` is a lower bound of `√(1-e²)`. -/
def isInside (tol e s : ℚ) : Bool :=
  0 ≤ e && e ≤ 1 / 5 && tol ≤ 1 && 0 < s && s ^ 2 ≤ 1 - e ^ 2 && 0 ≤ gTwoApprox e - 50 * ((2 * e) ^ 8 / 40320) &&
    (1 - tol) * (1 + (73 / 24) * e ^ 2 + (37 / 96) * e ^ 4) ≤ (gTwoApprox e - 50 * ((2 * e) ^ 8 / 40320)) * ((1 - e ^ 2) ^ 3 * s)

private theorem denominator {e : ℝ} (h0 : 0 ≤ e) (h1 : e ≤ 1 / 5) :
    0 < 1 - e ^ 2 ∧ (1 - e ^ 2) ^ (7 / 2 : ℝ) = (1 - e ^ 2) ^ 3 * √(1 - e ^ 2) := by
  have hpos : 0 < 1 - e ^ 2 := by nlinarith
  refine ⟨hpos, ?_⟩
  rw [show (7 / 2 : ℝ) = (3 : ℕ) + 1 / 2 by norm_num, rpow_add hpos, rpow_natCast, sqrt_eq_rpow]

theorem isOutside_sound {tol e s : ℚ} (h : isOutside tol e s = true) :
    peters_g 2 (e : ℝ) < (1 - (tol : ℝ)) * peters_f (e : ℝ) := by
  simp only [isOutside, Bool.and_eq_true, decide_eq_true_eq] at h
  obtain ⟨⟨⟨⟨⟨h0, h1⟩, ht⟩, hs⟩, hsq⟩, hlt⟩ := h
  have ha := (abs_le.1 (peters_g_two_approx h0 h1)).2
  have h0' : (0 : ℝ) ≤ e := by exact_mod_cast h0
  have h1' : (e : ℝ) ≤ 1 / 5 := by
    have : ((e : ℚ) : ℝ) ≤ ((1 / 5 : ℚ) : ℝ) := by exact_mod_cast h1
    simpa using this
  have hs' : (0 : ℝ) < s := by exact_mod_cast hs
  have hsq' : 1 - (e : ℝ) ^ 2 ≤ (s : ℝ) ^ 2 := by exact_mod_cast hsq
  have hlt' : ((gTwoApprox e : ℝ) + 50 * ((2 * (e : ℝ)) ^ 8 / 40320)) * ((1 - (e : ℝ) ^ 2) ^ 3 * s) <
      (1 - (tol : ℝ)) * (1 + (73 / 24) * (e : ℝ) ^ 2 + (37 / 96) * (e : ℝ) ^ 4) := by
    have := (Rat.cast_lt (K := ℝ)).2 hlt
    push_cast at this
    exact this
  obtain ⟨hpos, hden⟩ := denominator h0' h1'
  have hroot : √(1 - (e : ℝ) ^ 2) ≤ s := sqrt_le_iff.2 ⟨hs'.le, hsq'⟩
  have hroot0 : 0 < √(1 - (e : ℝ) ^ 2) := sqrt_pos.2 hpos
  have hg0 : 0 ≤ peters_g 2 (e : ℝ) := C05_nonneg 2 h0' (by linarith)
  have hcube : 0 < (1 - (e : ℝ) ^ 2) ^ 3 := pow_pos hpos 3
  unfold peters_f
  simp only
  rw [hden, ← mul_div_assoc, lt_div_iff₀ (mul_pos hcube hroot0)]
  refine lt_of_le_of_lt ?_ hlt'
  have hle : peters_g 2 (e : ℝ) ≤ (gTwoApprox e : ℝ) + 50 * ((2 * (e : ℝ)) ^ 8 / 40320) := by linarith
  gcongr
  exact hg0.trans hle

theorem isInside_sound {tol e s : ℚ} (h : isInside tol e s = true) :
    (1 - (tol : ℝ)) * peters_f (e : ℝ) ≤ peters_g 2 (e : ℝ) := by
  simp only [isInside, Bool.and_eq_true, decide_eq_true_eq] at h
  obtain ⟨⟨⟨⟨⟨⟨h0, h1⟩, ht⟩, hs⟩, hsq⟩, hnn⟩, hle⟩ := h
  have ha := (abs_le.1 (peters_g_two_approx h0 h1)).1
  have h0' : (0 : ℝ) ≤ e := by exact_mod_cast h0
  have h1' : (e : ℝ) ≤ 1 / 5 := by
    have : ((e : ℚ) : ℝ) ≤ ((1 / 5 : ℚ) : ℝ) := by exact_mod_cast h1
    simpa using this
  have hs' : (0 : ℝ) < s := by exact_mod_cast hs
  have hsq' : (s : ℝ) ^ 2 ≤ 1 - (e : ℝ) ^ 2 := by exact_mod_cast hsq
  have hnn' : (0 : ℝ) ≤ (gTwoApprox e : ℝ) - 50 * ((2 * (e : ℝ)) ^ 8 / 40320) := by exact_mod_cast hnn
  have hle' : (1 - (tol : ℝ)) * (1 + (73 / 24) * (e : ℝ) ^ 2 + (37 / 96) * (e : ℝ) ^ 4) ≤
      ((gTwoApprox e : ℝ) - 50 * ((2 * (e : ℝ)) ^ 8 / 40320)) * ((1 - (e : ℝ) ^ 2) ^ 3 * s) := by
    have := (Rat.cast_le (K := ℝ)).2 hle
    push_cast at this
    exact this
  obtain ⟨hpos, hden⟩ := denominator h0' h1'
  have hroot : (s : ℝ) ≤ √(1 - (e : ℝ) ^ 2) := le_sqrt_of_sq_le hsq'
  have hroot0 : 0 < √(1 - (e : ℝ) ^ 2) := sqrt_pos.2 hpos
  have hcube : 0 < (1 - (e : ℝ) ^ 2) ^ 3 := pow_pos hpos 3
  unfold peters_f
  simp only
  rw [hden, ← mul_div_assoc, div_le_iff₀ (mul_pos hcube hroot0)]
  refine hle'.trans ?_
  have hge : (gTwoApprox e : ℝ) - 50 * ((2 * (e : ℝ)) ^ 8 / 40320) ≤ peters_g 2 (e : ℝ) := by linarith
  gcongr
  exact hnn'.trans hge

end Legwork.utils
