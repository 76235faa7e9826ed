import Verif.Lemmas.BesselValues
import Verif.Lemmas.PolyCheck
import Mathlib.Data.Nat.Choose.Cast

/-!
# The powers in the harmonics as polynomials in the eccentricity

With the Taylor polynomials of the Bessel functions, `peters_g n` is a polynomial in `e` up to `5 n^4 n^M / M!`, so that inequalities
between harmonics on whole intervals of eccentricities can be decided by `PolyCheck`.
-/

namespace Legwork.utils

open Real Legwork.Props Set Legwork.PolyCheck
open Finset (range sum_range_succ sum_range_succ')
open scoped Nat

private theorem coeff_far : ∀ (m : ℕ) (k : ℤ), (m : ℤ) < k → besselCoeff m k = 0 := by
  intro m
  induction m with
  | zero =>
    intro k hk
    simp only [besselCoeff]
    rw [if_neg (by push_cast at hk; omega)]
  | succ m ih =>
    intro k hk
    push_cast at hk
    simp only [besselCoeff]
    rw [ih (k - 1) (by omega), ih (k + 1) (by omega)]
    norm_num

private theorem coeff_odd : ∀ (m : ℕ) (k : ℤ), ((m : ℤ) - k) % 2 = 1 → besselCoeff m k = 0 := by
  intro m
  induction m with
  | zero =>
    intro k hk
    simp only [besselCoeff]
    rw [if_neg (by rintro rfl; simp at hk)]
  | succ m ih =>
    intro k hk
    push_cast at hk
    simp only [besselCoeff]
    rw [ih (k - 1) (by omega), ih (k + 1) (by omega)]
    norm_num

private theorem coeff_closed : ∀ (m j : ℕ), besselCoeff m ((m : ℤ) - 2 * j) = (-1) ^ j * (m.choose j : ℚ) / 2 ^ m := by
  intro m
  induction m with
  | zero =>
    intro j
    simp only [besselCoeff]
    rcases j with _ | j
    · simp
    · rw [if_neg (by push_cast; omega)]
      simp
  | succ m ih =>
    intro j
    simp only [besselCoeff]
    have e1 : ((m + 1 : ℕ) : ℤ) - 2 * j - 1 = (m : ℤ) - 2 * j := by push_cast; ring
    rw [e1, ih j]
    rcases j with _ | j
    · rw [coeff_far m _ (by push_cast; omega)]
      simp only [pow_zero, Nat.choose_zero_right]
      rw [pow_succ]
      push_cast
      ring
    · have e2 : ((m + 1 : ℕ) : ℤ) - 2 * ((j + 1 : ℕ) : ℤ) + 1 = (m : ℤ) - 2 * j := by push_cast; ring
      rw [e2, ih j, Nat.choose_succ_succ]
      rw [pow_succ, pow_succ]
      push_cast
      ring

/-- The coefficient of `x^m` in the power series of `J_k`. -/
def besselTerm (k m : ℕ) : ℚ :=
  if m < k then 0 else if (m - k) % 2 = 1 then 0 else (-1) ^ ((m - k) / 2) / (2 ^ m * (((m - k) / 2)! : ℕ) * (((m + k) / 2)! : ℕ))

private theorem besselTerm_eq (k m : ℕ) : besselTerm k m = besselCoeff m k / (m ! : ℕ) := by
  unfold besselTerm
  split_ifs with h1 h2
  · rw [coeff_far m k (by exact_mod_cast h1), zero_div]
  · rw [coeff_odd m k (by omega), zero_div]
  · obtain ⟨j, rfl⟩ : ∃ j, m = k + 2 * j := ⟨(m - k) / 2, by omega⟩
    have e1 : (k + 2 * j - k) / 2 = j := by omega
    have e2 : (k + 2 * j + k) / 2 = k + j := by omega
    rw [e1, e2]
    have e3 : (k : ℤ) = ((k + 2 * j : ℕ) : ℤ) - 2 * j := by push_cast; ring
    have h := coeff_closed (k + 2 * j) j
    rw [← e3] at h
    rw [h, Nat.cast_choose ℚ (by omega : j ≤ k + 2 * j)]
    have e4 : k + 2 * j - j = k + j := by omega
    rw [e4]
    have a1 : ((j ! : ℕ) : ℚ) ≠ 0 := by positivity
    have a2 : (((k + j)! : ℕ) : ℚ) ≠ 0 := by positivity
    have a3 : (((k + 2 * j)! : ℕ) : ℚ) ≠ 0 := by positivity
    field_simp

/-- The list `f s, f (s+1), …` of length `l`. -/
def listFrom (f : ℕ → ℚ) : ℕ → ℕ → List ℚ
  | _, 0 => []
  | s, l + 1 => f s :: listFrom f (s + 1) l

private theorem ev_listFrom (f : ℕ → ℚ) (x : ℝ) (l : ℕ) : ∀ s, ev (listFrom f s l) x = ∑ i ∈ range l, (f (s + i) : ℝ) * x ^ i := by
  induction l with
  | zero => simp [listFrom]
  | succ l ih =>
    intro s
    rw [listFrom, ev_cons, ih, sum_range_succ', Finset.mul_sum, add_comm]
    congr 1
    · refine Finset.sum_congr rfl fun i _ => ?_
      rw [show s + 1 + i = s + (i + 1) by ring]
      ring
    · simp

/-- `J_k(n e)` as a polynomial in `e`. -/
def besselPoly (M n k : ℕ) : List ℚ := listFrom (fun m => besselTerm k m * (n : ℚ) ^ m) 0 M

theorem ev_besselPoly (M n k : ℕ) (e : ℝ) : ev (besselPoly M n k) e = taylorR M k (n * e) := by
  rw [besselPoly, ev_listFrom, taylorR]
  refine Finset.sum_congr rfl fun m _ => ?_
  rw [zero_add, besselTerm_eq, mul_pow]
  push_cast
  ring

/-- `peters_g n` as a polynomial, for `n = k + 2`. -/
def gPoly (M k : ℕ) : List ℚ :=
  let J : ℕ → List ℚ := fun i => besselPoly M (k + 2) (k + i)
  let A := add (add (add (J 0) (mul [0, -2] (J 1))) (add (smul (2 / (k + 2 : ℕ)) (J 2)) (mul [0, 2] (J 3)))) (smul (-1) (J 4))
  let B := add (add (J 0) (smul (-2) (J 2))) (J 4)
  smul (((k + 2 : ℕ) : ℚ) ^ 4 / 32)
    (add (pow A 2) (add (mul [1, 0, -1] (pow B 2)) (smul (4 / (3 * ((k + 2 : ℕ) : ℚ) ^ 2)) (pow (J 2) 2))))

/-- How far the polynomial can be off. -/
def gErr (M k : ℕ) : ℚ := 5 * ((k + 2 : ℕ) : ℚ) ^ 4 * (((k + 2 : ℕ) : ℚ) ^ M / (M ! : ℕ))

private theorem combo_n {n e d j0 j1 j2 j3 j4 k0 k1 k2 k3 k4 : ℝ} (hn : 2 ≤ n) (h0 : 0 ≤ e) (h1 : e ≤ 1) (hd : d ≤ 1 / 10)
    (a0 : |j0 - k0| ≤ d) (a1 : |j1 - k1| ≤ d) (a2 : |j2 - k2| ≤ d) (a3 : |j3 - k3| ≤ d) (a4 : |j4 - k4| ≤ d)
    (b0 : |j0| ≤ 1) (b1 : |j1| ≤ 1) (b2 : |j2| ≤ 1) (b3 : |j3| ≤ 1) (b4 : |j4| ≤ 1) :
    |((j0 - 2 * e * j1 + 2 / n * j2 + 2 * e * j3 - j4) ^ 2 + (1 - e ^ 2) * (j0 - 2 * j2 + j4) ^ 2 + 4 / (3 * n ^ 2) * j2 ^ 2) -
      ((k0 - 2 * e * k1 + 2 / n * k2 + 2 * e * k3 - k4) ^ 2 + (1 - e ^ 2) * (k0 - 2 * k2 + k4) ^ 2 + 4 / (3 * n ^ 2) * k2 ^ 2)| ≤
      160 * d := by
  have hd0 : 0 ≤ d := (abs_nonneg _).trans a0
  have hn0 : 0 < n := by linarith
  have hn1 : 2 / n ≤ 1 := (div_le_one hn0).2 hn
  have hn2 : 4 / (3 * n ^ 2) ≤ 1 := by
    rw [div_le_one (by positivity)]
    nlinarith
  have small : ∀ {c x B : ℝ}, 0 ≤ c → c ≤ 1 → |x| ≤ B → |c * x| ≤ B := by
    intro c x B hc hc1 hx
    rw [abs_mul, abs_of_nonneg hc]
    exact (mul_le_of_le_one_left (abs_nonneg x) hc1).trans hx
  have m1 := small h0 h1 a1
  have m3 := small h0 h1 a3
  have m2 := small (by positivity) hn1 a2
  have n1 := small h0 h1 b1
  have n3 := small h0 h1 b3
  have n2 := small (by positivity) hn1 b2
  have a2' := a2
  have b2' := b2
  simp only [abs_le, mul_sub] at a0 a2 a4 b0 b2 b4 m1 m2 m3 n1 n2 n3
  have A : |(j0 - 2 * e * j1 + 2 / n * j2 + 2 * e * j3 - j4) ^ 2 - (k0 - 2 * e * k1 + 2 / n * k2 + 2 * e * k3 - k4) ^ 2| ≤
      7 * d * (2 * (77 / 10)) := by
    refine sq_close ?_ ?_ ?_ <;> rw [abs_le] <;> constructor <;> linarith [a0.1, a0.2, m2.1, m2.2, a4.1, a4.2, m1.1, m1.2, m3.1, m3.2,
      b0.1, b0.2, n2.1, n2.2, b4.1, b4.2, n1.1, n1.2, n3.1, n3.2]
  have B : |(j0 - 2 * j2 + j4) ^ 2 - (k0 - 2 * k2 + k4) ^ 2| ≤ 4 * d * (2 * (44 / 10)) := by
    refine sq_close ?_ ?_ ?_ <;> rw [abs_le] <;> constructor <;> linarith [a0.1, a0.2, a2.1, a2.2, a4.1, a4.2,
      b0.1, b0.2, b2.1, b2.2, b4.1, b4.2]
  have C : |j2 ^ 2 - k2 ^ 2| ≤ d * (2 * (11 / 10)) := by
    refine sq_close ?_ ?_ ?_ <;> rw [abs_le] <;> constructor <;> linarith [a2.1, a2.2, b2.1, b2.2]
  have hq : 0 ≤ 1 - e ^ 2 := by nlinarith
  have hq1 : 1 - e ^ 2 ≤ 1 := by linarith [sq_nonneg e]
  have B' := small hq hq1 B
  have C' := small (by positivity) hn2 C
  rw [mul_sub] at B' C'
  rw [abs_le] at A B' C' ⊢
  constructor <;> linarith [A.1, A.2, B'.1, B'.2, C'.1, C'.2]

/-- The polynomial approximates the power in the harmonic `n = k + 2`. -/
theorem gPoly_close (M k : ℕ) (hM : ((k + 2 : ℕ) : ℚ) ^ M / (M ! : ℕ) ≤ 1 / 10) {e : ℝ} (h0 : 0 ≤ e) (h1 : e ≤ 1) :
    |peters_g ((k : ℤ) + 2) e - ev (gPoly M k) e| ≤ gErr M k := by
  have hM' : ((k + 2 : ℕ) : ℝ) ^ M / (M ! : ℕ) ≤ 1 / 10 := by
    have := (Rat.cast_le (K := ℝ)).2 hM
    push_cast at this ⊢
    exact this
  have hn : (2 : ℝ) ≤ ((k + 2 : ℕ) : ℝ) := by exact_mod_cast (by omega : 2 ≤ k + 2)
  have key : ∀ i : ℕ, |jv ((k + i : ℕ) : ℤ) (((k + 2 : ℕ) : ℝ) * e) - ev (besselPoly M (k + 2) (k + i)) e| ≤
      ((k + 2 : ℕ) : ℝ) ^ M / (M ! : ℕ) := by
    intro i
    rw [ev_besselPoly]
    refine (jv_taylorR M ((k + i : ℕ) : ℤ) (by positivity)).trans ?_
    gcongr
    exact mul_le_of_le_one_right (by positivity) h1
  have := combo_n hn h0 h1 hM' (key 0) (key 1) (key 2) (key 3) (key 4) (jv_abs_le_one _ _) (jv_abs_le_one _ _) (jv_abs_le_one _ _)
    (jv_abs_le_one _ _) (jv_abs_le_one _ _)
  have hp : (0 : ℝ) ≤ ((k + 2 : ℕ) : ℝ) ^ 4 / 32 := by positivity
  have h2 := mul_le_mul_of_nonneg_left this hp
  rw [← abs_of_nonneg hp, ← abs_mul, abs_of_nonneg hp, mul_sub] at h2
  have hE : ((k + 2 : ℕ) : ℝ) ^ 4 / 32 * (160 * (((k + 2 : ℕ) : ℝ) ^ M / (M ! : ℕ))) = (gErr M k : ℝ) := by
    unfold gErr
    push_cast
    ring
  rw [hE] at h2
  refine le_trans (le_of_eq ?_) h2
  congr 1
  unfold peters_g gPoly
  simp only [ev_smul, ev_add, ev_mul, ev_pow, ev_cons, ev_nil]
  have i0 : (k : ℤ) + 2 - 2 = ((k + 0 : ℕ) : ℤ) := by push_cast; ring
  have i1 : (k : ℤ) + 2 - 1 = ((k + 1 : ℕ) : ℤ) := by push_cast; ring
  have i2 : (k : ℤ) + 2 = ((k + 2 : ℕ) : ℤ) := by push_cast; ring
  have i3 : (k : ℤ) + 2 + 1 = ((k + 3 : ℕ) : ℤ) := by push_cast; ring
  have i4 : (k : ℤ) + 2 + 2 = ((k + 4 : ℕ) : ℤ) := by push_cast; ring
  rw [i0, i1, i3, i4, i2]
  push_cast
  ring

/-- `a g_n - b g_m - (errors) - 1e-9` as a polynomial, for `n = j + 2` and `m = k + 2`. -/
def gapPoly (M : ℕ) (a b : ℚ) (j k : ℕ) : List ℚ :=
  add (add (smul a (gPoly M j)) (smul (-b) (gPoly M k))) [-(a * gErr M j + b * gErr M k + 1 / 10 ^ 9)]

/-- On an interval where the polynomial is non-negative, `b g_m < a g_n`. -/
theorem gap_sound {M : ℕ} {a b : ℚ} {j k : ℕ} (ha : 0 ≤ a) (hb : 0 ≤ b) (hj : ((j + 2 : ℕ) : ℚ) ^ M / (M ! : ℕ) ≤ 1 / 10)
    (hk : ((k + 2 : ℕ) : ℚ) ^ M / (M ! : ℕ) ≤ 1 / 10) {x y : ℚ} (h : check (gapPoly M a b j k) x y = true) {e : ℝ} (h0 : 0 ≤ e)
    (h1 : e ≤ 1) (hx : (x : ℝ) ≤ e) (hy : e < y) : (b : ℝ) * peters_g ((k : ℤ) + 2) e < a * peters_g ((j : ℤ) + 2) e := by
  have h2 := check_sound h hx hy
  simp only [gapPoly, ev_add, ev_smul, ev_cons, ev_nil] at h2
  push_cast at h2
  have g1 := (abs_le.1 (gPoly_close M j hj h0 h1)).1
  have g2 := (abs_le.1 (gPoly_close M k hk h0 h1)).2
  have ha' : (0 : ℝ) ≤ a := by exact_mod_cast ha
  have hb' : (0 : ℝ) ≤ b := by exact_mod_cast hb
  have g3 := mul_le_mul_of_nonneg_left g1 ha'
  have g4 := mul_le_mul_of_nonneg_left g2 hb'
  rw [mul_sub] at g3 g4
  linarith

end Legwork.utils
