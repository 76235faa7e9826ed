import Verif.Lemmas.FitAccuracy
import Verif.Lemmas.MergerAccuracy
import Mathlib.Analysis.Calculus.Deriv.MeanValue

/-!
# The fitted merger time falls with eccentricity

`t_merge_mandel_fit` is the product of `A (1 - e²)`, where `A` is its first factor, and `(1 - e²)^(5/2) / corr`. Both fall.
-/

namespace Legwork.evol

open Real Legwork.utils Legwork.PolyCheck

/-- `5 e corr + (1 - e²) corr'`, less a margin. -/
def corrSlope : List ℚ := add (add (0 :: smul 5 corrPoly) (mul uPoly (der corrPoly))) [-1 / 10]

theorem corrSlope_check : checks corrSlope (3 / 20) [1 / 4, 2 / 5, 3 / 5, 4 / 5, 1] = true := by decide +kernel

theorem ev_corrSlope (e : ℝ) : ev corrSlope e = 5 * e * corr e + (1 - e ^ 2) * ev (der corrPoly) e - 1 / 10 := by
  simp only [corrSlope, uPoly, ev_add, ev_smul, ev_mul, ev_cons, ev_nil, ev_corrPoly]
  push_cast
  ring

/-- The square of `(1 - e²)^(5/2) / corr` falls. -/
theorem corr_part_lt {e e' : ℝ} (h0 : 0.15 ≤ e) (h : e < e') (h1 : e' < 1) :
    (1 - e' ^ 2) ^ 5 / corr e' ^ 2 < (1 - e ^ 2) ^ 5 / corr e ^ 2 := by
  have hpos : ∀ x : ℝ, 0.15 ≤ x → x < 1 → 0 < corr x := fun x a b => lt_of_lt_of_le (by norm_num) (corr_ge a b.le)
  have hd : ∀ x : ℝ, 0.15 ≤ x → x < 1 → HasDerivAt (fun x => (1 - x ^ 2) ^ 5 / corr x ^ 2)
      (-(2 * (1 - x ^ 2) ^ 4 * (5 * x * corr x + (1 - x ^ 2) * ev (der corrPoly) x) / corr x ^ 3)) x := by
    intro x a b
    have hc := hpos x a b
    have d1 : HasDerivAt corr (ev (der corrPoly) x) x := by
      have := hasDerivAt_ev corrPoly x
      rwa [show ev corrPoly = corr from funext ev_corrPoly] at this
    have d2 : HasDerivAt (fun x : ℝ => 1 - x ^ 2) (-(2 * x)) x := by
      simpa using (hasDerivAt_pow 2 x).const_sub 1
    refine ((d2.pow 5).div (d1.pow 2) (pow_ne_zero 2 hc.ne')).congr_deriv ?_
    simp only [Pi.pow_apply]
    field_simp
    push_cast
    ring
  have := strictAntiOn_of_deriv_neg (D := Set.Ico 0.15 1) (f := fun x => (1 - x ^ 2) ^ 5 / corr x ^ 2) (convex_Ico _ _)
    (fun x hx => (hd x hx.1 hx.2).continuousAt.continuousWithinAt) (fun x hx => by
      rw [interior_Ico] at hx
      rw [(hd x hx.1.le hx.2).deriv, neg_lt_zero]
      have hc := hpos x hx.1.le hx.2
      have hs := one_sub_sq_pos' (e := x) (by linarith [hx.1]) hx.2
      have hq := checks_sound corrSlope_check (x := x) (by push_cast; norm_num at hx ⊢; linarith [hx.1])
        (by simpa using hx.2)
      rw [ev_corrSlope] at hq
      have : 0 < 5 * x * corr x + (1 - x ^ 2) * ev (der corrPoly) x := by linarith
      positivity)
  exact this ⟨h0, h.trans h1⟩ ⟨h0.trans h.le, h1⟩ h

/-- `(1 - x) xⁿ` is at most `1/(n+1)`. -/
theorem bump_le (n : ℕ) {x : ℝ} (h0 : 0 ≤ x) (h1 : x ≤ 1) : (n + 1) * ((1 - x) * x ^ n) ≤ 1 := by
  have h2 : ∀ m, m ≤ n → (m + 1) * ((1 - x) * x ^ n) ≤ 1 - x ^ (m + 1) := by
    intro m
    induction m with
    | zero =>
      intro _
      have : x ^ n ≤ 1 := pow_le_one₀ h0 h1
      have h3 : 0 ≤ 1 - x := by linarith
      have := mul_le_mul_of_nonneg_left this h3
      simp
      linarith
    | succ m ih =>
      intro hm
      have h3 := ih (by omega)
      have h4 : x ^ n ≤ x ^ (m + 1) := pow_le_pow_of_le_one h0 h1 hm
      have h5 : (1 - x) * x ^ n ≤ (1 - x) * x ^ (m + 1) := mul_le_mul_of_nonneg_left h4 (by linarith)
      have h6 : x ^ (m + 1 + 1) = x ^ (m + 1) * x := pow_succ _ _
      push_cast
      nlinarith
  have := h2 n le_rfl
  have : 0 ≤ x ^ (n + 1) := by positivity
  linarith

/-- The first factor of the fit grows more slowly than `1 - e²` falls. -/
theorem fitNum_part_le {e e' : ℝ} (h0 : 0 < e) (h : e ≤ e') (h1 : e' < 1) :
    fitNum e' * (1 - e' ^ 2) ≤ fitNum e * (1 - e ^ 2) := by
  have hd : ∀ x : ℝ, HasDerivAt (fun x => fitNum x * (1 - x ^ 2))
      ((2.7 * x ^ 9 + 6.6 * x ^ 19 + 200 * x ^ 999) * (1 - x ^ 2) + fitNum x * (-(2 * x))) x := by
    intro x
    have d1 : HasDerivAt fitNum (2.7 * x ^ 9 + 6.6 * x ^ 19 + 200 * x ^ 999) x := by
      have a1 := (hasDerivAt_pow 10 x).const_mul (0.27 : ℝ)
      have a2 := (hasDerivAt_pow 20 x).const_mul (0.33 : ℝ)
      have a3 := (hasDerivAt_pow 1000 x).const_mul (0.20 : ℝ)
      refine (((a1.const_add 1).add a2).add a3).congr_deriv ?_
      simp only [Nat.add_one_sub_one]
      generalize x ^ 999 = z
      push_cast
      ring
    have d2 : HasDerivAt (fun x : ℝ => 1 - x ^ 2) (-(2 * x)) x := by
      simpa using (hasDerivAt_pow 2 x).const_sub 1
    exact d1.mul d2
  have := antitoneOn_of_deriv_nonpos (D := Set.Ico 0 1) (f := fun x => fitNum x * (1 - x ^ 2)) (convex_Ico _ _)
    (fun x _ => (hd x).continuousAt.continuousWithinAt) (fun x _ => (hd x).differentiableAt.differentiableWithinAt)
    (fun x hx => by
      rw [interior_Ico] at hx
      rw [(hd x).deriv]
      obtain ⟨x0, x1⟩ := hx
      have hx2 : x ^ 2 ≤ 1 := pow_le_one₀ x0.le x1.le
      have b1 := bump_le 4 (x := x ^ 2) (by positivity) hx2
      have b2 := bump_le 9 (x := x ^ 2) (by positivity) hx2
      have b3 := bump_le 499 (x := x ^ 2) (by positivity) hx2
      rw [← pow_mul] at b1 b2 b3
      have c1 : x ^ 9 = x * x ^ (2 * 4) := by ring
      have c2 : x ^ 19 = x * x ^ (2 * 9) := by ring
      have c3 : x ^ 999 = x * x ^ (2 * 499) := by rw [← pow_succ']
      have hA : 1 ≤ fitNum x := by
        have : 0 ≤ 0.27 * x ^ 10 + 0.33 * x ^ 20 + 0.20 * x ^ 1000 := by positivity
        unfold fitNum
        linarith
      rw [c1, c2, c3]
      generalize x ^ (2 * 499) = z at b3 ⊢
      generalize x ^ (2 * 9) = y at b2 ⊢
      generalize x ^ (2 * 4) = w at b1 ⊢
      push_cast at b1 b2 b3
      have key : (2.7 * w + 6.6 * y + 200 * z) * (1 - x ^ 2) ≤ 2 * fitNum x := by nlinarith
      have := mul_le_mul_of_nonneg_left key x0.le
      nlinarith)
  exact this ⟨h0.le, h.trans_lt h1⟩ ⟨h0.le.trans h, h1⟩ h

/-- The fitted merger time falls with eccentricity. -/
theorem mandel_fit_lt {e e' : ℝ} (h0 : 0.15 ≤ e) (h : e < e') (h1 : e' < 1) :
    t_merge_mandel_fit e' < t_merge_mandel_fit e := by
  have hp : 0 < e := by linarith
  have h1e := h.trans h1
  have hs := one_sub_sq_pos' hp.le h1e
  have hs' := one_sub_sq_pos' (hp.trans h).le h1
  have hc : 0 < corr e := lt_of_lt_of_le (by norm_num) (corr_ge h0 h1e.le)
  have hc' : 0 < corr e' := lt_of_lt_of_le (by norm_num) (corr_ge (h0.trans h.le) h1.le)
  have split : ∀ x : ℝ, 0 < 1 - x ^ 2 → t_merge_mandel_fit x
      = fitNum x * (1 - x ^ 2) * ((1 - x ^ 2) ^ (5 / 2 : ℝ) / corr x) := by
    intro x hx
    rw [t_merge_mandel_fit_eq, show (7 / 2 : ℝ) = 1 + 5 / 2 by norm_num, rpow_add hx, rpow_one]
    unfold fitNum
    ring
  have sq : ∀ x : ℝ, 0 < 1 - x ^ 2 → ((1 - x ^ 2) ^ (5 / 2 : ℝ) / corr x) ^ 2 = (1 - x ^ 2) ^ 5 / corr x ^ 2 := by
    intro x hx
    rw [div_pow, ← rpow_natCast ((1 - x ^ 2) ^ (5 / 2 : ℝ)), ← rpow_mul hx.le]
    norm_num
  have h2 := corr_part_lt h0 h h1
  rw [← sq e hs, ← sq e' hs'] at h2
  have h3 : (1 - e' ^ 2) ^ (5 / 2 : ℝ) / corr e' < (1 - e ^ 2) ^ (5 / 2 : ℝ) / corr e :=
    lt_of_pow_lt_pow_left₀ 2 (by positivity) h2
  have hA : 0 < fitNum e := by unfold fitNum; positivity
  rw [split e hs, split e' hs']
  exact mul_lt_mul' (fitNum_part_le hp h.le h1) h3 (by positivity) (by positivity)

end Legwork.evol
