import Mathlib.Algebra.Order.Ring.Pow
import Verif.Lemmas.MergerAccuracy

/-!
# Accuracy of the fitted merger time

With `e = 2t / (1 + t²)` and `√(1 - e²) = (1 - t²) / (1 + t²)` the comparison of the fit with the bounds of
`I514_between` becomes a polynomial inequality in `t`, up to the term `e^1000`, which is bounded on each piece.
-/

namespace Legwork.evol

open Real Legwork.utils Legwork.PolyCheck

/-- The correction polynomial, lowest power first. -/
def corrPoly : List ℚ := [0.993382093, 0.532494018, -13.2267683, 154.873214, -979.864734, 3694.47796, -8662.81737,
  12730.6422, -11393.5479, 5672.11219, -1203.17749]

theorem ev_corrPoly (e : ℝ) : ev corrPoly e = corr e := by
  rw [corr_eq]
  simp only [corrPoly, ev_cons, ev_nil]
  push_cast
  ring

/-- `1 + 0.27 e^10 + 0.33 e^20 + 0.2 (c + d e)`. -/
def nPoly (c d : ℚ) : List ℚ :=
  [1 + c / 5, d / 5, 0, 0, 0, 0, 0, 0, 0, 0, 0.27, 0, 0, 0, 0, 0, 0, 0, 0, 0, 0.33]

theorem ev_nPoly (c d : ℚ) (e : ℝ) :
    ev (nPoly c d) e = 1 + 0.27 * e ^ 10 + 0.33 * e ^ 20 + 0.20 * (c + d * e) := by
  simp only [nPoly, ev_cons, ev_nil]
  push_cast
  ring

/-- `(1 + t²)^20 (N(e) - k corr(e) B(s))` as a polynomial in `t`. -/
def fitPoly (N B : List ℚ) (k : ℚ) : List ℚ :=
  add (subst [0, 2] [1, 0, 1] N 20)
    (smul (-k) (mul (pow [1, 0, 1] 2) (mul (subst [0, 2] [1, 0, 1] corrPoly 10) (subst [1, 0, -1] [1, 0, 1] B 8))))

theorem ev_fitPoly {N B : List ℚ} (hN : N.length ≤ 21) (hB : B.length ≤ 9) (k : ℚ) {t e s : ℝ}
    (he : (1 + t ^ 2) * e = 2 * t) (hs : (1 + t ^ 2) * s = 1 - t ^ 2) :
    ev (fitPoly N B k) t = (1 + t ^ 2) ^ 20 * (ev N e - k * corr e * ev B s) := by
  have hw : ev [1, 0, 1] t = 1 + t ^ 2 := by simp; ring
  have h2 : ev [1, 0, 1] t * e = ev [0, 2] t := by rw [hw, he]; simp; ring
  have h3 : ev [1, 0, 1] t * s = ev [1, 0, -1] t := by rw [hw, hs]; simp; ring
  unfold fitPoly
  rw [ev_add, ev_smul, ev_mul, ev_mul, ev_pow, ev_subst _ _ _ 20 hN t e h2,
    ev_subst _ _ _ 10 (by simp [corrPoly]) t e h2, ev_subst _ _ _ 8 hB t s h3, ev_corrPoly, hw]
  push_cast
  ring

/-- The half-angle parameter of an eccentricity. -/
theorem half_angle {e : ℝ} (h0 : 0 < e) (h1 : e < 1) : ∃ t : ℝ, 0 < t ∧ t < 1 ∧ (1 + t ^ 2) * e = 2 * t ∧
    (1 + t ^ 2) * √(1 - e ^ 2) = 1 - t ^ 2 := by
  obtain ⟨hs0, hs1⟩ := sqrt_mem h0 h1
  have hq : √(1 - e ^ 2) ^ 2 = 1 - e ^ 2 := sq_sqrt (one_sub_sq_pos' h0.le h1).le
  generalize √(1 - e ^ 2) = s at *
  refine ⟨e / (1 + s), by positivity, ?_, ?_, ?_⟩
  · rw [div_lt_one (by linarith)]; linarith
  · have : (1 + s) ^ 2 + e ^ 2 = 2 * (1 + s) := by nlinarith
    field_simp; linear_combination this
  · have : e ^ 2 = (1 - s) * (1 + s) := by nlinarith
    field_simp; rw [this]; ring

theorem half_angle_le {e t a : ℝ} (ht1 : t < 1) (ha0 : 0 ≤ a) (ha1 : a ≤ 1) (he : (1 + t ^ 2) * e = 2 * t)
    (h : 2 * a / (1 + a ^ 2) ≤ e) (ht0 : 0 < t) : a ≤ t := by
  by_contra hlt
  push Not at hlt
  rw [div_le_iff₀ (by positivity)] at h
  have h2 : 2 * a * (1 + t ^ 2) ≤ 2 * t * (1 + a ^ 2) := by
    calc 2 * a * (1 + t ^ 2) ≤ e * (1 + a ^ 2) * (1 + t ^ 2) := by gcongr
      _ = 2 * t * (1 + a ^ 2) := by rw [← he]; ring
  nlinarith [mul_pos (sub_pos.2 hlt) (show 0 < 1 - a * t by nlinarith)]

theorem half_angle_lt {e t b : ℝ} (ht0 : 0 < t) (ht1 : t < 1) (hb1 : b ≤ 1) (he : (1 + t ^ 2) * e = 2 * t)
    (h : e < 2 * b / (1 + b ^ 2)) : t < b := by
  by_contra hle
  push Not at hle
  rw [lt_div_iff₀ (by positivity)] at h
  have h2 : 2 * t * (1 + b ^ 2) < 2 * b * (1 + t ^ 2) := by
    calc 2 * t * (1 + b ^ 2) = e * (1 + b ^ 2) * (1 + t ^ 2) := by rw [← he]; ring
      _ < 2 * b * (1 + t ^ 2) := by gcongr
  nlinarith [mul_nonneg (sub_nonneg.2 hle) (show 0 ≤ 1 - b * t by nlinarith)]

/-- The numerator of the fit. -/
noncomputable def fitNum (e : ℝ) : ℝ := 1 + 0.27 * e ^ 10 + 0.33 * e ^ 20 + 0.20 * e ^ 1000

/-- One piece of the upper bound. -/
theorem fitNum_le {e : ℝ} (h0 : 0 < e) (h1 : e < 1) {a b k r : ℚ} (ha0 : 0 ≤ a) (ha1 : a ≤ 1) (hb1 : b ≤ 1)
    (ha : ((2 * a / (1 + a ^ 2) : ℚ) : ℝ) ≤ e) (hb : e < ((2 * b / (1 + b ^ 2) : ℚ) : ℝ))
    (hr : (2 * b / (1 + b ^ 2) : ℚ) ^ 1000 ≤ r)
    (hc : check (smul (-1) (fitPoly (nPoly r 0) lower k)) a b = true) :
    fitNum e ≤ k * corr e * ev lower √(1 - e ^ 2) := by
  obtain ⟨t, ht0, ht1, he, hs⟩ := half_angle h0 h1
  have hta : (a : ℝ) ≤ t := half_angle_le ht1 (by exact_mod_cast ha0) (by exact_mod_cast ha1) he
    (by push_cast at ha; exact ha) ht0
  have htb : t < (b : ℝ) := half_angle_lt ht0 ht1 (by exact_mod_cast hb1) he (by push_cast at hb; exact hb)
  have h := check_sound hc hta htb
  rw [ev_smul, ev_fitPoly (by simp [nPoly]) (by simp [lower]) k he hs, ev_nPoly] at h
  have hpow : e ^ 1000 ≤ (r : ℝ) :=
    (pow_le_pow_left₀ h0.le hb.le 1000).trans (by exact_mod_cast hr)
  have hw : (0 : ℝ) < (1 + t ^ 2) ^ 20 := by positivity
  push_cast at h
  have h' : 0 ≤ -(1 + 0.27 * e ^ 10 + 0.33 * e ^ 20 + 0.20 * ((r : ℝ) + 0 * e)
      - k * corr e * ev lower √(1 - e ^ 2)) := by
    refine nonneg_of_mul_nonneg_right (a := (1 + t ^ 2) ^ 20) ?_ hw
    linarith
  unfold fitNum
  linarith

theorem tangent_le_pow (n : ℕ) {r E e : ℝ} (h0 : 0 < e) (hE : 0 < E) (hR0 : 0 ≤ r) (hR : r ≤ E ^ n) :
    r * (1 + n * (e / E - 1)) ≤ e ^ n := by
  rcases le_total 0 (1 + n * (e / E - 1)) with hp | hn
  · have hx0 : 0 < e / E := by positivity
    have hx : -2 ≤ e / E - 1 := by linarith
    have hB := one_add_mul_le_pow hx n
    calc r * (1 + n * (e / E - 1)) ≤ E ^ n * (1 + n * (e / E - 1)) := by gcongr
      _ ≤ E ^ n * (1 + (e / E - 1)) ^ n := by gcongr
      _ = e ^ n := by rw [← mul_pow]; congr 1; field_simp; ring
  · exact (mul_nonpos_of_nonneg_of_nonpos hR0 hn).trans (by positivity)

/-- One piece of the lower bound; `e^1000` is replaced by a tangent at `e₀`. -/
theorem le_fitNum {e : ℝ} (h0 : 0 < e) (h1 : e < 1) {a b k r e₀ : ℚ} (ha0 : 0 ≤ a) (ha1 : a ≤ 1) (hb1 : b ≤ 1)
    (ha : ((2 * a / (1 + a ^ 2) : ℚ) : ℝ) ≤ e) (hb : e < ((2 * b / (1 + b ^ 2) : ℚ) : ℝ))
    (he₀ : 0 < e₀) (hr0 : 0 ≤ r) (hr : r ≤ e₀ ^ 1000)
    (hc : check (fitPoly (nPoly (-999 * r) (1000 * r / e₀)) upper k) a b = true) :
    k * corr e * ev upper √(1 - e ^ 2) ≤ fitNum e := by
  obtain ⟨t, ht0, ht1, he, hs⟩ := half_angle h0 h1
  have hta : (a : ℝ) ≤ t := half_angle_le ht1 (by exact_mod_cast ha0) (by exact_mod_cast ha1) he
    (by push_cast at ha; exact ha) ht0
  have htb : t < (b : ℝ) := half_angle_lt ht0 ht1 (by exact_mod_cast hb1) he (by push_cast at hb; exact hb)
  have h := check_sound hc hta htb
  rw [ev_fitPoly (by simp [nPoly]) (by simp [upper]) k he hs, ev_nPoly] at h
  have hw : (0 : ℝ) < (1 + t ^ 2) ^ 20 := by positivity
  have h' := nonneg_of_mul_nonneg_right h hw
  have hE : (0 : ℝ) < e₀ := by exact_mod_cast he₀
  have hR0 : (0 : ℝ) ≤ r := by exact_mod_cast hr0
  have hR : (r : ℝ) ≤ (e₀ : ℝ) ^ 1000 := by exact_mod_cast hr
  have hpow := tangent_le_pow 1000 h0 hE hR0 hR
  push_cast at hpow
  push_cast at h'
  have hlin : -999 * (r : ℝ) + 1000 * r / e₀ * e = r * (1 + 1000 * (e / e₀ - 1)) := by field_simp; ring
  rw [hlin] at h'
  unfold fitNum
  linarith

/-- Up to eccentricity 0.97 the fit is within 0.5% of the bounds. -/
theorem fitNum_mid {e : ℝ} (h0 : 0.15 ≤ e) (h1 : e ≤ 0.97) :
    0.995 * corr e * ev upper √(1 - e ^ 2) ≤ fitNum e ∧ fitNum e ≤ 1.005 * corr e * ev lower √(1 - e ^ 2) := by
  have hp : 0 < e := by linarith
  have hl : e < 1 := by linarith
  constructor
  · have := le_fitNum hp hl (a := 3 / 40) (b := 25 / 32) (k := 0.995) (r := 0) (e₀ := 1) (by norm_num) (by norm_num)
      (by norm_num) (by norm_num; linarith) (by norm_num; linarith) (by norm_num) le_rfl (by decide +kernel)
      (by decide +kernel)
    push_cast at this; norm_num at this ⊢; exact this
  · have := fitNum_le hp hl (a := 3 / 40) (b := 25 / 32) (k := 1.005) (r := 5 / 1000000) (by norm_num) (by norm_num)
      (by norm_num) (by norm_num; linarith) (by norm_num; linarith) (by decide +kernel) (by decide +kernel)
    push_cast at this; norm_num at this ⊢; exact this

/-- From eccentricity 0.97 to 0.9999 the fit is within 3% of the bounds. -/
theorem fitNum_high {e : ℝ} (h0 : 0.97 ≤ e) (h1 : e ≤ 0.9999) :
    0.97 * corr e * ev upper √(1 - e ^ 2) ≤ fitNum e ∧ fitNum e ≤ 1.03 * corr e * ev lower √(1 - e ^ 2) := by
  have hp : 0 < e := by linarith
  have hl : e < 1 := by linarith
  constructor
  · have key : (((0.97 : ℚ) : ℝ)) * corr e * ev upper √(1 - e ^ 2) ≤ fitNum e := by
      rcases lt_or_ge e ((2 * (0.915 : ℚ) / (1 + (0.915 : ℚ) ^ 2) : ℚ) : ℝ) with h | ha
      · exact le_fitNum hp hl (a := 3 / 4) (b := 0.915) (r := 0) (e₀ := 1) (by norm_num) (by norm_num)
          (by norm_num) (by norm_num; linarith) h (by norm_num) le_rfl (by decide +kernel) (by decide +kernel)
      rcases lt_or_ge e ((2 * (0.935 : ℚ) / (1 + (0.935 : ℚ) ^ 2) : ℚ) : ℝ) with h | ha'
      · exact le_fitNum hp hl (a := 0.915) (b := 0.935) (r := 0.07401) (e₀ := 0.9974) (by norm_num) (by norm_num)
          (by norm_num) ha h (by norm_num) (by norm_num) (by decide +kernel) (by decide +kernel)
      clear ha
      rcases lt_or_ge e ((2 * (0.957 : ℚ) / (1 + (0.957 : ℚ) ^ 2) : ℚ) : ℝ) with h | ha
      · exact le_fitNum hp hl (a := 0.935) (b := 0.957) (r := 0.13505) (e₀ := 0.998) (by norm_num) (by norm_num)
          (by norm_num) ha' h (by norm_num) (by norm_num) (by decide +kernel) (by decide +kernel)
      · exact le_fitNum hp hl (a := 0.957) (b := 0.9861) (r := 0.27227) (e₀ := 0.9987) (by norm_num) (by norm_num)
          (by norm_num) ha (by norm_num; linarith) (by norm_num) (by norm_num) (by decide +kernel) (by decide +kernel)
    push_cast at key; norm_num at key ⊢; exact key
  · have key : fitNum e ≤ (((1.03 : ℚ) : ℝ)) * corr e * ev lower √(1 - e ^ 2) := by
      rcases lt_or_ge e ((2 * (0.875 : ℚ) / (1 + (0.875 : ℚ) ^ 2) : ℚ) : ℝ) with h | ha
      · exact fitNum_le hp hl (a := 3 / 4) (b := 0.875) (r := 0.0005) (by norm_num) (by norm_num)
          (by norm_num) (by norm_num; linarith) h (by decide +kernel) (by decide +kernel)
      rcases lt_or_ge e ((2 * (0.95 : ℚ) / (1 + (0.95 : ℚ) ^ 2) : ℚ) : ℝ) with h | ha'
      · exact fitNum_le hp hl (a := 0.875) (b := 0.95) (r := 0.2686) (by norm_num) (by norm_num)
          (by norm_num) ha h (by decide +kernel) (by decide +kernel)
      clear ha
      rcases lt_or_ge e ((2 * (0.974 : ℚ) / (1 + (0.974 : ℚ) ^ 2) : ℚ) : ℝ) with h | ha
      · exact fitNum_le hp hl (a := 0.95) (b := 0.974) (r := 0.707) (by norm_num) (by norm_num)
          (by norm_num) ha' h (by decide +kernel) (by decide +kernel)
      · exact fitNum_le hp hl (a := 0.974) (b := 0.9861) (r := 0.9068) (by norm_num) (by norm_num)
          (by norm_num) ha (by norm_num; linarith) (by decide +kernel) (by decide +kernel)
    push_cast at key; norm_num at key ⊢; exact key

end Legwork.evol
