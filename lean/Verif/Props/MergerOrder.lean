import Verif.Lemmas.FitOrder
import Verif.Lemmas.MergerOrder
import Verif.Props.MergerAccuracy

/-!
# The more eccentric of two binaries merges first: C108
-/

namespace Legwork.Props

open Real Legwork.utils Legwork.evol Legwork.Spec Legwork.PolyCheck Legwork.source

variable {ι : Type*}

private lemma half_five {x : ℝ} (hx : 0 < x) : x ^ (5 / 2 : ℝ) = x ^ 2 * √x := by
  rw [sqrt_eq_rpow, ← rpow_natCast, ← rpow_add hx]; norm_num

/-- A comparison of the decays gives a comparison of the merger times. -/
private lemma peters_lt {a β e e' k : ℝ} (ha : 0 < a) (hβ : 0 < β) (h0 : 0 ≤ e) (h : e ≤ e') (h1 : e' < 1) (hk : 0 ≤ k)
    (hd : k * decay e' < decay e) : k * petersTime a β e' < petersTime a β e := by
  have h1' := h.trans_lt h1
  have hr := petersTime_ratio (a := a) hβ h0 h h1
  have hP := petersTime_pos ha hβ h0 h1'
  have hD := decay_pos h0 h1'
  have h2 := mul_lt_mul_of_pos_right hd hP
  have h3 := mul_le_mul_of_nonneg_left hr hk
  by_contra hn
  have h4 := mul_le_mul_of_nonneg_right (not_lt.1 hn) hD.le
  linarith

private lemma peters_anti {a β e e' : ℝ} (ha : 0 < a) (hβ : 0 < β) (h0 : 0 ≤ e) (h : e < e') (h1 : e' < 1) :
    petersTime a β e' < petersTime a β e := by
  have := peters_lt (k := 1) ha hβ h0 h.le h1 zero_le_one (by rw [one_mul]; exact decay_lt h0 h h1)
  rwa [one_mul] at this

private lemma decay_anti {e e' : ℝ} (h0 : 0 ≤ e) (h : e ≤ e') (h1 : e' < 1) : decay e' ≤ decay e := by
  rcases h.eq_or_lt with rfl | h
  · exact le_rfl
  · exact (decay_lt h0 h h1).le

private lemma decay_low : 1.022 * decay 0.18 < decay 0.15 := by
  unfold decay
  rw [half_five (by norm_num), half_five (by norm_num)]
  have s1 : √(1 - 0.18 ^ 2) ≤ (0.98367 : ℝ) := by rw [sqrt_le_left (by norm_num)]; norm_num
  have s2 : (0.98868 : ℝ) ≤ √(1 - 0.15 ^ 2) := le_sqrt_of_sq_le (by norm_num)
  norm_num at s1 s2 ⊢
  rw [div_mul_eq_mul_div, div_lt_div_iff₀ (by norm_num) (by norm_num)] <;> nlinarith

private lemma decay_low_fit : 1.0272 * decay 0.18 < decay 0.15 := by
  unfold decay
  rw [half_five (by norm_num), half_five (by norm_num)]
  have s1 : √(1 - 0.18 ^ 2) ≤ (0.98367 : ℝ) := by rw [sqrt_le_left (by norm_num)]; norm_num
  have s2 : (0.98868 : ℝ) ≤ √(1 - 0.15 ^ 2) := le_sqrt_of_sq_le (by norm_num)
  norm_num at s1 s2 ⊢
  rw [div_mul_eq_mul_div, div_lt_div_iff₀ (by norm_num) (by norm_num)] <;> nlinarith

private lemma decay_start : 1.03 * decay 0.15 < decay 0 := by
  unfold decay
  rw [half_five (by norm_num), half_five (by norm_num)]
  have s1 : √(1 - 0.15 ^ 2) ≤ (0.98869 : ℝ) := by rw [sqrt_le_left (by norm_num)]; norm_num
  norm_num at s1 ⊢
  linarith

private lemma decay_high_fit : 1.021 * decay 0.99991 < 0.97 * decay 0.9999 := by
  unfold decay
  rw [half_five (by norm_num), half_five (by norm_num)]
  have s1 : √(1 - 0.99991 ^ 2) ≤ √(1 - 0.9999 ^ 2 : ℝ) := sqrt_le_sqrt (by norm_num)
  have s2 : (0 : ℝ) < √(1 - 0.9999 ^ 2) := sqrt_pos.2 (by norm_num)
  have s3 : (0 : ℝ) ≤ √(1 - 0.99991 ^ 2) := sqrt_nonneg _
  generalize √(1 - 0.9999 ^ 2 : ℝ) = y at s1 s2 ⊢
  generalize √(1 - 0.99991 ^ 2 : ℝ) = x at s1 s3 ⊢
  norm_num
  linarith

private lemma decay_mid : 1.1 * decay 0.97 < decay 0.15 := by
  unfold decay
  rw [half_five (by norm_num), half_five (by norm_num)]
  have s1 : √(1 - 0.97 ^ 2) ≤ (1 : ℝ) := by rw [sqrt_le_left (by norm_num)]; norm_num
  have s2 : (0.98868 : ℝ) ≤ √(1 - 0.15 ^ 2) := le_sqrt_of_sq_le (by norm_num)
  norm_num at s1 s2 ⊢
  nlinarith

private lemma decay_high : 1.021 * decay 0.99991 < decay 0.9999 := by
  unfold decay
  rw [half_five (by norm_num), half_five (by norm_num)]
  have s1 : √(1 - 0.99991 ^ 2) ≤ √(1 - 0.9999 ^ 2 : ℝ) := sqrt_le_sqrt (by norm_num)
  have s2 : (0 : ℝ) < √(1 - 0.9999 ^ 2) := sqrt_pos.2 (by norm_num)
  have s3 : (0 : ℝ) ≤ √(1 - 0.99991 ^ 2) := sqrt_nonneg _
  generalize √(1 - 0.9999 ^ 2 : ℝ) = y at s1 s2 ⊢
  generalize √(1 - 0.99991 ^ 2 : ℝ) = x at s1 s3 ⊢
  norm_num
  linarith

private lemma decay_far : 1.1 * decay 0.9999 < decay 0.15 := by
  unfold decay
  rw [half_five (by norm_num), half_five (by norm_num)]
  have s1 : √(1 - 0.9999 ^ 2) ≤ (1 : ℝ) := by rw [sqrt_le_left (by norm_num)]; norm_num
  have s2 : (0.98868 : ℝ) ≤ √(1 - 0.15 ^ 2) := le_sqrt_of_sq_le (by norm_num)
  norm_num at s1 s2 ⊢
  nlinarith

private lemma small_eq {a β e : ℝ} (h0 : 0 < e) (h1 : e < 1) :
    t_small (c_0 a e) β e = a ^ 4 / (4 * β) * ((1 - e ^ 2) ^ 4 / (1 + 121 / 304 * e ^ 2) ^ (3480 / 2299 : ℝ)) := by
  have hk : 0 < (1 + 121 / 304 * e ^ 2) ^ (3480 / 2299 : ℝ) := by positivity
  have h4 := c_0_pow_four (a := a) h0 h1
  have hc : c_0 a e ^ 4 * e ^ (48 / 19 : ℝ) = a ^ 4 * (1 - e ^ 2) ^ 4 / (1 + 121 / 304 * e ^ 2) ^ (3480 / 2299 : ℝ) := by
    rw [eq_div_iff hk.ne']; exact h4
  unfold t_small
  rw [div_mul_eq_mul_div, hc]
  ring

private lemma small_anti {a β e e' : ℝ} (ha : 0 < a) (hβ : 0 < β) (h0 : 0 < e) (h : e < e') (h1 : e' < 1) :
    t_small (c_0 a e') β e' < t_small (c_0 a e) β e := by
  rw [small_eq h0 (h.trans h1), small_eq (h0.trans h) h1]
  have hs := one_sub_sq_pos' h0.le (h.trans h1)
  have hs' := one_sub_sq_pos' (h0.trans h).le h1
  have hee : e ^ 2 < e' ^ 2 := pow_lt_pow_left₀ h h0.le (by norm_num)
  apply mul_lt_mul_of_pos_left _ (by positivity)
  exact div_lt_div₀ (pow_lt_pow_left₀ (by linarith) hs'.le (by norm_num))
    (rpow_le_rpow (by positivity) (by linarith) (by norm_num)) (by positivity) (by positivity)

private lemma large_anti {a β e e' : ℝ} (ha : 0 < a) (hβ : 0 < β) (h0 : 0 < e) (h : e < e') (h1 : e' < 1) :
    t_large (c_0 a e') β e' < t_large (c_0 a e) β e := by
  rw [t_large_eq h0 (h.trans h1), t_large_eq (h0.trans h) h1]
  have hs' := one_sub_sq_pos' (h0.trans h).le h1
  have hee : e ^ 2 < e' ^ 2 := pow_lt_pow_left₀ h h0.le (by norm_num)
  apply mul_lt_mul_of_pos_left _ (by positivity)
  apply mul_lt_mul_of_pos_left _ (by norm_num)
  exact rpow_lt_rpow hs'.le (by linarith) (by norm_num)

private lemma val_small {a β e : ℝ} {ex : Bool} (h0 : 0 < e) (h : e < 0.15) :
    t_val a β e 0.15 (1 - 1e-4) ex = t_small (c_0 a e) β e := by
  unfold t_val; rw [if_neg h0.ne', if_pos h]

private lemma val_large {a β e : ℝ} {ex : Bool} (h : 0.9999 < e) :
    t_val a β e 0.15 (1 - 1e-4) ex = t_large (c_0 a e) β e := by
  have hp : 0 < e := by linarith
  unfold t_val
  rw [if_neg hp.ne', if_neg (by linarith), if_pos (by norm_num at h ⊢; linarith)]

/-- The comparison of two merger times, for one pair of binaries. -/
private lemma val_order {a β e e' : ℝ} (ha : 0 < a) (hβ : 0 < β) (h0 : 0 ≤ e) (h : e < e') (h1 : e' < 1) :
    (¬ (0 < e ∧ e < 0.15 ∧ 0.15 ≤ e' ∧ e' < 0.18) → ¬ (0.15 ≤ e ∧ e ≤ 0.9999 ∧ 0.9999 < e' ∧ e' < 0.99991) →
      t_val a β e' 0.15 (1 - 1e-4) true < t_val a β e 0.15 (1 - 1e-4) true) ∧
    t_val a β e' 0.15 (1 - 1e-4) true < 1.022 * t_val a β e 0.15 (1 - 1e-4) true := by
  have h1e := h.trans h1
  have hp' := h0.trans_lt h
  obtain ⟨q0, q1, q2, -, -, q5⟩ := t_val_accurate (a := a) hβ h0 h1e true
  obtain ⟨-, r1, r2, -, -, r5⟩ := t_val_accurate (a := a) hβ hp'.le h1 true
  have hP := petersTime_pos ha hβ h0 h1e
  have hP' := petersTime_pos ha hβ hp'.le h1
  have hanti := peters_anti ha hβ h0 h h1
  -- beyond 0.9999 the merger time is much smaller than below 0.15
  have far : e < 0.15 → 0.9999 < e' → 1.1 * petersTime a β e' < petersTime a β e := by
    intro he he'
    refine peters_lt ha hβ h0 h.le h1 (by norm_num) ?_
    have d1 := decay_anti (e := 0.9999) (by norm_num) he'.le h1
    have d2 := decay_anti (e' := 0.15) h0 he.le (by norm_num)
    have d3 := decay_far
    linarith
  rcases h0.eq_or_lt with rfl | hp
  · -- circular
    rw [q0 rfl]
    suffices t_val a β e' 0.15 (1 - 1e-4) true < petersTime a β 0 from ⟨fun _ _ => this, by linarith⟩
    by_cases c1 : e' < 0.15
    · exact (r1 hp' c1).1.trans_lt hanti
    · by_cases c2 : e' ≤ 0.9999
      · rw [r2 (le_of_not_gt c1) c2 rfl]; exact hanti
      · have := far (by norm_num) (lt_of_not_ge c2)
        have := (r5 (lt_of_not_ge c2)).2
        linarith
  by_cases b1 : e < 0.15
  · obtain ⟨p1, p2⟩ := q1 hp b1
    by_cases c1 : e' < 0.15
    · have := small_anti ha hβ hp h h1
      rw [val_small hp' c1, val_small hp b1]
      have pos := (t_small_bounds hβ ha hp h1e).1
      exact ⟨fun _ _ => this, by linarith⟩
    by_cases c2 : e' ≤ 0.9999
    · rw [r2 (le_of_not_gt c1) c2 rfl]
      refine ⟨fun hn _ => ?_, by linarith⟩
      have c3 : 0.18 ≤ e' := by
        by_contra hc
        exact hn ⟨hp, b1, le_of_not_gt c1, not_le.1 hc⟩
      have : 1.022 * petersTime a β e' < petersTime a β e := by
        refine peters_lt ha hβ h0 h.le h1 (by norm_num) ?_
        have d1 := decay_anti (e := 0.18) (by norm_num) c3 h1
        have d2 := decay_anti (e' := 0.15) h0 b1.le (by norm_num)
        have d3 := decay_low
        linarith
      linarith
    · have d := far b1 (lt_of_not_ge c2)
      have := (r5 (lt_of_not_ge c2)).2
      have : t_val a β e' 0.15 (1 - 1e-4) true < t_val a β e 0.15 (1 - 1e-4) true := by linarith
      exact ⟨fun _ _ => this, by linarith⟩
  have b1' := le_of_not_gt b1
  by_cases b2 : e ≤ 0.9999
  · rw [q2 b1' b2 rfl]
    by_cases c2 : e' ≤ 0.9999
    · rw [r2 (b1'.trans h.le) c2 rfl]
      exact ⟨fun _ _ => hanti, by linarith⟩
    · have c2' := lt_of_not_ge c2
      have hle := (r5 c2').2
      refine ⟨fun _ hn => ?_, by linarith⟩
      have c3 : 0.99991 ≤ e' := by
        by_contra hc
        exact hn ⟨b1', b2, c2', not_le.1 hc⟩
      have : 1.021 * petersTime a β e' < petersTime a β e := by
        refine peters_lt ha hβ h0 h.le h1 (by norm_num) ?_
        have d1 := decay_anti (e := 0.99991) (by norm_num) c3 h1
        have d2 := decay_anti (e' := 0.9999) h0 b2 (by norm_num)
        have d3 := decay_high
        linarith
      linarith
  · have b2' := lt_of_not_ge b2
    have := large_anti ha hβ hp h h1
    rw [val_large b2', val_large (b2'.trans h)]
    have pos := (t_large_bounds hβ ha (by linarith) h1e).1
    exact ⟨fun _ _ => this, by linarith⟩

/-- The same for the fitted merger times. -/
private lemma val_order_fit {a β e e' : ℝ} (ha : 0 < a) (hβ : 0 < β) (h0 : 0 ≤ e) (h : e < e') (h1 : e' < 1) :
    (¬ (0 < e ∧ e < 0.15 ∧ 0.15 ≤ e' ∧ e' < 0.18) → ¬ (0.15 ≤ e ∧ e ≤ 0.9999 ∧ 0.9999 < e' ∧ e' < 0.99991) →
      t_val a β e' 0.15 (1 - 1e-4) false < t_val a β e 0.15 (1 - 1e-4) false) ∧
    t_val a β e' 0.15 (1 - 1e-4) false < 1.06 * t_val a β e 0.15 (1 - 1e-4) false := by
  have h1e := h.trans h1
  have hp' := h0.trans_lt h
  have hP := petersTime_pos ha hβ h0 h1e
  have hP' := petersTime_pos ha hβ hp'.le h1
  have hanti := peters_anti ha hβ h0 h h1
  have accurate : ∀ {x : ℝ}, 0.15 ≤ x → x < 1 → x ≤ 0.9999 → 0.97 * petersTime a β x ≤ t_val a β x 0.15 (1 - 1e-4) false ∧
      t_val a β x 0.15 (1 - 1e-4) false ≤ 1.03 * petersTime a β x ∧
      (x ≤ 0.97 → t_val a β x 0.15 (1 - 1e-4) false ≤ 1.005 * petersTime a β x) := by
    intro x x0 x1 x2
    obtain ⟨-, -, -, q3, q4, -⟩ := t_val_accurate (a := a) hβ (e := x) (by linarith) x1 false
    have hPx := petersTime_pos (e := x) ha hβ (by linarith) x1
    by_cases c : x ≤ 0.97
    · obtain ⟨w1, w2⟩ := abs_le.1 (q3 x0 c rfl)
      exact ⟨by linarith, by linarith, fun _ => by linarith⟩
    · obtain ⟨w1, w2⟩ := abs_le.1 (q4 (le_of_not_ge c) x2 rfl)
      exact ⟨by linarith, by linarith, fun h => absurd h c⟩
  obtain ⟨q0, q1, -, -, -, q5⟩ := t_val_accurate (a := a) hβ h0 h1e false
  obtain ⟨-, r1, -, -, -, r5⟩ := t_val_accurate (a := a) hβ hp'.le h1 false
  have far : e < 0.15 → 0.97 ≤ e' → 1.1 * petersTime a β e' < petersTime a β e := by
    intro he he'
    refine peters_lt ha hβ h0 h.le h1 (by norm_num) ?_
    have d1 := decay_anti (e := 0.97) (by norm_num) he' h1
    have d2 := decay_anti (e' := 0.15) h0 he.le (by norm_num)
    have d3 := decay_mid
    linarith
  rcases h0.eq_or_lt with rfl | hp
  · rw [q0 rfl]
    suffices t_val a β e' 0.15 (1 - 1e-4) false < petersTime a β 0 from ⟨fun _ _ => this, by linarith⟩
    by_cases c1 : e' < 0.15
    · exact (r1 hp' c1).1.trans_lt hanti
    · by_cases c2 : e' ≤ 0.9999
      · have := (accurate (le_of_not_gt c1) h1 c2).2.1
        have : 1.03 * petersTime a β e' < petersTime a β 0 := by
          refine peters_lt ha hβ le_rfl h.le h1 (by norm_num) ?_
          have d1 := decay_anti (e := 0.15) (by norm_num) (le_of_not_gt c1) h1
          have d3 := decay_start
          linarith
        linarith
      · have := far (by norm_num) (by linarith)
        have := (r5 (lt_of_not_ge c2)).2
        linarith
  by_cases b1 : e < 0.15
  · obtain ⟨p1, p2⟩ := q1 hp b1
    by_cases c1 : e' < 0.15
    · have := small_anti ha hβ hp h h1
      rw [val_small hp' c1, val_small hp b1]
      have pos := (t_small_bounds hβ ha hp h1e).1
      exact ⟨fun _ _ => this, by linarith⟩
    by_cases c2 : e' ≤ 0.9999
    · obtain ⟨-, u2, u3⟩ := accurate (le_of_not_gt c1) h1 c2
      refine ⟨fun hn _ => ?_, by linarith⟩
      by_cases c4 : e' ≤ 0.97
      · have c3 : 0.18 ≤ e' := by
          by_contra hc
          exact hn ⟨hp, b1, le_of_not_gt c1, not_le.1 hc⟩
        have : 1.0272 * petersTime a β e' < petersTime a β e := by
          refine peters_lt ha hβ h0 h.le h1 (by norm_num) ?_
          have d1 := decay_anti (e := 0.18) (by norm_num) c3 h1
          have d2 := decay_anti (e' := 0.15) h0 b1.le (by norm_num)
          have d3 := decay_low_fit
          linarith
        have := u3 c4
        linarith
      · have := far b1 (le_of_not_ge c4)
        linarith
    · have d := far b1 (by linarith)
      have := (r5 (lt_of_not_ge c2)).2
      have : t_val a β e' 0.15 (1 - 1e-4) false < t_val a β e 0.15 (1 - 1e-4) false := by linarith
      exact ⟨fun _ _ => this, by linarith⟩
  have b1' := le_of_not_gt b1
  by_cases b2 : e ≤ 0.9999
  · obtain ⟨u1, -, -⟩ := accurate b1' h1e b2
    by_cases c2 : e' ≤ 0.9999
    · have hfit : ∀ {x : ℝ}, 0.15 ≤ x → x ≤ 0.9999 → t_val a β x 0.15 (1 - 1e-4) false = t_fit a β x := by
        intro x x0 x1
        have hx : 0 < x := by linarith
        unfold t_val
        rw [if_neg hx.ne', if_neg (by linarith), if_neg (by norm_num at x1 ⊢; linarith), if_neg (by simp)]
      have : t_val a β e' 0.15 (1 - 1e-4) false < t_val a β e 0.15 (1 - 1e-4) false := by
        rw [hfit b1' b2, hfit (b1'.trans h.le) c2]
        exact mul_lt_mul_of_pos_left (mandel_fit_lt b1' h h1) (by positivity)
      exact ⟨fun _ _ => this, by linarith⟩
    · have c2' := lt_of_not_ge c2
      have hle := (r5 c2').2
      refine ⟨fun _ hn => ?_, by linarith⟩
      have c3 : 0.99991 ≤ e' := by
        by_contra hc
        exact hn ⟨b1', b2, c2', not_le.1 hc⟩
      have : 1.021 / 0.97 * petersTime a β e' < petersTime a β e := by
        refine peters_lt ha hβ h0 h.le h1 (by norm_num) ?_
        have d1 := decay_anti (e := 0.99991) (by norm_num) c3 h1
        have d2 := decay_anti (e' := 0.9999) h0 b2 (by norm_num)
        have d3 := decay_high_fit
        linarith
      linarith
  · have b2' := lt_of_not_ge b2
    have := large_anti ha hβ hp h h1
    rw [val_large b2', val_large (b2'.trans h)]
    have pos := (t_large_bounds hβ ha (by linarith) h1e).1
    exact ⟨fun _ _ => this, by linarith⟩

private lemma val_order_any {a β e e' : ℝ} (ha : 0 < a) (hβ : 0 < β) (h0 : 0 ≤ e) (h : e < e') (h1 : e' < 1) (ex : Bool) :
    (¬ (0 < e ∧ e < 0.15 ∧ 0.15 ≤ e' ∧ e' < 0.18) → ¬ (0.15 ≤ e ∧ e ≤ 0.9999 ∧ 0.9999 < e' ∧ e' < 0.99991) →
      t_val a β e' 0.15 (1 - 1e-4) ex < t_val a β e 0.15 (1 - 1e-4) ex) ∧
    t_val a β e' 0.15 (1 - 1e-4) ex < (if ex then 1.022 else 1.06) * t_val a β e 0.15 (1 - 1e-4) ex := by
  cases ex with
  | true => simpa using val_order ha hβ h0 h h1
  | false => simpa using val_order_fit ha hβ h0 h h1

/-- **C108.** Take two binaries of one call with the same separation and the same `beta`. With the default tolerances,
by quadrature or by the fit, the more eccentric one is reported to merge first, except that the order is not guaranteed
for pairs on either side of a boundary between two formulas and close to it: one below 0.15 and the other from 0.15 to
0.18, or one up to 0.9999 and the other from there to 0.99991. In every case the merger time of the more eccentric
binary is less than 1.022 times that of the other (1.06 times with the fit). -/
theorem C108_sooner (K : Consts) (ex : Bool) {ecc : ι → ℝ} {a f b m₁ m₂ : Option (ι → ℝ)} {b' a' : ι → ℝ}
    (hin : check_mass_freq_input K b m₁ m₂ a f = .ok (b', a')) (hb : ∀ i, 0 < b' i) (ha : ∀ i, 0 < a' i)
    (h0 : ∀ i, 0 ≤ ecc i) (h1 : ∀ i, ecc i < 1) :
    ∃ T : ι → ℝ, get_t_merge_ecc K ecc a f b m₁ m₂ 0.15 (1 - 1e-4) ex = .ok T ∧
      ∀ i j, a' i = a' j → b' i = b' j → ecc i < ecc j →
        (¬ (0 < ecc i ∧ ecc i < 0.15 ∧ 0.15 ≤ ecc j ∧ ecc j < 0.18) →
          ¬ (0.15 ≤ ecc i ∧ ecc i ≤ 0.9999 ∧ 0.9999 < ecc j ∧ ecc j < 0.99991) → T j < T i) ∧
        T j < (if ex then 1.022 else 1.06) * T i := by
  refine ⟨_, get_t_merge_ecc_of_check K ex hin (by norm_num) (by norm_num) h0, fun i j hai hbi hij => ?_⟩
  rw [← hai, ← hbi]
  exact val_order_any (ha i) (hb i) (h0 i) hij (h1 j) ex

/-- **C108** (two single binaries). The same for two calls, with masses and orbital frequencies as arguments: among
binaries with the same masses and orbital frequency the more eccentric one merges first. -/
theorem C108_same_frequency (K : Consts) (ex : Bool) {m₁ m₂ f e e' : ℝ} (hm₁ : 0 < m₁) (hm₂ : 0 < m₂) (hf : 0 < f) (h0 : 0 ≤ e)
    (h : e < e') (h1 : e' < 1) : ∃ T T' : Unit → ℝ,
    get_t_merge_ecc K (fun _ => e) none (some fun _ => f) none (some fun _ => m₁) (some fun _ => m₂) 0.15 (1 - 1e-4) ex
      = .ok T ∧
    get_t_merge_ecc K (fun _ => e') none (some fun _ => f) none (some fun _ => m₁) (some fun _ => m₂) 0.15 (1 - 1e-4) ex
      = .ok T' ∧
    (¬ (0 < e ∧ e < 0.15 ∧ 0.15 ≤ e' ∧ e' < 0.18) → ¬ (0.15 ≤ e ∧ e ≤ 0.9999 ∧ 0.9999 < e' ∧ e' < 0.99991) →
      T' () < T ()) ∧ T' () < (if ex then 1.022 else 1.06) * T () :=
  ⟨_, _, get_t_merge_ecc_of_check (b' := fun _ => utils.beta K m₁ m₂) (a' := fun _ => get_a_from_f_orb K f m₁ m₂) K ex
      rfl (by norm_num) (by norm_num) (fun _ => h0),
    get_t_merge_ecc_of_check (b' := fun _ => utils.beta K m₁ m₂) (a' := fun _ => get_a_from_f_orb K f m₁ m₂) K ex
      rfl (by norm_num) (by norm_num) (fun _ => h0.trans h.le),
    val_order_any (get_a_from_f_orb_pos K hf hm₁ hm₂) (beta_pos K hm₁ hm₂) h0 h h1 ex⟩

/-- **C108** (collections). The same for `Source.get_merger_time`: of two inspiralling sources with the same masses and
orbital frequency the more eccentric one gets the shorter merger time, with the same exceptions. -/
theorem C108_sources (K : Consts) {ex : Bool} {r r' : One} {t t' : ℝ} (ht : MergerTimeOf K ex r t) (ht' : MergerTimeOf K ex r' t')
    (hm : r.merged = false) (hm' : r'.merged = false) (e₁ : r'.m_1 = r.m_1) (e₂ : r'.m_2 = r.m_2)
    (ef : r'.f_orb = r.f_orb) (h₁ : 0 < r.m_1) (h₂ : 0 < r.m_2) (hf : 0 < r.f_orb) (h0 : 0 ≤ r.ecc)
    (h : r.ecc < r'.ecc) (h1 : r'.ecc < 1) :
    (¬ (0 < r.ecc ∧ r.ecc < 0.15 ∧ 0.15 ≤ r'.ecc ∧ r'.ecc < 0.18) →
      ¬ (0.15 ≤ r.ecc ∧ r.ecc ≤ 0.9999 ∧ 0.9999 < r'.ecc ∧ r'.ecc < 0.99991) → t' < t) ∧ t' < (if ex then 1.022 else 1.06) * t := by
  unfold MergerTimeOf at ht ht'
  rw [if_neg (by simp [hm])] at ht
  rw [if_neg (by simp [hm'])] at ht'
  rw [e₁, e₂, ef] at ht'
  obtain ⟨T, T', hT, hT', hlt⟩ := C108_same_frequency K ex h₁ h₂ hf h0 h h1
  rw [hT, Except.ok.injEq] at ht
  rw [hT', Except.ok.injEq] at ht'
  rw [ht, ht'] at hlt
  exact hlt

private lemma lower_at : check (add lower [-993 / 1000]) (98868 / 100000) (98869 / 100000) = true := by decide +kernel

/-- **C108** (negative part). The exception is real: every binary with eccentricity from 0.14 to 0.15 is reported to
merge before the binary with eccentricity 0.15 and the same separation and masses. -/
theorem C108_boundary (K : Consts) {a β e : ℝ} (ha : 0 < a) (hβ : 0 < β) (h : 0.14 ≤ e) (h' : e < 0.15) :
    ∃ T : Bool → ℝ, get_t_merge_ecc K (fun i => bif i then 0.15 else e) (some fun _ => a) none (some fun _ => β) none none
      0.15 (1 - 1e-4) true = .ok T ∧ T false < T true := by
  have hp : 0 < e := by linarith
  refine ⟨_, get_t_merge_ecc_a K _ _ _ true (by norm_num) (by norm_num) (fun i => by cases i <;> norm_num [hp.le]), ?_⟩
  simp only [cond_true, cond_false]
  rw [val_small hp h', (t_val_accurate (a := a) hβ (by norm_num) (by norm_num) true).2.2.1 le_rfl (by norm_num) rfl,
    petersTime_eq (by norm_num)]
  have hle : t_small (c_0 a e) β e ≤ t_small (c_0 a 0.14) β 0.14 := by
    rcases h.eq_or_lt with rfl | h
    · exact le_rfl
    · exact (small_anti ha hβ (by norm_num) h (by linarith)).le
  refine lt_of_le_of_lt hle (lt_of_lt_of_le ?_ (t_exact_between hβ (by norm_num) (by norm_num)).1)
  rw [small_eq (by norm_num) (by norm_num), pow7 (by norm_num) (by norm_num), mul_assoc]
  apply mul_lt_mul_of_pos_left _ (by positivity)
  have s2 : (0.98868 : ℝ) ≤ √(1 - 0.15 ^ 2) := le_sqrt_of_sq_le (by norm_num)
  have s3 : √(1 - 0.15 ^ 2) < (0.98869 : ℝ) := by rw [sqrt_lt' (by norm_num)]; norm_num
  have hev := check_sound lower_at (x := √(1 - 0.15 ^ 2)) (by push_cast; norm_num at s2 ⊢; linarith)
    (by push_cast; norm_num at s3 ⊢; linarith)
  rw [ev_add, ev_cons, ev_nil] at hev
  push_cast at hev
  have s7 : √(1 - 0.15 ^ 2 : ℝ) ^ 7 = (1 - 0.15 ^ 2 : ℝ) ^ 3 * √(1 - 0.15 ^ 2) := by
    rw [show (7 : ℕ) = 2 * 3 + 1 by norm_num, pow_succ, pow_mul, sq_sqrt (by norm_num)]
  have hk : (1 + 3480 / 2299 * (121 / 304 * 0.14 ^ 2) : ℝ) ≤ (1 + 121 / 304 * 0.14 ^ 2) ^ (3480 / 2299 : ℝ) :=
    one_add_mul_self_le_rpow_one_add (by norm_num) (by norm_num)
  have l1 : (1 - 0.14 ^ 2 : ℝ) ^ 4 / (1 + 121 / 304 * 0.14 ^ 2) ^ (3480 / 2299 : ℝ) ≤ 0.914 := by
    rw [div_le_iff₀ (by positivity)]
    norm_num at hk ⊢
    linarith
  have l2 : (0.916 : ℝ) ≤ √(1 - 0.15 ^ 2 : ℝ) ^ 7 * ev lower √(1 - 0.15 ^ 2) := by
    rw [s7]
    have : (0.993 : ℝ) ≤ ev lower √(1 - 0.15 ^ 2) := by norm_num at hev ⊢; linarith
    calc (0.916 : ℝ) ≤ ((1 - 0.15 ^ 2) ^ 3 * 0.98868) * 0.993 := by norm_num
      _ ≤ _ := by gcongr
  linarith

/-- The hypotheses of `C108_sooner` are met by five binaries that differ in nothing but their eccentricities. -/
example (K : Consts) (ex : Bool) : ∃ T : Fin 5 → ℝ,
    get_t_merge_ecc K ![0, 0.1, 0.3, 0.9, 0.99995] (some fun _ => 1) none (some fun _ => 1) none none 0.15 (1 - 1e-4) ex
      = .ok T ∧ T 1 < T 0 ∧ T 2 < T 1 ∧ T 3 < T 2 ∧ T 4 < T 3 := by
  obtain ⟨T, hT, h⟩ := C108_sooner K ex (ecc := ![0, 0.1, 0.3, 0.9, 0.99995]) (a := some fun _ => 1) (f := none)
    (b := some fun _ => 1) (m₁ := none) (m₂ := none) (b' := fun _ => 1) (a' := fun _ => 1) rfl
    (fun _ => one_pos) (fun _ => one_pos) (fun i => by fin_cases i <;> norm_num) (fun i => by fin_cases i <;> norm_num)
  have e0 : (![0, 0.1, 0.3, 0.9, 0.99995] : Fin 5 → ℝ) 0 = 0 := rfl
  have e1 : (![0, 0.1, 0.3, 0.9, 0.99995] : Fin 5 → ℝ) 1 = 0.1 := rfl
  have e2 : (![0, 0.1, 0.3, 0.9, 0.99995] : Fin 5 → ℝ) 2 = 0.3 := rfl
  have e3 : (![0, 0.1, 0.3, 0.9, 0.99995] : Fin 5 → ℝ) 3 = 0.9 := rfl
  have e4 : (![0, 0.1, 0.3, 0.9, 0.99995] : Fin 5 → ℝ) 4 = 0.99995 := rfl
  have h01 := h 0 1 rfl rfl
  have h12 := h 1 2 rfl rfl
  have h23 := h 2 3 rfl rfl
  have h34 := h 3 4 rfl rfl
  rw [e0, e1] at h01
  rw [e1, e2] at h12
  rw [e2, e3] at h23
  rw [e3, e4] at h34
  exact ⟨T, hT, (h01 (by norm_num)).1 (by norm_num) (by norm_num), (h12 (by norm_num)).1 (by norm_num) (by norm_num),
    (h23 (by norm_num)).1 (by norm_num) (by norm_num), (h34 (by norm_num)).1 (by norm_num) (by norm_num)⟩

end Legwork.Props
