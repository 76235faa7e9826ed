import Verif.Model.Psd
import Verif.Spec.Psd

/-!
# Helper lemmas on noise curves
-/

namespace Legwork.psd

open Real Spec

theorem argmin_spec (xs : List ℝ) (h : xs ≠ []) : ∃ v, xs[argmin xs]? = some v ∧
    ∀ (j : ℕ) (w : ℝ), xs[j]? = some w → v ≤ w ∧ (j < argmin xs → v < w) := by
  induction xs with
  | nil => exact absurd rfl h
  | cons x xs ih =>
    rcases hxs : xs[argmin xs]? with _ | v
    · have hnil : xs = [] := by
        by_contra hne
        obtain ⟨v, hv, -⟩ := ih hne
        rw [hxs] at hv; cases hv
      subst hnil
      refine ⟨x, by simp [argmin], ?_⟩
      rintro (_ | j) w hw
      · simp at hw; exact ⟨hw.le, by simp [argmin]⟩
      · simp at hw
    · have hne : xs ≠ [] := by rintro rfl; simp at hxs
      obtain ⟨v', hv, hmin⟩ := ih hne
      rw [hxs] at hv; injection hv with hv; subst hv
      by_cases hlt : v < x
      · have e : argmin (x :: xs) = argmin xs + 1 := by simp [argmin, hxs, hlt]
        rw [e]
        refine ⟨v, by simpa using hxs, ?_⟩
        rintro (_ | j) w hw
        · simp at hw; subst hw; exact ⟨hlt.le, fun _ => hlt⟩
        · simp at hw
          exact ⟨(hmin j w hw).1, fun hj => (hmin j w hw).2 (by omega)⟩
      · have e : argmin (x :: xs) = 0 := by simp [argmin, hxs, hlt]
        rw [e]
        refine ⟨x, by simp, ?_⟩
        rintro (_ | j) w hw
        · simp at hw; exact ⟨hw.le, by simp⟩
        · simp at hw
          exact ⟨(not_lt.1 hlt).trans (hmin j w hw).1, by simp⟩

theorem nearest_length_spec (ls : List ℝ) (t : ℝ) (h : ls ≠ []) : NearestMission ls t (nearest_length ls t) := by
  obtain ⟨v, hv, hmin⟩ := argmin_spec (ls.map fun l => |t - l|) (by simpa using h)
  rw [List.getElem?_map] at hv
  rcases hl : ls[argmin (ls.map fun l => |t - l|)]? with _ | l
  · rw [hl] at hv; simp at hv
  · rw [hl] at hv; simp at hv; subst hv
    refine ⟨l, hl, fun j l' hj => ?_⟩
    exact hmin j _ (by rw [List.getElem?_map, hj]; rfl)

theorem one_add_tanh_pos (x : ℝ) : 0 < 1 + tanh x := by
  rw [tanh_eq_sinh_div_cosh]
  have := cosh_pos x
  rw [one_add_div this.ne']
  apply div_pos _ this
  rw [cosh_add_sinh]; exact exp_pos x

theorem tanh_le {x y : ℝ} (h : x ≤ y) : tanh x ≤ tanh y := by
  rw [tanh_eq_sinh_div_cosh, tanh_eq_sinh_div_cosh, div_le_div_iff₀ (cosh_pos x) (cosh_pos y)]
  have : sinh (x - y) ≤ 0 := by
    rw [sinh_nonpos_iff]; linarith
  rw [sinh_sub] at this
  linarith

theorem robson_pos {f : ℝ} (hf : 0 < f) (t : ℝ) : 0 < get_confusion_noise_robson19 f t := by
  unfold get_confusion_noise_robson19
  have := rpow_pos_of_pos hf (-7 / 3)
  have h2 := one_add_tanh_pos
  have h3 := exp_pos
  simp only
  apply mul_pos (mul_pos (mul_pos (by norm_num) this) (exp_pos _)) (h2 _)

theorem karnesis_pos {f : ℝ} (hf : 0 < f) (t : ℝ) : 0 < get_confusion_noise_karnesis21 f t := by
  unfold get_confusion_noise_karnesis21
  have := rpow_pos_of_pos hf (-7 / 3)
  have h2 := one_add_tanh_pos
  simp only
  apply mul_pos (mul_pos (mul_pos (by norm_num) this) (exp_pos _)) (h2 _)

theorem thiele_pos (f : ℝ) : 0 < get_confusion_noise_thiele21 f := by
  unfold get_confusion_noise_thiele21 yr
  have := rpow_pos_of_pos (show (0 : ℝ) < 10 by norm_num)
  simp only
  exact mul_pos (this _) (by norm_num)

theorem huang_nonneg (f t : ℝ) : 0 ≤ get_confusion_noise_huang20 f t := by
  unfold get_confusion_noise_huang20
  simp only
  positivity

theorem yr_pos : 0 < yr := by norm_num [yr]

theorem karnesis_antitone {f t₁ t₂ : ℝ} (hf : 0 < f) (h1 : 0 < t₁) (h12 : t₁ ≤ t₂) :
    get_confusion_noise_karnesis21 f t₂ ≤ get_confusion_noise_karnesis21 f t₁ := by
  unfold get_confusion_noise_karnesis21
  simp only
  have hy := yr_pos
  have s1 : 0 < t₁ / yr := by positivity
  have s12 : t₁ / yr ≤ t₂ / yr := by gcongr
  have s2 : 0 < t₂ / yr := s1.trans_le s12
  have hp := rpow_pos_of_pos hf (-7 / 3)
  have k1 : (t₂ / yr) ^ (-0.15 : ℝ) ≤ (t₁ / yr) ^ (-0.15 : ℝ) :=
    rpow_le_rpow_of_nonpos s1 s12 (by norm_num)
  have k2 : (t₂ / yr) ^ (-0.37 : ℝ) ≤ (t₁ / yr) ^ (-0.37 : ℝ) :=
    rpow_le_rpow_of_nonpos s1 s12 (by norm_num)
  have p2 : 0 < (t₂ / yr) ^ (-0.15 : ℝ) := rpow_pos_of_pos s2 _
  have q1 : (0 : ℝ) < 10 ^ (-2.72 : ℝ) := rpow_pos_of_pos (by norm_num) _
  have q2 : (0 : ℝ) < 10 ^ (-2.49 : ℝ) := rpow_pos_of_pos (by norm_num) _
  have e1 : f / ((t₁ / yr) ^ (-0.15 : ℝ) * 10 ^ (-2.72 : ℝ)) ≤ f / ((t₂ / yr) ^ (-0.15 : ℝ) * 10 ^ (-2.72 : ℝ)) := by
    gcongr
  have e2 : (f / ((t₁ / yr) ^ (-0.15 : ℝ) * 10 ^ (-2.72 : ℝ))) ^ (1.56 : ℝ)
      ≤ (f / ((t₂ / yr) ^ (-0.15 : ℝ) * 10 ^ (-2.72 : ℝ))) ^ (1.56 : ℝ) := by
    apply rpow_le_rpow _ e1 (by norm_num)
    have := p2.trans_le k1
    positivity
  have e3 : tanh (((t₂ / yr) ^ (-0.37 : ℝ) * 10 ^ (-2.49 : ℝ) - f) / 0.00067)
      ≤ tanh (((t₁ / yr) ^ (-0.37 : ℝ) * 10 ^ (-2.49 : ℝ) - f) / 0.00067) := by
    apply tanh_le
    gcongr
  have e4 := (one_add_tanh_pos (((t₂ / yr) ^ (-0.37 : ℝ) * 10 ^ (-2.49 : ℝ) - f) / 0.00067)).le
  have e5 : exp (-(f / ((t₂ / yr) ^ (-0.15 : ℝ) * 10 ^ (-2.72 : ℝ))) ^ (1.56 : ℝ))
      ≤ exp (-(f / ((t₁ / yr) ^ (-0.15 : ℝ) * 10 ^ (-2.72 : ℝ))) ^ (1.56 : ℝ)) := by
    apply exp_le_exp.2; linarith
  have e6 : 1 + tanh (((t₂ / yr) ^ (-0.37 : ℝ) * 10 ^ (-2.49 : ℝ) - f) / 0.00067)
      ≤ 1 + tanh (((t₁ / yr) ^ (-0.37 : ℝ) * 10 ^ (-2.49 : ℝ) - f) / 0.00067) := by linarith
  exact mul_le_mul (mul_le_mul_of_nonneg_left e5 (by positivity)) e6 e4 (by positivity)

end Legwork.psd
