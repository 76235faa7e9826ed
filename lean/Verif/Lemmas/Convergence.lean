import Verif.Lemmas.Trapezoid
import Verif.Lemmas.Strain
import Verif.Lemmas.Grid
import Verif.Spec.Convergence

/-!
# Convergence of the evolving signal-to-noise ratio of one harmonic
-/

namespace Legwork.snr

open Real MeasureTheory Filter Topology Set Legwork.utils Legwork.strain Legwork.Spec Legwork.Props

theorem divNoise_eq (x : ℝ) (y : WithTop ℝ) : divNoise x y = x * sensitivity y := by
  cases y with
  | top => simp [divNoise, sensitivity]
  | coe y => simp [divNoise, sensitivity, div_eq_mul_inv]

theorem divNoise_map (x c : ℝ) (y : WithTop ℝ) :
    divNoise x (y.map fun n => c * n) = x / c * sensitivity y := by
  cases y with
  | top => simp [divNoise, sensitivity]
  | coe y =>
    show x / (c * y) = x / c * (1 / y)
    rw [div_mul_div_comm, mul_one]

theorem abs_sensitivity_le {δ : ℝ} (hδ : 0 < δ) {y : WithTop ℝ} (h : (δ : WithTop ℝ) ≤ y) :
    |sensitivity y| ≤ 1 / δ := by
  cases y with
  | top => simp [sensitivity]; positivity
  | coe y =>
    have hy : δ ≤ y := by exact_mod_cast h
    show |1 / y| ≤ 1 / δ
    rw [abs_of_pos (one_div_pos.2 (hδ.trans_le hy))]
    exact one_div_le_one_div_of_le hδ hy

theorem continuous_jv (k : ℤ) : Continuous (jv k) := by
  unfold jv
  apply Continuous.mul continuous_const
  apply intervalIntegral.continuous_parametric_intervalIntegral_of_continuous'
  fun_prop

theorem continuous_peters_g (n : ℤ) : Continuous (peters_g n) := by
  have h : ∀ k : ℤ, Continuous fun e : ℝ => jv k (n * e) := fun k =>
    (continuous_jv k).comp (continuous_const.mul continuous_id)
  have h2 : Continuous fun e : ℝ => 2 * e := continuous_const.mul continuous_id
  unfold peters_g
  exact continuous_const.mul ((((((h _).sub (h2.mul (h _))).add (continuous_const.mul (h _))).add
    (h2.mul (h _))).sub (h _)).pow 2 |>.add ((continuous_const.sub (continuous_pow 2)).mul
      ((((h _).sub (continuous_const.mul (h _))).add (h _)).pow 2)) |>.add (continuous_const.mul ((h _).pow 2)))

theorem continuousOn_g_vals {ig : Option (ℤ → ℝ → ℝ)} (h : ContinuousG ig) (k : ℤ) :
    ContinuousOn (g_vals ig k) (Ico 0 1) := by
  cases ig with
  | none => exact (continuous_peters_g k).continuousOn
  | some g =>
    have e : g_vals (some g) k = fun x => max 0 (g k x) := by
      funext x
      show (if g k x < 0 then 0 else g k x) = _
      split_ifs with hx
      · exact (max_eq_left hx.le).symm
      · exact (max_eq_right (not_lt.1 hx)).symm
    rw [e]
    exact continuousOn_const.sup (h g rfl k)

theorem continuousOn_peters_f : ContinuousOn peters_f (Ico 0 1) := by
  unfold peters_f
  apply ContinuousOn.div
  · fun_prop
  · apply ContinuousOn.rpow_const (by fun_prop)
    intro e _
    right; norm_num
  · intro e he
    have : 0 < 1 - e ^ 2 := by nlinarith [he.1, he.2]
    positivity

/-- The integrand of one harmonic, in time. -/
noncomputable def harmonicY (K : Consts) (ig : Option (ℤ → ℝ → ℝ)) (N : ℝ → WithTop ℝ) (m d : ℝ) (k : ℤ) (f e : ℝ → ℝ)
    (t : ℝ) : ℝ :=
  divNoise (h_c_val K ig m d (f t) (e t) k ^ 2) ((N (k * f t)).map fun n => (k * f t) ^ 2 * n)

/-- Regularity of the integrand of one harmonic along an inspiral. -/
theorem harmonic_regular (K : Consts) (ig : Option (ℤ → ℝ → ℝ)) {N : ℝ → WithTop ℝ} (hN : Tame N) {m τ : ℝ} (d : ℝ)
    {k : ℤ} (hm : 0 < m) (hτ : 0 ≤ τ) (hk : 1 ≤ k) {f e : ℝ → ℝ}
    (hf : ∀ t ∈ Icc 0 τ, 0 < f t)
    (hfd : ∀ t ∈ Icc 0 τ, HasDerivAt (fun s => k * f s) (fn_dot_val K m (f t) (e t) k) t)
    (he : ∀ t ∈ Icc 0 τ, 0 ≤ e t ∧ e t < 1) (hec : ContinuousOn e (Icc 0 τ))
    (hg : ContinuousOn (fun t => g_vals ig k (e t)) (Icc 0 τ)) :
    ∃ M, StrictMonoOn (fun s => k * f s) (Icc 0 τ) ∧
      ContinuousOn (fun t => fn_dot_val K m (f t) (e t) k) (Icc 0 τ) ∧
      (∀ t ∈ Icc 0 τ, |harmonicY K ig N m d k f e t| ≤ M) ∧
      {t ∈ Icc 0 τ | ¬ ContinuousWithinAt (harmonicY K ig N m d k f e) (Icc 0 τ) t}.Countable ∧
      ∀ t ∈ Icc 0 τ, harmonicY K ig N m d k f e t * fn_dot_val K m (f t) (e t) k
        = divNoise (h_0_val K ig m d (f t) (e t) k ^ 2) (N (k * f t)) := by
  have hk' : (0 : ℝ) < k := by exact_mod_cast (by omega : 0 < k)
  have hG := K.G_pos
  have hc := K.c_pos
  have hkc : ContinuousOn (fun s => k * f s) (Icc 0 τ) := fun t ht => (hfd t ht).continuousAt.continuousWithinAt
  have hfc : ContinuousOn f (Icc 0 τ) := by
    have e1 : f = fun s => (k : ℝ)⁻¹ * (k * f s) := by funext s; field_simp
    rw [e1]
    exact continuousOn_const.mul hkc
  have hFc : ContinuousOn (fun t => peters_f (e t)) (Icc 0 τ) :=
    continuousOn_peters_f.comp hec fun t ht => ⟨(he t ht).1, (he t ht).2⟩
  have hF : ∀ t ∈ Icc 0 τ, 0 < peters_f (e t) := fun t ht => peters_f_pos (he t ht).1 (he t ht).2
  have hdpos : ∀ t ∈ Icc 0 τ, 0 < fn_dot_val K m (f t) (e t) k := by
    intro t ht
    have := hF t ht
    have := hf t ht
    have := pi_pos
    unfold fn_dot_val
    positivity
  have hdc : ContinuousOn (fun t => fn_dot_val K m (f t) (e t) k) (Icc 0 τ) := by
    unfold fn_dot_val
    apply ContinuousOn.mul _ hFc
    apply ContinuousOn.mul continuousOn_const
    apply ContinuousOn.rpow_const (by fun_prop)
    intro t _
    right; norm_num
  have hmono : StrictMonoOn (fun s => k * f s) (Icc 0 τ) := by
    apply strictMonoOn_of_deriv_pos (convex_Icc 0 τ) hkc
    intro t ht
    have ht' := interior_subset ht
    rw [(hfd t ht').deriv]
    exact hdpos t ht'
  -- the smooth factor of the integrand
  have hhc : ContinuousOn (fun t => h_c_val K ig m d (f t) (e t) k ^ 2 / (k * f t) ^ 2) (Icc 0 τ) := by
    apply ContinuousOn.div
    · apply ContinuousOn.pow
      unfold h_c_val
      simp only
      apply ContinuousOn.mul
      · apply ContinuousOn.div
        · apply ContinuousOn.mul continuousOn_const
          apply ContinuousOn.rpow_const hfc
          intro t ht
          exact Or.inl (hf t ht).ne'
        · apply ContinuousOn.rpow_const hFc
          intro t ht
          exact Or.inl (hF t ht).ne'
        · intro t ht
          have := hF t ht
          positivity
      · apply ContinuousOn.rpow_const (hg.div_const _)
        intro t _
        right; norm_num
    · exact hkc.pow 2
    · intro t ht
      have := hf t ht
      positivity
  obtain ⟨δ, hδ, hfl⟩ := hN.floor (k * f 0) (k * f τ) (mul_pos hk' (hf 0 ⟨le_rfl, hτ⟩))
  have hs : ∀ t ∈ Icc 0 τ, |sensitivity (N (k * f t))| ≤ 1 / δ := fun t ht =>
    abs_sensitivity_le hδ (hfl _ ⟨hmono.monotoneOn ⟨le_rfl, hτ⟩ ht ht.1, hmono.monotoneOn ht ⟨hτ, le_rfl⟩ ht.2⟩)
  obtain ⟨B, hB⟩ := isCompact_Icc.exists_bound_of_continuousOn hhc
  have hB0 : 0 ≤ B := (norm_nonneg _).trans (hB 0 ⟨le_rfl, hτ⟩)
  refine ⟨B * (1 / δ), hmono, hdc, ?_, ?_, ?_⟩
  · intro t ht
    rw [harmonicY, divNoise_map, abs_mul]
    exact mul_le_mul (hB t ht) (hs t ht) (abs_nonneg _) hB0
  · refine Set.MapsTo.countable_of_injOn (f := fun s => k * f s) (t := {f : ℝ | 0 < f ∧
      ¬ ContinuousAt (fun f => sensitivity (N f)) f}) ?_ (hmono.injOn.mono fun t ht => ht.1) hN.jumps
    rintro t ⟨ht, hnc⟩
    refine ⟨mul_pos hk' (hf t ht), fun hcont => hnc ?_⟩
    have e1 : harmonicY K ig N m d k f e
        = fun t => h_c_val K ig m d (f t) (e t) k ^ 2 / (k * f t) ^ 2 * sensitivity (N (k * f t)) := by
      funext t
      exact divNoise_map _ _ _
    rw [e1]
    exact (hhc t ht).mul (ContinuousAt.comp_continuousWithinAt (f := fun s => k * f s) hcont (hkc t ht))
  · intro t ht
    rw [harmonicY, divNoise_map, divNoise_eq]
    have hid := h_c_val_sq_mul_fn_dot K ig (d := d) hm (hf t ht) (he t ht).1 (he t ht).2 hk
    have := hf t ht
    have hne : ((k : ℝ) * f t) ^ 2 ≠ 0 := by positivity
    rw [div_mul_eq_mul_div, div_mul_eq_mul_div, div_eq_iff hne]
    linear_combination (sensitivity (N (k * f t))) * hid

/-- SNR² of one harmonic by the trapezium rule, on the uniform grid and on the one whose last point is repeated, tends to
the time integral of `h_0²/S`, which exists. -/
theorem harmonic_tendsto (K : Consts) (ig : Option (ℤ → ℝ → ℝ)) {N : ℝ → WithTop ℝ} (hN : Tame N) {m τ : ℝ} (d : ℝ)
    {k : ℤ} (hm : 0 < m) (hτ : 0 ≤ τ) (hk : 1 ≤ k) {f e : ℝ → ℝ}
    (hf : ∀ t ∈ Icc 0 τ, 0 < f t)
    (hfd : ∀ t ∈ Icc 0 τ, HasDerivAt (fun s => k * f s) (fn_dot_val K m (f t) (e t) k) t)
    (he : ∀ t ∈ Icc 0 τ, 0 ≤ e t ∧ e t < 1) (hec : ContinuousOn e (Icc 0 τ))
    (hg : ContinuousOn (fun t => g_vals ig k (e t)) (Icc 0 τ)) :
    IntervalIntegrable (fun t => divNoise (h_0_val K ig m d (f t) (e t) k ^ 2) (N (k * f t))) volume 0 τ ∧
    Tendsto (fun n => trapezoid ((np.linspace τ n).map (harmonicY K ig N m d k f e))
        ((np.linspace τ n).map fun t => k * f t)) atTop
      (𝓝 (∫ t in (0 : ℝ)..τ, divNoise (h_0_val K ig m d (f t) (e t) k ^ 2) (N (k * f t)))) ∧
    Tendsto (fun n => trapezoid ((repeatLast τ n).map (harmonicY K ig N m d k f e))
        ((repeatLast τ n).map fun t => k * f t)) atTop
      (𝓝 (∫ t in (0 : ℝ)..τ, divNoise (h_0_val K ig m d (f t) (e t) k ^ 2) (N (k * f t)))) := by
  obtain ⟨M, -, hdc, hB, hcount, hid⟩ := harmonic_regular K ig hN d hm hτ hk hf hfd he hec hg
  have e1 : ∫ t in (0 : ℝ)..τ, divNoise (h_0_val K ig m d (f t) (e t) k ^ 2) (N (k * f t))
      = ∫ t in (0 : ℝ)..τ, harmonicY K ig N m d k f e t * fn_dot_val K m (f t) (e t) k := by
    apply intervalIntegral.integral_congr
    intro t ht
    rw [uIcc_of_le hτ] at ht
    exact (hid t ht).symm
  have hT := trapezoid_tendsto hτ hfd hdc hB hcount
  refine ⟨(trapezoid_integrable hτ hdc hB hcount).congr ?_, e1 ▸ hT, e1 ▸ trapezoid_repeatLast_tendsto hτ
    (fun t ht => (hfd t ht).continuousAt.continuousWithinAt) hB hT⟩
  intro t ht
  rw [uIoc_of_le hτ] at ht
  exact hid t ⟨ht.1.le, ht.2⟩

theorem list_tendsto {τ : ℝ} {ks : List ℤ} {g : ℤ → ℝ → ℝ} {F : ℤ → ℕ → ℝ}
    (h : ∀ k ∈ ks, IntervalIntegrable (g k) volume 0 τ ∧ Tendsto (F k) atTop (𝓝 (∫ t in (0 : ℝ)..τ, g k t))) :
    IntervalIntegrable (fun t => (ks.map fun k => g k t).sum) volume 0 τ ∧
    Tendsto (fun n => (ks.map fun k => F k n).sum) atTop (𝓝 (∫ t in (0 : ℝ)..τ, (ks.map fun k => g k t).sum)) := by
  induction ks with
  | nil => simp
  | cons k ks ih =>
    obtain ⟨i1, i2⟩ := ih fun j hj => h j (by simp [hj])
    obtain ⟨j1, j2⟩ := h k (by simp)
    simp only [List.map_cons, List.sum_cons]
    refine ⟨j1.add i1, ?_⟩
    rw [intervalIntegral.integral_add j1 i1]
    exact j2.add i2

end Legwork.snr

namespace Legwork

open np evol Spec

/-- The times `snr_ecc_evolving` evolves over. -/
theorem clamp_linspace {τ L tb T : ℝ} (hτ : 0 ≤ τ) (hL : T - tb = L) (hle : τ ≤ L) (n : ℕ) :
    clamp_row Gyr T tb (linspace τ n) = if τ < L then linspace τ n else repeatLast τ n := by
  have hstart : ∀ z, (linspace τ n)[0]? = some z → -1 * Gyr ≤ z := by
    intro z hz
    rw [linspace_get?] at hz
    split_ifs at hz
    simp only [Nat.cast_zero, zero_mul, Option.some.injEq] at hz
    rw [← hz]
    unfold Gyr
    norm_num
  have hc := clamp_row_spec (gyr := Gyr) (T := T) (tb := tb) hstart
  rw [hL] at hc
  have hlen : (clamp_row Gyr T tb (linspace τ n)).length = n := by rw [hc.length]; simp [linspace]
  have hrep : ∀ k, (repeatLast τ n)[k]? = if k < n then
      some (((if k + 1 < n then k else n - 2 : ℕ) : ℝ) * (τ / ((n : ℝ) - 1))) else none := by
    intro k
    unfold repeatLast
    rw [List.getElem?_map]
    split_ifs with h1 h2
    · rw [List.getElem?_range h1]; simp [h2]
    · rw [List.getElem?_range h1]; simp [h2]
    · rw [List.getElem?_eq_none (by simpa using h1)]; rfl
  apply List.ext_getElem?
  intro k
  rcases Nat.lt_or_ge k n with hk | hk
  swap
  · rw [List.getElem?_eq_none (by omega)]
    split_ifs
    · rw [linspace_get?, if_neg (by omega)]
    · rw [hrep, if_neg (by omega)]
  rcases k with _ | k
  · rw [hc.first]
    split_ifs
    · rfl
    · rw [linspace_get?, hrep, if_pos hk, if_pos hk]
      rcases Nat.lt_or_ge 1 n with h1 | h1
      · rw [if_pos (by omega)]
      · have : n = 1 := by omega
        subst this
        simp
  have hn1 : (0 : ℝ) < (n : ℝ) - 1 := by
    have : (2 : ℝ) ≤ n := by exact_mod_cast (by omega : 2 ≤ n)
    linarith
  have hh : 0 ≤ τ / ((n : ℝ) - 1) := by positivity
  have hrow : (linspace τ n)[k + 1]? = some (((k + 1 : ℕ) : ℝ) * (τ / ((n : ℝ) - 1))) := by
    rw [linspace_get?, if_pos hk]
  have hend : ((n - 1 : ℕ) : ℝ) * (τ / ((n : ℝ) - 1)) = τ := by
    rw [Nat.cast_sub (by omega), Nat.cast_one]; field_simp
  have hxle : ∀ j, j + 1 ≤ n → (j : ℝ) * (τ / ((n : ℝ) - 1)) ≤ τ := by
    intro j hj
    conv_rhs => rw [← hend]
    exact mul_le_mul_of_nonneg_right (by exact_mod_cast (by omega : j ≤ n - 1)) hh
  by_cases hlt : τ < L
  · rw [if_pos hlt, hrow]
    exact hc.safe k _ hrow ((hxle (k + 1) (by omega)).trans_lt hlt)
  · rw [if_neg hlt, hrep, if_pos hk]
    have hτL : L = τ := le_antisymm (not_lt.1 hlt) hle
    rcases hτ.eq_or_lt with h0 | h0
    · -- all times are zero
      have hz : ∀ (j : ℕ) (z : ℝ), (linspace τ n)[j]? = some z → z = 0 := by
        intro j z hz
        rw [linspace_get?, ← h0] at hz
        split_ifs at hz
        simpa using hz.symm
      obtain ⟨y, hy, hg⟩ := hc.replaced k _ hrow (by rw [hτL, ← h0]; simp)
      rw [hy]
      have : y = 0 := by
        rcases hg.1 with h | ⟨j, h, -⟩
        · exact hz _ _ h
        · exact hz _ _ h
      rw [this, ← h0]
      simp
    have hh' : 0 < τ / ((n : ℝ) - 1) := by positivity
    have hxlt : ∀ j : ℕ, (j : ℝ) * (τ / ((n : ℝ) - 1)) < τ ↔ j + 1 < n := by
      intro j
      conv_lhs => rhs; rw [← hend]
      rw [mul_lt_mul_iff_left₀ hh', Nat.cast_lt]
      omega
    rcases Nat.lt_or_ge (k + 1 + 1) n with h2 | h2
    · rw [if_pos h2]
      exact hc.safe k _ hrow (by rw [hτL]; exact (hxlt (k + 1)).2 h2)
    · rw [if_neg (by omega)]
      obtain ⟨y, hy, hg⟩ := hc.replaced k _ hrow (by
        rw [hτL]
        exact not_lt.1 fun h => absurd ((hxlt (k + 1)).1 h) (by omega))
      rw [hy]
      congr 1
      apply le_antisymm
      · rcases hg.1 with h | ⟨j, h, hl⟩
        · rw [linspace_get?, if_pos (by omega)] at h
          simp only [Nat.cast_zero, zero_mul, Option.some.injEq] at h
          rw [← h]
          positivity
        · rw [linspace_get?] at h
          split_ifs at h
          simp only [Option.some.injEq] at h
          rw [← h] at hl ⊢
          rw [hτL] at hl
          have := (hxlt (j + 1)).1 hl
          exact mul_le_mul_of_nonneg_right (by exact_mod_cast (by omega : j + 1 ≤ n - 2)) hh
      · apply hg.2
        rcases Nat.lt_or_ge 2 n with h3 | h3
        · right
          refine ⟨n - 3, ?_, ?_⟩
          · rw [show n - 3 + 1 = n - 2 by omega, linspace_get?, if_pos (by omega)]
          · rw [hτL]
            exact (hxlt (n - 2)).2 (by omega)
        · left
          have : n = 2 := by omega
          subst this
          rw [linspace_get?, if_pos (by omega)]

end Legwork
