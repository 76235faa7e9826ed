import Verif.Props.Longer

/-!
# Observing for longer with few timesteps (C101)
-/

namespace Legwork.Props

open Real Set Legwork.source Legwork.Spec Legwork.snr Legwork.strain Legwork.utils Legwork.evol

/-- A call with `instrument="custom"` and a `custom_psd` that returns `N f` whatever its other arguments, for an observation
of `t` seconds. -/
noncomputable def customCall (K : Consts) (env : psd.Env) (N : ℝ → ℝ) (t : ℝ) : Ctx :=
  { K := K, env := env, t_obs := t,
    kw := { instrument := "custom", custom_psd := some fun f _ _ _ _ => .ok ((N f : ℝ) : WithTop ℝ) } }

/-- What an evolving circular source adds per unit of frequency, for noise 1. -/
private noncomputable def weight (K : Consts) (s : EvolSrc) (f : ℝ) : ℝ :=
  h_c_val K none (chirp_mass s.m_1 s.m_2) s.dist f 0 2 ^ 2 / (2 * f) ^ 2

private lemma weight_pos (K : Consts) {s : EvolSrc} (hs : EvolPhys s) {f : ℝ} (hf : 0 < f) : 0 < weight K s f := by
  obtain ⟨hm1, hm2, hf0, hd⟩ := hs
  have hmc := C03_pos hm1 hm2
  have hG := K.G_pos
  have hc := K.c_pos
  have hF : utils.peters_f 0 = 1 := C04_zero
  have hg2 : g_vals none 2 0 = 1 := by
    show utils.peters_g 2 0 = 1
    rw [C05_circular (by norm_num)]
    simp
  unfold weight
  apply div_pos _ (by positivity)
  apply pow_pos
  unfold h_c_val
  simp only
  rw [hF, hg2]
  push_cast
  positivity

private lemma custom_value (K : Consts) (env : psd.Env) {N : ℝ → ℝ} (hN : ∀ f, 0 < N f) {s : EvolSrc} (hs : EvolPhys s) {t T : ℝ}
    (h0 : 0 ≤ t) (hT : get_t_merge_circ K none (some fun _ : Fin 1 => s.m_1) (some fun _ => s.m_2) none
      (some fun _ => s.f_orb_i) = .ok fun _ => T) (hfar : t + 1 ≤ T) (hm : 1e-20 ≤ K.G * (s.m_1 + s.m_2))
    (hhigh : chirp s.f_orb_i T t ≤ 1) (k : ℕ) :
    snr_circ_evolving (customCall K env N t) [s] (k + 2) none = .ok [some (√(∑ i ∈ Finset.range (k + 1),
      (2 * chirp s.f_orb_i T ((i + 1 : ℕ) * (t / (k + 1))) - 2 * chirp s.f_orb_i T (i * (t / (k + 1)))) *
      (weight K s (chirp s.f_orb_i T ((i + 1 : ℕ) * (t / (k + 1)))) / N (2 * chirp s.f_orb_i T ((i + 1 : ℕ) * (t / (k + 1)))) +
        weight K s (chirp s.f_orb_i T (i * (t / (k + 1)))) / N (2 * chirp s.f_orb_i T (i * (t / (k + 1))))) / 2))] := by
  have hT' := t_merge_eq hT
  have hmin : min (T - 1) t = t := min_eq_right (by linarith)
  have hT0 : 0 < T := by linarith
  have hcol : ∀ x : EvolSrc → ℝ, column [s] x = fun _ => x s := fun x => by
    funext i
    match i with
    | ⟨0, _⟩ => rfl
  have h100 : (100 : ℝ) ∉ circRow K s t (k + 2) := by
    have hmark := no_marker K hs hT' h0 (by linarith) hhigh hm (n := k + 2) (by omega)
    have e := evol_circ_snr K [s] (fun _ => t) (k + 2)
    simp only [hcol] at e
    intro hmem
    have := (hmark _ e 100 hmem).2
    norm_num at this
  have hrow : drop_merged_circ (circRow K s t (k + 2)) = (np.linspace t (k + 2)).map (chirp s.f_orb_i T) := by
    have := circFreqs_chirp (customCall K env N t) hs h0 hT' (by linarith) (n := k + 2) (by omega)
      (by show (100 : ℝ) ∉ circRow K s (min (T - 1) t) (k + 2); rw [hmin]; exact h100)
    unfold circFreqs at this
    change drop_merged_circ (circRow K s (min (T - 1) t) (k + 2)) = (np.linspace (min (T - 1) t) (k + 2)).map _ at this
    rw [hmin] at this
    exact this
  have hlin : np.linspace t (k + 2) = (List.range (k + 1 + 1)).map fun i : ℕ => (i : ℝ) * (t / (k + 1)) := by
    unfold np.linspace
    apply List.map_congr_left
    intro i _
    push_cast
    congr 2
    ring
  have hW : ∀ f, circW (customCall K env N t) (fun f => ((N f : ℝ) : WithTop ℝ)) s f = weight K s f / N (2 * f) := fun f => by
    show _ / ((2 * f) ^ 2 * N (2 * f)) = _
    unfold weight
    rw [div_div]
    rfl
  rw [snr_circ_evolving_eq (customCall K env N t) [s] (by omega) none (N := fun f => ((N f : ℝ) : WithTop ℝ)) (fun f => rfl)
    (T := fun _ => T) (by
      unfold merge_times_circ
      simp only [hcol]
      exact hT)]
  simp only [List.length_singleton, List.ofFn_succ, List.ofFn_zero]
  simp only [Fin.getElem_fin, Fin.val_zero, List.getElem_cons_zero]
  show Except.ok [sqrt? (trapezoid (List.map _ (drop_merged_circ (circRow K s (min (T - 1) t) (k + 2))))
    (List.map _ (drop_merged_circ (circRow K s (min (T - 1) t) (k + 2)))))] = _
  rw [hmin, hrow, hlin, List.map_map, List.map_map, List.map_map, List.map_map, trapezoid_range]
  simp only [Function.comp, hW]
  congr 2
  apply sqrt?_nonneg
  refine Finset.sum_nonneg fun i hi => ?_
  rw [Finset.mem_range] at hi
  have hk : (0 : ℝ) < k + 1 := by positivity
  have h1 : (i : ℝ) * (t / (k + 1)) ≤ (i + 1 : ℕ) * (t / (k + 1)) := by
    push_cast
    have : 0 ≤ t / (k + 1) := by positivity
    nlinarith
  have h2 : ((i + 1 : ℕ) : ℝ) * (t / (k + 1)) < T := by
    have : ((i + 1 : ℕ) : ℝ) ≤ k + 1 := by exact_mod_cast hi
    calc ((i + 1 : ℕ) : ℝ) * (t / (k + 1)) ≤ (k + 1) * (t / (k + 1)) := by gcongr
      _ = t := by field_simp
      _ < T := by linarith
  have h3 := chirp_mono hs.2.2.1 hT0 h1 h2
  have h4 := div_pos (weight_pos K hs (chirp_pos hs.2.2.1 hT0 h2)) (hN (2 * chirp s.f_orb_i T ((i + 1 : ℕ) * (t / (k + 1)))))
  have h5 := div_pos (weight_pos K hs (chirp_pos hs.2.2.1 hT0 (h1.trans_lt h2))) (hN (2 * chirp s.f_orb_i T (i * (t / (k + 1)))))
  have h6 : 0 ≤ 2 * chirp s.f_orb_i T ((i + 1 : ℕ) * (t / (k + 1))) - 2 * chirp s.f_orb_i T (i * (t / (k + 1))) := by linarith
  positivity

private lemma large_enough {S A δ q : ℝ} (hS : 0 ≤ S) (hA : 0 < A) (hδ : 0 < δ) (hq : 0 < q) :
    ∃ B > 0, S / (1 + B * δ) < q ^ 2 * A := by
  refine ⟨(S + 1) / (q ^ 2 * A * δ), by positivity, ?_⟩
  rw [div_lt_iff₀ (by positivity)]
  have : q ^ 2 * A * (1 + (S + 1) / (q ^ 2 * A * δ) * δ) = q ^ 2 * A + (S + 1) := by field_simp
  rw [this]
  have : 0 < q ^ 2 * A := by positivity
  linarith

/-- **C101** (negative part: few timesteps). With a given number of timesteps a longer observation can have a lower SNR: for
every circular evolving source, every number of timesteps and two observation times such that the end of the shorter one
is not among the timesteps of the longer one (for example 100 timesteps, and twice the observation time), there is a smooth
noise curve, `1 + B * (f - f₀) ** 2`, for which the SNR of the longer observation is smaller by any factor. (By `C101_limit`
it does not fall in the limit of many timesteps.) -/
theorem C101_coarse (K : Consts) (env : psd.Env) {s : EvolSrc} (hs : EvolPhys s) {t t' T : ℝ} (h0 : 0 < t) (htt : t < t')
    (hT : get_t_merge_circ K none (some fun _ : Fin 1 => s.m_1) (some fun _ => s.m_2) none
      (some fun _ => s.f_orb_i) = .ok fun _ => T) (hfar : t' + 1 ≤ T) (hm : 1e-20 ≤ K.G * (s.m_1 + s.m_2))
    (hhigh : chirp s.f_orb_i T t' ≤ 1) {n : ℕ} (hn : 2 ≤ n) (hgrid : t ∉ np.linspace t' n) {q : ℝ} (hq : 0 < q) :
    ∃ B f₀ v v' : ℝ, 0 < B ∧
      snr_circ_evolving (customCall K env (fun f => 1 + B * (f - f₀) ^ 2) t) [s] n none = .ok [some v] ∧
      snr_circ_evolving (customCall K env (fun f => 1 + B * (f - f₀) ^ 2) t') [s] n none = .ok [some v'] ∧
      0 ≤ v' ∧ v' < q * v := by
  obtain ⟨k, rfl⟩ : ∃ k, n = k + 2 := ⟨n - 2, by omega⟩
  have hf0 := hs.2.2.1
  have hT0 : 0 < T := by linarith
  have hk : (0 : ℝ) < k + 1 := by positivity
  set χ := chirp s.f_orb_i T with hχ
  have hχp : ∀ u < T, 0 < χ u := fun u hu => chirp_pos hf0 hT0 hu
  have hχm : ∀ {u w}, u ≤ w → w < T → χ u ≤ χ w := fun h h' => chirp_mono hf0 hT0 h h'
  have hχs : ∀ {u w}, u < w → w < T → χ u < χ w := fun {u w} h h' => by
    have hw : 0 < T - w := by linarith
    have hu : 0 < T - u := by linarith
    simp only [hχ]
    unfold chirp
    have h1 : T / (T - u) < T / (T - w) := div_lt_div_of_pos_left hT0 hw (by linarith)
    have := rpow_lt_rpow (by positivity) h1 (by norm_num : (0 : ℝ) < 3 / 8)
    exact mul_lt_mul_of_pos_left this hf0
  set f₀ := 2 * χ t with hf₀
  -- the timesteps
  have hpt : ∀ τ : ℝ, 0 ≤ τ → ∀ i : ℕ, i ≤ k + 1 → 0 ≤ i * (τ / (k + 1)) ∧ i * (τ / (k + 1)) ≤ τ := by
    intro τ hτ i hi
    refine ⟨by positivity, ?_⟩
    have : (i : ℝ) ≤ k + 1 := by exact_mod_cast hi
    calc (i : ℝ) * (τ / (k + 1)) ≤ (k + 1) * (τ / (k + 1)) := by gcongr
      _ = τ := by field_simp
  -- the frequencies of the longer observation differ from that at the end of the shorter one
  have hne : ∀ i ∈ Finset.range (k + 2), 0 < (2 * χ (i * (t' / (k + 1))) - f₀) ^ 2 := by
    intro i hi
    rw [Finset.mem_range] at hi
    have hi' := hpt t' (by linarith) i (by omega)
    have hx : (i : ℝ) * (t' / (k + 1)) ≠ t := by
      intro e
      apply hgrid
      unfold np.linspace
      refine List.mem_map.2 ⟨i, List.mem_range.2 hi, ?_⟩
      push_cast
      rw [← e]
      congr 2
      ring
    have hd : 2 * χ (i * (t' / (k + 1))) - f₀ ≠ 0 := by
      rw [hf₀]
      rcases lt_or_gt_of_ne hx with h | h
      · have := hχs h (by linarith)
        linarith
      · have := hχs h (by linarith)
        linarith
    exact sq_pos_of_ne_zero hd
  obtain ⟨δ, hδ, hδle⟩ : ∃ δ > 0, ∀ i ∈ Finset.range (k + 2), δ ≤ (2 * χ (i * (t' / (k + 1))) - f₀) ^ 2 := by
    have hne' : (Finset.range (k + 2)).Nonempty := ⟨0, by simp⟩
    refine ⟨(Finset.range (k + 2)).inf' hne' fun i => (2 * χ (i * (t' / (k + 1))) - f₀) ^ 2, ?_, fun i hi => Finset.inf'_le _ hi⟩
    rw [gt_iff_lt, Finset.lt_inf'_iff]
    exact hne
  -- the last step of the shorter observation
  set A := (f₀ - 2 * χ (k * (t / (k + 1)))) * weight K s (χ t) / 2 with hA
  have hApos : 0 < A := by
    have h1 : (k : ℝ) * (t / (k + 1)) < t := by
      have : (k : ℝ) * (t / (k + 1)) + t / (k + 1) = t := by field_simp
      have : 0 < t / (k + 1) := by positivity
      linarith
    have := hχs h1 (by linarith)
    have := weight_pos K hs (hχp t (by linarith))
    rw [hA, hf₀]
    have : 0 < 2 * χ t - 2 * χ (k * (t / (k + 1))) := by linarith
    positivity
  -- the longer observation with noise 1
  set S := ∑ i ∈ Finset.range (k + 1), (2 * χ ((i + 1 : ℕ) * (t' / (k + 1))) - 2 * χ (i * (t' / (k + 1)))) *
    (weight K s (χ ((i + 1 : ℕ) * (t' / (k + 1)))) + weight K s (χ (i * (t' / (k + 1))))) / 2 with hS
  have hstep : ∀ τ : ℝ, 0 ≤ τ → τ < T → ∀ i ∈ Finset.range (k + 1), 0 ≤ 2 * χ ((i + 1 : ℕ) * (τ / (k + 1))) - 2 * χ (i * (τ / (k + 1)))
      ∧ 0 < weight K s (χ ((i + 1 : ℕ) * (τ / (k + 1)))) ∧ 0 < weight K s (χ (i * (τ / (k + 1)))) := by
    intro τ hτ hτT i hi
    rw [Finset.mem_range] at hi
    have h1 := hpt τ hτ i (by omega)
    have h2 := hpt τ hτ (i + 1) (by omega)
    have h3 : (i : ℝ) * (τ / (k + 1)) ≤ (i + 1 : ℕ) * (τ / (k + 1)) := by
      push_cast
      have : 0 ≤ τ / (k + 1) := by positivity
      nlinarith
    have := hχm h3 (by linarith)
    exact ⟨by linarith, weight_pos K hs (hχp _ (by linarith)), weight_pos K hs (hχp _ (by linarith))⟩
  have hS0 : 0 ≤ S := Finset.sum_nonneg fun i hi => by
    obtain ⟨h1, h2, h3⟩ := hstep t' (by linarith) (by linarith) i hi
    positivity
  obtain ⟨B, hB, hBS⟩ := large_enough hS0 hApos hδ hq
  have hNp : ∀ f, 0 < 1 + B * (f - f₀) ^ 2 := fun f => by positivity
  have ht1 := custom_value K env hNp hs h0.le hT (by linarith) hm ((hχm htt.le (by linarith)).trans hhigh) k
  have ht2 := custom_value K env hNp hs (h0.trans htt).le hT hfar hm hhigh k
  refine ⟨B, f₀, _, _, hB, ht1, ht2, sqrt_nonneg _, ?_⟩
  simp only [← hχ]
  have hlo : A ≤ ∑ i ∈ Finset.range (k + 1), (2 * χ ((i + 1 : ℕ) * (t / (k + 1))) - 2 * χ (i * (t / (k + 1)))) *
      (weight K s (χ ((i + 1 : ℕ) * (t / (k + 1)))) / (1 + B * (2 * χ ((i + 1 : ℕ) * (t / (k + 1))) - f₀) ^ 2) +
        weight K s (χ (i * (t / (k + 1)))) / (1 + B * (2 * χ (i * (t / (k + 1))) - f₀) ^ 2)) / 2 := by
    rw [Finset.sum_range_succ]
    have hrest : 0 ≤ ∑ i ∈ Finset.range k, (2 * χ ((i + 1 : ℕ) * (t / (k + 1))) - 2 * χ (i * (t / (k + 1)))) *
        (weight K s (χ ((i + 1 : ℕ) * (t / (k + 1)))) / (1 + B * (2 * χ ((i + 1 : ℕ) * (t / (k + 1))) - f₀) ^ 2) +
          weight K s (χ (i * (t / (k + 1)))) / (1 + B * (2 * χ (i * (t / (k + 1))) - f₀) ^ 2)) / 2 :=
      Finset.sum_nonneg fun i hi => by
        obtain ⟨h1, h2, h3⟩ := hstep t h0.le (by linarith) i (Finset.mem_range.2 (by rw [Finset.mem_range] at hi; omega))
        have := (div_pos h2 (hNp (2 * χ ((i + 1 : ℕ) * (t / (k + 1)))))).le
        have := (div_pos h3 (hNp (2 * χ (i * (t / (k + 1)))))).le
        positivity
    refine le_trans ?_ (le_add_of_nonneg_left hrest)
    have e : ((k + 1 : ℕ) : ℝ) * (t / (k + 1)) = t := by push_cast; field_simp
    obtain ⟨h1, h2, h3⟩ := hstep t h0.le (by linarith) k (Finset.mem_range.2 (Nat.lt_succ_self k))
    rw [e] at h1 h2 ⊢
    rw [← hf₀] at h1 ⊢
    have h4 := mul_nonneg h1 (div_pos h3 (hNp (2 * χ (k * (t / (k + 1)))))).le
    rw [hA, sub_self]
    have e2 : weight K s (χ t) / (1 + B * 0 ^ 2) = weight K s (χ t) := by norm_num
    rw [e2, mul_add]
    linarith
  have hhi : ∑ i ∈ Finset.range (k + 1), (2 * χ ((i + 1 : ℕ) * (t' / (k + 1))) - 2 * χ (i * (t' / (k + 1)))) *
      (weight K s (χ ((i + 1 : ℕ) * (t' / (k + 1)))) / (1 + B * (2 * χ ((i + 1 : ℕ) * (t' / (k + 1))) - f₀) ^ 2) +
        weight K s (χ (i * (t' / (k + 1)))) / (1 + B * (2 * χ (i * (t' / (k + 1))) - f₀) ^ 2)) / 2 ≤ S / (1 + B * δ) := by
    rw [hS, Finset.sum_div]
    refine Finset.sum_le_sum fun i hi => ?_
    obtain ⟨h1, h2, h3⟩ := hstep t' (by linarith) (by linarith) i hi
    rw [Finset.mem_range] at hi
    have d1 := hδle (i + 1) (Finset.mem_range.2 (by omega))
    have d2 := hδle i (Finset.mem_range.2 (by omega))
    have e1 : weight K s (χ ((i + 1 : ℕ) * (t' / (k + 1)))) / (1 + B * (2 * χ ((i + 1 : ℕ) * (t' / (k + 1))) - f₀) ^ 2)
        ≤ weight K s (χ ((i + 1 : ℕ) * (t' / (k + 1)))) / (1 + B * δ) := by gcongr
    have e2 : weight K s (χ (i * (t' / (k + 1)))) / (1 + B * (2 * χ (i * (t' / (k + 1))) - f₀) ^ 2)
        ≤ weight K s (χ (i * (t' / (k + 1)))) / (1 + B * δ) := by gcongr
    calc _ ≤ (2 * χ ((i + 1 : ℕ) * (t' / (k + 1))) - 2 * χ (i * (t' / (k + 1)))) *
        (weight K s (χ ((i + 1 : ℕ) * (t' / (k + 1)))) / (1 + B * δ) + weight K s (χ (i * (t' / (k + 1)))) / (1 + B * δ)) / 2 := by
          gcongr
      _ = _ := by rw [← add_div]; ring
  calc _ ≤ √(S / (1 + B * δ)) := sqrt_le_sqrt hhi
    _ < √(q ^ 2 * A) := sqrt_lt_sqrt (div_nonneg hS0 (add_pos one_pos (mul_pos hB hδ)).le) hBS
    _ = q * √A := by rw [sqrt_mul (sq_nonneg q), sqrt_sq hq.le]
    _ ≤ _ := mul_le_mul_of_nonneg_left (sqrt_le_sqrt hlo) hq.le

/-- Non-vacuity of `C101_coarse`: the circular binary of the example, observed for one year and for two with the default 100
timesteps. With a suitable noise curve it loses more than 99% of its SNR. -/
example : ∃ (s : EvolSrc) (B f₀ v v' : ℝ), 0 < B ∧
    snr_circ_evolving (customCall Example.world.K Example.world.env (fun f => 1 + B * (f - f₀) ^ 2) psd.yr) [s] 100 none
      = .ok [some v] ∧
    snr_circ_evolving (customCall Example.world.K Example.world.env (fun f => 1 + B * (f - f₀) ^ 2) (2 * psd.yr)) [s] 100 none
      = .ok [some v'] ∧ 0 ≤ v' ∧ v' < 0.01 * v := by
  obtain ⟨s, T, hs, hT8, hhigh, hmass, hT⟩ : ∃ (s : EvolSrc) (T : ℝ), EvolPhys s ∧ 10 * psd.yr ≤ T ∧ s.f_orb_i ≤ 0.77 ∧
      1e-20 ≤ Example.world.K.G * (s.m_1 + s.m_2) ∧
      get_t_merge_circ Example.world.K none (some fun _ : Fin 1 => s.m_1) (some fun _ => s.m_2) none
        (some fun _ => s.f_orb_i) = .ok fun _ => T := by
    obtain ⟨T, hT8, hb⟩ := example_binary
    exact ⟨(rowAt Example.cols 0).evolvingCirc, T, ⟨hb.m_1, hb.m_2, hb.f_orb, hb.dist⟩, by linarith,
      by show (1e-3 : ℝ) ≤ 0.77; norm_num, hb.mass, hb.merger⟩
  have hy : (0 : ℝ) < psd.yr := by norm_num [psd.yr]
  have hy1 : (1 : ℝ) ≤ psd.yr := by norm_num [psd.yr]
  refine ⟨s, C101_coarse Example.world.K Example.world.env hs hy (by linarith) hT (by linarith) hmass
    (chirp_half hs.2.2.1 (by linarith) (by linarith) hhigh) (by norm_num) ?_ (by norm_num)⟩
  intro h
  obtain ⟨i, -, hi⟩ := List.mem_map.1 h
  have h2 : (2 * i : ℝ) = 99 := by
    push_cast at hi
    have : (i : ℝ) * (2 * psd.yr / (100 - 1)) * 99 = 99 * psd.yr := by rw [hi]; ring
    have h3 : psd.yr * (2 * i - 99) = 0 := by linear_combination this
    rcases mul_eq_zero.1 h3 with h4 | h4 <;> linarith
  have h3 : 2 * i = 99 := by exact_mod_cast h2
  omega

end Legwork.Props
