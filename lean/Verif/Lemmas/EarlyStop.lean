import Verif.Lemmas.Steps
import Verif.Props.Convergence

/-!
# The SNR of a circular source that is followed for a shorter time
-/

namespace Legwork.snr

open Real MeasureTheory Filter Topology Set Legwork.utils Legwork.strain Legwork.evol Legwork.Spec Legwork.Props

/-- What a circular source adds to its SNR² per unit of time. -/
noncomputable def rate (C : Ctx) (N : ℝ → WithTop ℝ) (s : EvolSrc) (T t : ℝ) : ℝ :=
  divNoise (h_0_val C.K C.interpolated_g (chirp_mass s.m_1 s.m_2) s.dist (chirp s.f_orb_i T t) 0 2 ^ 2)
    (N ((2 : ℤ) * chirp s.f_orb_i T t))

variable {C : Ctx} {s : EvolSrc} {N : ℝ → WithTop ℝ} {T T₀ : ℝ}

/-- The limit of the SNR with many steps for a source that is followed until one second before `T`. -/
theorem early_limit (hs : EvolPhys s) (hobs : 0 ≤ C.t_obs) (hN : Curve C N) (hreg : Tame N)
    (hT₀ : T₀ = get_a_from_f_orb C.K s.f_orb_i s.m_1 s.m_2 ^ 4 / (4 * utils.beta C.K s.m_1 s.m_2)) (h1 : 1 ≤ T) (hle : T ≤ T₀)
    (h100 : ∀ n, 2 ≤ n → (100 : ℝ) ∉ circRow C.K s (min (T - 1) C.t_obs) n) :
    IntervalIntegrable (rate C N s T₀) volume 0 (min (T - 1) C.t_obs) ∧
    ∃ v : ℕ → ℝ, (∀ n ≥ 2, snr_circ_evolving C [s] n (some [T]) = .ok [some (v n)]) ∧
      Tendsto v atTop (𝓝 (√(∫ t in (0 : ℝ)..min (T - 1) C.t_obs, rate C N s T₀ t))) := by
  obtain ⟨hm1, hm2, hf0, hd⟩ := hs
  have hmc := C03_pos hm1 hm2
  set τ := min (T - 1) C.t_obs with hτdef
  have hτ : 0 ≤ τ := le_min (by linarith) hobs
  have hτT : τ < T₀ := lt_of_le_of_lt (min_le_left _ _) (by linarith)
  have hT0 : 0 < T₀ := by linarith
  set f := chirp s.f_orb_i T₀ with hfdef
  have hfp : ∀ t ∈ Icc 0 τ, 0 < f t := fun t ht => chirp_pos hf0 hT0 (ht.2.trans_lt hτT)
  have hder : ∀ t ∈ Icc 0 τ, HasDerivAt (fun s => ((2 : ℤ) : ℝ) * f s) (fn_dot_val C.K (chirp_mass s.m_1 s.m_2) (f t) 0 2) t :=
    fun t ht => chirp_hasDerivAt C.K hf0 hm1 hm2 hT₀ (ht.2.trans_lt hτT) 2
  have hg : ContinuousOn (fun _ : ℝ => g_vals C.interpolated_g 2 0) (Icc 0 τ) := continuousOn_const
  obtain ⟨hint, hlim, -⟩ := harmonic_tendsto C.K C.interpolated_g hreg s.dist (k := 2) hmc hτ (by norm_num) (f := f)
    (e := fun _ => 0) hfp hder (fun _ _ => ⟨le_rfl, one_pos⟩) continuousOn_const hg
  refine ⟨hint, fun n => √(trapezoid
    ((np.linspace τ n).map (harmonicY C.K C.interpolated_g N (chirp_mass s.m_1 s.m_2) s.dist 2 f fun _ => 0))
    ((np.linspace τ n).map fun t => ((2 : ℤ) : ℝ) * f t)), fun n hn => ?_, (continuous_sqrt.tendsto _).comp hlim⟩
  have hmem : ∀ t ∈ np.linspace τ n, t ∈ Icc 0 τ := fun t ht => linspace_mem hτ hn ht
  have hrow : drop_merged_circ (circRow C.K s τ n) = (np.linspace τ n).map f := by
    have := circFreqs_chirp { C with t_obs := τ } ⟨hm1, hm2, hf0, hd⟩ hτ hT₀ (h1.trans hle) hn
      (by rw [min_eq_right (by have := min_le_left (T - 1) C.t_obs; simp only; linarith)]; exact h100 n hn)
    unfold circFreqs at this
    rw [min_eq_right (by have := min_le_left (T - 1) C.t_obs; simp only; linarith)] at this
    exact this
  have hnn : 0 ≤ trapezoid ((np.linspace τ n).map (harmonicY C.K C.interpolated_g N (chirp_mass s.m_1 s.m_2) s.dist 2
      f fun _ => 0)) ((np.linspace τ n).map fun t => ((2 : ℤ) : ℝ) * f t) := by
    apply trapezoid_nonneg
    · intro y hy
      obtain ⟨t, ht, rfl⟩ := List.mem_map.1 hy
      have hp := hfp t (hmem t ht)
      have hp2 : (0 : ℝ) < (2 : ℤ) * f t := mul_pos (by norm_num) hp
      unfold harmonicY
      apply divNoise_nonneg (sq_nonneg _)
      have := hN.pos _ hp2
      cases hn : N ((2 : ℤ) * f t) with
      | top => exact le_top
      | coe y =>
        rw [hn] at this
        have hy : 0 < y := by exact_mod_cast this
        show ((0 : ℝ) : WithTop ℝ) ≤ ((((2 : ℤ) * f t) ^ 2 * y : ℝ) : WithTop ℝ)
        exact_mod_cast (by positivity : 0 ≤ ((2 : ℤ) * f t) ^ 2 * y)
    · rw [List.pairwise_map]
      have hpw : (np.linspace τ n).Pairwise (· ≤ ·) := by
        rcases hτ.eq_or_lt with h0 | h0
        · apply List.pairwise_of_forall_mem_list
          intro x hx y hy
          have a1 := hmem x hx
          have a2 := hmem y hy
          rw [← h0, Icc_self, mem_singleton_iff] at a1 a2
          rw [a1, a2]
        · exact (linspace_mono h0 n).imp fun h => h.le
      exact hpw.imp_of_mem fun hx hy hxy =>
        mul_le_mul_of_nonneg_left (chirp_mono hf0 hT0 hxy ((hmem _ hy).2.trans_lt hτT)) (by norm_num)
  rw [snr_circ_evolving_eq C [s] (by omega) (some [T]) hN.ok (T := fun _ => T) (by
    unfold merge_times_circ
    refine congrArg Except.ok (funext fun i => ?_)
    have : (i : ℕ) < 1 := i.2
    have : (i : ℕ) = 0 := by omega
    simp [this])]
  simp only [List.length_singleton, List.ofFn_succ, List.ofFn_zero]
  simp only [Fin.getElem_fin, Fin.val_zero, List.getElem_cons_zero]
  rw [← hτdef, hrow, List.map_map, List.map_map, ← sqrt?_nonneg hnn]
  rfl

theorem rate_pos (hs : EvolPhys s) (hg : ∀ g, C.interpolated_g = some g → 0 < g 2 0) (hN : Curve C N) (hfin : ∀ f, 0 < f → N f ≠ ⊤) (hT0 : 0 < T₀)
    {t : ℝ} (ht : t < T₀) : 0 < rate C N s T₀ t := by
  obtain ⟨hm1, hm2, hf0, hd⟩ := hs
  have hf := chirp_pos hf0 hT0 ht
  have hp2 : (0 : ℝ) < (2 : ℤ) * chirp s.f_orb_i T₀ t := mul_pos (by norm_num) hf
  have hmc := C03_pos hm1 hm2
  have hg2 : 0 < g_vals C.interpolated_g 2 0 := by
    unfold g_vals
    cases hi : C.interpolated_g with
    | none =>
      show 0 < utils.peters_g 2 0
      rw [C05_circular (by norm_num)]
      simp
    | some g =>
      simp only
      rw [if_neg (not_lt.2 (hg g hi).le)]
      exact hg g hi
  have h0 : 0 < h_0_val C.K C.interpolated_g (chirp_mass s.m_1 s.m_2) s.dist (chirp s.f_orb_i T₀ t) 0 2 := by
    have := C.K.G_pos
    have := C.K.c_pos
    unfold h_0_val
    simp only
    push_cast
    positivity
  unfold rate
  have h1 := hN.pos _ hp2
  have h2 := hfin _ hp2
  cases hn : N ((2 : ℤ) * chirp s.f_orb_i T₀ t) with
  | top => exact absurd hn h2
  | coe y =>
    rw [hn] at h1
    have hy : 0 < y := by exact_mod_cast h1
    show 0 < _ / y
    positivity

/-- Followed for a shorter time, a source has a smaller SNR once there are enough steps. -/
theorem early_less {T' : ℝ} (hs : EvolPhys s) (hobs : 0 ≤ C.t_obs) (hg : ∀ g, C.interpolated_g = some g → 0 < g 2 0) (hN : Curve C N)
    (hreg : Tame N) (hfin : ∀ f, 0 < f → N f ≠ ⊤)
    (hT₀ : T₀ = get_a_from_f_orb C.K s.f_orb_i s.m_1 s.m_2 ^ 4 / (4 * utils.beta C.K s.m_1 s.m_2)) (h1 : 1 ≤ T) (hlt : T < T')
    (hle : T' ≤ T₀) (hend : T - 1 < C.t_obs) (h100 : ∀ n, (100 : ℝ) ∉ circRow C.K s (min (T - 1) C.t_obs) n)
    (h100' : ∀ n, (100 : ℝ) ∉ circRow C.K s (min (T' - 1) C.t_obs) n) :
    ∃ n₀, ∀ n ≥ n₀, ∃ v v', snr_circ_evolving C [s] n (some [T]) = .ok [some v] ∧
      snr_circ_evolving C [s] n (some [T']) = .ok [some v'] ∧ v < v' := by
  obtain ⟨hi, v, hv, hlim⟩ := early_limit hs hobs hN hreg hT₀ h1 (hlt.le.trans hle) fun n _ => h100 n
  obtain ⟨hi', v', hv', hlim'⟩ := early_limit hs hobs hN hreg hT₀ (h1.trans hlt.le) hle fun n _ => h100' n
  set τ := min (T - 1) C.t_obs with hτ
  set τ' := min (T' - 1) C.t_obs with hτ'
  have e1 : τ = T - 1 := min_eq_left hend.le
  have h0 : 0 ≤ τ := by rw [e1]; linarith
  have hττ : τ < τ' := by rw [e1]; exact lt_min (by linarith) hend
  have hτT : τ' < T₀ := lt_of_le_of_lt (min_le_left _ _) (by linarith)
  have hpos : ∀ t < T₀, 0 < rate C N s T₀ t := fun t ht => rate_pos hs hg hN hfin (by linarith) ht
  have hi2 : IntervalIntegrable (rate C N s T₀) volume τ τ' := hi.symm.trans hi'
  have hadd := intervalIntegral.integral_add_adjacent_intervals hi hi2
  have hgt : 0 < ∫ t in τ..τ', rate C N s T₀ t :=
    intervalIntegral.intervalIntegral_pos_of_pos_on hi2 (fun t ht => hpos t (ht.2.trans hτT)) hττ
  have hnn : 0 ≤ ∫ t in (0 : ℝ)..τ, rate C N s T₀ t :=
    intervalIntegral.integral_nonneg h0 fun t ht => (hpos t (by have := ht.2; linarith)).le
  have hlt' : √(∫ t in (0 : ℝ)..τ, rate C N s T₀ t) < √(∫ t in (0 : ℝ)..τ', rate C N s T₀ t) :=
    sqrt_lt_sqrt hnn (by linarith)
  obtain ⟨n₀, hn₀⟩ := eventually_atTop.1 (hlim.eventually_lt hlim' hlt')
  exact ⟨max n₀ 2, fun n hn => ⟨v n, v' n, hv n (le_of_max_le_right hn), hv' n (le_of_max_le_right hn),
    hn₀ n (le_of_max_le_left hn)⟩⟩

end Legwork.snr
