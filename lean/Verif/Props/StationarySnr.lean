import Verif.Lemmas.StatSnr
import Verif.Props.Interpolation

/-!
# C92: stationary or evolving makes little difference for sources that are classed as stationary
-/

namespace Legwork.Props

open Real Set Legwork.utils Legwork.strain Legwork.snr Legwork.evol Legwork.Spec

/-- A source that is classed as stationary is at least one second further from merger than the observation takes. -/
theorem stationary_far (K : Consts) {f m₁ m₂ τ tol : ℝ} (hf : 0 < f) (h₁ : 0 < m₁) (h₂ : 0 < m₂) (ht : 1 ≤ τ)
    (htol : 0 ≤ tol) (htol' : tol ≤ 1 / 4) (hbig : f * (1 + tol) < 1e9) {stat : Fin 1 → Prop}
    (hstat : determine_stationarity K (fun _ => f) τ (fun _ => 0) (some fun _ => m₁) (some fun _ => m₂) none tol = .ok stat)
    (h0 : stat 0) : ∃ T, get_t_merge_circ K none (some fun _ : Fin 1 => m₁) (some fun _ => m₂) none (some fun _ => f)
      = .ok (fun _ => T) ∧ T = get_a_from_f_orb K f m₁ m₂ ^ 4 / (4 * utils.beta K m₁ m₂) ∧
      τ ≤ T * (1 - (1 + tol) ^ (-8 / 3 : ℝ)) ∧ τ + 1 ≤ T := by
  have ha := get_a_from_f_orb_pos K hf h₁ h₂
  have hb := beta_pos K h₁ h₂
  set q := 1 + tol with hq
  have hq0 : 0 < q := by linarith
  obtain ⟨stat', T', hst, hT, hiff⟩ := C19_threshold K (fun _ : Fin 1 => f) (fun _ => 0) (fun _ => m₁)
    (fun _ => m₂) τ tol (fun _ => hf) (fun _ => h₁) (fun _ => h₂) htol (fun _ => hbig)
  have : stat = stat' := Except.ok.inj (hstat.symm.trans hst)
  subst this
  have hτT := (hiff 0).1 h0
  set T := T' 0 with hTdef
  have hT' : T' = fun _ => T := by funext i; fin_cases i; rfl
  rw [hT'] at hT
  rw [C04_zero, mul_one] at hτT
  have hTi : T = get_a_from_f_orb K f m₁ m₂ ^ 4 / (4 * utils.beta K m₁ m₂) := by
    rw [get_t_merge_circ_masses] at hT
    simp only [Except.ok.injEq] at hT
    exact (congrFun hT 0).symm
  have hT0 : 0 < T := by rw [hTi]; positivity
  have hhalf : τ + 1 ≤ T := by
    have : (1 / 2 : ℝ) ≤ q ^ (-8 / 3 : ℝ) := by
      calc (1 / 2 : ℝ) ≤ (5 / 4 : ℝ) ^ (-3 : ℝ) := by
            rw [rpow_neg (by norm_num), show ((5 / 4 : ℝ) ^ (3 : ℝ)) = (5 / 4) ^ (3 : ℕ) by exact_mod_cast rpow_natCast (5 / 4 : ℝ) 3]
            norm_num
        _ ≤ (5 / 4 : ℝ) ^ (-8 / 3 : ℝ) := rpow_le_rpow_of_exponent_le (by norm_num) (by norm_num)
        _ ≤ q ^ (-8 / 3 : ℝ) := rpow_le_rpow_of_nonpos hq0 (by linarith) (by norm_num)
    nlinarith
  exact ⟨T, hT, hTi, hτT, hhalf⟩

set_option maxHeartbeats 1000000 in
/-- **C92.** Take a circular source that `determine_stationarity` accepts for the observation time with a tolerance of at
most 1/4, and a noise curve of slope at most `k` over the frequencies allowed by the tolerance. Then, for every number of
steps, the SNR that `snr_circ_evolving` reports is within the factor `(1 + tol)^((k + 11/3)/2)` of the one that
`snr_circ_stationary` reports. -/
theorem C92_circular (C : Ctx) {s : EvolSrc} (hs : EvolPhys s) (ht : 1 ≤ C.t_obs) {tol : ℝ} (htol : 0 ≤ tol)
    (htol' : tol ≤ 1 / 4) (hbig : s.f_orb_i * (1 + tol) < 1e9) {stat : Fin 1 → Prop}
    (hstat : determine_stationarity C.K (fun _ => s.f_orb_i) C.t_obs (fun _ => 0) (some fun _ => s.m_1)
      (some fun _ => s.m_2) none tol = .ok stat) (h0 : stat 0) {k : ℝ} (hk : 0 ≤ k) {S : ℝ → ℝ}
    (hS : SlopeAtMost k S (2 * s.f_orb_i) (2 * (s.f_orb_i * (1 + tol))))
    (hN : ∀ f, 2 * s.f_orb_i ≤ f → f ≤ 2 * (s.f_orb_i * (1 + tol)) → noise C f = .ok (S f : ℝ)) {n : ℕ} (hn : 2 ≤ n)
    (h100 : ∀ fs, evol_circ C.K AU (some (.array fun _ : Fin 1 => C.t_obs)) n none none
      (some fun _ => s.m_1) (some fun _ => s.m_2) none (some fun _ => s.f_orb_i) ["f_orb"]
      = .ok (.one fs) → (100 : ℝ) ∉ fs 0) :
    ∃ x x' : ℝ, snr_circ_stationary C [⟨chirp_mass s.m_1 s.m_2, s.f_orb_i, s.dist, {}⟩] = .ok [some x] ∧
      snr_circ_evolving C [s] n none = .ok [some x'] ∧ 0 ≤ x ∧ 0 ≤ x' ∧ WithinFactor ((1 + tol) ^ ((k + 11 / 3) / 2)) x' x := by
  obtain ⟨hm1, hm2, hf0, hd⟩ := hs
  have hmc := C03_pos hm1 hm2
  have ha := get_a_from_f_orb_pos C.K hf0 hm1 hm2
  have hb := beta_pos C.K hm1 hm2
  set f₀ := s.f_orb_i with hf₀
  set q := 1 + tol with hq
  have hq1 : 1 ≤ q := by linarith
  have hq0 : 0 < q := by linarith
  set τ := C.t_obs with hτ
  -- the merger time
  obtain ⟨T, hT, hTi, hτT, hhalf⟩ := stationary_far C.K hf0 hm1 hm2 ht htol htol' hbig hstat h0
  have hmin : min (T - 1) τ = τ := min_eq_right (by linarith)
  have hτ0 : 0 < τ := by linarith
  have hτT' : τ < T := by linarith
  -- the inspiral
  set A : ℝ → ℝ := a_circ (get_a_from_f_orb C.K f₀ s.m_1 s.m_2) (utils.beta C.K s.m_1 s.m_2) with hA
  have hin : CircularInspiral (utils.beta C.K s.m_1 s.m_2) (get_a_from_f_orb C.K f₀ s.m_1 s.m_2) T A := by
    rw [hTi]
    exact a_circ_inspiral ha hb
  have hAp : ∀ t ∈ Icc 0 τ, 0 < A t := fun t ht => hin.pos t (ht.2.trans_lt hτT')
  set f : ℝ → ℝ := fun t => get_f_orb_from_a C.K (A t) s.m_1 s.m_2 with hfdef
  have hfp : ∀ t ∈ Icc 0 τ, 0 < f t := fun t ht => get_f_orb_from_a_pos C.K (hAp t ht) hm1 hm2
  have hD : ∀ {g : ℝ}, 0 < g → 0 < fn_dot_val C.K (chirp_mass s.m_1 s.m_2) g 0 2 := fun hg => by
    have := C.K.G_pos
    have := C.K.c_pos
    unfold fn_dot_val
    rw [C04_zero]
    push_cast
    positivity
  have hder : ∀ t ∈ Icc 0 τ, HasDerivAt (fun s => 2 * f s) (fn_dot_val C.K (chirp_mass s.m_1 s.m_2) (f t) 0 2) t := by
    intro t ht
    have d := (hasDerivAt_f C.K (a := A) (hAp t ht) hm1 hm2 (hin.ode t (ht.2.trans_lt hτT'))).const_mul (2 : ℝ)
    refine d.congr_deriv ?_
    have hf := hfp t ht
    have hp := hAp t ht
    rw [fn_dot_val_eq C.K 2 hf hp hm1 hm2 ((C01_get_f_iff_kepler C.K hf hp hm1 hm2).1 rfl), C04_zero]
    change _ = _ * (3 / 2 * get_f_orb_from_a C.K (A t) s.m_1 s.m_2 / A t ^ 4 * _ * 1)
    push_cast
    field_simp
  have hcont : ContinuousOn (fun s => 2 * f s) (Icc 0 τ) := fun t ht => (hder t ht).continuousAt.continuousWithinAt
  have hmono : MonotoneOn (fun s => 2 * f s) (Icc 0 τ) := by
    refine monotoneOn_of_deriv_nonneg (convex_Icc 0 τ) hcont (fun t ht => ?_) (fun t ht => ?_)
    · exact (hder t (interior_subset ht)).differentiableAt.differentiableWithinAt
    · rw [(hder t (interior_subset ht)).deriv]
      exact (hD (hfp t (interior_subset ht))).le
  have hstart : f 0 = f₀ := by
    show get_f_orb_from_a C.K (A 0) s.m_1 s.m_2 = _
    rw [hin.start]
    exact C01_f_roundtrip C.K hf0 hm1 hm2
  have h0mem : (0 : ℝ) ∈ Icc 0 τ := ⟨le_rfl, hτ0.le⟩
  have hτmem : τ ∈ Icc 0 τ := ⟨hτ0.le, le_rfl⟩
  have hlast : f τ ≤ q * f₀ := f_after_le C.K hf0 hm1 hm2 hq1 (hTi ▸ hτT)
  have hrange : ∀ t ∈ Icc 0 τ, f₀ ≤ f t ∧ f t ≤ q * f₀ := by
    intro t ht
    have a1 := hmono h0mem ht ht.1
    have a2 := hmono ht hτmem ht.2
    simp only at a1 a2
    rw [hstart] at a1
    exact ⟨by linarith, by linarith⟩
  -- the noise
  have hS0 : 0 < S (2 * f₀) := hS.1 _ le_rfl (by nlinarith)
  have hSt : ∀ t ∈ Icc 0 τ, 0 < S (2 * f t) ∧ S (2 * f t) ≤ q ^ k * S (2 * f₀) ∧ S (2 * f₀) ≤ q ^ k * S (2 * f t) ∧
      noise C (2 * f t) = .ok ((S (2 * f t) : ℝ) : WithTop ℝ) := by
    intro t ht
    obtain ⟨b1, b2⟩ := hrange t ht
    have c1 : 2 * f₀ ≤ 2 * f t := by linarith
    have c2 : 2 * f t ≤ 2 * (f₀ * q) := by linarith
    have p := hS.1 _ c1 c2
    obtain ⟨d1, d2⟩ := hS.2 (2 * f₀) (2 * f t) le_rfl c1 c2
    have e : (2 * f t / (2 * f₀)) ^ k ≤ q ^ k := by
      apply rpow_le_rpow (by have := hfp t ht; positivity) _ hk
      rw [div_le_iff₀ (by linarith)]
      linarith
    exact ⟨p, d1.trans (mul_le_mul_of_nonneg_right e hS0.le), d2.trans (mul_le_mul_of_nonneg_right e p.le), hN _ c1 c2⟩
  -- the stationary SNR
  set W := h_0_val C.K C.interpolated_g (chirp_mass s.m_1 s.m_2) s.dist f₀ 0 2 ^ 2 with hW
  have hW0 : 0 ≤ W := sq_nonneg _
  set D := fn_dot_val C.K (chirp_mass s.m_1 s.m_2) f₀ 0 2 with hDdef
  have hD0 : 0 < D := hD hf0
  have hx : snr_circ_stationary C [⟨chirp_mass s.m_1 s.m_2, f₀, s.dist, {}⟩] = .ok [some (√(W * τ / S (2 * f₀)))] := by
    rw [snr_circ_stationary_iff, mapM_singleton_ok]
    unfold circ1
    have hmod : modulation ({} : Orientation) = .ok 1 := rfl
    have h00 := (hSt 0 h0mem).2.2.2
    rw [hstart] at h00
    rw [hmod, ok_bind]
    simp only
    rw [h00, ok_bind, pure_ok, one_mul]
    exact sqrt?_nonneg (div_nonneg (mul_nonneg hW0 hτ0.le) hS0.le)
  -- the evolving SNR
  have hcol : ∀ x : EvolSrc → ℝ, column [s] x = fun _ => x s := fun x => by
    funext i
    match i with
    | ⟨0, _⟩ => rfl
  have hTT : merge_times_circ C [s] none = .ok fun _ => T := by
    unfold merge_times_circ
    rw [hcol, hcol, hcol]
    exact hT
  have h100n : (100 : ℝ) ∉ circRow C.K s τ n := by
    have e := evol_circ_snr C.K [s] (fun _ => τ) n
    rw [hcol, hcol, hcol] at e
    exact h100 _ e
  have htime : ∀ i < n, (i : ℝ) * (τ / ((n : ℝ) - 1)) ∈ Icc 0 τ := by
    intro i hi
    have h1 : (0 : ℝ) < (n : ℝ) - 1 := by
      have : (2 : ℝ) ≤ n := by exact_mod_cast hn
      linarith
    have h2 : (i : ℝ) + 1 ≤ n := by exact_mod_cast hi
    refine ⟨by positivity, ?_⟩
    rw [mul_div_assoc', div_le_iff₀ h1]
    nlinarith
  have hfreq : circFreqs C n s T = (List.range n).map fun i : ℕ => f ((i : ℝ) * (τ / ((n : ℝ) - 1))) := by
    unfold circFreqs
    rw [← hτ, hmin, drop_merged_circ_of_not_mem h100n]
    unfold circRow np.linspace
    rw [List.map_map]
    apply List.map_congr_left
    intro i hi
    rw [List.mem_range] at hi
    apply f_or_merged_of_ne C.K (hAp _ (htime i hi)).ne'
    intro e
    apply h100n
    refine List.mem_map.2 ⟨_, List.mem_map.2 ⟨i, List.mem_range.2 hi, rfl⟩, ?_⟩
    rw [← hf₀, ← hA, e]
    unfold f_or_merged
    simp only
    rw [ite_self, if_pos rfl]
    norm_num
  obtain ⟨m, rfl⟩ : ∃ m, n = m + 1 := ⟨n - 1, by omega⟩
  set t : ℕ → ℝ := fun i => (i : ℝ) * (τ / (((m + 1 : ℕ) : ℝ) - 1)) with htdef
  set Y : ℕ → ℝ := fun i => divNoise (h_c_val C.K C.interpolated_g (chirp_mass s.m_1 s.m_2) s.dist (f (t i)) 0 2 ^ 2)
    (((2 * f (t i)) ^ 2 * S (2 * f (t i)) : ℝ) : WithTop ℝ) with hY
  have hYval : ∀ i ≤ m, q ^ (-(7 / 3 + k)) * (W / D / S (2 * f₀)) ≤ Y i ∧ Y i ≤ q ^ k * (W / D / S (2 * f₀)) := by
    intro i hi
    have hmem : t i ∈ Icc 0 τ := htime i (by omega)
    obtain ⟨s1, s2, s3, -⟩ := hSt _ hmem
    obtain ⟨b1, b2⟩ := hrange _ hmem
    set r := f (t i) / f₀ with hr
    have hrf : f (t i) = r * f₀ := by rw [hr]; field_simp
    have hr1 : 1 ≤ r := by rw [hr, one_le_div hf0]; exact b1
    have hr2 : r ≤ q := by rw [hr, div_le_iff₀ hf0]; exact b2
    have hr0 : 0 < r := by linarith
    have hYi : Y i = r ^ (-7 / 3 : ℝ) * (W / D) / S (2 * f (t i)) := by
      simp only [hY]
      rw [hrf]
      rw [hrf] at s1
      exact weight_eq C.K C.interpolated_g hmc hf0 hr0 s1
    have hWD : 0 ≤ W / D := by positivity
    have u1 : r ^ (-7 / 3 : ℝ) ≤ 1 := rpow_le_one_of_one_le_of_nonpos hr1 (by norm_num)
    have u2 : q ^ (-7 / 3 : ℝ) ≤ r ^ (-7 / 3 : ℝ) := rpow_le_rpow_of_nonpos hr0 hr2 (by norm_num)
    have hqk : 0 < q ^ k := by positivity
    constructor
    · rw [hYi]
      have e : q ^ (-(7 / 3 + k)) = q ^ (-7 / 3 : ℝ) * (q ^ k)⁻¹ := by
        rw [← rpow_neg hq0.le, ← rpow_add hq0]
        congr 1
        ring
      have : (q ^ k)⁻¹ * (S (2 * f₀))⁻¹ ≤ (S (2 * f (t i)))⁻¹ := by
        rw [← mul_inv]
        exact inv_anti₀ s1 s2
      calc q ^ (-(7 / 3 + k)) * (W / D / S (2 * f₀)) = q ^ (-7 / 3 : ℝ) * (W / D) * ((q ^ k)⁻¹ * (S (2 * f₀))⁻¹) := by
            rw [e]; ring
        _ ≤ r ^ (-7 / 3 : ℝ) * (W / D) * (S (2 * f (t i)))⁻¹ := by gcongr
        _ = _ := by ring
    · rw [hYi]
      have : (S (2 * f (t i)))⁻¹ ≤ q ^ k * (S (2 * f₀))⁻¹ := by
        rw [inv_le_iff_one_le_mul₀ s1, mul_assoc, mul_comm (S (2 * f₀))⁻¹, ← mul_assoc, ← div_eq_mul_inv, one_le_div hS0]
        exact s3
      calc r ^ (-7 / 3 : ℝ) * (W / D) / S (2 * f (t i)) = r ^ (-7 / 3 : ℝ) * (W / D) * (S (2 * f (t i)))⁻¹ := by ring
        _ ≤ 1 * (W / D) * (q ^ k * (S (2 * f₀))⁻¹) := by gcongr
        _ = _ := by ring
  have hXstep : ∀ i < m, 2 * f (t i) ≤ 2 * f (t (i + 1)) := by
    intro i hi
    apply hmono (htime i (by omega)) (htime (i + 1) (by omega))
    have h1 : (0 : ℝ) ≤ τ / (((m + 1 : ℕ) : ℝ) - 1) := by
      push_cast
      rw [add_sub_cancel_right]
      positivity
    push_cast at h1 ⊢
    nlinarith
  have htm : t m = τ := by
    simp only [htdef]
    have : (0 : ℝ) < m := by exact_mod_cast (by omega : 0 < m)
    push_cast
    rw [add_sub_cancel_right]
    field_simp
  have ht0 : t 0 = 0 := by simp [htdef]
  -- the frequency gained
  have hgain : D * τ ≤ 2 * f (t m) - 2 * f (t 0) ∧ 2 * f (t m) - 2 * f (t 0) ≤ q ^ (11 / 3 : ℝ) * (D * τ) := by
    rw [htm, ht0]
    obtain ⟨ξ, hξ, he⟩ := exists_hasDerivAt_eq_slope (fun s => 2 * f s) _ hτ0 hcont
      (fun x hx => hder x (Ioo_subset_Icc_self hx))
    rw [sub_zero, eq_div_iff hτ0.ne'] at he
    rw [← he]
    have hmem := Ioo_subset_Icc_self hξ
    obtain ⟨b1, b2⟩ := hrange _ hmem
    have hrf : f ξ = f ξ / f₀ * f₀ := by field_simp
    have hr1 : 1 ≤ f ξ / f₀ := by rw [one_le_div hf0]; exact b1
    have hr2 : f ξ / f₀ ≤ q := by rw [div_le_iff₀ hf0]; exact b2
    rw [hrf, fn_dot_scale C.K _ 0 2 (by linarith) hf0, ← hDdef]
    have v1 : 1 ≤ (f ξ / f₀) ^ (11 / 3 : ℝ) := one_le_rpow hr1 (by norm_num)
    have v2 : (f ξ / f₀) ^ (11 / 3 : ℝ) ≤ q ^ (11 / 3 : ℝ) := rpow_le_rpow (by linarith) hr2 (by norm_num)
    have hDτ : 0 < D * τ := by positivity
    constructor <;> nlinarith
  have hWS : 0 ≤ W / D / S (2 * f₀) := by positivity
  obtain ⟨g1, g2⟩ := trapezoid_bounds (X := fun i => 2 * f (t i)) (Y := Y) (k := m) hXstep (fun i hi => (hYval i hi).1)
    (fun i hi => (hYval i hi).2)
  set R := trapezoid ((List.range (m + 1)).map Y) ((List.range (m + 1)).map fun i => 2 * f (t i)) with hR
  have hbase : W / D / S (2 * f₀) * (D * τ) = W * τ / S (2 * f₀) := by field_simp
  have hup : R ≤ q ^ (k + 11 / 3) * (W * τ / S (2 * f₀)) := by
    calc R ≤ q ^ k * (W / D / S (2 * f₀)) * (2 * f (t m) - 2 * f (t 0)) := g2
      _ ≤ q ^ k * (W / D / S (2 * f₀)) * (q ^ (11 / 3 : ℝ) * (D * τ)) := by
          have := hgain.2
          gcongr
      _ = _ := by
          rw [rpow_add hq0, ← hbase]
          ring
  have hlow : W * τ / S (2 * f₀) ≤ q ^ (k + 11 / 3) * R := by
    have e : q ^ (-(7 / 3 + k)) * (W * τ / S (2 * f₀)) ≤ R := by
      rw [← hbase, ← mul_assoc]
      refine le_trans ?_ g1
      have := hgain.1
      gcongr
    have hR0 : 0 ≤ R := le_trans (by positivity) e
    calc W * τ / S (2 * f₀) = q ^ (7 / 3 + k) * (q ^ (-(7 / 3 + k)) * (W * τ / S (2 * f₀))) := by
          rw [← mul_assoc, ← rpow_add hq0, add_neg_cancel, rpow_zero, one_mul]
      _ ≤ q ^ (7 / 3 + k) * R := by gcongr
      _ ≤ q ^ (k + 11 / 3) * R := by
          apply mul_le_mul_of_nonneg_right _ hR0
          exact rpow_le_rpow_of_exponent_le hq1 (by linarith)
  have hR0 : 0 ≤ R := by
    have : 0 ≤ q ^ (k + 11 / 3) * R := le_trans (by positivity) hlow
    exact nonneg_of_mul_nonneg_right this (by positivity)
  refine ⟨_, √R, hx, ?_, sqrt_nonneg _, sqrt_nonneg _, ?_⟩
  · rw [circ_evol_one (by omega) hTT, circE1_eq, hfreq]
    rw [mapM_map', mapM_ok (g := Y)]
    · rw [ok_bind, pure_ok, List.map_map]
      exact sqrt?_nonneg hR0
    · intro i hi
      rw [List.mem_range] at hi
      have hmem : t i ∈ Icc 0 τ := htime i hi
      have := (hSt _ hmem).2.2.2
      simp only [htdef] at this
      rw [this, ok_bind]
      rfl
  · have e : √(q ^ (k + 11 / 3)) = q ^ ((k + 11 / 3) / 2) := by
      rw [sqrt_eq_rpow, ← rpow_mul hq0.le]
      congr 1
      ring
    have hq' : (0 : ℝ) ≤ q ^ (k + 11 / 3) := by positivity
    constructor
    · rw [← e, ← sqrt_mul hq']
      exact sqrt_le_sqrt hup
    · rw [← e, ← sqrt_mul hq']
      exact sqrt_le_sqrt hlow

/-- **C92** (LISA). With the default noise and the analytic response, observations of at least three months and a
tolerance of at most 1% (the default), the two SNRs of every source of at least 0.69 solar masses that is classed as
stationary and whose signal is in the band differ by less than 8.7%. -/
theorem C92_lisa (K : Consts) (hc : K.c = 299792458) (env : psd.Env) {s : EvolSrc} (hs : EvolPhys s) {t_obs : ℝ}
    (ht : 0.25 * psd.yr ≤ t_obs) {tol : ℝ} (htol : 0 ≤ tol) (htol' : tol ≤ 0.01) (hlow : 1e-7 ≤ 2 * s.f_orb_i)
    (hhigh : 2 * (s.f_orb_i * (1 + tol)) ≤ 2) (hm : 3.375e-6 * K.c ^ 3 ≤ K.G * chirp_mass s.m_1 s.m_2)
    {stat : Fin 1 → Prop}
    (hstat : determine_stationarity K (fun _ => s.f_orb_i) t_obs (fun _ => 0) (some fun _ => s.m_1)
      (some fun _ => s.m_2) none tol = .ok stat) (h0 : stat 0) {n : ℕ} (hn : 2 ≤ n) :
    let C : Ctx := { K := K, env := env, kw := { approximate_R := true }, t_obs := t_obs }
    ∃ x x' : ℝ, snr_circ_stationary C [⟨chirp_mass s.m_1 s.m_2, s.f_orb_i, s.dist, {}⟩] = .ok [some x] ∧
      snr_circ_evolving C [s] n none = .ok [some x'] ∧ 0 ≤ x ∧ 0 ≤ x' ∧ WithinFactor 1.087 x' x := by
  intro C
  have ht1 : 1 ≤ t_obs := le_trans (by norm_num [psd.yr]) ht
  obtain ⟨hm1, hm2, hf0, hd⟩ := id hs
  have hbig : s.f_orb_i * (1 + tol) < 1e9 := by norm_num; linarith
  obtain ⟨T, hT, -, -, hfar⟩ := stationary_far K hf0 hm1 hm2 ht1 htol (by norm_num at htol' ⊢; linarith) hbig hstat h0
  have hmin : min (T - 1) t_obs = t_obs := min_eq_right (by linarith)
  obtain ⟨S, h1, h2⟩ := (C91_lisa_slope K hc env none t_obs).2 ht
  have hi : ∀ i : Fin [s].length, [s][i] = s := fun i => by simp
  have hT' : get_t_merge_circ K none (some fun i : Fin [s].length => [s][i].m_1) (some fun i => [s][i].m_2) none
      (some fun i => [s][i].f_orb_i) = .ok fun _ => T := by
    simp only [hi]
    exact hT
  obtain ⟨fs', e, hlt⟩ := C62_below_100Hz K (by rw [hc]; norm_num) [s] n t_obs (by simpa using hs) (T := fun _ => T)
    hT' (by simpa using hm) (fun _ => le_min (by linarith) (by linarith))
  simp only [hi, hmin] at e
  obtain ⟨x, x', hx, hx', hp, hp', hw⟩ := C92_circular C hs ht1 htol (by norm_num at htol' ⊢; linarith) hbig hstat h0 (k := 13)
    (by norm_num) (⟨fun f a b => h2.1 f (hlow.trans a) (b.trans hhigh),
      fun f f' a b c => h2.2 f f' (hlow.trans a) b (c.trans hhigh)⟩) (fun f a b => h1 f (hlow.trans a) (b.trans hhigh)) hn (by
      intro fs hfs hmem
      have : fs = fs' := by simpa using hfs.symm.trans e
      subst this
      exact lt_irrefl _ (hlt 0 _ hmem))
  refine ⟨x, x', hx, hx', hp, hp', ?_⟩
  have hq : (1 + tol) ^ ((13 + 11 / 3) / 2 : ℝ) ≤ 1.087 := by
    calc (1 + tol) ^ ((13 + 11 / 3) / 2 : ℝ) ≤ (1.01 : ℝ) ^ ((13 + 11 / 3) / 2 : ℝ) :=
          rpow_le_rpow (by linarith) (by norm_num at htol' ⊢; linarith) (by norm_num)
      _ = ((1.01 : ℝ) ^ (25 : ℕ)) ^ (1 / 3 : ℝ) := by
          rw [← rpow_natCast, ← rpow_mul (by norm_num)]
          norm_num
      _ ≤ ((1.087 : ℝ) ^ (3 : ℕ)) ^ (1 / 3 : ℝ) := rpow_le_rpow (by positivity) (by norm_num) (by norm_num)
      _ = 1.087 := by
          rw [← rpow_natCast, ← rpow_mul (by norm_num)]
          norm_num
  exact ⟨hw.1.trans (mul_le_mul_of_nonneg_right hq hp), hw.2.trans (mul_le_mul_of_nonneg_right hq hp')⟩

/-- Two black holes of 1e31 kg (five solar masses), 1e10 m apart, are classed as stationary for a year. -/
theorem stationary_example : ∃ (s : EvolSrc) (stat : Fin 1 → Prop), EvolPhys s ∧ 1e-7 ≤ 2 * s.f_orb_i ∧
    2 * (s.f_orb_i * (1 + 0.01)) ≤ 2 ∧
    3.375e-6 * Consts.codata2018.c ^ 3 ≤ Consts.codata2018.G * chirp_mass s.m_1 s.m_2 ∧
    determine_stationarity .codata2018 (fun _ => s.f_orb_i) psd.yr (fun _ => 0) (some fun _ => s.m_1)
      (some fun _ => s.m_2) none 0.01 = .ok stat ∧ stat 0 := by
  have hm : (0 : ℝ) < 1e31 := by norm_num
  have ha : (0 : ℝ) < 1e10 := by norm_num
  set f := get_f_orb_from_a .codata2018 1e10 1e31 1e31 with hf
  have hf0 : 0 < f := get_f_orb_from_a_pos .codata2018 ha hm hm
  have hr : f = √(Consts.codata2018.G * (1e31 + 1e31) / 1e10 ^ 3) / (2 * π) := by
    rw [hf, get_f_orb_from_a, sqrt_eq_rpow]
    norm_num
  have hG : Consts.codata2018.G = 6.67430e-11 := rfl
  have hc : Consts.codata2018.c = 299792458 := rfl
  have hlo : (1e-5 : ℝ) ≤ √(Consts.codata2018.G * (1e31 + 1e31) / 1e10 ^ 3) := by
    apply le_sqrt_of_sq_le
    rw [hG]
    norm_num
  have hhi : √(Consts.codata2018.G * (1e31 + 1e31) / 1e10 ^ 3) ≤ 1e-4 := by
    rw [sqrt_le_left (by norm_num), hG]
    norm_num
  have hπ := pi_gt_three
  have hπ' := pi_lt_four
  have hflo : (1e-6 : ℝ) ≤ f := by
    rw [hr, le_div_iff₀ (by positivity)]
    norm_num at hlo ⊢
    linarith
  have hfhi : f ≤ 1e-4 := by
    rw [hr, div_le_iff₀ (by positivity)]
    norm_num at hhi ⊢
    linarith
  have hroot : get_a_from_f_orb .codata2018 f 1e31 1e31 = 1e10 := C01_a_roundtrip .codata2018 ha hm hm
  obtain ⟨stat, T, hstat, hT, hiff⟩ := C19_threshold .codata2018 (fun _ : Fin 1 => f) (fun _ => 0) (fun _ => 1e31)
    (fun _ => 1e31) psd.yr 0.01 (fun _ => hf0) (fun _ => hm) (fun _ => hm) (by norm_num)
    (fun _ => by norm_num at hfhi ⊢; linarith)
  have h0 : stat 0 := by
    rw [hiff, C04_zero, mul_one]
    rw [get_t_merge_circ_masses] at hT
    have hT0 : T 0 = 1e10 ^ 4 / (4 * utils.beta .codata2018 1e31 1e31) := by
      rw [← hroot]
      simp only [Except.ok.injEq] at hT
      exact (congrFun hT 0).symm
    have hbig : (1e17 : ℝ) ≤ T 0 := by
      rw [hT0, utils.beta, hG, hc]
      norm_num
    have hq : (1 + 0.01 : ℝ) ^ (-8 / 3 : ℝ) ≤ 0.991 := by
      calc (1 + 0.01 : ℝ) ^ (-8 / 3 : ℝ) ≤ (1 + 0.01 : ℝ) ^ (-1 : ℝ) :=
            rpow_le_rpow_of_exponent_le (by norm_num) (by norm_num)
        _ ≤ 0.991 := by rw [rpow_neg_one]; norm_num
    unfold psd.yr
    norm_num at hbig hq ⊢
    nlinarith
  have hch : (5e30 : ℝ) ≤ chirp_mass 1e31 1e31 := by
    have hp := C03_pos hm hm
    have e := (C03_iff hm hm hp).1 rfl
    apply le_of_pow_le_pow_left₀ (n := 5) (by norm_num) hp.le
    norm_num at e ⊢
    linarith
  let s : EvolSrc := { m_1 := 1e31, m_2 := 1e31, f_orb_i := f, dist := 1e19, ecc := 0 }
  have hs : EvolPhys s := ⟨hm, hm, hf0, by norm_num [s]⟩
  exact ⟨s, stat, hs, by show _ ≤ 2 * f; norm_num at hflo ⊢; linarith, by show 2 * (f * _) ≤ 2; norm_num at hfhi ⊢; linarith,
    by show _ ≤ _ * chirp_mass 1e31 1e31; rw [hG, hc]; norm_num at hch ⊢; linarith, hstat, h0⟩

/-- Non-vacuity of C92: two black holes of 1e31 kg (five solar masses), 1e10 m apart, are classed as stationary for a year,
and their SNRs with 2 and with 1000 steps are both within 8.7% of the stationary one. -/
example (env : psd.Env) : ∃ s : EvolSrc, ∃ x x' x'' : ℝ,
    let C : Ctx := { K := .codata2018, env := env, kw := { approximate_R := true }, t_obs := psd.yr }
    EvolPhys s ∧ snr_circ_stationary C [⟨chirp_mass s.m_1 s.m_2, s.f_orb_i, s.dist, {}⟩] = .ok [some x] ∧
      snr_circ_evolving C [s] 2 none = .ok [some x'] ∧ snr_circ_evolving C [s] 1000 none = .ok [some x''] ∧
      WithinFactor 1.087 x' x ∧ WithinFactor 1.087 x'' x := by
  obtain ⟨s, stat, hs, hlow, hhigh, hm, hstat, h0⟩ := stationary_example
  have key : ∀ n, 2 ≤ n → _ := fun n hn => C92_lisa .codata2018 rfl env hs (t_obs := psd.yr)
    (by unfold psd.yr; norm_num) (tol := 0.01) (by norm_num) le_rfl hlow hhigh hm hstat h0 (n := n) hn
  obtain ⟨x, x', hx, hx', -, -, hw⟩ := key 2 le_rfl
  obtain ⟨y, x'', hy, hx'', -, -, hw'⟩ := key 1000 (by norm_num)
  have : y = x := by simpa using hy.symm.trans hx
  subst this
  exact ⟨s, y, x', x'', hs, hx, hx', hx'', hw, hw'⟩

end Legwork.Props
