import Verif.Lemmas.ResponseAverage
import Verif.Lemmas.Strain
import Verif.Spec.Strain
import Verif.Spec.Response

/-!
# Orientation properties: C09, C10
-/

namespace Legwork.Props

open Real Legwork.utils Legwork.strain Legwork.Spec MeasureTheory

/-! ## C09 -/

/-- **C09** (factor). The amplitude modulation of every orientation is positive and below 0.45. -/
theorem C09_modulation_bounds (lat lon pol inc : ℝ) :
    ∃ a, amplitude_modulation ⟨some (lat, lon), some pol, some inc⟩ = .ok a ∧ 0 < a ∧ a < 0.45 := by
  refine ⟨_, rfl, ?_, ?_⟩
  all_goals
    unfold amplitude_modulation_val
    have hP := F_plus_pos (π / 2 - lat) lon pol
    have hC := F_cross_pos (π / 2 - lat) lon pol
    have hsum := F_sum (π / 2 - lat) lon pol
    have hle := D_sum_le (π / 2 - lat) lon
    have hc0 := sq_nonneg (cos inc)
    have hc1 := cos_sq_le inc
    simp only
    generalize F_plus_squared (π / 2 - lat) lon pol = P at *
    generalize F_cross_squared (π / 2 - lat) lon pol = C at *
    generalize cos inc ^ 2 = x at *
  · have : 0 < ((1 + x) / 2) ^ 2 * P := by positivity
    have := mul_nonneg hc0 hC.le
    linarith
  · have h1 : ((1 + x) / 2) ^ 2 * P ≤ 1 * P := by
      apply mul_le_mul_of_nonneg_right _ hP.le; nlinarith
    have h2 : x * C ≤ 1 * C := mul_le_mul_of_nonneg_right hc1 hC.le
    norm_num at *
    linarith

/-- The square root of the modulation, which multiplies the strain, is below 1. -/
theorem modulation_le_one {o : Orientation} {a : ℝ} (h : modulation o = .ok a) : a ≤ 1 := by
  unfold modulation at h
  split_ifs at h with hc
  · obtain ⟨p, q, io⟩ := o
    rcases p with _ | ⟨lat, lon⟩
    · cases q <;> cases io <;> simp [Except.map, amplitude_modulation] at h
    rcases q with _ | pol
    · cases io <;> simp [Except.map, amplitude_modulation] at h
    rcases io with _ | inc
    · simp [Except.map, amplitude_modulation] at h
    obtain ⟨b, hb, hb0, hb1⟩ := C09_modulation_bounds lat lon pol inc
    rw [hb] at h
    simp only [Except.map, Except.ok.injEq] at h
    rw [← h]
    exact rpow_le_one hb0.le (by norm_num at hb1; linarith) (by norm_num)
  · cases h; exact le_rfl

private lemma row_le {val : ℝ → ℝ → ℝ → ℝ → ℤ → ℝ} {n : List ℤ} {rows : List Row}
    (hval : ∀ r ∈ rows, ∀ s ∈ r.steps, ∀ k ∈ n, 0 ≤ val r.m_c r.dist s.1 s.2 k)
    {H A : List (List (List ℝ))} (hH : rows.mapM (row_strain val n) = .ok H)
    (hA : (rows.map fun r => { r with orient := {} }).mapM (row_strain val n) = .ok A) {i j k : ℕ} {x y : ℝ}
    (hx : entry H i j k = some x) (hy : entry A i j k = some y) : x ≤ y := by
  have hF := (mapM_except_ok_iff _ _ _).1 hH
  have hG := (mapM_except_ok_iff _ _ _).1 hA
  unfold entry at hx hy
  rcases hHi : H[i]? with _ | R
  · simp [hHi] at hx
  rcases hAi : A[i]? with _ | S
  · simp [hAi] at hy
  obtain ⟨r, hr⟩ : ∃ r, rows[i]? = some r := by
    have hlt : i < rows.length := by
      rw [hF.length_eq]; by_contra hge; rw [List.getElem?_eq_none (by omega)] at hHi; cases hHi
    exact ⟨rows[i], List.getElem?_eq_getElem hlt⟩
  have h1 := forall2_get? hF hr hHi
  have h2 := forall2_get? hG (a := { r with orient := {} }) (by simp [hr]) hAi
  unfold row_strain at h1 h2
  rw [show modulation ({ r with orient := {} } : Row).orient = .ok 1 from rfl] at h2
  rcases hmod : modulation r.orient with er | a
  · rw [hmod] at h1; simp [bind, Except.bind] at h1
  rw [hmod] at h1
  simp only [bind, Except.bind, pure, Except.pure, Except.ok.injEq] at h1 h2
  rw [hHi, ← h1] at hx
  rw [hAi, ← h2] at hy
  simp only [Option.bind_some, List.getElem?_map] at hx hy
  rcases hs : r.steps[j]? with _ | s
  · simp [hs] at hx
  rcases hk : n[k]? with _ | m
  · simp [hs, hk] at hx
  simp [hs, hk] at hx hy
  rw [← hx, ← hy]
  have h0 := hval r (List.mem_of_getElem? hr) s (List.mem_of_getElem? hs) m (List.mem_of_getElem? hk)
  calc a * _ ≤ 1 * _ := mul_le_mul_of_nonneg_right (modulation_le_one hmod) h0
    _ = _ := one_mul _

/-- **C09** (strain). Giving positions, polarisations and inclinations never raises either strain above the
value for the same sources without them. -/
theorem C09_strain_le_averaged (K : Consts) (ig : Option (ℤ → ℝ → ℝ)) (n : List ℤ) (rows : List Row)
    (hphys : ∀ r ∈ rows, PhysRow r) {H A : List (List (List ℝ))} {i j k : ℕ} {x y : ℝ} :
    (h_0_n K ig n rows = .ok H → h_0_n K ig n (rows.map fun r => { r with orient := {} }) = .ok A →
      entry H i j k = some x → entry A i j k = some y → x ≤ y) ∧
    (h_c_n K ig n rows = .ok H → h_c_n K ig n (rows.map fun r => { r with orient := {} }) = .ok A →
      entry H i j k = some x → entry A i j k = some y → x ≤ y) := by
  refine ⟨fun hH hA hx hy => ?_, fun hH hA hx hy => ?_⟩
  · unfold h_0_n at hH hA
    split_ifs at hH hA with hany
    refine row_le (fun r hr s hs m hm => ?_) hH hA hx hy
    obtain ⟨h1, h2, h3⟩ := hphys r hr
    obtain ⟨h4, h5, h6⟩ := h3 s hs
    refine h_0_val_nonneg K ig h1.le h2.le h4.le h5 h6.le ?_
    by_contra hlt; exact hany (by simpa using ⟨m, hm, by omega⟩)
  · unfold h_c_n at hH hA
    split_ifs at hH hA with hany
    refine row_le (fun r hr s hs m hm => ?_) hH hA hx hy
    obtain ⟨h1, h2, h3⟩ := hphys r hr
    obtain ⟨h4, h5, h6⟩ := h3 s hs
    refine h_c_val_nonneg K ig h1.le h2.le h4.le h5 h6 ?_
    by_contra hlt; exact hany (by simpa using ⟨m, hm, by omega⟩)

/-- Non-vacuity of C09: one oriented source. -/
example : PhysRow ⟨2e30, 3e19, [(1e-3, 0)], ⟨some (0.1, 0.2), some 1, some 0⟩⟩ ∧
    modulation ⟨some (0.1, 0.2), some 1, some 0⟩ = .ok (amplitude_modulation_val 0.1 0.2 1 0 ^ (0.5 : ℝ)) := by
  refine ⟨⟨by norm_num, by norm_num, ?_⟩, rfl⟩
  intro s hs
  simp at hs
  subst hs; norm_num

/-! ## C10 -/

/-- **C10** (sign). Both auto-correlated responses are strictly positive in every direction. -/
theorem C10_pos (θ φ ψ : ℝ) : 0 < F_plus_squared θ φ ψ ∧ 0 < F_cross_squared θ φ ψ :=
  ⟨F_plus_pos θ φ ψ, F_cross_pos θ φ ψ⟩

/-- **C10** (polarisation). The total response does not depend on the polarisation angle, and rotating the
polarisation by 45 degrees exchanges the two responses. -/
theorem C10_polarisation (θ φ ψ ψ' : ℝ) :
    F_plus_squared θ φ ψ + F_cross_squared θ φ ψ = F_plus_squared θ φ ψ' + F_cross_squared θ φ ψ' ∧
    F_plus_squared θ φ (ψ + π / 4) = F_cross_squared θ φ ψ ∧
    F_cross_squared θ φ (ψ + π / 4) = F_plus_squared θ φ ψ := by
  refine ⟨by rw [F_sum, F_sum], ?_, ?_⟩
  all_goals
    rw [F_plus_quadratic, F_cross_quadratic, show 2 * (ψ + π / 4) = 2 * ψ + π / 2 by ring, cos_add_pi_div_two,
      sin_add_pi_div_two]
    ring

/-- **C10** (averages). Averaged over the sky and polarisation each response is 3/20, so together 3/10. -/
theorem C10_sky_average : skyAverage F_plus_squared = 3 / 20 ∧ skyAverage F_cross_squared = 3 / 20 ∧
    skyAverage (fun θ φ ψ => F_plus_squared θ φ ψ + F_cross_squared θ φ ψ) = 3 / 10 :=
  ⟨skyAverage_F_plus, skyAverage_F_cross, skyAverage_F_sum⟩

/-- **C10** (inclination). Weighting the responses by the inclination factors of the two polarisations and
averaging over inclination as well gives 12/100, that is 4/5 of the unweighted mean response 3/20. -/
theorem C10_full_average :
    inclinationAverage (fun ι => skyAverage fun θ φ ψ =>
      ((1 + cos ι ^ 2) / 2) ^ 2 * F_plus_squared θ φ ψ + cos ι ^ 2 * F_cross_squared θ φ ψ) = 12 / 100 := by
  simp only [skyAverage_weighted]
  exact inclinationAverage_weights

end Legwork.Props
