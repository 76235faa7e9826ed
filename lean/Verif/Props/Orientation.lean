import Verif.Lemmas.SnrChanged
import Verif.Lemmas.ResponseAverage
import Verif.Props.Response
import Verif.Props.SourceRepeat
import Verif.Props.SnrStationary
import Verif.Props.StationarySnr
import Verif.Spec.Orientation

/-!
# What a sky position does to SNRs (C97, and the exact range of the modulation for C09)
-/

namespace Legwork.Props

open Real Legwork.source Legwork.Spec Legwork.snr Legwork.strain Legwork.utils
open PyM hiding bind

/-! ### The range of the modulation -/

theorem quad_form_ge {A B C c s l : ℝ} (hA : l ≤ A) (hB : l ≤ B) (hAB : C ^ 2 ≤ (A - l) * (B - l))
    (hcs : c ^ 2 + s ^ 2 = 1) : l ≤ A * c ^ 2 + 2 * C * (c * s) + B * s ^ 2 := by
  have hA' : 0 ≤ A - l := by linarith
  rcases hA'.eq_or_lt with h0 | hpos
  · have hC : C = 0 := by
      rw [← h0, zero_mul] at hAB
      exact pow_eq_zero_iff (two_ne_zero) |>.1 (le_antisymm hAB (sq_nonneg C))
    rw [hC]
    have : A = l := by linarith
    subst this
    have e : A * (c ^ 2 + s ^ 2) = A := by rw [hcs, mul_one]
    have := mul_nonneg (sub_nonneg.2 hB) (sq_nonneg s)
    linarith
  · have key : 0 ≤ (A - l) * ((A - l) * c ^ 2 + 2 * C * (c * s) + (B - l) * s ^ 2) := by
      have : (A - l) * ((A - l) * c ^ 2 + 2 * C * (c * s) + (B - l) * s ^ 2) =
          ((A - l) * c + C * s) ^ 2 + ((A - l) * (B - l) - C ^ 2) * s ^ 2 := by ring
      rw [this]
      have := mul_nonneg (sub_nonneg.2 hAB) (sq_nonneg s)
      nlinarith [sq_nonneg ((A - l) * c + C * s)]
    have := nonneg_of_mul_nonneg_right key hpos
    have e : l * (c ^ 2 + s ^ 2) = l := by rw [hcs, mul_one]
    linarith

theorem D_plus_ge (θ φ : ℝ) : 3 / 512 ≤ D_plus_squared θ φ := by
  rw [D_plus_poly]
  have hx0 := sq_nonneg (cos θ)
  have hx1 := cos_sq_le θ
  have hy0 := sq_nonneg (sin (2 * φ))
  have hy1 := sin_sq_le (2 * φ)
  generalize cos θ ^ 2 = x at *
  generalize sin (2 * φ) ^ 2 = y at *
  have h1 : 0 ≤ (1 - y) * (1 + x) ^ 2 := mul_nonneg (by linarith) (sq_nonneg _)
  have h2 : 0 ≤ (1 - x) * (321 + 155 * x) := mul_nonneg (by linarith) (by linarith)
  nlinarith

theorem D_cross_ge (θ φ : ℝ) : 3 / 512 ≤ D_cross_squared θ φ := by
  rw [D_cross_poly]
  have hx0 := sq_nonneg (cos θ)
  have hx1 := cos_sq_le θ
  have hy0 := sq_nonneg (sin (2 * φ))
  generalize cos θ ^ 2 = x at *
  generalize sin (2 * φ) ^ 2 = y at *
  have h1 : 0 ≤ y * x := mul_nonneg hy0 hx0
  nlinarith

theorem D_gap_ge (θ φ : ℝ) :
    D_plus_D_cross θ φ ^ 2 ≤ (D_plus_squared θ φ - 3 / 512) * (D_cross_squared θ φ - 3 / 512) := by
  rw [D_plus_D_cross_sq, D_plus_poly, D_cross_poly]
  have hx0 := sq_nonneg (cos θ)
  have hx1 := cos_sq_le θ
  have hy0 := sq_nonneg (sin (2 * φ))
  have hy1 := sin_sq_le (2 * φ)
  generalize cos θ ^ 2 = x at *
  generalize sin (2 * φ) ^ 2 = y at *
  have h1 : 0 ≤ (1 - x) * (162 * x * y * (321 + 155 * x) +
      119 * ((1 - x) * (321 + 155 * x) + 162 * (1 - y) * (1 + x) ^ 2)) := by
    have a : 0 ≤ 1 - x := by linarith
    have b : 0 ≤ 1 - y := by linarith
    positivity
  nlinarith

theorem F_ge (θ φ ψ : ℝ) : 3 / 2048 ≤ F_plus_squared θ φ ψ ∧ 3 / 2048 ≤ F_cross_squared θ φ ψ := by
  have hcs : cos (2 * ψ) ^ 2 + sin (2 * ψ) ^ 2 = 1 := by rw [add_comm]; exact sin_sq_add_cos_sq _
  have h1 := quad_form_ge (C := -D_plus_D_cross θ φ) (D_plus_ge θ φ) (D_cross_ge θ φ)
    (by rw [neg_sq]; exact D_gap_ge θ φ) hcs
  have h2 := quad_form_ge (C := D_plus_D_cross θ φ) (D_cross_ge θ φ) (D_plus_ge θ φ)
    (by rw [mul_comm]; exact D_gap_ge θ φ) hcs
  rw [F_plus_quadratic, F_cross_quadratic]
  constructor <;> linarith

/-- **C09** (exact range). The modulation of every orientation is between 15/32768 and 14505/32768, and both values are
taken: the smallest for a source at an ecliptic pole seen edge on, the largest for one in the ecliptic seen face on. -/
theorem C09_modulation_range :
    (∀ lat lon pol inc : ℝ, ∃ a, amplitude_modulation ⟨some (lat, lon), some pol, some inc⟩ = .ok a ∧
      15 / 32768 ≤ a ∧ a ≤ 14505 / 32768) ∧
    amplitude_modulation ⟨some (π / 2, 0), some (π / 4), some (π / 2)⟩ = .ok (15 / 32768) ∧
    amplitude_modulation ⟨some (0, 0), some 0, some 0⟩ = .ok (14505 / 32768) := by
  refine ⟨fun lat lon pol inc => ⟨_, rfl, ?_, ?_⟩, ?_, ?_⟩
  · unfold amplitude_modulation_val
    simp only
    obtain ⟨h1, h2⟩ := F_ge (π / 2 - lat) lon pol
    have hc0 := sq_nonneg (cos inc)
    generalize F_plus_squared (π / 2 - lat) lon pol = P at *
    generalize F_cross_squared (π / 2 - lat) lon pol = Q at *
    generalize cos inc ^ 2 = x at *
    have h3 : 0 ≤ x * Q := mul_nonneg hc0 (by linarith)
    have h4 : (3 / 2048 : ℝ) ≤ (1 + x) ^ 2 * P := by nlinarith
    nlinarith
  · unfold amplitude_modulation_val
    simp only
    have hP := F_plus_pos (π / 2 - lat) lon pol
    have hC := F_cross_pos (π / 2 - lat) lon pol
    have hsum := F_sum (π / 2 - lat) lon pol
    have hle := D_sum_le (π / 2 - lat) lon
    have hc0 := sq_nonneg (cos inc)
    have hc1 := cos_sq_le inc
    generalize F_plus_squared (π / 2 - lat) lon pol = P at *
    generalize F_cross_squared (π / 2 - lat) lon pol = Q at *
    generalize cos inc ^ 2 = x at *
    have h3 : x * Q ≤ Q := by nlinarith
    have h4 : ((1 + x) / 2) ^ 2 * P ≤ P := by
      have : ((1 + x) / 2) ^ 2 ≤ 1 := by nlinarith
      nlinarith
    nlinarith
  · simp only [amplitude_modulation, amplitude_modulation_val, Except.ok.injEq]
    rw [F_plus_quadratic, F_cross_quadratic, D_plus_poly, D_cross_poly]
    simp only [cos_pi_div_two, sub_self, cos_zero, show 2 * (π / 4) = π / 2 by ring, sin_pi_div_two, mul_zero, sin_zero]
    norm_num
  · simp only [amplitude_modulation, amplitude_modulation_val, Except.ok.injEq]
    rw [F_plus_quadratic, F_cross_quadratic, D_plus_poly, D_cross_poly]
    simp only [cos_pi_div_two, sub_zero, cos_zero, sin_zero, mul_zero]
    norm_num

/-! ### One source -/

/-- The square of a modulated SNR. -/
theorem circ_oriented {C : Ctx} {s : CircSrc} {p : ℝ × ℝ} {pol inc : ℝ} {v : Option ℝ}
    (hv : snr_circ_stationary C [{ s with orient := ⟨some p, some pol, some inc⟩ }] = .ok [v]) :
    ∃ u, snr_circ_stationary C [{ s with orient := {} }] = .ok [u] ∧ ∃ A, amplitude_modulation ⟨some p, some pol, some inc⟩ = .ok A ∧
      0 < A ∧ v = u.map (A ^ (1 / 2 : ℝ) * ·) := by
  obtain ⟨A, hA, hA0, -⟩ := C09_modulation_bounds p.1 p.2 pol inc
  rw [snr_circ_stationary_iff, mapM_one] at hv
  obtain ⟨w, hw, hv⟩ := except_bind_ok.1 hv
  cases hv
  unfold circ1 at hw
  obtain ⟨m, hm, hw⟩ := except_bind_ok.1 hw
  obtain ⟨N, hN, hw⟩ := except_bind_ok.1 hw
  cases hw
  have hmA : m = A ^ (1 / 2 : ℝ) := by
    have hm' : (amplitude_modulation ⟨some (p.1, p.2), some pol, some inc⟩).map (fun x => x ^ (0.5 : ℝ)) = .ok m := hm
    rw [hA] at hm'
    cases hm'
    norm_num
  refine ⟨sqrt? (divNoise ((1 * h_0_val C.K C.interpolated_g s.m_c s.dist s.f_orb 0 2) ^ 2 * C.t_obs) N), ?_, A, hA, hA0, ?_⟩
  · rw [snr_circ_stationary_iff, mapM_one]
    unfold circ1
    rw [modulation_none, ok_bind, hN, ok_bind]
    rfl
  · have hm2 : m ^ 2 = A := by
      rw [hmA, ← rpow_natCast, ← rpow_mul hA0.le]
      norm_num
    have hmpos : 0 < m := by rw [hmA]; positivity
    rw [← hmA]
    have e : divNoise ((m * h_0_val C.K C.interpolated_g s.m_c s.dist s.f_orb 0 2) ^ 2 * C.t_obs) N =
        m ^ 2 * divNoise ((1 * h_0_val C.K C.interpolated_g s.m_c s.dist s.f_orb 0 2) ^ 2 * C.t_obs) N := by
      rw [← divNoise_mul]
      congr 1
      ring
    rw [e]
    exact sqrt?_scale hmpos

theorem circ_orient_ok {C : Ctx} {s : CircSrc} {y : Option ℝ} {p : ℝ × ℝ} {pol inc : ℝ}
    (hy : snr_circ_stationary C [{ s with orient := {} }] = .ok [y]) :
    ∃ v, snr_circ_stationary C [{ s with orient := ⟨some p, some pol, some inc⟩ }] = .ok [v] := by
  rw [snr_circ_stationary_iff, mapM_one] at hy
  obtain ⟨w, hw, -⟩ := except_bind_ok.1 hy
  unfold circ1 at hw
  obtain ⟨m, -, hw⟩ := except_bind_ok.1 hw
  obtain ⟨N, hN, -⟩ := except_bind_ok.1 hw
  obtain ⟨A, hA, -⟩ := C09_modulation_bounds p.1 p.2 pol inc
  have hm : modulation ⟨some p, some pol, some inc⟩ = .ok (A ^ (0.5 : ℝ)) := by
    have e : modulation ⟨some p, some pol, some inc⟩ =
        (amplitude_modulation ⟨some p, some pol, some inc⟩).map (fun x => x ^ (0.5 : ℝ)) := rfl
    rw [e, hA]
    rfl
  refine ⟨sqrt? (divNoise ((A ^ (0.5 : ℝ) * h_0_val C.K C.interpolated_g s.m_c s.dist s.f_orb 0 2) ^ 2 * C.t_obs) N), ?_⟩
  rw [snr_circ_stationary_iff, mapM_one]
  unfold circ1
  rw [hm, ok_bind, hN, ok_bind]
  rfl

/-- **C97** (average). For a circular stationary source the mean square of the SNR over all orientations (sky position,
polarisation and inclination, all isotropic) is 3/20 of the square of the SNR without orientation. -/
theorem C97_average {C : Ctx} (s : CircSrc) {y : ℝ} (hy : snr_circ_stationary C [{ s with orient := {} }] = .ok [some y]) :
    ∃ q : ℝ → ℝ → ℝ → ℝ → ℝ, (∀ θ φ ψ ι, snr_circ_stationary C
      [{ s with orient := ⟨some (π / 2 - θ, φ), some ψ, some ι⟩ }] = .ok [some (q θ φ ψ ι)]) ∧
      inclinationAverage (fun ι => skyAverage fun θ φ ψ => q θ φ ψ ι ^ 2) = 3 / 20 * y ^ 2 := by
  have hok := fun θ φ ψ ι => circ_orient_ok (p := (π / 2 - θ, φ)) (pol := ψ) (inc := ι) hy
  have key : ∀ θ φ ψ ι : ℝ, ∃ x : ℝ, snr_circ_stationary C
      [{ s with orient := ⟨some (π / 2 - θ, φ), some ψ, some ι⟩ }] = .ok [some x] ∧
      x ^ 2 = y ^ 2 * (5 / 4) * (((1 + cos ι ^ 2) / 2) ^ 2 * F_plus_squared θ φ ψ + cos ι ^ 2 * F_cross_squared θ φ ψ) := by
    intro θ φ ψ ι
    obtain ⟨v, hv⟩ := hok θ φ ψ ι
    obtain ⟨u, hu, A, hA, hA0, rfl⟩ := circ_oriented hv
    rw [hy] at hu
    cases hu
    refine ⟨_, hv, ?_⟩
    have e : (A ^ (1 / 2 : ℝ)) ^ 2 = A := by
      rw [← rpow_natCast, ← rpow_mul hA0.le]
      norm_num
    simp only [amplitude_modulation, amplitude_modulation_val, Except.ok.injEq, sub_sub_cancel] at hA
    rw [mul_pow, e, ← hA]
    ring
  choose q hq hq2 using key
  refine ⟨q, hq, ?_⟩
  have h1 : ∀ ι, (skyAverage fun θ φ ψ => q θ φ ψ ι ^ 2) = y ^ 2 * (5 / 4) * skyAverage fun θ φ ψ =>
      ((1 + cos ι ^ 2) / 2) ^ 2 * F_plus_squared θ φ ψ + cos ι ^ 2 * F_cross_squared θ φ ψ := by
    intro ι
    unfold skyAverage
    simp only [hq2, mul_assoc (y ^ 2 * (5 / 4)), intervalIntegral.integral_const_mul]
    ring
  have h2 := C10_full_average
  unfold inclinationAverage at h2 ⊢
  simp only [h1, mul_assoc (y ^ 2 * (5 / 4)), intervalIntegral.integral_const_mul] at h2 ⊢
  rw [mul_left_comm, h2]
  ring

/-! ### Through `get_snr` -/

/-- Sources with and without orientation. -/
def Unorients (x y : One) : Prop := y = { x with position := none, inclination := none, polarisation := none }

theorem unoriented_rows (c : Cols) : List.Forall₂ Unorients (rows c) (rows (unoriented c)) := by
  have hn : (unoriented c).n_sources = c.n_sources := rfl
  unfold rows
  rw [hn, List.forall₂_map_left_iff, List.forall₂_map_right_iff, List.forall₂_same]
  exact fun i _ => rfl

theorem unoriented_rect {c : Cols} (hr : Rect c) : Rect (unoriented c) :=
  ⟨hr.m_2, hr.dist, hr.f_orb, hr.ecc, hr.merged, hr.weights, fun _ h => (by cases h), fun _ h => (by cases h),
    fun _ h => (by cases h), hr.t_merge, fun h => (by cases h)⟩

/-- What taking away the orientation does to the SNR of one source. -/
def OrientationEffect (W : World) (stat_tol : ℝ) (C : Ctx) (S : Settings) (x _y : One) (v v' : Option ℝ × ℕ) : Prop :=
  v'.2 = v.2 ∧ (¬ (x.ecc ≤ S.ecc_tol ∧ x.StationaryOver W.K C.t_obs stat_tol) ∨ x.position = none → v'.1 = v.1) ∧
  (x.ecc ≤ S.ecc_tol → x.StationaryOver W.K C.t_obs stat_tol → ∀ p, x.position = some p →
    ∃ A, amplitude_modulation ⟨some (p.2, p.1), x.polarisation, x.inclination⟩ = .ok A ∧
      v.1 = v'.1.map (A ^ (1 / 2 : ℝ) * ·))

/-- A source treated as stationary. -/
theorem stat_unoriented {C : Ctx} {S : Settings} {x y : One} {v : Option ℝ × ℕ}
    (hxy : Unorients x y) (hv : statOne C S x = .ok v) :
    ∃ v', statOne C S y = .ok v' ∧ v'.2 = v.2 ∧ (¬ x.ecc ≤ S.ecc_tol ∨ x.position = none → v'.1 = v.1) ∧
      (x.ecc ≤ S.ecc_tol → ∀ p, x.position = some p →
        ∃ A, amplitude_modulation ⟨some (p.2, p.1), x.polarisation, x.inclination⟩ = .ok A ∧
          v.1 = v'.1.map (A ^ (1 / 2 : ℝ) * ·)) := by
  subst hxy
  set y : One := { x with position := none, inclination := none, polarisation := none } with hy
  by_cases he : x.ecc ≤ S.ecc_tol
  · have hx : statOne C S x = (circ1 C x.circ >>= fun v => pure (v, 2)) := if_pos he
    have hy' : statOne C S y = (circ1 C y.circ >>= fun v => pure (v, 2)) := if_pos he
    rw [hx] at hv
    rw [hy']
    obtain ⟨w, hw, hv⟩ := except_bind_ok.1 hv
    cases hv
    by_cases hp : x.position = none
    · have e : y.circ = x.circ := by
        unfold One.circ One.orient
        rw [hp]
        rfl
      exact ⟨(w, 2), by rw [e, hw]; rfl, rfl, fun _ => rfl, fun _ p h => by rw [hp] at h; cases h⟩
    · obtain ⟨p, hp⟩ := Option.ne_none_iff_exists'.1 hp
      have hor : x.circ.orient = ⟨some (p.2, p.1), x.polarisation, x.inclination⟩ := by
        unfold One.circ One.orient
        rw [hp]
      have hci : x.circ = { x.circ with orient := ⟨some (p.2, p.1), x.polarisation, x.inclination⟩ } := by rw [← hor]
      have hangles : ∃ pol inc, x.polarisation = some pol ∧ x.inclination = some inc := by
        unfold circ1 at hw
        obtain ⟨m, hm, -⟩ := except_bind_ok.1 hw
        rw [hor] at hm
        rcases hpo : x.polarisation with _ | pol <;> rcases hin : x.inclination with _ | inc <;>
          first
          | exact ⟨_, _, rfl, rfl⟩
          | (rw [hpo, hin] at hm; cases hm)
      obtain ⟨pol, inc, hpo, hin⟩ := hangles
      rw [hpo, hin] at hci
      have hone : snr_circ_stationary C [{ x.circ with orient := ⟨some (p.2, p.1), some pol, some inc⟩ }] = .ok [w] := by
        rw [← hci, snr_circ_stationary_iff, mapM_one, hw]
        rfl
      obtain ⟨u, hu, A, hA, -, hwu⟩ := circ_oriented hone
      have hu' : circ1 C y.circ = .ok u := by
        have : y.circ = { x.circ with orient := {} } := rfl
        rw [this]
        rw [snr_circ_stationary_iff, mapM_one] at hu
        obtain ⟨z, hz, hu⟩ := except_bind_ok.1 hu
        cases hu
        exact hz
      refine ⟨(u, 2), by rw [hu']; rfl, rfl, fun h => ?_, fun _ p' hp' => ?_⟩
      · rcases h with h | h
        · exact absurd he h
        · rw [hp] at h; cases h
      · rw [hp] at hp'
        cases hp'
        exact ⟨A, by rw [hpo, hin]; exact hA, hwu⟩
  · have e : statOne C S y = statOne C S x := (if_neg he).trans (if_neg he).symm
    exact ⟨v, by rw [e, hv], rfl, fun _ => rfl, fun h => absurd h he⟩

/-- A source treated as evolving. -/
theorem evol_unoriented {W : World} {C : Ctx} {S : Settings} {n : ℕ} {x y : One} (hxy : Unorients x y) :
    evolOne W C S n y = evolOne W C S n x := by
  subst hxy
  rfl

theorem full_unoriented {W : World} {C : Ctx} {S : Settings} {stat_tol : ℝ} {n : ℕ} {x y : One} {v : Option ℝ × ℕ}
    (hxy : Unorients x y) (hv : fullOne W C S stat_tol n x = .ok v) :
    ∃ v', fullOne W C S stat_tol n y = .ok v' ∧ OrientationEffect W stat_tol C S x y v v' := by
  have hst : stat1 W.K C.t_obs stat_tol y = stat1 W.K C.t_obs stat_tol x := by
    rw [hxy]
    rfl
  unfold fullOne at hv ⊢
  rw [hst]
  by_cases hs : stat1 W.K C.t_obs stat_tol x = true
  · have hso : x.StationaryOver W.K C.t_obs stat_tol := by unfold stat1 at hs; simpa using hs
    rw [if_pos hs] at hv ⊢
    obtain ⟨v', hv', h1, h2, h3⟩ := stat_unoriented hxy hv
    exact ⟨v', hv', h1, fun h => h2 (by tauto), fun he _ => h3 he⟩
  · have hso : ¬ x.StationaryOver W.K C.t_obs stat_tol := by unfold stat1 at hs; simpa using hs
    rw [if_neg hs] at hv ⊢
    exact ⟨v, by rw [evol_unoriented hxy, hv], rfl, fun _ => rfl, fun _ h => absurd h hso⟩

/-- **C97.** Call `get_snr` on a plain `Source`, and on the same object without sky positions, inclinations and
polarisations. The second call succeeds too. The SNRs are the same for every source that is eccentric or evolving, has
merged or is not selected; for each circular stationary source with a position, the SNR is the square root of
`strain.amplitude_modulation` times the one without. The strongest harmonics are the same. -/
theorem C97_get_snr {W : World} {ok : Heap → Op → Prop} {s n r : ℕ} {h h' : Heap} {a : SnrArgs} {ws : Option (List Bool)}
    (hreach : Reachable W ok h) (hcls : (h.src s).cls = .Source ∨ (h.src s).cls = .VerificationBinaries) (hn : n ≠ 0)
    (hs : CompleteSchedule W (h.src s)) (hr : Rect (h.src s).cols) (hw : FitsMask (h.src s).cols ws)
    (hrun : get_snr W s a n ws h = (.ok r, h')) :
    ∃ r' k', get_snr W s a n ws (forgetOrientation h s) = (.ok r', k') ∧
      ∀ i x, (rows (h.src s).cols)[i]? = some x → ∃ v u, (h'.snrs r)[i]? = some v ∧ (k'.snrs r')[i]? = some u ∧
        (storedHarm k' s)[i]? = (storedHarm h' s)[i]? ∧
        (x.merged = true ∨ ¬ Chosen ws i ∨ x.position = none → u = v) ∧
        (x.merged = false → Chosen ws i → ∃ C tol, CallCtx W h' s C ∧ (h'.src s).ecc_tol = some tol ∧
          (¬ (x.ecc ≤ tol ∧ x.StationaryOver W.K C.t_obs (h.src s).stat_tol) → u = v) ∧
          (x.ecc ≤ tol → x.StationaryOver W.K C.t_obs (h.src s).stat_tol → ∀ p, x.position = some p →
            ∃ A, amplitude_modulation ⟨some (p.2, p.1), x.polarisation, x.inclination⟩ = .ok A ∧
              v = u.map (A ^ (1 / 2 : ℝ) * ·))) := by
  have hinv : Inv W false h := Reachable.inv hreach
  have hP := changed_of_cols hinv (unoriented_rows (h.src s).cols)
  have hk : ((forgetOrientation h s).src s) = { h.src s with cols := unoriented (h.src s).cols } := by
    simp [forgetOrientation]
  have hrun' : Source_get_snr W s a n ws h = (.ok r, h') := by
    rw [get_snr_run] at hrun
    rcases hcls with hc | hc <;> · rw [hc] at hrun; exact hrun
  obtain ⟨r', k', hkrun, hrel⟩ := hP.full (W := W) (R := OrientationEffect W (h.src s).stat_tol)
    (fun x y hxy => by rw [hxy]) hn hs hr (by show Rect ((forgetOrientation h s).src s).cols; rw [hk]; exact unoriented_rect hr)
    hw (fun C S x y v hxy hv => full_unoriented hxy hv) hrun'
  refine ⟨r', k', ?_, fun i x hx => ?_⟩
  · rw [get_snr_run, hk]
    rcases hcls with hc | hc <;> · rw [hc]; exact hkrun
  obtain ⟨y, -, -, v, u, hv, hu, hdead, hlive⟩ := hrel i x hx
  refine ⟨v, u, hv, hu, ?_, ?_, ?_⟩
  · by_cases hd : x.merged = true ∨ ¬ Chosen ws i
    · exact (hdead hd).2.2
    · push Not at hd
      obtain ⟨m, l, C, S, hm, hl, -, -, -, hR⟩ := hlive (by simpa using hd.1) hd.2
      change (harmNow k' s)[i]? = (harmNow h' s)[i]?
      rw [hm, hl]
      exact congrArg some hR.1
  · intro hd
    by_cases hd' : x.merged = true ∨ ¬ Chosen ws i
    · rw [(hdead hd').1, (hdead hd').2.1]
    · have hp : x.position = none := by tauto
      push Not at hd'
      obtain ⟨m, l, C, S, -, -, -, -, -, hR⟩ := hlive (by simpa using hd'.1) hd'.2
      exact hR.2.1 (Or.inr hp)
  · intro h1 h2
    obtain ⟨m, l, C, S, -, -, hC, -, hS, hR⟩ := hlive h1 h2
    exact ⟨C, S.ecc_tol, hC, hS.1, fun hne => hR.2.1 (Or.inl hne), hR.2.2⟩

theorem oriented_less {C : Ctx} {s : CircSrc} {y x' : ℝ} {p : ℝ × ℝ} {pol inc : ℝ} (hy0 : 0 ≤ y) (hw : y ≤ 1.087 * x')
    (hy : snr_circ_stationary C [{ s with orient := {} }] = .ok [some y]) :
    ∃ x, snr_circ_stationary C [{ s with orient := ⟨some p, some pol, some inc⟩ }] = .ok [some x] ∧ 0 ≤ x ∧ x ≤ 0.724 * x' := by
  obtain ⟨v, hv⟩ := circ_orient_ok (p := p) (pol := pol) (inc := inc) hy
  obtain ⟨u, hu, A, hA, hA0, rfl⟩ := circ_oriented hv
  rw [hy] at hu
  cases hu
  have hA1 : A ≤ 14505 / 32768 := by
    obtain ⟨a, ha, -, h1⟩ := C09_modulation_range.1 p.1 p.2 pol inc
    rw [hA] at ha
    cases ha
    exact h1
  have hr0 : 0 ≤ A ^ (1 / 2 : ℝ) := by positivity
  have hr : A ^ (1 / 2 : ℝ) ≤ 0.66535 := by
    rw [← Real.sqrt_eq_rpow]
    exact Real.sqrt_le_iff.2 ⟨by norm_num, hA1.trans (by norm_num)⟩
  refine ⟨_, hv, mul_nonneg hr0 hy0, ?_⟩
  calc A ^ (1 / 2 : ℝ) * y ≤ 0.66535 * (1.087 * x') := mul_le_mul hr hw hy0 (by norm_num)
    _ ≤ 0.724 * x' := by linarith

/-- **C97** (LISA). Under the conditions of `C92_lisa` the two SNRs of a source without orientation differ by less than
8.7%. With a position, inclination and polarisation, whichever they are, the SNR as a stationary source is less than
0.724 of the one as an evolving source. -/
theorem C97_lisa (K : Consts) (hc : K.c = 299792458) (env : psd.Env) {s : EvolSrc} (hs : EvolPhys s) {t_obs : ℝ}
    (ht : 0.25 * psd.yr ≤ t_obs) {tol : ℝ} (htol : 0 ≤ tol) (htol' : tol ≤ 0.01) (hlow : 1e-7 ≤ 2 * s.f_orb_i)
    (hhigh : 2 * (s.f_orb_i * (1 + tol)) ≤ 2) (hm : 3.375e-6 * K.c ^ 3 ≤ K.G * chirp_mass s.m_1 s.m_2)
    {stat : Fin 1 → Prop}
    (hstat : evol.determine_stationarity K (fun _ => s.f_orb_i) t_obs (fun _ => 0) (some fun _ => s.m_1)
      (some fun _ => s.m_2) none tol = .ok stat) (h0 : stat 0) {n : ℕ} (hn : 2 ≤ n) (p : ℝ × ℝ) (pol inc : ℝ) :
    let C : Ctx := { K := K, env := env, kw := { approximate_R := true }, t_obs := t_obs }
    ∃ x x' : ℝ, snr_circ_stationary C [⟨chirp_mass s.m_1 s.m_2, s.f_orb_i, s.dist, ⟨some p, some pol, some inc⟩⟩] = .ok [some x] ∧
      snr_circ_evolving C [s] n none = .ok [some x'] ∧ 0 ≤ x ∧ x ≤ 0.724 * x' := by
  intro C
  obtain ⟨y, x', hy, hx', hy0, hx0, hw⟩ := C92_lisa K hc env hs ht htol htol' hlow hhigh hm hstat h0 hn
  obtain ⟨x, hx, hx1, hx2⟩ := oriented_less (C := C) (s := ⟨chirp_mass s.m_1 s.m_2, s.f_orb_i, s.dist, {}⟩) (p := p) (pol := pol)
    (inc := inc) hy0 hw.2 hy
  exact ⟨x, x', hx, hx', hx1, hx2⟩

/-- Non-vacuity of `C97_lisa` and `C97_average`: two black holes of five solar masses, classed as stationary for a year, in
the ecliptic and seen face on. -/
example (env : psd.Env) : ∃ (s : EvolSrc) (x x' y : ℝ) (q : ℝ → ℝ → ℝ → ℝ → ℝ),
    let C : Ctx := { K := .codata2018, env := env, kw := { approximate_R := true }, t_obs := psd.yr }
    EvolPhys s ∧ snr_circ_stationary C [⟨chirp_mass s.m_1 s.m_2, s.f_orb_i, s.dist, ⟨some (0, 0), some 0, some 0⟩⟩] = .ok [some x] ∧
      snr_circ_evolving C [s] 100 none = .ok [some x'] ∧ x ≤ 0.724 * x' ∧
      snr_circ_stationary C [⟨chirp_mass s.m_1 s.m_2, s.f_orb_i, s.dist, {}⟩] = .ok [some y] ∧
      inclinationAverage (fun ι => skyAverage fun θ φ ψ => q θ φ ψ ι ^ 2) = 3 / 20 * y ^ 2 := by
  obtain ⟨s, stat, hs, hlow, hhigh, hm, hstat, h0⟩ := stationary_example
  obtain ⟨x, x', hx, hx', -, hle⟩ := C97_lisa .codata2018 rfl env hs (t_obs := psd.yr)
    (by unfold psd.yr; norm_num) (tol := 0.01) (by norm_num) le_rfl hlow hhigh hm hstat h0 (n := 100) (by norm_num) (0, 0) 0 0
  obtain ⟨y, -, hy, -⟩ := C92_lisa .codata2018 rfl env hs (t_obs := psd.yr)
    (by unfold psd.yr; norm_num) (tol := 0.01) (by norm_num) le_rfl hlow hhigh hm hstat h0 (n := 100) (by norm_num)
  obtain ⟨q, -, hq⟩ := C97_average ⟨chirp_mass s.m_1 s.m_2, s.f_orb_i, s.dist, {}⟩ hy
  exact ⟨s, x, x', y, q, hs, hx, hx', hle, hy, hq⟩

/-- `AutoReady` when other columns of the same size are assigned. -/
theorem AutoReady.withCols {W : World} {h : Heap} {s : ℕ} (hh : AutoReady W h s) {c : Cols} (hc : Rect c)
    (hn : c.n_sources = (h.src s).cols.n_sources) : AutoReady W (h.setSrc s { h.src s with cols := c }) s := by
  have e : (h.setSrc s { h.src s with cols := c }).src s = { h.src s with cols := c } := Function.update_self ..
  obtain ⟨-, ⟨b1, b2, b3⟩, ⟨p, i, T, cu, h1, h2, h3⟩, h4, h5⟩ := hh
  refine ⟨by rw [e]; exact hc, by rw [e]; exact ⟨b1, b2, b3⟩, ⟨p, i, T, cu, by rw [e]; exact h1, h2, by rw [e]; exact h3⟩, ?_, ?_⟩
  · revert h4
    unfold storedSnr
    rw [e]
    simp only
    split
    · exact fun h4 => h4.trans hn.symm
    · exact fun _ => List.length_replicate ..
  · revert h5
    unfold storedHarm
    rw [e]
    simp only
    split
    · exact fun h5 => h5.trans hn.symm
    · exact fun _ => List.length_replicate ..

/-- The columns of the example with orientations. -/
noncomputable def orientedCols : Cols :=
  { Example.cols with ecc := [0, 0], position := some [(0, 0), (1, 1)], inclination := some [0, 1], polarisation := some [0, 1] }

/-- Non-vacuity of `C97_get_snr`: an object for LISA whose two circular sources were given a position, an inclination
and a polarisation; the SNR of the first as a stationary source is modulated. -/
example : ∃ (W : World) (h h' : Heap) (r : ℕ) (x : One), Reachable W AnyCall h ∧ (h.src 0).cls = .Source ∧
    CompleteSchedule W (h.src 0) ∧ Rect (h.src 0).cols ∧ get_snr W 0 {} 100 none h = (.ok r, h') ∧
    (rows (h.src 0).cols)[0]? = some x ∧ x.merged = false ∧ x.position = some (0, 0) ∧
    x.inclination = some 0 ∧ x.polarisation = some 0 := by
  obtain ⟨h, hreach, hready, hcls, hsch, hcols, hp, hd, hint, hstat, hetol⟩ := lisa_object
  obtain ⟨k, hk⟩ : ∃ k, k = h.setSrc 0 { h.src 0 with cols := orientedCols } := ⟨_, rfl⟩
  have e : k.src 0 = { h.src 0 with cols := orientedCols } := by rw [hk]; exact Function.update_self (0 : ℕ) _ h.src
  have hrect : Rect orientedCols := by constructor <;> simp [orientedCols, Example.cols, Cols.n_sources]
  have hready' : AutoReady Example.world k 0 := hk ▸ hready.withCols hrect (by rw [hcols]; rfl)
  have hreach' : Reachable Example.world AnyCall k := by
    have := Reachable.call (.setCols 0 orientedCols) hreach trivial
    rw [hk]
    exact this
  have hsch' : CompleteSchedule Example.world (k.src 0) := by rw [e]; exact hsch
  have hno : FitsMask (k.src 0).cols none := fun m hm => by cases hm
  obtain ⟨r, h', hrun⟩ := C51_succeeds_auto (n := 100) (ws := none) (by norm_num) hsch' hno hready'
  exact ⟨_, k, h', r, rowAt orientedCols 0, hreach', by rw [e]; exact hcls, hsch', hready'.rect, hrun, by rw [e]; rfl, rfl, rfl, rfl, rfl⟩

end Legwork.Props
