import Verif.Lemmas.Snr
import Mathlib.MeasureTheory.Integral.DominatedConvergence
import Mathlib.MeasureTheory.Integral.IntervalIntegral.FundThmCalculus
import Mathlib.MeasureTheory.Function.Floor

/-!
# The trapezium rule converges

Along a uniform grid in time, `∫ y dx` by the trapezium rule tends to `∫ y(t) x'(t) dt` as the number of steps grows, for
bounded `y` with countably many jumps.
-/

namespace Legwork

open Real MeasureTheory Filter Topology Set Legwork.snr

theorem trapezoid_range (Y X : ℕ → ℝ) (k : ℕ) :
    trapezoid ((List.range (k + 1)).map Y) ((List.range (k + 1)).map X)
      = ∑ i ∈ Finset.range k, (X (i + 1) - X i) * (Y (i + 1) + Y i) / 2 := by
  induction k generalizing X Y with
  | zero => simp [trapezoid]
  | succ k ih =>
    rw [Finset.sum_range_succ', ← ih (fun i => Y (i + 1)) (fun i => X (i + 1))]
    rw [List.range_succ_eq_map, List.map_cons, List.map_cons, List.map_map, List.map_map]
    rw [List.range_succ_eq_map (n := k), List.map_cons, List.map_cons, trapezoid]
    simp only [Function.comp, List.map_cons, List.map_map, Nat.succ_eq_add_one, zero_add]
    rw [add_comm]
    rfl

/-- The mean of `y` at the two grid points around `t`. -/
noncomputable def cell (h : ℝ) (y : ℝ → ℝ) (t : ℝ) : ℝ := (y ((⌊t / h⌋₊ + 1 : ℕ) * h) + y (⌊t / h⌋₊ * h)) / 2

theorem cell_eq {h : ℝ} (hh : 0 < h) (y : ℝ → ℝ) {i : ℕ} {t : ℝ} (ht : t ∈ Ioo (i * h) ((i + 1 : ℕ) * h)) :
    cell h y t = (y ((i + 1 : ℕ) * h) + y (i * h)) / 2 := by
  have : ⌊t / h⌋₊ = i := by
    rw [Nat.floor_eq_iff (div_nonneg ((by positivity : (0 : ℝ) ≤ i * h).trans ht.1.le) hh.le)]
    constructor
    · rw [le_div_iff₀ hh]; exact ht.1.le
    · rw [div_lt_iff₀ hh]
      have := ht.2
      push_cast at this
      exact this
  rw [cell, this]

theorem cell_measurable (h : ℝ) (y : ℝ → ℝ) : Measurable (cell h y) := by
  have : cell h y = (fun k : ℕ => (y ((k + 1 : ℕ) * h) + y (k * h)) / 2) ∘ fun t => ⌊t / h⌋₊ := rfl
  rw [this]
  exact (measurable_from_top).comp (Nat.measurable_floor.comp (measurable_id.div_const h))

/-- The grid points around a time before the end. -/
theorem cell_points {τ t : ℝ} (m : ℕ) (ht0 : 0 ≤ t) (ht : t < τ) :
    (⌊t / (τ / (m + 1))⌋₊ : ℝ) * (τ / (m + 1)) ∈ Icc 0 τ ∧ ((⌊t / (τ / (m + 1))⌋₊ + 1 : ℕ) : ℝ) * (τ / (m + 1)) ∈ Icc 0 τ ∧
    |(⌊t / (τ / (m + 1))⌋₊ : ℝ) * (τ / (m + 1)) - t| ≤ τ / (m + 1) ∧
    |((⌊t / (τ / (m + 1))⌋₊ + 1 : ℕ) : ℝ) * (τ / (m + 1)) - t| ≤ τ / (m + 1) := by
  have hτ : 0 < τ := ht0.trans_lt ht
  have hm : (0 : ℝ) < m + 1 := by positivity
  set h := τ / (m + 1) with hdef
  have hh : 0 < h := by positivity
  have h1 : (⌊t / h⌋₊ : ℝ) * h ≤ t := by
    rw [← le_div_iff₀ hh]
    exact Nat.floor_le (by positivity)
  have h2 : t < ((⌊t / h⌋₊ + 1 : ℕ) : ℝ) * h := by
    rw [← div_lt_iff₀ hh]
    push_cast
    exact Nat.lt_floor_add_one _
  have h3 : ⌊t / h⌋₊ + 1 ≤ m + 1 := by
    have : t / h < m + 1 := by
      rw [div_lt_iff₀ hh, hdef, mul_div_cancel₀ _ hm.ne']
      exact ht
    have := (Nat.floor_lt (by positivity)).2 (by exact_mod_cast this : t / h < ((m + 1 : ℕ) : ℝ))
    omega
  have h4 : ((⌊t / h⌋₊ + 1 : ℕ) : ℝ) * h ≤ τ := by
    have : ((⌊t / h⌋₊ + 1 : ℕ) : ℝ) ≤ m + 1 := by exact_mod_cast h3
    calc _ ≤ (m + 1) * h := mul_le_mul_of_nonneg_right this hh.le
      _ = τ := by rw [hdef, mul_div_cancel₀ _ hm.ne']
  have h5 : ((⌊t / h⌋₊ + 1 : ℕ) : ℝ) * h = (⌊t / h⌋₊ : ℝ) * h + h := by push_cast; ring
  refine ⟨⟨by positivity, h1.trans ht.le⟩, ⟨by positivity, h4⟩, ?_, ?_⟩
  · rw [abs_le]; constructor <;> linarith
  · rw [abs_le]; constructor <;> linarith

/-- The trapezium sum over `m + 1` steps as an integral. -/
theorem trapezoid_eq_integral {τ : ℝ} (hτ : 0 < τ) {x x' y : ℝ → ℝ} (hx : ∀ t ∈ Icc 0 τ, HasDerivAt x (x' t) t)
    (hx' : ContinuousOn x' (Icc 0 τ)) (m : ℕ) :
    trapezoid ((np.linspace τ (m + 2)).map y) ((np.linspace τ (m + 2)).map x)
      = ∫ t in (0 : ℝ)..τ, cell (τ / (m + 1)) y t * x' t := by
  have hm : (0 : ℝ) < m + 1 := by positivity
  set h := τ / (m + 1) with hdef
  have hh : 0 < h := by positivity
  have hpt : ∀ i : ℕ, i ≤ m + 1 → (i : ℝ) * h ∈ Icc 0 τ := by
    intro i hi
    refine ⟨by positivity, ?_⟩
    have : (i : ℝ) ≤ m + 1 := by exact_mod_cast hi
    calc _ ≤ (m + 1) * h := mul_le_mul_of_nonneg_right this hh.le
      _ = τ := by rw [hdef, mul_div_cancel₀ _ hm.ne']
  have hle : ∀ i : ℕ, (i : ℝ) * h ≤ ((i + 1 : ℕ) : ℝ) * h := fun i => by
    push_cast; nlinarith
  have hcont : ∀ i < m + 1, ContinuousOn x' (uIcc ((i : ℝ) * h) (((i + 1 : ℕ) : ℝ) * h)) := fun i hi =>
    hx'.mono (by
      rw [uIcc_of_le (hle i)]
      exact Icc_subset_Icc (hpt i hi.le).1 (hpt (i + 1) hi).2)
  have hint : ∀ i < m + 1, IntervalIntegrable (fun t => cell h y t * x' t) volume ((i : ℝ) * h)
      (((i + 1 : ℕ) : ℝ) * h) := by
    intro i hi
    refine IntervalIntegrable.congr_uIoo (((hcont i hi).intervalIntegrable).const_mul
      ((y ((i + 1 : ℕ) * h) + y (i * h)) / 2)) ?_
    intro t ht
    rw [uIoo_of_le (hle i)] at ht
    simp only
    rw [cell_eq hh y ht]
  have hterm : ∀ i < m + 1, (x (((i + 1 : ℕ) : ℝ) * h) - x ((i : ℝ) * h)) * (y (((i + 1 : ℕ) : ℝ) * h) + y ((i : ℝ) * h)) / 2
      = ∫ t in ((i : ℝ) * h)..(((i + 1 : ℕ) : ℝ) * h), cell h y t * x' t := by
    intro i hi
    rw [intervalIntegral.integral_congr_Ioo_of_le (g := fun t => (y ((i + 1 : ℕ) * h) + y (i * h)) / 2 * x' t) (hle i)
      (fun t ht => by simp only; rw [cell_eq hh y ht])]
    rw [intervalIntegral.integral_const_mul]
    rw [intervalIntegral.integral_eq_sub_of_hasDerivAt (fun t ht => hx t (by
      rw [uIcc_of_le (hle i)] at ht
      exact ⟨(hpt i hi.le).1.trans ht.1, ht.2.trans (hpt (i + 1) hi).2⟩)) (hcont i hi).intervalIntegrable]
    ring
  have hlin : np.linspace τ (m + 2) = (List.range (m + 1 + 1)).map fun i : ℕ => (i : ℝ) * h := by
    unfold np.linspace
    congr 1
    funext i
    rw [hdef]
    push_cast
    ring_nf
  rw [hlin, List.map_map, List.map_map, trapezoid_range]
  simp only [Function.comp]
  rw [Finset.sum_congr rfl fun i hi => hterm i (Finset.mem_range.1 hi)]
  rw [intervalIntegral.sum_integral_adjacent_intervals hint]
  congr 1
  · simp
  · rw [hdef]; push_cast; field_simp

/-- The trapezium rule along a uniform grid of times converges. -/
theorem trapezoid_tendsto {τ M : ℝ} (hτ : 0 ≤ τ) {x x' y : ℝ → ℝ} (hx : ∀ t ∈ Icc 0 τ, HasDerivAt x (x' t) t)
    (hx' : ContinuousOn x' (Icc 0 τ)) (hy : ∀ t ∈ Icc 0 τ, |y t| ≤ M)
    (hyc : {t ∈ Icc 0 τ | ¬ ContinuousWithinAt y (Icc 0 τ) t}.Countable) :
    Tendsto (fun n => trapezoid ((np.linspace τ n).map y) ((np.linspace τ n).map x)) atTop
      (𝓝 (∫ t in (0 : ℝ)..τ, y t * x' t)) := by
  rcases hτ.eq_or_lt with rfl | hτ
  · rw [intervalIntegral.integral_same]
    refine tendsto_const_nhds.congr fun n => (trapezoid_const (c := x 0) ?_).symm
    intro z hz
    obtain ⟨t, ht, rfl⟩ := List.mem_map.1 hz
    obtain ⟨i, -, rfl⟩ := List.mem_map.1 ht
    simp
  rw [← tendsto_add_atTop_iff_nat 2]
  simp only [trapezoid_eq_integral hτ hx hx']
  have hnull : ∀ᵐ t : ℝ, t ∉ {t ∈ Icc 0 τ | ¬ ContinuousWithinAt y (Icc 0 τ) t} := hyc.ae_notMem _
  have hend : ∀ᵐ t : ℝ, t ≠ τ := by
    have := (countable_singleton τ).ae_notMem (volume : Measure ℝ)
    filter_upwards [this] with t ht
    simpa using ht
  have hIoc : ∀ t ∈ uIoc 0 τ, 0 ≤ t ∧ t ≤ τ := by
    intro t ht
    rw [uIoc_of_le hτ.le] at ht
    exact ⟨ht.1.le, ht.2⟩
  apply intervalIntegral.tendsto_integral_filter_of_dominated_convergence (fun t => M * ‖x' t‖)
  · refine Eventually.of_forall fun m => ?_
    refine (cell_measurable _ _).aestronglyMeasurable.mul ?_
    refine (hx'.aestronglyMeasurable measurableSet_Icc).mono_measure (Measure.restrict_mono ?_ le_rfl)
    rw [uIoc_of_le hτ.le]
    exact Ioc_subset_Icc_self
  · refine Eventually.of_forall fun m => ?_
    filter_upwards [hend] with t ht htI
    obtain ⟨h0, h1⟩ := hIoc t htI
    obtain ⟨p1, p2, -, -⟩ := cell_points m h0 (lt_of_le_of_ne h1 ht)
    rw [norm_mul]
    apply mul_le_mul_of_nonneg_right _ (norm_nonneg _)
    rw [cell, norm_eq_abs, abs_div, abs_two, div_le_iff₀ two_pos]
    have := abs_add_le (y (((⌊t / (τ / (m + 1))⌋₊ + 1 : ℕ) : ℝ) * (τ / (m + 1)))) (y ((⌊t / (τ / (m + 1))⌋₊ : ℝ) * (τ / (m + 1))))
    linarith [hy _ p1, hy _ p2]
  · have : ContinuousOn x' (uIcc 0 τ) := by rwa [uIcc_of_le hτ.le]
    exact (this.norm.intervalIntegrable).const_mul M
  · filter_upwards [hend, hnull] with t ht hn htI
    obtain ⟨h0, h1⟩ := hIoc t htI
    have hc : ContinuousWithinAt y (Icc 0 τ) t := by
      by_contra hcon
      exact hn ⟨⟨h0, h1⟩, hcon⟩
    have hstep : Tendsto (fun m : ℕ => τ / ((m : ℝ) + 1)) atTop (𝓝 0) := by
      have := (tendsto_one_div_add_atTop_nhds_zero_nat (𝕜 := ℝ)).const_mul τ
      simpa [div_eq_mul_inv] using this
    have key : ∀ p : ℕ → ℝ, (∀ m, p m ∈ Icc 0 τ) → (∀ m : ℕ, |p m - t| ≤ τ / ((m : ℝ) + 1)) →
        Tendsto (fun m => y (p m)) atTop (𝓝 (y t)) := by
      intro p hp1 hp2
      apply hc.tendsto.comp
      rw [tendsto_nhdsWithin_iff]
      refine ⟨?_, Eventually.of_forall hp1⟩
      rw [tendsto_iff_norm_sub_tendsto_zero]
      exact squeeze_zero (fun _ => norm_nonneg _) hp2 hstep
    have hcp := fun m => cell_points m h0 (lt_of_le_of_ne h1 ht)
    have a1 := key _ (fun m => (hcp m).1) (fun m => (hcp m).2.2.1)
    have a2 := key _ (fun m => (hcp m).2.1) (fun m => (hcp m).2.2.2)
    have := (a2.add a1).div_const 2
    rw [show (y t + y t) / 2 = y t by ring] at this
    exact this.mul_const _

/-- The limit is a proper integral. -/
theorem trapezoid_integrable {τ M : ℝ} (hτ : 0 ≤ τ) {x' y : ℝ → ℝ}
    (hx' : ContinuousOn x' (Icc 0 τ)) (hy : ∀ t ∈ Icc 0 τ, |y t| ≤ M)
    (hyc : {t ∈ Icc 0 τ | ¬ ContinuousWithinAt y (Icc 0 τ) t}.Countable) :
    IntervalIntegrable (fun t => y t * x' t) volume 0 τ := by
  rw [intervalIntegrable_iff_integrableOn_Icc_of_le hτ]
  apply IntegrableOn.mul_continuousOn _ hx' isCompact_Icc
  set D := {t ∈ Icc 0 τ | ¬ ContinuousWithinAt y (Icc 0 τ) t} with hD
  have hc : ContinuousOn y (Icc 0 τ \ D) := by
    rintro t ⟨ht, hn⟩
    have : ContinuousWithinAt y (Icc 0 τ) t := by
      by_contra hcon
      exact hn ⟨ht, hcon⟩
    exact this.mono diff_subset
  have hm := hc.aestronglyMeasurable (μ := (volume : Measure ℝ)) (measurableSet_Icc.diff hyc.measurableSet)
  rw [Measure.restrict_congr_set (diff_null_ae_eq_self (hyc.measure_zero volume))] at hm
  refine Integrable.of_bound hm M ?_
  filter_upwards [ae_restrict_mem measurableSet_Icc] with t ht
  exact hy t ht

/-- A grid whose last point repeats the one before it. -/
noncomputable def repeatLast (τ : ℝ) (n : ℕ) : List ℝ :=
  (List.range n).map fun i : ℕ => ((if i + 1 < n then i else n - 2 : ℕ) : ℝ) * (τ / ((n : ℝ) - 1))

/-- Leaving out the last step does not change the limit. -/
theorem trapezoid_repeatLast_tendsto {τ M L : ℝ} (hτ : 0 ≤ τ) {x y : ℝ → ℝ} (hx : ContinuousOn x (Icc 0 τ))
    (hy : ∀ t ∈ Icc 0 τ, |y t| ≤ M)
    (h : Tendsto (fun n => trapezoid ((np.linspace τ n).map y) ((np.linspace τ n).map x)) atTop (𝓝 L)) :
    Tendsto (fun n => trapezoid ((repeatLast τ n).map y) ((repeatLast τ n).map x)) atTop (𝓝 L) := by
  rw [← tendsto_add_atTop_iff_nat 2] at h ⊢
  have hp : ∀ m : ℕ, ((m : ℝ) * τ / (m + 1)) ∈ Icc 0 τ := by
    intro m
    refine ⟨by positivity, ?_⟩
    rw [div_le_iff₀ (by positivity)]
    nlinarith
  have hlim : Tendsto (fun m : ℕ => (m : ℝ) * τ / (m + 1)) atTop (𝓝 τ) := by
    have h1 : Tendsto (fun m : ℕ => 1 - 1 / ((m : ℝ) + 1)) atTop (𝓝 (1 - 0)) :=
      tendsto_const_nhds.sub (tendsto_one_div_add_atTop_nhds_zero_nat (𝕜 := ℝ))
    have h2 := h1.mul_const τ
    simp only [sub_zero, one_mul] at h2
    refine h2.congr fun m => ?_
    field_simp
    ring
  have hxl : Tendsto (fun m : ℕ => x ((m : ℝ) * τ / (m + 1))) atTop (𝓝 (x τ)) := by
    refine (hx τ ⟨hτ, le_rfl⟩).tendsto.comp ?_
    rw [tendsto_nhdsWithin_iff]
    exact ⟨hlim, Eventually.of_forall hp⟩
  -- the step left out
  have hlast : Tendsto (fun m : ℕ => (x τ - x ((m : ℝ) * τ / (m + 1))) * (y τ + y ((m : ℝ) * τ / (m + 1))) / 2) atTop
      (𝓝 0) := by
    have h0 : Tendsto (fun m : ℕ => |x τ - x ((m : ℝ) * τ / (m + 1))| * M) atTop (𝓝 0) := by
      have := ((tendsto_const_nhds (x := x τ)).sub hxl).abs.mul_const M
      simpa using this
    refine squeeze_zero_norm (fun m => ?_) h0
    rw [norm_div, norm_mul, norm_eq_abs, norm_eq_abs, norm_eq_abs, abs_two, div_le_iff₀ two_pos, mul_assoc]
    apply mul_le_mul_of_nonneg_left _ (abs_nonneg _)
    have := abs_add_le (y τ) (y ((m : ℝ) * τ / (m + 1)))
    linarith [hy _ (hp m), hy τ ⟨hτ, le_rfl⟩]
  have := h.sub hlast
  rw [sub_zero] at this
  refine this.congr fun m => ?_
  have hm : (0 : ℝ) < m + 1 := by positivity
  unfold repeatLast np.linspace
  rw [List.map_map, List.map_map, List.map_map, List.map_map, trapezoid_range, trapezoid_range]
  rw [Finset.sum_range_succ, Finset.sum_range_succ]
  have e0 : ∀ i < m + 1, (if i + 1 < m + 1 + 1 then i else m + 1 + 1 - 2) = i := fun i hi => if_pos (by omega)
  have e1 : (if m + 1 + 1 < m + 1 + 1 then m + 1 else m + 1 + 1 - 2) = m := by simp
  have ec : (((m + 1 + 1 : ℕ) : ℝ) - 1) = m + 1 := by push_cast; ring
  have eτ : ((m + 1 : ℕ) : ℝ) * τ / (m + 1) = τ := by push_cast; field_simp
  simp only [Function.comp, ec, ← mul_div_assoc, eτ]
  rw [e1, e0 m (by omega), sub_self, zero_mul, zero_div, add_zero, add_sub_assoc]
  rw [sub_self, add_zero]
  apply Finset.sum_congr rfl
  intro i hi
  have hi' := Finset.mem_range.1 hi
  rw [e0 i (by omega), e0 (i + 1) (by omega)]

end Legwork
