import Verif.Lemmas.VisSource
import Verif.Props.Visualisation
import Verif.Props.SourceMasks
import Verif.Props.Stationarity
import Mathlib.Analysis.Real.Pi.Bounds

/-!
# The plotting methods of `Source` (C53, C54, C72, C73)
-/

namespace Legwork.Props

open Legwork.source Legwork.Spec Legwork.visualisation
open PyM hiding bind

variable {W : World} {gy : ℕ → List Mark → Num × Num} {s p r r' : ℕ} {h : Heap} {v : Canvas} {T tol cut : ℝ} {fig ax : Option ℕ}
  {b : Bool} {lab : Val} {vis : ScVis} {k : Style2} {out : Option ℕ × Option ℕ} {st : Heap × Canvas}

/-! ### `plot_sources_on_sc` -/

theorem stationaryOnes_plottable (hR : PlotReady h s p r r' tol T) :
    plottable W.K T (h.src s).stat_tol cut (h.src s).cols (h.snrs r) (h.harms r') =
      (stationaryOnes W h s r r' T cut).map fun x => ((x.1.1, x.2), x.1.2.getD 0) :=
  plottable_eq (hR.sized.snr r hR.snr) (hR.sized.harm r' hR.harm)

theorem stationaryOnes_detected {β : Type} (f : (One × Option ℝ) × ℕ → β) :
    detected cut ((stationaryOnes W h s r r' T cut).map f) ((stationaryOnes W h s r r' T cut).map fun x => x.1.2) =
      (stationaryOnes W h s r r' T cut).map fun x => (f x, x.1.2.getD 0) := by
  classical
  unfold stationaryOnes
  rw [detected_filter]
  congr 1
  apply List.filter_congr
  intro x _
  rcases above1 cut x.1.2 <;> simp

theorem stationaryOnes_above (hne : stationaryOnes W h s r r' T cut ≠ []) :
    ∃ ρ : ℝ, some ρ ∈ (stationaryOnes W h s r r' T cut).map (fun x => x.1.2) ∧ cut < ρ := by
  classical
  obtain ⟨x, hx⟩ := List.exists_mem_of_ne_nil _ hne
  have hx2 : above1 cut x.1.2 = true := by
    unfold stationaryOnes at hx
    have := (List.mem_filter.1 hx).2
    simp only [Bool.and_eq_true] at this
    exact this.1.2
  rcases hρ : x.1.2 with _ | ρ
  · rw [hρ, above1_none] at hx2
    cases hx2
  · rw [hρ, above1_some] at hx2
    exact ⟨ρ, List.mem_map.2 ⟨x, hx, hρ⟩, by simpa using hx2⟩

/-- **C53.** `sources.plot_sources_on_sc` plots exactly the sources that are stationary, have an SNR above the cutoff and have
not merged, each at its orbital frequency times its strongest harmonic and exactly its SNR above the noise of the
sensitivity curve of the object, with a size proportional to its weight. If there are none nothing is drawn. The
object is not changed. -/
theorem C53_source (hR : PlotReady h s p r r' tol T) (hk : k.disttype = "scatter")
    (hrun : Source_plot_sources_on_sc W gy s cut fig ax b lab vis k (h, v) = (.ok out, st)) :
    let P := plottable W.K T (h.src s).stat_tol cut (h.src s).cols (h.snrs r) (h.harms r')
    st.1 = h ∧
    (P = [] → out = (fig, ax) ∧ st.2.marks = v.marks ∧ st.2.next = v.next) ∧
    (P ≠ [] → ∃ new y, st.2.marks = v.marks ++ new ∧
      scatters new = [(P.map fun x => num (x.1.1.f_orb * (x.1.2 : ℝ)), y,
        sizesOf k.scatter_s ((h.src s).cols.weights.map fun _ => P.map fun x => x.1.1.weight.getD 0))] ∧
      List.Forall₂ (fun x y => HeightOf W (h.par p).dict (vis.y_quantity = some "h_c") (x.1.1.f_orb * (x.1.2 : ℝ)) x.2 y) P y) := by
  classical
  intro P
  have hP : P = _ := stationaryOnes_plottable hR
  rw [Source_plot_run hR] at hrun
  simp only at hrun
  split_ifs at hrun with he
  · obtain ⟨h1, h2⟩ := Prod.mk.inj hrun
    rw [← h2]
    refine ⟨rfl, fun _ => ⟨(Except.ok.inj h1).symm, rfl, rfl⟩, fun hne => absurd ?_ hne⟩
    rw [hP, he]
    rfl
  · rcases hpl : plotted W gy h s p r r' T cut fig ax b lab vis k v with ⟨e | o, v'⟩
    · rw [hpl] at hrun
      cases hrun
    · rw [hpl] at hrun
      obtain ⟨-, h2⟩ := Prod.mk.inj hrun
      rw [← h2]
      refine ⟨rfl, fun h0 => absurd ?_ he, fun _ => ?_⟩
      · rw [hP] at h0
        exact List.map_eq_nil_iff.1 h0
      · unfold plotted at hpl
        obtain ⟨new, y, h3, h4, h5⟩ := C53_points (by simp) (by
          intro x hx
          obtain ⟨w, -, rfl⟩ := Option.map_eq_some_iff.1 hx
          simp) (stationaryOnes_above he) (by exact hk) hpl
        rw [stationaryOnes_detected] at h4 h5
        refine ⟨new, y, h3, ?_, ?_⟩
        · rw [h4, hP]
          have : ∀ w : Option (List ℝ), (Option.map (fun w => (detected cut w ((stationaryOnes W h s r r' T cut).map
              fun x => x.1.2)).map fun p => p.1) (w.map fun _ => (stationaryOnes W h s r r' T cut).map
                fun x => x.1.1.weight.getD 0)) = w.map fun _ => (stationaryOnes W h s r r' T cut).map
                  fun x => x.1.1.weight.getD 0 := by
            intro w
            rcases w with _ | w
            · rfl
            · simp only [Option.map_some]
              rw [stationaryOnes_detected, List.map_map]
              rfl
          rw [this]
          simp only [List.map_map, Function.comp_def]
        · rw [hP, List.forall₂_map_left_iff]
          rw [List.forall₂_map_left_iff] at h5
          exact h5

/-- **C53.** The call succeeds exactly when there is nothing to plot, or the curve can be drawn (or need not be), the PSD can be
evaluated at the frequencies of the sources, and no option clashes with an argument. -/
theorem C53_source_succeeds (hR : PlotReady h s p r r' tol T) :
    let P := plottable W.K T (h.src s).stat_tol cut (h.src s).cols (h.snrs r) (h.harms r')
    (∃ out, (Source_plot_sources_on_sc W gy s cut fig ax b lab vis k (h, v)).1 = .ok out) ↔
      P = [] ∨ ((fig.isSome ∧ ax.isSome) ∨ CurveOk W (h.par p).dict vis) ∧
        (∀ x ∈ P, ∃ S, psd_of_dict W (h.par p).dict (x.1.1.f_orb * (x.1.2 : ℝ)) = .ok S) ∧
        (k.disttype = "scatter" → k.kwargs.has "s" = false) := by
  classical
  intro P
  have hP : P = _ := stationaryOnes_plottable hR
  rw [Source_plot_run hR]
  simp only
  by_cases he : stationaryOnes W h s r r' T cut = []
  · rw [if_pos he]
    refine ⟨fun _ => .inl ?_, fun _ => ⟨_, rfl⟩⟩
    rw [hP, he]
    rfl
  · rw [if_neg he]
    have hP' : P ≠ [] := fun h0 => he (by rw [hP] at h0; exact List.map_eq_nil_iff.1 h0)
    have hs := C53_succeeds (W := W) (gy := gy) (fs := (stationaryOnes W h s r r' T cut).map fun x => x.1.1.f_orb * (x.2 : ℝ))
      (snr := (stationaryOnes W h s r r' T cut).map fun x => x.1.2)
      (ws := (h.src s).cols.weights.map fun _ => (stationaryOnes W h s r r' T cut).map fun x => x.1.1.weight.getD 0) (cut := cut)
      (d := (h.par p).dict) (fig := fig) (ax := ax) (b := b) (vis := vis) (k := { k with kwargs := ("label", lab) :: k.kwargs })
      (v := v) (by simp) (by
          intro x hx
          obtain ⟨w, -, rfl⟩ := Option.map_eq_some_iff.1 hx
          simp)
    rw [stationaryOnes_detected] at hs
    have hpl : (∃ out, (plotted W gy h s p r r' T cut fig ax b lab vis k v).1 = .ok out) ↔ P = [] ∨
        ((fig.isSome ∧ ax.isSome) ∨ CurveOk W (h.par p).dict vis) ∧
        (∀ x ∈ P, ∃ S, psd_of_dict W (h.par p).dict (x.1.1.f_orb * (x.1.2 : ℝ)) = .ok S) ∧
        (k.disttype = "scatter" → k.kwargs.has "s" = false) := by
      unfold plotted
      rw [hs, hP]
      rw [List.map_eq_nil_iff, or_iff_right he]
      refine and_congr_right fun _ => and_congr ?_ ?_
      · simp only [List.mem_map, forall_exists_index, and_imp, forall_apply_eq_imp_iff₂]
      have hh : Kwargs.has (("label", lab) :: k.kwargs) "s" = Kwargs.has k.kwargs "s" := by
        simp [Kwargs.has]
      rw [hh]
      exact ⟨fun h => h (stationaryOnes_above he), fun h _ => h⟩
    rw [← hpl]
    rcases plotted W gy h s p r r' T cut fig ax b lab vis k v with ⟨e | o, v'⟩
    · simp
    · simp

/-- **C53.** Before SNRs have been calculated nothing is drawn and an error is logged. -/
theorem C53_no_snr (hn : (h.src s).snr = none) :
    Source_plot_sources_on_sc W gy s cut fig ax b lab vis k (h, v) =
      (.ok (none, none), (h, { v with messages := v.messages ++ [("error", "No SNR has been calculated yet")] })) :=
  Source_plot_no_snr hn

/-! ### Warnings -/

/-- **C54.** The warnings of a successful call: the number of *circular* evolving sources that would have to be plotted, twice, once
called circular and once called eccentric. -/
theorem C54_warnings (hR : PlotReady h s p r r' tol T)
    (hrun : Source_plot_sources_on_sc W gy s cut fig ax b lab vis k (h, v) = (.ok out, st)) :
    let n := (unplottable W.K T (h.src s).stat_tol tol cut true (h.src s).cols (h.snrs r)).length
    st.2.messages = v.messages ++ notice n "circular" ++ notice n "eccentric" := by
  classical
  intro n
  rw [Source_plot_run hR] at hrun
  simp only at hrun
  split_ifs at hrun with he
  · obtain ⟨-, h2⟩ := Prod.mk.inj hrun
    rw [← h2]
    exact (List.append_assoc _ _ _).symm
  · rcases hpl : plotted W gy h s p r r' T cut fig ax b lab vis k v with ⟨e | o, v'⟩
    · rw [hpl] at hrun
      cases hrun
    · rw [hpl] at hrun
      obtain ⟨-, h2⟩ := Prod.mk.inj hrun
      rw [← h2]
      have hm : v'.messages = v.messages := by
        unfold plotted at hpl
        obtain ⟨v₁, h1, -, h3⟩ := plot_sources_run (by simp) (by
          intro x hx
          obtain ⟨w, -, rfl⟩ := Option.map_eq_some_iff.1 hx
          simp) hpl
        rw [if_pos (stationaryOnes_above he)] at h3
        obtain ⟨-, h4, -⟩ := h3
        rw [h4]
        exact (axes_with_curve_marks h1).1
      change v'.messages ++ _ = _
      rw [hm, List.append_assoc]

/-- **C54** (negative part). Eccentric evolving sources are never reported: if there are no circular ones there is no warning
at all. -/
theorem C54_eccentric_missed (hR : PlotReady h s p r r' tol T)
    (hc : unplottable W.K T (h.src s).stat_tol tol cut true (h.src s).cols (h.snrs r) = [])
    (hrun : Source_plot_sources_on_sc W gy s cut fig ax b lab vis k (h, v) = (.ok out, st)) :
    st.2.messages = v.messages := by
  have := C54_warnings hR hrun
  simp only at this
  rw [this, hc]
  simp [notice]

/-! ### Settings -/

/-- **C72.** The methods of `Source` too leave the settings of matplotlib as they were and only add to the axes they return. -/
theorem C72_source (hR : PlotReady h s p r r' tol T) :
    let res := Source_plot_sources_on_sc W gy s cut fig ax b lab vis k (h, v)
    (∀ out, res.1 = .ok out → out = (fig, ax) ∧ res.2.2.marks = v.marks ∨
      out = (some (axesFor fig ax v).1, some (axesFor fig ax v).2)) ∧
    res.2.1 = h ∧ res.2.2.rc = v.rc ∧ ∃ new, res.2.2.marks = v.marks ++ new ∧
      ∀ m ∈ new, m.ax = (axesFor fig ax v).2 ∧ m.rc = styled v.rc := by
  classical
  intro res
  have hres : res = _ := Source_plot_run hR
  rw [hres]
  simp only
  split_ifs with he
  · exact ⟨fun out ho => .inl ⟨(Except.ok.inj ho).symm, rfl⟩, rfl, rfl, [], (List.append_nil _).symm, by simp⟩
  · have hon := plot_sources_on_sc_on W gy ((stationaryOnes W h s r r' T cut).map fun x => x.1.1.f_orb * (x.2 : ℝ))
      ((stationaryOnes W h s r r' T cut).map fun x => x.1.2)
      ((h.src s).cols.weights.map fun _ => (stationaryOnes W h s r r' T cut).map fun x => x.1.1.weight.getD 0) cut (h.par p).dict
      fig ax b vis { k with kwargs := ("label", lab) :: k.kwargs } v
    change PlotsOn fig ax v (plotted W gy h s p r r' T cut fig ax b lab vis k v).1
      (plotted W gy h s p r r' T cut fig ax b lab vis k v).2 at hon
    generalize plotted W gy h s p r r' T cut fig ax b lab vis k v = q at hon
    rcases q with ⟨e | o, v'⟩
    · exact ⟨fun out ho => (nomatch ho), rfl, hon.settings, hon.added⟩
    · refine ⟨fun out ho => .inr ?_, rfl, hon.settings, hon.added⟩
      rw [← Except.ok.inj ho, hon.result o rfl]

/-! ### `plot_source_variables` -/

section distributions

variable {K : Consts} {U : Units} {name yname : String} {ws : Option (List Bool)} {ex : Bool}

/-- **C73.** With one variable, `plot_1D_dist` is given exactly the values of that variable for the sources selected, without the
merged ones unless asked for, in order, and their weights; the labels are those given, otherwise standard ones. -/
theorem C73_one (hz : Sized h s) (hw : FitsMask (h.src s).cols ws) (hk : Known (snrValues h s) name) (k : Args1) :
    let c := (h.src s).cols
    let res := plot_1D_dist { k with
      x := (shownSources c ws ex).map (valueAt K c (snrValues h s) name)
      unit := if name = "ecc" ∨ name = "snr" then 1 else U.size name
      weights := c.weights.map fun w => (shownSources c ws ex).map fun i => w.getD i 0
      xlabel := some (k.xlabel.getD (if k.log_scale && k.disttype = "hist" then log_label U name else axis_label U name))
      ylabel := some (k.ylabel.getD (density_label name k.log_scale)) } v
    plot_source_variables K U s name (.one k) ws ex (h, v) = (res.1, (h, res.2)) := by
  intro c res
  have h1 : plot_source_variables K U s name (.one k) ws ex (h, v) =
      onCanvas (plot_variables K U c (snrValues h s) name (.one k) ws ex) (h, v) := rfl
  rw [h1]
  unfold onCanvas
  simp only
  rw [plot_one_run hz.rect hw (by
    intro x hx
    obtain ⟨r, hr, rfl⟩ := Option.map_eq_some_iff.1 hx
    exact hz.snr r hr) k hk]
  have : (if unitless name = true then (1 : ℝ) else U.size name) = if name = "ecc" ∨ name = "snr" then 1 else U.size name := by
    simp [unitless]
  unfold args_1D
  rw [this]

/-- **C73.** With two variables, `plot_2D_dist` is given their values for the same sources, in the same order. -/
theorem C73_two (hz : Sized h s) (hw : FitsMask (h.src s).cols ws) (hx : Known (snrValues h s) name)
    (hy : Known (snrValues h s) yname) (k : Args2) :
    let c := (h.src s).cols
    let res := plot_2D_dist { k with
      x := (shownSources c ws ex).map (valueAt K c (snrValues h s) name)
      y := (shownSources c ws ex).map (valueAt K c (snrValues h s) yname)
      weights := c.weights.map fun w => (shownSources c ws ex).map fun i => w.getD i 0
      xlabel := some (k.xlabel.getD (axis_label U name))
      ylabel := some (k.ylabel.getD (axis_label U yname)) } v
    plot_source_variables K U s name (.two yname k) ws ex (h, v) = (res.1, (h, res.2)) := by
  intro c res
  have h1 : plot_source_variables K U s name (.two yname k) ws ex (h, v) =
      onCanvas (plot_variables K U c (snrValues h s) name (.two yname k) ws ex) (h, v) := rfl
  rw [h1]
  unfold onCanvas
  simp only
  rw [plot_two_run hz.rect hw (by
    intro x hx
    obtain ⟨r, hr, rfl⟩ := Option.map_eq_some_iff.1 hx
    exact hz.snr r hr) k hx hy]
  rfl

/-- **C73.** A `ValueError`, with nothing drawn or changed, for unknown variables and for the SNR before there is one. -/
theorem C73_rejected (hz : Sized h s) (hw : FitsMask (h.src s).cols ws) {plot : Plot}
    (hk : ¬ Known (snrValues h s) name ∨ ∃ yname k, plot = .two yname k ∧ ¬ Known (snrValues h s) yname) :
    plot_source_variables K U s name plot ws ex (h, v) = (.error .ValueError, (h, v)) := by
  have h1 : plot_source_variables K U s name plot ws ex (h, v) =
      onCanvas (plot_variables K U (h.src s).cols (snrValues h s) name plot ws ex) (h, v) := rfl
  rw [h1]
  unfold onCanvas
  simp only
  rw [plot_fails hz.rect hw (by
    intro x hx
    obtain ⟨r, hr, rfl⟩ := Option.map_eq_some_iff.1 hx
    exact hz.snr r hr) hk]

/-- **C73** (a misleading label). With `disttype="ecdf"` the proportions of a cumulative distribution are drawn, but the y axis
is labelled as a density all the same. -/
theorem C73_ecdf_label (hz : Sized h s) (hw : FitsMask (h.src s).cols ws) (hk : Known (snrValues h s) name) :
    ∃ xs w lab, (plot_source_variables K U s name (.one { x := [], disttype := "ecdf" }) ws ex (h, v)).2.2.marks.map Mark.draw =
      v.marks.map Mark.draw ++ [.ecdfplot xs w .none false [("stat", .str "proportion"), ("legend", .bool true)],
        .set_xlabel lab, .set_ylabel ("$\\mathrm{d}N/\\mathrm{d}$" ++ latex_labels name)] := by
  rw [C73_one hz hw hk]
  exact ⟨_, _, _, by
    simp [plot_1D_dist, legwork_plot_style, axes, subplots, draw_1D, draw, if_some, if_show, visualisation.if_true, plt_show, PyM.bind_run, PyM.pure_run,
      PyM.modify_run, density_label, defaults1, Kwargs.update]
    exact ⟨⟨rfl, rfl⟩, rfl⟩⟩

end distributions

/-! ### A concrete case -/

/-- The two binaries of the example after SNRs have been stored: 10 and 2, strongest in harmonics 2 and 3. The first is
circular; the observation time is 1e8 s. -/
noncomputable def example_plot (c : Cols) : Heap :=
  { Example.heap with
    src := fun _ => { Example.heap.src 0 with cols := c, snr := some 5, max_snr_harmonic := some 6, ecc_tol := some 0.05 }
    snrs := fun _ => [some 10, some 2]
    harms := fun _ => [2, 3] }

/-- One circular binary far from merging and an eccentric one about to merge. -/
noncomputable def example_plot_cols : Cols := { Example.cols with f_orb := [1e-3, 10], weights := some [1, 7] }

theorem example_plot_ready (c : Cols) (hr : Rect c) (hn : c.n_sources = 2) : PlotReady (example_plot c) 0 1 5 6 0.05 1e8 where
  sized := ⟨hr, fun _ _ => by change 2 = c.n_sources; rw [hn], fun _ _ => by change 2 = c.n_sources; rw [hn]⟩
  ecc_tol := rfl
  required := example_built.harmonics_required
  params := by
    change (Example.heap.src 0).sc_params = some 1
    rw [Example.heap_src]
    rfl
  time := example_time 1 (by rw [Example.heap_src]; rfl)
  snr := rfl
  harm := rfl

theorem a_cube {f m₁ m₂ : ℝ} (hf : 0 < f) (h₁ : 0 < m₁) (h₂ : 0 < m₂) :
    utils.get_a_from_f_orb Consts.codata2018 f m₁ m₂ ^ 3 = 6.67430e-11 * (m₁ + m₂) / (2 * Real.pi * f) ^ 2 := by
  have hpi := Real.pi_pos
  unfold utils.get_a_from_f_orb Consts.codata2018
  rw [← Real.rpow_natCast, ← Real.rpow_mul (by positivity)]
  norm_num

theorem example_stationary : (rowAt example_plot_cols 0).StationaryOver Example.world.K 1e8 0.01 := by
  rw [stationaryOver_iff]
  change evol.change_le (evol.evolve_f_orb_circ Consts.codata2018 1e-3 (utils.chirp_mass 2e30 1e30) 1e8 0 1e9) 1e-3 0.01
  rw [stationarity_iff _ (by norm_num) (by norm_num) (by norm_num) (by norm_num) (by norm_num), C04_zero, mul_one]
  have ha := get_a_from_f_orb_pos Consts.codata2018 (f := 1e-3) (m₁ := 2e30) (m₂ := 1e30) (by norm_num) (by norm_num) (by norm_num)
  have hc := a_cube (f := 1e-3) (m₁ := 2e30) (m₂ := 1e30) (by norm_num) (by norm_num) (by norm_num)
  set a := utils.get_a_from_f_orb Consts.codata2018 1e-3 2e30 1e30
  have h3 : (1e24 : ℝ) ≤ a ^ 3 := by
    rw [hc, le_div_iff₀ (by positivity)]
    have := Real.pi_le_four
    have := Real.pi_pos
    nlinarith
  have h1 : (1e8 : ℝ) ≤ a := by
    by_contra hlt
    push Not at hlt
    have : a ^ 3 < 1e8 ^ 3 := by gcongr
    norm_num at this h3
    linarith
  have h4 : (1e32 : ℝ) ≤ a ^ 4 := by
    have : (1e8 : ℝ) ^ 4 ≤ a ^ 4 := by gcongr
    norm_num at this ⊢
    exact this
  have hb : utils.beta Consts.codata2018 2e30 1e30 ≤ 1e20 := by
    unfold utils.beta Consts.codata2018
    norm_num
  have hb0 := Legwork.evol.beta_pos Consts.codata2018 (m₁ := 2e30) (m₂ := 1e30) (by norm_num) (by norm_num)
  have hp : ((1 : ℝ) + 0.01) ^ (-8 / 3 : ℝ) ≤ 1 / 1.01 := by
    have : ((1 : ℝ) + 0.01) ^ (-8 / 3 : ℝ) ≤ ((1 : ℝ) + 0.01) ^ (-1 : ℝ) :=
      Real.rpow_le_rpow_of_exponent_le (by norm_num) (by norm_num)
    rw [Real.rpow_neg_one] at this
    norm_num at this ⊢
    exact this
  have hq : (1e-3 : ℝ) ≤ 1 - ((1 : ℝ) + 0.01) ^ (-8 / 3 : ℝ) := by
    norm_num at hp ⊢
    linarith
  have hT : (1e11 : ℝ) ≤ a ^ 4 / (4 * utils.beta Consts.codata2018 2e30 1e30) := by
    rw [le_div_iff₀ (by positivity)]
    nlinarith
  calc (1e8 : ℝ) = 1e11 * 1e-3 := by norm_num
    _ ≤ _ := mul_le_mul hT hq (by norm_num) (by positivity)

theorem example_evolving : ¬ (rowAt example_plot_cols 1).StationaryOver Example.world.K 1e8 0.01 := by
  rw [stationaryOver_iff]
  change ¬ evol.change_le (evol.evolve_f_orb_circ Consts.codata2018 10 (utils.chirp_mass 3e30 2e30) 1e8 0.3 1e9) 10 0.01
  rw [stationarity_iff _ (by norm_num) (by norm_num) (by norm_num) (by norm_num) (by norm_num), not_le]
  have ha := get_a_from_f_orb_pos Consts.codata2018 (f := 10) (m₁ := 3e30) (m₂ := 2e30) (by norm_num) (by norm_num) (by norm_num)
  have hc := a_cube (f := 10) (m₁ := 3e30) (m₂ := 2e30) (by norm_num) (by norm_num) (by norm_num)
  set a := utils.get_a_from_f_orb Consts.codata2018 10 3e30 2e30
  have h3 : a ^ 3 ≤ (1e18 : ℝ) := by
    rw [hc, div_le_iff₀ (by have := Real.pi_pos; positivity)]
    have := Real.pi_gt_three
    nlinarith
  have h1 : a ≤ (1e6 : ℝ) := by
    by_contra hlt
    push Not at hlt
    have : (1e6 : ℝ) ^ 3 < a ^ 3 := by gcongr
    norm_num at this h3
    linarith
  have h4 : a ^ 4 ≤ (1e24 : ℝ) := by
    have : a ^ 4 ≤ (1e6 : ℝ) ^ 4 := by gcongr
    norm_num at this ⊢
    exact this
  have hb : (1e19 : ℝ) ≤ utils.beta Consts.codata2018 3e30 2e30 := by
    unfold utils.beta Consts.codata2018
    norm_num
  have hT : a ^ 4 / (4 * utils.beta Consts.codata2018 3e30 2e30) ≤ 1e5 := by
    rw [div_le_iff₀ (by positivity)]
    nlinarith
  have hF : 1 ≤ utils.peters_f 0.3 := C04_one_le (by norm_num) (by norm_num)
  have hp : (0 : ℝ) < ((1 : ℝ) + 0.01) ^ (-8 / 3 : ℝ) := by positivity
  have hT0 : 0 ≤ a ^ 4 / (4 * utils.beta Consts.codata2018 3e30 2e30) := by positivity
  nlinarith

theorem example_plot_rect : Rect example_plot_cols := by
  constructor <;> simp [example_plot_cols, Example.cols, Cols.n_sources]

theorem example_plot_tol : ((example_plot example_plot_cols).src 0).stat_tol = 0.01 := by
  change (Example.heap.src 0).stat_tol = 0.01
  rw [Example.heap_src]
  change (1e-2 : ℝ) = 0.01
  norm_num

/-- One source is plotted. -/
theorem example_plottable : plottable Example.world.K 1e8 0.01 1 example_plot_cols [some 10, some 2] [2, 3] =
    [((rowAt example_plot_cols 0, 2), 10)] := by
  classical
  unfold plottable
  change List.filter _ (detected 1 [(rowAt example_plot_cols 0, 2), (rowAt example_plot_cols 1, 3)] [some 10, some 2]) = _
  rw [detected_cons, if_pos (by norm_num), detected_cons, if_pos (by norm_num)]
  change List.filter _ [_, _] = _
  rw [List.filter_cons, if_pos (by simpa using ⟨example_stationary, rfl⟩), List.filter_cons,
    if_neg (by simpa using fun h => absurd h example_evolving)]
  rfl

/-- No circular source is left out. -/
theorem example_circular : unplottable Example.world.K 1e8 0.01 0.05 1 true example_plot_cols [some 10, some 2] = [] := by
  classical
  unfold unplottable
  change List.filter _ (detected 1 [rowAt example_plot_cols 0, rowAt example_plot_cols 1] [some 10, some 2]) = _
  rw [detected_cons, if_pos (by norm_num), detected_cons, if_pos (by norm_num)]
  change List.filter _ [_, _] = _
  have h0 := example_stationary
  have h1 : ¬ (rowAt example_plot_cols 1).ecc ≤ 0.05 := by
    change ¬ (0.3 : ℝ) ≤ 0.05
    norm_num
  simp [h0, h1, CircularIs]

/-- An eccentric source is. -/
theorem example_eccentric : unplottable Example.world.K 1e8 0.01 0.05 1 false example_plot_cols [some 10, some 2] =
    [(rowAt example_plot_cols 1, 2)] := by
  classical
  unfold unplottable
  change List.filter _ (detected 1 [rowAt example_plot_cols 0, rowAt example_plot_cols 1] [some 10, some 2]) = _
  rw [detected_cons, if_pos (by norm_num), detected_cons, if_pos (by norm_num)]
  change List.filter _ [_, _] = _
  have h0 := example_stationary
  have h1 : (0.05 : ℝ) < (rowAt example_plot_cols 1).ecc := by
    change (0.05 : ℝ) < 0.3
    norm_num
  have h2 := example_evolving
  have h3 : (rowAt example_plot_cols 1).merged = false := rfl
  simp [h0, h1, h2, h3, CircularIs]

/-- One circular source is plotted at twice its orbital frequency and ten times the noise, with its weight. The eccentric one that
is about to merge is not plotted, and nothing is said about it. -/
example (v : Canvas) : ∃ out st, Source_plot_sources_on_sc Example.world gy 0 1 none none true (.str "Stationary sources") {} {}
      (example_plot example_plot_cols, v) = (.ok out, st) ∧ st.2.messages = v.messages ∧
    ∃ new, st.2.marks = v.marks ++ new ∧
      scatters new = [([num (1e-3 * 2)], [num (10 * Real.sqrt (1e-40 * ((0 : ℕ) + 1)))], .each [1 * 20])] := by
  have hR := example_plot_ready example_plot_cols example_plot_rect rfl
  have hP : plottable Example.world.K 1e8 ((example_plot example_plot_cols).src 0).stat_tol 1
      ((example_plot example_plot_cols).src 0).cols ((example_plot example_plot_cols).snrs 5)
      ((example_plot example_plot_cols).harms 6) = [((rowAt example_plot_cols 0, 2), 10)] := by
    rw [example_plot_tol]
    exact example_plottable
  have hd : ((example_plot example_plot_cols).par 1).dict = Example.params 0 := by
    change (Example.heap.par 1).dict = _
    rw [Example.heap_par]
  have hr : default_range ≠ [] := by
    unfold default_range logspace
    simp
  obtain ⟨out, ho⟩ := (C53_source_succeeds (W := Example.world) (gy := gy) (cut := 1) (fig := none) (ax := none) (b := true)
    (lab := .str "Stationary sources") (vis := {}) (k := {}) (v := v) hR).2 (.inr ⟨.inr ⟨.inl rfl, by rw [Option.getD_none]; exact hr,
      fun f _ => ⟨_, by rw [hd]; exact Example.psd_params 0 f⟩⟩, fun x _ => ⟨_, by rw [hd]; exact Example.psd_params 0 _⟩,
      fun _ => rfl⟩)
  obtain ⟨st, hrun⟩ := exists_of_fst ho
  refine ⟨out, st, hrun, ?_, ?_⟩
  · refine C54_eccentric_missed hR ?_ hrun
    rw [example_plot_tol]
    exact example_circular
  · have h1 := (C53_source hR rfl hrun).2.2
    rw [hP] at h1
    obtain ⟨new, y, h2, h3, h4⟩ := h1 (by simp)
    refine ⟨new, h2, h3.trans ?_⟩
    rcases y with _ | ⟨y, _ | ⟨_, _⟩⟩
    · cases h4
    · obtain ⟨S, hS, h5, -⟩ := (List.forall₂_cons.1 h4).1
      rw [hd, Example.psd_params] at hS
      rw [(h5 _ (Except.ok.inj hS).symm (by positivity)).1 (by simp)]
      rfl
    · cases (List.forall₂_cons.1 h4).2

/-- The example can be used for distributions too. -/
example (v : Canvas) (U : Units) : ∃ res : Except PyErr (ℕ × ℕ) × Canvas,
    plot_source_variables Example.world.K U 0 "snr" (.one { x := [] }) (some [true, false]) true (example_plot example_plot_cols, v) =
      (res.1, (example_plot example_plot_cols, res.2)) ∧ res.1.isOk ∧
    shownSources example_plot_cols (some [true, false]) true = [0] := by
  refine ⟨_, C73_one (example_plot_ready example_plot_cols example_plot_rect rfl).sized (fun m hm => by cases hm; rfl)
    ⟨by simp [variableNames], fun _ => rfl⟩ _, ?_, ?_⟩
  · rw [plot_1D_run]
    rfl
  · unfold shownSources
    change List.filter _ [0, 1] = [0]
    simp [Chosen]
    rfl

end Legwork.Props
