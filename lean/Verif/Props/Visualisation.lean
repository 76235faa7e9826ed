import Verif.Lemmas.Visualisation
import Verif.Lemmas.Example

/-!
# Plots: C53 (functions), C72, C74, C75
-/

namespace Legwork.Props

open Legwork.source Legwork.Spec Legwork.visualisation
open PyM hiding bind

variable {W : World} {gy : ℕ → List Mark → Num × Num} {d : Dict} {vis : ScVis} {k : Style2} {cut : ℝ} {fs : List ℝ}
  {snr : List (Option ℝ)} {ws : Option (List ℝ)} {fig ax : Option ℕ} {b : Bool} {v v' : Canvas} {out : ℕ × ℕ}

/-! ### C74 -/

theorem noise_amplitude_ok {yq : String} {y : List Num} (h : noise_amplitude W yq fs d = .ok y) :
    (yq = "ASD" ∨ yq = "h_c") ∧ List.Forall₂ (CurveAt W d (yq = "h_c")) fs y := by
  unfold noise_amplitude at h
  obtain ⟨PSD, h1, h2⟩ := except_bind_ok.1 h
  clear h
  by_cases ha : yq = "ASD"
  · rw [if_pos ha] at h2
    refine ⟨.inl ha, ?_⟩
    have h3 := Except.ok.inj h2
    subst h3
    clear h2
    induction fs generalizing PSD with
    | nil => rw [mapM_nil_ok] at h1; subst h1; exact .nil
    | cons f fs ih =>
      rw [mapM_cons_ok] at h1
      obtain ⟨S, PSD, hS, h1, rfl⟩ := h1
      refine .cons ⟨S, hS, fun x hx h0 => ⟨fun _ => ?_, fun h => ?_⟩, fun hx _ => ?_⟩ (ih PSD h1)
      · rw [hx]
        exact nsqrt_real h0
      · rw [ha] at h
        simp at h
      · rw [hx]
        exact nsqrt_top
  · rw [if_neg ha] at h2
    by_cases hh : yq = "h_c"
    · rw [if_pos hh] at h2
      refine ⟨.inr hh, ?_⟩
      have h3 := Except.ok.inj h2
      subst h3
      clear h2
      induction fs generalizing PSD with
      | nil => rw [mapM_nil_ok] at h1; subst h1; exact .nil
      | cons f fs ih =>
        rw [mapM_cons_ok] at h1
        obtain ⟨S, PSD, hS, h1, rfl⟩ := h1
        refine .cons ⟨S, hS, fun x hx h0 => ⟨fun h => absurd hh h, fun _ hf => ?_⟩, fun hx hf => ?_⟩ (ih PSD h1)
        · rw [hx]
          change nsqrt (nmul (num f) (num x)) = _
          rw [nmul_num, nsqrt_num (mul_nonneg hf h0)]
          rfl
        · rw [hx]
          change nsqrt (nmul (num f) (some ⊤)) = _
          rw [nmul_top (hf hh)]
          exact nsqrt_top
    · rw [if_neg hh] at h2
      cases h2

theorem foldl_min_le (f : ℝ) (fs : List ℝ) : ∀ x ∈ f :: fs, fs.foldl min f ≤ x := by
  induction fs generalizing f with
  | nil => intro x hx; simp at hx; simp [hx]
  | cons g fs ih =>
    intro x hx
    rw [List.foldl_cons]
    have h1 := ih (min f g) (min f g) (by simp)
    simp only [List.mem_cons] at hx
    rcases hx with rfl | rfl | hx
    · exact h1.trans (min_le_left _ _)
    · exact h1.trans (min_le_right _ _)
    · exact ih (min f g) x (by simp [hx])

theorem le_foldl_max (f : ℝ) (fs : List ℝ) : ∀ x ∈ f :: fs, x ≤ fs.foldl max f := by
  induction fs generalizing f with
  | nil => intro x hx; simp at hx; simp [hx]
  | cons g fs ih =>
    intro x hx
    rw [List.foldl_cons]
    have h1 := ih (max f g) (max f g) (by simp)
    simp only [List.mem_cons] at hx
    rcases hx with rfl | rfl | hx
    · exact (le_max_left _ _).trans h1
    · exact (le_max_right _ _).trans h1
    · exact ih (max f g) x (by simp [hx])

theorem foldl_min_mem (f : ℝ) (fs : List ℝ) : fs.foldl min f ∈ f :: fs := by
  induction fs generalizing f with
  | nil => simp
  | cons g fs ih =>
    rw [List.foldl_cons]
    have := ih (min f g)
    rw [List.mem_cons] at this
    rcases this with h | h
    · rcases min_choice f g with h' | h' <;> rw [h, h'] <;> simp
    · simp [h]

theorem foldl_max_mem (f : ℝ) (fs : List ℝ) : fs.foldl max f ∈ f :: fs := by
  induction fs generalizing f with
  | nil => simp
  | cons g fs ih =>
    rw [List.foldl_cons]
    have := ih (max f g)
    rw [List.mem_cons] at this
    rcases this with h | h
    · rcases max_choice f g with h' | h' <;> rw [h, h'] <;> simp
    · simp [h]

/-- **C74.** `plot_sensitivity_curve` draws exactly one curve, through the points whose abscissae are the frequencies asked
for and whose heights are the root of the PSD there (of frequency times PSD for the characteristic strain); the x axis
reaches exactly from the lowest to the highest frequency. -/
theorem C74_curve (h : plot_sensitivity_curve W vis fig ax b d v = (.ok out, v')) :
    ∃ new y, v'.marks = v.marks ++ new ∧ curves new = [((vis.frequency_range.getD default_range).map num, y)] ∧
      List.Forall₂ (CurveAt W d (vis.y_quantity = some "h_c")) (vis.frequency_range.getD default_range) y ∧
      ∃ lo hi, lo ∈ vis.frequency_range.getD default_range ∧ hi ∈ vis.frequency_range.getD default_range ∧
        (∀ x ∈ vis.frequency_range.getD default_range, lo ≤ x ∧ x ≤ hi) ∧
        (new.getLast?.map fun m => m.draw) = some (.set_xlim (num lo) (num hi)) := by
  obtain ⟨f, fs, y, hf, hy⟩ := plot_sensitivity_curve_ok (v := v) (by rw [h])
  rw [plot_sensitivity_curve_run hf hy v] at h
  have h2 := congrArg Prod.snd h
  simp only at h2
  subst h2
  rw [hf]
  refine ⟨_, y, rfl, ?_, ?_, fs.foldl min f, fs.foldl max f, foldl_min_mem f fs, foldl_max_mem f fs,
    fun x hx => ⟨foldl_min_le f fs x hx, le_foldl_max f fs x hx⟩, ?_⟩
  · unfold curves
    rw [map_draw]
    exact curves_drawsCurve vis f fs y
  · have h3 := (noise_amplitude_ok hy).2
    have e : (vis.y_quantity.getD "ASD" = "h_c") = (vis.y_quantity = some "h_c") := by
      rcases vis.y_quantity with _ | q <;> simp
    rw [e] at h3
    exact h3
  · rw [List.getLast?_map]
    unfold drawsCurve
    rcases vis.fill <;> simp

open Classical in
/-- **C74.** It fails exactly when the quantity is neither `"ASD"` nor `"h_c"`, no frequencies are given, or the PSD fails
at one of them. -/
theorem C74_fails : (∃ out, (plot_sensitivity_curve W vis fig ax b d v).1 = .ok out) ↔
    CurveOk W d vis := by
  unfold CurveOk
  constructor
  · rintro ⟨out, h⟩
    obtain ⟨f, fs, y, hf, hy⟩ := plot_sensitivity_curve_ok h
    rw [hf]
    obtain ⟨h1, h2⟩ := noise_amplitude_ok hy
    refine ⟨?_, by simp, ?_⟩
    · rcases hq : vis.y_quantity with _ | q
      · exact .inl rfl
      · rw [hq] at h1
        simpa using h1
    · intro g hg
      obtain ⟨i, hi, rfl⟩ := List.getElem_of_mem hg
      have hi' : i < y.length := by rw [← h2.length_eq]; exact hi
      obtain ⟨S, hS, -⟩ := (List.forall₂_iff_get.1 h2).2 i hi hi'
      exact ⟨S, hS⟩
  · rintro ⟨h1, h2, h3⟩
    rcases hf : vis.frequency_range.getD default_range with _ | ⟨f, fs⟩
    · exact absurd hf h2
    · rw [hf] at h3
      have hm : ∃ PSD, (f :: fs).mapM (fun f => psd_of_dict W d f) = .ok PSD := by
        generalize f :: fs = l at h3
        induction l with
        | nil => exact ⟨[], rfl⟩
        | cons g l ih =>
          obtain ⟨S, hS⟩ := h3 g (by simp)
          obtain ⟨PSD, hP⟩ := ih fun x hx => h3 x (by simp [hx])
          exact ⟨S :: PSD, mapM_cons_ok.2 ⟨S, PSD, hS, hP, rfl⟩⟩
      obtain ⟨PSD, hP⟩ := hm
      have hy : ∃ y, noise_amplitude W (vis.y_quantity.getD "ASD") (f :: fs) d = .ok y := by
        unfold noise_amplitude
        rw [hP]
        rcases h1 with h1 | h1 | h1 <;> rw [h1]
        · exact ⟨_, rfl⟩
        · exact ⟨_, rfl⟩
        · exact ⟨_, rfl⟩
      obtain ⟨y, hy⟩ := hy
      exact ⟨_, by rw [plot_sensitivity_curve_run hf hy v]⟩

/-! ### C53 -/

theorem axes_with_curve_marks (h : axes_with_curve W d vis fig ax v = (.ok out, v')) :
    v'.messages = v.messages ∧ v'.shows = v.shows ∧
    ∃ new, v'.marks = v.marks ++ new ∧ scatters new = [] ∧
      ((fig.isSome ∧ ax.isSome ∧ new = []) ∨ ((fig = none ∨ ax = none) ∧
        ∃ y, curves new = [((vis.frequency_range.getD default_range).map num, y)] ∧
          List.Forall₂ (CurveAt W d (vis.y_quantity = some "h_c")) (vis.frequency_range.getD default_range) y)) := by
  have key : plot_sensitivity_curve W vis none none false d v = (.ok out, v') →
      v'.messages = v.messages ∧ v'.shows = v.shows ∧
      ∃ new, v'.marks = v.marks ++ new ∧ scatters new = [] ∧
        ∃ y, curves new = [((vis.frequency_range.getD default_range).map num, y)] ∧
          List.Forall₂ (CurveAt W d (vis.y_quantity = some "h_c")) (vis.frequency_range.getD default_range) y := by
    intro h
    obtain ⟨new, y, h1, h2, h3, -⟩ := C74_curve h
    obtain ⟨f, fs, y', hf, hy⟩ := plot_sensitivity_curve_ok (v := v) (by rw [h])
    rw [plot_sensitivity_curve_run hf hy v] at h
    have h4 := congrArg Prod.snd h
    simp only at h4
    subst h4
    refine ⟨rfl, rfl, new, h1, ?_, y, h2, h3⟩
    have h5 : new = _ := (List.append_cancel_left h1).symm
    rw [h5]
    unfold scatters
    rw [map_draw]
    exact scatters_drawsCurve vis f fs y'
  rcases fig with _ | f <;> rcases ax with _ | a
  · obtain ⟨m1, m2, new, h1, h2, h3⟩ := key h
    exact ⟨m1, m2, new, h1, h2, .inr ⟨by simp, h3⟩⟩
  · obtain ⟨m1, m2, new, h1, h2, h3⟩ := key h
    exact ⟨m1, m2, new, h1, h2, .inr ⟨by simp, h3⟩⟩
  · obtain ⟨m1, m2, new, h1, h2, h3⟩ := key h
    exact ⟨m1, m2, new, h1, h2, .inr ⟨by simp, h3⟩⟩
  · cases h
    exact ⟨rfl, rfl, [], by simp, rfl, .inl ⟨rfl, rfl, rfl⟩⟩

/-- **C53.** `plot_sources_on_sc` draws one set of points: those of exactly the sources with an SNR above the cutoff, in order,
each at its frequency and at the height of its SNR times the root of the PSD (times the root of the frequency for the
characteristic strain), with sizes following the weights. -/
theorem C53_points (hl : fs.length = snr.length) (hw : ∀ x, ws = some x → x.length = snr.length)
    (hd : ∃ ρ : ℝ, some ρ ∈ snr ∧ cut < ρ) (hk : k.disttype = "scatter")
    (h : plot_sources_on_sc W gy fs snr ws cut d fig ax b vis k v = (.ok out, v')) :
    ∃ new y, v'.marks = v.marks ++ new ∧
      scatters new = [((detected cut fs snr).map fun p => num p.1, y,
        sizesOf k.scatter_s (ws.map fun w => (detected cut w snr).map fun p => p.1))] ∧
      List.Forall₂ (fun p y => HeightOf W d (vis.y_quantity = some "h_c") p.1 p.2 y) (detected cut fs snr) y := by
  classical
  obtain ⟨v₁, h1, h2, h3⟩ := plot_sources_run hl hw h
  rw [if_pos hd] at h3
  obtain ⟨-, -, -, -, y, hy, hm⟩ := h3
  obtain ⟨-, -, new, hn, hs, -⟩ := axes_with_curve_marks h1
  rw [hn, List.append_assoc] at hm
  refine ⟨_, y, hm, ?_, ?_⟩
  · unfold scatters at hs ⊢
    rw [List.filterMap_append, hs, List.nil_append, map_draw, List.filterMap_append, scatters_draws2]
    change (if k.disttype = "scatter" then _ else _) ++ [] = _
    rw [if_pos hk]
    simp only [Style2.args, List.append_nil]
    unfold sizes sizesOf detectedWeights
    rcases ws with _ | w <;> simp [Function.comp_def]
  · have := heights_ok hy
    simpa using this

/-- **C53.** With figure and axes given nothing but the sources is drawn on them; otherwise one sensitivity curve is. -/
theorem C53_curve (hl : fs.length = snr.length) (hw : ∀ x, ws = some x → x.length = snr.length)
    (h : plot_sources_on_sc W gy fs snr ws cut d fig ax b vis k v = (.ok out, v')) :
    ∃ new, v'.marks = v.marks ++ new ∧
      ((fig.isSome ∧ ax.isSome ∧ curves new = []) ∨ ((fig = none ∨ ax = none) ∧
        ∃ y, curves new = [((vis.frequency_range.getD default_range).map num, y)] ∧
          List.Forall₂ (CurveAt W d (vis.y_quantity = some "h_c")) (vis.frequency_range.getD default_range) y)) := by
  classical
  obtain ⟨v₁, h1, h2, h3⟩ := plot_sources_run hl hw h
  obtain ⟨-, -, new, hn, hs, hc⟩ := axes_with_curve_marks h1
  by_cases hd : ∃ ρ : ℝ, some ρ ∈ snr ∧ cut < ρ
  · rw [if_pos hd] at h3
    obtain ⟨-, -, -, -, y, hy, hm⟩ := h3
    rw [hn, List.append_assoc] at hm
    refine ⟨_, hm, ?_⟩
    have e : ∀ a lo hi, curves (new ++ List.map (fun d : Draw => (⟨out.2, styled v.rc, d⟩ : Mark))
          (draws2 a ++ [Draw.set_ylim lo hi])) = curves new := by
      intro a lo hi
      unfold curves
      rw [List.filterMap_append, map_draw, List.filterMap_append, curves_draws2]
      exact List.append_nil _
    rw [e]
    rcases hc with ⟨a1, a2, rfl⟩ | hc
    · exact .inl ⟨a1, a2, rfl⟩
    · exact .inr hc
  · rw [if_neg hd] at h3
    refine ⟨new, h3.1.trans hn, ?_⟩
    rcases hc with ⟨a1, a2, rfl⟩ | hc
    · exact .inl ⟨a1, a2, rfl⟩
    · exact .inr hc

/-- **C53.** If no SNR is above the cutoff (a NaN never is) no points are drawn and an error is logged. -/
theorem C53_none (hl : fs.length = snr.length) (hw : ∀ x, ws = some x → x.length = snr.length)
    (hd : ∀ ρ : ℝ, some ρ ∈ snr → ρ ≤ cut)
    (h : plot_sources_on_sc W gy fs snr ws cut d fig ax b vis k v = (.ok out, v')) :
    (∃ new, v'.marks = v.marks ++ new ∧ scatters new = []) ∧ v'.shows = v.shows ∧
    v'.messages = v.messages ++ [("error", "There are no binaries above provided `snr_cutoff`")] := by
  classical
  obtain ⟨v₁, h1, h2, h3⟩ := plot_sources_run hl hw h
  rw [if_neg (fun ⟨ρ, h1, h2⟩ => absurd (hd ρ h1) (not_le.2 h2))] at h3
  obtain ⟨m1, m2, new, hn, hs, -⟩ := axes_with_curve_marks h1
  refine ⟨⟨new, h3.1.trans hn, hs⟩, h3.2.2.1.trans m2, ?_⟩
  rw [h3.2.2.2, m1]

/-- **C53.** The sources do not change the limits of the y axis: the last thing done is to set them to what they were after
the curve had been drawn; and the plot is shown exactly if that was asked for, when it is complete. -/
theorem C53_limits (hl : fs.length = snr.length) (hw : ∀ x, ws = some x → x.length = snr.length)
    (hd : ∃ ρ : ℝ, some ρ ∈ snr ∧ cut < ρ)
    (h : plot_sources_on_sc W gy fs snr ws cut d fig ax b vis k v = (.ok out, v')) :
    (∃ curve points, v'.marks = v.marks ++ curve ++ points ++
      [⟨out.2, styled v.rc, .set_ylim (gy out.2 (v.marks ++ curve)).1 (gy out.2 (v.marks ++ curve)).2⟩] ∧
      scatters curve = [] ∧ curves points = []) ∧
    v'.shows = v.shows ++ (if b then [v'.marks.length] else []) := by
  classical
  obtain ⟨v₁, h1, h2, h3⟩ := plot_sources_run hl hw h
  rw [if_pos hd] at h3
  obtain ⟨-, -, -, hsh, y, hy, hm⟩ := h3
  obtain ⟨-, m2, new, hn, hs, -⟩ := axes_with_curve_marks h1
  constructor
  · refine ⟨new, List.map (fun d : Draw => (⟨out.2, styled v.rc, d⟩ : Mark)) (draws2 (k.args
      ((detected cut fs snr).map fun x => num x.1) y (detectedWeights cut ws snr) out.1 out.2)), ?_, hs, ?_⟩
    · rw [hm, hn, List.map_append, ← List.append_assoc]
      rfl
    · unfold curves
      rw [map_draw, curves_draws2]
  · rw [hsh, m2]
    rcases b <;> simp

theorem mapM_psd {l : List ℝ} (h : ∀ f ∈ l, ∃ S, psd_of_dict W d f = .ok S) :
    ∃ PSD, l.mapM (fun f => psd_of_dict W d f) = .ok PSD := by
  induction l with
  | nil => exact ⟨[], rfl⟩
  | cons g l ih =>
    obtain ⟨S, hS⟩ := h g (by simp)
    obtain ⟨PSD, hP⟩ := ih fun x hx => h x (by simp [hx])
    exact ⟨S :: PSD, mapM_cons_ok.2 ⟨S, PSD, hS, hP, rfl⟩⟩

/-- **C53.** For arrays of the same length the call succeeds exactly when the curve can be drawn (or need not be), the PSD can
be evaluated at the sources above the cutoff, and, if there are any, no option clashes with an argument. -/
theorem C53_succeeds (hl : fs.length = snr.length) (hw : ∀ x, ws = some x → x.length = snr.length) :
    (∃ out, (plot_sources_on_sc W gy fs snr ws cut d fig ax b vis k v).1 = .ok out) ↔
      ((fig.isSome ∧ ax.isSome) ∨ CurveOk W d vis) ∧ (∀ p ∈ detected cut fs snr, ∃ S, psd_of_dict W d p.1 = .ok S) ∧
      ((∃ ρ : ℝ, some ρ ∈ snr ∧ cut < ρ) → k.disttype = "scatter" → k.kwargs.has "s" = false) := by
  classical
  constructor
  · rintro ⟨out, h⟩
    obtain ⟨v', h⟩ : ∃ v', plot_sources_on_sc W gy fs snr ws cut d fig ax b vis k v = (.ok out, v') := ⟨_, Prod.ext h rfl⟩
    obtain ⟨v₁, h1, h2, h3⟩ := plot_sources_run hl hw h
    refine ⟨?_, ?_, ?_⟩
    · rcases fig with _ | f <;> rcases ax with _ | a
      · exact .inr (C74_fails.1 ⟨out, congrArg Prod.fst h1⟩)
      · exact .inr (C74_fails.1 ⟨out, congrArg Prod.fst h1⟩)
      · exact .inr (C74_fails.1 ⟨out, congrArg Prod.fst h1⟩)
      · exact .inl ⟨rfl, rfl⟩
    · intro p hp
      by_cases hd : ∃ ρ : ℝ, some ρ ∈ snr ∧ cut < ρ
      · rw [if_pos hd] at h3
        obtain ⟨-, -, -, -, y, hy, -⟩ := h3
        have h4 := heights_ok hy
        obtain ⟨i, hi, rfl⟩ := List.getElem_of_mem hp
        have hi' : i < y.length := by rw [← h4.length_eq]; exact hi
        obtain ⟨S, hS, -⟩ := (List.forall₂_iff_get.1 h4).2 i hi hi'
        exact ⟨S, hS⟩
      · exfalso
        apply hd
        unfold detected at hp
        obtain ⟨x, hx, hx'⟩ := List.mem_filterMap.1 hp
        rcases hx2 : x.2 with _ | ρ
        · rw [hx2] at hx'
          simp at hx'
        · rw [hx2] at hx'
          simp only at hx'
          split_ifs at hx' with hc
          exact ⟨ρ, hx2 ▸ (List.of_mem_zip hx).2, hc⟩
    · intro hd
      rw [if_pos hd] at h3
      exact h3.1
  · rintro ⟨h1, h2, h3⟩
    have ha : ∃ p v₁, axes_with_curve W d vis fig ax { v with rc := styled v.rc } = (.ok p, v₁) := by
      rcases h1 with ⟨h1, h1'⟩ | h1
      · obtain ⟨f, rfl⟩ := Option.isSome_iff_exists.1 h1
        obtain ⟨a, rfl⟩ := Option.isSome_iff_exists.1 h1'
        exact ⟨_, _, rfl⟩
      · obtain ⟨out, ho⟩ := (C74_fails (fig := none) (ax := none) (b := false) (v := { v with rc := styled v.rc })).2 h1
        rcases fig with _ | f <;> rcases ax with _ | a
        · exact ⟨out, _, Prod.ext ho rfl⟩
        · exact ⟨out, _, Prod.ext ho rfl⟩
        · exact ⟨out, _, Prod.ext ho rfl⟩
        · exact ⟨_, _, rfl⟩
    obtain ⟨⟨f, a⟩, v₁, ha⟩ := ha
    have hrc : v₁.rc = styled v.rc := by
      have := (axes_with_curve_on W d vis fig ax { v with rc := styled v.rc }).settings
      rw [ha] at this
      exact this
    unfold plot_sources_on_sc
    rw [style_run, bind_ok ha]
    simp only
    by_cases hd : ∃ ρ : ℝ, some ρ ∈ snr ∧ cut < ρ
    · rw [if_pos ((above_any cut snr).2 hd)]
      have hy : ∃ y, heights W d (decide (vis.y_quantity = some "h_c")) ((detected cut fs snr).map Prod.fst)
          ((detected cut fs snr).map fun x => some x.2) = .ok y := by
        obtain ⟨PSD, hP⟩ := mapM_psd (l := (detected cut fs snr).map Prod.fst) (by
          intro f hf
          obtain ⟨p, hp, rfl⟩ := List.mem_map.1 hf
          exact h2 p hp)
        unfold heights
        rw [hP]
        exact ⟨_, rfl⟩
      obtain ⟨y, hy⟩ := hy
      have hrun := @overlay_run W gy d vis k f a cut fs snr ws hl hw y hy (h3 hd) v₁ (by rw [hrc, styled_styled])
      rw [bind_ok hrun]
      rcases b with _ | _ <;> exact ⟨_, rfl⟩
    · rw [if_neg (fun hh => hd ((above_any cut snr).1 hh))]
      exact ⟨_, rfl⟩

theorem exists_of_fst {α β : Type} {x : α × β} {a : α} (h : x.1 = a) : ∃ b, x = (a, b) := ⟨x.2, Prod.ext h rfl⟩

/-- Three sources, one of them without an SNR and one below the cutoff, on a new figure with characteristic strains. -/
example (v : Canvas) : ∃ out v',
    plot_sources_on_sc Example.world gy [1e-3, 2e-3, 3e-3] [some 10, none, some 2] (some [1, 2, 3]) 7 (Example.params 0) none none
      true { y_quantity := some "h_c" } {} v = (.ok out, v') ∧
    ∃ new, v'.marks = v.marks ++ new ∧ scatters new =
      [([num 1e-3], [num (10 * Real.sqrt (1e-40 * ((0 : ℕ) + 1)) * Real.sqrt 1e-3)], .each [1 * 20])] := by
  have hd : ∀ {α : Type} (a b c : α), detected 7 [a, b, c] [some 10, none, some 2] = [(a, (10 : ℝ))] := by
    intro α a b c
    rw [detected_cons, if_pos (by norm_num), detected_nan, detected_cons, if_neg (by norm_num)]
    rfl
  have hr : default_range ≠ [] := by
    unfold default_range logspace
    simp
  have hw : ∀ x, some ([1, 2, 3] : List ℝ) = some x → x.length = [some (10 : ℝ), none, some 2].length := by
    intro x hx
    cases hx
    rfl
  have hok := (C53_succeeds (W := Example.world) (gy := gy) (fs := [1e-3, 2e-3, 3e-3]) (snr := [some 10, none, some 2])
    (ws := some [1, 2, 3]) (cut := 7) (d := Example.params 0) (fig := none) (ax := none) (b := true)
    (vis := { y_quantity := some "h_c" }) (k := {}) (v := v) rfl hw).2
    ⟨.inr ⟨.inr (.inr rfl), by rw [Option.getD_none]; exact hr, fun f _ => ⟨_, Example.psd_params 0 f⟩⟩, fun p _ => ⟨_, Example.psd_params 0 p.1⟩, fun _ _ => rfl⟩
  obtain ⟨out, hok⟩ := hok
  obtain ⟨v', h⟩ := exists_of_fst hok
  obtain ⟨new, y, h1, h2, h3⟩ := C53_points rfl hw ⟨10, by simp, by norm_num⟩ rfl h
  refine ⟨out, v', h, new, h1, ?_⟩
  rw [h2, hd, Option.map_some, hd]
  rw [hd] at h3
  rcases y with _ | ⟨y, _ | ⟨_, _⟩⟩
  · cases h3
  · obtain ⟨S, hS, h4, -⟩ := (List.forall₂_cons.1 h3).1
    rw [Example.psd_params] at hS
    rw [(h4 _ (Except.ok.inj hS).symm (by positivity)).2 rfl (by norm_num)]
    rfl
  · cases (List.forall₂_cons.1 h3).2

/-- **C53.** Where the curve and a source have the same frequency, the source is exactly its SNR times as high as the
curve. -/
theorem C53_ratio {hc : Prop} {f ρ : ℝ} {y c : Num} {S : ℝ} (hS : psd_of_dict W d f = .ok (S : WithTop ℝ)) (h0 : 0 ≤ S)
    (hf : 0 ≤ f) (hy : HeightOf W d hc f ρ y) (hcv : CurveAt W d hc f c) :
    ∃ x : ℝ, c = num x ∧ y = num (ρ * x) := by
  obtain ⟨S1, hS1, h1, -⟩ := hy
  obtain ⟨S2, hS2, h2, -⟩ := hcv
  rw [hS] at hS1 hS2
  have e1 := (Except.ok.inj hS1).symm
  have e2 := (Except.ok.inj hS2).symm
  by_cases hh : hc
  · refine ⟨Real.sqrt (f * S), (h2 S e2 h0).2 hh hf, ?_⟩
    rw [(h1 S e1 h0).2 hh hf, Real.sqrt_mul hf, mul_assoc, mul_comm (Real.sqrt S)]
    rfl
  · exact ⟨Real.sqrt S, (h2 S e2 h0).1 hh, (h1 S e1 h0).1 hh⟩

/-! ### C72 -/

/-- **C72.** Every plotting function, also one that fails, uses the axes given or exactly one new figure, only adds to those
axes, draws in LEGWORK's style, puts the user's settings back, and returns the figure and axes used. -/
theorem C72_settings (a1 : Args1) (a2 : Args2) :
    PlotsOn a1.fig a1.ax v (plot_1D_dist a1 v).1 (plot_1D_dist a1 v).2 ∧
    PlotsOn a2.fig a2.ax v (plot_2D_dist a2 v).1 (plot_2D_dist a2 v).2 ∧
    PlotsOn fig ax v (plot_sensitivity_curve W vis fig ax b d v).1 (plot_sensitivity_curve W vis fig ax b d v).2 ∧
    PlotsOn fig ax v (plot_sources_on_sc W gy fs snr ws cut d fig ax b vis k v).1
      (plot_sources_on_sc W gy fs snr ws cut d fig ax b vis k v).2 :=
  ⟨plot_1D_dist_on a1 v, plot_2D_dist_on a2 v, plot_sensitivity_curve_on W vis fig ax b d v,
    plot_sources_on_sc_on W gy fs snr ws cut d fig ax b vis k v⟩

/-- **C72.** One of the settings of the style, and one that is not. -/
example (rc : String → Val) : styled rc "font.family" = .str "serif" ∧ styled rc "lines.linewidth" = rc "lines.linewidth" :=
  ⟨rfl, rfl⟩

/-! ### C75 -/

theorem lookup_set (d : Kwargs) (k key : String) (x : Val) :
    List.lookup key (d.set k x) = if key = k then some x else List.lookup key d := by
  unfold Kwargs.set
  induction d with
  | nil =>
    simp only [List.any_nil, Bool.false_eq_true, if_false, List.nil_append, List.lookup_cons]
    by_cases h : key = k
    · simp [h]
    · have h' : (key == k) = false := by simpa using h
      simp [h, h']
  | cons kv d ih =>
    obtain ⟨k', x'⟩ := kv
    by_cases hk : k' = k
    · subst hk
      simp only [List.any_cons, decide_true, Bool.true_or, _root_.if_true, List.map_cons, List.lookup_cons]
      by_cases h : key = k'
      · simp [h]
      · have h' : (key == k') = false := by simpa using h
        simp only [h', if_neg h]
        by_cases ha : d.any fun kv => kv.1 = k'
        · rw [if_pos ha, if_neg h] at ih
          exact ih
        · have e : d.map (fun kv => if kv.1 = k' then (k', x) else kv) = d := by
            conv_rhs => rw [← List.map_id d]
            apply List.map_congr_left
            intro kv hkv
            rw [if_neg]
            · rfl
            · intro hh
              exact ha (List.any_eq_true.2 ⟨kv, hkv, by simpa using hh⟩)
          rw [e]
    · simp only [List.any_cons, hk, decide_false, Bool.false_or]
      by_cases ha : d.any fun kv => kv.1 = k
      · rw [if_pos ha] at ih ⊢
        simp only [List.map_cons, if_neg hk, List.lookup_cons]
        rw [ih]
        by_cases h : key = k'
        · subst h
          simp [hk]
        · have h' : (key == k') = false := by simpa using h
          simp [h']
      · rw [if_neg ha] at ih ⊢
        rw [List.cons_append, List.lookup_cons, List.lookup_cons, ih]
        by_cases h : key = k'
        · subst h
          simp [hk]
        · have h' : (key == k') = false := by simpa using h
          simp [h']

theorem lookup_update (d kw : Kwargs) (hkw : (kw.map Prod.fst).Nodup) (key : String) :
    List.lookup key (d.update kw) = (List.lookup key kw).or (List.lookup key d) := by
  unfold Kwargs.update
  induction kw generalizing d with
  | nil => simp
  | cons kv kw ih =>
    obtain ⟨k, x⟩ := kv
    simp only [List.map_cons, List.nodup_cons] at hkw
    rw [List.foldl_cons, ih _ hkw.2, lookup_set, List.lookup_cons]
    by_cases h : key = k
    · subst h
      have : List.lookup key kw = none := by
        rw [List.lookup_eq_none_iff]
        intro p hp
        have : p.1 ≠ key := fun h => hkw.1 (h ▸ List.mem_map_of_mem hp)
        simpa using this.symm
      simp [this]
    · have h' : (key == k) = false := by simpa using h
      simp [h, h']

/-- **C75.** A histogram is made of the data with their weights, or with `log_scale` of the logarithms of their numbers in
their unit; limits given for the x axis are then converted as well. Options given replace the defaults. -/
theorem C75_hist (a : Args1) (hh : a.disttype = "hist") (hkw : (a.kwargs.map Prod.fst).Nodup) :
    (plot_1D_dist a v).1 = .ok (axesFor a.fig a.ax v) ∧ ∃ new opts, (plot_1D_dist a v).2.marks = v.marks ++ new ∧
      (new.map fun m => m.draw) =
        (if a.log_scale then .hist (a.x.map fun x => nlog10 (value a.unit x)) a.weights a.color opts
          else .hist a.x a.weights a.color opts) ::
        finish (if a.log_scale then nlog10 else id) a.xlabel a.ylabel a.xlim a.ylim ∧
      ∀ key, List.lookup key opts = (List.lookup key a.kwargs).or
        (if key = "bins" then some (.str "fd") else if key = "density" then some (.bool true) else none) := by
  rw [plot_1D_run]
  refine ⟨rfl, _, (defaults1 a.disttype).update a.kwargs, rfl, ?_, fun key => ?_⟩
  · rw [List.map_map]
    have e : ((fun m : Mark => m.draw) ∘ fun d => (⟨(axesFor a.fig a.ax v).2, styled v.rc, d⟩ : Mark)) = id := rfl
    rw [e, List.map_id]
    unfold draws1 finish xlim_1D
    rw [if_pos hh]
    rcases a.log_scale <;> rcases a.xlabel <;> rcases a.ylabel <;> rcases a.xlim <;> rcases a.ylim <;> simp [hh]
  · rw [lookup_update _ _ hkw, hh]
    congr 1
    by_cases h1 : key = "bins"
    · subst h1
      rfl
    · by_cases h2 : key = "density"
      · subst h2
        rfl
      · have e1 : (key == "bins") = false := by simpa using h1
        have e2 : (key == "density") = false := by simpa using h2
        simp [defaults1, List.lookup_cons, e1, e2, h1, h2]

/-- **C75.** The other distributions of one variable are made of the data themselves, with their weights; `log_scale` is left
to seaborn. -/
theorem C75_other (a : Args1) (hh : a.disttype = "kde" ∨ a.disttype = "ecdf") (hkw : (a.kwargs.map Prod.fst).Nodup) :
    (plot_1D_dist a v).1 = .ok (axesFor a.fig a.ax v) ∧ ∃ new opts, (plot_1D_dist a v).2.marks = v.marks ++ new ∧
      (new.map fun m => m.draw) =
        (if a.disttype = "kde" then .kdeplot a.x a.weights a.color a.log_scale opts
          else .ecdfplot a.x a.weights a.color a.log_scale opts) :: finish id a.xlabel a.ylabel a.xlim a.ylim ∧
      Overrides (if a.disttype = "kde" then [("gridsize", .num 200), ("legend", .bool true)]
        else [("stat", .str "proportion"), ("legend", .bool true)]) a.kwargs opts := by
  rw [plot_1D_run]
  refine ⟨rfl, _, (defaults1 a.disttype).update a.kwargs, rfl, ?_, fun key => ?_⟩
  · rw [List.map_map]
    have e : ((fun m : Mark => m.draw) ∘ fun d => (⟨(axesFor a.fig a.ax v).2, styled v.rc, d⟩ : Mark)) = id := rfl
    rw [e, List.map_id]
    unfold draws1 finish xlim_1D
    rcases hh with hh | hh <;>
      rcases a.xlabel <;> rcases a.ylabel <;> rcases a.xlim <;> rcases a.ylim <;> simp [hh]
  · rw [lookup_update _ _ hkw]
    rcases hh with hh | hh <;> simp [hh, defaults1]

/-- **C75.** A scatter plot shows each pair of values once, with sizes proportional to the weights, on logarithmic axes where
asked for. -/
theorem C75_scatter (a : Args2) (hh : a.disttype = "scatter") (hs : a.kwargs.has "s" = false)
    (hkw : (a.kwargs.map Prod.fst).Nodup) :
    (plot_2D_dist a v).1 = .ok (axesFor a.fig a.ax v) ∧ ∃ new opts, (plot_2D_dist a v).2.marks = v.marks ++ new ∧
      (new.map fun m => m.draw) =
        .scatter a.x a.y (match a.weights with | none => .one a.scatter_s | some w => .each (w.map fun w => w * a.scatter_s))
          a.color opts ::
        ((if a.log_scale = .inl true ∨ ∃ q, a.log_scale = .inr (true, q) then [.set_xscale "log"] else []) ++
         (if a.log_scale = .inl true ∨ ∃ q, a.log_scale = .inr (q, true) then [.set_yscale "log"] else []) ++
         finish id a.xlabel a.ylabel a.xlim a.ylim) ∧
      Overrides [] a.kwargs opts := by
  rw [plot_2D_run fun _ => hs]
  refine ⟨rfl, _, Kwargs.update [] a.kwargs, rfl, ?_, fun key => lookup_update _ _ hkw key⟩
  rw [List.map_map]
  have e : ((fun m : Mark => m.draw) ∘ fun d => (⟨(axesFor a.fig a.ax v).2, styled v.rc, d⟩ : Mark)) = id := rfl
  rw [e, List.map_id]
  unfold draws2 finish sizes
  rw [if_pos hh]
  have e1 : (if a.log_scale = .inl true ∨ ∃ q, a.log_scale = .inr (true, q) then [Draw.set_xscale "log"] else []) =
      if (expand a.log_scale).1 then [Draw.set_xscale "log"] else [] := by
    rcases a.log_scale with (_ | _) | ⟨_ | _, _ | _⟩ <;> simp [expand]
  have e2 : (if a.log_scale = .inl true ∨ ∃ q, a.log_scale = .inr (q, true) then [Draw.set_yscale "log"] else []) =
      if (expand a.log_scale).2 then [Draw.set_yscale "log"] else [] := by
    rcases a.log_scale with (_ | _) | ⟨_ | _, _ | _⟩ <;> simp [expand]
  rw [e1, e2]
  rcases a.weights <;> rcases a.xlabel <;> rcases a.ylabel <;> rcases a.xlim <;> rcases a.ylim <;> simp

/-- **C75.** A density of two variables is made of the pairs of values with their weights; logarithmic axes are left to
seaborn, which is told which of the two to use. -/
theorem C75_density (a : Args2) (hh : a.disttype = "kde") (hkw : (a.kwargs.map Prod.fst).Nodup) :
    (plot_2D_dist a v).1 = .ok (axesFor a.fig a.ax v) ∧ ∃ new lx ly opts,
      (plot_2D_dist a v).2.marks = v.marks ++ new ∧
      (new.map fun m => m.draw) =
        .kdeplot2 a.x a.y a.weights a.color (lx, ly) opts :: finish id a.xlabel a.ylabel a.xlim a.ylim ∧
      (a.log_scale = .inl lx ∧ ly = lx ∨ a.log_scale = .inr (lx, ly)) ∧
      Overrides [("gridsize", .num 200), ("legend", .bool true), ("levels", .num 10), ("thresh", .num 0.02)] a.kwargs
        opts := by
  rw [plot_2D_run fun h => by rw [hh] at h; simp at h]
  refine ⟨rfl, _, (expand a.log_scale).1, (expand a.log_scale).2, Kwargs.update [("gridsize", .num 200),
    ("legend", .bool true), ("levels", .num 10), ("thresh", .num 0.02)] a.kwargs, rfl, ?_, ?_,
    fun key => lookup_update _ _ hkw key⟩
  · rw [List.map_map]
    have e : ((fun m : Mark => m.draw) ∘ fun d => (⟨(axesFor a.fig a.ax v).2, styled v.rc, d⟩ : Mark)) = id := rfl
    rw [e, List.map_id]
    unfold draws2 finish
    rcases a.xlabel <;> rcases a.ylabel <;> rcases a.xlim <;> rcases a.ylim <;> simp [hh]
  · rcases a.log_scale with b | ⟨b, c⟩ <;> simp [expand]

/-- **C75** (in fact). The documented option `s` of scatter plots cannot be given: it is always a `TypeError`. -/
theorem C75_s_rejected (a : Args2) (hh : a.disttype = "scatter") (hs : a.kwargs.has "s" = true) :
    (plot_2D_dist a v).1 = .error .TypeError := plot_2D_clash hh hs v

/-- **C75** (in fact). A misspelt kind of plot is not noticed: nothing is drawn and the call succeeds. -/
theorem C75_unknown_silent (a1 : Args1) (a2 : Args2)
    (h1 : a1.disttype ≠ "hist" ∧ a1.disttype ≠ "kde" ∧ a1.disttype ≠ "ecdf")
    (h2 : a2.disttype ≠ "scatter" ∧ a2.disttype ≠ "kde") :
    (plot_1D_dist a1 v).1 = .ok (axesFor a1.fig a1.ax v) ∧
    (∃ new, (plot_1D_dist a1 v).2.marks = v.marks ++ new ∧
      (new.map fun m => m.draw) = finish id a1.xlabel a1.ylabel a1.xlim a1.ylim) ∧
    (plot_2D_dist a2 v).1 = .ok (axesFor a2.fig a2.ax v) ∧
    ∃ new, (plot_2D_dist a2 v).2.marks = v.marks ++ new ∧
      (new.map fun m => m.draw) = finish id a2.xlabel a2.ylabel a2.xlim a2.ylim := by
  rw [plot_1D_run, plot_2D_run fun h => absurd h h2.1]
  refine ⟨rfl, ⟨_, rfl, ?_⟩, rfl, _, rfl, ?_⟩
  · rw [List.map_map]
    have e : ((fun m : Mark => m.draw) ∘ fun d => (⟨(axesFor a1.fig a1.ax v).2, styled v.rc, d⟩ : Mark)) = id := rfl
    rw [e, List.map_id]
    unfold draws1 finish xlim_1D
    rcases a1.xlabel <;> rcases a1.ylabel <;> rcases a1.xlim <;> rcases a1.ylim <;> simp [h1]
  · rw [List.map_map]
    have e : ((fun m : Mark => m.draw) ∘ fun d => (⟨(axesFor a2.fig a2.ax v).2, styled v.rc, d⟩ : Mark)) = id := rfl
    rw [e, List.map_id]
    unfold draws2 finish
    rcases a2.xlabel <;> rcases a2.ylabel <;> rcases a2.xlim <;> rcases a2.ylim <;> simp [h2]

/-- The number shown in a histogram of logarithms: two thousand metres in kilometres are `log10 2`. -/
example : nlog10 (value 1000 (num 2000)) = num (Real.logb 10 2) := by
  unfold value
  rw [nmul_num]
  have e : (2000 : ℝ) * (1 / 1000) = 2 := by norm_num
  rw [e]
  unfold nlog10 num
  have h2 : ¬ ((2 : ℝ) : EReal) < 0 := by
    rw [not_lt]
    exact_mod_cast (by norm_num : (0 : ℝ) ≤ 2)
  have h3 : ((2 : ℝ) : EReal) ≠ 0 := by exact_mod_cast (by norm_num : (2 : ℝ) ≠ 0)
  simp only [EReal.coe_ne_top, h2, h3, if_false, EReal.toReal_coe]

end Legwork.Props
