import Verif.Lemmas.Visualisation
import Verif.Spec.Index
import Verif.Props.SourceDerived

/-!
# What the plotting methods of `Source` do
-/

namespace Legwork.visualisation

open Legwork.source Legwork.Spec
open PyM hiding bind

section lists

variable {c : Cols} {snr : List (Option ℝ)} {harm : List ℕ}

/-- All sources with their SNRs and harmonics. -/
def triples (c : Cols) (snr : List (Option ℝ)) (harm : List ℕ) : List ((One × Option ℝ) × ℕ) := ((rows c).zip snr).zip harm

theorem triples_one (h1 : snr.length = c.n_sources) (h2 : harm.length = c.n_sources) :
    (triples c snr harm).map (fun x => x.1.1) = rows c := by
  have : (fun x : (One × Option ℝ) × ℕ => x.1.1) = Prod.fst ∘ Prod.fst := rfl
  unfold triples
  rw [this, ← List.map_map, List.map_fst_zip (by simp [rows_length, h1, h2]), List.map_fst_zip (by simp [rows_length, h1])]

theorem triples_snr (h1 : snr.length = c.n_sources) (h2 : harm.length = c.n_sources) :
    (triples c snr harm).map (fun x => x.1.2) = snr := by
  have : (fun x : (One × Option ℝ) × ℕ => x.1.2) = Prod.snd ∘ Prod.fst := rfl
  unfold triples
  rw [this, ← List.map_map, List.map_fst_zip (by simp [rows_length, h1, h2]), List.map_snd_zip (by simp [rows_length, h1])]

theorem triples_harm (h1 : snr.length = c.n_sources) (h2 : harm.length = c.n_sources) :
    (triples c snr harm).map (fun x => x.2) = harm := by
  unfold triples
  rw [List.map_snd_zip (by simp [rows_length, h1, h2])]

/-- One SNR is above the cutoff. -/
noncomputable def above1 (cut : ℝ) (x : Option ℝ) : Bool := (above cut [x]).any id

open Classical in
theorem above1_some (cut ρ : ℝ) : above1 cut (some ρ) = decide (cut < ρ) := by simp [above1, above]

theorem above1_none (cut : ℝ) : above1 cut none = false := by simp [above1, above]

theorem above_map {α : Type} (cut : ℝ) (l : List α) (f : α → Option ℝ) : above cut (l.map f) = l.map fun x => above1 cut (f x) := by
  unfold above
  rw [List.map_map]
  apply List.map_congr_left
  intro x _
  rcases h : f x with _ | ρ
  · simp [above1_none, h]
  · simp [above1_some, h]

theorem detected_filter {α β : Type} (cut : ℝ) (l : List α) (p : α → Bool) (f : α → β) (g : α → Option ℝ) :
    detected cut ((l.filter p).map f) ((l.filter p).map g) =
      (l.filter fun x => p x && above1 cut (g x)).map fun x => (f x, (g x).getD 0) := by
  induction l with
  | nil => rfl
  | cons x l ih =>
    rcases hp : p x with _ | _
    · simp [List.filter_cons, hp, ih]
    · rw [List.filter_cons, if_pos hp, List.map_cons, List.map_cons, List.filter_cons, hp, Bool.true_and]
      rcases hg : g x with _ | ρ
      · rw [detected_nan, above1_none, if_neg (by simp), ih]
      · rw [detected_cons, above1_some]
        by_cases hc : cut < ρ
        · rw [if_pos hc, if_pos (by simpa using hc), ih, List.map_cons, hg]
          rfl
        · rw [if_neg hc, if_neg (by simpa using hc), ih]

open Classical in
theorem plottable_eq {K : Consts} {T tol cut : ℝ} (h1 : snr.length = c.n_sources) (h2 : harm.length = c.n_sources) :
    plottable K T tol cut c snr harm =
      ((triples c snr harm).filter fun x => decide (x.1.1.StationaryOver K T tol) && above1 cut x.1.2 && !x.1.1.merged).map
        fun x => ((x.1.1, x.2), x.1.2.getD 0) := by
  have e : (rows c).zip harm = ((triples c snr harm).filter fun _ => true).map fun x => (x.1.1, x.2) := by
    rw [List.filter_true, ← List.zip_map', triples_one h1 h2, triples_harm h1 h2]
  have e2 : snr = ((triples c snr harm).filter fun _ => true).map fun x => x.1.2 := by
    rw [List.filter_true, triples_snr h1 h2]
  have hd := detected_filter cut (triples c snr harm) (fun _ => true) (fun x => (x.1.1, x.2)) fun x => x.1.2
  rw [← e, ← e2] at hd
  unfold plottable
  rw [hd, List.filter_map, List.filter_filter]
  congr 1
  congr 1
  funext x
  by_cases hs : x.1.1.StationaryOver K T tol <;> rcases hm : x.1.1.merged <;> rcases above1 cut x.1.2 <;>
    simp [Function.comp_def, hs, hm]

open Classical in
theorem unplottable_length {K : Consts} {T tol e cut : ℝ} {b : Bool} (h1 : snr.length = c.n_sources) (h2 : harm.length = c.n_sources) :
    (unplottable K T tol e cut b c snr).length =
      ((triples c snr harm).filter fun x => decide (CircularIs e x.1.1 (.bool b) ∧ StationaryIs K T tol x.1.1 (.bool false)) &&
        above1 cut x.1.2 && !x.1.1.merged).length := by
  have e1 : rows c = ((triples c snr harm).filter fun _ => true).map fun x => x.1.1 := by
    rw [List.filter_true, triples_one h1 h2]
  have e2 : snr = ((triples c snr harm).filter fun _ => true).map fun x => x.1.2 := by
    rw [List.filter_true, triples_snr h1 h2]
  have hd := detected_filter cut (triples c snr harm) (fun _ => true) (fun x => x.1.1) fun x => x.1.2
  rw [← e1, ← e2] at hd
  unfold unplottable
  rw [hd, List.filter_map, List.filter_filter, List.length_map]
  congr 2
  funext x
  by_cases hs : x.1.1.StationaryOver K T tol <;> by_cases hc : CircularIs e x.1.1 (.bool b) <;> rcases hm : x.1.1.merged <;>
    rcases above1 cut x.1.2 <;> simp [Function.comp_def, hs, hm, hc, StationaryIs]

theorem and3_map {α : Type} (l : List α) (f g k : α → Bool) :
    and3 (l.map f) (l.map g) (l.map k) = .ok (l.map fun x => f x && g x && k x) := by
  unfold and3
  rw [logical_and_map, ok_bind, logical_and_map]

theorem count_map' {α : Type} (l : List α) (p : α → Bool) : count (l.map p) = (l.filter p).length := by
  unfold count
  rw [List.filter_map, List.length_map]
  rfl

theorem any_map_id {α : Type} (l : List α) (p : α → Bool) : (l.map p).any id = true ↔ l.filter p ≠ [] := by
  simp [List.filter_eq_nil_iff]

end lists

theorem onHeap_ok {α β : Type} {m : M α} {a : α} {h h' : Heap} {v : Canvas} {k : α → MC β} (hm : m h = (.ok a, h')) :
    (onHeap m >>= k) (h, v) = k a (h', v) := by
  apply bind_ok
  unfold onHeap
  simp only [hm]

theorem onCanvas_ok {α β : Type} {m : C α} {a : α} {h : Heap} {v v' : Canvas} {k : α → MC β} (hm : m v = (.ok a, v')) :
    (onCanvas m >>= k) (h, v) = k a (h, v') := by
  apply bind_ok
  unfold onCanvas
  simp only [hm]

/-- Messages added. -/
def said (v : Canvas) (ms : List (String × String)) : Canvas := { v with messages := v.messages ++ ms }

theorem warn_run {α : Type} (kind : String) (l : List α) (p : α → Bool) (v : Canvas) :
    warn_evolving kind (l.map p) v = (.ok (), said v (notice (l.filter p).length kind)) := by
  unfold warn_evolving notice
  by_cases h : l.filter p = []
  · rw [if_neg (by rw [any_map_id]; simp [h]), if_pos (by simp [h])]
    simp [said, pure_run]
  · rw [if_pos ((any_map_id l p).2 h), if_neg (by simpa using h), count_map']
    rfl

variable {W : World} {gy : ℕ → List Mark → Num × Num} {s p r r' : ℕ} {h : Heap} {v : Canvas} {T tol cut : ℝ} {fig ax : Option ℕ}
  {b : Bool} {lab : Val} {vis : ScVis} {k : Style2}

theorem _root_.Legwork.Spec.PlotReady.mask (hR : PlotReady h s p r r' tol T) {a c : Tri} (ha : a ≠ .other) (hc : c ≠ .other) :
    open Classical in
    get_source_mask W s a c .none h = (.ok ((triples (h.src s).cols (h.snrs r) (h.harms r')).map fun x =>
      decide (CircularIs tol x.1.1 a ∧ StationaryIs W.K T (h.src s).stat_tol x.1.1 c)), h) := by
  rw [get_source_mask_run, (maskOf_iff W hR.sized.rect hR.ecc_tol hR.required hR.params).2
    ⟨ha, hc, T, fun _ => hR.time, rfl⟩, ← triples_one (hR.sized.snr r hR.snr) (hR.sized.harm r' hR.harm), List.map_map]
  rfl

/-- The stationary sources to be plotted. -/
noncomputable def stationaryOnes (W : World) (h : Heap) (s r r' : ℕ) (T cut : ℝ) : List ((One × Option ℝ) × ℕ) :=
  open Classical in
  (triples (h.src s).cols (h.snrs r) (h.harms r')).filter fun x =>
    decide (x.1.1.StationaryOver W.K T (h.src s).stat_tol) && above1 cut x.1.2 && !x.1.1.merged

/-- What is done about them. -/
noncomputable def plotted (W : World) (gy : ℕ → List Mark → Num × Num) (h : Heap) (s p r r' : ℕ) (T cut : ℝ) (fig ax : Option ℕ)
    (b : Bool) (lab : Val) (vis : ScVis) (k : Style2) : C (ℕ × ℕ) :=
  plot_sources_on_sc W gy ((stationaryOnes W h s r r' T cut).map fun x => x.1.1.f_orb * (x.2 : ℝ))
    ((stationaryOnes W h s r r' T cut).map fun x => x.1.2)
    ((h.src s).cols.weights.map fun _ => (stationaryOnes W h s r r' T cut).map fun x => x.1.1.weight.getD 0) cut (h.par p).dict
    fig ax b vis { k with kwargs := ("label", lab) :: k.kwargs }

theorem weights_rows {c : Cols} (hr : Rect c) {w : List ℝ} (hw : c.weights = some w) :
    w = (rows c).map fun x => x.weight.getD 0 := by
  have : (fun x : One => x.weight.getD 0) ∘ rowAt c = fun i => w.getD i 0 := by
    funext i
    simp [rowAt, hw]
  unfold rows
  rw [List.map_map, this]
  exact col_eq (hr.weights w hw) 0

open Classical in
theorem overlay_stationary_run (hR : PlotReady h s p r r' tol T) :
    overlay_stationary W gy s cut fig ax b lab vis k (h.snrs r)
      ((triples (h.src s).cols (h.snrs r) (h.harms r')).map fun x =>
        decide (x.1.1.StationaryOver W.K T (h.src s).stat_tol) && above1 cut x.1.2 && !x.1.1.merged) (h, v) =
      onCanvas (plotted W gy h s p r r' T cut fig ax b lab vis k) (h, v) := by
  have h1 := hR.sized.snr r hR.snr
  have h2 := hR.sized.harm r' hR.harm
  have hL := triples_one h1 h2
  have hl' : ∀ {α β : Type} (x : α) (g : α → MC β) (v : Heap × Canvas), ((PyM.lift (.ok x)) >>= g) v = g x v := fun _ _ _ => rfl
  unfold overlay_stationary plotted stationaryOnes
  set L := triples (h.src s).cols (h.snrs r) (h.harms r') with hLdef
  rw [onHeap_ok (m := getSrc s) (a := h.src s) (h' := h) rfl, hR.sized.rect.col_f_orb, ← hL, List.map_map, index_map, hl', hR.harm]
  rw [show subscriptable (some r') = .ok r' from rfl, hl']
  rw [bind_ok (m := PyM.get) (a := (h, v)) (h' := (h, v)) rfl]
  have hh : index (L.map fun x => decide (x.1.1.StationaryOver W.K T (h.src s).stat_tol) && above1 cut x.1.2 && !x.1.1.merged)
      (h.harms r') = .ok ((L.filter fun x => decide (x.1.1.StationaryOver W.K T (h.src s).stat_tol) && above1 cut x.1.2 &&
        !x.1.1.merged).map fun x => x.2) := by
    conv_lhs => rw [← triples_harm h1 h2]
    exact index_map _ _ _
  have hs' : index (L.map fun x => decide (x.1.1.StationaryOver W.K T (h.src s).stat_tol) && above1 cut x.1.2 && !x.1.1.merged)
      (h.snrs r) = .ok ((L.filter fun x => decide (x.1.1.StationaryOver W.K T (h.src s).stat_tol) && above1 cut x.1.2 &&
        !x.1.1.merged).map fun x => x.1.2) := by
    conv_lhs => rw [← triples_snr h1 h2]
    exact index_map _ _ _
  simp only [hh]
  rw [hl']
  have hw : index_weights (L.map fun x => decide (x.1.1.StationaryOver W.K T (h.src s).stat_tol) && above1 cut x.1.2 &&
      !x.1.1.merged) (h.src s).cols.weights = .ok ((h.src s).cols.weights.map fun _ => (L.filter fun x =>
        decide (x.1.1.StationaryOver W.K T (h.src s).stat_tol) && above1 cut x.1.2 && !x.1.1.merged).map
          fun x => x.1.1.weight.getD 0) := by
    rcases hw : (h.src s).cols.weights with _ | w
    · rfl
    · unfold index_weights
      simp only
      rw [weights_rows hR.sized.rect hw, ← hL, List.map_map, index_map]
      rfl
  rw [hw, hl', hs', hl']
  have hp : getSrcPar s h = (.ok p, h) := by
    unfold getSrcPar
    rw [bind_ok (m := getSrc s) (a := h.src s) (h' := h) rfl, hR.params]
    rfl
  rw [onHeap_ok hp, onHeap_ok (m := getPar p) (a := h.par p) (h' := h) rfl]
  rw [List.zipWith_map, List.zipWith_self]
  rfl

open Classical in
theorem Source_plot_run (hR : PlotReady h s p r r' tol T) :
    Source_plot_sources_on_sc W gy s cut fig ax b lab vis k (h, v) =
      let n := (unplottable W.K T (h.src s).stat_tol tol cut true (h.src s).cols (h.snrs r)).length
      if stationaryOnes W h s r r' T cut = [] then (.ok (fig, ax), (h, said v (notice n "circular" ++ notice n "eccentric")))
      else match plotted W gy h s p r r' T cut fig ax b lab vis k v with
        | (.ok out, v') => (.ok (some out.1, some out.2), (h, said v' (notice n "circular" ++ notice n "eccentric")))
        | (.error e, v') => (.error e, (h, v')) := by
  have h1 := hR.sized.snr r hR.snr
  have h2 := hR.sized.harm r' hR.harm
  have hl' : ∀ {α β : Type} (x : α) (g : α → MC β) (v : Heap × Canvas), ((PyM.lift (.ok x)) >>= g) v = g x v := fun _ _ _ => rfl
  have hd : above cut (h.snrs r) = (triples (h.src s).cols (h.snrs r) (h.harms r')).map fun x => above1 cut x.1.2 := by
    conv_lhs => rw [← triples_snr h1 h2]
    exact above_map _ _ _
  have hi : logical_not (h.src s).cols.merged = (triples (h.src s).cols (h.snrs r) (h.harms r')).map fun x => !x.1.1.merged := by
    unfold logical_not
    rw [hR.sized.rect.col_merged, ← triples_one h1 h2, List.map_map, List.map_map]
    rfl
  have tail : ∀ (out : Option ℕ × Option ℕ) (v : Canvas), (do
      let circ ← onHeap (get_source_mask W s (.bool true) (.bool false) .none)
      let circ_evol ← PyM.lift (and3 circ (above cut (h.snrs r)) (logical_not (h.src s).cols.merged))
      onCanvas (warn_evolving "circular" circ_evol)
      let ecc ← onHeap (get_source_mask W s (.bool true) (.bool false) .none)
      let ecc_evol ← PyM.lift (and3 ecc (above cut (h.snrs r)) (logical_not (h.src s).cols.merged))
      onCanvas (warn_evolving "eccentric" ecc_evol)
      pure out : MC _) (h, v) = (.ok out, (h, said v (notice
        (unplottable W.K T (h.src s).stat_tol tol cut true (h.src s).cols (h.snrs r)).length "circular" ++ notice
        (unplottable W.K T (h.src s).stat_tol tol cut true (h.src s).cols (h.snrs r)).length "eccentric"))) := by
    intro out v
    rw [onHeap_ok (hR.mask (by simp) (by simp)), hd, hi, and3_map, hl', onCanvas_ok (warn_run _ _ _ _),
      onHeap_ok (hR.mask (by simp) (by simp)), and3_map, hl', onCanvas_ok (warn_run _ _ _ _), ← unplottable_length h1 h2]
    simp [pure_run, said]
  unfold Source_plot_sources_on_sc
  rw [onHeap_ok (m := getSrc s) (a := h.src s) (h' := h) rfl, hR.snr]
  simp only
  rw [bind_ok (m := PyM.get) (a := (h, v)) (h' := (h, v)) rfl]
  simp only
  rw [onHeap_ok (hR.mask (by simp) (by simp))]
  have hand : and3 ((triples (h.src s).cols (h.snrs r) (h.harms r')).map fun x =>
      decide (CircularIs tol x.1.1 .none ∧ StationaryIs W.K T (h.src s).stat_tol x.1.1 (.bool true)))
      (above cut (h.snrs r)) (logical_not (h.src s).cols.merged) =
      .ok ((triples (h.src s).cols (h.snrs r) (h.harms r')).map fun x =>
        decide (x.1.1.StationaryOver W.K T (h.src s).stat_tol) && above1 cut x.1.2 && !x.1.1.merged) := by
    rw [hd, hi, and3_map]
    simp only [CircularIs, StationaryIs, true_and]
  rw [hand, hl']
  unfold overlay_if
  by_cases he : stationaryOnes W h s r r' T cut = []
  · rw [if_neg (by rw [any_map_id]; exact fun hn => hn he), if_pos he]
    rw [bind_ok (pure_run _ _)]
    exact tail _ _
  · rw [if_pos ((any_map_id _ _).2 he), if_neg he]
    rw [bind_run, bind_run, overlay_stationary_run hR]
    unfold onCanvas
    simp only
    rcases plotted W gy h s p r r' T cut fig ax b lab vis k v with ⟨e | out, v'⟩
    · rfl
    · simp only [pure_run]
      exact tail _ _

/-- Without SNRs nothing happens but an error message. -/
theorem Source_plot_no_snr (hn : (h.src s).snr = none) :
    Source_plot_sources_on_sc W gy s cut fig ax b lab vis k (h, v) =
      (.ok (none, none), (h, said v [("error", "No SNR has been calculated yet")])) := by
  unfold Source_plot_sources_on_sc
  rw [onHeap_ok (m := getSrc s) (a := h.src s) (h' := h) rfl, hn]
  rfl

/-! ### Distributions of variables -/

section distributions

variable {K : Consts} {c : Cols} {snr : Option (List (Option ℝ))} {ws : Option (List Bool)} {ex : Bool} {name : String} {U : Units}

/-- The separations. -/
noncomputable def seps (K : Consts) (c : Cols) : List ℝ := (rows c).map fun r => utils.get_a_from_f_orb K r.f_orb r.m_1 r.m_2

theorem seps_ok (hr : Rect c) : Source_a K c = .ok (seps K c) :=
  Props.C44_a (W := { K := K, env := ⟨.error .FileNotFoundError, fun _ _ _ => 0⟩, table := ⟨[], 0, []⟩, gSpline := fun _ _ => 0, odeint := fun _ _ _ => [], schedule := fun _ => [], psdFns := fun _ _ _ _ _ _ => .ok 0, noiseFns := fun _ _ _ => .ok 0 }) hr

theorem convert_ok (hr : Rect c) (hs : ∀ x, snr = some x → x.length = c.n_sources) (hk : Known snr name) :
    checked (convert c (seps K c) snr name) = .ok ((List.range c.n_sources).map (valueAt K c snr name)) := by
  have go : ∀ f : One → Num, (∀ i, valueAt K c snr name i = f (rowAt c i)) →
      (rows c).map f = (List.range c.n_sources).map (valueAt K c snr name) := by
    intro f hf
    unfold rows
    rw [List.map_map]
    apply List.map_congr_left
    intro i _
    exact (hf i).symm
  have key : ∀ {l : List Num}, convert c (seps K c) snr name = some (some l) →
      l = (List.range c.n_sources).map (valueAt K c snr name) →
      checked (convert c (seps K c) snr name) = .ok ((List.range c.n_sources).map (valueAt K c snr name)) := by
    intro l h1 h2
    rw [h1, h2]
    rfl
  obtain ⟨hk, hsn⟩ := hk
  unfold variableNames at hk
  simp only [List.mem_cons, List.not_mem_nil, or_false] at hk
  rcases hk with rfl | rfl | rfl | rfl | rfl | rfl | rfl | rfl | rfl
  · refine key rfl ?_
    rw [col_m_1 c, List.map_map]
    exact go _ fun i => rfl
  · refine key rfl ?_
    rw [hr.col_m_2, List.map_map]
    exact go _ fun i => rfl
  · refine key rfl ?_
    rw [hr.col_m_c, List.map_map]
    exact go _ fun i => rfl
  · refine key rfl ?_
    rw [hr.col_ecc, List.map_map]
    exact go _ fun i => rfl
  · refine key rfl ?_
    rw [hr.col_dist, List.map_map]
    exact go _ fun i => rfl
  · refine key rfl ?_
    rw [hr.col_f_orb, List.map_map]
    exact go _ fun i => rfl
  · refine key rfl ?_
    rw [hr.col_f_orb, List.map_map]
    refine go _ fun i => ?_
    change num (2 * (rowAt c i).f_orb) = num ((rowAt c i).f_orb * 2)
    rw [mul_comm]
  · refine key rfl ?_
    unfold seps
    rw [List.map_map]
    exact go _ fun i => rfl
  · obtain ⟨x, rfl⟩ := Option.isSome_iff_exists.1 (hsn rfl)
    refine key (l := x.map fun v => v.bind num) rfl ?_
    rw [col_eq (hs x rfl) none, List.map_map]
    apply List.map_congr_left
    intro i _
    rw [← col_eq (hs x rfl) none]
    rfl

theorem convert_fails (hk : ¬ Known snr name) (a : List ℝ) : checked (convert c a snr name) = .error .ValueError := by
  unfold Known variableNames at hk
  simp only [List.mem_cons, List.not_mem_nil, or_false] at hk
  unfold convert
  split_ifs with h1 h2 h3 h4 h5 h6 h7 h8 h9
  iterate 8 · exfalso; subst_vars; exact hk ⟨by simp, by simp⟩
  · subst h9
    rcases snr with _ | x
    · rfl
    · exact absurd ⟨by simp, by simp⟩ hk
  · rfl

open Classical in
theorem plot_mask_ok (hr : Rect c) (hw : FitsMask c ws) : plot_mask c ws ex = .ok ((List.range c.n_sources).map fun i =>
    decide (Chosen ws i ∧ (ex = true → (rowAt c i).merged = false))) := by
  have h1 : which c.n_sources ws = (List.range c.n_sources).map fun i => decide (Chosen ws i) := by
    rcases ws with _ | m
    · unfold which Chosen
      simp [List.map_const']
    · unfold which Chosen
      rw [col_eq (hw m rfl) false]
      apply List.map_congr_left
      intro i hi
      rw [← col_eq (hw m rfl) false]
      have : i < m.length := by rw [hw m rfl]; exact List.mem_range.1 hi
      simp [List.getD_eq_getElem?_getD, List.getElem?_eq_getElem this]
  have h2 : logical_not c.merged = (List.range c.n_sources).map fun i => !(rowAt c i).merged := by
    unfold logical_not
    rw [hr.col_merged]
    unfold rows
    rw [List.map_map, List.map_map]
    rfl
  unfold plot_mask
  rw [h1, h2]
  rcases ex with _ | _
  · simp [pure, Except.pure]
  · rw [_root_.if_pos rfl, logical_and_map]
    simp

theorem shown_index {α : Type} (f : ℕ → α) : open Classical in index ((List.range c.n_sources).map fun i =>
    decide (Chosen ws i ∧ (ex = true → (rowAt c i).merged = false))) ((List.range c.n_sources).map f) =
      .ok ((shownSources c ws ex).map f) := index_map _ _ _

open Classical in
theorem shown_weights (hr : Rect c) : index_weights ((List.range c.n_sources).map fun i =>
    decide (Chosen ws i ∧ (ex = true → (rowAt c i).merged = false))) c.weights =
      .ok (c.weights.map fun w => (shownSources c ws ex).map fun i => w.getD i 0) := by
  rcases hw : c.weights with _ | w
  · rfl
  · unfold index_weights
    simp only
    conv_lhs => rw [col_eq (hr.weights w hw) 0]
    rw [shown_index]
    rfl

theorem plot_one_run (hr : Rect c) (hw : FitsMask c ws) (hs : ∀ x, snr = some x → x.length = c.n_sources) (k : Args1)
    (hk : Known snr name) (v : Canvas) : plot_variables K U c snr name (.one k) ws ex v =
      plot_1D_dist (args_1D U name k ((shownSources c ws ex).map (valueAt K c snr name))
        (c.weights.map fun w => (shownSources c ws ex).map fun i => w.getD i 0)) v := by
  have hl' : ∀ {α β : Type} (x : α) (g : α → C β) (v : Canvas), ((PyM.lift (.ok x)) >>= g) v = g x v := fun _ _ _ => rfl
  unfold plot_variables
  rw [seps_ok hr, hl', plot_mask_ok hr hw, hl', convert_ok hr hs hk, hl']
  simp only
  rw [shown_weights hr, hl', shown_index, hl']

theorem plot_two_run (hr : Rect c) (hw : FitsMask c ws) (hs : ∀ x, snr = some x → x.length = c.n_sources) (k : Args2)
    {yname : String} (hk : Known snr name) (hk' : Known snr yname) (v : Canvas) :
    plot_variables K U c snr name (.two yname k) ws ex v =
      plot_2D_dist (args_2D U name yname k ((shownSources c ws ex).map (valueAt K c snr name))
        ((shownSources c ws ex).map (valueAt K c snr yname))
        (c.weights.map fun w => (shownSources c ws ex).map fun i => w.getD i 0)) v := by
  have hl' : ∀ {α β : Type} (x : α) (g : α → C β) (v : Canvas), ((PyM.lift (.ok x)) >>= g) v = g x v := fun _ _ _ => rfl
  unfold plot_variables
  rw [seps_ok hr, hl', plot_mask_ok hr hw, hl', convert_ok hr hs hk, hl']
  simp only
  rw [convert_ok hr hs hk', hl', shown_weights hr, hl', shown_index, hl', shown_index, hl']

theorem plot_fails (hr : Rect c) (hw : FitsMask c ws) (hs : ∀ x, snr = some x → x.length = c.n_sources) {plot : Plot}
    (hk : ¬ Known snr name ∨ ∃ yname k, plot = .two yname k ∧ ¬ Known snr yname) (v : Canvas) :
    plot_variables K U c snr name plot ws ex v = (.error .ValueError, v) := by
  have hl' : ∀ {α β : Type} (x : α) (g : α → C β) (v : Canvas), ((PyM.lift (.ok x)) >>= g) v = g x v := fun _ _ _ => rfl
  unfold plot_variables
  rw [seps_ok hr, hl', plot_mask_ok hr hw, hl']
  by_cases hx : Known snr name
  · obtain ⟨yname, k, rfl, hy⟩ := hk.resolve_left (not_not_intro hx)
    rw [convert_ok hr hs hx, hl']
    simp only
    rw [convert_fails hy]
    rfl
  · rw [convert_fails hx]
    rfl

end distributions

end Legwork.visualisation
