import Verif.Lemmas.EvolveEach
import Verif.Lemmas.SourceReach
import Verif.Props.SourceMasks

/-!
# Evolution of a source object
-/

namespace Legwork.source

open Legwork.Spec Legwork.evol Legwork.utils Legwork.Props
open PyM hiding bind

variable {W : World} {c : Cols} {T : ℕ → ℝ} {t : EvolTime} {h : Heap} {s : ℕ}

/-- The merger time used for source number `i`. -/
noncomputable def tmOf (K : Consts) (c : Cols) (i : ℕ) : ℝ :=
  match c.t_merge with
  | some t => t.getD i 0
  | none => if (rowAt c i).merged then 0 else tMerge1 K true (rowAt c i)

theorem timeLeft_iff {K : Consts} {i : ℕ} {tm : ℝ} : TimeLeft K (rowAt c i) tm ↔ tm = tmOf K c i := by
  unfold TimeLeft tmOf
  rcases hc : c.t_merge with _ | ts
  · have : (rowAt c i).t_merge = none := by simp [rowAt, hc]
    rw [this]
    simp only
    exact mergerTimeOf_iff
  · have : (rowAt c i).t_merge = some (ts.getD i 0) := by simp [rowAt, hc]
    rw [this]

/-- The columns with merger times. -/
noncomputable def timed (K : Consts) (c : Cols) : Cols :=
  { c with t_merge := some ((List.range c.n_sources).map (tmOf K c)) }

open Classical in
/-- The outcome of an evolution. -/
noncomputable def evolvedOf (W : World) (c : Cols) (T : ℕ → ℝ) : Evolved :=
  ⟨(List.range c.n_sources).map fun i => eccAfter W (T i) (tmOf W.K c i) (rowAt c i),
   (List.range c.n_sources).map fun i => freqAfter W (T i) (tmOf W.K c i) (rowAt c i),
   (List.range c.n_sources).map fun i => decide (tmOf W.K c i ≤ T i),
   (List.range c.n_sources).map fun i => max 0 (tmOf W.K c i - T i)⟩

theorem timed_of_some {K : Consts} (hr : Rect c) {ts : List ℝ} (hc : c.t_merge = some ts) : timed K c = c := by
  unfold timed tmOf
  rw [hc]
  simp only
  rw [← col_eq (hr.t_merge ts hc) 0, ← hc]

theorem timed_rect {K : Consts} (hr : Rect c) : Rect (timed K c) := by
  refine ⟨hr.m_2, hr.dist, hr.f_orb, hr.ecc, hr.merged, hr.weights, hr.position, hr.inclination, hr.polarisation, ?_,
    hr.angles⟩
  intro x hx
  cases hx
  simp [timed, Cols.n_sources]

theorem setSrc_self (h : Heap) (s : ℕ) : h.setSrc s (h.src s) = h := by
  unfold Heap.setSrc
  rw [Function.update_eq_self]

/-- Merger times are now there. -/
theorem ensure_t_merge_ok (hr : Rect (h.src s).cols) :
    ensure_t_merge W s h = (.ok (), h.setSrc s { h.src s with cols := timed W.K (h.src s).cols }) := by
  rcases ensure_t_merge_run W s h with ⟨ts, hts, hrun⟩ | ⟨hn, hrun⟩
  · rw [hrun, timed_of_some hr hts]
    exact Prod.ext rfl (setSrc_self h s).symm
  · have hcalc := calc_merger_time_ok W hr (w := List.replicate (h.src s).cols.n_sources true) (by simp) true
    have htm : (items (h.src s).cols (List.replicate (h.src s).cols.n_sources true)).map
        (fun x => if live x then tMerge1 W.K true x.1 else 0) =
        (List.range (h.src s).cols.n_sources).map (tmOf W.K (h.src s).cols) := by
      unfold items rows tmOf
      rw [hn]
      simp only
      have hz : ∀ l : List ℕ, ((l.map (rowAt (h.src s).cols)).zip (List.replicate l.length true)).map
          (fun x => if live x then tMerge1 W.K true x.1 else 0) =
          l.map fun i => if (rowAt (h.src s).cols i).merged then 0 else tMerge1 W.K true (rowAt (h.src s).cols i) := by
        intro l
        induction l with
        | nil => rfl
        | cons i l ih =>
          rw [List.length_cons, List.replicate_succ, List.map_cons, List.zip_cons_cons, List.map_cons, ih, List.map_cons]
          congr 1
          unfold live
          rcases (rowAt (h.src s).cols i).merged <;> simp
      have := hz (List.range (h.src s).cols.n_sources)
      rw [List.length_range] at this
      exact this
    rw [htm] at hcalc
    rcases hrun with ⟨e, he, -⟩ | ⟨ts, hts, hout, hh⟩
    · rw [hcalc] at he; cases he
    · rw [hcalc] at hts
      cases hts
      refine Prod.ext ?_ hh
      unfold ensure_t_merge
      rw [bind_run]
      simp only [getSrc]
      rw [hn]
      simp only
      rw [bind_run]
      unfold get_merger_time
      rw [bind_run]
      simp only [getSrc, if_true, which]
      rw [bind_run, lift_run, hcalc]
      simp only
      rw [bind_run]
      simp only [save_merger_time, if_true, modSrc, modify_run, lift_run]
      unfold index
      rw [if_pos (by simp)]
      rfl

theorem evolve_common_times (hr : Rect (h.src s).cols) : evolve_common W s t h =
    (calc_evolve W (timed W.K (h.src s).cols) ((List.range (h.src s).cols.n_sources).map (tmOf W.K (h.src s).cols)) t,
      h.setSrc s { h.src s with cols := timed W.K (h.src s).cols }) := by
  unfold evolve_common
  rw [bind_run, ensure_t_merge_ok hr]
  simp only
  rw [bind_run]
  simp only [getSrc, setSrc_src, Function.update_self]
  rw [bind_run]
  rfl

theorem rowAt_timed {K : Consts} (i : ℕ) : rowAt (timed K c) i = { rowAt c i with
    t_merge := some (((List.range c.n_sources).map (tmOf K c)).getD i 0) } := rfl

theorem evolve_common_ok (hr : Rect (h.src s).cols) (ht : TimesOf (h.src s).cols.n_sources T t) :
    evolve_common W s t h = (.ok (evolvedOf W (h.src s).cols T),
      h.setSrc s { h.src s with cols := timed W.K (h.src s).cols }) := by
  rw [evolve_common_times hr]
  have := calc_evolve_ok (W := W) (timed_rect (K := W.K) hr) ht (tmOf W.K (h.src s).cols)
  have hn : (timed W.K (h.src s).cols).n_sources = (h.src s).cols.n_sources := rfl
  rw [hn] at this
  rw [this]
  rfl

/-- Evolution in place. -/
theorem evolve_sources_ok (hr : Rect (h.src s).cols) (ht : TimesOf (h.src s).cols.n_sources T t) :
    evolve_sources W s t h = (.ok (), h.setSrc s { h.src s with
      cols := (h.src s).cols.evolved (evolvedOf W (h.src s).cols T) }) := by
  unfold evolve_sources
  rw [bind_run, evolve_common_ok hr ht]
  simp only [modSrc, modify_run, setSrc_src, Function.update_self]
  refine Prod.ext rfl ?_
  simp [Heap.setSrc, timed, Cols.evolved]

theorem evolve_sources_error {ts : List ℝ} (hr : Rect (h.src s).cols) (ht : ts.length ≠ (h.src s).cols.n_sources) :
    evolve_sources W s (.array ts) h =
      (.error .ValueError, h.setSrc s { h.src s with cols := timed W.K (h.src s).cols }) := by
  unfold evolve_sources
  rw [bind_run, evolve_common_times hr]
  unfold calc_evolve
  rw [times_all_error (n := (timed W.K (h.src s).cols).n_sources) ht]
  rfl

theorem getD_range {α : Type} {n i : ℕ} (hi : i < n) (f : ℕ → α) (d : α) : ((List.range n).map f).getD i d = f i := by
  simp [List.getD_eq_getElem?_getD, hi]

/-- Each source evolves. -/
theorem evolvesTo_evolved {i : ℕ} (hi : i < c.n_sources) :
    EvolvesTo W (T i) (rowAt c i) (rowAt (c.evolved (evolvedOf W c T)) i) := by
  classical
  have h1 : (rowAt (c.evolved (evolvedOf W c T)) i).ecc = eccAfter W (T i) (tmOf W.K c i) (rowAt c i) := getD_range hi _ _
  have h2 : (rowAt (c.evolved (evolvedOf W c T)) i).f_orb = freqAfter W (T i) (tmOf W.K c i) (rowAt c i) :=
    getD_range hi _ _
  have h3 : (rowAt (c.evolved (evolvedOf W c T)) i).merged = decide (tmOf W.K c i ≤ T i) := getD_range hi _ _
  have h4 : (rowAt (c.evolved (evolvedOf W c T)) i).t_merge = some (max 0 (tmOf W.K c i - T i)) := by
    simp only [rowAt, Cols.evolved, evolvedOf, Option.map_some]
    rw [getD_range hi]
  refine ⟨rfl, tmOf W.K c i, timeLeft_iff.2 rfl, h4, ?_⟩
  rw [h1, h2, h3]
  unfold eccAfter freqAfter
  rcases le_or_gt (tmOf W.K c i) (T i) with hle | hlt
  · left
    simp [hle]
  · right
    simp only [not_le.2 hlt, decide_false, if_false]
    refine ⟨hlt, trivial, orbitAfter_iff.2 ?_⟩
    split_ifs with he
    · exact ⟨rfl, rfl⟩
    · exact ⟨rfl, rfl⟩

end Legwork.source
