import Verif.Lemmas.SnrTwin
import Verif.Props.SourceIndex
import Verif.Props.SourceSnr

/-!
# Results do not depend on the other sources (C37)
-/

namespace Legwork.Props

open Legwork.source Legwork.Spec
open PyM hiding bind

variable {W : World} {s t n r : ℕ} {h k h' : Heap} {ind : Index} {js : List ℕ} {ws : Option (List Bool)} {a : SnrArgs}
  {ok : Heap → Op → Prop}

private theorem item_part (hr : Reachable W ok h) (hb : (h.src s).sc_params.isSome)
    (hv : (h.src s).cls ≠ .VerificationBinaries) (hz : Sized h s) (hsel : Selects (h.src s).cols.n_sources ind js)
    (hi : getitem s ind h = (.ok t, k)) : ItemOf h s js k t ∧ PartOf h s js k t := by
  obtain ⟨t', k', h1, h2⟩ := C38_getitem hr hb hv hz hsel
  rw [hi] at h1
  obtain ⟨e1, rfl⟩ := Prod.mk.inj h1
  cases e1
  refine ⟨h2, partOf_item (Reachable.inv hr) ?_ hz h2 (selects_lt hsel)⟩
  have := run_inv (op := .getitem s ind) (Reachable.inv hr) (by simp)
  have he : (Op.run W (.getitem s ind) h).2 = k := by
    change ((getitem s ind >>= fun _ => pure ()) h).2 = k
    rw [bind_run, hi]
    rfl
  rwa [he] at this

/-- `get_snr` on an object holding some of the sources of another. -/
theorem get_snr_part (hP : PartOf h s js k t) (hv : (h.src s).cls ≠ .VerificationBinaries) (hz : Sized h s) (hn : n ≠ 0)
    (hs : CompleteSchedule W (h.src s)) (hw : FitsMask (h.src s).cols ws) (hrun : get_snr W s a n ws h = (.ok r, h')) :
    ∃ r' k', get_snr W t a n (ws.map (entries false js)) k = (.ok r', k') ∧
      k'.snrs r' = entries (some 0) js (h'.snrs r) ∧ storedHarm k' t = entries 0 js (storedHarm h' s) := by
  rw [get_snr_run] at hrun ⊢
  rw [hP.twin.settings.cls]
  have hno : FitsMask (h.src s).cols none := fun m hm => by cases hm
  rcases hc : (h.src s).cls with _ | _ | _ | _
  · rw [hc] at hrun
    exact hP.full hn hs hz.rect hw hrun
  · rw [hc] at hrun
    change Stationary_get_snr W s a h = _ at hrun
    change ∃ r' k', Stationary_get_snr W t a k = _ ∧ _
    unfold Stationary_get_snr at hrun ⊢
    obtain ⟨vs, h₁, h1, h2⟩ := bind_eq_ok hrun
    obtain ⟨v', k₁, g1, g2, g3, g4⟩ := hP.stationary hz.rect hno h1
    rw [Option.map_none] at g1
    rw [bind_ok g1]
    obtain ⟨q1, -, -, q2⟩ := harmNow_store h2
    obtain ⟨q3, -, -, q4⟩ := harmNow_store (store_snr_run t v' k₁)
    refine ⟨_, _, store_snr_run t v' k₁, ?_, ?_⟩
    · rw [q4, q2, g4 rfl]
    · exact q3.trans (g3.trans (by rw [← q1]; rfl))
  · rw [hc] at hrun
    change Evolving_get_snr W s a n h = _ at hrun
    change ∃ r' k', Evolving_get_snr W t a n k = _ ∧ _
    unfold Evolving_get_snr at hrun ⊢
    obtain ⟨vs, h₁, h1, h2⟩ := bind_eq_ok hrun
    obtain ⟨v', k₁, g1, g2, g3, g4⟩ := hP.evolving hn hs hz.rect hno h1
    rw [Option.map_none] at g1
    rw [bind_ok g1]
    obtain ⟨q1, -, -, q2⟩ := harmNow_store h2
    obtain ⟨q3, -, -, q4⟩ := harmNow_store (store_snr_run t v' k₁)
    refine ⟨_, _, store_snr_run t v' k₁, ?_, ?_⟩
    · rw [q4, q2, g4 rfl]
    · exact q3.trans (g3.trans (by rw [← q1]; rfl))
  · exact absurd hc hv

/-- **C37** (SNR). If `get_snr` works for a collection of any class, then it also works for `sources[ind]`, and its SNRs
and strongest harmonics are those of the collection, indexed; `ind` may repeat and reorder sources. A selection is
indexed likewise. -/
theorem C37_snr (hr : Reachable W ok h) (hb : (h.src s).sc_params.isSome) (hv : (h.src s).cls ≠ .VerificationBinaries)
    (hz : Sized h s) (hsel : Selects (h.src s).cols.n_sources ind js) (hn : n ≠ 0) (hs : CompleteSchedule W (h.src s))
    (hw : FitsMask (h.src s).cols ws) (hi : getitem s ind h = (.ok t, k)) (hrun : get_snr W s a n ws h = (.ok r, h')) :
    ∃ r' k', get_snr W t a n (ws.map (entries false js)) k = (.ok r', k') ∧
      k'.snrs r' = entries (some 0) js (h'.snrs r) ∧ storedHarm k' t = entries 0 js (storedHarm h' s) := by
  obtain ⟨hI, hP⟩ := item_part hr hb hv hz hsel hi
  exact get_snr_part hP hv hz hn hs hw hrun

/-- **C37** (halves). The arrays left by `get_snr_stationary` and `get_snr_evolving` likewise. -/
theorem C37_snr_halves (hr : Reachable W ok h) (hb : (h.src s).sc_params.isSome) (hv : (h.src s).cls ≠ .VerificationBinaries)
    (hz : Sized h s) (hsel : Selects (h.src s).cols.n_sources ind js) (hn : n ≠ 0) (hs : CompleteSchedule W (h.src s))
    (hw : FitsMask (h.src s).cols ws) (hi : getitem s ind h = (.ok t, k)) {vs : List (Option ℝ)} :
    (get_snr_stationary W s a ws h = (.ok vs, h') → ∃ vs' k',
      get_snr_stationary W t a (ws.map (entries false js)) k = (.ok vs', k') ∧
      storedSnr k' t = entries (some 0) js (storedSnr h' s) ∧ storedHarm k' t = entries 0 js (storedHarm h' s) ∧
      (ws = none → vs' = entries (some 0) js vs)) ∧
    (get_snr_evolving W s a n ws h = (.ok vs, h') → ∃ vs' k',
      get_snr_evolving W t a n (ws.map (entries false js)) k = (.ok vs', k') ∧
      storedSnr k' t = entries (some 0) js (storedSnr h' s) ∧ storedHarm k' t = entries 0 js (storedHarm h' s) ∧
      (ws = none → vs' = entries (some 0) js vs)) := by
  obtain ⟨-, hP⟩ := item_part hr hb hv hz hsel hi
  exact ⟨fun hrun => hP.stationary hz.rect hw hrun, fun hrun => hP.evolving hn hs hz.rect hw hrun⟩

private theorem forall₂_entries {β : Type} (d : β) {R : One → β → Prop} {c : Cols} {ys : List β}
    (hR : List.Forall₂ R (rows c) ys) (hlt : ∀ j ∈ js, j < c.n_sources) :
    List.Forall₂ R (rows (colsAt js c)) (entries d js ys) := by
  rw [rows_colsAt]
  unfold entries
  induction js with
  | nil => exact .nil
  | cons j js ih =>
    have hj := hlt j (by simp)
    refine .cons ?_ (ih fun i hi => hlt i (by simp [hi]))
    have hl := hR.length_eq
    rw [rows_length] at hl
    have := (List.forall₂_iff_get.1 hR).2 j (by rw [rows_length]; exact hj) (by omega)
    simp only [List.get_eq_getElem, rows_getElem] at this
    show R _ (ys.getD j d)
    rw [List.getD_eq_getElem?_getD, List.getElem?_eq_getElem (by omega)]
    exact this

private theorem part_rect (hi : ItemOf h s js k t) (hz : Sized h s) : Rect (k.src t).cols := (C38_sized hz hi).2.rect

/-- **C37** (strain). The strain amplitudes of `sources[ind]` are those of the collection, indexed. -/
theorem C37_strain (hr : Reachable W ok h) (hb : (h.src s).sc_params.isSome)
    (hv : (h.src s).cls ≠ .VerificationBinaries) (hz : Sized h s) (hsel : Selects (h.src s).cols.n_sources ind js)
    (hi : getitem s ind h = (.ok t, k)) (ns : List ℤ) {hs : List (List ℝ)} :
    (get_h_0_n W (h.src s).g (h.src s).cols ns none = .ok hs →
      get_h_0_n W (k.src t).g (k.src t).cols ns none = .ok (entries [] js hs)) ∧
    (get_h_c_n W (h.src s).g (h.src s).cols ns none = .ok hs →
      get_h_c_n W (k.src t).g (k.src t).cols ns none = .ok (entries [] js hs)) := by
  obtain ⟨hI, hP⟩ := item_part hr hb hv hz hsel hi
  have hno : ∀ c : Cols, FitsMask c none := fun c m hm => by cases hm
  rw [hI.settings.g]
  constructor
  · intro hrun
    obtain ⟨h1, h2⟩ := (C57_h_0_n hz.rect (hno _) ns hs).1 hrun
    refine (C57_h_0_n (part_rect hI hz) (hno _) ns _).2 ⟨h1, ?_⟩
    rw [hI.cols]
    exact forall₂_entries [] h2 (selects_lt hsel)
  · intro hrun
    obtain ⟨h1, h2⟩ := (C57_h_c_n hz.rect (hno _) ns hs).1 hrun
    refine (C57_h_c_n (part_rect hI hz) (hno _) ns _).2 ⟨h1, ?_⟩
    rw [hI.cols]
    exact forall₂_entries [] h2 (selects_lt hsel)

private theorem mergerTime_unique {K : Consts} {ex : Bool} {xs : List One} {ts ts' : List ℝ}
    (h : List.Forall₂ (MergerTimeOf K ex) xs ts) (h' : List.Forall₂ (MergerTimeOf K ex) xs ts') : ts = ts' := by
  induction h generalizing ts' with
  | nil => cases h'; rfl
  | cons a _ ih =>
    cases h' with
    | cons b c => rw [mergerTimeOf_iff.1 a, mergerTimeOf_iff.1 b, ih c]

/-- **C37** (merger times). The merger times of `sources[ind]` are those of the collection, indexed. -/
theorem C37_merger_time (hr : Reachable W ok h) (hb : (h.src s).sc_params.isSome)
    (hv : (h.src s).cls ≠ .VerificationBinaries) (hz : Sized h s) (hsel : Selects (h.src s).cols.n_sources ind js)
    (hi : getitem s ind h = (.ok t, k)) (save ex : Bool) : ∃ ts, (get_merger_time W s save none ex h).1 = .ok ts ∧
      (get_merger_time W t save none ex k).1 = .ok (entries 0 js ts) := by
  obtain ⟨hI, hP⟩ := item_part hr hb hv hz hsel hi
  have hno : ∀ c : Cols, FitsMask c none := fun c m hm => by cases hm
  have hr' := part_rect hI hz
  have key : ∀ {ts ts'}, List.Forall₂ (MergerTimeOf W.K ex) (rows (h.src s).cols) ts →
      List.Forall₂ (MergerTimeOf W.K ex) (rows (k.src t).cols) ts' → ts' = entries 0 js ts := by
    intro ts ts' h1 h2
    rw [hI.cols] at h2
    exact mergerTime_unique h2 (forall₂_entries 0 h1 (selects_lt hsel))
  rcases save with _ | _
  · obtain ⟨ts, h1, h2⟩ := C58_times (W := W) hz.rect (hno _) ex
    obtain ⟨ts', h3, h4⟩ := C58_times (W := W) hr' (hno _) ex
    exact ⟨ts, by rw [h1], by rw [h3, key h2 h4]⟩
  · obtain ⟨ts, h1, h2⟩ := C58_saved (W := W) hz.rect none ex
    obtain ⟨ts', h3, h4⟩ := C58_saved (W := W) hr' none ex
    exact ⟨ts, by rw [h1], by rw [h3, key h2 h4]⟩

/-! ### Example -/

theorem example_cls' : (Example.heap.src 0).cls ≠ .VerificationBinaries := by
  rw [Example.heap_src]
  simp [newObject, Example.args]

/-- A collection, the same sources backwards and one of them again. -/
example : ∃ t k r h' r' k', getitem 0 (.ints [-1, 0, 1]) Example.heap = (.ok t, k) ∧
    get_snr Example.world 0 {} 100 none Example.heap = (.ok r, h') ∧
    get_snr Example.world t {} 100 none k = (.ok r', k') ∧
    k'.snrs r' = entries (some 0) [1, 0, 1] (h'.snrs r) := by
  have hc : (Example.heap.src 0).cols = Example.cols := by rw [Example.heap_src]; rfl
  have hn : (Example.heap.src 0).cols.n_sources = 2 := by rw [hc]; rfl
  have hsel : Selects (Example.heap.src 0).cols.n_sources (.ints [-1, 0, 1]) [1, 0, 1] := by
    rw [hn]
    exact .cons (by unfold PosOf; omega) (.cons (by unfold PosOf; omega) (.cons (by unfold PosOf; omega) .nil))
  have hre := Example.reachable (ok := AnyCall) trivial
  have hb : (Example.heap.src 0).sc_params.isSome := by rw [Example.heap_src]; rfl
  obtain ⟨t, k, h1, -⟩ := C38_getitem hre hb example_cls' example_sized hsel
  obtain ⟨r, h', h2⟩ := example_get_snr none (fun m hm => by cases hm)
  obtain ⟨r', k', h3, h4, -⟩ := C37_snr hre hb example_cls' example_sized hsel (by norm_num) example_schedule
    (fun m hm => by cases hm) h1 h2
  exact ⟨t, k, r, h', r', k', h1, h2, h3, h4⟩

end Legwork.Props
