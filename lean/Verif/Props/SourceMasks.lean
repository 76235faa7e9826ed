import Verif.Lemmas.SourceMask
import Verif.Lemmas.Example

/-!
# Masks, strains and merger times of source collections (C35, C57, C58)
-/

namespace Legwork.Props

open Legwork.source Legwork.Spec Legwork.snr
open PyM hiding bind

/-! ### C35 -/

variable {W : World} {s p : ℕ} {h : Heap} {tol : ℝ}

open Classical in
/-- **C35.** `get_source_mask` changes nothing; its mask has one entry per source, true exactly for the sources that are
circular (at most the tolerance) or not, and stationary over the observation time or not, as asked. It succeeds
exactly when both questions are `None`, `True` or `False` and, if stationarity is asked for, the observation time can
be resolved. -/
theorem C35_mask (hr : Rect (h.src s).cols) (htol : (h.src s).ecc_tol = some tol)
    (hh : (h.src s).harmonics_required.isSome) (hp : (h.src s).sc_params = some p) (circular stationary : Tri) (t_obs : PVal)
    (m : List Bool) :
    (get_source_mask W s circular stationary t_obs h).2 = h ∧
    ((get_source_mask W s circular stationary t_obs h).1 = .ok m ↔ circular ≠ .other ∧ stationary ≠ .other ∧
      ∃ T, (stationary ≠ .none → MaskTime (h.par p).dict t_obs T) ∧ m.length = (h.src s).cols.n_sources ∧
        ∀ (i : ℕ) (r : One), (rows (h.src s).cols)[i]? = some r →
          m[i]? = some (decide (CircularIs tol r circular ∧ StationaryIs W.K T (h.src s).stat_tol r stationary))) := by
  rw [get_source_mask_run]
  refine ⟨rfl, ?_⟩
  simp only [maskOf_iff W hr htol hh hp]
  refine and_congr_right fun _ => and_congr_right fun _ => exists_congr fun T => and_congr_right fun _ => ?_
  constructor
  · rintro rfl
    refine ⟨by simp [rows_length], fun i r hi => ?_⟩
    rw [List.getElem?_map, hi]
    rfl
  · rintro ⟨hl, hm⟩
    apply List.ext_getElem?
    intro i
    rw [List.getElem?_map]
    rcases hi : (rows (h.src s).cols)[i]? with _ | r
    · change m[i]? = none
      rw [List.getElem?_eq_none_iff] at hi ⊢
      rw [hl, ← rows_length]
      exact hi
    · exact hm i r hi

/-- **C35.** Whatever is asked, exactly one of the four combined masks selects any given source. -/
theorem C35_partition (hr : Rect (h.src s).cols) (hb : Built (h.src s)) (t_obs : PVal) {T : ℝ}
    (hT : ∀ p, (h.src s).sc_params = some p → MaskTime (h.par p).dict t_obs T) {i : ℕ}
    (hi : i < (h.src s).cols.n_sources) :
    ∃! q : Bool × Bool, ∃ m, (get_source_mask W s (.bool q.1) (.bool q.2) t_obs h).1 = .ok m ∧ m[i]? = some true := by
  obtain ⟨tol, htol⟩ := Option.isSome_iff_exists.1 hb.ecc_tol
  obtain ⟨p, hp⟩ := Option.isSome_iff_exists.1 hb.sc_params
  obtain ⟨r, hri⟩ : ∃ r, (rows (h.src s).cols)[i]? = some r := by
    rw [← rows_length] at hi
    exact ⟨_, List.getElem?_eq_getElem hi⟩
  have key : ∀ q : Bool × Bool, (∃ m, (get_source_mask W s (.bool q.1) (.bool q.2) t_obs h).1 = .ok m ∧ m[i]? = some true) ↔
      (q.1 = true ↔ r.ecc ≤ tol) ∧ (q.2 = true ↔ r.StationaryOver W.K T (h.src s).stat_tol) := by
    classical
    have huniq : ∀ {T'}, MaskTime (h.par p).dict t_obs T' → T' = T := by
      intro T' h'
      have h1 := mask_t_obs_iff.2 h'
      have h2 := mask_t_obs_iff.2 (hT p hp)
      rw [h1] at h2
      cases h2
      rfl
    intro q
    rw [get_source_mask_run]
    simp only [maskOf_iff W hr htol hb.harmonics_required hp]
    constructor
    · rintro ⟨m, ⟨-, -, T', hT', rfl⟩, hm⟩
      rw [List.getElem?_map, hri] at hm
      have hm' := of_decide_eq_true (Option.some.inj hm)
      rw [huniq (hT' (by simp))] at hm'
      rcases q with ⟨_ | _, _ | _⟩ <;> simpa [CircularIs, StationaryIs] using hm'
    · intro hq
      refine ⟨_, ⟨by simp, by simp, T, fun _ => hT p hp, rfl⟩, ?_⟩
      rw [List.getElem?_map, hri]
      refine congrArg some (decide_eq_true ?_)
      rcases q with ⟨_ | _, _ | _⟩ <;> simpa [CircularIs, StationaryIs] using hq
  classical
  refine ⟨(decide (r.ecc ≤ tol), decide (r.StationaryOver W.K T (h.src s).stat_tol)), (key _).2 ⟨by simp, by simp⟩, ?_⟩
  rintro ⟨q1, q2⟩ hq
  obtain ⟨h1, h2⟩ := (key _).1 hq
  ext
  · simp [← h1]
  · simp [← h2]

/-- **C35.** Asking for circular sources and for eccentric ones, or for stationary ones and for evolving ones, gives
complementary masks; asking for `None` gives all sources; anything else is a `ValueError`. -/
theorem C35_complement (hr : Rect (h.src s).cols) (hb : Built (h.src s)) (t_obs : PVal) :
    (∃ m, (get_source_mask W s (.bool true) .none t_obs h).1 = .ok m ∧
      (get_source_mask W s (.bool false) .none t_obs h).1 = .ok (m.map not)) ∧
    (∀ T, (∀ p, (h.src s).sc_params = some p → MaskTime (h.par p).dict t_obs T) →
      ∃ m, (get_source_mask W s .none (.bool true) t_obs h).1 = .ok m ∧
        (get_source_mask W s .none (.bool false) t_obs h).1 = .ok (m.map not)) ∧
    (get_source_mask W s .none .none t_obs h).1 = .ok (List.replicate (h.src s).cols.n_sources true) ∧
    (∀ x, (get_source_mask W s .other x t_obs h).1 = .error .ValueError) ∧
    ∀ x, (get_source_mask W s x .other t_obs h).1 = .error .ValueError := by
  classical
  obtain ⟨tol, htol⟩ := Option.isSome_iff_exists.1 hb.ecc_tol
  obtain ⟨p, hp⟩ := Option.isSome_iff_exists.1 hb.sc_params
  obtain ⟨q, hq⟩ := Option.isSome_iff_exists.1 hb.harmonics_required
  simp only [get_source_mask_run, maskOf_iff W hr htol hb.harmonics_required hp]
  refine ⟨⟨_, ⟨by simp, by simp, 0, by simp, rfl⟩, by simp, by simp, 0, by simp, ?_⟩,
    fun T hT => ⟨_, ⟨by simp, by simp, T, fun _ => hT p hp, rfl⟩, by simp, by simp, T, fun _ => hT p hp, ?_⟩,
    ⟨by simp, by simp, 0, by simp, ?_⟩, fun x => ?_, fun x => ?_⟩
  · rw [List.map_map]
    refine List.map_congr_left fun r _ => ?_
    simp only [Function.comp, CircularIs, StationaryIs, and_true]
    by_cases hr : r.ecc ≤ tol <;> simp [hr, not_le.1, not_lt.2]
  · rw [List.map_map]
    refine List.map_congr_left fun r _ => ?_
    simp only [Function.comp, CircularIs, StationaryIs, true_and]
    by_cases hr : r.StationaryOver W.K T (h.src s).stat_tol <;> simp [hr]
  · rw [← rows_length, replicate_filter]
    simp [CircularIs, StationaryIs]
  · simp only [maskOf, htol, hq, hp]
    rfl
  · simp only [maskOf, htol, hq, hp]
    rcases x with _ | (_ | _) | _
    all_goals rfl

/-! #### A case -/

theorem example_rect : Rect (Example.heap.src 0).cols := by
  rw [Example.heap_src]
  constructor <;> simp [newObject, Example.cols, Cols.n_sources]

theorem example_built : Built (Example.heap.src 0) := by
  rw [Example.heap_src]
  constructor <;> rfl

theorem example_time (p : ℕ) (hp : (Example.heap.src 0).sc_params = some p) :
    MaskTime (Example.heap.par p).dict .none 1e8 := by
  rw [Example.heap_src] at hp
  cases hp
  rw [Example.heap_par]
  exact Or.inr ⟨rfl, _, rfl, Or.inl rfl⟩

example : ∃! q : Bool × Bool, ∃ m,
    (get_source_mask Example.world 0 (.bool q.1) (.bool q.2) .none Example.heap).1 = .ok m ∧ m[1]? = some true :=
  C35_partition example_rect example_built .none example_time (by rw [Example.heap_src]; exact Nat.lt_succ_self 1)

/-! ### C57 -/

theorem chosen_which (c : Cols) (w : Option (List Bool)) : chosen c (which c.n_sources w) = selected c w := by
  rcases w with _ | w
  · change (((rows c).zip (List.replicate c.n_sources true)).filter Prod.snd).map Prod.fst = rows c
    rw [← rows_length, replicate_filter, zip_map_right_self, List.filter_map, List.map_map]
    simp [Function.comp_def]
  · rfl

theorem mapM_forall₂ {α β : Type} {f : α → Except PyErr β} {l : List α} {out : List β} :
    l.mapM f = .ok out ↔ List.Forall₂ (fun x v => f x = .ok v) l out := by
  induction l generalizing out with
  | nil => rw [mapM_nil_ok]; constructor
           · rintro rfl; exact .nil
           · rintro ⟨⟩; rfl
  | cons x l ih =>
    rw [mapM_cons_ok, List.forall₂_cons_left_iff]
    constructor
    · rintro ⟨v, vs, h1, h2, rfl⟩
      exact ⟨v, vs, h1, ih.1 h2, rfl⟩
    · rintro ⟨v, vs, h1, h2, rfl⟩
      exact ⟨v, vs, h1, ih.2 h2, rfl⟩

theorem strain_rows_each {c : Cols} (hr : Rect c) {w : Option (List Bool)} (hw : FitsMask c w) {ns : List ℤ}
    {fn : List ℤ → List strain.Row → Except PyErr (List (List (List ℝ)))} {val : ℝ → ℝ → ℝ → ℝ → ℤ → ℝ}
    (hf : ∀ rows, fn ns rows = if (ns.any fun k => decide (k < 1)) then .error .ValueError
      else rows.mapM (strain.row_strain val ns)) {hs : List (List ℝ)} :
    get_strain fn c ns w = .ok hs ↔ (∀ k ∈ ns, 1 ≤ k) ∧ List.Forall₂ (fun r row =>
      if r.merged then row = List.replicate ns.length 0 else fn ns [r.strainRow] = .ok [[row]]) (selected c w) hs := by
  rw [get_strain_iff hr hw hf, chosen_which, mapM_forall₂]
  have hbad : (ns.any fun k => decide (k < 1)) = false ↔ ∀ k ∈ ns, 1 ≤ k := by
    simp
  rw [hbad]
  refine and_congr_right fun hk => ?_
  have : (fun (r : One) (row : List ℝ) => strain1 (strain.row_strain val ns) ns.length r = .ok row) = fun r row =>
      if r.merged then row = List.replicate ns.length 0 else fn ns [r.strainRow] = .ok [[row]] := by
    funext r row
    have hf' : fn ns [r.strainRow] = [r.strainRow].mapM (strain.row_strain val ns) := by
      rw [hf, hbad.2 hk]
      rfl
    rw [hf']
    unfold strain1
    split
    · rw [pure_ok]
      exact propext eq_comm
    · unfold head1
      rw [mapM_singleton_ok]
      unfold strain.row_strain One.strainRow
      rcases strain.modulation r.orient with e | m
      · simp [bind, Except.bind]
      · simp [bind, Except.bind, pure, Except.pure]
  rw [this]

/-- **C57.** `get_h_0_n` returns one row per selected source, in order: zeros for a merged source, otherwise what
`strain.h_0_n` gives for that source alone; and it fails only for harmonics below 1 or when that fails. -/
theorem C57_h_0_n {g : Option (ℤ → ℝ → ℝ)} {c : Cols} (hr : Rect c) {w : Option (List Bool)} (hw : FitsMask c w) (ns : List ℤ)
    (hs : List (List ℝ)) :
    get_h_0_n W g c ns w = .ok hs ↔ (∀ k ∈ ns, 1 ≤ k) ∧ List.Forall₂ (fun r row =>
      if r.merged then row = List.replicate ns.length 0 else strain.h_0_n W.K g ns [r.strainRow] = .ok [[row]])
      (selected c w) hs :=
  strain_rows_each hr hw (fun _ => rfl)

/-- **C57.** `get_h_c_n` likewise. -/
theorem C57_h_c_n {g : Option (ℤ → ℝ → ℝ)} {c : Cols} (hr : Rect c) {w : Option (List Bool)} (hw : FitsMask c w) (ns : List ℤ)
    (hs : List (List ℝ)) :
    get_h_c_n W g c ns w = .ok hs ↔ (∀ k ∈ ns, 1 ≤ k) ∧ List.Forall₂ (fun r row =>
      if r.merged then row = List.replicate ns.length 0 else strain.h_c_n W.K g ns [r.strainRow] = .ok [[row]])
      (selected c w) hs :=
  strain_rows_each hr hw (fun _ => rfl)

/-- **C57.** Every returned row has one entry per harmonic. -/
theorem C57_shape {g : Option (ℤ → ℝ → ℝ)} {c : Cols} (hr : Rect c) {w : Option (List Bool)} (hw : FitsMask c w)
    {ns : List ℤ} {hs : List (List ℝ)} (h : get_h_0_n W g c ns w = .ok hs ∨ get_h_c_n W g c ns w = .ok hs) :
    hs.length = (selected c w).length ∧ ∀ row ∈ hs, row.length = ns.length := by
  have key : ∀ {fn : List ℤ → List strain.Row → Except PyErr (List (List (List ℝ)))} {val : ℝ → ℝ → ℝ → ℝ → ℤ → ℝ},
      (∀ rows, fn ns rows = if (ns.any fun k => decide (k < 1)) then .error .ValueError
        else rows.mapM (strain.row_strain val ns)) → get_strain fn c ns w = .ok hs →
      hs.length = (selected c w).length ∧ ∀ row ∈ hs, row.length = ns.length := by
    intro fn val hf h
    obtain ⟨hk, h⟩ := (strain_rows_each hr hw hf).1 h
    refine ⟨h.length_eq.symm, ?_⟩
    intro row hrow
    obtain ⟨j, hj, rfl⟩ := List.getElem_of_mem hrow
    have hj' : j < (selected c w).length := by rw [h.length_eq]; exact hj
    have h1 := (List.forall₂_iff_get.1 h).2 j hj' hj
    simp only [List.get_eq_getElem] at h1
    split at h1
    · rw [h1]
      simp
    · rw [hf] at h1
      split at h1
      · cases h1
      · rw [mapM_singleton_ok] at h1
        unfold strain.row_strain One.strainRow at h1
        obtain ⟨m, -, hm⟩ := except_bind_ok.1 h1
        have hm' := Except.ok.inj hm
        simp only [List.map_cons, List.map_nil, List.cons.injEq, and_true] at hm'
        rw [← hm', List.length_map]
  rcases h with h | h
  · exact key (fun _ => rfl) h
  · exact key (fun _ => rfl) h

/-! ### C58 -/

theorem mergerTimeOf_iff {K : Consts} {ex : Bool} {r : One} {t : ℝ} :
    MergerTimeOf K ex r t ↔ t = if r.merged then 0 else tMerge1 K ex r := by
  unfold MergerTimeOf
  split
  · rfl
  · rw [get_t_merge_ecc_each]
    simp only [Except.ok.injEq]
    constructor
    · intro h
      exact (congrFun h ()).symm
    · rintro rfl
      rfl

theorem merger_select {c : Cols} {w : List Bool} (K : Consts) (ex : Bool) :
    np.select w ((items c w).map fun x => if live x then tMerge1 K ex x.1 else 0) =
      (chosen c w).map fun r => if r.merged then 0 else tMerge1 K ex r := by
  unfold chosen items
  generalize rows c = l
  induction l generalizing w with
  | nil => rcases w with _ | ⟨_, _⟩ <;> simp [np.select]
  | cons r l ih =>
    rcases w with _ | ⟨_ | _, w⟩
    · simp [np.select]
    · have := ih (w := w)
      simpa [np.select, live] using this
    · have := ih (w := w)
      simp only [np.select] at this ⊢
      cases hm : r.merged <;> simp [live, hm] <;> simpa [live] using this

/-- **C58.** Without saving, `get_merger_time` changes nothing and returns the merger times of the selected sources in
order. -/
theorem C58_times (hr : Rect (h.src s).cols) {w : Option (List Bool)} (hw : FitsMask (h.src s).cols w) (ex : Bool) :
    ∃ ts, get_merger_time W s false w ex h = (.ok ts, h) ∧
      List.Forall₂ (MergerTimeOf W.K ex) (selected (h.src s).cols w) ts := by
  have hwl := which_length hw
  refine ⟨(chosen (h.src s).cols (which (h.src s).cols.n_sources w)).map
    fun r => if r.merged then 0 else tMerge1 W.K ex r, ?_, ?_⟩
  rotate_left
  · rw [← chosen_which, List.forall₂_iff_get]
    refine ⟨(List.length_map _).symm, fun i h1 h2 => ?_⟩
    rw [mergerTimeOf_iff]
    simp
  · unfold get_merger_time
    rw [bind_run]
    simp only [getSrc, Bool.false_eq_true, if_false]
    rw [bind_run, calc_merger_time_ok W hr hwl, lift_run]
    simp only
    rw [bind_run]
    simp only [save_merger_time, Bool.false_eq_true, if_false, pure_run]
    rw [lift_run]
    unfold index
    rw [if_pos (by simp [items_length hwl, hwl]), merger_select]
    rfl

/-- **C58.** With saving, the selection is ignored: the merger times of all sources are stored and returned, and nothing
else changes. -/
theorem C58_saved (hr : Rect (h.src s).cols) (w : Option (List Bool)) (ex : Bool) :
    ∃ ts, get_merger_time W s true w ex h = (.ok ts, { h with
        src := Function.update h.src s { h.src s with cols := { (h.src s).cols with t_merge := some ts } } }) ∧
      List.Forall₂ (MergerTimeOf W.K ex) (rows (h.src s).cols) ts := by
  have hw : FitsMask (h.src s).cols none := by intro m hm; cases hm
  have hwl := which_length hw
  refine ⟨(chosen (h.src s).cols (which (h.src s).cols.n_sources none)).map
    fun r => if r.merged then 0 else tMerge1 W.K ex r, ?_, ?_⟩
  rotate_left
  · change List.Forall₂ _ (selected (h.src s).cols none) _
    rw [← chosen_which, List.forall₂_iff_get]
    refine ⟨(List.length_map _).symm, fun i h1 h2 => ?_⟩
    rw [mergerTimeOf_iff]
    simp
  · have hsel : ∀ ts : List ℝ, ts.length = (h.src s).cols.n_sources →
        np.select (which (h.src s).cols.n_sources none) ts = ts := by
      intro ts hts
      change np.select (List.replicate _ true) ts = ts
      rw [← hts, replicate_filter, np.select_filter]
      simp
    have hms := merger_select (c := (h.src s).cols) (w := which (h.src s).cols.n_sources none) W.K ex
    rw [hsel _ (by simp [items_length hwl])] at hms
    unfold get_merger_time
    rw [bind_run]
    simp only [getSrc, if_true]
    rw [bind_run, calc_merger_time_ok W hr hwl, lift_run]
    simp only
    rw [bind_run]
    simp only [save_merger_time, if_true, modSrc]
    rw [modify_run]
    simp only
    rw [lift_run]
    unfold index
    rw [if_pos (by simp [items_length hwl, hwl]), merger_select, hms]
    rfl

/-! #### Cases -/

example (ns : List ℤ) (hs : List (List ℝ)) :=
  C57_h_c_n (W := Example.world) (g := none) example_rect (w := some [false, true])
    (by intro m hm; cases hm; rw [Example.heap_src]; rfl) ns hs

noncomputable example := C58_saved (W := Example.world) example_rect none true

end Legwork.Props
