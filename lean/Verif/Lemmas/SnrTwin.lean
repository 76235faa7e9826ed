import Verif.Lemmas.Twin

/-!
# SNRs of a part of a collection
-/

namespace Legwork.source

open Legwork.Spec Legwork.snr
open PyM hiding bind

variable {W : World} {s t n : ℕ} {h k : Heap} {js : List ℕ} {ws : Option (List Bool)}

/-- `t` is made of the sources number `js` of `s`. -/
structure PartOf (h : Heap) (s : ℕ) (js : List ℕ) (k : Heap) (t : ℕ) : Prop where
  twin : Twin h s k t
  cols : (k.src t).cols = colsAt js (h.src s).cols
  lt : ∀ j ∈ js, j < (h.src s).cols.n_sources
  snr : snrNow k t = entries (some 0) js (snrNow h s)
  harm : harmNow k t = entries 0 js (harmNow h s)
  snr_length : (snrNow h s).length = (h.src s).cols.n_sources
  harm_length : (harmNow h s).length = (h.src s).cols.n_sources

theorem entries_replicate {α : Type} (d x : α) {n : ℕ} (h : ∀ j ∈ js, j < n) :
    entries d js (List.replicate n x) = List.replicate js.length x := by
  refine List.ext_getElem? fun i => ?_
  rw [entries_get?]
  by_cases hi : i < js.length
  · have hj := h _ (List.getElem_mem hi)
    rw [List.getElem?_eq_getElem hi, List.getElem?_replicate, if_pos hi]
    simp [List.getD_eq_getElem?_getD, hj]
  · rw [List.getElem?_eq_none (by omega), List.getElem?_replicate, if_neg hi]
    rfl

theorem which_entries (h : ∀ j ∈ js, j < n) (ws : Option (List Bool)) :
    which js.length (ws.map (entries false js)) = entries false js (which n ws) := by
  rcases ws with _ | w
  · exact (entries_replicate false true h).symm
  · rfl

theorem live_entries {c : Cols} {w : List Bool} (hw : w.length = c.n_sources) (h : ∀ j ∈ js, j < c.n_sources)
    (p : One × Bool → Bool) :
    (js.map fun j => (rowAt c j, w.getD j false)).map p = entries false js ((items c w).map p) := by
  unfold entries
  rw [List.map_map]
  refine List.map_congr_left fun j hj => ?_
  rw [List.getD_eq_getElem?_getD, List.getElem?_map, items_at hw (h j hj)]
  rfl

theorem assign_entries {α : Type} (d : α) {m : List Bool} {xs ys : List α} (hx : m.length = xs.length)
    (hy : m.length = ys.length) (h : ∀ j ∈ js, j < m.length) :
    np.assign (entries false js m) (entries d js xs) (np.select (entries false js m) (entries d js ys)) =
      entries d js (np.assign m xs (np.select m ys)) := by
  refine List.ext_getElem? fun i => ?_
  rw [assign_select (by rw [entries_length, entries_length]) (by rw [entries_length, entries_length]), entries_get?,
    entries_get?, entries_get?, entries_get?]
  rcases hi : js[i]? with _ | j
  · simp
  · have hj := h j (List.mem_of_getElem? hi)
    simp only [Option.map_some, List.getD_eq_getElem?_getD]
    rw [assign_select hx hy, List.getElem?_eq_getElem hj, List.getElem?_eq_getElem (by omega : j < xs.length),
      List.getElem?_eq_getElem (by omega : j < ys.length)]
    rcases m[j] with _ | _ <;> simp

theorem PartOf.rect (hP : PartOf h s js k t) (hr : Rect (h.src s).cols) : Rect (k.src t).cols := by
  have ho : ∀ {α : Type} (d : α) (o : Option (List α)) x, o.map (entries d js) = some x → x.length = js.length := by
    intro α d o x hx
    rcases o with _ | y
    · cases hx
    · cases hx
      simp [entries]
  rw [hP.cols]
  refine ⟨?_, ?_, ?_, ?_, ?_, ?_, ?_, ?_, ?_, ?_, ?_⟩
  all_goals try rw [colsAt_n]
  all_goals try exact List.length_map ..
  · exact fun x hx => ho _ _ x hx
  · exact fun x hx => ho _ _ x hx
  · exact fun x hx => ho _ _ x hx
  · exact fun x hx => ho _ _ x hx
  · exact fun x hx => ho _ _ x hx
  · intro hp
    simp only [colsAt, Option.isSome_map] at hp ⊢
    exact hr.angles hp

theorem PartOf.fits (hP : PartOf h s js k t) : FitsMask (k.src t).cols (ws.map (entries false js)) := by
  intro m hm
  rw [hP.cols, colsAt_n]
  rcases ws with _ | w
  · cases hm
  · cases hm
    exact entries_length ..

theorem PartOf.items (hP : PartOf h s js k t) :
    items (k.src t).cols (which (k.src t).cols.n_sources (ws.map (entries false js))) =
      js.map fun j => (rowAt (h.src s).cols j, (which (h.src s).cols.n_sources ws).getD j false) := by
  rw [hP.cols, colsAt_n, which_entries hP.lt, items_colsAt]

theorem PartOf.schedule (hP : PartOf h s js k t) (hs : CompleteSchedule W (h.src s)) : CompleteSchedule W (k.src t) :=
  CompleteSchedule.of_n_proc hP.twin.settings.n_proc hs

/-- Recording results on both. -/
theorem PartOf.record (hP : PartOf h s js k t) {ps : List (Option ℝ × ℕ)} {insp : List Bool} {h' : Heap}
    (hl : ps.length = insp.length) (hrec : record_snr s insp (unzipPairs ps) h = (.ok (), h')) :
    ∃ k', record_snr t (entries false js insp) (unzipPairs (entries (some 0, 2) js ps)) k = (.ok (), k') ∧
      snrNow k' t = entries (some 0) js (snrNow h' s) ∧ harmNow k' t = entries 0 js (harmNow h' s) := by
  obtain ⟨-, r2, r3, r4, r5, r6⟩ := record_ok hrec
  have hlt : ∀ j ∈ js, j < insp.length := fun j hj => by
    have := hP.lt j hj
    rw [r4, hP.harm_length]
    exact this
  obtain ⟨k', hk', -⟩ := record_exists (s := t) (h := k) (insp := entries false js insp)
    (res := unzipPairs (entries (some 0, 2) js ps)) (by rw [unzipPairs_fst_length, entries_length, entries_length])
    (by rw [unzipPairs_snd_length, entries_length, entries_length]) (by rw [hP.harm, entries_length, entries_length])
    (by rw [hP.snr, entries_length, entries_length])
  obtain ⟨-, q2, q3, -⟩ := record_ok hk'
  refine ⟨k', hk', ?_, ?_⟩
  · rw [q3, r3, hP.snr, ← assign_entries (some 0) r5 (by rw [unzipPairs_fst_length, hl]) hlt]
    congr 2
    exact (entries_map (some 0, 2) js Prod.fst ps).symm
  · rw [q2, r2, hP.harm, ← assign_entries 0 r4 (by rw [unzipPairs_snd_length, hl]) hlt]
    congr 2
    have h1 := entries_map (some 0, 2) js Prod.snd ps
    have h2 : ∀ d d' : ℕ, entries d js (ps.map Prod.snd) = entries d' js (ps.map Prod.snd) := by
      intro d d'
      refine List.map_congr_left fun j hj => ?_
      have := hlt j hj
      simp [List.getD_eq_getElem?_getD, hl, this]
    exact ((h2 0 2).trans h1).symm

/-- After matching parameters. -/
theorem PartOf.match_params (hP : PartOf h s js k t) {a f : SnrArgs} {b : Bool} {h₁ : Heap}
    (hm : match_params W s a b h = (.ok f, h₁)) :
    ∃ k₁, match_params W t a b k = (.ok f, k₁) ∧ PartOf h₁ s js k₁ t := by
  obtain ⟨k₁, hk, hT⟩ := hP.twin.match_params hm
  have h1 := match_params_scOnly hm
  have h2 := match_params_scOnly hk
  have c1 := match_params_cols hm
  refine ⟨k₁, hk, hT, ?_, ?_, ?_, ?_, ?_, ?_⟩
  · rw [match_params_cols hk, c1, hP.cols]
  · rw [c1]; exact hP.lt
  · rw [h1.snrNow, h2.snrNow, hP.snr]
  · rw [h1.harmNow, h2.harmNow, hP.harm]
  · rw [h1.snrNow, c1, hP.snr_length]
  · rw [h1.harmNow, c1, hP.harm_length]

theorem PartOf.lt_items (hP : PartOf h s js k t) (hw : FitsMask (h.src s).cols ws) : ∀ j ∈ js,
    (source.items (h.src s).cols (which (h.src s).cols.n_sources ws))[j]? =
      some (rowAt (h.src s).cols j, (which (h.src s).cols.n_sources ws).getD j false) :=
  fun j hj => items_at (which_length hw) (hP.lt j hj)

/-- `get_snr_stationary` on a part. -/
theorem PartOf.stationary (hP : PartOf h s js k t) (hr : Rect (h.src s).cols) (hw : FitsMask (h.src s).cols ws)
    {a : SnrArgs} {v : List (Option ℝ)} {h' : Heap} (hrun : get_snr_stationary W s a ws h = (.ok v, h')) :
    ∃ v' k', get_snr_stationary W t a (ws.map (entries false js)) k = (.ok v', k') ∧
      snrNow k' t = entries (some 0) js (snrNow h' s) ∧ harmNow k' t = entries 0 js (harmNow h' s) ∧
      (ws = none → v' = entries (some 0) js v) := by
  obtain ⟨f, h₁, S, C, ps, hm, hS, hC, hps, hrec, rfl⟩ := (get_snr_stationary_iff hr hw).1 hrun
  obtain ⟨k₁, hkm, hP₁⟩ := hP.match_params hm
  obtain ⟨k', hk', e1, e2⟩ := hP₁.record (by rw [List.length_map, mapM_length hps]) hrec
  refine ⟨_, k', (get_snr_stationary_iff (hP.rect hr) hP.fits).2 ⟨f, k₁, S, C, entries (some 0, 2) js ps, hkm,
    hP₁.twin.hasSettings hS, by rw [hP₁.twin.ctxOf]; exact hC, ?_, ?_, rfl⟩, e1, e2, ?_⟩
  · rw [hP.items]
    exact mapM_entries hps _ (hP.lt_items hw)
  · rw [hP.items, live_entries (which_length hw) hP.lt]
    exact hk'
  · rintro rfl
    have hsel : ∀ {α : Type} (xs : List α) n, xs.length = n → np.select (which n none) xs = xs := by
      rintro α xs n rfl
      unfold which np.select
      simp only
      rw [replicate_filter]
      induction xs with
      | nil => rfl
      | cons x xs ih => simpa using ih
    have hpl := mapM_length hps
    rw [items_length (which_length hw)] at hpl
    rw [hsel _ _ (by simp [hpl]), Option.map_none, hsel _ _ (by simp [entries, hP.cols, colsAt_n])]
    exact (entries_map (some 0, 2) js Prod.fst ps).symm

/-- `get_snr_evolving` on a part. -/
theorem PartOf.evolving (hP : PartOf h s js k t) (hn : n ≠ 0) (hs : CompleteSchedule W (h.src s))
    (hr : Rect (h.src s).cols) (hw : FitsMask (h.src s).cols ws)
    {a : SnrArgs} {v : List (Option ℝ)} {h' : Heap} (hrun : get_snr_evolving W s a n ws h = (.ok v, h')) :
    ∃ v' k', get_snr_evolving W t a n (ws.map (entries false js)) k = (.ok v', k') ∧
      snrNow k' t = entries (some 0) js (snrNow h' s) ∧ harmNow k' t = entries 0 js (harmNow h' s) ∧
      (ws = none → v' = entries (some 0) js v) := by
  obtain ⟨f, h₁, S, C, ps, hm, hS, hC, hps, hrec, rfl⟩ := (get_snr_evolving_iff hn hs hr hw).1 hrun
  obtain ⟨k₁, hkm, hP₁⟩ := hP.match_params hm
  obtain ⟨k', hk', e1, e2⟩ := hP₁.record (by rw [List.length_map, mapM_length hps]) hrec
  refine ⟨_, k', (get_snr_evolving_iff hn (hP.schedule hs) (hP.rect hr) hP.fits).2 ⟨f, k₁, S, C, entries (some 0, 2) js ps, hkm,
    hP₁.twin.hasSettings hS, by rw [hP₁.twin.ctxOf]; exact hC, ?_, ?_, rfl⟩, e1, e2, ?_⟩
  · rw [hP.items]
    exact mapM_entries hps _ (hP.lt_items hw)
  · rw [hP.items, live_entries (which_length hw) hP.lt]
    exact hk'
  · rintro rfl
    have hsel : ∀ {α : Type} (xs : List α) n, xs.length = n → np.select (which n none) xs = xs := by
      rintro α xs n rfl
      unfold which np.select
      simp only
      rw [replicate_filter]
      induction xs with
      | nil => rfl
      | cons x xs ih => simpa using ih
    have hpl := mapM_length hps
    rw [items_length (which_length hw)] at hpl
    rw [hsel _ _ (by simp [hpl]), Option.map_none, hsel _ _ (by simp [entries, hP.cols, colsAt_n])]
    exact (entries_map (some 0, 2) js Prod.fst ps).symm

theorem mapM_dead {l : List (One × Bool)} (hl : l.any live = false) (g : One → Except PyErr (Option ℝ × ℕ)) :
    l.mapM (orZero g) = .ok (l.map fun _ => (some 0, 2)) := by
  rw [List.any_eq_false] at hl
  induction l with
  | nil => rfl
  | cons x l ih =>
    rw [List.map_cons, mapM_cons_ok]
    refine ⟨(some 0, 2), _, ?_, ih fun y hy => hl y (by simp [hy]), rfl⟩
    unfold orZero
    rw [if_neg (hl x (by simp))]
    rfl

/-- `get_snr` of a plain `Source` on a part. -/
theorem PartOf.full (hP : PartOf h s js k t) (hn : n ≠ 0) (hs : CompleteSchedule W (h.src s))
    (hr : Rect (h.src s).cols) (hw : FitsMask (h.src s).cols ws) {a : SnrArgs} {r : ℕ} {h' : Heap}
    (hrun : Source_get_snr W s a n ws h = (.ok r, h')) :
    ∃ r' k', Source_get_snr W t a n (ws.map (entries false js)) k = (.ok r', k') ∧
      k'.snrs r' = entries (some 0) js (h'.snrs r) ∧ harmNow k' t = entries 0 js (harmNow h' s) := by
  obtain ⟨f, h₁, T, S, hR, hsnr, hcase⟩ := Source_get_snr_values hn hs hr hw hrun _ rfl
  obtain ⟨k₁, hkm, hP₁⟩ := hP.match_params hR.matched
  obtain ⟨p, hp, hT⟩ := hR.time
  obtain ⟨q, hq, hd⟩ := hP₁.twin.params hp
  have hr' := hP.rect hr
  have hs' := hP.schedule hs
  have hw' : FitsMask (k.src t).cols (ws.map (entries false js)) := hP.fits
  set its := source.items (h.src s).cols (which (h.src s).cols.n_sources ws) with hits
  set its' := js.map fun j => (rowAt (h.src s).cols j, (which (h.src s).cols.n_sources ws).getD j false) with hits'
  have hitems : its' = source.items (k.src t).cols (which (k.src t).cols.n_sources (ws.map (entries false js))) := hP.items.symm
  have hl := hP.lt_items hw
  rw [← hits] at hl
  have hil : its.length = (h.src s).cols.n_sources := items_length (which_length hw)
  have hil' : its'.length = js.length := by simp [hits']
  have hstol : (k.src t).stat_tol = (h.src s).stat_tol := hP.twin.settings.stat_tol
  have hR' : SnrRun W t a n its' k f k₁ T S := ⟨hkm, hP₁.twin.hasSettings hR.settings, q, hq, maskTime_congr hd hT⟩
  have hlen1 : js.length = (harmNow k₁ t).length := by rw [hP₁.harm, entries_length]
  have hlen2 : js.length = (snrNow k₁ t).length := by rw [hP₁.snr, entries_length]
  have hmem : ∀ j ∈ js, (rowAt (h.src s).cols j, (which (h.src s).cols.n_sources ws).getD j false) ∈ its :=
    fun j hj => List.mem_of_getElem? (hl j hj)
  have hc : its'.any live = false ∨ ∃ f' h₂ C ps, SnrCalc W t n (k.src t).stat_tol its' f k₁ T S f' h₂ C ps := by
    rcases hcase with ⟨hany, -, -⟩ | ⟨-, f', h₂, C, ps, hcalc, -⟩
    · left
      rw [List.any_eq_false] at hany ⊢
      intro x hx
      obtain ⟨j, hj, rfl⟩ := List.mem_map.1 hx
      exact hany _ (hmem j hj)
    · right
      obtain ⟨k₂, hkm₂, hP₂⟩ := hP₁.match_params hcalc.matched
      refine ⟨f', k₂, C, entries (some 0, 2) js ps, hkm₂, by rw [hP₂.twin.ctxOf]; exact hcalc.ctx, hcalc.time, ?_,
        by rw [hil', hlen1], by rw [hil', hlen2]⟩
      rw [hstol]
      exact mapM_entries hcalc.values _ hl
  obtain ⟨r', k', hrun'⟩ := Source_get_snr_exists hn hs' hr' hw' its' hitems hR' hc
  refine ⟨r', k', hrun', ?_⟩
  obtain ⟨g, k₁', T', S', hR'', -, hcase'⟩ := Source_get_snr_values hn hs' hr' hw' hrun' its' hitems
  have hu := hR''.matched
  rw [hkm] at hu
  obtain ⟨e1, rfl⟩ := Prod.mk.inj hu
  cases e1
  have hSS := HasSettings.unique hR''.settings hR'.settings
  subst hSS
  have hTT : T' = T := by
    obtain ⟨q', hq', hT'⟩ := hR''.time
    rw [hq] at hq'
    cases hq'
    exact maskTime_unique hT' (maskTime_congr hd hT)
  subst hTT
  rcases hcase with ⟨hany, -, hv, hh, -⟩ | ⟨-, f', h₂, C, ps, hcalc, -, hv, -, hh, -⟩
  · have hany' : its'.any live = false := by
      rw [List.any_eq_false] at hany ⊢
      intro x hx
      obtain ⟨j, hj, rfl⟩ := List.mem_map.1 hx
      exact hany _ (hmem j hj)
    rcases hcase' with ⟨-, -, hv', hh', -⟩ | ⟨hany'', -⟩
    · refine ⟨?_, ?_⟩
      · rw [hv, hv', List.map_const', List.map_const', hil, hil', entries_replicate (some 0) (some 0) hP.lt]
      · rw [hh, hh', hP.harm]
    · rw [hany'] at hany''
      cases hany''
  · have hpl := mapM_length hcalc.values
    have hharm : entries 0 js (harmNow h' s) = np.assign (its'.map live) (harmNow k t)
        (np.select (its'.map live) ((entries (some 0, 2) js ps).map Prod.snd)) := by
      have hlt : ∀ j ∈ js, j < (its.map live).length := fun j hj => by
        rw [List.length_map, hil]
        exact hP.lt j hj
      rw [hh, ← assign_entries 0 (by rw [List.length_map, hil, hP.harm_length]) (by rw [List.length_map, List.length_map, hpl]) hlt,
        hP.harm, hits', live_entries (which_length hw) hP.lt, ← entries_map (some 0, 2) js Prod.snd ps]
      congr 2
      refine List.map_congr_left fun j hj => ?_
      have h1 := hlt j hj
      rw [List.length_map, ← hpl] at h1
      simp [List.getD_eq_getElem?_getD, h1]
    obtain ⟨k₂, hkm₂, hP₂⟩ := hP₁.match_params hcalc.matched
    have hvals : its'.mapM (orZero (fullOne W C S' (k.src t).stat_tol n)) = .ok (entries (some 0, 2) js ps) := by
      rw [hstol]
      exact mapM_entries hcalc.values _ hl
    rcases hcase' with ⟨hany', -, hv', hh', -⟩ | ⟨-, f'', k₂', C', ps', hcalc', -, hv', -, hh', -⟩
    · have hz : entries (some 0, 2) js ps = its'.map fun _ => (some 0, 2) := by
        have : its'.mapM (orZero (fullOne W C S' (k.src t).stat_tol n)) = .ok (its'.map fun _ => (some 0, 2)) := by
          exact mapM_dead hany' _
        rw [hvals] at this
        exact Except.ok.inj this
      refine ⟨?_, ?_⟩
      · rw [hv, hv', entries_map (some 0, 2) js Prod.fst ps, hz]
        simp [Function.comp_def]
      · rw [hharm, hh', assign_none hany']
    · have hu := hcalc'.matched
      rw [hkm₂] at hu
      obtain ⟨e1, rfl⟩ := Prod.mk.inj hu
      cases e1
      have hC := hcalc'.ctx
      rw [hP₂.twin.ctxOf, hcalc.ctx] at hC
      cases hC
      have hps := hcalc'.values
      rw [hvals] at hps
      cases hps
      refine ⟨?_, ?_⟩
      · rw [hv, hv', entries_map (some 0, 2) js Prod.fst ps]
      · rw [hharm, hh']

theorem partOf_item {W : World} {b : Bool} (hi : Inv W b h) (hI : Inv W b k) (hz : Sized h s) (hit : ItemOf h s js k t)
    (hlt : ∀ j ∈ js, j < (h.src s).cols.n_sources) : PartOf h s js k t := by
  have hsn : (snrNow h s).length = (h.src s).cols.n_sources := by
    unfold snrNow
    rcases hs : (h.src s).snr with _ | r
    · simp
    · exact hz.snr r hs
  have hhn : (harmNow h s).length = (h.src s).cols.n_sources := by
    unfold harmNow
    rcases hs : (h.src s).max_snr_harmonic with _ | r
    · simp
    · exact hz.harm r hs
  refine ⟨⟨hit.settings, (hi.sc s).1, (hI.sc t).1⟩, hit.cols, hlt, ?_, ?_, hsn, hhn⟩
  · have := hit.snr
    unfold snrValues at this
    unfold snrNow
    rcases hs : (h.src s).snr with _ | r
    · rw [hs] at this
      rcases ht : (k.src t).snr with _ | r'
      · simp only
        rw [hit.cols, colsAt_n, entries_replicate _ _ hlt]
      · rw [ht] at this
        cases this
    · rw [hs] at this
      rcases ht : (k.src t).snr with _ | r'
      · rw [ht] at this
        cases this
      · rw [ht] at this
        exact Option.some.inj this
  · have := hit.harm
    unfold harmValues at this
    unfold harmNow
    rcases hs : (h.src s).max_snr_harmonic with _ | r
    · rw [hs] at this
      rcases ht : (k.src t).max_snr_harmonic with _ | r'
      · simp only
        rw [hit.cols, colsAt_n, entries_replicate _ _ hlt]
      · rw [ht] at this
        cases this
    · rw [hs] at this
      rcases ht : (k.src t).max_snr_harmonic with _ | r'
      · rw [ht] at this
        cases this
      · rw [ht] at this
        exact Option.some.inj this

end Legwork.source
