import Verif.Lemmas.SnrExists
import Verif.Lemmas.Example
import Verif.Props.SourceMasks
import Verif.Props.SourceParams

/-!
# The SNR of source collections (C36)
-/

namespace Legwork.Props

open Legwork.source Legwork.Spec Legwork.snr
open PyM hiding bind

variable {W : World} {s n r : ℕ} {h h' : Heap} {a : SnrArgs} {ws : Option (List Bool)}

theorem item_at {c : Cols} (hw : FitsMask c ws) {i : ℕ} {one : One} (hi : (rows c)[i]? = some one) :
    ∃ b, (items c (which c.n_sources ws))[i]? = some (one, b) ∧ (b = true ↔ Chosen ws i) := by
  have hl := which_length hw
  obtain ⟨hil, -⟩ := List.getElem?_eq_some_iff.1 hi
  rw [rows_length] at hil
  have hb := List.getElem?_eq_getElem (l := which c.n_sources ws) (i := i) (by rw [hl]; exact hil)
  refine ⟨_, by unfold items; rw [List.getElem?_zip_eq_some]; exact ⟨hi, hb⟩, ?_⟩
  unfold Chosen
  rcases ws with _ | m
  · simp [which]
  · simp only [which] at hb ⊢
    simp [hb]

theorem live_iff {one : One} {b : Bool} : live (one, b) = true ↔ b = true ∧ one.merged = false := by
  simp [live]

/-- The context of the calculation is the one in the parameters of the source. -/
theorem callCtx {a f' : SnrArgs} {h₁ h₂ h' : Heap} {C : Ctx} {res : Bool}
    (hm : match_params W s a res h₁ = (.ok f', h₂)) (hC : ctxOf W (h₂.src s) f' = .ok C) (ho : SnrOnly h₂ h') :
    CallCtx W h' s C := by
  obtain ⟨p, f, -, hp, -, -, hag⟩ := match_params_agrees hm
  obtain ⟨x, y, he⟩ := ho.src s
  obtain ⟨h1, h2, h3, h4, h5, h6⟩ := agrees_iff.1 hag
  unfold ctxOf at hC
  obtain ⟨kw, hkw, hC⟩ := except_bind_ok.1 hC
  obtain ⟨t, ht, hC⟩ := except_bind_ok.1 hC
  have hft : f'.t_obs = .time t := by
    unfold asSeconds at ht
    split at ht
    · rename_i t' h'
      cases ht
      exact h'
    · cases ht
  refine ⟨p, _, _, _, _, _, kw, t, ?_, ?_, ?_, ?_, ?_, ?_, hkw, ?_, ?_⟩
  · rw [he]; exact hp
  · rw [ho.par]; exact h2
  · rw [ho.par]; exact h3
  · rw [ho.par]; exact h4
  · rw [ho.par]; exact h5
  · rw [ho.par]; exact h6
  · rw [ho.par, h1, hft]
  · rw [he]
    exact (Except.ok.inj hC).symm

/-- **C36.** After `get_snr` on a plain `Source` the returned array is the attribute `snr` and has one entry per source.
It is 0 for every source that has merged or is not selected. Every other source has exactly the SNR that the functions
of `snr.py` give for this source alone, as a stationary or an evolving source, circular or eccentric, and
`max_snr_harmonic` has its strongest harmonic. -/
theorem C36_get_snr (hcls : (h.src s).cls = .Source ∨ (h.src s).cls = .VerificationBinaries) (hn : n ≠ 0)
    (hs : CompleteSchedule W (h.src s)) (hr : Rect (h.src s).cols) (hw : FitsMask (h.src s).cols ws)
    (hrun : get_snr W s a n ws h = (.ok r, h')) :
    (h'.src s).snr = some r ∧ (h'.src s).cols = (h.src s).cols ∧ (h'.snrs r).length = (h.src s).cols.n_sources ∧
    ∀ (i : ℕ) (one : One), (rows (h.src s).cols)[i]? = some one →
      (one.merged = true ∨ ¬ Chosen ws i → (h'.snrs r)[i]? = some (some 0)) ∧
      (one.merged = false → Chosen ws i → ∃ v harm r', (h'.snrs r)[i]? = some v ∧
        (h'.src s).max_snr_harmonic = some r' ∧ (h'.harms r')[i]? = some harm ∧ SnrFor W h' s n one v harm) := by
  have hrun' : Source_get_snr W s a n ws h = (.ok r, h') := by
    rw [get_snr_run] at hrun
    rcases hcls with hc | hc <;> · rw [hc] at hrun; exact hrun
  obtain ⟨f, h₁, T, S, hR, hsnr, hcase⟩ := Source_get_snr_values hn hs hr hw hrun' _ rfl
  have hcall := get_snr_snrCall W s a n ws h
  rw [hrun] at hcall
  refine ⟨hsnr, hcall.cols s, ?_⟩
  have hil := items_length (c := (h.src s).cols) (which_length hw)
  rcases hcase with ⟨hany, ho, hv, -⟩ | ⟨hany, f', h₂, C, ps, hcalc, ho, hv, hsome, hharm, -⟩
  · refine ⟨by rw [hv, List.length_map, hil], fun i one hi => ?_⟩
    obtain ⟨b, hb, hbc⟩ := item_at hw hi
    refine ⟨fun _ => by rw [hv, List.getElem?_map, hb]; rfl, fun hm hc => ?_⟩
    rw [List.any_eq_false] at hany
    exact absurd (live_iff.2 ⟨hbc.2 hc, hm⟩) (hany _ (List.mem_of_getElem? hb))
  · have hpl := mapM_length hcalc.values
    refine ⟨by rw [hv, List.length_map, hpl, hil], fun i one hi => ?_⟩
    obtain ⟨b, hb, hbc⟩ := item_at hw hi
    obtain ⟨v, hvi, hv1⟩ := mapM_at hcalc.values hb
    unfold orZero at hv1
    refine ⟨fun hm => ?_, fun hm hc => ?_⟩
    · rw [if_neg (fun hl => by rcases hm with hm | hm
                               · rw [(live_iff.1 hl).2] at hm; cases hm
                               · exact hm (hbc.1 (live_iff.1 hl).1))] at hv1
      cases hv1
      rw [hv, List.getElem?_map, hvi]
      rfl
    · have hl : live (one, b) = true := live_iff.2 ⟨hbc.2 hc, hm⟩
      rw [if_pos hl] at hv1
      obtain ⟨r', hr'⟩ := Option.isSome_iff_exists.1 hsome
      refine ⟨v.1, v.2, r', by rw [hv, List.getElem?_map, hvi]; rfl, hr', ?_, ?_⟩
      · have : h'.harms r' = harmNow h' s := by unfold harmNow; rw [hr']
        have hlen : (items (h.src s).cols (which (h.src s).cols.n_sources ws)).length = (harmNow h s).length := by
          rw [hcalc.harm_length, (match_params_scOnly hR.matched).harmNow]
        rw [this, hharm, assign_select (by simp [hlen]) (by simp [hpl])]
        simp [hb, hl, hvi]
      · have hS : HasSettings (h'.src s) S :=
          ho.hasSettings.2 ((match_params_scOnly hcalc.matched).hasSettings.2 hR.settings)
        have hst : (h'.src s).stat_tol = (h.src s).stat_tol := by
          obtain ⟨_, _, _, he⟩ := hcall.src s
          simp only at he
          rw [he]
        refine ⟨C, S.ecc_tol, S.harmonics_required, callCtx hcalc.matched hcalc.ctx ho, hS.1, hS.2.1, fun hso => ?_,
          fun hso => ?_⟩
        · rw [hst] at hso
          unfold fullOne stat1 at hv1
          rw [if_pos (by simpa using hso)] at hv1
          exact statOne_iff.1 hv1
        · rw [hst] at hso
          unfold fullOne stat1 at hv1
          rw [if_neg (by simpa using hso)] at hv1
          exact (evolOne_iff hn).1 hv1

/-! ### The two halves as methods of their own -/

/-- What a call of `get_snr_stationary` or `get_snr_evolving` returned and stored; `right` says what is the SNR and
strongest harmonic of a source. -/
structure HalfStored (right : One → Option ℝ → ℕ → Prop) (s : ℕ) (ws : Option (List Bool)) (h : Heap)
    (vs : List (Option ℝ)) (h' : Heap) : Prop where
  cols : (h'.src s).cols = (h.src s).cols
  returned : List.Forall₂ (fun one v => if one.merged then v = some 0 else ∃ harm, right one v harm)
    (selected (h.src s).cols ws) vs
  lengths : (storedSnr h' s).length = (h.src s).cols.n_sources ∧ (storedHarm h' s).length = (h.src s).cols.n_sources
  stored : ∀ (i : ℕ) (one : One), (rows (h.src s).cols)[i]? = some one → one.merged = false → Chosen ws i →
    ∃ v harm, (storedSnr h' s)[i]? = some v ∧ (storedHarm h' s)[i]? = some harm ∧ right one v harm
  others : ∀ (i : ℕ) (one : One), (rows (h.src s).cols)[i]? = some one → one.merged = true ∨ ¬ Chosen ws i →
    (storedSnr h' s)[i]? = (storedSnr h s)[i]? ∧ (storedHarm h' s)[i]? = (storedHarm h s)[i]?

private theorem select_zip {α β : Type} {l : List α} {w : List Bool} {vs : List β} (h1 : w.length = l.length)
    (h2 : vs.length = l.length) {R : α → β → Prop} (hR : ∀ (i : ℕ) a b, l[i]? = some a → w[i]? = some true →
      vs[i]? = some b → R a b) : List.Forall₂ R ((l.zip w).filter (fun x => x.2) |>.map fun x => x.1) (np.select w vs) := by
  induction l generalizing w vs with
  | nil =>
    rcases w with _ | ⟨_, _⟩
    · exact .nil
    · cases h1
  | cons a l ih =>
    rcases w with _ | ⟨b, w⟩
    · cases h1
    rcases vs with _ | ⟨v, vs⟩
    · cases h2
    have := ih (w := w) (vs := vs) (by simpa using h1) (by simpa using h2) fun i a b h1 h2 h3 => hR (i + 1) a b h1 h2 h3
    rcases b with _ | _
    · simpa [np.select] using this
    · simp only [np.select, List.zip_cons_cons, List.filter_cons, if_true, List.map_cons]
      exact .cons (hR 0 a v rfl rfl rfl) this

private theorem half_stored {right : One → Option ℝ → ℕ → Prop} {one1 : One → Except PyErr (Option ℝ × ℕ)} {h₁ : Heap}
    {ps : List (Option ℝ × ℕ)} (hw : FitsMask (h.src s).cols ws) (hcol : (h₁.src s).cols = (h.src s).cols)
    (hsc : ScOnly h h₁) (hps : (items (h.src s).cols (which (h.src s).cols.n_sources ws)).mapM (orZero one1) = .ok ps)
    (hrec : record_snr s ((items (h.src s).cols (which (h.src s).cols.n_sources ws)).map live) (unzipPairs ps) h₁ =
      (.ok (), h')) (hright : ∀ one p, one1 one = .ok p → right one p.1 p.2) :
    HalfStored right s ws h (np.select (which (h.src s).cols.n_sources ws) (ps.map Prod.fst)) h' := by
  obtain ⟨r1, r2, r3, r4, r5, r6⟩ := record_ok hrec
  have hwl := which_length hw
  have hil := items_length (c := (h.src s).cols) hwl
  have hpl := mapM_length hps
  rw [List.length_map] at r4 r5
  have hb : ∀ (i : ℕ) (one : One), (rows (h.src s).cols)[i]? = some one → ∃ b v,
      (items (h.src s).cols (which (h.src s).cols.n_sources ws))[i]? = some (one, b) ∧ (b = true ↔ Chosen ws i) ∧
      ps[i]? = some v ∧ orZero one1 (one, b) = .ok v := by
    intro i one hi
    obtain ⟨b, hb, hbc⟩ := item_at hw hi
    obtain ⟨v, hv, hv'⟩ := mapM_at hps hb
    exact ⟨b, v, hb, hbc, hv, hv'⟩
  have e1 : ∀ i : ℕ, (storedSnr h' s)[i]? = if ((items (h.src s).cols (which (h.src s).cols.n_sources ws)).map live)[i]? =
      some true then (ps.map Prod.fst)[i]? else (storedSnr h s)[i]? := by
    intro i
    change (snrNow h' s)[i]? = if _ then _ else (snrNow h s)[i]?
    rw [r3, assign_select (by rw [List.length_map, r5]) (by simp [unzipPairs, hpl]), hsc.snrNow]
    rfl
  have e2 : ∀ i : ℕ, (storedHarm h' s)[i]? = if ((items (h.src s).cols (which (h.src s).cols.n_sources ws)).map live)[i]? =
      some true then (ps.map Prod.snd)[i]? else (storedHarm h s)[i]? := by
    intro i
    change (harmNow h' s)[i]? = if _ then _ else (harmNow h s)[i]?
    rw [r2, assign_select (by rw [List.length_map, r4]) (by simp [unzipPairs, hpl]), hsc.harmNow]
    rfl
  refine ⟨by rw [r6.cols, hcol], ?_, ⟨?_, ?_⟩, fun i one hi hm hc => ?_, fun i one hi hm => ?_⟩
  · rw [← chosen_which]
    refine select_zip (by rw [hwl, rows_length]) (by rw [List.length_map, hpl, hil, rows_length]) fun i one v hi hwi hv => ?_
    obtain ⟨b, p, hb1, hb2, hp, hp'⟩ := hb i one hi
    rw [List.getElem?_map, hp] at hv
    cases hv
    have hbt : b = true := by
      unfold items at hb1
      rw [List.getElem?_zip_eq_some] at hb1
      rw [hwi] at hb1
      exact (Option.some.inj hb1.2).symm
    unfold orZero at hp'
    split_ifs with h2
    · rw [if_neg (fun h1 => by rw [(live_iff.1 h1).2] at h2; cases h2)] at hp'
      cases hp'
      rfl
    · rw [if_pos (live_iff.2 ⟨hbt, by simpa using h2⟩)] at hp'
      exact ⟨p.2, hright _ _ hp'⟩
  · change (snrNow h' s).length = _
    rw [r3, np.assign_length, ← r5, hil]
  · change (harmNow h' s).length = _
    rw [r2, np.assign_length, ← r4, hil]
  · obtain ⟨b, p, hb1, hb2, hp, hp'⟩ := hb i one hi
    have hl : live (one, b) = true := live_iff.2 ⟨hb2.2 hc, hm⟩
    unfold orZero at hp'
    rw [if_pos hl] at hp'
    refine ⟨p.1, p.2, ?_, ?_, hright _ _ hp'⟩
    · rw [e1]
      simp [hb1, hl, hp]
    · rw [e2]
      simp [hb1, hl, hp]
  · obtain ⟨b, p, hb1, hb2, hp, hp'⟩ := hb i one hi
    have hl : ¬ live (one, b) = true := fun hl => by
      rcases hm with hm | hm
      · rw [(live_iff.1 hl).2] at hm
        cases hm
      · exact hm (hb2.1 (live_iff.1 hl).1)
    rw [e1, e2]
    simp [hb1, hl]

/-- **C36** (`get_snr_stationary`). It returns the SNR of each selected source as a stationary one, 0 if it has merged,
and writes SNR and strongest harmonic of those that have not into `snr` and `max_snr_harmonic`; all other entries
stay (0 if the arrays are new). -/
theorem C36_get_snr_stationary {vs : List (Option ℝ)} (hr : Rect (h.src s).cols) (hw : FitsMask (h.src s).cols ws)
    (hrun : get_snr_stationary W s a ws h = (.ok vs, h')) :
    HalfStored (fun one v harm => ∃ C tol q, CallCtx W h' s C ∧ (h'.src s).ecc_tol = some tol ∧
      (h'.src s).harmonics_required = some q ∧ StationarySnr C tol q one v harm) s ws h vs h' := by
  obtain ⟨f, h₁, S, C, ps, hm, hS, hC, hps, hrec, rfl⟩ := (get_snr_stationary_iff hr hw).1 hrun
  obtain ⟨-, -, -, -, -, ho⟩ := record_ok hrec
  have hS' := ho.hasSettings.2 hS
  exact half_stored hw (match_params_cols hm) (match_params_scOnly hm) hps hrec fun one p hp =>
    ⟨C, S.ecc_tol, S.harmonics_required, callCtx hm hC ho, hS'.1, hS'.2.1, statOne_iff.1 hp⟩

/-- **C36** (`get_snr_evolving`). Likewise, as evolving sources. -/
theorem C36_get_snr_evolving {vs : List (Option ℝ)} (hn : n ≠ 0) (hs : CompleteSchedule W (h.src s))
    (hr : Rect (h.src s).cols) (hw : FitsMask (h.src s).cols ws)
    (hrun : get_snr_evolving W s a n ws h = (.ok vs, h')) :
    HalfStored (fun one v harm => ∃ C tol q, CallCtx W h' s C ∧ (h'.src s).ecc_tol = some tol ∧
      (h'.src s).harmonics_required = some q ∧ EvolvingSnr C W.odeint n tol q one v harm) s ws h vs h' := by
  obtain ⟨f, h₁, S, C, ps, hm, hS, hC, hps, hrec, rfl⟩ := (get_snr_evolving_iff hn hs hr hw).1 hrun
  obtain ⟨-, -, -, -, -, ho⟩ := record_ok hrec
  have hS' := ho.hasSettings.2 hS
  exact half_stored hw (match_params_cols hm) (match_params_scOnly hm) hps hrec fun one p hp =>
    ⟨C, S.ecc_tol, S.harmonics_required, callCtx hm hC ho, hS'.1, hS'.2.1, (evolOne_iff hn).1 hp⟩

theorem callCtx_snrOnly {h h' : Heap} {C : Ctx} (ho : SnrOnly h h') (hC : CallCtx W h s C) : CallCtx W h' s C := by
  obtain ⟨r, r', he⟩ := ho.src s
  unfold CallCtx at hC ⊢
  rw [ho.par, he]
  exact hC

/-- **C36** (class `Stationary`). `get_snr` treats every source as stationary, returns the new attribute `snr`. -/
theorem C36_stationary_class (hcls : (h.src s).cls = .Stationary) (hr : Rect (h.src s).cols)
    (hrun : get_snr W s a n ws h = (.ok r, h')) :
    (h'.src s).snr = some r ∧ (h'.src s).cols = (h.src s).cols ∧
    List.Forall₂ (fun one v => if one.merged then v = some 0 else ∃ harm C tol q, CallCtx W h' s C ∧
      (h'.src s).ecc_tol = some tol ∧ (h'.src s).harmonics_required = some q ∧ StationarySnr C tol q one v harm)
      (rows (h.src s).cols) (h'.snrs r) := by
  rw [get_snr_run, hcls] at hrun
  change Stationary_get_snr W s a h = _ at hrun
  unfold Stationary_get_snr at hrun
  obtain ⟨vs, h₁, h1, h2⟩ := bind_eq_ok hrun
  have hst := C36_get_snr_stationary hr (fun m hm => by cases hm) h1
  obtain ⟨-, -, h3, h4⟩ := harmNow_store h2
  have ho : SnrOnly h₁ h' := by
    have := store_snr_snrOnly h₁ s vs h₁ (SnrOnly.refl h₁)
    rwa [h2] at this
  obtain ⟨x, y, he⟩ := ho.src s
  refine ⟨h3, by rw [ho.cols, hst.cols], ?_⟩
  rw [h4]
  refine hst.returned.imp fun one v hv => ?_
  split_ifs at hv ⊢ with hm
  · exact hv
  · obtain ⟨harm, C, tol, q, g1, g2, g3, g4⟩ := hv
    exact ⟨harm, C, tol, q, callCtx_snrOnly ho g1, by rw [he]; exact g2, by rw [he]; exact g3, g4⟩

/-- **C36** (class `Evolving`). `get_snr` treats every source as evolving, returns the new attribute `snr`. -/
theorem C36_evolving_class (hcls : (h.src s).cls = .Evolving) (hn : n ≠ 0) (hs : CompleteSchedule W (h.src s))
    (hr : Rect (h.src s).cols) (hrun : get_snr W s a n ws h = (.ok r, h')) :
    (h'.src s).snr = some r ∧ (h'.src s).cols = (h.src s).cols ∧
    List.Forall₂ (fun one v => if one.merged then v = some 0 else ∃ harm C tol q, CallCtx W h' s C ∧
      (h'.src s).ecc_tol = some tol ∧ (h'.src s).harmonics_required = some q ∧ EvolvingSnr C W.odeint n tol q one v harm)
      (rows (h.src s).cols) (h'.snrs r) := by
  rw [get_snr_run, hcls] at hrun
  change Evolving_get_snr W s a n h = _ at hrun
  unfold Evolving_get_snr at hrun
  obtain ⟨vs, h₁, h1, h2⟩ := bind_eq_ok hrun
  have hst := C36_get_snr_evolving hn hs hr (fun m hm => by cases hm) h1
  obtain ⟨-, -, h3, h4⟩ := harmNow_store h2
  have ho : SnrOnly h₁ h' := by
    have := store_snr_snrOnly h₁ s vs h₁ (SnrOnly.refl h₁)
    rwa [h2] at this
  obtain ⟨x, y, he⟩ := ho.src s
  refine ⟨h3, by rw [ho.cols, hst.cols], ?_⟩
  rw [h4]
  refine hst.returned.imp fun one v hv => ?_
  split_ifs at hv ⊢ with hm
  · exact hv
  · obtain ⟨harm, C, tol, q, g1, g2, g3, g4⟩ := hv
    exact ⟨harm, C, tol, q, callCtx_snrOnly ho g1, by rw [he]; exact g2, by rw [he]; exact g3, g4⟩

/-- **C36** (harmonics). The strongest harmonic of every circular source is 2. -/
theorem C36_circular_harmonic {one : One} {v : Option ℝ} {harm : ℕ} (hf : SnrFor W h s n one v harm)
    (hc : ∀ tol, (h.src s).ecc_tol = some tol → one.ecc ≤ tol) : harm = 2 := by
  obtain ⟨C, tol, q, -, htol, -, h1, h2⟩ := hf
  by_cases hst : one.StationaryOver W.K C.t_obs (h.src s).stat_tol
  · exact ((h1 hst).1 (hc tol htol)).2
  · exact ((h2 hst).1 (hc tol htol)).2

/-! ### The settings of a call -/

open Classical in
private theorem given_of_orParam {d : Dict} {key : String} {x v : PVal} (ho : orParam d key x = .ok v) :
    Given d key x v := by
  unfold orParam at ho
  split_ifs at ho with hx
  · refine Or.inr ⟨hx, ?_⟩
    unfold Dict.item at ho
    rcases hd : d.get? key with _ | y
    · rw [hd] at ho; cases ho
    · rw [hd] at ho; cases ho; rfl
  · cases ho
    exact Or.inl ⟨hx, rfl⟩

private theorem stored_false {f : SnrArgs} (hm : match_params W s a false h = (.ok f, h')) : ∃ p,
    (h.src s).sc_params = some p ∧ (h'.src s).sc_params = some p ∧ StoredArgs (h.par p).dict a (h'.par p).dict ∧
      Agrees (h'.par p).dict f := by
  obtain ⟨p, f', hp, hp', hf, hff, hag⟩ := match_params_agrees hm
  simp only [Bool.false_eq_true, if_false] at hff
  subst hff
  obtain ⟨-, o1, o2, o3, o4, o5, o6⟩ := fill_args_ok hf
  obtain ⟨g1, g2, g3, g4, g5, g6⟩ := agrees_iff.1 hag
  exact ⟨p, hp, hp', ⟨⟨_, given_of_orParam o2, g2⟩, ⟨_, given_of_orParam o3, g3⟩, ⟨_, given_of_orParam o4, g4⟩,
    ⟨_, given_of_orParam o5, g5⟩, ⟨_, given_of_orParam o6, g6⟩, ⟨_, given_of_orParam o1, Or.inl g1⟩⟩, hag⟩

theorem stored_true {f : SnrArgs} (hm : match_params W s a true h = (.ok f, h')) : ∃ p,
    (h.src s).sc_params = some p ∧ (h'.src s).sc_params = some p ∧ StoredArgs (h.par p).dict a (h'.par p).dict := by
  obtain ⟨p, f', hp, hp', hf, hff, hag⟩ := match_params_agrees hm
  simp only [if_true] at hff
  obtain ⟨-, o1, o2, o3, o4, o5, o6⟩ := fill_args_ok hf
  obtain ⟨g1, g2, g3, g4, g5, g6⟩ := agrees_iff.1 hag
  have hi : f.instrument = f'.instrument := by subst hff; unfold resolve_auto; split_ifs <;> rfl
  have hc : f.custom_psd = f'.custom_psd := by subst hff; unfold resolve_auto; split_ifs <;> rfl
  have hL : f.L = f'.L := by subst hff; unfold resolve_auto; split_ifs <;> rfl
  have hR : f.approximate_R = f'.approximate_R := by subst hff; unfold resolve_auto; split_ifs <;> rfl
  have hN : f.confusion_noise = f'.confusion_noise := by subst hff; unfold resolve_auto; split_ifs <;> rfl
  refine ⟨p, hp, hp', ⟨_, given_of_orParam o2, hi ▸ g2⟩, ⟨_, given_of_orParam o3, hc ▸ g3⟩, ⟨_, given_of_orParam o4, hL ▸ g4⟩,
    ⟨_, given_of_orParam o5, hR ▸ g5⟩, ⟨_, given_of_orParam o6, hN ▸ g6⟩, _, given_of_orParam o1, ?_⟩
  by_cases ha : f'.t_obs = .str "auto"
  · refine Or.inr ⟨ha, ?_⟩
    have ht : f.t_obs = .time (auto_t_obs f'.instrument .auto) := by subst hff; unfold resolve_auto; rw [if_pos ha]
    rw [g1, g2, hi, ht]
    have := (auto_t_obs_iff (i := f'.instrument)).1 rfl
    rcases this with ⟨h1, h2⟩ | ⟨h1, h2⟩
    · exact Or.inl ⟨by rw [h1], by rw [h2]⟩
    · exact Or.inr ⟨by simpa using h1, by rw [h2]⟩
  · refine Or.inl ?_
    rw [g1, hff, resolve_auto_of_ne ha]

/-- **C36** (settings). The settings used by `get_snr` are those of its arguments, where left out those of `sc_params`,
and are stored in `sc_params`. -/
theorem C36_settings (hcls : (h.src s).cls = .Source ∨ (h.src s).cls = .VerificationBinaries) (hn : n ≠ 0)
    (hs : CompleteSchedule W (h.src s)) (hr : Rect (h.src s).cols) (hw : FitsMask (h.src s).cols ws)
    (hrun : get_snr W s a n ws h = (.ok r, h')) :
    ∃ p, (h.src s).sc_params = some p ∧ (h'.src s).sc_params = some p ∧ StoredArgs (h.par p).dict a (h'.par p).dict := by
  have hrun' : Source_get_snr W s a n ws h = (.ok r, h') := by
    rw [get_snr_run] at hrun
    rcases hcls with hc | hc <;> · rw [hc] at hrun; exact hrun
  obtain ⟨f, h₁, T, S, hR, hsnr, hcase⟩ := Source_get_snr_values hn hs hr hw hrun' _ rfl
  obtain ⟨p, hp, hp', hst, hag⟩ := stored_false hR.matched
  rcases hcase with ⟨-, ho, -⟩ | ⟨-, f', h₂, C, ps, hcalc, ho, -⟩
  · obtain ⟨x, y, he⟩ := ho.src s
    exact ⟨p, hp, by rw [he]; exact hp', by rw [ho.par]; exact hst⟩
  · obtain ⟨x, y, he⟩ := ho.src s
    obtain ⟨p₂, hp₂, hp₂', hst₂⟩ := stored_true hcalc.matched
    rw [hp'] at hp₂
    cases hp₂
    refine ⟨p, hp, by rw [he]; exact hp₂', ?_⟩
    rw [ho.par]
    obtain ⟨g1, g2, g3, g4, g5, g6⟩ := agrees_iff.1 hag
    have hgiven : ∀ {key x v}, (h₁.par p).dict.get? key = some x → Given (h₁.par p).dict key x v → v = x := by
      intro key x v hx hg
      rcases hg with ⟨-, rfl⟩ | ⟨-, hg⟩
      · rfl
      · rw [hx] at hg
        exact (Option.some.inj hg).symm
    obtain ⟨⟨v2, a2, b2⟩, ⟨v3, a3, b3⟩, ⟨v4, a4, b4⟩, ⟨v5, a5, b5⟩, ⟨v6, a6, b6⟩, v1, a1, b1⟩ := hst₂
    obtain ⟨⟨w2, c2, d2⟩, ⟨w3, c3, d3⟩, ⟨w4, c4, d4⟩, ⟨w5, c5, d5⟩, ⟨w6, c6, d6⟩, w1, c1, d1⟩ := hst
    rw [g2] at d2
    rw [g3] at d3
    rw [g4] at d4
    rw [g5] at d5
    rw [g6] at d6
    cases hgiven g2 a2
    cases hgiven g3 a3
    cases hgiven g4 a4
    cases hgiven g5 a5
    cases hgiven g6 a6
    cases hgiven g1 a1
    refine ⟨⟨_, c2, by rw [← d2]; exact b2⟩, ⟨_, c3, by rw [← d3]; exact b3⟩, ⟨_, c4, by rw [← d4]; exact b4⟩,
      ⟨_, c5, by rw [← d5]; exact b5⟩, ⟨_, c6, by rw [← d6]; exact b6⟩, w1, c1, ?_⟩
    have hno : ∀ T, f.t_obs = .time T → f.t_obs ≠ .str "auto" := fun T h => by rw [h]; simp
    rcases d1 with d1 | ⟨d1, ⟨e1, e2⟩ | ⟨e1, e2⟩⟩
    · rw [g1] at d1
      cases d1
      exact b1
    · rw [g1] at e2
      rcases b1 with b1 | ⟨b1, -⟩
      · rw [e2] at b1
        refine Or.inr ⟨d1, Or.inl ⟨?_, b1⟩⟩
        rw [b2, ← g2, e1]
      · rw [b1] at e2
        cases e2
    · rw [g1] at e2
      rcases b1 with b1 | ⟨b1, -⟩
      · rw [e2] at b1
        refine Or.inr ⟨d1, Or.inr ⟨?_, b1⟩⟩
        rw [b2, ← g2]
        exact e1
      · rw [b1] at e2
        cases e2

/-- The six parameters as arguments. -/
private theorem args_of_six {d : Dict} (h6 : SixKeys d) {T : ℝ} (ht : d.get? "t_obs" = some (.time T)) :
    ∃ f : SnrArgs, Agrees d f ∧ f.t_obs = .time T := by
  have hk : ∀ key ∈ scKeys, ∃ v, d.get? key = some v := fun key hk => Option.isSome_iff_exists.1 ((h6 key).2 hk)
  obtain ⟨i, hi⟩ := hk "instrument" (by simp [scKeys])
  obtain ⟨cp, hcp⟩ := hk "custom_psd" (by simp [scKeys])
  obtain ⟨L, hL⟩ := hk "L" (by simp [scKeys])
  obtain ⟨aR, haR⟩ := hk "approximate_R" (by simp [scKeys])
  obtain ⟨cn, hcn⟩ := hk "confusion_noise" (by simp [scKeys])
  exact ⟨⟨.time T, i, cp, L, aR, cn⟩, agrees_iff.2 ⟨ht, hi, hcp, hL, haR, hcn⟩, rfl⟩

/-- A source object whose interpolated curve is that of its parameters, with an observation time that is not `"auto"`
and per-source arrays of the right length. -/
structure Ready (W : World) (h : Heap) (s : ℕ) : Prop where
  rect : Rect (h.src s).cols
  built : Built (h.src s)
  params : ∃ p T c, (h.src s).sc_params = some p ∧ SixKeys (h.par p).dict ∧
    (h.par p).dict.get? "t_obs" = some (.time T) ∧ CurveOf W (h.par p).dict c ∧ (h.src s).sc = some c
  snr_length : (storedSnr h s).length = (h.src s).cols.n_sources
  harm_length : (storedHarm h s).length = (h.src s).cols.n_sources

theorem ready (hh : Ready W h s) : ∃ f C S p T c, match_params W s {} false h = (.ok f, h) ∧
    match_params W s {} true h = (.ok f, h) ∧ match_params W s f true h = (.ok f, h) ∧ ctxOf W (h.src s) f = .ok C ∧
    HasSettings (h.src s) S ∧ (h.src s).sc_params = some p ∧ f.t_obs = .time T ∧ C.t_obs = T ∧
    C.interpolated_sc = some c := by
  obtain ⟨hr, hb, ⟨p, T, c, hp, h6, ht, hc, hsc⟩, -, -⟩ := hh
  obtain ⟨f, hag, hft⟩ := args_of_six h6 ht
  obtain ⟨tol, htol⟩ := Option.isSome_iff_exists.1 hb.ecc_tol
  obtain ⟨q, hq⟩ := Option.isSome_iff_exists.1 hb.harmonics_required
  have hfill : ∀ a, Within a f → fill_args (h.par p).dict a = .ok f := fun a ha => fill_args_within hag ha
  have hres : resolve_auto f = f := resolve_auto_of_ne (by rw [hft]; simp)
  have hw0 : Within {} f := ⟨Or.inl rfl, Or.inl rfl, Or.inl rfl, Or.inl rfl, Or.inl rfl, Or.inl rfl⟩
  have hm1 : match_params W s {} false h = (.ok f, h) := by
    have := match_params_same W (r := false) hp (hfill {} hw0) (by simpa using hag)
    simpa using this
  have hm : ∀ a, Within a f → match_params W s a true h = (.ok f, h) := by
    intro a ha
    have := match_params_same W (r := true) hp (hfill a ha) (by simpa [hres] using hag)
    simpa [hres] using this
  obtain ⟨g1, g2, g3, g4, g5, g6⟩ := agrees_iff.1 hag
  obtain ⟨kw, hkw⟩ := asKw_of_curve hc g2 g3 g4 g5 g6
  have hctx : ctxOf W (h.src s) f = .ok ⟨W.K, W.env, kw, (h.src s).g, (h.src s).sc, T⟩ := by
    unfold ctxOf
    rw [hkw, hft]
    rfl
  exact ⟨f, _, ⟨tol, q, (h.src s).n_proc⟩, p, T, c, hm1, hm _ hw0, hm _ (Within.refl f), hctx, ⟨htol, hq, rfl⟩, hp, hft, rfl,
    hsc⟩

theorem item_angles {c : Cols} (hr : Rect c) {w : List Bool} {x : One × Bool} (hx : x ∈ items c w)
    (hpos : x.1.position.isSome) : x.1.inclination.isSome ∧ x.1.polarisation.isSome := by
  obtain ⟨i, hi, hxi⟩ := List.getElem_of_mem hx
  have hx1 : x.1 = rowAt c i := by
    rw [← hxi]
    simp [items, rows]
  rw [hx1] at hpos ⊢
  simp only [rowAt, Option.isSome_map] at hpos ⊢
  exact hr.angles hpos

/-- **C36** (no spurious failure). On a source whose interpolated curve is that of its parameters, with an observation
time that is not `"auto"`, `get_snr` without settings succeeds for every selection and any values. -/
theorem C36_succeeds (hn : n ≠ 0) (hs : CompleteSchedule W (h.src s)) (hw : FitsMask (h.src s).cols ws) (hh : Ready W h s) :
    ∃ r h', get_snr W s {} n ws h = (.ok r, h') := by
  obtain ⟨f, C, S, p, T, c, hm1, hm2, hm3, hctx, hset, hp, hft, hT, hsc⟩ := ready hh
  have hr := hh.rect
  rw [get_snr_run]
  have full : ∃ r h', Source_get_snr W s {} n ws h = (.ok r, h') := by
    obtain ⟨ps, hps⟩ : ∃ ps, (items (h.src s).cols (which (h.src s).cols.n_sources ws)).mapM
        (orZero (fullOne W C S (h.src s).stat_tol n)) = .ok ps := by
      refine mapM_exists fun x hx => ?_
      unfold orZero fullOne
      split_ifs
      · exact statOne_exists hsc S (item_angles hr hx)
      · exact evolOne_exists hsc W S n _
      · exact ⟨_, rfl⟩
    have hil := items_length (c := (h.src s).cols) (which_length hw)
    exact Source_get_snr_exists (T := T) (S := S) hn hs hr hw _ rfl
      ⟨hm1, hset, p, hp, Or.inl ⟨by rw [hft]; simp, Or.inl hft⟩⟩
      (Or.inr ⟨f, h, C, ps, hm3, hctx, hT, hps, hil.trans hh.harm_length.symm, hil.trans hh.snr_length.symm⟩)
  have hno : FitsMask (h.src s).cols none := fun m hm => by cases hm
  have hil := items_length (c := (h.src s).cols) (which_length hno)
  rcases (h.src s).cls with _ | _ | _ | _
  · exact full
  · obtain ⟨ps, hps⟩ : ∃ ps, (items (h.src s).cols (which (h.src s).cols.n_sources none)).mapM
        (orZero (statOne C S)) = .ok ps := by
      refine mapM_exists fun x hx => ?_
      unfold orZero
      split_ifs
      · exact statOne_exists hsc S (item_angles hr hx)
      · exact ⟨_, rfl⟩
    obtain ⟨v, h', hv, -⟩ := snr_stationary_exists hr hno rfl hm2 hset hctx hps (hil.trans hh.harm_length.symm)
      (hil.trans hh.snr_length.symm)
    exact ⟨_, _, by unfold Stationary_get_snr; rw [bind_ok hv]; rfl⟩
  · obtain ⟨ps, hps⟩ : ∃ ps, (items (h.src s).cols (which (h.src s).cols.n_sources none)).mapM
        (orZero (evolOne W C S n)) = .ok ps := by
      refine mapM_exists fun x hx => ?_
      unfold orZero
      split_ifs
      · exact evolOne_exists hsc W S n _
      · exact ⟨_, rfl⟩
    obtain ⟨v, h', hv, -⟩ := snr_evolving_exists hn hs hr hno rfl hm2 hset hctx hps (hil.trans hh.harm_length.symm)
      (hil.trans hh.snr_length.symm)
    exact ⟨_, _, by unfold Evolving_get_snr; rw [bind_ok hv]; rfl⟩
  · exact full

theorem example_ready : Ready Example.world Example.heap 0 := by
  have hsrc := Example.heap_src
  have hp : (Example.heap.src 0).sc_params = some 1 := by rw [hsrc]; rfl
  refine ⟨example_rect, example_built, ⟨1, 1e8, Example.sc 0, hp, ?_, ?_, curve_ok_iff.1 ?_, by rw [hsrc]; rfl⟩, ?_, ?_⟩
  · exact C41_six_keys (Example.reachable (ok := AnyCall) trivial) hp
  · rw [Example.heap_par]; rfl
  · rw [Example.heap_par]; exact Example.curve_params 0
  · unfold storedSnr; rw [hsrc]; simp [newObject]
  · unfold storedHarm; rw [hsrc]; simp [newObject]

theorem example_schedule : CompleteSchedule Example.world (Example.heap.src 0) := by
  rw [Example.heap_src]
  intro hn
  simp [newObject, Example.args] at hn

/-- The example succeeds: a circular and an eccentric binary, both selected or only one. -/
theorem example_get_snr (ws : Option (List Bool)) (hw : FitsMask (Example.heap.src 0).cols ws) :
    ∃ r h', get_snr Example.world 0 {} 100 ws Example.heap = (.ok r, h') :=
  C36_succeeds (by norm_num) example_schedule hw example_ready

noncomputable example : ∃ r h', get_snr Example.world 0 {} 100 (some [true, false]) Example.heap = (.ok r, h') ∧
    (h'.snrs r)[1]? = some (some 0) ∧ ∃ v harm r', (h'.snrs r)[0]? = some v ∧
      (h'.src 0).max_snr_harmonic = some r' ∧ (h'.harms r')[0]? = some harm ∧
      SnrFor Example.world h' 0 100 (rowAt Example.cols 0) v harm := by
  have hw : FitsMask (Example.heap.src 0).cols (some [true, false]) := by
    intro m hm; cases hm; rw [Example.heap_src]; rfl
  obtain ⟨r, h', hrun⟩ := example_get_snr _ hw
  have hc : (Example.heap.src 0).cols = Example.cols := by rw [Example.heap_src]; rfl
  obtain ⟨-, -, -, h4⟩ := C36_get_snr (Or.inl (by rw [Example.heap_src]; rfl)) (by norm_num) example_schedule example_rect hw hrun
  refine ⟨r, h', hrun, (h4 1 (rowAt Example.cols 1) (by rw [hc]; rfl)).1 (Or.inr fun hch => ?_),
    (h4 0 (rowAt Example.cols 0) (by rw [hc]; rfl)).2 rfl fun m hm => by cases hm; rfl⟩
  have := hch _ rfl
  simp at this

noncomputable example : ∃ r h' p, get_snr Example.world 0 {} 100 none Example.heap = (.ok r, h') ∧
    StoredArgs (Example.heap.par p).dict {} (h'.par p).dict := by
  obtain ⟨r, h', hrun⟩ := example_get_snr none (fun m hm => by cases hm)
  obtain ⟨p, -, -, hp⟩ := C36_settings (Or.inl (by rw [Example.heap_src]; rfl)) (by norm_num) example_schedule example_rect
    (fun m hm => by cases hm) hrun
  exact ⟨r, h', p, hrun, hp⟩

/-- The hypothesis of C42's theorem on repeated calls is met. -/
noncomputable example : ∃ r h', get_snr Example.world 0 {} 100 none Example.heap = (.ok r, h') ∧
    (get_snr Example.world 0 {} 100 none h').2.trace = h'.trace := by
  obtain ⟨r, h', hrun⟩ := example_get_snr none (fun m hm => by cases hm)
  exact ⟨r, h', hrun, (C42_repeat (by simp) hrun).1⟩

/-- The example with another class. -/
noncomputable def example_cls (cls : Cls) : Heap := Example.heap.setSrc 0 { Example.heap.src 0 with cls := cls }

theorem example_cls_src (cls : Cls) : (example_cls cls).src 0 = { Example.heap.src 0 with cls := cls } := by
  unfold example_cls Heap.setSrc
  simp

theorem example_cls_ready (cls : Cls) : Ready Example.world (example_cls cls) 0 := by
  obtain ⟨h1, ⟨h2, h3, h4⟩, h5, h6, h7⟩ := example_ready
  have e := example_cls_src cls
  have e' : (example_cls cls).par = Example.heap.par := rfl
  unfold storedSnr at h6
  unfold storedHarm at h7
  refine ⟨by rw [e]; exact h1, by rw [e]; exact ⟨h2, h3, h4⟩, by rw [e, e']; exact h5, ?_, ?_⟩
  · unfold storedSnr
    rw [e]
    exact h6
  · unfold storedHarm
    rw [e]
    exact h7

noncomputable example (cls : Cls) : ∃ r h', get_snr Example.world 0 {} 100 none (example_cls cls) = (.ok r, h') :=
  C36_succeeds (by norm_num) (by unfold CompleteSchedule; rw [example_cls_src]; exact example_schedule)
    (fun m hm => by cases hm) (example_cls_ready cls)

end Legwork.Props
