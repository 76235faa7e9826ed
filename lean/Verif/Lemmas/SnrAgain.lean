import Verif.Lemmas.SnrExists

/-!
# Repeating an SNR call
-/

namespace Legwork.source

open Legwork.Spec Legwork.snr
open PyM hiding bind

variable {W : World} {s n r r' p : ℕ} {a f f' : SnrArgs} {ws : Option (List Bool)} {h h' h'' h₁ h₂ k : Heap}

theorem agrees_unique {d : Dict} (h1 : Agrees d f) (h2 : Agrees d f') : f = f' := by
  obtain ⟨a1, a2, a3, a4, a5, a6⟩ := agrees_iff.1 h1
  obtain ⟨b1, b2, b3, b4, b5, b6⟩ := agrees_iff.1 h2
  rcases f with ⟨x1, x2, x3, x4, x5, x6⟩
  rcases f' with ⟨y1, y2, y3, y4, y5, y6⟩
  simp only at *
  rw [a1] at b1
  rw [a2] at b2
  rw [a3] at b3
  rw [a4] at b4
  rw [a5] at b5
  rw [a6] at b6
  simp only [Option.some.injEq] at b1 b2 b3 b4 b5 b6
  subst b1 b2 b3 b4 b5 b6
  rfl

/-- Arguments filled in again from the resolved parameters, when the observation time given is `"auto"`. -/
theorem fill_again_auto {d d' : Dict} (ha : a.t_obs = .str "auto") (hf : fill_args d a = .ok f)
    (hag : Agrees d' (resolve_auto f)) : fill_args d' a = .ok f := by
  obtain ⟨hw, ht, -⟩ := fill_args_ok hf
  have hft : f.t_obs = .str "auto" := by
    rcases hw.t_obs with h1 | h1
    · rw [h1] at ha; cases ha
    · rw [← h1, ha]
  obtain ⟨b1, b2, b3, b4, b5, b6⟩ := agrees_iff.1 hag
  unfold resolve_auto at b2 b3 b4 b5 b6
  rw [if_pos hft] at b2 b3 b4 b5 b6
  unfold fill_args
  have h0 : orParam d' "t_obs" a.t_obs = .ok f.t_obs := by
    unfold orParam
    rw [if_neg (by rw [ha]; simp), ha, hft]
    rfl
  rw [h0, orParam_eq b2 hw.instrument, orParam_eq b3 hw.custom_psd, orParam_eq b4 hw.L,
    orParam_eq b5 hw.approximate_R, orParam_eq b6 hw.confusion_noise]
  rfl

/-- Matching with resolution again changes nothing. -/
theorem match_again (hm : match_params W s a true h = (.ok f, h₁)) (ho : SnrOnly h₁ k) :
    match_params W s a true k = (.ok f, k) := by
  obtain ⟨p, f₀, hp, hp', hf, hff, hag⟩ := match_params_agrees hm
  simp only [if_true] at hff
  have hpk : (k.src s).sc_params = some p := by rw [ho.sc_params, hp']
  have hagk : Agrees (k.par p).dict f := by rw [ho.par]; exact hag
  by_cases ha : a.t_obs = .str "auto"
  · have := match_params_same W (r := true) hpk (fill_again_auto ha hf (hff ▸ hagk)) (by
      simp only [if_true]; rw [← hff]; exact hagk)
    simp only [if_true] at this
    rwa [← hff] at this
  · have hw : Within a f := by rw [hff]; exact resolve_auto_within (fill_args_ok hf).1 ha
    have hne : f.t_obs ≠ .str "auto" := by rw [hff]; exact resolve_auto_ne f₀
    have := match_params_same W (r := true) hpk (fill_args_within hagk hw) (by
      simp only [if_true]; rw [resolve_auto_of_ne hne]; exact hagk)
    simp only [if_true] at this
    rwa [resolve_auto_of_ne hne] at this

/-- Writing the same values into an array again. -/
theorem assign_again {α : Type} {m : List Bool} {xs ys : List α} (hx : m.length = xs.length) (hy : m.length = ys.length) :
    np.assign m (np.assign m xs (np.select m ys)) (np.select m ys) = np.assign m xs (np.select m ys) := by
  apply List.ext_getElem?
  intro i
  rw [assign_select (by rw [np.assign_length, hx]) hy, assign_select hx hy]
  split_ifs <;> rfl

/-- Repeating `get_snr_stationary` gives the same result. -/
theorem stationary_again {v : List (Option ℝ)} (hr : Rect (h.src s).cols) (hw : FitsMask (h.src s).cols ws)
    (hrun : get_snr_stationary W s a ws h = (.ok v, h')) (ho : SnrOnly h' k)
    (hl1 : (harmNow k s).length = (h.src s).cols.n_sources) (hl2 : (snrNow k s).length = (h.src s).cols.n_sources) :
    ∃ h'', get_snr_stationary W s a ws k = (.ok v, h'') ∧ SnrOnly k h'' ∧
      (harmNow k s = harmNow h' s → harmNow h'' s = harmNow k s) := by
  obtain ⟨f, h₁, S, C, ps, hm, hS, hC, hps, hrec, rfl⟩ := (get_snr_stationary_iff hr hw).1 hrun
  obtain ⟨-, w2, -, w4, -, ho'⟩ := record_ok hrec
  have hoo := ho'.trans ho
  have hcols : (k.src s).cols = (h.src s).cols := by rw [hoo.cols, match_params_cols hm]
  have hil := items_length (c := (h.src s).cols) (which_length hw)
  obtain ⟨v, h'', hv, hok, -⟩ := snr_stationary_exists (W := W) (s := s) (ws := ws) (f := a) (h := k) (h₂ := k)
    (by rw [hcols]; exact hr) (by rw [hcols]; exact hw)
    rfl (match_again hm hoo) (hoo.hasSettings.2 hS) (by rw [hoo.ctxOf]; exact hC) (by rw [hcols]; exact hps)
    (by rw [hcols, hil, hl1]) (by rw [hcols, hil, hl2])
  obtain ⟨f', h₁', S', C', ps', hm', hS', hC', hps', hrec', rfl⟩ := (get_snr_stationary_iff (by rw [hcols]; exact hr)
    (by rw [hcols]; exact hw)).1 hv
  rw [match_again hm hoo] at hm'
  cases hm'
  cases HasSettings.unique hS' (hoo.hasSettings.2 hS)
  rw [hoo.ctxOf, hC] at hC'
  cases hC'
  rw [hcols, hps] at hps'
  cases hps'
  rw [hcols] at hv hrec'
  obtain ⟨-, w2', -, -, -, -⟩ := record_ok hrec'
  refine ⟨h'', hv, hok, fun e => ?_⟩
  rw [w2', e, w2, assign_again w4 (by rw [unzipPairs_snd_length, List.length_map, mapM_length hps])]

/-- Repeating `get_snr_evolving` gives the same result. -/
theorem evolving_again {v : List (Option ℝ)} (hn : n ≠ 0) (hs : CompleteSchedule W (h.src s))
    (hr : Rect (h.src s).cols) (hw : FitsMask (h.src s).cols ws)
    (hrun : get_snr_evolving W s a n ws h = (.ok v, h')) (ho : SnrOnly h' k)
    (hl1 : (harmNow k s).length = (h.src s).cols.n_sources) (hl2 : (snrNow k s).length = (h.src s).cols.n_sources) :
    ∃ h'', get_snr_evolving W s a n ws k = (.ok v, h'') ∧ SnrOnly k h'' ∧
      (harmNow k s = harmNow h' s → harmNow h'' s = harmNow k s) := by
  obtain ⟨f, h₁, S, C, ps, hm, hS, hC, hps, hrec, rfl⟩ := (get_snr_evolving_iff hn hs hr hw).1 hrun
  obtain ⟨-, w2, -, w4, -, ho'⟩ := record_ok hrec
  have hoo := ho'.trans ho
  have hcols : (k.src s).cols = (h.src s).cols := by rw [hoo.cols, match_params_cols hm]
  have hsk : CompleteSchedule W (k.src s) :=
    CompleteSchedule.of_n_proc ((hoo.n_proc s).trans (match_params_n_proc hm)) hs
  have hil := items_length (c := (h.src s).cols) (which_length hw)
  obtain ⟨v, h'', hv, hok, -⟩ := snr_evolving_exists (W := W) (s := s) (ws := ws) (f := a) (h := k) (h₂ := k) hn hsk
    (by rw [hcols]; exact hr) (by rw [hcols]; exact hw)
    rfl (match_again hm hoo) (hoo.hasSettings.2 hS) (by rw [hoo.ctxOf]; exact hC) (by rw [hcols]; exact hps)
    (by rw [hcols, hil, hl1]) (by rw [hcols, hil, hl2])
  obtain ⟨f', h₁', S', C', ps', hm', hS', hC', hps', hrec', rfl⟩ := (get_snr_evolving_iff hn hsk (by rw [hcols]; exact hr)
    (by rw [hcols]; exact hw)).1 hv
  rw [match_again hm hoo] at hm'
  cases hm'
  cases HasSettings.unique hS' (hoo.hasSettings.2 hS)
  rw [hoo.ctxOf, hC] at hC'
  cases hC'
  rw [hcols, hps] at hps'
  cases hps'
  rw [hcols] at hv hrec'
  obtain ⟨-, w2', -, -, -, -⟩ := record_ok hrec'
  refine ⟨h'', hv, hok, fun e => ?_⟩
  rw [w2', e, w2, assign_again w4 (by rw [unzipPairs_snd_length, List.length_map, mapM_length hps])]

/-- Repeating a successful `Source.get_snr` call. -/
theorem Source_again (ha : a.t_obs ≠ .str "auto") (hn : n ≠ 0) (hs : CompleteSchedule W (h.src s))
    (hr : Rect (h.src s).cols) (hw : FitsMask (h.src s).cols ws) (hrun : Source_get_snr W s a n ws h = (.ok r, h')) :
    ∃ r' h'', Source_get_snr W s a n ws h' = (.ok r', h'') ∧ h''.snrs r' = h'.snrs r ∧ harmNow h'' s = harmNow h' s := by
  obtain ⟨f, h₁, T, S, hR, hsnr, hcase⟩ := Source_get_snr_values hn hs hr hw hrun _ rfl
  have hil := items_length (c := (h.src s).cols) (which_length hw)
  obtain ⟨p, f₀, hp, hp₁, hf₀, hff, hag⟩ := match_params_agrees hR.matched
  simp only [Bool.false_eq_true, if_false] at hff
  subst hff
  have hwi := (fill_args_ok hf₀).1
  have hcall : ∀ {h₂ : Heap}, SnrOnly h₂ h' → (h₂.src s).cols = (h.src s).cols → (h₂.src s).n_proc = (h.src s).n_proc →
      (h'.src s).cols = (h.src s).cols ∧ CompleteSchedule W (h'.src s) := by
    intro h₂ ho hc hnp
    exact ⟨by rw [ho.cols, hc], CompleteSchedule.of_n_proc ((ho.n_proc s).trans hnp) hs⟩
  rcases hcase with ⟨hany, ho, hv, hh, -⟩ | ⟨hany, f', h₂, C, ps, hcalc, ho, hv, hsome, hh, -⟩
  · obtain ⟨hc', hs'⟩ := hcall ho (match_params_cols hR.matched) (match_params_n_proc hR.matched)
    have hm' : match_params W s a false h' = (.ok f, h') := by
      have hag' : Agrees (h'.par p).dict f := by rw [ho.par]; exact hag
      have := match_params_same W (r := false) (s := s) (h := h') (by rw [ho.sc_params, hp₁]) (fill_args_within hag' hwi)
        (by simpa using hag')
      simpa using this
    have hR' : SnrRun W s a n (items (h.src s).cols (which (h.src s).cols.n_sources ws)) h' f h' T S := by
      refine ⟨hm', ho.hasSettings.2 hR.settings, ?_⟩
      obtain ⟨q, hq, hT⟩ := hR.time
      exact ⟨q, by rw [ho.sc_params, hq], by rw [ho.par]; exact hT⟩
    obtain ⟨r', h'', hrun'⟩ := Source_get_snr_exists (h := h') hn hs' (by rw [hc']; exact hr) (by rw [hc']; exact hw) _
      (by rw [hc']) hR' (Or.inl hany)
    obtain ⟨_, _, _, _, -, -, hcase'⟩ := Source_get_snr_values hn hs' (by rw [hc']; exact hr) (by rw [hc']; exact hw) hrun' _ rfl
    rw [hc'] at hcase'
    rcases hcase' with ⟨-, -, hv', hh', -⟩ | ⟨hany', -⟩
    · exact ⟨r', h'', hrun', by rw [hv, hv'], hh'⟩
    · rw [hany] at hany'
      cases hany'
  · obtain ⟨hc', hs'⟩ := hcall ho ((match_params_cols hcalc.matched).trans (match_params_cols hR.matched))
      ((match_params_n_proc hcalc.matched).trans (match_params_n_proc hR.matched))
    obtain ⟨p', f₁, hp', hp₂, hf₁, hff', hag₂⟩ := match_params_agrees hcalc.matched
    rw [hp₁] at hp'
    cases hp'
    rw [fill_args_within hag (Within.refl f)] at hf₁
    cases hf₁
    simp only [if_true] at hff'
    have hne : f'.t_obs ≠ .str "auto" := by rw [hff']; exact resolve_auto_ne f
    have hw' : Within a f' := by rw [hff']; exact resolve_auto_within hwi ha
    have hag' : Agrees (h'.par p).dict f' := by rw [ho.par]; exact hag₂
    have hpk : (h'.src s).sc_params = some p := by rw [ho.sc_params, hp₂]
    have hm' : match_params W s a false h' = (.ok f', h') := by
      have := match_params_same W (r := false) hpk (fill_args_within hag' hw') (by simpa using hag')
      simpa using this
    have hm₂ : match_params W s f' true h' = (.ok f', h') := by
      have := match_params_same W (r := true) hpk (fill_args_within hag' (Within.refl f')) (by
        simpa [resolve_auto_of_ne hne] using hag')
      simpa [resolve_auto_of_ne hne] using this
    have hft : f'.t_obs = .time T := by
      have hC := hcalc.ctx
      unfold ctxOf at hC
      obtain ⟨kw, -, hC⟩ := except_bind_ok.1 hC
      obtain ⟨t, ht, hC⟩ := except_bind_ok.1 hC
      have hCt := hcalc.time
      rw [← Except.ok.inj hC] at hCt
      change t = T at hCt
      subst hCt
      unfold asSeconds at ht
      split at ht
      · rename_i t' he
        cases ht
        exact he
      · cases ht
    have hS : HasSettings (h'.src s) S :=
      ho.hasSettings.2 ((match_params_scOnly hcalc.matched).hasSettings.2 hR.settings)
    have hR' : SnrRun W s a n (items (h.src s).cols (which (h.src s).cols.n_sources ws)) h' f' h' T S :=
      ⟨hm', hS, p, hpk, Or.inl ⟨by rw [hft]; simp, Or.inl hft⟩⟩
    have hst : (h'.src s).stat_tol = (h.src s).stat_tol := by
      obtain ⟨_, _, _, he⟩ := (Source_get_snr_snrCall W s a n ws h).src s
      rw [hrun] at he
      simp only at he
      rw [he]
    have hpl := mapM_length hcalc.values
    have hl1 : (items (h.src s).cols (which (h.src s).cols.n_sources ws)).length = (harmNow h s).length := by
      rw [hcalc.harm_length, (match_params_scOnly hR.matched).harmNow]
    have hcalc' : SnrCalc W s n (h'.src s).stat_tol (items (h.src s).cols (which (h.src s).cols.n_sources ws)) f' h' T S f' h' C ps := by
      refine ⟨hm₂, by rw [ho.ctxOf]; exact hcalc.ctx, hcalc.time, by rw [hst]; exact hcalc.values, ?_, ?_⟩
      · rw [hh, np.assign_length, hl1]
      · rw [snrNow_of hsnr, hv, List.length_map, hpl]
    obtain ⟨r', h'', hrun'⟩ := Source_get_snr_exists (h := h') hn hs' (by rw [hc']; exact hr) (by rw [hc']; exact hw) _
      (by rw [hc']) hR' (Or.inr ⟨f', h', C, ps, hcalc'⟩)
    refine ⟨r', h'', hrun', ?_⟩
    obtain ⟨g, k₁, T', S', hRk, -, hcase'⟩ := Source_get_snr_values hn hs' (by rw [hc']; exact hr) (by rw [hc']; exact hw) hrun' _ rfl
    rw [hc'] at hcase' hRk
    have hu := hRk.matched
    rw [hm'] at hu
    cases hu
    cases HasSettings.unique hRk.settings hS
    rcases hcase' with ⟨hany', -⟩ | ⟨-, g', k₂, C', ps', hcalck, -, hv', -, hh', -⟩
    · rw [hany] at hany'
      cases hany'
    · have hu := hcalck.matched
      rw [hm₂] at hu
      cases hu
      have hu := hcalck.ctx
      rw [hcalc'.ctx] at hu
      cases hu
      have hu := hcalck.values
      rw [hcalc'.values] at hu
      cases hu
      refine ⟨by rw [hv, hv'], ?_⟩
      rw [hh', hh, assign_again (by simp [hl1]) (by simp [hpl])]

/-- Resolving `"auto"` computes the curve anew. -/
theorem match_resolves (hi : Inv W false h₁) (hp : (h₁.src s).sc_params = some p) (hag : Agrees (h₁.par p).dict f)
    (hft : f.t_obs = .str "auto") (hm : match_params W s f true h₁ = (.ok f', h₂)) :
    f' = resolve_auto f ∧ Agrees (h₂.par p).dict f' ∧ (h₂.src s).sc_params = some p ∧ SixKeys (h₂.par p).dict ∧
    ((h₂.src s).interpolate_sc = true → ∃ c, curve W (h₂.par p).dict = .ok c ∧ (h₂.src s).sc = some c) ∧
    ((h₂.src s).interpolate_sc = false → (h₂.src s).sc = none) ∧ Inv W false h₂ := by
  obtain ⟨p', f₁, hp', hp₂, hf₁, hff, hag₂⟩ := match_params_agrees hm
  rw [hp] at hp'
  cases hp'
  rw [fill_args_within hag (Within.refl f)] at hf₁
  cases hf₁
  simp only [if_true] at hff
  obtain ⟨p', f₁, hp', -, -, hu⟩ := match_params_ok hm
  rw [hp] at hp'
  cases hp'
  have hi₂ : Inv W false h₂ := by
    have := (inv_atoms W false).update p f'.toDict h₁ hi
    rwa [hu] at this
  refine ⟨hff, hag₂, hp₂, ((hi₂.sc s).1 p hp₂).2.2.1, ?_⟩
  have hown := ((hi.sc s).1 p hp).2.1
  have hne : f'.t_obs ≠ .str "auto" := by rw [hff]; exact resolve_auto_ne f
  rcases params_update_run W p f'.toDict h₁ with ⟨-, hr⟩ | ⟨-, hall, hr⟩ | ⟨-, -, hr⟩
  · rw [hu] at hr; cases hr
  · exfalso
    have hmem : ("t_obs", f'.t_obs) ∈ Dict.ofPairs f'.toDict := by
      simp [SnrArgs.toDict, Dict.ofPairs, Dict.update, Dict.set]
    have := hall _ hmem
    have h1 := (agrees_iff.1 hag).1
    unfold Dict.get at this
    simp only at this
    rw [h1] at this
    exact hne (by rw [← this]; exact hft)
  · rw [hu, re_interpolate_run] at hr
    have hsrc : ((h₁.setPar p { h₁.par p with dict := (h₁.par p).dict.update (Dict.ofPairs f'.toDict) }).par p).source = some s := by
      simp [Heap.setPar, hown]
    rw [hsrc] at hr
    simp only at hr
    have hsp : ((h₁.setPar p { h₁.par p with dict := (h₁.par p).dict.update (Dict.ofPairs f'.toDict) }).src s).sc_params = some p := hp
    generalize h₁.setPar p { h₁.par p with dict := (h₁.par p).dict.update (Dict.ofPairs f'.toDict) } = g at hr hsrc hsp
    rw [set_sc_run] at hr
    by_cases hint : (g.src s).interpolate_sc = true
    · rw [if_pos hint, hsp] at hr
      simp only at hr
      rcases hc : curve W (g.par p).dict with e | c
      · rw [hc] at hr; cases hr
      · rw [hc] at hr
        simp only [Prod.mk.injEq, true_and] at hr
        subst hr
        refine ⟨fun _ => ⟨c, hc, by simp [Heap.setSrc]⟩, fun hf => ?_, hi₂⟩
        simp [Heap.setSrc, hint] at hf
    · rw [if_neg hint] at hr
      simp only [Prod.mk.injEq, true_and] at hr
      subst hr
      refine ⟨fun ht => ?_, fun _ => by simp [Heap.setSrc], hi₂⟩
      simp [Heap.setSrc, hint] at ht

theorem sixKeys_eq {d d' : Dict} (h6 : SixKeys d) (h6' : SixKeys d') (h1 : Agrees d f) (h2 : Agrees d' f) : d.eq d' := by
  intro key
  obtain ⟨a1, a2, a3, a4, a5, a6⟩ := agrees_iff.1 h1
  obtain ⟨b1, b2, b3, b4, b5, b6⟩ := agrees_iff.1 h2
  by_cases hk : key ∈ scKeys
  · simp only [scKeys, List.mem_cons, List.not_mem_nil, or_false] at hk
    rcases hk with rfl | rfl | rfl | rfl | rfl | rfl
    all_goals first
      | rw [a1, b1]
      | rw [a2, b2]
      | rw [a3, b3]
      | rw [a4, b4]
      | rw [a5, b5]
      | rw [a6, b6]
  · have e1 : d.get? key = none := by
      rcases hd : d.get? key with _ | v
      · rfl
      · exact absurd ((h6 key).1 (by rw [hd]; rfl)) hk
    have e2 : d'.get? key = none := by
      rcases hd : d'.get? key with _ | v
      · rfl
      · exact absurd ((h6' key).1 (by rw [hd]; rfl)) hk
    rw [e1, e2]

/-- Two successful calls with the observation time `"auto"` in succession. -/
theorem Source_again_auto (hi : Inv W false h) (hi' : Inv W false h') (ha : a.t_obs = .str "auto") (hn : n ≠ 0) (hs : CompleteSchedule W (h.src s))
    (hr : Rect (h.src s).cols) (hw : FitsMask (h.src s).cols ws) (hrun : Source_get_snr W s a n ws h = (.ok r, h'))
    (hrun' : Source_get_snr W s a n ws h' = (.ok r', h'')) :
    h''.snrs r' = h'.snrs r ∧ harmNow h'' s = harmNow h' s := by
  obtain ⟨f, h₁, T, S, hR, hsnr, hcase⟩ := Source_get_snr_values hn hs hr hw hrun _ rfl
  have hil := items_length (c := (h.src s).cols) (which_length hw)
  obtain ⟨p, f₀, hp, hp₁, hf₀, hff, hag⟩ := match_params_agrees hR.matched
  simp only [Bool.false_eq_true, if_false] at hff
  subst hff
  have hft : f.t_obs = .str "auto" := by
    rcases (fill_args_ok hf₀).1.t_obs with h1 | h1
    · rw [h1] at ha; cases ha
    · rw [← h1, ha]
  have hi₁ : Inv W false h₁ := by
    obtain ⟨p', -, hp', -, -, hu⟩ := match_params_ok hR.matched
    have := (inv_atoms W false).update p' f.toDict h hi
    rwa [hu] at this
  obtain ⟨sc₀, x₀, y₀, he⟩ := (Source_get_snr_snrCall W s a n ws h).src s
  rw [hrun] at he
  simp only at he
  have hc' : (h'.src s).cols = (h.src s).cols := by rw [he]
  have hs' : CompleteSchedule W (h'.src s) := CompleteSchedule.of_n_proc (by rw [he]) hs
  have hst : (h'.src s).stat_tol = (h.src s).stat_tol := by rw [he]
  obtain ⟨g, k₁, T', S', hRk, -, hcase'⟩ := Source_get_snr_values hn hs' (by rw [hc']; exact hr) (by rw [hc']; exact hw) hrun' _ rfl
  rw [hc', hst] at hcase'
  rw [hc'] at hRk
  rcases hcase with ⟨hany, ho, hv, hh, -⟩ | ⟨hany, f', h₂, C, ps, hcalc, ho, hv, hsome, hh, -⟩ <;>
    rcases hcase' with ⟨hany', ho', hv', hh', -⟩ | ⟨hany', g', k₂, C', ps', hcalck, ho', hv', -, hh', -⟩
  · exact ⟨by rw [hv, hv'], hh'⟩
  · rw [hany] at hany'; cases hany'
  · rw [hany] at hany'; cases hany'
  · obtain ⟨e1, hag₂, hp₂, h6, hsc, hsc0, hi₂⟩ := match_resolves hi₁ hp₁ hag hft hcalc.matched
    have hpk : (h'.src s).sc_params = some p := by rw [ho.sc_params, hp₂]
    have hagk : Agrees (h'.par p).dict (resolve_auto f) := by rw [ho.par, ← e1]; exact hag₂
    obtain ⟨p', g₀, hp', hpk₁, hg₀, hgg, hagk₁⟩ := match_params_agrees hRk.matched
    rw [hpk] at hp'
    cases hp'
    simp only [Bool.false_eq_true, if_false] at hgg
    subst hgg
    rw [fill_again_auto ha hf₀ hagk] at hg₀
    cases hg₀
    have hik₁ : Inv W false k₁ := by
      obtain ⟨p', -, hp', -, -, hu⟩ := match_params_ok hRk.matched
      have := (inv_atoms W false).update p' f.toDict h' hi'
      rwa [hu] at this
    obtain ⟨e2, hagk₂, hpk₂, h6k, hsck, hsck0, -⟩ := match_resolves hik₁ hpk₁ hagk₁ hft hcalck.matched
    rw [← e1] at e2
    subst e2
    -- everything the two calculations use agrees
    have hsame : (k₂.src s).interpolate_sc = (h₂.src s).interpolate_sc ∧ (k₂.src s).g = (h₂.src s).g ∧
        (HasSettings (h₂.src s) S → HasSettings (k₂.src s) S) := by
      obtain ⟨_, _, q1⟩ := (match_params_scOnly hcalck.matched).src s
      obtain ⟨_, _, q2⟩ := (match_params_scOnly hRk.matched).src s
      obtain ⟨_, _, q3⟩ := ho.src s
      rw [q1, q2, q3]
      exact ⟨rfl, rfl, fun h => h⟩
    obtain ⟨hint, hg, hset⟩ := hsame
    have hcurve := curve_congr W (sixKeys_eq h6 h6k hag₂ hagk₂)
    have hsceq : (k₂.src s).sc = (h₂.src s).sc := by
      rcases hb : (h₂.src s).interpolate_sc with _ | _
      · rw [hsc0 hb, hsck0 (hint.trans hb)]
      · obtain ⟨c, hc, h1⟩ := hsc hb
        obtain ⟨c', hc'', h2⟩ := hsck (hint.trans hb)
        rw [hcurve, hc''] at hc
        cases hc
        rw [h1, h2]
    have hCC : C' = C := by
      have hu := hcalck.ctx
      have hv := hcalc.ctx
      have : ctxOf W (k₂.src s) g' = ctxOf W (h₂.src s) g' := by
        unfold ctxOf
        rw [hsceq, hg]
      rw [this, hv] at hu
      exact (Except.ok.inj hu).symm
    have hSS : S' = S := by
      have h1 := (match_params_scOnly hcalck.matched).hasSettings.2 hRk.settings
      have h2 := (match_params_scOnly hcalc.matched).hasSettings.2 hR.settings
      exact HasSettings.unique h1 (hset h2)
    subst hCC hSS
    have hu := hcalck.values
    rw [hcalc.values] at hu
    cases hu
    have hl1 : (items (h.src s).cols (which (h.src s).cols.n_sources ws)).length = (harmNow h s).length := by
      rw [hcalc.harm_length, (match_params_scOnly hR.matched).harmNow]
    refine ⟨by rw [hv, hv'], ?_⟩
    rw [hh', hh, assign_again (by simp [hl1]) (by simp [mapM_length hcalc.values])]

end Legwork.source
