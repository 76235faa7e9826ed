import Verif.Lemmas.SnrAgain
import Verif.Props.SourceArrays

/-!
# Repeating an SNR call, and the automatic observation time (C51)

The second half of the claim fails in two ways, proved below: the first call replaces `t_obs="auto"` in `sc_params` by a
time, so that a later change of the instrument does not change it (`C51_not_followed`), and for instruments other than
LISA and TianQin the time `Source` uses is not the one `psd` uses (`C51_auto_differs`).
-/

namespace Legwork.Props

open Legwork.source Legwork.Spec Legwork.snr
open PyM hiding bind

variable {W : World} {s n r r' p : ℕ} {h h' h'' : Heap} {a : SnrArgs} {ws : Option (List Bool)}


private theorem half_again {m : M (List (Option ℝ))} {vs : List (Option ℝ)} {h₁ k k' : Heap}
    (h2 : store_snr s vs h₁ = (.ok r, k)) (hk : m k = (.ok vs, k')) (he : harmNow k s = harmNow h₁ s → harmNow k' s = harmNow k s) :
    ∃ r' h'', (m >>= fun x => store_snr s x) k = (.ok r', h'') ∧ h''.snrs r' = k.snrs r ∧ storedHarm h'' s = storedHarm k s := by
  obtain ⟨g1, -, -, g4⟩ := harmNow_store h2
  obtain ⟨g1', -, -, g4'⟩ := harmNow_store (store_snr_run s vs k')
  refine ⟨_, _, (bind_ok hk).trans (store_snr_run s vs k'), by rw [g4', g4], ?_⟩
  exact g1'.trans (he g1)

/-- **C51.** `get_snr` called again with the same arguments succeeds again, and returns the same SNRs and stores the same
harmonics. (For the case left out, `t_obs="auto"` passed explicitly, see `C51_repeat_auto`.) -/
theorem C51_repeat (ha : a.t_obs ≠ .str "auto" ∨ (h.src s).cls = .Stationary ∨ (h.src s).cls = .Evolving) (hn : n ≠ 0)
    (hs : CompleteSchedule W (h.src s)) (hr : Rect (h.src s).cols) (hw : FitsMask (h.src s).cols ws)
    (hrun : get_snr W s a n ws h = (.ok r, h')) :
    ∃ r' h'', get_snr W s a n ws h' = (.ok r', h'') ∧ h''.snrs r' = h'.snrs r ∧ storedHarm h'' s = storedHarm h' s := by
  have hno : FitsMask (h.src s).cols none := fun m hm => by cases hm
  have hcls' : (h'.src s).cls = (h.src s).cls := by
    obtain ⟨_, _, _, he⟩ := (get_snr_snrCall W s a n ws h).src s
    rw [hrun] at he
    simp only at he
    rw [he]
  rw [get_snr_run] at hrun ⊢
  rw [hcls']
  have hsel : ∀ {vs : List (Option ℝ)} {R : One → Option ℝ → Prop}, List.Forall₂ R (selected (h.src s).cols none) vs →
      vs.length = (h.src s).cols.n_sources := by
    intro vs R hR
    rw [← hR.length_eq]
    simp [selected, rows_length]
  rcases hcls : (h.src s).cls with _ | _ | _ | _ <;> rw [hcls] at hrun ha
  · exact Source_again (ha.resolve_right (by simp)) hn hs hr hw hrun
  · change Stationary_get_snr W s a h = _ at hrun
    change ∃ r' h'', Stationary_get_snr W s a h' = _ ∧ _
    unfold Stationary_get_snr at hrun ⊢
    obtain ⟨vs, h₁, h1, h2⟩ := bind_eq_ok hrun
    have hst := C36_get_snr_stationary hr hno h1
    obtain ⟨g1, -, g3, g4⟩ := harmNow_store h2
    have ho : SnrOnly h₁ h' := by
      have := store_snr_snrOnly h₁ s vs h₁ (SnrOnly.refl h₁)
      rwa [h2] at this
    obtain ⟨k, hk, -, hh⟩ := stationary_again hr hno h1 ho (by rw [g1]; exact hst.lengths.2)
      (by rw [snrNow_of g3, g4, hsel hst.returned])
    exact half_again h2 hk hh
  · change Evolving_get_snr W s a n h = _ at hrun
    change ∃ r' h'', Evolving_get_snr W s a n h' = _ ∧ _
    unfold Evolving_get_snr at hrun ⊢
    obtain ⟨vs, h₁, h1, h2⟩ := bind_eq_ok hrun
    have hst := C36_get_snr_evolving hn hs hr hno h1
    obtain ⟨g1, -, g3, g4⟩ := harmNow_store h2
    have ho : SnrOnly h₁ h' := by
      have := store_snr_snrOnly h₁ s vs h₁ (SnrOnly.refl h₁)
      rwa [h2] at this
    obtain ⟨k, hk, -, hh⟩ := evolving_again hn hs hr hno h1 ho (by rw [g1]; exact hst.lengths.2)
      (by rw [snrNow_of g3, g4, hsel hst.returned])
    exact half_again h2 hk hh
  · exact Source_again (ha.resolve_right (by simp)) hn hs hr hw hrun

/-- **C51** (`t_obs="auto"` passed explicitly). Whenever both calls succeed their results agree. -/
theorem C51_repeat_auto {ok : Heap → Op → Prop} (hreach : Reachable W ok h)
    (hcls : (h.src s).cls = .Source ∨ (h.src s).cls = .VerificationBinaries) (ha : a.t_obs = .str "auto") (hn : n ≠ 0)
    (hs : CompleteSchedule W (h.src s)) (hr : Rect (h.src s).cols) (hw : FitsMask (h.src s).cols ws)
    (hrun : get_snr W s a n ws h = (.ok r, h')) (hrun' : get_snr W s a n ws h' = (.ok r', h'')) :
    h''.snrs r' = h'.snrs r ∧ storedHarm h'' s = storedHarm h' s := by
  have hi : Inv W false h := Reachable.inv hreach
  have hi' : Inv W false h' := by
    have := run_inv (op := .getSnr s a n ws) hi (fun hb => by cases hb)
    have he : (Op.run W (.getSnr s a n ws) h).2 = h' := by
      change ((get_snr W s a n ws >>= fun _ => pure ()) h).2 = h'
      rw [PyM.bind_run, hrun]
      rfl
    rwa [he] at this
  have hcls' : (h'.src s).cls = (h.src s).cls := by
    obtain ⟨_, _, _, he⟩ := (get_snr_snrCall W s a n ws h).src s
    rw [hrun] at he
    simp only at he
    rw [he]
  rw [get_snr_run] at hrun hrun'
  rw [hcls'] at hrun'
  rcases hcls with hc | hc <;>
  · rw [hc] at hrun hrun'
    exact Source_again_auto hi hi' ha hn hs hr hw hrun hrun'

/-- **C51** (the two methods by themselves). `get_snr_stationary` called again with the same arguments returns the
same SNRs. -/
theorem C51_repeat_stationary {vs : List (Option ℝ)} (hr : Rect (h.src s).cols) (hw : FitsMask (h.src s).cols ws)
    (hrun : get_snr_stationary W s a ws h = (.ok vs, h')) :
    ∃ h'', get_snr_stationary W s a ws h' = (.ok vs, h'') ∧ storedHarm h'' s = storedHarm h' s := by
  have hst := C36_get_snr_stationary hr hw hrun
  obtain ⟨k, hk, -, hh⟩ := stationary_again hr hw hrun (SnrOnly.refl h') hst.lengths.2 hst.lengths.1
  exact ⟨k, hk, hh rfl⟩

/-- **C51** (the two methods by themselves). Likewise for `get_snr_evolving`. -/
theorem C51_repeat_evolving {vs : List (Option ℝ)} (hn : n ≠ 0) (hs : CompleteSchedule W (h.src s))
    (hr : Rect (h.src s).cols) (hw : FitsMask (h.src s).cols ws) (hrun : get_snr_evolving W s a n ws h = (.ok vs, h')) :
    ∃ h'', get_snr_evolving W s a n ws h' = (.ok vs, h'') ∧ storedHarm h'' s = storedHarm h' s := by
  have hst := C36_get_snr_evolving hn hs hr hw hrun
  obtain ⟨k, hk, -, hh⟩ := evolving_again hn hs hr hw hrun (SnrOnly.refl h') hst.lengths.2 hst.lengths.1
  exact ⟨k, hk, hh rfl⟩

noncomputable example (ws : Option (List Bool)) (hw : FitsMask (Example.heap.src 0).cols ws) :
    ∃ r h' r' h'', get_snr Example.world 0 {} 100 ws Example.heap = (.ok r, h') ∧
      get_snr Example.world 0 {} 100 ws h' = (.ok r', h'') ∧ h''.snrs r' = h'.snrs r := by
  obtain ⟨r, h', hrun⟩ := example_get_snr ws hw
  obtain ⟨r', h'', h1, h2, -⟩ := C51_repeat (Or.inl (by simp)) (by norm_num) example_schedule example_rect hw hrun
  exact ⟨r, h', r', h'', hrun, h1, h2⟩

noncomputable example (cls : Cls) : ∃ r h' r' h'', get_snr Example.world 0 {} 100 none (example_cls cls) = (.ok r, h') ∧
    get_snr Example.world 0 {} 100 none h' = (.ok r', h'') ∧ h''.snrs r' = h'.snrs r := by
  have hs : CompleteSchedule Example.world ((example_cls cls).src 0) := by
    unfold CompleteSchedule; rw [example_cls_src]; exact example_schedule
  obtain ⟨r, h', hrun⟩ := C36_succeeds (n := 100) (ws := none) (by norm_num) hs (fun m hm => by cases hm) (example_cls_ready cls)
  obtain ⟨r', h'', h1, h2, -⟩ := C51_repeat (Or.inl (by simp)) (by norm_num) hs (example_cls_ready cls).rect
    (ws := none) (fun m hm => by cases hm) hrun
  exact ⟨r, h', r', h'', hrun, h1, h2⟩

/-! ### The automatic observation time -/

/-- **C51** (meaning of `"auto"`). When the observation time is `"auto"`, by argument or in `sc_params`, the SNRs are
calculated for 4 years with LISA and for 5 years otherwise, and that time is stored. -/
theorem C51_auto (hcls : (h.src s).cls = .Source ∨ (h.src s).cls = .VerificationBinaries) (hn : n ≠ 0)
    (hs : CompleteSchedule W (h.src s)) (hr : Rect (h.src s).cols) (hw : FitsMask (h.src s).cols ws)
    (hp : (h.src s).sc_params = some p) (ha : Given (h.par p).dict "t_obs" a.t_obs (.str "auto"))
    (hrun : get_snr W s a n ws h = (.ok r, h'))
    (hlive : ∃ (i : ℕ) (one : One), (rows (h.src s).cols)[i]? = some one ∧ one.merged = false ∧ Chosen ws i) :
    ∃ C, CallCtx W h' s C ∧ (h'.par p).dict.get? "t_obs" = some (.time C.t_obs) ∧
      ((h'.par p).dict.get? "instrument" = some (.str "LISA") → C.t_obs = 4 * psd.yr) ∧
      ((h'.par p).dict.get? "instrument" ≠ some (.str "LISA") → C.t_obs = 5 * psd.yr) := by
  obtain ⟨q, hq, hq', hst⟩ := C36_settings hcls hn hs hr hw hrun
  rw [hp] at hq
  cases hq
  obtain ⟨i, one, hi, hm, hc⟩ := hlive
  obtain ⟨-, -, -, hv⟩ := C36_get_snr hcls hn hs hr hw hrun
  obtain ⟨v, harm, _, -, -, -, C, -, -, hC, -⟩ := (hv i one hi).2 hm hc
  have hC' := hC
  obtain ⟨p', _, _, _, _, _, _, T, hp', -, -, -, -, -, -, ht, rfl⟩ := hC'
  rw [hq'] at hp'
  cases hp'
  refine ⟨_, hC, ht, ?_⟩
  obtain ⟨-, -, -, -, -, v', hg, hv'⟩ := hst
  have hv0 : v' = .str "auto" := by
    rcases hg with ⟨g1, g2⟩ | ⟨g1, g2⟩ <;> rcases ha with ⟨a1, a2⟩ | ⟨a1, a2⟩
    · rw [g2, a2]
    · exact absurd a1 g1
    · exact absurd g1 a1
    · rw [a2] at g2
      exact (Option.some.inj g2).symm
  subst hv0
  rw [ht] at hv'
  rcases hv' with hv' | ⟨-, ⟨h1, h2⟩ | ⟨h1, h2⟩⟩
  · cases hv'
  · cases h2
    exact ⟨fun _ => rfl, fun h => absurd h1 h⟩
  · cases h2
    exact ⟨fun h => absurd h h1, fun _ => rfl⟩

/-- **C51** (agreement with `psd`). For LISA and TianQin the automatic observation time of `Source` is that of
`power_spectral_density`. -/
theorem C51_auto_agrees (K : Consts) (env : psd.Env) (f : ℝ) (custom : Option psd.CustomPsd) (L : psd.LenArg) (aR : Bool)
    (noise : psd.NoiseArg) :
    psd.power_spectral_density K env f "LISA" custom .auto L aR noise =
      psd.power_spectral_density K env f "LISA" custom (.val (4 * psd.yr)) L aR noise ∧
    psd.power_spectral_density K env f "TianQin" custom .auto L aR noise =
      psd.power_spectral_density K env f "TianQin" custom (.val (5 * psd.yr)) L aR noise := ⟨rfl, rfl⟩

/-- **C51** (the claim fails for DECIGO). With the confusion noise of Thiele et al. the noise curve for `"auto"` exists; for
the 5 years that `Source` takes `"auto"` to mean it is a `ValueError`. -/
theorem C51_auto_differs (K : Consts) (env : psd.Env) (f : ℝ) :
    (∃ y, psd.power_spectral_density K env f "DECIGO" none .auto .auto false (.name "thiele21") = .ok y) ∧
    psd.power_spectral_density K env f "DECIGO" none (.val (5 * psd.yr)) .auto false (.name "thiele21") =
      .error .ValueError := by
  have h1 : ¬ "DECIGO" = "LISA" := by decide
  have h2 : ¬ "DECIGO" = "TianQin" := by decide
  have h3 : (psd.NoiseArg.name "thiele21").resolve "karnesis21" = .name "thiele21" := by
    unfold psd.NoiseArg.resolve
    simp
  have h4 : ∀ g, psd.noise_bare g (.val (4 * psd.yr)) (.name "thiele21") = .ok (psd.get_confusion_noise_thiele21 g) := by
    intro g
    simp [psd.noise_bare, psd.get_confusion_noise, psd.TimeArg.resolve, pure, Except.pure]
  have h5 : ∀ g, psd.noise_bare g (.val (5 * psd.yr)) (.name "thiele21") = .error .ValueError := by
    intro g
    have : (5 : ℝ) * psd.yr ≠ 4 * psd.yr := by unfold psd.yr; norm_num
    simp [psd.noise_bare, psd.get_confusion_noise, psd.TimeArg.resolve, this, throw, throwThe, MonadExceptOf.throw]
  unfold psd.power_spectral_density
  rw [if_neg h1, if_neg h2, if_pos rfl, if_neg h1, if_neg h2, if_pos rfl, h3]
  unfold psd.decigo_psd
  simp only [psd.TimeArg.resolve, h4, h5]
  exact ⟨⟨_, rfl⟩, rfl⟩

/-! ### The automatic time is replaced -/

/-- A source object with the observation time `"auto"`, for which the curve can be calculated once `"auto"` is replaced
by the time it means. -/
structure AutoReady (W : World) (h : Heap) (s : ℕ) : Prop where
  rect : Rect (h.src s).cols
  built : Built (h.src s)
  params : ∃ p i T c, (h.src s).sc_params = some p ∧ (h.par p).source = some s ∧ SixKeys (h.par p).dict ∧
    (h.par p).dict.get? "t_obs" = some (.str "auto") ∧ (h.par p).dict.get? "instrument" = some i ∧
    (i = .str "LISA" ∧ T = 4 * psd.yr ∨ i ≠ .str "LISA" ∧ T = 5 * psd.yr) ∧
    (h.src s).interpolate_sc = true ∧ CurveOf W ((h.par p).dict.set "t_obs" (.time T)) c
  snr_length : (storedSnr h s).length = (h.src s).cols.n_sources
  harm_length : (storedHarm h s).length = (h.src s).cols.n_sources

theorem autoReady (hh : AutoReady W h s) : ∃ f f' h₂ C S p T c, match_params W s {} false h = (.ok f, h) ∧
    (∀ a, Within a f → match_params W s a true h = (.ok f', h₂)) ∧ Within {} f ∧ ctxOf W (h₂.src s) f' = .ok C ∧
    HasSettings (h.src s) S ∧
    (h.src s).sc_params = some p ∧ MaskTime (h.par p).dict f.t_obs T ∧ C.t_obs = T ∧ C.interpolated_sc = some c ∧
    (h₂.src s).sc = some c ∧ (h₂.par p).dict.get? "t_obs" = some (.time T) ∧ SixKeys (h₂.par p).dict ∧
    CurveOf W (h₂.par p).dict c := by
  obtain ⟨hr, hb, ⟨p, i, T, c, hp, hown, h6, ht, hi, hiT, hint, hc⟩, -, -⟩ := hh
  have hk : ∀ key ∈ scKeys, ∃ v, (h.par p).dict.get? key = some v := fun key hk => Option.isSome_iff_exists.1 ((h6 key).2 hk)
  obtain ⟨cp, hcp⟩ := hk "custom_psd" (by simp [scKeys])
  obtain ⟨L, hL⟩ := hk "L" (by simp [scKeys])
  obtain ⟨aR, haR⟩ := hk "approximate_R" (by simp [scKeys])
  obtain ⟨cn, hcn⟩ := hk "confusion_noise" (by simp [scKeys])
  obtain ⟨tol, htol⟩ := Option.isSome_iff_exists.1 hb.ecc_tol
  obtain ⟨q, hq⟩ := Option.isSome_iff_exists.1 hb.harmonics_required
  have hag : Agrees (h.par p).dict ⟨.str "auto", i, cp, L, aR, cn⟩ := agrees_iff.2 ⟨ht, hi, hcp, hL, haR, hcn⟩
  have hres : resolve_auto ⟨.str "auto", i, cp, L, aR, cn⟩ = ⟨.time T, i, cp, L, aR, cn⟩ := by
    unfold resolve_auto
    rw [if_pos rfl, auto_t_obs_iff.2 hiT]
  have hw0 : ∀ f, Within {} f := fun f => ⟨Or.inl rfl, Or.inl rfl, Or.inl rfl, Or.inl rfl, Or.inl rfl, Or.inl rfl⟩
  obtain ⟨d', hd'⟩ : ∃ d', d' = (h.par p).dict.update (SnrArgs.toDict ⟨.time T, i, cp, L, aR, cn⟩) := ⟨_, rfl⟩
  have hag' : Agrees d' ⟨.time T, i, cp, L, aR, cn⟩ := hd' ▸ update_agrees _ _
  have h6' : SixKeys d' := by
    intro key
    rw [hd', Dict.get?_update]
    rw [h6 key]
    exact ⟨fun h => h.elim id (toDict_keys _ key), Or.inl⟩
  have h6s : SixKeys ((h.par p).dict.set "t_obs" (.time T)) := by
    intro key
    rw [Dict.get?_set]
    split_ifs with hk
    · subst hk
      simp [scKeys]
    · exact h6 key
  have hags : Agrees ((h.par p).dict.set "t_obs" (.time T)) ⟨.time T, i, cp, L, aR, cn⟩ := by
    rw [agrees_iff]
    refine ⟨?_, ?_, ?_, ?_, ?_, ?_⟩ <;> rw [Dict.get?_set]
    · simp
    all_goals
      rw [if_neg (by decide)]
      assumption
  have hcurve : curve W d' = .ok c := by
    rw [curve_congr W (sixKeys_eq h6' h6s hag' hags)]
    exact curve_ok_iff.2 hc
  obtain ⟨kw, hkw⟩ := asKw_of_curve hc (agrees_iff.1 hags).2.1 (agrees_iff.1 hags).2.2.1 (agrees_iff.1 hags).2.2.2.1
    (agrees_iff.1 hags).2.2.2.2.1 (agrees_iff.1 hags).2.2.2.2.2
  simp only at hkw
  -- the update
  have hupd : ∃ h₂, params_update W p (SnrArgs.toDict ⟨.time T, i, cp, L, aR, cn⟩) h = (.ok (), h₂) ∧
      (h₂.src s) = { h.src s with sc := some c } ∧ (h₂.par p).dict = d' := by
    rcases params_update_run W p (SnrArgs.toDict ⟨.time T, i, cp, L, aR, cn⟩) h with ⟨⟨k, hk, hk'⟩, -⟩ | ⟨-, hall, -⟩ | ⟨-, -, hrun⟩
    · exact absurd (toDict_keys ⟨.time T, i, cp, L, aR, cn⟩ k hk) hk'
    · exfalso
      have := hall ("t_obs", .time T) (by rw [toDict_ofPairs]; simp [SnrArgs.toDict])
      unfold Dict.get at this
      simp only at this
      rw [ht] at this
      cases this
    · rw [toDict_ofPairs, ← hd', re_interpolate_run] at hrun
      have e1 : ((h.setPar p { h.par p with dict := d' }).par p).source = some s := by simp [hown]
      have e2 : ((h.setPar p { h.par p with dict := d' }).src s).sc_params = some p := hp
      have e3 : ((h.setPar p { h.par p with dict := d' }).src s).interpolate_sc = true := hint
      have e4 : ((h.setPar p { h.par p with dict := d' }).par p).dict = d' := by simp
      have e5 : (h.setPar p { h.par p with dict := d' }).src s = h.src s := rfl
      generalize h.setPar p { h.par p with dict := d' } = g at *
      rw [e1] at hrun
      simp only at hrun
      rw [set_sc_run, if_pos e3, e2] at hrun
      simp only at hrun
      rw [e4, hcurve] at hrun
      refine ⟨_, hrun, ?_, e4⟩
      rw [← e5]
      simp [Heap.setSrc]
  obtain ⟨h₂, hu, hsrc, hpar⟩ := hupd
  have hm : ∀ a, Within a ⟨.str "auto", i, cp, L, aR, cn⟩ →
      match_params W s a true h = (.ok ⟨.time T, i, cp, L, aR, cn⟩, h₂) := by
    intro a ha
    have hfill := fill_args_within hag ha
    unfold match_params getSrcPar
    rw [bind_run, bind_run]
    simp only [getSrc, hp, attr, pure_run]
    rw [bind_run]
    simp only [getPar]
    rw [bind_run]
    simp only [lift_run, hfill, if_true, hres]
    rw [bind_ok hu]
    rfl
  have hm0 : match_params W s {} false h = (.ok ⟨.str "auto", i, cp, L, aR, cn⟩, h) := by
    have := match_params_same W (r := false) hp (fill_args_within hag (hw0 _)) (by simpa using hag)
    simpa using this
  refine ⟨_, _, h₂, ⟨W.K, W.env, kw, (h₂.src s).g, (h₂.src s).sc, T⟩, ⟨tol, q, (h.src s).n_proc⟩, p, T, c, hm0, hm, hw0 _, ?_,
    ⟨htol, hq, rfl⟩, hp, Or.inl ⟨by simp, Or.inr ⟨rfl, i, hi, hiT⟩⟩, rfl, by rw [hsrc], by rw [hsrc], ?_, by rw [hpar]; exact h6',
    by rw [hpar]; exact curve_ok_iff.1 hcurve⟩
  · unfold ctxOf
    rw [hkw]
    rfl
  · rw [hpar]
    exact (agrees_iff.1 hag').1

/-- **C51** (no spurious failure). With the observation time `"auto"`, `get_snr` without settings succeeds for every
selection when the curve for the time meant can be calculated. -/
theorem C51_succeeds_auto (hn : n ≠ 0) (hs : CompleteSchedule W (h.src s)) (hw : FitsMask (h.src s).cols ws)
    (hh : AutoReady W h s) : ∃ r h', get_snr W s {} n ws h = (.ok r, h') := by
  obtain ⟨f, f', h₂, C, S, p, T, c, hm1, hm2, hw0, hctx, hset, hp, hmt, hT, hsc, -⟩ := autoReady hh
  have hr := hh.rect
  have hset₂ : HasSettings (h₂.src s) S := (match_params_scOnly (hm2 _ hw0)).hasSettings.2 hset
  rw [get_snr_run]
  have full : ∃ r h', Source_get_snr W s {} n ws h = (.ok r, h') := by
    obtain ⟨ps, hps⟩ : ∃ ps, (items (h.src s).cols (which (h.src s).cols.n_sources ws)).mapM
        (orZero (fullOne W C S (h.src s).stat_tol n)) = .ok ps := by
      refine mapM_exists fun x hx => ?_
      unfold orZero fullOne
      split_ifs
      · exact statOne_exists hsc S (item_angles hr hx)
      · exact evolOne_exists hsc W S n _
      · exact ⟨_, rfl⟩
    have hil := items_length (c := (h.src s).cols) (which_length hw)
    exact Source_get_snr_exists (T := T) (S := S) hn hs hr hw _ rfl ⟨hm1, hset, p, hp, hmt⟩
      (Or.inr ⟨f', h₂, C, ps, hm2 _ (Within.refl f), hctx, hT, hps, hil.trans hh.harm_length.symm, hil.trans hh.snr_length.symm⟩)
  have hno : FitsMask (h.src s).cols none := fun m hm => by cases hm
  have hil := items_length (c := (h.src s).cols) (which_length hno)
  rcases (h.src s).cls with _ | _ | _ | _
  · exact full
  · obtain ⟨ps, hps⟩ : ∃ ps, (items (h.src s).cols (which (h.src s).cols.n_sources none)).mapM
        (orZero (statOne C S)) = .ok ps := by
      refine mapM_exists fun x hx => ?_
      unfold orZero
      split_ifs
      · exact statOne_exists hsc S (item_angles hr hx)
      · exact ⟨_, rfl⟩
    obtain ⟨v, h', hv, -⟩ := snr_stationary_exists hr hno rfl (hm2 _ hw0) hset₂ hctx hps (hil.trans hh.harm_length.symm)
      (hil.trans hh.snr_length.symm)
    exact ⟨_, _, by unfold Stationary_get_snr; rw [bind_ok hv]; rfl⟩
  · obtain ⟨ps, hps⟩ : ∃ ps, (items (h.src s).cols (which (h.src s).cols.n_sources none)).mapM
        (orZero (evolOne W C S n)) = .ok ps := by
      refine mapM_exists fun x hx => ?_
      unfold orZero
      split_ifs
      · exact evolOne_exists hsc W S n _
      · exact ⟨_, rfl⟩
    obtain ⟨v, h', hv, -⟩ := snr_evolving_exists hn hs hr hno rfl (hm2 _ hw0) hset₂ hctx hps (hil.trans hh.harm_length.symm)
      (hil.trans hh.snr_length.symm)
    exact ⟨_, _, by unfold Evolving_get_snr; rw [bind_ok hv]; rfl⟩
  · exact full

/-- Afterwards the source is ready with the time that `"auto"` meant. -/
theorem AutoReady.get_snr (hh : AutoReady W h s) (hcls : (h.src s).cls = .Source ∨ (h.src s).cls = .VerificationBinaries) (hn : n ≠ 0)
    (hsch : CompleteSchedule W (h.src s)) (hw : FitsMask (h.src s).cols ws)
    (hlive : ∃ (i : ℕ) (one : One), (rows (h.src s).cols)[i]? = some one ∧ one.merged = false ∧ Chosen ws i)
    (hrun : source.get_snr W s {} n ws h = (.ok r, h')) : Ready W h' s := by
  have hrun' : Source_get_snr W s {} n ws h = (.ok r, h') := by
    rw [get_snr_run] at hrun
    rcases hcls with hc | hc <;> · rw [hc] at hrun; exact hrun
  obtain ⟨f₀, f₁, k, C₀, S₀, p, T₀, c, hm1, hm2, hw0, -, -, hp, -, -, -, hsc, ht, h6, hc⟩ := autoReady hh
  obtain ⟨hsnr, hcols, hlen, -⟩ := C36_get_snr hcls hn hsch hh.rect hw hrun
  obtain ⟨f, h₁, T, S, hR, -, hcase⟩ := Source_get_snr_values hn hsch hh.rect hw hrun' _ rfl
  have hm := hR.matched
  rw [hm1] at hm
  cases hm
  rcases hcase with ⟨hany, -⟩ | ⟨-, f', h₂, C, ps, hcalc, ho, -, -, hh', -⟩
  · exfalso
    obtain ⟨i, one, hi, hm, hc⟩ := hlive
    obtain ⟨b, hb, hbc⟩ := item_at hw hi
    rw [List.any_eq_false] at hany
    exact absurd (live_iff.2 ⟨hbc.2 hc, hm⟩) (hany _ (List.mem_of_getElem? hb))
  · have hm := hcalc.matched
    rw [hm2 _ (Within.refl _)] at hm
    cases hm
    obtain ⟨x, y, he⟩ := ho.src s
    obtain ⟨sc', x', e2⟩ := (match_params_scOnly hcalc.matched).src s
    obtain ⟨b1, b2, -⟩ := hh.built
    have hpk : (h'.src s).sc_params = some p := by
      obtain ⟨p', _, hp', hp'', -⟩ := match_params_agrees hcalc.matched
      rw [hp] at hp'
      cases hp'
      rw [he]
      exact hp''
    refine ⟨by rw [hcols]; exact hh.rect, ⟨by rw [he, e2]; exact b1, by rw [he, e2]; exact b2, by rw [hpk]; rfl⟩,
      ⟨p, T₀, c, hpk, by rw [ho.par]; exact h6, by rw [ho.par]; exact ht, by rw [ho.par]; exact hc, by rw [he]; exact hsc⟩, ?_, ?_⟩
    · change (snrNow h' s).length = _
      rw [snrNow_of hsnr, hlen, hcols]
    · rw [hcols]
      refine (congrArg List.length hh').trans ?_
      rw [np.assign_length]
      exact hh.harm_length

/-- Setting a parameter of a source that is ready. -/
theorem Ready.setitem {key : String} {v : PVal} {c : ℝ → WithTop ℝ} (hh : Ready W h s) (hp : (h.src s).sc_params = some p)
    (hown : (h.par p).source = some s) (hint : (h.src s).interpolate_sc = true) (hk : key ∈ scKeys) (hkt : key ≠ "t_obs")
    (hc : curve W ((h.par p).dict.set key v) = .ok c) (hne : (h.par p).dict.get key ≠ v) :
    ∃ h'', params_setitem W p key v h = (.ok (), h'') ∧ Ready W h'' s ∧ (h''.src s) = { h.src s with sc := some c } ∧
      (h''.par p).dict = (h.par p).dict.set key v := by
  obtain ⟨hr, ⟨b1, b2, b3⟩, ⟨p', T, c₀, q1, q2, q3, q4, q5⟩, l1, l2⟩ := hh
  rw [hp] at q1
  cases q1
  rcases params_setitem_run W p key v h with ⟨h1, -⟩ | ⟨-, h1, -⟩ | ⟨-, -, hrun⟩
  · exact absurd hk h1
  · exact absurd h1 hne
  · obtain ⟨d', hd'⟩ : ∃ d', d' = (h.par p).dict.set key v := ⟨_, rfl⟩
    rw [← hd', re_interpolate_run] at hrun
    rw [← hd'] at hc
    have e1 : ((h.setPar p { h.par p with dict := d' }).par p).source = some s := by simp [hown]
    have e2 : ((h.setPar p { h.par p with dict := d' }).src s).sc_params = some p := hp
    have e3 : ((h.setPar p { h.par p with dict := d' }).src s).interpolate_sc = true := hint
    have e4 : ((h.setPar p { h.par p with dict := d' }).par p).dict = d' := by simp
    have e5 : (h.setPar p { h.par p with dict := d' }).src s = h.src s := rfl
    have e6 : (h.setPar p { h.par p with dict := d' }).snrs = h.snrs := rfl
    have e7 : (h.setPar p { h.par p with dict := d' }).harms = h.harms := rfl
    generalize h.setPar p { h.par p with dict := d' } = g at *
    rw [e1] at hrun
    simp only at hrun
    rw [set_sc_run, if_pos e3, e2] at hrun
    simp only at hrun
    rw [e4, hc] at hrun
    have es : ((g.log (.interpolated s)).setSrc s { g.src s with sc := some c }).src s = { h.src s with sc := some c } := by
      rw [← e5]
      simp [Heap.setSrc]
    have ep : (((g.log (.interpolated s)).setSrc s { g.src s with sc := some c }).par p).dict = d' := e4
    have en : ((g.log (.interpolated s)).setSrc s { g.src s with sc := some c }).snrs = h.snrs := e6
    have eh : ((g.log (.interpolated s)).setSrc s { g.src s with sc := some c }).harms = h.harms := e7
    simp only at hrun
    generalize (g.log (.interpolated s)).setSrc s { g.src s with sc := some c } = k at *
    refine ⟨k, hrun, ⟨by rw [es]; exact hr, by rw [es]; exact ⟨b1, b2, b3⟩,
      ⟨p, T, c, by rw [es]; exact hp, ?_, ?_, by rw [ep]; exact curve_ok_iff.1 hc, by rw [es]⟩, ?_, ?_⟩, es, by rw [ep, hd']⟩
    · rw [ep, hd']
      intro key'
      rw [Dict.get?_set]
      split_ifs with hk'
      · subst hk'
        simp [hk]
      · exact q2 key'
    · rw [ep, hd', Dict.get?_set, if_neg (Ne.symm hkt)]
      exact q3
    · unfold storedSnr at l1 ⊢
      rw [es, en]
      exact l1
    · unfold storedHarm at l2 ⊢
      rw [es, eh]
      exact l2

/-! A pair of binaries observed with LISA, then with TianQin. -/

/-- Parameters that need no data file. -/
def plain (inst : String) (t : PVal) : Dict :=
  [("instrument", .str inst), ("custom_psd", .none), ("t_obs", t), ("L", .str "auto"), ("approximate_R", .bool true),
   ("confusion_noise", .none)]

theorem plain_filled (inst : String) (t : PVal) : filled_params (some (plain inst t)) = .ok (plain inst t) := rfl

theorem plain_sixKeys (inst : String) (t : PVal) : SixKeys (plain inst t) := (filled_params_ok (plain_filled inst t)).1

theorem plain_agrees (inst : String) (t : PVal) :
    Agrees (plain inst t) ⟨t, .str inst, .none, .str "auto", .bool true, .none⟩ :=
  agrees_iff.2 ⟨rfl, rfl, rfl, rfl, rfl, rfl⟩

theorem plain_curve {inst : String} {t : PVal} (hi : inst = "LISA" ∨ inst = "TianQin") (ht : t = .str "auto" ∨ ∃ T, t = .time T) :
    ∃ c, curve Example.world (plain inst t) = .ok c := by
  refine curve_exists_iff.2 fun i _ => ?_
  have hk : ((plain inst t).keys.any fun key => decide (key ∉ DEFAULT_SC_PARAMS.keys)) = false := by
    change ((plain "" .none).keys.any fun key => decide (key ∉ DEFAULT_SC_PARAMS.keys)) = false
    decide
  unfold psd_of_dict
  rw [hk]
  rcases hi with rfl | rfl <;> rcases ht with rfl | ⟨T, rfl⟩ <;> exact ⟨_, rfl⟩

/-- The binaries of the example, with these parameters. -/
noncomputable def lisaArgs : InitArgs := { Example.args with sc_params := some (plain "LISA" (.str "auto")) }

theorem lisa_init (cls : Cls) : ∃ c, init Example.world cls lisaArgs Example.start =
    (.ok 0, heapAfterInit Example.world cls lisaArgs Example.cols Example.eccTol (plain "LISA" (.str "auto")) (some c)
      Example.start) := by
  obtain ⟨c₀, hc₀⟩ := plain_curve (inst := "LISA") (t := .str "auto") (Or.inl rfl) (Or.inl rfl)
  have e1 : init_cols Example.world lisaArgs = .ok Example.cols := Example.init_cols_args
  have e2 : find_eccentric_transition lisaArgs.gw_lum_tol = .ok Example.eccTol := Example.find_eccTol
  have e3 : filled_params lisaArgs.sc_params = .ok (plain "LISA" (.str "auto")) := rfl
  rcases init_run Example.world cls lisaArgs Example.start with ⟨c, t, d, s, h1, h2, h3, h4, h5⟩ | ⟨-, h⟩
  · rw [e1] at h1
    rw [e2] at h2
    rw [e3] at h3
    cases h1
    cases h2
    cases h3
    rcases h4 with ⟨-, c, hc, rfl⟩ | ⟨h4, -⟩
    · exact ⟨c, h5⟩
    · cases h4
  · exfalso
    rcases h with ⟨e, he⟩ | ⟨e, he⟩ | ⟨e, he⟩ | ⟨-, d, e, hd, he⟩
    · rw [e1] at he
      cases he
    · rw [e2] at he
      cases he
    · rw [e3] at he
      cases he
    · rw [e3] at hd
      cases hd
      rw [hc₀] at he
      cases he

theorem reachable_any {ok : Heap → Op → Prop} {W : World} {h : Heap} (hr : Reachable W ok h) : Reachable W AnyCall h := by
  induction hr with
  | start he => exact .start he
  | call op _ _ ih => exact .call op ih trivial

theorem lisa_class (cls : Cls) : ∃ h, Reachable Example.world Interpolating h ∧ AutoReady Example.world h 0 ∧
    (h.src 0).cls = cls ∧ CompleteSchedule Example.world (h.src 0) ∧ (h.src 0).cols = Example.cols ∧
    (h.src 0).sc_params = some 1 ∧ (h.par 1).dict = plain "LISA" (.str "auto") ∧ (h.src 0).interpolate_sc = true ∧
    (h.src 0).stat_tol = 1e-2 ∧ (h.src 0).ecc_tol = some Example.eccTol := by
  obtain ⟨c, hc⟩ := lisa_init cls
  obtain ⟨k, hk⟩ : ∃ k, k = heapAfterInit Example.world cls lisaArgs Example.cols Example.eccTol
    (plain "LISA" (.str "auto")) (some c) Example.start := ⟨_, rfl⟩
  have hsrc : k.src 0 = newObject Example.world cls lisaArgs Example.cols Example.eccTol (some c) 1 := by
    rw [hk]
    change Function.update Example.start.src 0 _ 0 = _
    rw [Function.update_self]
    rfl
  have hpar : k.par 1 = ⟨plain "LISA" (.str "auto"), some 0⟩ := by
    rw [hk]
    change Function.update Example.start.par 1 _ 1 = _
    rw [Function.update_self]
    rfl
  rw [← hk] at hc
  obtain ⟨c', hc'⟩ := plain_curve (inst := "LISA") (t := .time (4 * psd.yr)) (Or.inl rfl) (Or.inr ⟨_, rfl⟩)
  have hex := example_rect
  rw [Example.heap_src] at hex
  refine ⟨k, ?_, ⟨by rw [hsrc]; exact hex, by rw [hsrc]; exact ⟨rfl, rfl, rfl⟩,
    ⟨1, .str "LISA", 4 * psd.yr, c', by rw [hsrc]; rfl, by rw [hpar], by rw [hpar]; exact plain_sixKeys _ _, by rw [hpar]; rfl,
      by rw [hpar]; rfl, Or.inl ⟨rfl, rfl⟩, by rw [hsrc]; rfl, ?_⟩, ?_, ?_⟩, by rw [hsrc]; rfl, ?_, by rw [hsrc]; rfl,
    by rw [hsrc]; rfl, by rw [hpar], by rw [hsrc]; rfl, by rw [hsrc]; rfl, by rw [hsrc]; rfl⟩
  · have h1 := Reachable.call (.init cls lisaArgs) (Reachable.start (W := Example.world) (ok := Interpolating) (h := Example.start)
      fun _ => rfl) trivial
    have h2 : (Op.run Example.world (.init cls lisaArgs) Example.start).2 = k := by
      change ((init Example.world cls lisaArgs >>= fun _ => pure ()) Example.start).2 = k
      rw [PyM.bind_run, hc]
      rfl
    rwa [h2] at h1
  · rw [hpar]
    exact curve_ok_iff.1 hc'
  · unfold storedSnr; rw [hsrc]; simp [newObject]
  · unfold storedHarm; rw [hsrc]; simp [newObject]
  · rw [hsrc]
    intro hn
    simp [newObject, lisaArgs, Example.args] at hn

theorem lisa_made : ∃ h, Reachable Example.world Interpolating h ∧ AutoReady Example.world h 0 ∧
    (h.src 0).cls = .Source ∧ CompleteSchedule Example.world (h.src 0) ∧ (h.src 0).cols = Example.cols ∧
    (h.src 0).sc_params = some 1 ∧ (h.par 1).dict = plain "LISA" (.str "auto") ∧ (h.src 0).interpolate_sc = true ∧
    (h.src 0).stat_tol = 1e-2 ∧ (h.src 0).ecc_tol = some Example.eccTol := lisa_class .Source

theorem lisa_object : ∃ h, Reachable Example.world AnyCall h ∧ AutoReady Example.world h 0 ∧
    (h.src 0).cls = .Source ∧ CompleteSchedule Example.world (h.src 0) ∧ (h.src 0).cols = Example.cols ∧
    (h.src 0).sc_params = some 1 ∧ (h.par 1).dict = plain "LISA" (.str "auto") ∧ (h.src 0).interpolate_sc = true ∧
    (h.src 0).stat_tol = 1e-2 ∧ (h.src 0).ecc_tol = some Example.eccTol := by
  obtain ⟨h, hr, hh⟩ := lisa_made
  exact ⟨h, reachable_any hr, hh⟩

theorem lisa_ready : ∃ h, Reachable Example.world AnyCall h ∧ AutoReady Example.world h 0 ∧
    (h.src 0).cls = .Source ∧ CompleteSchedule Example.world (h.src 0) ∧ (h.src 0).cols = Example.cols ∧
    (h.src 0).sc_params = some 1 ∧ (h.par 1).dict = plain "LISA" (.str "auto") ∧ (h.src 0).interpolate_sc = true := by
  obtain ⟨h, h1, h2, h3, h4, h5, h6, h7, h8, -⟩ := lisa_object
  exact ⟨h, h1, h2, h3, h4, h5, h6, h7, h8⟩

/-- **C51** (the claim fails: later changes of the instrument). A source is created for LISA with the observation time
`"auto"` and its SNR calculated; then the instrument is changed to TianQin, for which `"auto"` means 5 years. The next
SNR is calculated for the 4 years of LISA. All calls succeed. -/
theorem C51_not_followed : ∃ (W : World) (h h' h'' k : Heap) (r r' p : ℕ), Reachable W AnyCall h ∧
    (h.src 0).sc_params = some p ∧
    (h.par p).dict.get? "instrument" = some (.str "LISA") ∧ (h.par p).dict.get? "t_obs" = some (.str "auto") ∧
    source.get_snr W 0 {} 100 none h = (.ok r, h') ∧
    params_setitem W p "instrument" (.str "TianQin") h' = (.ok (), h'') ∧
    source.get_snr W 0 {} 100 none h'' = (.ok r', k) ∧
    ∃ C, CallCtx W k 0 C ∧ (k.par p).dict.get? "instrument" = some (.str "TianQin") ∧ C.t_obs = 4 * psd.yr := by
  obtain ⟨h, hreach, hready, hcls, hsch, hcols, hp, hd, hint⟩ := lisa_ready
  have hno : FitsMask (h.src 0).cols none := fun m hm => by cases hm
  obtain ⟨r, h', hrun⟩ := C51_succeeds_auto (n := 100) (ws := none) (by norm_num) hsch hno hready
  have hlive : ∃ (i : ℕ) (one : One), (rows (h.src 0).cols)[i]? = some one ∧ one.merged = false ∧ Chosen none i :=
    ⟨0, rowAt Example.cols 0, by rw [hcols]; rfl, rfl, fun m hm => by cases hm⟩
  have hready' := hready.get_snr (Or.inl hcls) (by norm_num) hsch hno hlive hrun
  obtain ⟨C₁, hC₁, ht₁, hT₁, -⟩ := C51_auto (Or.inl hcls) (by norm_num) hsch hready.rect hno hp
    (Or.inr ⟨rfl, by rw [hd]; rfl⟩) hrun hlive
  obtain ⟨p', hp', hp'', hst⟩ := C36_settings (Or.inl hcls) (by norm_num) hsch hready.rect hno hrun
  rw [hp] at hp'
  cases hp'
  obtain ⟨⟨v1, a1, b1⟩, ⟨v2, a2, b2⟩, ⟨v3, a3, b3⟩, ⟨v4, a4, b4⟩, ⟨v5, a5, b5⟩, -⟩ := hst
  have hgiven : ∀ {key : String} {v w : PVal}, Given (h.par 1).dict key .none v → (h.par 1).dict.get? key = some w → v = w := by
    intro key v w hg hw
    rcases hg with ⟨hg, -⟩ | ⟨-, hg⟩
    · exact absurd rfl hg
    · rw [hg] at hw
      exact Option.some.inj hw
  rw [hgiven a1 (w := .str "LISA") (by rw [hd]; rfl)] at b1
  rw [hgiven a2 (w := .none) (by rw [hd]; rfl)] at b2
  rw [hgiven a3 (w := .str "auto") (by rw [hd]; rfl)] at b3
  rw [hgiven a4 (w := .bool true) (by rw [hd]; rfl)] at b4
  rw [hgiven a5 (w := .none) (by rw [hd]; rfl)] at b5
  rw [hT₁ b1] at ht₁
  have hreach' : Reachable Example.world AnyCall h' := by
    have := Reachable.call (.getSnr 0 {} 100 none) hreach trivial
    have he : (Op.run Example.world (.getSnr 0 {} 100 none) h).2 = h' := by
      change ((source.get_snr Example.world 0 {} 100 none >>= fun _ => pure ()) h).2 = h'
      rw [PyM.bind_run, hrun]
      rfl
    rwa [he] at this
  obtain ⟨-, hown, h6, -⟩ := ((Reachable.inv hreach').sc 0).1 1 hp''
  obtain ⟨_, _, _, hsrc'⟩ := (get_snr_snrCall Example.world 0 {} 100 none h).src 0
  rw [hrun] at hsrc'
  simp only at hsrc'
  have hags : Agrees ((h'.par 1).dict.set "instrument" (.str "TianQin"))
      ⟨.time (4 * psd.yr), .str "TianQin", .none, .str "auto", .bool true, .none⟩ := by
    rw [agrees_iff]
    refine ⟨?_, ?_, ?_, ?_, ?_, ?_⟩ <;> rw [Dict.get?_set]
    rotate_left
    · simp
    all_goals
      rw [if_neg (by decide)]
      assumption
  have h6s : SixKeys ((h'.par 1).dict.set "instrument" (.str "TianQin")) := by
    intro key
    rw [Dict.get?_set]
    split_ifs with hk
    · subst hk
      simp [scKeys]
    · exact h6 key
  obtain ⟨c, hc⟩ := plain_curve (inst := "TianQin") (t := .time (4 * psd.yr)) (Or.inr rfl) (Or.inr ⟨_, rfl⟩)
  obtain ⟨h'', hset, hready'', hsrc'', hd''⟩ := hready'.setitem hp'' hown (by rw [hsrc']; exact hint) (by simp [scKeys])
    (by decide) ((curve_congr _ (sixKeys_eq h6s (plain_sixKeys "TianQin" (.time (4 * psd.yr))) hags (plain_agrees _ _))).trans hc)
    (by unfold Dict.get; rw [b1]; simp)
  have hcols'' : (h''.src 0).cols = Example.cols := by rw [hsrc'', hsrc', ← hcols]
  have hcls'' : (h''.src 0).cls = .Source := by rw [hsrc'', hsrc', ← hcls]
  have hsch'' : CompleteSchedule Example.world (h''.src 0) := CompleteSchedule.of_n_proc (by rw [hsrc'', hsrc']) hsch
  have hno'' : FitsMask (h''.src 0).cols none := fun m hm => by cases hm
  obtain ⟨r', k, hrun''⟩ := C36_succeeds (n := 100) (ws := none) (by norm_num) hsch'' hno'' hready''
  obtain ⟨-, ho⟩ := hready''.get_snr (Or.inl hcls'') (by norm_num) hsch'' hno'' hrun''
  obtain ⟨-, -, -, hv⟩ := C36_get_snr (Or.inl hcls'') (by norm_num) hsch'' hready''.rect hno'' hrun''
  obtain ⟨_, _, _, -, -, -, C, -, -, hC, -⟩ := (hv 0 (rowAt Example.cols 0) (by rw [hcols'']; rfl)).2 rfl
    (fun m hm => by cases hm)
  refine ⟨Example.world, h, h', h'', k, r, r', 1, hreach, hp, by rw [hd]; rfl, by rw [hd]; rfl, hrun, hset, hrun'', C, hC, ?_, ?_⟩
  · rw [ho.par, hd'']
    exact (agrees_iff.1 hags).2.1
  · obtain ⟨q, _, _, _, _, _, _, T, hq, -, -, -, -, -, -, ht, rfl⟩ := hC
    rw [ho.sc_params, hsrc''] at hq
    have : q = 1 := (Option.some.inj (hp''.symm.trans hq)).symm
    subst this
    rw [ho.par, hd'', (agrees_iff.1 hags).1] at ht
    simp only [Option.some.injEq, PVal.time.injEq] at ht
    exact ht.symm

/-- Sources with an automatic observation time meet the hypotheses. -/
noncomputable example : ∃ h r h' r' h'', get_snr Example.world 0 {} 100 none h = (.ok r, h') ∧
    (h.par 1).dict.get? "t_obs" = some (.str "auto") ∧
    get_snr Example.world 0 {} 100 none h' = (.ok r', h'') ∧ h''.snrs r' = h'.snrs r := by
  obtain ⟨h, hreach, hready, hcls, hsch, hcols, hp, hd, hint⟩ := lisa_ready
  have hno : FitsMask (h.src 0).cols none := fun m hm => by cases hm
  obtain ⟨r, h', hrun⟩ := C51_succeeds_auto (n := 100) (ws := none) (by norm_num) hsch hno hready
  obtain ⟨r', h'', h1, h2, -⟩ := C51_repeat (Or.inl (by simp)) (by norm_num) hsch hready.rect hno hrun
  exact ⟨h, r, h', r', h'', hrun, by rw [hd]; rfl, h1, h2⟩

/-! ### An explicit `"auto"` (C42) -/

/-- Matching the parameters to a changed observation time computes one curve. -/
theorem match_recomputes {a f : SnrArgs} {b : Bool} (hi : Inv W false h) (hp : (h.src s).sc_params = some p)
    (hint : (h.src s).interpolate_sc = true) (hne : (h.par p).dict.get? "t_obs" ≠ some f.t_obs)
    (hm : match_params W s a b h = (.ok f, h')) : h'.trace = h.trace ++ [.interpolated s] := by
  obtain ⟨p', _, hp', -, -, hu⟩ := match_params_ok hm
  rw [hp] at hp'
  cases hp'
  obtain ⟨-, hown, h6, -⟩ := (hi.sc s).1 p hp
  rcases params_update_run W p f.toDict h with ⟨-, hr⟩ | ⟨-, hall, hr⟩ | ⟨-, -, hr⟩
  · rw [hu] at hr; cases hr
  · exfalso
    have := hall ("t_obs", f.t_obs) (by rw [toDict_ofPairs]; simp [SnrArgs.toDict])
    obtain ⟨v, hv⟩ := Option.isSome_iff_exists.1 ((h6 "t_obs").2 (by simp [scKeys]))
    unfold Dict.get at this
    simp only at this
    rw [hv] at this
    exact hne (by rw [hv]; exact congrArg some this)
  · rw [hu, re_interpolate_run] at hr
    have e1 : ((h.setPar p { h.par p with dict := (h.par p).dict.update (Dict.ofPairs f.toDict) }).par p).source = some s := by
      simp [hown]
    rw [e1] at hr
    simp only at hr
    rw [set_sc_run] at hr
    simp only [setPar_src, hint, if_true, hp] at hr
    split at hr
    · cases hr
    · cases hr
      rfl

/-- **C42** (the exception). While the observation time stored is not `"auto"`, every successful `get_snr` call with
`t_obs="auto"` that calculates the SNR of some source computes the curve twice: once for `"auto"`, and once for the time
it means, which is then stored. -/
theorem C42_explicit_auto {ok : Heap → Op → Prop} {t : ℝ} (hreach : Reachable W ok h)
    (hcls : (h.src s).cls = .Source ∨ (h.src s).cls = .VerificationBinaries) (ha : a.t_obs = .str "auto") (hn : n ≠ 0)
    (hs : CompleteSchedule W (h.src s)) (hr : Rect (h.src s).cols) (hw : FitsMask (h.src s).cols ws)
    (hp : (h.src s).sc_params = some p) (hint : (h.src s).interpolate_sc = true)
    (ht : (h.par p).dict.get? "t_obs" = some (.time t))
    (hlive : ∃ (i : ℕ) (one : One), (rows (h.src s).cols)[i]? = some one ∧ one.merged = false ∧ Chosen ws i)
    (hrun : source.get_snr W s a n ws h = (.ok r, h')) :
    h'.trace = h.trace ++ [.interpolated s, .interpolated s] ∧ (h'.src s).sc_params = some p ∧
      ∃ t', (h'.par p).dict.get? "t_obs" = some (.time t') := by
  have hi : Inv W false h := Reachable.inv hreach
  obtain ⟨C, -, ht', -⟩ := C51_auto hcls hn hs hr hw hp (Or.inl ⟨by rw [ha]; simp, ha.symm⟩) hrun hlive
  obtain ⟨p', hp', hp'', -⟩ := C36_settings hcls hn hs hr hw hrun
  rw [hp] at hp'
  cases hp'
  refine ⟨?_, hp'', _, ht'⟩
  have hrun' : Source_get_snr W s a n ws h = (.ok r, h') := by
    rw [get_snr_run] at hrun
    rcases hcls with hc | hc <;> · rw [hc] at hrun; exact hrun
  obtain ⟨f, h₁, T, S, hR, -, hcase⟩ := Source_get_snr_values hn hs hr hw hrun' _ rfl
  have hm := hR.matched
  obtain ⟨q, f₀, hq, hq₁, hf₀, hff, hag⟩ := match_params_agrees hm
  rw [hp] at hq
  cases hq
  simp only [Bool.false_eq_true, if_false] at hff
  subst hff
  have hft : f.t_obs = .str "auto" := by
    rcases (fill_args_ok hf₀).1.t_obs with h1 | h1
    · rw [ha] at h1; cases h1
    · rw [← h1, ha]
  have e1 := match_recomputes hi hp hint (by rw [ht, hft]; simp) hm
  obtain ⟨q, _, hq, -, -, hu⟩ := match_params_ok hm
  rw [hp] at hq
  cases hq
  have hi₁ : Inv W false h₁ := by
    have := (inv_atoms W false).update p f.toDict h hi
    rwa [hu] at this
  have hint₁ : (h₁.src s).interpolate_sc = true := by
    obtain ⟨_, _, he⟩ := (match_params_scOnly hm).src s
    rw [he]
    exact hint
  rcases hcase with ⟨hany, -⟩ | ⟨-, f', h₂, C, ps, hcalc, ho, -⟩
  · exfalso
    obtain ⟨i, one, hi, hm, hc⟩ := hlive
    obtain ⟨b, hb, hbc⟩ := item_at hw hi
    rw [List.any_eq_false] at hany
    exact absurd (live_iff.2 ⟨hbc.2 hc, hm⟩) (hany _ (List.mem_of_getElem? hb))
  · obtain ⟨hf', -⟩ := match_resolves hi₁ hq₁ hag hft hcalc.matched
    have e2 := match_recomputes hi₁ hq₁ hint₁
      (by rw [(agrees_iff.1 hag).1, hft, hf']; simpa using (resolve_auto_ne f).symm) hcalc.matched
    rw [ho.trace, e2, e1]
    simp

/-- Storing `"auto"` in a source with a time, when both curves can be calculated. -/
theorem store_auto {i : PVal} {T : ℝ} (hh : Ready W h s) (hi : Inv W false h) (hp : (h.src s).sc_params = some p)
    (hint : (h.src s).interpolate_sc = true) (hinst : (h.par p).dict.get? "instrument" = some i)
    (hiT : i = .str "LISA" ∧ T = 4 * psd.yr ∨ i ≠ .str "LISA" ∧ T = 5 * psd.yr)
    (hc1 : ∃ c, curve W ((h.par p).dict.set "t_obs" (.str "auto")) = .ok c)
    (hc2 : ∃ c, curve W ((h.par p).dict.set "t_obs" (.time T)) = .ok c) :
    ∃ f h₁, match_params W s { t_obs := .str "auto" } false h = (.ok f, h₁) ∧ AutoReady W h₁ s ∧
      Agrees (h₁.par p).dict f ∧ (h₁.src s).sc_params = some p ∧ (h₁.src s).cols = (h.src s).cols ∧
      (h₁.src s).n_proc = (h.src s).n_proc := by
  obtain ⟨hr, ⟨b1, b2, b3⟩, ⟨p', T₀, c₀, q1, q2, q3, q4, q5⟩, l1, l2⟩ := hh
  rw [hp] at q1
  cases q1
  obtain ⟨-, hown, h6, -⟩ := (hi.sc s).1 p hp
  have hk : ∀ key ∈ scKeys, ∃ v, (h.par p).dict.get? key = some v := fun key hk => Option.isSome_iff_exists.1 ((h6 key).2 hk)
  obtain ⟨cp, hcp⟩ := hk "custom_psd" (by simp [scKeys])
  obtain ⟨L, hL⟩ := hk "L" (by simp [scKeys])
  obtain ⟨aR, haR⟩ := hk "approximate_R" (by simp [scKeys])
  obtain ⟨cn, hcn⟩ := hk "confusion_noise" (by simp [scKeys])
  obtain ⟨f, hf⟩ : ∃ f : SnrArgs, f = ⟨.str "auto", i, cp, L, aR, cn⟩ := ⟨_, rfl⟩
  have hset : ∀ v, Agrees ((h.par p).dict.set "t_obs" v) ⟨v, i, cp, L, aR, cn⟩ := by
    intro v
    rw [agrees_iff]
    refine ⟨?_, ?_, ?_, ?_, ?_, ?_⟩ <;> rw [Dict.get?_set]
    · simp
    all_goals
      rw [if_neg (by decide)]
      assumption
  have hset6 : ∀ v, SixKeys ((h.par p).dict.set "t_obs" v) := by
    intro v key
    rw [Dict.get?_set]
    split_ifs with hk
    · subst hk
      simp [scKeys]
    · exact h6 key
  have hfill : fill_args (h.par p).dict { t_obs := .str "auto" } = .ok f := by
    have h0 := fill_args_within (d := (h.par p).dict) (f := ⟨.time T₀, i, cp, L, aR, cn⟩) (a := {}) (agrees_iff.2 ⟨q3, hinst, hcp, hL, haR, hcn⟩)
      ⟨Or.inl rfl, Or.inl rfl, Or.inl rfl, Or.inl rfl, Or.inl rfl, Or.inl rfl⟩
    obtain ⟨-, -, h2, h3, h4, h5, h6⟩ := fill_args_ok h0
    have h1 : orParam (h.par p).dict "t_obs" (.str "auto") = .ok (.str "auto") := by simp [orParam, pure, Except.pure]
    unfold fill_args
    rw [h1, h2, h3, h4, h5, h6, hf]
    rfl
  obtain ⟨d', hd'⟩ : ∃ d', d' = (h.par p).dict.update f.toDict := ⟨_, rfl⟩
  have hag' : Agrees d' f := hd' ▸ update_agrees _ _
  have h6' : SixKeys d' := by
    intro key
    rw [hd', Dict.get?_update]
    rw [h6 key]
    exact ⟨fun h => h.elim id (toDict_keys _ key), Or.inl⟩
  have hde : d'.eq ((h.par p).dict.set "t_obs" (.str "auto")) := sixKeys_eq h6' (hset6 _) hag' (hf ▸ hset _)
  obtain ⟨c, hc⟩ := hc1
  rw [← curve_congr W hde] at hc
  obtain ⟨c2, hc2⟩ := hc2
  have hde2 : (d'.set "t_obs" (.time T)).eq ((h.par p).dict.set "t_obs" (.time T)) := by
    intro key
    have := hde key
    rw [Dict.get?_set] at this ⊢
    rw [Dict.get?_set]
    split_ifs with hk
    · rfl
    · rw [this, if_neg hk]
  rw [← curve_congr W hde2] at hc2
  have hupd : ∃ h₂, params_update W p f.toDict h = (.ok (), h₂) ∧ (h₂.src s) = { h.src s with sc := some c } ∧
      (h₂.par p) = ⟨d', some s⟩ ∧ h₂.snrs = h.snrs ∧ h₂.harms = h.harms := by
    rcases params_update_run W p f.toDict h with ⟨⟨k, hk, hk'⟩, -⟩ | ⟨-, hall, -⟩ | ⟨-, -, hrun⟩
    · exact absurd (toDict_keys f k hk) hk'
    · exfalso
      have := hall ("t_obs", f.t_obs) (by rw [toDict_ofPairs]; simp [SnrArgs.toDict])
      unfold Dict.get at this
      simp only at this
      rw [q3, hf] at this
      cases this
    · rw [toDict_ofPairs, ← hd', re_interpolate_run] at hrun
      have e1 : ((h.setPar p { h.par p with dict := d' }).par p) = ⟨d', some s⟩ := by simp [hown]
      have e2 : ((h.setPar p { h.par p with dict := d' }).src s).sc_params = some p := hp
      have e3 : ((h.setPar p { h.par p with dict := d' }).src s).interpolate_sc = true := hint
      have e5 : (h.setPar p { h.par p with dict := d' }).src s = h.src s := rfl
      have e6 : (h.setPar p { h.par p with dict := d' }).snrs = h.snrs := rfl
      have e7 : (h.setPar p { h.par p with dict := d' }).harms = h.harms := rfl
      generalize h.setPar p { h.par p with dict := d' } = g at *
      rw [e1] at hrun
      simp only at hrun
      rw [set_sc_run, if_pos e3, e2] at hrun
      simp only at hrun
      rw [e1] at hrun
      simp only [hc] at hrun
      refine ⟨_, hrun, ?_, e1, e6, e7⟩
      rw [← e5]
      simp [Heap.setSrc]
  obtain ⟨h₂, hu, hsrc, hpar, hsn, hha⟩ := hupd
  refine ⟨f, h₂, ?_, ⟨by rw [hsrc]; exact hr, by rw [hsrc]; exact ⟨b1, b2, b3⟩,
    ⟨p, i, T, c2, by rw [hsrc]; exact hp, by rw [hpar], by rw [hpar]; exact h6', ?_, ?_, hiT, by rw [hsrc]; exact hint,
      by rw [hpar]; exact curve_ok_iff.1 hc2⟩, ?_, ?_⟩, by rw [hpar]; exact hag', by rw [hsrc]; exact hp, by rw [hsrc], by rw [hsrc]⟩
  · unfold match_params getSrcPar
    rw [bind_run, bind_run]
    simp only [getSrc, hp, attr, pure_run]
    rw [bind_run]
    simp only [getPar]
    rw [bind_run]
    simp only [lift_run, hfill, Bool.false_eq_true, if_false]
    rw [bind_ok hu]
    rfl
  · rw [hpar, (agrees_iff.1 hag').1, hf]
  · rw [hpar, (agrees_iff.1 hag').2.1, hf]
  · unfold storedSnr at l1 ⊢
    rw [hsrc, hsn]
    exact l1
  · unfold storedHarm at l2 ⊢
    rw [hsrc, hha]
    exact l2

/-- LISA, then `get_snr(t_obs="auto")`: the stored time is 4 years, and both curves are computed. -/
noncomputable example : ∃ (h h' : Heap) (r : ℕ), Reachable Example.world AnyCall h ∧ (h.src 0).sc_params = some 1 ∧
    (h.par 1).dict.get? "t_obs" = some (.time (4 * psd.yr)) ∧
    source.get_snr Example.world 0 { t_obs := .str "auto" } 100 none h = (.ok r, h') ∧
    h'.trace = h.trace ++ [.interpolated 0, .interpolated 0] := by
  obtain ⟨h₀, hreach, hready, hcls, hsch, hcols, hp, hd, hint⟩ := lisa_ready
  have hno : FitsMask (h₀.src 0).cols none := fun m hm => by cases hm
  have hlive : ∃ (i : ℕ) (one : One), (rows (h₀.src 0).cols)[i]? = some one ∧ one.merged = false ∧ Chosen none i :=
    ⟨0, rowAt Example.cols 0, by rw [hcols]; rfl, rfl, fun m hm => by cases hm⟩
  obtain ⟨r₀, h, hrun⟩ := C51_succeeds_auto (n := 100) (ws := none) (by norm_num) hsch hno hready
  have hready' := hready.get_snr (Or.inl hcls) (by norm_num) hsch hno hlive hrun
  obtain ⟨C₁, hC₁, ht₁, hT₁, -⟩ := C51_auto (Or.inl hcls) (by norm_num) hsch hready.rect hno hp
    (Or.inr ⟨rfl, by rw [hd]; rfl⟩) hrun hlive
  obtain ⟨p', hp', hp'', hst⟩ := C36_settings (Or.inl hcls) (by norm_num) hsch hready.rect hno hrun
  rw [hp] at hp'
  cases hp'
  obtain ⟨⟨v1, a1, b1⟩, ⟨v2, a2, b2⟩, ⟨v3, a3, b3⟩, ⟨v4, a4, b4⟩, ⟨v5, a5, b5⟩, -⟩ := hst
  have hgiven : ∀ {key : String} {v w : PVal}, Given (h₀.par 1).dict key .none v → (h₀.par 1).dict.get? key = some w → v = w := by
    intro key v w hg hw
    rcases hg with ⟨hg, -⟩ | ⟨-, hg⟩
    · exact absurd rfl hg
    · rw [hg] at hw
      exact Option.some.inj hw
  rw [hgiven a1 (w := .str "LISA") (by rw [hd]; rfl)] at b1
  rw [hgiven a2 (w := .none) (by rw [hd]; rfl)] at b2
  rw [hgiven a3 (w := .str "auto") (by rw [hd]; rfl)] at b3
  rw [hgiven a4 (w := .bool true) (by rw [hd]; rfl)] at b4
  rw [hgiven a5 (w := .none) (by rw [hd]; rfl)] at b5
  rw [hT₁ b1] at ht₁
  have hreach' : Reachable Example.world AnyCall h := by
    have := Reachable.call (.getSnr 0 {} 100 none) hreach trivial
    have he : (Op.run Example.world (.getSnr 0 {} 100 none) h₀).2 = h := by
      change ((source.get_snr Example.world 0 {} 100 none >>= fun _ => pure ()) h₀).2 = h
      rw [PyM.bind_run, hrun]
      rfl
    rwa [he] at this
  have hi : Inv Example.world false h := Reachable.inv hreach'
  obtain ⟨-, hown, h6, -⟩ := (hi.sc 0).1 1 hp''
  obtain ⟨_, _, _, hsrc'⟩ := (get_snr_snrCall Example.world 0 {} 100 none h₀).src 0
  rw [hrun] at hsrc'
  simp only at hsrc'
  have hset : ∀ v : PVal, ((h.par 1).dict.set "t_obs" v).eq (plain "LISA" v) := by
    intro v
    refine sixKeys_eq ?_ (plain_sixKeys _ _) ?_ (plain_agrees "LISA" v)
    · intro key
      rw [Dict.get?_set]
      split_ifs with hk
      · subst hk
        simp [scKeys]
      · exact h6 key
    · rw [agrees_iff]
      refine ⟨?_, ?_, ?_, ?_, ?_, ?_⟩ <;> rw [Dict.get?_set]
      · simp
      all_goals
        rw [if_neg (by decide)]
        assumption
  obtain ⟨f, h₁, hm, hready₁, hag, hp₁, hcols₁, hnp₁⟩ := store_auto (i := .str "LISA") (T := 4 * psd.yr) hready' hi hp''
    (by rw [hsrc']; exact hint) b1 (Or.inl ⟨rfl, rfl⟩)
    (by rw [curve_congr _ (hset _)]; exact plain_curve (Or.inl rfl) (Or.inl rfl))
    (by rw [curve_congr _ (hset _)]; exact plain_curve (Or.inl rfl) (Or.inr ⟨_, rfl⟩))
  have hcls' : (h.src 0).cls = .Source := by rw [hsrc', ← hcls]
  have hcls₁ : (h₁.src 0).cls = .Source := by
    obtain ⟨_, _, he⟩ := (match_params_scOnly hm).src 0
    rw [he]
    exact hcls'
  have hsch' : CompleteSchedule Example.world (h.src 0) := CompleteSchedule.of_n_proc (by rw [hsrc']) hsch
  have hno₁ : FitsMask (h₁.src 0).cols none := fun m hm => by cases hm
  obtain ⟨r, h', hrun₁⟩ := C51_succeeds_auto (n := 100) (ws := none) (by norm_num) (CompleteSchedule.of_n_proc hnp₁ hsch') hno₁ hready₁
  have hrun' : source.get_snr Example.world 0 { t_obs := .str "auto" } 100 none h = (.ok r, h') := by
    rw [get_snr_run, hcls₁] at hrun₁
    rw [get_snr_run, hcls']
    change Source_get_snr _ _ _ _ _ _ = _ at hrun₁
    change Source_get_snr _ _ _ _ _ _ = _
    have hm' := match_params_same Example.world (r := false) hp₁ (fill_args_within (a := {}) hag
      ⟨Or.inl rfl, Or.inl rfl, Or.inl rfl, Or.inl rfl, Or.inl rfl, Or.inl rfl⟩) (by simpa using hag)
    simp only [Bool.false_eq_true, if_false] at hm'
    unfold Source_get_snr at hrun₁ ⊢
    rw [bind_ok hm'] at hrun₁
    rw [bind_ok hm]
    exact hrun₁
  exact ⟨h, h', r, hreach', hp'', ht₁, hrun', (C42_explicit_auto hreach' (Or.inl hcls') rfl (by norm_num) hsch' hready'.rect
    (fun m hm => by cases hm) hp'' (by rw [hsrc']; exact hint) ht₁
    ⟨0, rowAt Example.cols 0, by rw [hsrc']; simp only [hcols]; rfl, rfl, fun m hm => by cases hm⟩ hrun').1⟩

end Legwork.Props
