import Verif.Props.SourceRepeat

/-!
# Calls of `get_snr` with settings succeed (C36)
-/

namespace Legwork.Props

open Legwork.source Legwork.Spec Legwork.snr
open PyM hiding bind

variable {W : World} {s n r p : ℕ} {h h' : Heap} {a f : SnrArgs} {ws : Option (List Bool)}

/-- The six settings `f` of a call with arguments `a`: those given, and those stored in `d` for the ones left out. -/
structure Filled (d : Dict) (a f : SnrArgs) : Prop where
  t_obs : Given d "t_obs" a.t_obs f.t_obs
  instrument : Given d "instrument" a.instrument f.instrument
  custom_psd : Given d "custom_psd" a.custom_psd f.custom_psd
  L : Given d "L" a.L f.L
  approximate_R : Given d "approximate_R" a.approximate_R f.approximate_R
  confusion_noise : Given d "confusion_noise" a.confusion_noise f.confusion_noise

private lemma orParam_given {d : Dict} {key : String} {x v : PVal} (h : Given d key x v) : orParam d key x = .ok v := by
  unfold orParam Dict.item
  rcases h with ⟨h1, rfl⟩ | ⟨rfl, h2⟩
  · rw [if_neg h1]; rfl
  · rw [if_pos rfl, h2]; rfl

theorem fill_given {d : Dict} (h : Filled d a f) : fill_args d a = .ok f := by
  unfold fill_args
  rw [orParam_given h.t_obs, orParam_given h.instrument, orParam_given h.custom_psd, orParam_given h.L,
    orParam_given h.approximate_R, orParam_given h.confusion_noise]
  rfl

theorem toDict_agrees (f : SnrArgs) : Agrees f.toDict f := agrees_iff.2 ⟨rfl, rfl, rfl, rfl, rfl, rfl⟩

theorem toDict_sixKeys (f : SnrArgs) : SixKeys f.toDict := by
  intro key
  constructor
  · intro h
    by_contra hk
    have : f.toDict.get? key = none := by
      simp only [scKeys, List.mem_cons, List.not_mem_nil, or_false, not_or] at hk
      obtain ⟨h1, h2, h3, h4, h5, h6⟩ := hk
      simp [SnrArgs.toDict, Dict.get?, h1, h2, h3, h4, h5, h6]
    rw [this] at h
    cases h
  · intro hk
    simp only [scKeys, List.mem_cons, List.not_mem_nil, or_false] at hk
    rcases hk with rfl | rfl | rfl | rfl | rfl | rfl <;> rfl

theorem six_keys {W : World} {h : Heap} {ok : Heap → Op → Prop} (hr : Reachable W ok h) {s p : ℕ}
    (hp : (h.src s).sc_params = some p) : SixKeys (h.par p).dict := by
  obtain ⟨-, -, h6, -⟩ := ((Reachable.inv hr).sc s).1 p hp
  exact h6

/-- After the settings are stored the object is ready to calculate with them. -/
theorem with_matched (hr : Reachable W Interpolating h) (hrect : Rect (h.src s).cols) (hb : Built (h.src s))
    (hint : (h.src s).interpolate_sc = true) (hsnr : (storedSnr h s).length = (h.src s).cols.n_sources)
    (hharm : (storedHarm h s).length = (h.src s).cols.n_sources) (hp : (h.src s).sc_params = some p)
    (hf : Filled (h.par p).dict a f) {T : ℝ} (hT : f.t_obs = .time T) {c : ℝ → WithTop ℝ} (hc : CurveOf W f.toDict c) :
    ∃ h₂, (∀ r, match_params W s a r h = (.ok f, h₂)) ∧ Ready W h₂ s ∧ Agrees (h₂.par p).dict f := by
  obtain ⟨hown, h6⟩ : (h.par p).source = some s ∧ SixKeys (h.par p).dict := by
    have := ((Reachable.inv hr).sc s).1 p hp
    exact ⟨this.2.1, six_keys hr hp⟩
  have hfill := fill_given hf
  have hres : ∀ r : Bool, (if r then resolve_auto f else f) = f := fun r => by
    rw [resolve_auto_of_ne (by rw [hT]; simp), ite_self]
  obtain ⟨d', hd'⟩ : ∃ d', d' = (h.par p).dict.update f.toDict := ⟨_, rfl⟩
  have hag' : Agrees d' f := hd' ▸ update_agrees _ _
  have h6' : SixKeys d' := by
    intro key
    rw [hd', Dict.get?_update]
    rw [h6 key]
    exact ⟨fun h => h.elim id (toDict_keys _ key), Or.inl⟩
  have hcurve : curve W d' = .ok c := by
    rw [curve_congr W (sixKeys_eq h6' (toDict_sixKeys f) hag' (toDict_agrees f))]
    exact curve_ok_iff.2 hc
  obtain ⟨h₂, hu, hsrc, hpar, hs2, hh2⟩ : ∃ h₂, params_update W p f.toDict h = (.ok (), h₂) ∧
      (h₂.src s) = { h.src s with sc := some c } ∧ (h₂.par p).dict = d' ∧ h₂.snrs = h.snrs ∧ h₂.harms = h.harms := by
    rcases params_update_run W p f.toDict h with ⟨⟨k, hk, hk'⟩, -⟩ | ⟨-, hall, hrun⟩ | ⟨-, -, hrun⟩
    · exact absurd (toDict_keys f k hk) hk'
    · rw [toDict_ofPairs] at hall hrun
      rw [← hd'] at hrun
      refine ⟨_, hrun, ?_, by simp, rfl, rfl⟩
      have hagree : Agrees (h.par p).dict f := fun kv hkv => by
        have h1 := hall kv hkv
        unfold Dict.get at h1
        have h2 : ((h.par p).dict.get? kv.1).isSome := (h6 kv.1).2 (toDict_keys f _ (List.mem_map_of_mem hkv))
        obtain ⟨v, hv⟩ := Option.isSome_iff_exists.1 h2
        rw [hv] at h1 ⊢
        exact congrArg some h1
      have : (h.src s).sc = some c := by
        refine (C40_current hr hp).1 hint c (curve_ok_iff.1 ?_)
        rw [curve_congr W (sixKeys_eq h6 h6' hagree hag')]
        exact hcurve
      show h.src s = _
      rw [← this]
    · rw [toDict_ofPairs, ← hd', re_interpolate_run] at hrun
      have e1 : ((h.setPar p { h.par p with dict := d' }).par p).source = some s := by simp [hown]
      have e2 : ((h.setPar p { h.par p with dict := d' }).src s).sc_params = some p := hp
      have e3 : ((h.setPar p { h.par p with dict := d' }).src s).interpolate_sc = true := hint
      have e4 : ((h.setPar p { h.par p with dict := d' }).par p).dict = d' := by simp
      have e5 : (h.setPar p { h.par p with dict := d' }).src s = h.src s := rfl
      have e6 : (h.setPar p { h.par p with dict := d' }).snrs = h.snrs := rfl
      have e7 : (h.setPar p { h.par p with dict := d' }).harms = h.harms := rfl
      generalize h.setPar p { h.par p with dict := d' } = g at *
      rw [e1] at hrun
      simp only at hrun
      rw [set_sc_run, if_pos e3, e2] at hrun
      simp only at hrun
      rw [e4, hcurve] at hrun
      refine ⟨_, hrun, ?_, e4, e6, e7⟩
      rw [← e5]
      simp [Heap.setSrc]
  refine ⟨h₂, fun r => ?_, ⟨by rw [hsrc]; exact hrect, by rw [hsrc]; exact ⟨hb.1, hb.2, hb.3⟩,
    ⟨p, T, c, by rw [hsrc]; exact hp, by rw [hpar]; exact h6', ?_, by rw [hpar]; exact curve_ok_iff.1 hcurve, by rw [hsrc]⟩, ?_, ?_⟩,
    by rw [hpar]; exact hag'⟩
  · unfold match_params getSrcPar
    rw [bind_run, bind_run]
    simp only [getSrc, hp, attr, pure_run]
    rw [bind_run]
    simp only [getPar]
    rw [bind_run]
    simp only [lift_run, hfill, hres]
    rw [bind_ok hu]
    rfl
  · rw [hpar, (agrees_iff.1 hag').1, hT]
  · unfold storedSnr at hsnr ⊢
    rw [hsrc, hs2]
    exact hsnr
  · unfold storedHarm at hharm ⊢
    rw [hsrc, hh2]
    exact hharm

/-- What `get_snr` finds afterwards. -/
theorem with_ready (hr : Reachable W Interpolating h) (hrect : Rect (h.src s).cols) (hb : Built (h.src s))
    (hint : (h.src s).interpolate_sc = true) (hsnr : (storedSnr h s).length = (h.src s).cols.n_sources)
    (hharm : (storedHarm h s).length = (h.src s).cols.n_sources) (hp : (h.src s).sc_params = some p)
    (hf : Filled (h.par p).dict a f) {T : ℝ} (hT : f.t_obs = .time T) {c : ℝ → WithTop ℝ} (hc : CurveOf W f.toDict c) :
    ∃ h₂ C S T' c', (∀ r, match_params W s a r h = (.ok f, h₂)) ∧ Ready W h₂ s ∧ (h₂.src s).sc_params = some p ∧
      match_params W s f true h₂ = (.ok f, h₂) ∧ ctxOf W (h₂.src s) f = .ok C ∧ HasSettings (h₂.src s) S ∧
      f.t_obs = .time T' ∧ C.t_obs = T' ∧ C.interpolated_sc = some c' := by
  obtain ⟨h₂, hm, hR, hag₂⟩ := with_matched hr hrect hb hint hsnr hharm hp hf hT hc
  obtain ⟨f', C, S, p', T', c', hm1, -, hm3, hctx, hset₂, hp', hft, hCT, hsc⟩ := ready hR
  have hp2 : (h₂.src s).sc_params = some p := by
    obtain ⟨q, -, hq, hq', -⟩ := match_params_agrees (hm true)
    rw [hp] at hq
    cases hq
    exact hq'
  rw [hp2] at hp'
  cases hp'
  have hff : f' = f := by
    obtain ⟨q, -, hq, -, -, -, hag⟩ := match_params_agrees hm1
    rw [hp2] at hq
    cases hq
    obtain ⟨a1, a2, a3, a4, a5, a6⟩ := agrees_iff.1 hag
    obtain ⟨b1, b2, b3, b4, b5, b6⟩ := agrees_iff.1 hag₂
    rw [a1] at b1
    rw [a2] at b2
    rw [a3] at b3
    rw [a4] at b4
    rw [a5] at b5
    rw [a6] at b6
    cases f
    cases f'
    simp_all
  subst hff
  exact ⟨h₂, C, S, T', c', hm, hR, hp2, hm3, hctx, hset₂, hft, hCT, hsc⟩

/-- **C36** (no spurious failure, with settings). Take any plain `Source` that a program has made without switching interpolation
by an assignment, interpolating its sensitivity curve. `get_snr` succeeds with any settings, given in the call or stored
before, that have an observation time and a sensitivity curve that can be calculated. -/
theorem C36_succeeds_with (hr : Reachable W Interpolating h)
    (hcls : (h.src s).cls = .Source ∨ (h.src s).cls = .VerificationBinaries) (hn : n ≠ 0) (hs : CompleteSchedule W (h.src s))
    (hw : FitsMask (h.src s).cols ws) (hrect : Rect (h.src s).cols) (hb : Built (h.src s))
    (hint : (h.src s).interpolate_sc = true) (hsnr : (storedSnr h s).length = (h.src s).cols.n_sources)
    (hharm : (storedHarm h s).length = (h.src s).cols.n_sources) (hp : (h.src s).sc_params = some p)
    (hf : Filled (h.par p).dict a f) {T : ℝ} (hT : f.t_obs = .time T) {c : ℝ → WithTop ℝ} (hc : CurveOf W f.toDict c) :
    ∃ r h', get_snr W s a n ws h = (.ok r, h') := by
  obtain ⟨h₂, C, S, T', c', hm, hR, hp2, hm3, hctx, hset₂, hft, hCT, hsc⟩ := with_ready hr hrect hb hint hsnr hharm hp hf hT hc
  have hsc0 := match_params_scOnly (hm true)
  have hset : HasSettings (h.src s) S := hsc0.hasSettings.1 hset₂
  obtain ⟨sc, q, he⟩ := hsc0.src s
  have hcols₂ : (h₂.src s).cols = (h.src s).cols := by rw [he]
  rw [get_snr_run]
  have full : ∃ r h', Source_get_snr W s a n ws h = (.ok r, h') := by
    obtain ⟨ps, hps⟩ : ∃ ps, (items (h.src s).cols (which (h.src s).cols.n_sources ws)).mapM
        (orZero (fullOne W C S (h.src s).stat_tol n)) = .ok ps := by
      refine mapM_exists fun x hx => ?_
      unfold orZero fullOne
      split_ifs
      · exact statOne_exists hsc S (item_angles hrect hx)
      · exact evolOne_exists hsc W S n _
      · exact ⟨_, rfl⟩
    have hil := items_length (c := (h.src s).cols) (which_length hw)
    exact Source_get_snr_exists (T := T') (S := S) hn hs hrect hw _ rfl
      ⟨hm false, hset₂, p, hp2, Or.inl ⟨by rw [hft]; simp, Or.inl hft⟩⟩
      (Or.inr ⟨f, h₂, C, ps, hm3, hctx, hCT, hps, hil.trans (hR.harm_length.trans (by rw [hcols₂])).symm,
        hil.trans (hR.snr_length.trans (by rw [hcols₂])).symm⟩)
  rcases hcls with hc' | hc' <;> rw [hc'] <;> exact full

/-- The number of stored harmonics does not change. -/
theorem harm_length_after (hcls : (h.src s).cls = .Source ∨ (h.src s).cls = .VerificationBinaries) (hn : n ≠ 0)
    (hs : CompleteSchedule W (h.src s)) (hr : Rect (h.src s).cols) (hw : FitsMask (h.src s).cols ws)
    (hrun : get_snr W s a n ws h = (.ok r, h')) : (storedHarm h' s).length = (storedHarm h s).length := by
  have hrun' : Source_get_snr W s a n ws h = (.ok r, h') := by
    rw [get_snr_run] at hrun
    rcases hcls with hc | hc <;> · rw [hc] at hrun; exact hrun
  obtain ⟨f, h₁, T, S, hR, -, hcase⟩ := Source_get_snr_values hn hs hr hw hrun' _ rfl
  rcases hcase with ⟨-, -, -, hh, -⟩ | ⟨-, f', h₂, C, ps, hcalc, ho, -, -, hh', -⟩
  · exact congrArg List.length hh
  · refine (congrArg List.length hh').trans ?_
    rw [np.assign_length]
    rfl

end Legwork.Props
