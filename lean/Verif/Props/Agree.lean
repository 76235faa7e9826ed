import Verif.Props.Classes
import Verif.Lemmas.Reclass
import Verif.Model.Keywords

/-!
# The classes `Stationary` and `Evolving` agree with `Source`
-/

namespace Legwork.Props

open Legwork.Spec Legwork.source Legwork.snr
open PyM hiding bind

variable {W : World} {s n r r' : ℕ} {h h' k' : Heap} {c : Cls} {a : SnrArgs} {cls : Cls}

theorem withClass_src (h : Heap) (s : ℕ) (c : Cls) : (withClass h s c).src s = { h.src s with cls := c } := by
  simp [withClass]

theorem withClass_harm (h : Heap) (s : ℕ) (c : Cls) : harmNow (withClass h s c) s = harmNow h s := by
  unfold harmNow
  rw [withClass_src]
  rfl

theorem withClass_snr (h : Heap) (s : ℕ) (c : Cls) : snrNow (withClass h s c) s = snrNow h s := by
  unfold snrNow
  rw [withClass_src]
  rfl

/-- The calculation of `Source.get_snr` and how the other class starts. -/
theorem agree_calc (c : Cls) (hreach : Reachable W Interpolating h)
    (hcls : (h.src s).cls = .Source ∨ (h.src s).cls = .VerificationBinaries) (hn : n ≠ 0)
    (hs : CompleteSchedule W (h.src s)) (hr : Rect (h.src s).cols) (hrun : get_snr W s a n none h = (.ok r, h'))
    {its : List (One × Bool)} (hits : its = items (h.src s).cols (which (h.src s).cols.n_sources none)) :
    (its.any live = false ∧ (h'.snrs r = its.map fun _ => some 0)) ∨
    (its.any live = true ∧ ∃ f k₁ S C ps p, match_params W s a true (withClass h s c) = (.ok f, k₁) ∧
      HasSettings (k₁.src s) S ∧ ctxOf W (k₁.src s) f = .ok C ∧ CallCtx W h' s C ∧
      its.mapM (orZero (fullOne W C S (h.src s).stat_tol n)) = .ok ps ∧ h'.snrs r = ps.map Prod.fst ∧
      harmNow h' s = np.assign (its.map live) (harmNow h s) (np.select (its.map live) (ps.map Prod.snd)) ∧
      its.length = (harmNow k₁ s).length ∧ its.length = (snrNow k₁ s).length ∧ harmNow k₁ s = harmNow h s ∧
      (h'.src s).sc_params = some p ∧ (k₁.src s).sc_params = some p ∧ (k₁.par p).dict.eq (h'.par p).dict) := by
  have hw : FitsMask (h.src s).cols none := fun m hm => by cases hm
  have hrun' : Source_get_snr W s a n none h = (.ok r, h') := by
    rw [get_snr_run] at hrun
    rcases hcls with hc | hc <;> · rw [hc] at hrun; exact hrun
  obtain ⟨f₀, h₁, T, S, hR, hsnr, hcase⟩ := Source_get_snr_values hn hs hr hw hrun' its hits
  rcases hcase with ⟨hany, ho, hv, -⟩ | ⟨hany, f', h₂, C, ps, hcalc, ho, hv, hsome, hharm, -⟩
  · exact Or.inl ⟨hany, hv⟩
  refine Or.inr ⟨hany, ?_⟩
  have hi := Reachable.inv_true hreach
  obtain ⟨h₃, hm₃, hsrc, hd⟩ := match_two_steps hi (Reachable.inv hreach) hR.matched hcalc.matched
  obtain ⟨k₁, hmk, hk, hkp⟩ := match_withClass c (hi.sc s).1 hm₃
  obtain ⟨sc, q, he⟩ := (match_params_scOnly hcalc.matched).src s
  obtain ⟨p, g, hp, hp₃, -⟩ := match_params_agrees hm₃
  have e1 := match_params_scOnly hR.matched
  have e2 := match_params_scOnly hmk
  have hp₂ : (h₂.src s).sc_params = some p := by rw [← hsrc]; exact hp₃
  obtain ⟨u, v, ho'⟩ := ho.src s
  refine ⟨f', k₁, S, C, ps, p, hmk, ?_, ?_, callCtx hcalc.matched hcalc.ctx ho, hcalc.values, hv, hharm, ?_, ?_, ?_, ?_, ?_, ?_⟩
  · rw [hk, hsrc, he]
    exact hR.settings
  · rw [hk, hsrc]
    exact hcalc.ctx
  · rw [e2.harmNow, withClass_harm, hcalc.harm_length, e1.harmNow]
  · rw [e2.snrNow, withClass_snr, hcalc.snr_length, e1.snrNow]
  · rw [e2.harmNow, withClass_harm]
  · rw [ho']
    exact hp₂
  · rw [hk]
    exact hp₃
  · rw [hkp, ho.par]
    exact hd p hp

theorem full_class {C : Ctx} {S : Settings} {tol : ℝ} {x : One} (hc : c = .Stationary ∨ c = .Evolving)
    (hx : x.StationaryOver W.K C.t_obs tol ↔ c = .Stationary) : fullOne W C S tol n x = classOne W n c C S x := by
  unfold fullOne stat1
  rcases hc with rfl | rfl
  · rw [if_pos (by simpa using hx)]
    rfl
  · rw [if_neg (by simpa using hx)]
    rfl

theorem callCtx_time {p : ℕ} {C : Ctx} (hC : CallCtx W h s C) (hp : (h.src s).sc_params = some p) :
    (h.par p).dict.get? "t_obs" = some (.time C.t_obs) := by
  obtain ⟨p', i, cp, L, aR, cn, kw, T, h1, -, -, -, -, -, -, h8, rfl⟩ := hC
  rw [hp] at h1
  cases h1
  exact h8

/-- **C106.** Take an object of class `Source`, and the same had it been made with the class `Stationary` or `Evolving`, and
call `get_snr` on both with the same arguments. If both calls succeed, the SNR of every source that has merged is 0 in both,
and the SNR and strongest harmonic of every other source are the same in both if the class is right for it: `Stationary` for
sources that are stationary over the observation by `evol.determine_stationarity`, `Evolving` for those that are not. -/
theorem C106_agrees {t i q : PVal} (hreach : Reachable W Interpolating h)
    (hcls : (h.src s).cls = .Source ∨ (h.src s).cls = .VerificationBinaries) (hc : c = .Stationary ∨ c = .Evolving)
    (hn : n ≠ 0) (hs : CompleteSchedule W (h.src s)) (hr : Rect (h.src s).cols)
    (hrun : get_snr W s { t_obs := t, instrument := i, custom_psd := q } n none h = (.ok r, h'))
    (hrun' : get_snr W s { t_obs := t, instrument := i, custom_psd := q } n none (withClass h s c) = (.ok r', k')) :
    ∀ (j : ℕ) (x : One), (rows (h.src s).cols)[j]? = some x →
      (x.merged = true → (h'.snrs r)[j]? = some (some 0) ∧ (k'.snrs r')[j]? = some (some 0)) ∧
      (x.merged = false → ∃ p T, (h'.src s).sc_params = some p ∧ (h'.par p).dict.get? "t_obs" = some (.time T) ∧
        ((x.StationaryOver W.K T (h.src s).stat_tol ↔ c = .Stationary) →
          ∃ v m, (h'.snrs r)[j]? = some v ∧ (k'.snrs r')[j]? = some v ∧ (storedHarm h' s)[j]? = some m ∧
            (storedHarm k' s)[j]? = some m)) := by
  have hw : FitsMask (h.src s).cols none := fun m hm => by cases hm
  have hks := withClass_src h s c
  have hcols : ((withClass h s c).src s).cols = (h.src s).cols := by rw [hks]
  have hkc : ((withClass h s c).src s).cls = c := by rw [hks]
  obtain ⟨vs, k₂, hH, hst⟩ := (class_run (by rw [hkc]; exact hc) hn (by unfold CompleteSchedule; rw [hks]; exact hs)
    (by rw [hcols]; exact hr)).1 hrun'
  obtain ⟨f', k₁', S', C', ps', hm', hS', hC', hps', hrec', rfl⟩ := hH
  rw [hcols] at hps' hrec' hst
  rw [hkc] at hps'
  set its := items (h.src s).cols (which (h.src s).cols.n_sources none) with hits
  have hil := items_length (c := (h.src s).cols) (which_length hw)
  rw [← hits] at hil
  have hpl' := mapM_length hps'
  rw [hil] at hpl'
  rw [select_all _ (by rw [List.length_map, hpl'])] at hst
  obtain ⟨e1, -, -, e2⟩ := harmNow_store hst
  obtain ⟨-, q2, -, q4, -, -⟩ := record_ok hrec'
  intro j x hx
  obtain ⟨b, hb, hbc⟩ := item_at hw hx
  have hbt : b = true := hbc.2 (chosen_none j)
  subst hbt
  rw [← hits] at hb
  obtain ⟨v', hvi', hv1'⟩ := mapM_at hps' hb
  have hlive : live (x, true) = !x.merged := by simp [live]
  have hkv : (k'.snrs r')[j]? = some v'.1 := by rw [e2, List.getElem?_map, hvi']; rfl
  have hcalc := agree_calc c hreach hcls hn hs hr hrun hits
  refine ⟨fun hmer => ?_, fun hmer => ?_⟩
  · rw [hmer] at hlive
    have hz : ∀ one : One → Except PyErr (Option ℝ × ℕ), ∀ v, orZero one (x, true) = .ok v → v.1 = some 0 := by
      intro one v hv
      unfold orZero at hv
      rw [hlive] at hv
      cases hv
      rfl
    refine ⟨?_, by rw [hkv, hz _ _ hv1']⟩
    rcases hcalc with ⟨-, hv⟩ | ⟨-, f, k₁, S, C, ps, p, -, -, -, -, hps, hv, -⟩
    · rw [hv, List.getElem?_map, hb]
      rfl
    · obtain ⟨v, hvi, hv1⟩ := mapM_at hps hb
      rw [hv, List.getElem?_map, hvi, Option.map_some, hz _ _ hv1]
  · rw [hmer] at hlive
    simp only [Bool.not_false] at hlive
    rcases hcalc with ⟨hany, -⟩ | ⟨-, f, k₁, S, C, ps, p, hm, hS, hC, hctx, hps, hv, hharm, hl1, hl2, hh, hp, -⟩
    · rw [List.any_eq_false] at hany
      exact absurd hlive (hany _ (List.mem_of_getElem? hb))
    · refine ⟨p, C.t_obs, hp, callCtx_time hctx hp, fun hst => ?_⟩
      change match_params W s { t_obs := t, instrument := i, custom_psd := q } true _ = _ at hm'
      rw [hm] at hm'
      cases hm'
      cases HasSettings.unique hS hS'
      rw [hC] at hC'
      cases hC'
      obtain ⟨v, hvi, hv1⟩ := mapM_at hps hb
      unfold orZero at hv1 hv1'
      rw [if_pos hlive] at hv1 hv1'
      rw [full_class hc hst, hv1'] at hv1
      cases hv1
      have hpl := mapM_length hps
      rw [hil] at hpl
      refine ⟨v'.1, v'.2, by rw [hv, List.getElem?_map, hvi]; rfl, hkv, ?_, ?_⟩
      · change (harmNow h' s)[j]? = _
        rw [hharm, assign_select (by rw [List.length_map, ← hh]; exact hl1) (by simp [hil, hpl])]
        simp [hb, hlive, hvi]
      · change (harmNow k' s)[j]? = _
        rw [e1, q2, assign_select q4 (by rw [unzipPairs_snd_length, List.length_map, hil, hpl'])]
        simp [hb, hlive, hvi', unzipPairs]

/-- **C106** (the other call). If `Source.get_snr` succeeds, there is a source that has not merged, and the class is right for
all that have not, the call on an object of that class succeeds. -/
theorem C106_succeeds {t i q : PVal} (hreach : Reachable W Interpolating h)
    (hcls : (h.src s).cls = .Source ∨ (h.src s).cls = .VerificationBinaries) (hc : c = .Stationary ∨ c = .Evolving)
    (hn : n ≠ 0) (hs : CompleteSchedule W (h.src s)) (hr : Rect (h.src s).cols)
    (hrun : get_snr W s { t_obs := t, instrument := i, custom_psd := q } n none h = (.ok r, h'))
    (hsome : ∃ x ∈ rows (h.src s).cols, x.merged = false)
    (hall : ∀ p T, (h'.src s).sc_params = some p → (h'.par p).dict.get? "t_obs" = some (.time T) →
      ∀ x ∈ rows (h.src s).cols, x.merged = false → (x.StationaryOver W.K T (h.src s).stat_tol ↔ c = .Stationary)) :
    ∃ r' k', get_snr W s { t_obs := t, instrument := i, custom_psd := q } n none (withClass h s c) = (.ok r', k') := by
  have hw : FitsMask (h.src s).cols none := fun m hm => by cases hm
  have hks := withClass_src h s c
  have hcols : ((withClass h s c).src s).cols = (h.src s).cols := by rw [hks]
  have hkc : ((withClass h s c).src s).cls = c := by rw [hks]
  rcases agree_calc c hreach hcls hn hs hr hrun rfl with
    ⟨hany, -⟩ | ⟨-, f, k₁, S, C, ps, p, hm, hS, hC, hctx, hps, hv, hharm, hl1, hl2, hh, hp, -⟩
  · obtain ⟨x, hx, hmer⟩ := hsome
    obtain ⟨j, hj⟩ := List.getElem?_of_mem hx
    obtain ⟨b, hb, hbc⟩ := item_at hw hj
    rw [List.any_eq_false] at hany
    exact absurd (live_iff.2 ⟨hbc.2 (chosen_none j), hmer⟩) (hany _ (List.mem_of_getElem? hb))
  · have hT := callCtx_time hctx hp
    have hps' : (items (h.src s).cols (which (h.src s).cols.n_sources none)).mapM (orZero (classOne W n c C S)) = .ok ps := by
      refine (mapM_congr_ok fun x hx b => ?_).1 hps
      unfold orZero
      by_cases hl : live x = true
      · rw [if_pos hl, if_pos hl]
        rw [full_class hc (hall p _ hp hT x.1 (List.of_mem_zip hx).1 (live_iff.1 hl).2)]
      · rw [if_neg hl, if_neg hl]
    have hpl := mapM_length hps
    obtain ⟨k₂, hk₂, -⟩ := record_exists (s := s) (h := k₁)
      (insp := (items (h.src s).cols (which (h.src s).cols.n_sources none)).map live) (res := unzipPairs ps)
      (by rw [unzipPairs_fst_length, List.length_map, hpl]) (by rw [unzipPairs_snd_length, List.length_map, hpl])
      (by rw [List.length_map]; exact hl1) (by rw [List.length_map]; exact hl2)
    refine ⟨_, _, (class_run (by rw [hkc]; exact hc) hn (by unfold CompleteSchedule; rw [hks]; exact hs)
      (by rw [hcols]; exact hr)).2 ⟨_, k₂, ⟨f, k₁, S, C, ps, hm, hS, hC, ?_, ?_, rfl⟩, store_snr_run _ _ _⟩⟩
    · rw [hcols, hkc]
      exact hps'
    · rw [hcols]
      exact hk₂

/-! ### Constructors -/

/-- A computation that does not depend on the class of `s`. -/
private def Blind {α : Type} (s : ℕ) (c : Cls) (x : M α) : Prop :=
  ∀ h, x (withClass h s c) = ((x h).1, withClass (x h).2 s c)

section Blind

variable {α β : Type}

private theorem Blind.bind {x : M α} {f : α → M β} (hx : Blind s c x) (hf : ∀ v, Blind s c (f v)) : Blind s c (x >>= f) := by
  intro h
  rw [bind_run, bind_run, hx h]
  rcases hr : x h with ⟨e | v, h₁⟩
  · rfl
  · exact hf v h₁

private theorem Blind.lift (e : Except PyErr α) : Blind s c (PyM.lift e : M α) := fun _ => rfl

private theorem Blind.pure (v : α) : Blind s c (Pure.pure v : M α) := fun _ => rfl

private theorem withClass_setSrc (h : Heap) {x y : Src} (hx : x = { y with cls := c }) :
    (withClass h s c).setSrc s x = withClass (h.setSrc s y) s c := by
  subst hx
  simp [withClass, Heap.setSrc]

private theorem Blind.modSrc {f : Src → Src} (hf : ∀ x, f { x with cls := c } = { f x with cls := c }) : Blind s c (modSrc s f) := by
  intro h
  change (Except.ok (), (withClass h s c).setSrc s (f ((withClass h s c).src s))) = (Except.ok (), withClass (h.setSrc s (f (h.src s))) s c)
  rw [withClass_setSrc h (y := f (h.src s)) (by rw [withClass_src, hf])]

private theorem Blind.getSrc {f : Src → M β} (hf : ∀ x, Blind s c (f x)) (hc : ∀ x, f { x with cls := c } = f x) :
    Blind s c (getSrc s >>= f) := by
  intro h
  rw [bind_run, bind_run]
  change f ((withClass h s c).src s) (withClass h s c) = _
  rw [withClass_src, hc]
  exact hf _ h

private theorem Blind.getPar (p : ℕ) : Blind s c (getPar p) := fun _ => rfl

private theorem Blind.logEvent (e : Event) : Blind s c (logEvent e) := fun _ => rfl

private theorem Blind.newPar (x : Params) : Blind s c (newPar x) := fun _ => rfl

private theorem blind_tols (tol : ℝ) : Blind s c (derive_tolerances W s tol) :=
  (Blind.logEvent _).bind fun _ => (Blind.modSrc fun _ => rfl).bind fun _ => (Blind.lift _).bind fun _ =>
    Blind.modSrc fun _ => rfl

private theorem blind_gw (tol : ℝ) : Blind s c (set_gw_lum_tol W s tol) := by
  refine Blind.getSrc (fun x => ?_) fun _ => rfl
  split_ifs
  · exact Blind.pure _
  · exact (Blind.modSrc fun _ => rfl).bind fun _ => blind_tols tol

private theorem blind_sc : Blind s c (set_sc W s) := by
  refine Blind.getSrc (fun x => ?_) fun _ => rfl
  split_ifs
  · refine Blind.bind ?_ fun p => (Blind.getPar p).bind fun _ => (Blind.logEvent _).bind fun _ => (Blind.lift _).bind fun _ =>
      Blind.modSrc fun _ => rfl
    rcases x.sc_params with _ | p <;> exact fun _ => rfl
  · exact Blind.modSrc fun _ => rfl

private theorem blind_changed (q : Option ℕ) (p : ℕ) : Blind s c (params_changed q p) := by
  refine (Blind.getPar p).bind fun x => ?_
  rcases q with _ | q
  · exact Blind.pure _
  · exact (Blind.getPar q).bind fun _ => Blind.pure _

private theorem blind_params (d : Option Dict) : Blind s c (set_sc_params W s d) := by
  refine Blind.bind ((Blind.lift _).bind fun _ => Blind.newPar _) fun p => Blind.getSrc (fun x => ?_) fun _ => rfl
  refine (blind_changed _ p).bind fun b => (Blind.modSrc fun _ => rfl).bind fun _ => ?_
  rcases b with _ | _
  · exact Blind.pure _
  · exact blind_sc

end Blind

/-- **C106** (constructors). The constructors of the classes make the same object, except for the class. -/
theorem C106_constructor {args : InitArgs} {k : Heap} (hrun : init W cls args h = (.ok s, k)) (c : Cls) :
    init W c args h = (.ok s, withClass k s c) := by
  unfold init at hrun ⊢
  obtain ⟨cols, h₁, hl, hrun₁⟩ := bind_eq_ok hrun
  obtain ⟨hcols, rfl⟩ := lift_ok_iff.1 hl
  obtain ⟨s', h₂, hnew, hrun₂⟩ := bind_eq_ok hrun₁
  obtain ⟨e1, rfl⟩ := Prod.mk.inj hnew
  cases e1
  have hs : s = h₁.next := by
    obtain ⟨_, _, -, hrun₃⟩ := bind_eq_ok hrun₂
    obtain ⟨_, _, -, hrun₄⟩ := bind_eq_ok hrun₃
    obtain ⟨_, _, -, hrun₅⟩ := bind_eq_ok hrun₄
    obtain ⟨e1, -⟩ := Prod.mk.inj hrun₅
    exact (Except.ok.inj e1).symm
  subst hs
  have htail := (blind_gw (W := W) (s := h₁.next) (c := c) args.gw_lum_tol).bind fun _ =>
    (blind_params (W := W) args.sc_params).bind fun _ =>
      (Blind.modSrc (s := h₁.next) (c := c) (f := fun x => { x with g := if args.interpolate_g then some W.gSpline else none })
        fun _ => rfl).bind fun _ => Blind.pure h₁.next
  rw [bind_ok (lift_ok_iff.2 ⟨hcols, rfl⟩), bind_ok (rfl : newSrc _ h₁ = _)]
  have hH : (h₁.setSrc h₁.next { cls := c, cols := cols, stat_tol := args.stat_tol, n_proc := args.n_proc,
                                 interpolate_sc := args.interpolate_sc }).bump =
      withClass (h₁.setSrc h₁.next { cls := cls, cols := cols, stat_tol := args.stat_tol, n_proc := args.n_proc,
                                     interpolate_sc := args.interpolate_sc }).bump h₁.next c := by
    simp [withClass, Heap.setSrc, Heap.bump]
  rw [hH]
  refine (htail _).trans ?_
  have hrun₂' := hrun₂
  unfold set_g at hrun₂'
  rw [hrun₂']

/-! ### Keywords -/

theorem names_all (k : SnrKeywords) (ps : List String) : k.names.all (ps.contains ·) = true ↔
    (k.t_obs.isSome → "t_obs" ∈ ps) ∧ (k.instrument.isSome → "instrument" ∈ ps) ∧ (k.custom_psd.isSome → "custom_psd" ∈ ps) ∧
    (k.L.isSome → "L" ∈ ps) ∧ (k.approximate_R.isSome → "approximate_R" ∈ ps) ∧
    (k.confusion_noise.isSome → "confusion_noise" ∈ ps) ∧ (k.n_step.isSome → "n_step" ∈ ps) ∧
    (k.verbose.isSome → "verbose" ∈ ps) ∧ (k.which_sources.isSome → "which_sources" ∈ ps) := by
  unfold SnrKeywords.names
  rw [List.all_map, List.all_filter, List.all_eq_true]
  simp only [List.mem_cons, List.not_mem_nil, or_false, forall_eq_or_imp, forall_eq, Function.comp_apply, Bool.or_eq_true,
    Bool.not_eq_true', List.contains_iff_mem, ← Bool.not_eq_true, ← imp_iff_not_or]

theorem stationary_names (k : SnrKeywords) : k.names.all (Cls.Stationary.get_snr_parameters.contains ·) = true ↔
    ¬ ((k.L.isSome ∨ k.approximate_R.isSome ∨ k.confusion_noise.isSome ∨ k.which_sources.isSome) ∨ k.n_step.isSome) := by
  rw [names_all]
  simp only [Cls.get_snr_parameters, List.mem_cons, List.not_mem_nil, or_false]
  simp
  tauto

theorem evolving_names (k : SnrKeywords) : k.names.all (Cls.Evolving.get_snr_parameters.contains ·) = true ↔
    ¬ (k.L.isSome ∨ k.approximate_R.isSome ∨ k.confusion_noise.isSome ∨ k.which_sources.isSome) := by
  rw [names_all]
  simp only [Cls.get_snr_parameters, List.mem_cons, List.not_mem_nil, or_false]
  simp

/-- **C106** (arguments). `get_snr` of `Source` takes all nine arguments. With the class `Stationary` any call that gives
`L`, `approximate_R`, `confusion_noise`, `n_step` or `which_sources` is a `TypeError` and changes nothing; with the class
`Evolving` the same, except that `n_step` can be given. All other calls are accepted. -/
theorem C106_arguments {k : SnrKeywords} :
    let run := get_snr W s ⟨k.t_obs.getD .none, k.instrument.getD .none, k.custom_psd.getD .none, k.L.getD .none,
      k.approximate_R.getD .none, k.confusion_noise.getD .none⟩ (k.n_step.getD 100) (k.which_sources.getD none) h
    let extra := k.L.isSome ∨ k.approximate_R.isSome ∨ k.confusion_noise.isSome ∨ k.which_sources.isSome
    ((h.src s).cls = .Source ∨ (h.src s).cls = .VerificationBinaries → call_get_snr W s k h = run) ∧
    ((h.src s).cls = .Stationary → (extra ∨ k.n_step.isSome → call_get_snr W s k h = (.error .TypeError, h)) ∧
      (¬ (extra ∨ k.n_step.isSome) → call_get_snr W s k h = run)) ∧
    ((h.src s).cls = .Evolving → (extra → call_get_snr W s k h = (.error .TypeError, h)) ∧
      (¬ extra → call_get_snr W s k h = run)) := by
  intro run extra
  have hrun : call_get_snr W s k h = match bind_keywords (h.src s).cls.get_snr_parameters k.names with
      | .ok _ => run
      | .error e => (.error e, h) := by
    unfold call_get_snr
    rw [bind_run]
    simp only [getSrc]
    rw [bind_run]
    simp only [lift_run]
    rcases bind_keywords (h.src s).cls.get_snr_parameters k.names with e | v <;> rfl
  rw [hrun]
  have hb : ∀ ps, bind_keywords ps k.names = if k.names.all (ps.contains ·) then .ok () else .error .TypeError := by
    intro ps
    rfl
  rw [hb]
  have hall := names_all k (h.src s).cls.get_snr_parameters
  refine ⟨?_, ?_, ?_⟩
  · intro hc
    rw [if_pos]
    rw [hall]
    rcases hc with hc | hc <;> simp [hc, Cls.get_snr_parameters]
  · intro hc
    have hst : k.names.all ((h.src s).cls.get_snr_parameters.contains ·) = true ↔ ¬ (extra ∨ k.n_step.isSome) := by
      rw [hc]
      exact stationary_names k
    exact ⟨fun he => by rw [if_neg (fun hh => hst.1 hh he)], fun he => by rw [if_pos (hst.2 he)]⟩
  · intro hc
    have hst : k.names.all ((h.src s).cls.get_snr_parameters.contains ·) = true ↔ ¬ extra := by
      rw [hc]
      exact evolving_names k
    exact ⟨fun he => by rw [if_neg (fun hh => hst.1 hh he)], fun he => by rw [if_pos (hst.2 he)]⟩

/-! ### Examples -/

private theorem ready_withClass (c : Cls) (hh : AutoReady W h s) : AutoReady W (withClass h s c) s := by
  obtain ⟨h1, ⟨b1, b2, b3⟩, h3, h4, h5⟩ := hh
  have hk := withClass_src h s c
  refine ⟨by rw [hk]; exact h1, ⟨by rw [hk]; exact b1, by rw [hk]; exact b2, by rw [hk]; exact b3⟩, ?_, ?_, ?_⟩
  · rw [hk]
    exact h3
  · unfold storedSnr at h4 ⊢
    rw [hk]
    exact h4
  · unfold storedHarm at h5 ⊢
    rw [hk]
    exact h5

/-- Non-vacuity of `C106_agrees`: a circular binary that is stationary over the observation and an eccentric one, in an object
of class `Source` and in one of class `Stationary`, made by the two constructors; the SNR of the first is the same. -/
example (c : Cls) : ∃ (h h' k' : Heap) (r r' : ℕ), Reachable Example.world Interpolating h ∧ (h.src 0).cls = .Source ∧
    CompleteSchedule Example.world (h.src 0) ∧ Rect (h.src 0).cols ∧ get_snr Example.world 0 {} 100 none h = (.ok r, h') ∧
    get_snr Example.world 0 {} 100 none (withClass h 0 c) = (.ok r', k') ∧
    ∃ x ∈ rows (h.src 0).cols, x.merged = false := by
  obtain ⟨h, hreach, hready, hcls, hsch, hcols, -⟩ := lisa_made
  have hno : FitsMask (h.src 0).cols none := fun m hm => by cases hm
  have hk := withClass_src h 0 c
  obtain ⟨r, h', hrun⟩ := C51_succeeds_auto (n := 100) (ws := none) (by norm_num) hsch hno hready
  obtain ⟨r', k', hrun'⟩ := C51_succeeds_auto (n := 100) (ws := none) (h := withClass h 0 c) (by norm_num)
    (by unfold CompleteSchedule; rw [hk]; exact hsch) (by rw [hk]; exact hno) (ready_withClass c hready)
  exact ⟨h, h', k', r, r', hreach, hcls, hsch, hready.rect, hrun, hrun', rowAt Example.cols 0,
    List.mem_of_getElem? (i := 0) (by rw [hcols]; rfl), rfl⟩

/-- Non-vacuity of `C106_succeeds` and `C106_agrees`: two binaries of which one has merged and the other is stationary over
1e8 seconds; the SNRs are the same with the class `Stationary`. -/
example : ∃ (h h' k' : Heap) (r r' : ℕ) (v : Option ℝ), Reachable Example.world Interpolating h ∧ (h.src 0).cls = .Source ∧
    get_snr Example.world 0 { t_obs := .time 1e8 } 100 none h = (.ok r, h') ∧
    get_snr Example.world 0 { t_obs := .time 1e8 } 100 none (withClass h 0 .Stationary) = (.ok r', k') ∧
    (h'.snrs r)[0]? = some v ∧ (k'.snrs r')[0]? = some v ∧ (h'.snrs r)[1]? = some (some 0) ∧
    (k'.snrs r')[1]? = some (some 0) := by
  obtain ⟨g, hg, hready, hcls, hsch, hcols, hp, hd, hint, hstat, hetol⟩ := lisa_made
  set c : Cols := { Example.cols with merged := [false, true] } with hc
  set h := g.setSrc 0 { g.src 0 with cols := c } with hh
  have hreach : Reachable Example.world Interpolating h := Reachable.call (.setCols 0 c) hg trivial
  have hsrc : h.src 0 = { g.src 0 with cols := c } := by simp [hh]
  have hcls : (h.src 0).cls = .Source := by rw [hsrc]; exact hcls
  have hsch : CompleteSchedule Example.world (h.src 0) := by
    unfold CompleteSchedule
    rw [hsrc]
    exact hsch
  have hcc : (h.src 0).cols = c := by rw [hsrc]
  have hrect : Rect (h.src 0).cols := by
    rw [hcc]
    constructor <;> simp [hc, Example.cols, Cols.n_sources]
  have hno : FitsMask (h.src 0).cols none := fun m hm => by cases hm
  have hp : (h.src 0).sc_params = some 1 := by rw [hsrc]; exact hp
  have hd' : (h.par 1).dict = (g.par 1).dict := rfl
  have hn2 : (h.src 0).cols.n_sources = (g.src 0).cols.n_sources := by rw [hcc, hcols]; rfl
  have hf : Filled (h.par 1).dict { t_obs := .time 1e8 } ⟨.time 1e8, .str "LISA", .none, .str "auto", .bool true, .none⟩ := by
    rw [hd', hd]
    exact ⟨Or.inl ⟨by simp, rfl⟩, Or.inr ⟨rfl, rfl⟩, Or.inr ⟨rfl, rfl⟩, Or.inr ⟨rfl, rfl⟩, Or.inr ⟨rfl, rfl⟩, Or.inr ⟨rfl, rfl⟩⟩
  obtain ⟨cu, hcu⟩ := plain_curve (inst := "LISA") (t := .time 1e8) (Or.inl rfl) (Or.inr ⟨_, rfl⟩)
  have hcurve : CurveOf Example.world (SnrArgs.toDict ⟨.time 1e8, .str "LISA", .none, .str "auto", .bool true, .none⟩) cu := by
    refine curve_ok_iff.1 ?_
    rw [curve_congr Example.world (sixKeys_eq (toDict_sixKeys _) (plain_sixKeys _ _) (toDict_agrees _) (plain_agrees "LISA" (.time 1e8)))]
    exact hcu
  obtain ⟨r, h', hrun⟩ := C36_succeeds_with (n := 100) (ws := none) hreach (Or.inl hcls) (by norm_num) hsch hno hrect
    (by
      obtain ⟨g1, g2, g3⟩ := hready.built
      exact ⟨by rw [hsrc]; exact g1, by rw [hsrc]; exact g2, by rw [hsrc]; exact g3⟩)
    (by rw [hsrc]; exact hint)
    (by
      have := hready.snr_length
      unfold storedSnr at this ⊢
      rw [hn2, ← this, hsrc]
      rcases (g.src 0).snr with _ | r
      · simp [hcols, hc, Cols.n_sources]
      · rfl)
    (by
      have := hready.harm_length
      unfold storedHarm at this ⊢
      rw [hn2, ← this, hsrc]
      rcases (g.src 0).max_snr_harmonic with _ | r
      · simp [hcols, hc, Cols.n_sources]
      · rfl) hp hf rfl hcurve
  obtain ⟨p', hp', hp'', -, -, -, -, -, v6, a6, b6⟩ := C36_settings (Or.inl hcls) (by norm_num) hsch hrect hno hrun
  rw [hp] at hp'
  cases hp'
  have b6' : (h'.par 1).dict.get? "t_obs" = some (.time 1e8) := by
    rcases a6 with ⟨-, rfl⟩ | ⟨a6, -⟩
    · rcases b6 with b6 | ⟨b6, -⟩
      · exact b6
      · cases b6
    · cases a6
  have h0 : (rows (h.src 0).cols)[0]? = some (rowAt Example.cols 0) := by rw [hcc]; rfl
  have h1 : (rows (h.src 0).cols)[1]? = some { rowAt Example.cols 1 with merged := true } := by rw [hcc]; rfl
  have hst : (rowAt Example.cols 0).StationaryOver Example.world.K 1e8 (h.src 0).stat_tol := by
    rw [hsrc]
    simp only [hstat]
    have := example_stationary
    norm_num at this ⊢
    exact this
  obtain ⟨r', k', hrun'⟩ := C106_succeeds (c := .Stationary) hreach (Or.inl hcls) (Or.inl rfl) (by norm_num) hsch hrect hrun
    ⟨_, List.mem_of_getElem? h0, rfl⟩ (by
      intro p T hpp hT x hx hm
      rw [hp''] at hpp
      cases hpp
      rw [b6'] at hT
      cases hT
      obtain ⟨j, hj⟩ := List.getElem?_of_mem hx
      rcases j with _ | _ | j
      · rw [h0] at hj
        cases hj
        simpa using hst
      · rw [h1] at hj
        cases hj
        cases hm
      · exfalso
        have : (rows (h.src 0).cols).length = 2 := by rw [hcc]; rfl
        rw [List.getElem?_eq_none (by omega)] at hj
        cases hj)
  have hA := C106_agrees hreach (Or.inl hcls) (Or.inl rfl) (by norm_num) hsch hrect hrun hrun'
  obtain ⟨p, T, hpp, hT, hA0⟩ := (hA 0 _ h0).2 rfl
  rw [hp''] at hpp
  cases hpp
  rw [b6'] at hT
  cases hT
  obtain ⟨v, m, hv, hv', -⟩ := hA0 (by simpa using hst)
  obtain ⟨z, z'⟩ := (hA 1 _ h1).1 rfl
  exact ⟨h, h', k', r, r', v, hreach, hcls, hrun, hrun', hv, hv', z, z'⟩

/-- Non-vacuity of `C106_arguments`: a call with an arm length, which an object of class `Source` accepts and the same object
of class `Stationary` does not. -/
example : ∃ (h : Heap), (h.src 0).cls = .Source ∧
    call_get_snr Example.world 0 { L := some (.length 3e9) } (withClass h 0 .Stationary) =
      (.error .TypeError, withClass h 0 .Stationary) ∧
    call_get_snr Example.world 0 { L := some (.str "auto") } h = get_snr Example.world 0 { L := .str "auto" } 100 none h := by
  obtain ⟨h, -, -, hcls, -⟩ := lisa_made
  exact ⟨h, hcls, (C106_arguments.2.1 (by rw [withClass_src])).1 (Or.inl (Or.inl rfl)), C106_arguments.1 (Or.inl hcls)⟩

/-- Non-vacuity of `C106_constructor`: `Example.args`. -/
example : ∃ (h k : Heap) (s : ℕ), init Example.world .Source Example.args h = (.ok s, k) := ⟨_, _, _, Example.init_start⟩

end Legwork.Props
