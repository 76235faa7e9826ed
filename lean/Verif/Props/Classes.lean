import Verif.Lemmas.SnrHalf
import Verif.Props.Longer
import Verif.Props.Cached

/-!
# The classes `Stationary` and `Evolving` (C96, C97, C98, C100, C101)

`get_snr` of these classes treats every source as stationary, or every source as evolving.
-/

namespace Legwork.Props

open Real Legwork.source Legwork.Spec Legwork.snr Legwork.strain Legwork.utils
open PyM hiding bind

variable {W : World} {ok : Heap → Op → Prop} {s n r : ℕ} {h h' : Heap} {a : SnrArgs}

theorem chosen_none (i : ℕ) : Chosen none i := fun m hm => by cases hm

/-! ### Settings -/

theorem class_frame (hcls : (h.src s).cls = .Stationary ∨ (h.src s).cls = .Evolving) (hn : n ≠ 0)
    (hs : CompleteSchedule W (h.src s)) (hr : Rect (h.src s).cols) (hrun : get_snr W s a n none h = (.ok r, h')) :
    ∃ f h₁, match_params W s (classArgs a) true h = (.ok f, h₁) ∧ SnrOnly h₁ h' ∧
      (storedSnr h' s).length = (h.src s).cols.n_sources ∧ (storedHarm h' s).length = (storedHarm h s).length := by
  obtain ⟨vs, h₂, ⟨f, h₁, S, C, ps, hm, -, -, hps, hrec, rfl⟩, hst⟩ := (class_run hcls hn hs hr).1 hrun
  obtain ⟨-, r2, -, -, -, ho⟩ := record_ok hrec
  have ho' : SnrOnly h₂ h' := by
    have := store_snr_snrOnly h₂ s (np.select (which (h.src s).cols.n_sources none) (ps.map Prod.fst)) h₂ (SnrOnly.refl h₂)
    rwa [hst] at this
  have hno : FitsMask (h.src s).cols none := fun m hm => by cases hm
  have hpl := (mapM_length hps).trans (items_length (which_length hno))
  obtain ⟨e1, e2, e3, e4⟩ := harmNow_store hst
  refine ⟨f, h₁, hm, ho.trans ho', ?_, ?_⟩
  · have : storedSnr h' s = np.select (which (h.src s).cols.n_sources none) (ps.map Prod.fst) := by
      unfold storedSnr
      rw [e3]
      exact e4
    rw [this, select_all _ (by rw [List.length_map]; exact hpl), List.length_map]
    exact hpl
  · change (harmNow h' s).length = (harmNow h s).length
    rw [e1, r2, np.assign_length]
    obtain ⟨sc, q, he⟩ := (match_params_scOnly hm).src s
    unfold harmNow
    rw [he, (match_params_scOnly hm).harms]

theorem class_src (hcls : (h.src s).cls = .Stationary ∨ (h.src s).cls = .Evolving) (hn : n ≠ 0)
    (hs : CompleteSchedule W (h.src s)) (hr : Rect (h.src s).cols) (hrun : get_snr W s a n none h = (.ok r, h')) :
    ∃ sc p x y, h'.src s = { h.src s with sc := sc, sc_params := p, snr := x, max_snr_harmonic := y } := by
  obtain ⟨f, h₁, hm, ho, -⟩ := class_frame hcls hn hs hr hrun
  obtain ⟨sc, q, e1⟩ := (match_params_scOnly hm).src s
  obtain ⟨x, y, e2⟩ := ho.src s
  exact ⟨sc, q, x, y, by rw [e2, e1]⟩

/-- **C36** (settings, classes). `get_snr` of `Stationary` and `Evolving` stores the three settings it takes, if given, and
leaves the others as they were; the observation time `"auto"` is replaced by the time it means. -/
theorem C36_settings_classes (hcls : (h.src s).cls = .Stationary ∨ (h.src s).cls = .Evolving) (hn : n ≠ 0)
    (hs : CompleteSchedule W (h.src s)) (hr : Rect (h.src s).cols) (hrun : get_snr W s a n none h = (.ok r, h')) :
    ∃ p, (h.src s).sc_params = some p ∧ (h'.src s).sc_params = some p ∧
      StoredArgs (h.par p).dict { t_obs := a.t_obs, instrument := a.instrument, custom_psd := a.custom_psd } (h'.par p).dict := by
  obtain ⟨f, h₁, hm, ho, -⟩ := class_frame hcls hn hs hr hrun
  obtain ⟨p, h1, h2, h3⟩ := stored_true hm
  exact ⟨p, h1, by rw [ho.sc_params]; exact h2, by rw [ho.par]; exact h3⟩

/-- **C36** (no spurious failure, classes). `get_snr` of an object of class `Stationary` or `Evolving` that interpolates its
sensitivity curve succeeds with any settings, given in the call or stored before, that have an observation time and a
sensitivity curve that can be calculated. -/
theorem C36_succeeds_classes {p : ℕ} {f : SnrArgs} (hr : Reachable W Interpolating h)
    (hcls : (h.src s).cls = .Stationary ∨ (h.src s).cls = .Evolving) (hn : n ≠ 0) (hs : CompleteSchedule W (h.src s))
    (hrect : Rect (h.src s).cols) (hb : Built (h.src s)) (hint : (h.src s).interpolate_sc = true)
    (hsnr : (storedSnr h s).length = (h.src s).cols.n_sources) (hharm : (storedHarm h s).length = (h.src s).cols.n_sources)
    (hp : (h.src s).sc_params = some p)
    (hf : Filled (h.par p).dict { t_obs := a.t_obs, instrument := a.instrument, custom_psd := a.custom_psd } f) {T : ℝ}
    (hT : f.t_obs = .time T) {c : ℝ → WithTop ℝ} (hc : CurveOf W f.toDict c) :
    ∃ r h', get_snr W s a n none h = (.ok r, h') := by
  obtain ⟨h₂, C, S, T', c', hm, -, -, -, hctx, hset, -, -, hsc⟩ := with_ready hr hrect hb hint hsnr hharm hp hf hT hc
  have hno : FitsMask (h.src s).cols none := fun m hm => by cases hm
  have hil := items_length (c := (h.src s).cols) (which_length hno)
  rw [get_snr_run]
  rcases hcls with hc | hc
  · rw [hc]
    obtain ⟨ps, hps⟩ : ∃ ps, (items (h.src s).cols (which (h.src s).cols.n_sources none)).mapM
        (orZero (statOne C S)) = .ok ps := by
      refine mapM_exists fun x hx => ?_
      unfold orZero
      split_ifs
      · exact statOne_exists hsc S (item_angles hrect hx)
      · exact ⟨_, rfl⟩
    obtain ⟨v, h', hv, -⟩ := snr_stationary_exists hrect hno rfl (hm true) hset hctx hps (hil.trans hharm.symm) (hil.trans hsnr.symm)
    exact ⟨_, _, by change Stationary_get_snr W s a h = _; unfold Stationary_get_snr; rw [bind_ok hv]; rfl⟩
  · rw [hc]
    obtain ⟨ps, hps⟩ : ∃ ps, (items (h.src s).cols (which (h.src s).cols.n_sources none)).mapM
        (orZero (evolOne W C S n)) = .ok ps := by
      refine mapM_exists fun x hx => ?_
      unfold orZero
      split_ifs
      · exact evolOne_exists hsc W S n _
      · exact ⟨_, rfl⟩
    obtain ⟨v, h', hv, -⟩ := snr_evolving_exists hn hs hrect hno rfl (hm true) hset hctx hps (hil.trans hharm.symm)
      (hil.trans hsnr.symm)
    exact ⟨_, _, by change Evolving_get_snr W s a n h = _; unfold Evolving_get_snr; rw [bind_ok hv]; rfl⟩

/-! ### Orientation -/

/-- **C97** (classes). Call `get_snr` on an object of class `Stationary` or `Evolving`, and on the same object without sky
positions, inclinations and polarisations. The second call succeeds too. For `Evolving` all SNRs are the same. For
`Stationary` they are the same except for circular sources with a position: there the SNR is the square root of
`strain.amplitude_modulation` times the one without, whether or not the source is stationary. The strongest harmonics are
the same. -/
theorem C97_classes (hreach : Reachable W ok h) (hcls : (h.src s).cls = .Stationary ∨ (h.src s).cls = .Evolving)
    (hn : n ≠ 0) (hs : CompleteSchedule W (h.src s)) (hr : Rect (h.src s).cols)
    (hrun : get_snr W s a n none h = (.ok r, h')) :
    ∃ r' k', get_snr W s a n none (forgetOrientation h s) = (.ok r', k') ∧
      ∀ (i : ℕ) (x : One), (rows (h.src s).cols)[i]? = some x → ∃ v u, (h'.snrs r)[i]? = some v ∧ (k'.snrs r')[i]? = some u ∧
        (storedHarm k' s)[i]? = (storedHarm h' s)[i]? ∧
        ((h.src s).cls = .Evolving ∨ x.merged = true ∨ x.position = none → u = v) ∧
        ((h.src s).cls = .Stationary → x.merged = false → ∃ tol, (h'.src s).ecc_tol = some tol ∧
          (tol < x.ecc → u = v) ∧
          (x.ecc ≤ tol → ∀ p, x.position = some p →
            ∃ A, amplitude_modulation ⟨some (p.2, p.1), x.polarisation, x.inclination⟩ = .ok A ∧
              v = u.map (A ^ (1 / 2 : ℝ) * ·))) := by
  have hP := changed_of_cols (Reachable.inv hreach) (unoriented_rows (h.src s).cols)
  have hk : ((forgetOrientation h s).src s) = { h.src s with cols := unoriented (h.src s).cols } := by
    simp [forgetOrientation]
  obtain ⟨r', k', hkrun, hrel⟩ := hP.class_ctx (W := W) (R := fun _ S x _ v v' => v'.2 = v.2 ∧
      ((h.src s).cls = .Evolving ∨ ¬ x.ecc ≤ S.ecc_tol ∨ x.position = none → v'.1 = v.1) ∧
      ((h.src s).cls = .Stationary → x.ecc ≤ S.ecc_tol → ∀ p, x.position = some p →
        ∃ A, amplitude_modulation ⟨some (p.2, p.1), x.polarisation, x.inclination⟩ = .ok A ∧
          v.1 = v'.1.map (A ^ (1 / 2 : ℝ) * ·)))
    (fun x y hxy => by rw [hxy]) hcls (by show ((forgetOrientation h s).src s).cls = _; rw [hk]) hn hs hr
    (by show Rect ((forgetOrientation h s).src s).cols; rw [hk]; exact unoriented_rect hr) hrun (by
      intro C S x y v _ _ _ hxy hv
      rcases hcls with hc | hc
      · rw [hc] at hv ⊢
        obtain ⟨v', hv', h1, h2, h3⟩ := stat_unoriented hxy hv
        refine ⟨v', hv', h1, fun hd => h2 ?_, fun _ => h3⟩
        rcases hd with hd | hd
        · cases hd
        · exact hd
      · rw [hc] at hv ⊢
        exact ⟨v, (evol_unoriented hxy).trans hv, rfl, fun _ => rfl, fun hd => by cases hd⟩)
  refine ⟨r', k', hkrun, fun i x hx => ?_⟩
  obtain ⟨y, -, -, v, u, hv, hu, hdead, hlive⟩ := hrel i x hx
  refine ⟨v, u, hv, hu, ?_⟩
  by_cases hm : x.merged = true
  · obtain ⟨rfl, rfl, e⟩ := hdead (Or.inl hm)
    exact ⟨e, fun _ => rfl, fun _ hm' => by rw [hm] at hm'; cases hm'⟩
  · obtain ⟨m, l, C, S, hm', hl, -, -, hS, h1, h2, h3⟩ := hlive (by simpa using hm) (chosen_none i)
    refine ⟨?_, fun hd => h2 (by tauto), fun hc _ => ⟨S.ecc_tol, hS.1, fun he => h2 (Or.inr (Or.inl (not_le.2 he))), h3 hc⟩⟩
    change (harmNow k' s)[i]? = (harmNow h' s)[i]?
    rw [hm', hl]
    exact congrArg some h1

/-! ### Distance -/

theorem class_sameBinary {C : Ctx} {S : Settings} (c : Cls) {x y : One} {v : Option ℝ × ℕ} (hxy : SameBinary x y)
    (hv : classOne W n c C S x = .ok v) :
    classOne W n c C S y = .ok (v.1.map ((y.dist / x.dist)⁻¹ * ·), v.2) := by
  have hst : ∀ {v}, statOne C S x = .ok v → statOne C S y = .ok (v.1.map ((y.dist / x.dist)⁻¹ * ·), v.2) := fun hv =>
    sameBinary_scale (one := statOne C S) (fun _ _ _ hκ hv => stat_dist hκ hv) stat_swap (fun _ _ => rfl) hxy hv
  have hev : ∀ {v}, evolOne W C S n x = .ok v → evolOne W C S n y = .ok (v.1.map ((y.dist / x.dist)⁻¹ * ·), v.2) := fun hv =>
    sameBinary_scale (one := evolOne W C S n) (fun _ _ _ hκ hv => evol_dist hκ hv) evol_swap (fun _ _ => rfl) hxy hv
  cases c
  all_goals first | exact hst hv | exact hev hv

/-- **C98** (classes). The same for objects of class `Stationary` and `Evolving`: after assigning other distances and
weights and exchanging the masses of some sources `get_snr` succeeds too; for every source, SNR times distance is the same
and so is the strongest harmonic. -/
theorem C98_classes (hreach : Reachable W ok h) (hcls : (h.src s).cls = .Stationary ∨ (h.src s).cls = .Evolving)
    (hn : n ≠ 0) (hs : CompleteSchedule W (h.src s)) (hr : Rect (h.src s).cols) {c : Cols} (hc : Rect c)
    (hrows : List.Forall₂ SameBinary (rows (h.src s).cols) (rows c)) (hrun : get_snr W s a n none h = (.ok r, h')) :
    ∃ r' k', get_snr W s a n none (withCols h s c) = (.ok r', k') ∧
      ∀ (i : ℕ) (x : One), (rows (h.src s).cols)[i]? = some x → ∃ (y : One) (v u : Option ℝ), (rows c)[i]? = some y ∧ (h'.snrs r)[i]? = some v ∧
        (k'.snrs r')[i]? = some u ∧ v.map (x.dist * ·) = u.map (y.dist * ·) ∧
        (storedHarm k' s)[i]? = (storedHarm h' s)[i]? := by
  have hP := changed_of_cols (Reachable.inv hreach) hrows
  have hk : (withCols h s c).src s = { h.src s with cols := c } := by simp [withCols]
  obtain ⟨r', k', hkrun, hrel⟩ := hP.class_ctx (W := W) (R := fun _ _ x y v u => u = (v.1.map ((y.dist / x.dist)⁻¹ * ·), v.2))
    (fun x y hxy => by rw [hxy.same]) hcls (by show ((withCols h s c).src s).cls = _; rw [hk]) hn hs hr
    (by show Rect ((withCols h s c).src s).cols; rw [hk]; exact hc) hrun
    (fun C S x y v _ _ _ hxy hv => ⟨_, class_sameBinary _ hxy hv, rfl⟩)
  refine ⟨r', k', hkrun, fun i x hx => ?_⟩
  obtain ⟨y, hy, hxy, v, u, hv, hu, hdead, hlive⟩ := hrel i x hx
  have hy' : (rows c)[i]? = some y := by
    have e : ((withCols h s c).src s).cols = c := by rw [hk]
    rw [← e]
    exact hy
  refine ⟨y, v, u, hy', hv, hu, ?_⟩
  by_cases hm : x.merged = true
  · obtain ⟨rfl, rfl, e⟩ := hdead (Or.inl hm)
    exact ⟨by simp, e⟩
  · obtain ⟨m, l, C, S, hm', hl, -, -, -, hR⟩ := hlive (by simpa using hm) (chosen_none i)
    obtain ⟨rfl, rfl⟩ := Prod.mk.inj hR
    refine ⟨?_, ?_⟩
    · rcases v with _ | b
      · rfl
      · have h1 := hxy.dist.ne'
        have h2 := hxy.dist'.ne'
        simp only [Option.map_some, Option.some.injEq]
        field_simp
    · change (harmNow k' s)[i]? = (harmNow h' s)[i]?
      rw [hm', hl]

/-! ### Stored merger times -/

theorem stat_times {C : Ctx} {S : Settings} {x y : One} (hxy : TimesOnly x y) : statOne C S y = statOne C S x := by
  unfold TimesOnly at hxy
  rw [hxy]
  rfl

theorem evol_times {C : Ctx} {S : Settings} {x y : One} (hxy : TimesOnly x y) (he : S.ecc_tol < x.ecc) :
    evolOne W C S n y = evolOne W C S n x := by
  unfold TimesOnly at hxy
  unfold evolOne one1
  have he' : S.ecc_tol < y.ecc := by rw [hxy]; exact he
  rw [if_neg (not_le.2 he), if_neg (not_le.2 he'), hxy]
  rfl

theorem evol_same_end {C : Ctx} {S : Settings} {x y : One} (hxy : TimesOnly x y)
    (hcase : min (circTime C.K y - 1) C.t_obs = min (circTime C.K x - 1) C.t_obs) :
    evolOne W C S n y = evolOne W C S n x := by
  have hc : circE1 C n y.evolvingCirc (circTime C.K y) = circE1 C n x.evolvingCirc (circTime C.K x) := by
    unfold circE1
    rw [hcase]
    unfold TimesOnly at hxy
    rw [hxy]
    rfl
  unfold evolOne one1
  simp only
  rw [hc]
  unfold TimesOnly at hxy
  rw [hxy]
  rfl

/-- **C100** (class `Stationary`). For objects of this class the attribute `t_merge` is never used by `get_snr`: after
assigning other merger times, or removing them, the call succeeds too and all SNRs and strongest harmonics are the same. -/
theorem C100_stationary_class (hreach : Reachable W ok h) (hcls : (h.src s).cls = .Stationary) (hn : n ≠ 0)
    (hs : CompleteSchedule W (h.src s)) (hr : Rect (h.src s).cols) {c : Cols} (hc : Rect c)
    (hrows : List.Forall₂ TimesOnly (rows (h.src s).cols) (rows c)) (hrun : get_snr W s a n none h = (.ok r, h')) :
    ∃ r' k', get_snr W s a n none (withCols h s c) = (.ok r', k') ∧
      ∀ i < (h.src s).cols.n_sources, (∃ v, (h'.snrs r)[i]? = some v ∧ (k'.snrs r')[i]? = some v) ∧
        (storedHarm k' s)[i]? = (storedHarm h' s)[i]? := by
  have hP := changed_of_cols (Reachable.inv hreach) hrows
  have hk : (withCols h s c).src s = { h.src s with cols := c } := by simp [withCols]
  obtain ⟨r', k', hkrun, hrel⟩ := hP.class_ctx (W := W) (R := fun _ _ _ _ v u => u = v)
    (fun x y hxy => by rw [hxy]) (Or.inl hcls) (by show ((withCols h s c).src s).cls = _; rw [hk]) hn hs hr
    (by show Rect ((withCols h s c).src s).cols; rw [hk]; exact hc) hrun (by
      intro C S x y v _ _ _ hxy hv
      rw [hcls] at hv ⊢
      exact ⟨v, (stat_times hxy).trans hv, rfl⟩)
  refine ⟨r', k', hkrun, fun i hi => ?_⟩
  obtain ⟨y, -, -, v, u, hv, hu, hdead, hlive⟩ := hrel i (rowAt (h.src s).cols i) (by rw [rows_get?, if_pos hi])
  by_cases hm : (rowAt (h.src s).cols i).merged = true
  · obtain ⟨rfl, rfl, e⟩ := hdead (Or.inl hm)
    exact ⟨⟨_, hv, hu⟩, e⟩
  · obtain ⟨m, l, C, S, hm', hl, -, -, -, hR⟩ := hlive (by simpa using hm) (chosen_none i)
    obtain ⟨rfl, rfl⟩ := Prod.mk.inj hR
    refine ⟨⟨_, hv, hu⟩, ?_⟩
    change (harmNow k' s)[i]? = (harmNow h' s)[i]?
    rw [hm', hl]

theorem class_tols {ws : Option (List Bool)} (hrun : get_snr W s a n ws h = (.ok r, h')) :
    (h'.src s).ecc_tol = (h.src s).ecc_tol := by
  have hcall := get_snr_snrCall W s a n ws h
  rw [hrun] at hcall
  obtain ⟨_, _, _, he⟩ := hcall.src s
  simp only at he
  rw [he]

/-- **C100** (class `Evolving`, saved). Call `get_snr` on an object of class `Evolving` without stored merger times; or
call `get_merger_time(save_in_class=True)` first, exact or not. The second call succeeds too, and all SNRs and strongest
harmonics are the same, if every source that is treated as circular has eccentricity 0 or takes at least a second longer
than the observation to merge. -/
theorem C100_evolving_class (hreach : Reachable W ok h) (hcls : (h.src s).cls = .Evolving)
    (hn : n ≠ 0) (hs : CompleteSchedule W (h.src s)) (hr : Rect (h.src s).cols)
    (hnone : (h.src s).cols.t_merge = none) (hrun : get_snr W s a n none h = (.ok r, h')) {tol : ℝ}
    (htol : (h.src s).ecc_tol = some tol) {w' : Option (List Bool)} {ex : Bool} {ts : List ℝ} {k : Heap}
    (hsave : get_merger_time W s true w' ex h = (.ok ts, k))
    (hlong : ∀ x ∈ rows (h.src s).cols, x.merged = false → x.ecc ≤ tol → x.ecc = 0 ∨
      PhysicalOne x ∧ ∀ T, MergerTimeOf W.K ex x T → OutlivesIn W h' s T) :
    ∃ r' k', get_snr W s a n none k = (.ok r', k') ∧
      ∀ i < (h.src s).cols.n_sources, (∃ v, (h'.snrs r)[i]? = some v ∧ (k'.snrs r')[i]? = some v) ∧
        (storedHarm k' s)[i]? = (storedHarm h' s)[i]? := by
  obtain ⟨ts', hk, hts⟩ := C58_saved (W := W) (s := s) hr w' ex
  rw [hsave] at hk
  obtain ⟨e, rfl⟩ := Prod.mk.inj hk
  cases e
  have hrows := rows_stored hts
  have hP := changed_of_cols (Reachable.inv hreach) hrows
  set c : Cols := { (h.src s).cols with t_merge := some ts } with hcdef
  have hlen : ts.length = (h.src s).cols.n_sources := by rw [← hts.length_eq, rows_length]
  have hc : Rect c := ⟨hr.m_2, hr.dist, hr.f_orb, hr.ecc, hr.merged, hr.weights, hr.position, hr.inclination, hr.polarisation,
    fun x hx => by cases hx; exact hlen, hr.angles⟩
  have hk : (withCols h s c).src s = { h.src s with cols := c } := by simp [withCols]
  have t2 := class_tols hrun
  obtain ⟨r', k', hkrun, hrel⟩ := hP.class_ctx (W := W) (R := fun _ _ x y v u => u = v)
    (fun x y hxy => by obtain ⟨-, t, -, rfl⟩ := hxy; rfl) (Or.inr hcls)
    (by show ((withCols h s c).src s).cls = _; rw [hk]) hn hs hr
    (by show Rect ((withCols h s c).src s).cols; rw [hk]; exact hc) hrun (by
      rintro C S x y v hC hS hm ⟨hmem, t, ht, rfl⟩ hv
      refine ⟨v, ?_, rfl⟩
      rw [← hv, hcls]
      have hx0 : x.t_merge = none := by
        obtain ⟨i, -, rfl⟩ := List.mem_map.1 hmem
        simp [rowAt, hnone]
      have hStol : S.ecc_tol = tol := by
        have := hS.1
        rw [t2, htol] at this
        exact (Option.some.inj this).symm
      have hK := callCtx_K hC
      have htm : t = tMerge1 W.K ex x := by
        rw [mergerTimeOf_iff, hm] at ht
        simpa using ht
      by_cases he : tol < x.ecc
      · exact evol_times rfl (by rw [hStol]; exact he)
      rcases hlong x hmem hm (not_lt.1 he) with h0 | ⟨hphys, hout⟩
      · refine evol_same_end rfl ?_
        have : tMerge1 W.K ex x = tCirc W.K x.evolvingCirc := by
          unfold tMerge1 tEcc tCirc evol.t_val One.evolvingCirc
          simp [h0]
        simp only [circTime, hx0, htm, hK, this]
      · refine evol_same_end rfl ?_
        have h1 : C.t_obs + 1 ≤ tMerge1 W.K ex x := hout _ (by rw [← htm]; exact ht) C hC
        obtain ⟨p1, p2, p3, p4, p5⟩ := hphys
        have h2 : tMerge1 W.K ex x ≤ tCirc W.K x.evolvingCirc := by
          unfold tMerge1 tEcc tCirc
          rw [if_neg (not_lt.2 p4)]
          exact (evol.t_val_bounds (evol.beta_pos W.K p1 p2) (get_a_from_f_orb_pos W.K p3 p1 p2) p4 p5 ex).2.1
        simp only [circTime, hx0, htm, hK]
        rw [min_eq_right (by linarith), min_eq_right]
        change C.t_obs ≤ tCirc W.K x.evolvingCirc - 1
        linarith)
  refine ⟨r', k', hkrun, fun i hi => ?_⟩
  obtain ⟨y, -, -, v, u, hv, hu, hdead, hlive⟩ := hrel i (rowAt (h.src s).cols i) (by rw [rows_get?, if_pos hi])
  by_cases hm : (rowAt (h.src s).cols i).merged = true
  · obtain ⟨rfl, rfl, e⟩ := hdead (Or.inl hm)
    exact ⟨⟨_, hv, hu⟩, e⟩
  · obtain ⟨m, l, C, S, hm', hl, -, -, -, hR⟩ := hlive (by simpa using hm) (chosen_none i)
    obtain ⟨rfl, rfl⟩ := Prod.mk.inj hR
    refine ⟨⟨_, hv, hu⟩, ?_⟩
    change (harmNow k' s)[i]? = (harmNow h' s)[i]?
    rw [hm', hl]

/-! ### Accuracy -/

/-- **C96** (classes). The conditions are those of `C96_get_snr`. An object of class `Stationary` gives the SNR of every
binary that is stationary over the observation within the first factor; one of class `Evolving` gives that of every binary,
stationary or not, within the second. -/
theorem C96_classes {p : ℕ} (hr : Reachable W AnyCall h) (hn : 2 ≤ n) (hsch : CompleteSchedule W (h.src s))
    (hrect : Rect (h.src s).cols) (hrun : get_snr W s a n none h = (.ok r, h'))
    (hp : (h'.src s).sc_params = some p) {t_obs : ℝ} (ht : (h'.par p).dict.get? "t_obs" = some (.time t_obs))
    (ht1 : 1 ≤ t_obs) {k : ℝ} (hk : 0 ≤ k) {S : ℝ → ℝ} (hS : SlopeAtMost k S 1e-7 2)
    (hN : ∀ f, 1e-7 ≤ f → f ≤ 2 → psd_of_dict W (h'.par p).dict f = .ok (S f : ℝ)) {i : ℕ} {one : One}
    (hi : (rows (h.src s).cols)[i]? = some one) (hm : one.merged = false) {T : ℝ}
    (hb : CircularBinary W.K one T) (hfar : t_obs + 1 ≤ T) (hlow : 1e-7 ≤ 2 * one.f_orb)
    (hhigh : chirp one.f_orb T t_obs ≤ 1) :
    ((h.src s).cls = .Stationary → 0 ≤ (h'.src s).stat_tol → (h'.src s).stat_tol ≤ 1 / 4 →
      one.StationaryOver W.K t_obs (h'.src s).stat_tol →
      ∃ (C : Ctx) (v x : ℝ), CallCtx W h' s C ∧ C.t_obs = t_obs ∧ (h'.snrs r)[i]? = some (some v) ∧ ExactSnr C one T x ∧
        0 ≤ v ∧ 0 ≤ x ∧ WithinFactor (1.0017 ^ (k / 2) * (1 + (h'.src s).stat_tol) ^ ((k + 4 / 3) / 2)) v x) ∧
    ((h.src s).cls = .Evolving →
      ∃ (C : Ctx) (v x : ℝ), CallCtx W h' s C ∧ C.t_obs = t_obs ∧ (h'.snrs r)[i]? = some (some v) ∧ ExactSnr C one T x ∧
        0 ≤ v ∧ 0 ≤ x ∧
        WithinFactor (1.0017 ^ (k / 2) * (1 + t_obs / ((n - 1) * (T - t_obs))) ^ (3 / 16 * (k + 7 / 3))) v x) := by
  have hreach := reach_snr hr hrun
  refine ⟨fun hcls htol htol' hst => ?_, fun hcls => ?_⟩
  · obtain ⟨-, -, hall⟩ := C36_stationary_class hcls hrect hrun
    obtain ⟨v, hv, hone⟩ := forall₂_at hall hi
    rw [if_neg (by simp [hm])] at hone
    obtain ⟨harm, C, tol, q, hC, hetol, -, hsnr⟩ := hone
    have hB := call_band hreach hC hp ht ht1 hk hS hN
    obtain ⟨v', x, rfl, hx, hv0, hx0, hf⟩ := exact_stationary hreach ht1 hk hB htol htol' hb hfar hlow hhigh hetol hsnr hst
    exact ⟨C, v', x, hC, hB.t_obs, hv, hx, hv0, hx0, hf⟩
  · obtain ⟨-, -, hall⟩ := C36_evolving_class hcls (by omega) hsch hrect hrun
    obtain ⟨v, hv, hone⟩ := forall₂_at hall hi
    rw [if_neg (by simp [hm])] at hone
    obtain ⟨harm, C, tol, q, hC, hetol, -, hsnr⟩ := hone
    have hB := call_band hreach hC hp ht ht1 hk hS hN
    obtain ⟨v', x, rfl, hx, hv0, hx0, hf⟩ := exact_evolving hn hreach ht1 hk hB hb hfar hlow hhigh hetol hsnr
    exact ⟨C, v', x, hC, hB.t_obs, hv, hx, hv0, hx0, hf⟩

/-- **C96** (LISA, classes). The same for LISA with the conditions of `C96_lisa`: within 9% for binaries that are stationary
over the observation in an object of class `Stationary`, within 4.2% for all in one of class `Evolving`. -/
theorem C96_lisa_classes {p : ℕ} (hc : W.K.c = 299792458) (hr : Reachable W AnyCall h) (hn : 100 ≤ n)
    (hsch : CompleteSchedule W (h.src s)) (hrect : Rect (h.src s).cols) (hrun : get_snr W s a n none h = (.ok r, h'))
    (hp : (h'.src s).sc_params = some p) {t_obs : ℝ} (hset : LisaSettings (h'.par p).dict t_obs) (ht : 0.25 * psd.yr ≤ t_obs)
    {i : ℕ} {one : One} (hi : (rows (h.src s).cols)[i]? = some one) (hm : one.merged = false) {T : ℝ}
    (hb : CircularBinary W.K one T) (hfar : 2 * t_obs ≤ T) (hlow : 1e-7 ≤ 2 * one.f_orb) (hhigh : one.f_orb ≤ 0.77) :
    ((h.src s).cls = .Stationary → 0 ≤ (h'.src s).stat_tol → (h'.src s).stat_tol ≤ 0.01 →
      one.StationaryOver W.K t_obs (h'.src s).stat_tol →
      ∃ (C : Ctx) (v x : ℝ), CallCtx W h' s C ∧ C.t_obs = t_obs ∧ (h'.snrs r)[i]? = some (some v) ∧ ExactSnr C one T x ∧
        WithinFactor 1.09 v x) ∧
    ((h.src s).cls = .Evolving →
      ∃ (C : Ctx) (v x : ℝ), CallCtx W h' s C ∧ C.t_obs = t_obs ∧ (h'.snrs r)[i]? = some (some v) ∧ ExactSnr C one T x ∧
        WithinFactor 1.042 v x) := by
  have ht1 : 2 ≤ t_obs := le_trans (by norm_num [psd.yr]) ht
  have hreach := reach_snr hr hrun
  obtain ⟨-, -, h6, -⟩ := ((Reachable.inv hreach).sc s).1 p hp
  have hf := hb.f_orb
  refine ⟨fun hcls htol htol' hst => ?_, fun hcls => ?_⟩
  · obtain ⟨C, hC⟩ : ∃ C, CallCtx W h' s C := by
      obtain ⟨-, -, hall⟩ := C36_stationary_class hcls hrect hrun
      obtain ⟨v, hv, hone⟩ := forall₂_at hall hi
      rw [if_neg (by simp [hm])] at hone
      obtain ⟨harm, C, tol, q, hC, -⟩ := hone
      exact ⟨C, hC⟩
    obtain ⟨S, hS, hN⟩ := lisa_noise_slope hc hC hp h6 hset ht
    obtain ⟨C', v, x, g1, g2, g3, g4, hv0, hx0, g5⟩ := (C96_classes hr (by omega) hsch hrect hrun hp hset.t_obs (by linarith)
      (by norm_num : (0 : ℝ) ≤ 13) hS hN hi hm hb (by linarith) hlow (chirp_half hf (by linarith) hfar hhigh)).1 hcls htol
      (htol'.trans (by norm_num)) hst
    exact ⟨C', v, x, g1, g2, g3, g4, within_le (lisa_stationary_factor htol htol') hv0 hx0 g5⟩
  · obtain ⟨C, hC⟩ : ∃ C, CallCtx W h' s C := by
      obtain ⟨-, -, hall⟩ := C36_evolving_class hcls (by omega) hsch hrect hrun
      obtain ⟨v, hv, hone⟩ := forall₂_at hall hi
      rw [if_neg (by simp [hm])] at hone
      obtain ⟨harm, C, tol, q, hC, -⟩ := hone
      exact ⟨C, hC⟩
    obtain ⟨S, hS, hN⟩ := lisa_noise_slope hc hC hp h6 hset ht
    obtain ⟨C', v, x, g1, g2, g3, g4, hv0, hx0, g5⟩ := (C96_classes hr (by omega) hsch hrect hrun hp hset.t_obs (by linarith)
      (by norm_num : (0 : ℝ) ≤ 13) hS hN hi hm hb (by linarith) hlow (chirp_half hf (by linarith) hfar hhigh)).2 hcls
    exact ⟨C', v, x, g1, g2, g3, g4, within_le (lisa_evolving_factor hn ht1 hfar) hv0 hx0 g5⟩

/-! ### Longer observations -/

/-- **C101** (class `Stationary`). Let `get_snr` return for two objects of class `Stationary`, or twice for one, the second
time for an observation that is at least as long, otherwise with the same settings, and with a noise that is no larger.
Every binary has an SNR that is no smaller the second time, stationary or not. -/
theorem C101_stationary_class {h₁ h₂ h₁' h₂' : Heap} {s₁ s₂ n₁ n₂ r₁ r₂ p₁ p₂ : ℕ} {a₁ a₂ : SnrArgs}
    (hr₁ : Reachable W AnyCall h₁) (hr₂ : Reachable W AnyCall h₂) (hcls₁ : (h₁.src s₁).cls = .Stationary)
    (hcls₂ : (h₂.src s₂).cls = .Stationary) (hrect₁ : Rect (h₁.src s₁).cols) (hrect₂ : Rect (h₂.src s₂).cols)
    (hrun₁ : get_snr W s₁ a₁ n₁ none h₁ = (.ok r₁, h₁')) (hrun₂ : get_snr W s₂ a₂ n₂ none h₂ = (.ok r₂, h₂'))
    (hp₁ : (h₁'.src s₁).sc_params = some p₁) (hp₂ : (h₂'.src s₂).sc_params = some p₂) (hS : SameTables h₁' s₁ h₂' s₂)
    {t t' : ℝ} (hd : OtherTime (h₁'.par p₁).dict (h₂'.par p₂).dict t t') (h0 : 0 ≤ t) (htt : t ≤ t')
    (hN : ∀ f, 0 < f → ∃ y y', psd_of_dict W (h₁'.par p₁).dict f = .ok y ∧ psd_of_dict W (h₂'.par p₂).dict f = .ok y' ∧
      0 < y' ∧ y' ≤ y) {i₁ i₂ : ℕ} {x : One} (hi₁ : (rows (h₁.src s₁).cols)[i₁]? = some x)
    (hi₂ : (rows (h₂.src s₂).cols)[i₂]? = some x) (hm : x.merged = false) (hx : PhysicalOne x) :
    ∃ v v' : ℝ, (h₁'.snrs r₁)[i₁]? = some (some v) ∧ (h₂'.snrs r₂)[i₂]? = some (some v') ∧ 0 ≤ v ∧ v ≤ v' := by
  obtain ⟨-, -, hall₁⟩ := C36_stationary_class hcls₁ hrect₁ hrun₁
  obtain ⟨-, -, hall₂⟩ := C36_stationary_class hcls₂ hrect₂ hrun₂
  obtain ⟨v, hv, hone⟩ := forall₂_at hall₁ hi₁
  obtain ⟨v', hv', hone'⟩ := forall₂_at hall₂ hi₂
  rw [if_neg (by simp [hm])] at hone hone'
  obtain ⟨harm, C, tol, q, hC, htl, hq, hstat⟩ := hone
  obtain ⟨harm', C', tol', q', hC', htl', hq', hstat'⟩ := hone'
  obtain ⟨hL, -, -⟩ := longer_call (snr_reachable hr₁ trivial hrun₁) (snr_reachable hr₂ trivial hrun₂) hC hC' hp₁ hp₂ hS
    hd.before hd.after h0 htt hN
  rw [hS.ecc_tol, htl] at htl'
  cases htl'
  rw [hS.harmonics_required, hq] at hq'
  cases hq'
  obtain ⟨a, b, rfl, rfl, ha, hab⟩ := stationary_longer hL hx hstat hstat'
  exact ⟨a, b, hv, hv', ha, hab⟩

/-- **C101** (LISA, class `Stationary`). Call `get_snr` twice on one object of class `Stationary`, with the observation time
`t` and then with `t' ≥ t`, otherwise with the same arguments, for LISA as in `C101_lisa`. No SNR is smaller the second time,
whether or not the binary is stationary. -/
theorem C101_lisa_class {h₁ h₂ : Heap} {r₁ r₂ p : ℕ} (hr : Reachable W Interpolating h) (hcls : (h.src s).cls = .Stationary)
    (hn : n ≠ 0) (hsch : CompleteSchedule W (h.src s)) (hrect : Rect (h.src s).cols) {t t' : ℝ} (ht : 0 < t) (htt : t ≤ t')
    (hrun₁ : get_snr W s { a with t_obs := .time t } n none h = (.ok r₁, h₁))
    (hrun₂ : get_snr W s { a with t_obs := .time t' } n none h₁ = (.ok r₂, h₂)) (hp : (h₁.src s).sc_params = some p)
    (hset : LisaSettings (h₁.par p).dict t) {i : ℕ} {x : One} (hi : (rows (h.src s).cols)[i]? = some x)
    (hm : x.merged = false) (hx : PhysicalOne x) :
    ∃ v v' : ℝ, (h₁.snrs r₁)[i]? = some (some v) ∧ (h₂.snrs r₂)[i]? = some (some v') ∧ 0 ≤ v ∧ v ≤ v' := by
  obtain ⟨sc₁, q₁, x₁, y₁, e₁⟩ := class_src (Or.inl hcls) hn hsch hrect hrun₁
  have hcols : (h₁.src s).cols = (h.src s).cols := by rw [e₁]
  have hcls' : (h₁.src s).cls = .Stationary := by rw [e₁]; exact hcls
  have hsch' : CompleteSchedule W (h₁.src s) := by rw [e₁]; exact hsch
  have hrect' : Rect (h₁.src s).cols := by rw [hcols]; exact hrect
  have hi' : (rows (h₁.src s).cols)[i]? = some x := by rw [hcols]; exact hi
  have e₂ := class_src (Or.inl hcls') hn hsch' hrect' hrun₂
  have hr₁ := snr_reachable hr trivial hrun₁
  have hr₂ := snr_reachable hr₁ trivial hrun₂
  obtain ⟨p', hpp, hp₂, hsto⟩ := C36_settings_classes (Or.inl hcls') hn hsch' hrect' hrun₂
  rw [hp] at hpp
  cases hpp
  obtain ⟨p₀, -, hpp, hsto₁⟩ := C36_settings_classes (Or.inl hcls) hn hsch hrect hrun₁
  rw [hp] at hpp
  cases hpp
  have hd := stored_twice (a := classArgs a) hsto₁ hsto (six_keys hr₁ hp) (six_keys hr₂ hp₂)
  obtain ⟨C, hC⟩ : ∃ C, CallCtx W h₁ s C := by
    obtain ⟨-, -, hall⟩ := C36_stationary_class hcls hrect hrun₁
    obtain ⟨v, hv, hone⟩ := forall₂_at hall hi
    rw [if_neg (by simp [hm])] at hone
    obtain ⟨harm, C, tol, q, hC, -⟩ := hone
    exact ⟨C, hC⟩
  obtain ⟨C', hC'⟩ : ∃ C, CallCtx W h₂ s C := by
    obtain ⟨-, -, hall⟩ := C36_stationary_class hcls' hrect' hrun₂
    obtain ⟨v, hv, hone⟩ := forall₂_at hall hi'
    rw [if_neg (by simp [hm])] at hone
    obtain ⟨harm, C, tol, q, hC, -⟩ := hone
    exact ⟨C, hC⟩
  have hN := lisa_dicts hC hC' hp hp₂ (six_keys hr₁ hp) (six_keys hr₂ hp₂) hd hset ht htt
  exact C101_stationary_class (reachable_any hr) (reachable_any hr₁) hcls hcls' hrect hrect' hrun₁ hrun₂ hp hp₂
    (same_tables hr₁ hr₂ e₂ hp hp₂ hN) hd ht.le htt hN hi hi' hm hx

/-! ### Examples -/

/-- Non-vacuity of C97, C98 and C100 for classes: a circular and an eccentric binary in an object of either class, with the
default settings; then moved. -/
example (c : Cls) : ∃ (W : World) (h h' : Heap) (r : ℕ), Reachable W AnyCall h ∧ (h.src 0).cls = c ∧
    CompleteSchedule W (h.src 0) ∧ Rect (h.src 0).cols ∧ Rect movedCols ∧ (h.src 0).cols.t_merge = none ∧
    List.Forall₂ SameBinary (rows (h.src 0).cols) (rows movedCols) ∧ get_snr W 0 {} 100 none h = (.ok r, h') ∧
    (∃ tol, (h.src 0).ecc_tol = some tol) := by
  obtain ⟨h, hreach, hready, hcls, hsch, hcols, -, -, -, -, htol⟩ := lisa_class c
  have hno : FitsMask (h.src 0).cols none := fun m hm => by cases hm
  obtain ⟨r, h', hrun⟩ := C51_succeeds_auto (n := 100) (ws := none) (by norm_num) hsch hno hready
  refine ⟨_, h, h', r, reachable_any hreach, hcls, hsch, hready.rect, ?_, by rw [hcols]; rfl, ?_, hrun, _, htol⟩
  · constructor <;> simp [movedCols, Example.cols, Cols.n_sources]
  · rw [hcols]
    refine List.Forall₂.cons ⟨rfl, Or.inl ⟨rfl, rfl⟩, ?_, ?_⟩ (List.Forall₂.cons ⟨rfl, Or.inr ⟨rfl, rfl⟩, ?_, ?_⟩ List.Forall₂.nil)
    · show (0 : ℝ) < 1e20; norm_num
    · show (0 : ℝ) < 5e20; norm_num
    · show (0 : ℝ) < 2e20; norm_num
    · show (0 : ℝ) < 1e19; norm_num

/-- The settings after the call, for the settings of the example. -/
private theorem class_lisa {c : Cls} (hc : c = .Stationary ∨ c = .Evolving) (t : ℝ) : ∃ (h h' : Heap) (r : ℕ),
    Reachable Example.world Interpolating h ∧ (h.src 0).cls = c ∧ CompleteSchedule Example.world (h.src 0) ∧
    (h.src 0).cols = Example.cols ∧ Rect (h.src 0).cols ∧ (h'.src 0).stat_tol = 1e-2 ∧
    get_snr Example.world 0 { t_obs := .time t } 100 none h = (.ok r, h') ∧ (h'.src 0).sc_params = some 1 ∧
    LisaSettings (h'.par 1).dict t ∧
    ∀ t', ∃ r' h'', get_snr Example.world 0 { t_obs := .time t' } 100 none h' = (.ok r', h'') := by
  obtain ⟨h, hreach, hready, hcls, hsch, hcols, hp, hd, hint, hstat, -⟩ := lisa_class c
  have hcls' : (h.src 0).cls = .Stationary ∨ (h.src 0).cls = .Evolving := by rw [hcls]; exact hc
  have hf : ∀ t, Filled (h.par 1).dict { t_obs := .time t } ⟨.time t, .str "LISA", .none, .str "auto", .bool true, .none⟩ :=
    fun t => by
      rw [hd]
      exact ⟨Or.inl ⟨by simp, rfl⟩, Or.inr ⟨rfl, rfl⟩, Or.inr ⟨rfl, rfl⟩, Or.inr ⟨rfl, rfl⟩, Or.inr ⟨rfl, rfl⟩, Or.inr ⟨rfl, rfl⟩⟩
  have hcurve : ∀ t, ∃ c, CurveOf Example.world
      (SnrArgs.toDict ⟨.time t, .str "LISA", .none, .str "auto", .bool true, .none⟩) c := fun t => by
    obtain ⟨c, hc⟩ := plain_curve (inst := "LISA") (t := .time t) (Or.inl rfl) (Or.inr ⟨_, rfl⟩)
    refine ⟨c, curve_ok_iff.1 ?_⟩
    rw [curve_congr Example.world (sixKeys_eq (toDict_sixKeys _) (plain_sixKeys _ _) (toDict_agrees _) (plain_agrees "LISA" (.time t)))]
    exact hc
  obtain ⟨c₁, hc₁⟩ := hcurve t
  obtain ⟨r, h', hrun⟩ := C36_succeeds_classes (n := 100) hreach hcls' (by norm_num) hsch hready.rect hready.built hint
    hready.snr_length hready.harm_length hp (a := { t_obs := .time t }) (hf t) rfl hc₁
  obtain ⟨sc, q, x, y, e⟩ := class_src hcls' (by norm_num) hsch hready.rect hrun
  have hcols' : (h'.src 0).cols = (h.src 0).cols := by rw [e]
  obtain ⟨-, -, -, -, hl1, hl2⟩ := class_frame hcls' (by norm_num) hsch hready.rect hrun
  obtain ⟨p', hp', hp'', hst⟩ := C36_settings_classes hcls' (by norm_num) hsch hready.rect hrun
  rw [hp] at hp'
  cases hp'
  obtain ⟨⟨v1, a1, b1⟩, ⟨v2, a2, b2⟩, ⟨v3, a3, b3⟩, ⟨v4, a4, b4⟩, ⟨v5, a5, b5⟩, v6, a6, b6⟩ := hst
  have hgiven : ∀ {key : String} {v w : PVal}, Given (h.par 1).dict key .none v → (h.par 1).dict.get? key = some w → v = w := by
    intro key v w hg hw
    rcases hg with ⟨hg, -⟩ | ⟨-, hg⟩
    · exact absurd rfl hg
    · rw [hg] at hw
      exact Option.some.inj hw
  rw [hgiven a1 (w := .str "LISA") (by rw [hd]; rfl)] at b1
  rw [hgiven a2 (w := .none) (by rw [hd]; rfl)] at b2
  rw [hgiven a3 (w := .str "auto") (by rw [hd]; rfl)] at b3
  rw [hgiven a4 (w := .bool true) (by rw [hd]; rfl)] at b4
  rw [hgiven a5 (w := .none) (by rw [hd]; rfl)] at b5
  have b6' : (h'.par 1).dict.get? "t_obs" = some (.time t) := by
    rcases a6 with ⟨-, rfl⟩ | ⟨a6, -⟩
    · rcases b6 with b6 | ⟨b6, -⟩
      · exact b6
      · cases b6
    · cases a6
  refine ⟨h, h', r, hreach, hcls, hsch, hcols, hready.rect, by rw [e]; exact hstat, hrun, hp'', ⟨b1, b3, b4, Or.inr b5, b6'⟩,
    fun t' => ?_⟩
  obtain ⟨c₂, hc₂⟩ := hcurve t'
  exact C36_succeeds_classes (n := 100) (a := { t_obs := .time t' })
    (f := ⟨.time t', .str "LISA", .none, .str "auto", .bool true, .none⟩) (snr_reachable hreach trivial hrun)
    (by rw [e]; exact hcls') (by norm_num) (by rw [e]; exact hsch) (by rw [hcols']; exact hready.rect)
    (by
      obtain ⟨g1, g2, -⟩ := hready.built
      exact ⟨by rw [e]; exact g1, by rw [e]; exact g2, by rw [hp'']; rfl⟩)
    (by rw [e]; exact hint) (by rw [hl1, hcols']) (by rw [hl2, hcols']; exact hready.harm_length) hp''
    ⟨Or.inl ⟨by simp, rfl⟩, Or.inr ⟨rfl, b1⟩, Or.inr ⟨rfl, b2⟩, Or.inr ⟨rfl, b3⟩, Or.inr ⟨rfl, b4⟩, Or.inr ⟨rfl, b5⟩⟩ rfl hc₂

/-- Non-vacuity of `C96_lisa_classes`, class `Evolving`: the circular binary of the example, observed for a year. -/
example : ∃ (h h' : Heap) (r : ℕ) (C : Ctx) (T v x : ℝ) (one : One), Reachable Example.world AnyCall h ∧
    (h.src 0).cls = .Evolving ∧ get_snr Example.world 0 { t_obs := .time psd.yr } 100 none h = (.ok r, h') ∧
    (rows (h.src 0).cols)[0]? = some one ∧ CallCtx Example.world h' 0 C ∧ C.t_obs = psd.yr ∧ (h'.snrs r)[0]? = some (some v) ∧
    CircularBinary Example.world.K one T ∧ ExactSnr C one T x ∧ WithinFactor 1.042 v x := by
  obtain ⟨h, h', r, hreach, hcls, hsch, hcols, hrect, -, hrun, hp, hset, -⟩ := class_lisa (Or.inr rfl) psd.yr
  have hi : (rows (h.src 0).cols)[0]? = some (rowAt Example.cols 0) := by rw [hcols]; rfl
  obtain ⟨T, hT8, hone⟩ := example_binary
  have hyr : 0 < psd.yr := by norm_num [psd.yr]
  obtain ⟨C, v, x, hC, hCt, hv, hx, hw⟩ := (C96_lisa_classes rfl (reachable_any hreach) le_rfl hsch hrect hrun hp hset
    (by linarith) hi rfl hone (by linarith) (by show (1e-7 : ℝ) ≤ 2 * 1e-3; norm_num)
    (by show (1e-3 : ℝ) ≤ 0.77; norm_num)).2 hcls
  exact ⟨h, h', r, C, T, v, x, _, reachable_any hreach, hcls, hrun, hi, hC, hCt, hv, hone, hx, hw⟩

/-- Non-vacuity of `C101_lisa_class` and of `C96_lisa_classes`, class `Stationary`: the circular binary of the example,
observed for 1e8 seconds and then for 2e8. -/
example : ∃ (h h₁ h₂ : Heap) (r₁ r₂ : ℕ) (C : Ctx) (T v v' x : ℝ) (one : One), Reachable Example.world Interpolating h ∧
    (h.src 0).cls = .Stationary ∧ (rows (h.src 0).cols)[0]? = some one ∧
    get_snr Example.world 0 { t_obs := .time 1e8 } 100 none h = (.ok r₁, h₁) ∧
    get_snr Example.world 0 { t_obs := .time 2e8 } 100 none h₁ = (.ok r₂, h₂) ∧
    (h₁.snrs r₁)[0]? = some (some v) ∧ (h₂.snrs r₂)[0]? = some (some v') ∧ 0 ≤ v ∧ v ≤ v' ∧
    CallCtx Example.world h₁ 0 C ∧ CircularBinary Example.world.K one T ∧ ExactSnr C one T x ∧ WithinFactor 1.09 v x := by
  obtain ⟨h, h₁, r₁, hreach, hcls, hsch, hcols, hrect, hstat, hrun, hp, hset, hagain⟩ := class_lisa (Or.inl rfl) 1e8
  obtain ⟨r₂, h₂, hrun₂⟩ := hagain 2e8
  have hi : (rows (h.src 0).cols)[0]? = some (rowAt Example.cols 0) := by rw [hcols]; rfl
  have hphys : PhysicalOne (rowAt Example.cols 0) := ⟨by show (0 : ℝ) < 2e30; norm_num, by show (0 : ℝ) < 1e30; norm_num,
    by show (0 : ℝ) < 1e-3; norm_num, by show (0 : ℝ) ≤ 0; norm_num, by show (0 : ℝ) < 1; norm_num⟩
  obtain ⟨v, v', hv, hv', h0, hle⟩ := C101_lisa_class hreach hcls (by norm_num) hsch hrect (a := {}) (t := 1e8) (t' := 2e8)
    (by norm_num) (by norm_num) hrun hrun₂ hp hset hi rfl hphys
  obtain ⟨T, hT8, hone⟩ := example_binary
  have hyr : psd.yr = 31557600 := by norm_num [psd.yr]
  obtain ⟨C, w, x, hC, -, hw, hx, hwx⟩ := (C96_lisa_classes rfl (reachable_any hreach) le_rfl hsch hrect hrun hp hset
    (by rw [hyr]; norm_num) hi rfl hone (by rw [hyr] at hT8; linarith) (by show (1e-7 : ℝ) ≤ 2 * 1e-3; norm_num)
    (by show (1e-3 : ℝ) ≤ 0.77; norm_num)).1 hcls (by rw [hstat]; norm_num) (by rw [hstat]) (by
      rw [hstat]
      have := example_stationary
      norm_num at this ⊢
      exact this)
  rw [hv] at hw
  cases hw
  exact ⟨h, h₁, h₂, r₁, r₂, C, T, v, v', x, _, hreach, hcls, hi, hrun, hrun₂, hv, hv', h0, hle, hC, hone, hx, hwx⟩

end Legwork.Props
