import Verif.Lemmas.SnrChanged

/-!
# SNRs of two collections of class `Stationary` or `Evolving` whose sources correspond
-/

namespace Legwork.source

open Legwork.Spec Legwork.snr Legwork.Props
open PyM hiding bind

variable {W : World} {s t n : ℕ} {h k : Heap} {ws : Option (List Bool)} {ρ : One → One → Prop}
  {one : Ctx → Settings → One → Except PyErr (Option ℝ × ℕ)}

/-- A successful run of `get_snr_stationary` or `get_snr_evolving`; `one` is the calculation for one source. -/
def HalfRun (W : World) (one : Ctx → Settings → One → Except PyErr (Option ℝ × ℕ)) (s : ℕ) (a : SnrArgs)
    (ws : Option (List Bool)) (h : Heap) (vs : List (Option ℝ)) (h' : Heap) : Prop :=
  ∃ f h₁ S C ps, match_params W s a true h = (.ok f, h₁) ∧ HasSettings (h₁.src s) S ∧ ctxOf W (h₁.src s) f = .ok C ∧
    (items (h.src s).cols (which (h.src s).cols.n_sources ws)).mapM (orZero (one C S)) = .ok ps ∧
    record_snr s ((items (h.src s).cols (which (h.src s).cols.n_sources ws)).map live) (unzipPairs ps) h₁ = (.ok (), h') ∧
    vs = np.select (which (h.src s).cols.n_sources ws) (ps.map Prod.fst)

theorem select_all {α : Type} (xs : List α) {n : ℕ} (hn : xs.length = n) : np.select (which n none) xs = xs := by
  subst hn
  unfold which np.select
  simp only
  rw [replicate_filter]
  induction xs with
  | nil => rfl
  | cons x xs ih => simpa using ih

/-- Two runs on collections whose sources correspond, if both succeed. -/
theorem Changed.half_both (hP : Changed ρ h s k t) (hmer : ∀ x y, ρ x y → y.merged = x.merged)
    {R : Ctx → Settings → One → One → Option ℝ × ℕ → Option ℝ × ℕ → Prop}
    (hstep : ∀ C S x y v v', ρ x y → one C S x = .ok v → one C S y = .ok v' → R C S x y v v')
    {a : SnrArgs} {vs us : List (Option ℝ)} {h' k' : Heap} (hrun : HalfRun W one s a none h vs h')
    (hrun' : HalfRun W one t a none k us k') :
    ∀ i x, (Spec.rows (h.src s).cols)[i]? = some x → ∃ y, (Spec.rows (k.src t).cols)[i]? = some y ∧ ρ x y ∧
      RelatedAt W none R h' s vs k' t us i x y := by
  have hw : FitsMask (h.src s).cols none := fun m hm => by cases hm
  obtain ⟨f, h₁, S, C, ps, hm, hS, hC, hps, hrec, rfl⟩ := hrun
  obtain ⟨f', k₁', S', C', ps', hm', hS', hC', hps', hrec', rfl⟩ := hrun'
  obtain ⟨k₁, hkm, hP₁⟩ := hP.match_params hm
  rw [hkm] at hm'
  obtain ⟨e1, rfl⟩ := Prod.mk.inj hm'
  cases e1
  have hSS := HasSettings.unique hS' (hP₁.twin.hasSettings hS)
  subst hSS
  rw [hP₁.twin.ctxOf, hC] at hC'
  cases hC'
  have hits2 := hP.items (ws := none)
  have hlive := any_congr hmer hits2
  have hil := items_length (c := (h.src s).cols) (which_length hw)
  have hil' := items_length (c := (k.src t).cols) (which_length (hP.fits hw))
  have hpl := mapM_length hps
  have hpl' := mapM_length hps'
  rw [hil] at hpl
  rw [hil'] at hpl'
  rw [select_all _ (by rw [List.length_map, hpl]), select_all _ (by rw [List.length_map, hpl'])]
  intro i x hx
  obtain ⟨y, hy, hxy⟩ := forall₂_at hP.rows hx
  refine ⟨y, hy, hxy, ?_⟩
  obtain ⟨b, hb, hbc⟩ := item_at hw hx
  obtain ⟨b', hb', hbc'⟩ := item_at (hP.fits hw) hy
  obtain ⟨v, hvi, hv1⟩ := mapM_at hps hb
  obtain ⟨v', hvi', hv1'⟩ := mapM_at hps' hb'
  have hlx : live (x, b) = true ↔ x.merged = false ∧ Chosen none i := by rw [live_iff, hbc]; tauto
  have hly : live (y, b') = live (x, b) := by
    have : b' = b := Bool.eq_iff_iff.2 (hbc'.trans hbc.symm)
    unfold live
    rw [hmer _ _ hxy, this]
  unfold orZero at hv1 hv1'
  rw [hly] at hv1'
  obtain ⟨-, r2, -, r4, -, ho⟩ := record_ok hrec
  obtain ⟨-, q2, -, q4, -, ho'⟩ := record_ok hrec'
  have hharm : (harmNow h' s)[i]? = if live (x, b) = true then some v.2 else (harmNow h₁ s)[i]? := by
    rw [r2, assign_select r4 (by rw [unzipPairs_snd_length, List.length_map, hil, hpl])]
    simp [hb, unzipPairs, hvi]
  have hharm' : (harmNow k' t)[i]? = if live (x, b) = true then some v'.2 else (harmNow h₁ s)[i]? := by
    rw [q2, assign_select q4 (by rw [unzipPairs_snd_length, List.length_map, hil', hpl']), hP₁.harm]
    simp [hb', hly, unzipPairs, hvi']
  refine ⟨v.1, v'.1, by rw [List.getElem?_map, hvi]; rfl, by rw [List.getElem?_map, hvi']; rfl,
    fun hdead => ?_, fun h1 h2 => ?_⟩
  · have hl : ¬ live (x, b) = true := fun hl => by
      obtain ⟨h1, h2⟩ := hlx.1 hl
      rcases hdead with h | h
      · rw [h1] at h; cases h
      · exact h h2
    rw [if_neg hl] at hharm hharm' hv1 hv1'
    cases hv1
    cases hv1'
    exact ⟨rfl, rfl, hharm'.trans hharm.symm⟩
  · have hl := hlx.2 ⟨h1, h2⟩
    rw [if_pos hl] at hharm hharm' hv1 hv1'
    exact ⟨v.2, v'.2, C, S', hharm, hharm', callCtx hm hC ho, callCtx hkm (by rw [hP₁.twin.ctxOf]; exact hC) ho',
      ho.hasSettings.2 hS, hstep _ _ _ _ _ _ hxy hv1 hv1'⟩

/-- The second run exists. -/
theorem Changed.half_exists (hP : Changed ρ h s k t) (hmer : ∀ x y, ρ x y → y.merged = x.merged)
    {a : SnrArgs} {vs : List (Option ℝ)} {h' : Heap} (hrun : HalfRun W one s a none h vs h')
    (hstep : ∀ C S x y v, CallCtx W h' s C → HasSettings (h'.src s) S → x.merged = false → ρ x y →
      one C S x = .ok v → ∃ v', one C S y = .ok v') :
    ∃ us k', HalfRun W one t a none k us k' := by
  obtain ⟨f, h₁, S, C, ps, hm, hS, hC, hps, hrec, rfl⟩ := hrun
  obtain ⟨k₁, hkm, hP₁⟩ := hP.match_params hm
  obtain ⟨-, -, -, r4, r5, ho⟩ := record_ok hrec
  have hits2 := hP.items (ws := none)
  have hlen := hits2.length_eq
  obtain ⟨ps', hps', -⟩ := mapM_related (Q := fun _ _ _ _ => True) (f := orZero (one C S)) (g := orZero (one C S))
    (fun x y v hxy hv => by
      have hl : live y = live x := by unfold live; rw [hmer _ _ hxy.1, hxy.2]
      unfold orZero at hv ⊢
      rw [hl]
      by_cases hx : live x = true
      · rw [if_pos hx] at hv ⊢
        obtain ⟨v', hv'⟩ := hstep C S _ _ _ (callCtx hm hC ho) (ho.hasSettings.2 hS) (live_iff.1 hx).2 hxy.1 hv
        exact ⟨v', hv', trivial⟩
      · rw [if_neg hx]
        exact ⟨_, rfl, trivial⟩) hits2 hps
  have hpl' := mapM_length hps'
  rw [List.length_map] at r4 r5
  obtain ⟨k', hk', -⟩ := record_exists (s := t) (h := k₁)
    (insp := (source.items (k.src t).cols (which (k.src t).cols.n_sources none)).map live) (res := unzipPairs ps')
    (by rw [unzipPairs_fst_length, List.length_map, hpl']) (by rw [unzipPairs_snd_length, List.length_map, hpl'])
    (by rw [List.length_map, ← hlen, hP₁.harm, r4]) (by rw [List.length_map, ← hlen, hP₁.snr, r5])
  exact ⟨_, k', f, k₁, S, C, ps', hkm, hP₁.twin.hasSettings hS, by rw [hP₁.twin.ctxOf]; exact hC, hps', hk', rfl⟩

/-- What `get_snr` of these classes calculates for one source. -/
noncomputable def classOne (W : World) (n : ℕ) : Cls → Ctx → Settings → One → Except PyErr (Option ℝ × ℕ)
  | .Stationary => statOne
  | _ => fun C S => evolOne W C S n

/-- The arguments that `get_snr` of these classes takes. -/
def classArgs (a : SnrArgs) : SnrArgs := { t_obs := a.t_obs, instrument := a.instrument, custom_psd := a.custom_psd }

theorem class_run {a : SnrArgs} {r : ℕ} {h' : Heap} (hcls : (h.src s).cls = .Stationary ∨ (h.src s).cls = .Evolving)
    (hn : n ≠ 0) (hs : CompleteSchedule W (h.src s)) (hr : Rect (h.src s).cols) :
    get_snr W s a n ws h = (.ok r, h') ↔ ∃ vs h₁, HalfRun W (classOne W n (h.src s).cls) s (classArgs a) none h vs h₁ ∧
      store_snr s vs h₁ = (.ok r, h') := by
  have hw : FitsMask (h.src s).cols none := fun m hm => by cases hm
  rw [get_snr_run]
  rcases hcls with hc | hc
  · rw [hc]
    change Stationary_get_snr W s a h = _ ↔ _
    unfold Stationary_get_snr
    rw [bind_ok_iff]
    refine exists_congr fun vs => exists_congr fun h₁ => and_congr_left fun _ => get_snr_stationary_iff hr hw
  · rw [hc]
    change Evolving_get_snr W s a n h = _ ↔ _
    unfold Evolving_get_snr
    rw [bind_ok_iff]
    refine exists_congr fun vs => exists_congr fun h₁ => and_congr_left fun _ => get_snr_evolving_iff hn hs hr hw

theorem RelatedAt.store {R : Ctx → Settings → One → One → Option ℝ × ℕ → Option ℝ × ℕ → Prop} {h₁ h' k₁ k' : Heap}
    {vs us : List (Option ℝ)} {r r' i : ℕ} {x y : One} (hR : RelatedAt W ws R h₁ s vs k₁ t us i x y)
    (hst : store_snr s vs h₁ = (.ok r, h')) (hst' : store_snr t us k₁ = (.ok r', k')) :
    RelatedAt W ws R h' s (h'.snrs r) k' t (k'.snrs r') i x y := by
  obtain ⟨e1, -, -, e2⟩ := harmNow_store hst
  obtain ⟨e1', -, -, e2'⟩ := harmNow_store hst'
  have ho : SnrOnly h₁ h' := by
    have := store_snr_snrOnly h₁ s vs h₁ (SnrOnly.refl h₁)
    rwa [hst] at this
  have ho' : SnrOnly k₁ k' := by
    have := store_snr_snrOnly k₁ t us k₁ (SnrOnly.refl k₁)
    rwa [hst'] at this
  obtain ⟨v, u, hv, hu, hdead, hlive⟩ := hR
  refine ⟨v, u, by rw [e2]; exact hv, by rw [e2']; exact hu, by rw [e1, e1']; exact hdead, fun h1 h2 => ?_⟩
  obtain ⟨m, l, C, S, hm, hl, hC, hC', hS, hR⟩ := hlive h1 h2
  exact ⟨m, l, C, S, by rw [e1]; exact hm, by rw [e1']; exact hl, callCtx_snrOnly ho hC, callCtx_snrOnly ho' hC',
    ho.hasSettings.2 hS, hR⟩

/-- `get_snr` of `Stationary` or `Evolving` on collections whose sources correspond, if both calls succeed. -/
theorem Changed.class_both (hP : Changed ρ h s k t) (hmer : ∀ x y, ρ x y → y.merged = x.merged)
    (hcls : (h.src s).cls = .Stationary ∨ (h.src s).cls = .Evolving) (hcls' : (k.src t).cls = (h.src s).cls) (hn : n ≠ 0)
    (hs : CompleteSchedule W (h.src s)) (hr : Rect (h.src s).cols) (hr' : Rect (k.src t).cols)
    {R : Ctx → Settings → One → One → Option ℝ × ℕ → Option ℝ × ℕ → Prop}
    (hstep : ∀ C S x y v v', ρ x y → classOne W n (h.src s).cls C S x = .ok v →
      classOne W n (h.src s).cls C S y = .ok v' → R C S x y v v')
    {a : SnrArgs} {r r' : ℕ} {h' k' : Heap} (hrun : get_snr W s a n ws h = (.ok r, h'))
    (hrun' : get_snr W t a n ws k = (.ok r', k')) :
    ∀ i x, (Spec.rows (h.src s).cols)[i]? = some x → ∃ y, (Spec.rows (k.src t).cols)[i]? = some y ∧ ρ x y ∧
      RelatedAt W none R h' s (h'.snrs r) k' t (k'.snrs r') i x y := by
  obtain ⟨vs, h₁, hH, hst⟩ := (class_run hcls hn hs hr).1 hrun
  obtain ⟨us, k₁, hH', hst'⟩ := (class_run (by rw [hcls']; exact hcls) hn (hP.schedule hs) hr').1 hrun'
  rw [hcls'] at hH'
  intro i x hx
  obtain ⟨y, hy, hxy, hR⟩ := hP.half_both hmer hstep hH hH' i x hx
  exact ⟨y, hy, hxy, hR.store hst hst'⟩

/-- `get_snr` of `Stationary` or `Evolving` on collections whose sources correspond. -/
theorem Changed.class_ctx (hP : Changed ρ h s k t) (hmer : ∀ x y, ρ x y → y.merged = x.merged)
    (hcls : (h.src s).cls = .Stationary ∨ (h.src s).cls = .Evolving) (hcls' : (k.src t).cls = (h.src s).cls) (hn : n ≠ 0)
    (hs : CompleteSchedule W (h.src s)) (hr : Rect (h.src s).cols) (hr' : Rect (k.src t).cols)
    {R : Ctx → Settings → One → One → Option ℝ × ℕ → Option ℝ × ℕ → Prop}
    {a : SnrArgs} {r : ℕ} {h' : Heap} (hrun : get_snr W s a n ws h = (.ok r, h'))
    (hstep : ∀ C S x y v, CallCtx W h' s C → HasSettings (h'.src s) S → x.merged = false → ρ x y →
      classOne W n (h.src s).cls C S x = .ok v → ∃ v', classOne W n (h.src s).cls C S y = .ok v' ∧ R C S x y v v') :
    ∃ r' k', get_snr W t a n ws k = (.ok r', k') ∧
      ∀ i x, (Spec.rows (h.src s).cols)[i]? = some x → ∃ y, (Spec.rows (k.src t).cols)[i]? = some y ∧ ρ x y ∧
        RelatedAt W none R h' s (h'.snrs r) k' t (k'.snrs r') i x y := by
  obtain ⟨vs, h₁, hH, hst⟩ := (class_run hcls hn hs hr).1 hrun
  have ho : SnrOnly h₁ h' := by
    have := store_snr_snrOnly h₁ s vs h₁ (SnrOnly.refl h₁)
    rwa [hst] at this
  obtain ⟨us, k₁, hH'⟩ := hP.half_exists hmer hH fun C S x y v hC hS hm hxy hv => by
    obtain ⟨v', hv', -⟩ := hstep C S x y v (callCtx_snrOnly ho hC) (ho.hasSettings.2 hS) hm hxy hv
    exact ⟨v', hv'⟩
  have hrun' : ∃ r' k', get_snr W t a n ws k = (.ok r', k') := by
    refine ⟨_, _, (class_run (by rw [hcls']; exact hcls) hn (hP.schedule hs) hr').2 ⟨us, k₁, ?_, store_snr_run ..⟩⟩
    rw [hcls']
    exact hH'
  obtain ⟨r', k', hrun'⟩ := hrun'
  refine ⟨r', k', hrun', fun i x hx => ?_⟩
  obtain ⟨y, hy, hxy, v, u, hv, hu, hdead, hlive⟩ := hP.class_both (R := fun C S x y v v' =>
    classOne W n (h.src s).cls C S x = .ok v ∧ classOne W n (h.src s).cls C S y = .ok v') hmer hcls hcls' hn hs hr hr'
    (fun C S x y v v' _ hv hv' => ⟨hv, hv'⟩) hrun hrun' i x hx
  refine ⟨y, hy, hxy, v, u, hv, hu, hdead, fun h1 h2 => ?_⟩
  obtain ⟨m, l, C, S, hm, hl, hC, hC', hS, hv1, hv2⟩ := hlive h1 h2
  obtain ⟨w, hw1, hR⟩ := hstep C S x y _ hC hS h1 hxy hv1
  rw [hv2] at hw1
  cases hw1
  exact ⟨m, l, C, S, hm, hl, hC, hC', hS, hR⟩

end Legwork.source
