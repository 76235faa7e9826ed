import Verif.Lemmas.SnrAll
import Verif.Lemmas.ScCurve

/-!
# When `get_snr` succeeds
-/

namespace Legwork.source

open Legwork.Spec Legwork.snr
open PyM hiding bind

variable {W : World} {s n : ℕ} {ws : Option (List Bool)}

theorem record_exists {insp : List Bool} {res : SnrState} {h : Heap} (h1 : insp.length = res.1.length)
    (h2 : insp.length = res.2.length) (h3 : insp.length = (harmNow h s).length) (h4 : insp.length = (snrNow h s).length) :
    ∃ h', record_snr s insp res h = (.ok (), h') ∧ SnrOnly h h' ∧ insp.length = (harmNow h' s).length ∧
      insp.length = (snrNow h' s).length := by
  rcases record_snr_cases (s := s) (insp := insp) (res := res) (h := h) with
    ⟨h', hr, -, -, g1, g2, g3, g4, g5, g6⟩ | ⟨-, hne⟩
  · refine ⟨h', hr, ?_, by rw [g1, np.assign_length, g4], by rw [g2, np.assign_length, g6]⟩
    have := record_snr_snrOnly h s insp res h (SnrOnly.refl h)
    rwa [hr] at this
  · exact absurd ⟨h2, h3, h1, h4⟩ hne

theorem snr_stationary_exists {f f' : SnrArgs} {h h₂ : Heap} {S : Settings} {C : Ctx} {ps : List (Option ℝ × ℕ)}
    {its : List (One × Bool)}
    (hr : Rect (h.src s).cols) (hw : FitsMask (h.src s).cols ws)
    (hits : items (h.src s).cols (which (h.src s).cols.n_sources ws) = its)
    (hm : match_params W s f true h = (.ok f', h₂)) (hS : HasSettings (h₂.src s) S) (hC : ctxOf W (h₂.src s) f' = .ok C)
    (hv : its.mapM (orZero (statOne C S)) = .ok ps)
    (hl1 : its.length = (harmNow h s).length) (hl2 : its.length = (snrNow h s).length) :
    ∃ v h', get_snr_stationary W s f ws h = (.ok v, h') ∧ SnrOnly h₂ h' ∧ its.length = (harmNow h' s).length ∧
      its.length = (snrNow h' s).length := by
  have hsc := match_params_scOnly hm
  have hpl := mapM_length hv
  obtain ⟨h', hrec, ho, g1, g2⟩ := record_exists (s := s) (h := h₂) (insp := its.map live) (res := unzipPairs ps)
    (by rw [unzipPairs_fst_length, List.length_map, hpl]) (by rw [unzipPairs_snd_length, List.length_map, hpl])
    (by rw [List.length_map, hsc.harmNow, hl1]) (by rw [List.length_map, hsc.snrNow, hl2])
  rw [List.length_map] at g1 g2
  subst hits
  exact ⟨_, h', (get_snr_stationary_iff hr hw).2 ⟨f', h₂, S, C, ps, hm, hS, hC, hv, hrec, rfl⟩, ho, g1, g2⟩

theorem snr_evolving_exists {f f' : SnrArgs} {h h₂ : Heap} {S : Settings} {C : Ctx} {ps : List (Option ℝ × ℕ)}
    {its : List (One × Bool)} (hn : n ≠ 0) (hs : CompleteSchedule W (h.src s))
    (hr : Rect (h.src s).cols) (hw : FitsMask (h.src s).cols ws)
    (hits : items (h.src s).cols (which (h.src s).cols.n_sources ws) = its)
    (hm : match_params W s f true h = (.ok f', h₂)) (hS : HasSettings (h₂.src s) S) (hC : ctxOf W (h₂.src s) f' = .ok C)
    (hv : its.mapM (orZero (evolOne W C S n)) = .ok ps)
    (hl1 : its.length = (harmNow h s).length) (hl2 : its.length = (snrNow h s).length) :
    ∃ v h', get_snr_evolving W s f n ws h = (.ok v, h') ∧ SnrOnly h₂ h' ∧ its.length = (harmNow h' s).length ∧
      its.length = (snrNow h' s).length := by
  have hsc := match_params_scOnly hm
  have hpl := mapM_length hv
  obtain ⟨h', hrec, ho, g1, g2⟩ := record_exists (s := s) (h := h₂) (insp := its.map live) (res := unzipPairs ps)
    (by rw [unzipPairs_fst_length, List.length_map, hpl]) (by rw [unzipPairs_snd_length, List.length_map, hpl])
    (by rw [List.length_map, hsc.harmNow, hl1]) (by rw [List.length_map, hsc.snrNow, hl2])
  rw [List.length_map] at g1 g2
  subst hits
  exact ⟨_, h', (get_snr_evolving_iff hn hs hr hw).2 ⟨f', h₂, S, C, ps, hm, hS, hC, hv, hrec, rfl⟩, ho, g1, g2⟩

/-- Values for a part of the sources. -/
theorem part_values {its : List (One × Bool)} {q : One × Bool → Bool} {g g' : One → Except PyErr (Option ℝ × ℕ)}
    {ps : List (Option ℝ × ℕ)} (hv : its.mapM (orZero g) = .ok ps)
    (hq : ∀ x, q x = true → live x = true ∧ g' x.1 = g x.1) :
    ∃ ps', (its.map fun x => (x.1, q x)).mapM (orZero g') = .ok ps' := by
  refine mapM_exists fun x hx => ?_
  obtain ⟨y, hy, rfl⟩ := List.mem_map.1 hx
  unfold orZero
  split_ifs with hl
  · obtain ⟨i, hi, rfl⟩ := List.getElem_of_mem hy
    have hqy : q its[i] = true := (Bool.and_eq_true_iff.1 hl).1
    obtain ⟨h1, h2⟩ := hq _ hqy
    obtain ⟨v, -, hv'⟩ := mapM_at hv (List.getElem?_eq_getElem hi)
    unfold orZero at hv'
    rw [if_pos h1] at hv'
    exact ⟨v, by rw [h2]; exact hv'⟩
  · exact ⟨_, rfl⟩

theorem CompleteSchedule.of_n_proc {x y : Src} (h : x.n_proc = y.n_proc) (hs : CompleteSchedule W y) :
    CompleteSchedule W x := by
  unfold CompleteSchedule
  rw [h]
  exact hs

theorem SnrOnly.cols {h h' : Heap} (ho : SnrOnly h h') (s : ℕ) : (h'.src s).cols = (h.src s).cols := ho.snrCall.cols s

theorem SnrOnly.n_proc {h h' : Heap} (ho : SnrOnly h h') (s : ℕ) : (h'.src s).n_proc = (h.src s).n_proc := by
  obtain ⟨_, _, he⟩ := ho.src s
  rw [he]

theorem Source_get_snr_exists {a f : SnrArgs} {h h₁ : Heap} {T : ℝ} {S : Settings} (hn : n ≠ 0)
    (hs : CompleteSchedule W (h.src s)) (hr : Rect (h.src s).cols)
    (hw : FitsMask (h.src s).cols ws) (its : List (One × Bool))
    (hits : its = items (h.src s).cols (which (h.src s).cols.n_sources ws)) (hR : SnrRun W s a n its h f h₁ T S)
    (hc : its.any live = false ∨ ∃ f' h₂ C ps, SnrCalc W s n (h.src s).stat_tol its f h₁ T S f' h₂ C ps) :
    ∃ r h', Source_get_snr W s a n ws h = (.ok r, h') := by
  obtain ⟨hm, hset, p, hp, hT⟩ := hR
  have hsc1 := match_params_scOnly hm
  have hc1 : (h₁.src s).cols = (h.src s).cols := match_params_cols hm
  have hnp1 := match_params_n_proc hm
  have hstol : (h₁.src s).stat_tol = (h.src s).stat_tol := by
    obtain ⟨sc, p, he⟩ := hsc1.src s
    rw [he]
  have hag : Agrees (h₁.par p).dict f := by
    obtain ⟨p', f', -, hp', -, hf', hag⟩ := match_params_agrees hm
    rw [hp] at hp'
    cases hp'
    exact hag
  have hwl := which_length hw
  set c := (h.src s).cols with hcdef
  set w := which c.n_sources ws with hwdef
  have hr1 : Rect (h₁.src s).cols := by rw [hc1]; exact hr
  have hlen : its.length = c.n_sources := by rw [hits]; exact items_length hwl
  have hmask : ∀ b, get_source_mask W s .none (.bool b) f.t_obs h₁ =
      (.ok ((rows (h₁.src s).cols).map fun r => stat1 W.K T (h₁.src s).stat_tol r == b), h₁) := by
    intro b
    rw [get_source_mask_run, (maskOf_stationary hr1 (by rw [hset.1]; rfl) (by rw [hset.2.1]; rfl) hp).2 ⟨T, hT, rfl⟩]
  set pS : One × Bool → Bool := fun x => (stat1 W.K T (h.src s).stat_tol x.1 == true) && live x with hpSdef
  set pE : One × Bool → Bool := fun x => (stat1 W.K T (h.src s).stat_tol x.1 == false) && live x with hpEdef
  have hred : ∀ b, reduce3 ((rows (h₁.src s).cols).map fun r => stat1 W.K T (h₁.src s).stat_tol r == b) (h₁.src s).cols.merged
      (which (h₁.src s).cols.n_sources ws) = .ok (its.map fun x => (stat1 W.K T (h.src s).stat_tol x.1 == b) && live x) := by
    intro b
    rw [hc1, hstol, reduce3_ok hr hwl, hits]
  -- the two halves
  have hitsq : ∀ (q : One × Bool → Bool), items c (which c.n_sources (some (its.map q))) = its.map fun x => (x.1, q x) := by
    intro q
    rw [hits]
    exact items_map hwl
  have hfit : ∀ (q : One × Bool → Bool) (h₂ : Heap), (h₂.src s).cols = c → FitsMask (h₂.src s).cols (some (its.map q)) := by
    intro q h₂ he m hm'
    cases hm'
    rw [List.length_map, hlen, he]
  have halves : ∀ x, ∃ y h₂ z h₃, snr_part (its.map pS) (get_snr_stationary W s f (some (its.map pS))) x h₁ = (.ok y, h₂) ∧
      snr_part (its.map pE) (get_snr_evolving W s f n (some (its.map pE))) y h₂ = (.ok z, h₃) := by
    intro x
    rcases hc with hnone | ⟨f', h₂, C, ps, hcalc⟩
    · have hSn : its.any pS = false := by
        rw [List.any_eq_false] at hnone ⊢
        exact fun x hx hq => hnone x hx (Bool.and_eq_true_iff.1 hq).2
      have hEn : its.any pE = false := by
        rw [List.any_eq_false] at hnone ⊢
        exact fun x hx hq => hnone x hx (Bool.and_eq_true_iff.1 hq).2
      refine ⟨x, h₁, x, h₁, ?_, ?_⟩
      · unfold snr_part
        rw [any_map_id, hSn]
        rfl
      · unfold snr_part
        rw [any_map_id, hEn]
        rfl
    · obtain ⟨psS, hpsS⟩ := part_values (q := pS) (g' := statOne C S) hcalc.values (fun x hx => by
        obtain ⟨h1, h2⟩ := Bool.and_eq_true_iff.1 hx
        refine ⟨h2, ?_⟩
        unfold fullOne
        rw [hcalc.time, if_pos (by simpa using h1)])
      obtain ⟨psE, hpsE⟩ := part_values (q := pE) (g' := evolOne W C S n) hcalc.values (fun x hx => by
        obtain ⟨h1, h2⟩ := Bool.and_eq_true_iff.1 hx
        refine ⟨h2, ?_⟩
        unfold fullOne
        rw [hcalc.time, if_neg (by simpa using h1)])
      have hsc2 := match_params_scOnly hcalc.matched
      have hset2 : HasSettings (h₂.src s) S := hsc2.hasSettings.2 hset
      have hl : ∀ q : One × Bool → Bool, (its.map fun x => (x.1, q x)).length = its.length := fun q => List.length_map _
      obtain ⟨y, hA, hyA, hAm, hAl1, hAl2, hAnp, hAc⟩ : ∃ y hA,
          snr_part (its.map pS) (get_snr_stationary W s f (some (its.map pS))) x h₁ = (.ok y, hA) ∧
          (∃ hm', match_params W s f true hA = (.ok f', hm') ∧ HasSettings (hm'.src s) S ∧ ctxOf W (hm'.src s) f' = .ok C) ∧
          its.length = (harmNow hA s).length ∧ its.length = (snrNow hA s).length ∧ (hA.src s).n_proc = (h.src s).n_proc ∧
          (hA.src s).cols = c := by
        by_cases hany : its.any pS = true
        · obtain ⟨v, hA, hv, ho, g1, g2⟩ := snr_stationary_exists (ws := some (its.map pS)) hr1 (hfit pS h₁ hc1)
            (by rw [hc1]; exact hitsq pS) hcalc.matched hset2 hcalc.ctx hpsS (by rw [hl]; exact hcalc.harm_length)
            (by rw [hl]; exact hcalc.snr_length)
          rw [hl] at g1 g2
          refine ⟨np.assign (its.map pS) x v, hA, ?_, ⟨hA, ?_, ho.hasSettings.2 hset2, by rw [ho.ctxOf]; exact hcalc.ctx⟩,
            g1, g2, ?_, ?_⟩
          · unfold snr_part
            rw [any_map_id, hany, if_pos rfl, bind_ok hv]
            rfl
          · exact (settle_auto (a := {}) (by simp) hp hag
              ⟨Or.inl rfl, Or.inl rfl, Or.inl rfl, Or.inl rfl, Or.inl rfl, Or.inl rfl⟩ hcalc.matched).2 hA ho
          · rw [ho.n_proc, match_params_n_proc hcalc.matched, hnp1]
          · rw [ho.cols, match_params_cols hcalc.matched, hc1]
        · refine ⟨x, h₁, ?_, ⟨h₂, hcalc.matched, hset2, hcalc.ctx⟩, hcalc.harm_length, hcalc.snr_length, hnp1, hc1⟩
          unfold snr_part
          rw [any_map_id, if_neg hany]
          rfl
      obtain ⟨hm', hmm, hms, hmc⟩ := hAm
      by_cases hany : its.any pE = true
      · obtain ⟨v, hB, hv, ho, -, -⟩ := snr_evolving_exists (ws := some (its.map pE)) hn (CompleteSchedule.of_n_proc hAnp hs)
          (by rw [hAc]; exact hr) (hfit pE hA hAc) (by rw [hAc]; exact hitsq pE) hmm hms hmc hpsE
          (by rw [hl]; exact hAl1) (by rw [hl]; exact hAl2)
        refine ⟨y, hA, np.assign (its.map pE) y v, hB, hyA, ?_⟩
        unfold snr_part
        rw [any_map_id, hany, if_pos rfl, bind_ok hv]
        rfl
      · refine ⟨y, hA, y, hA, hyA, ?_⟩
        unfold snr_part
        rw [any_map_id, if_neg hany]
        rfl
  obtain ⟨y, h₂, z, h₃, hy, hz⟩ := halves (List.replicate (h₁.src s).cols.n_sources (some 0))
  refine ⟨h₃.next, (store_snr s z h₃).2, ?_⟩
  unfold Source_get_snr
  rw [bind_ok hm, bind_run]
  simp only [getSrc]
  rw [bind_ok (hmask true), bind_run, lift_run, hred true]
  simp only
  rw [bind_ok (hmask false), bind_run, lift_run, hred false]
  simp only
  rw [bind_ok hy, bind_ok hz]
  rfl

/-! ### With an interpolated curve no source fails -/

theorem mapM_noise {C : Ctx} {sc : ℝ → WithTop ℝ} (hsc : C.interpolated_sc = some sc) (l : List ℝ) :
    l.mapM (noise C) = .ok (l.map sc) := by
  refine mapM_ok fun f _ => ?_
  unfold noise
  rw [hsc]
  rfl

theorem noise_interpolated {C : Ctx} {sc : ℝ → WithTop ℝ} (hsc : C.interpolated_sc = some sc) (f : ℝ) :
    noise C f = .ok (sc f) := by
  unfold noise
  rw [hsc]
  rfl

theorem modulation_ok {r : One} (h : r.position.isSome → r.inclination.isSome ∧ r.polarisation.isSome) :
    ∃ m, strain.modulation r.orient = .ok m := by
  unfold One.orient
  rcases hp : r.position with _ | p
  · exact ⟨1, rfl⟩
  · obtain ⟨h1, h2⟩ := h (by rw [hp]; rfl)
    obtain ⟨i, hi⟩ := Option.isSome_iff_exists.1 h1
    obtain ⟨q, hq⟩ := Option.isSome_iff_exists.1 h2
    simp only [hi, hq]
    exact ⟨_, rfl⟩

theorem one1_exists {S : Settings} {circ : One → Except PyErr (Option ℝ)} {ecc : ℕ → One → Except PyErr (Option ℝ × ℕ)}
    {r : One} (hc : ∃ v, circ r = .ok v) (he : ∀ H, ∃ v, ecc H r = .ok v) : ∃ p, one1 S circ ecc r = .ok p := by
  obtain ⟨v, hv⟩ := hc
  by_cases hle : r.ecc ≤ S.ecc_tol
  · exact ⟨(v, 2), one1_spec.2 ⟨fun _ => ⟨hv, rfl⟩, fun h => absurd hle (not_le.2 h)⟩⟩
  · by_cases hH : ∃ H, HarmonicLimit (S.harmonics_required r.ecc) H
    · obtain ⟨H, hH⟩ := hH
      obtain ⟨p, hp⟩ := he H
      exact ⟨p, one1_spec.2 ⟨fun h => absurd h hle, fun _ => ⟨fun H' hH' => by rw [harmonicLimit_unique hH' hH, hp],
        fun h => absurd ⟨H, hH⟩ h⟩⟩⟩
    · exact ⟨(some 0, 2), one1_spec.2 ⟨fun h => absurd h hle, fun _ => ⟨fun H hH' => absurd ⟨H, hH'⟩ hH,
        fun _ => ⟨rfl, rfl⟩⟩⟩⟩

theorem statOne_exists {C : Ctx} {sc : ℝ → WithTop ℝ} (hsc : C.interpolated_sc = some sc) (S : Settings) {r : One}
    (ha : r.position.isSome → r.inclination.isSome ∧ r.polarisation.isSome) : ∃ p, statOne C S r = .ok p := by
  unfold statOne
  refine one1_exists ?_ fun H => ?_
  · obtain ⟨m, hm⟩ := modulation_ok ha
    unfold circ1
    change ∃ v, (strain.modulation r.orient >>= _) = _
    rw [hm, ok_bind, noise_interpolated hsc, ok_bind]
    exact ⟨_, rfl⟩
  · unfold ecc1
    rw [mapM_ok (g := fun n : ℤ => sc (n * r.eccentric.f_orb)) fun n _ => noise_interpolated hsc _, ok_bind]
    exact ⟨_, rfl⟩

theorem evolOne_exists {C : Ctx} {sc : ℝ → WithTop ℝ} (hsc : C.interpolated_sc = some sc) (W : World) (S : Settings) (n : ℕ)
    (r : One) : ∃ p, evolOne W C S n r = .ok p := by
  unfold evolOne
  refine one1_exists ?_ fun H => ?_
  · unfold circE1
    simp only
    rw [mapM_ok (g := fun f : ℝ => sc (2 * f)) fun n _ => noise_interpolated hsc _, ok_bind]
    exact ⟨_, rfl⟩
  · unfold eccE1
    rw [mapM_ok (g := fun k : ℤ => _) fun k _ => mapM_ok fun f _ => noise_interpolated hsc _, ok_bind]
    exact ⟨_, rfl⟩

/-- Parameters with a curve are complete arguments. -/
theorem asKw_of_curve {W : World} {d : Dict} {c : ℝ → WithTop ℝ} (h : CurveOf W d c) {i cp L aR cn : PVal}
    (h1 : d.get? "instrument" = some i) (h2 : d.get? "custom_psd" = some cp) (h3 : d.get? "L" = some L)
    (h4 : d.get? "approximate_R" = some aR) (h5 : d.get? "confusion_noise" = some cn) :
    ∃ kw, asKw W i cp L aR cn = .ok kw := by
  have := h.on_grid 0 (by norm_num)
  unfold psd_of_dict at this
  split_ifs at this
  simp only [h1, h2, h3, h4, h5, Option.getD_some] at this
  obtain ⟨kw, hkw, -⟩ := except_bind_ok.1 this
  exact ⟨kw, hkw⟩

end Legwork.source
