import Verif.Lemmas.SourceFile

/-!
# Loading a saved file
-/

namespace Legwork.source

open Legwork.Spec Legwork.utils Legwork.Props
open PyM hiding bind

/-! ### Parameters -/

theorem read_params_spec (l : List (String × AVal)) : ∀ (o : List (String × AVal)) (d₀ : Dict),
    (∀ kv ∈ o, endswith kv.1 "_unit" = false → ∃ x, read_param l kv.1 kv.2 = .ok x) → d₀.keys.Nodup →
    ∃ d', read_params l o d₀ = .ok d' ∧ d'.keys.Nodup ∧ ∀ key,
      (d'.get? key = d₀.get? key ∧ ∀ kv ∈ o, kv.1 = key → endswith key "_unit" = true) ∨
      ∃ v x, (key, v) ∈ o ∧ endswith key "_unit" = false ∧ read_param l key v = .ok x ∧ d'.get? key = some x := by
  intro o
  induction o with
  | nil =>
    intro d₀ _ hn
    exact ⟨d₀, rfl, hn, fun key => Or.inl ⟨rfl, fun kv hkv => by cases hkv⟩⟩
  | cons kv rest ih =>
    obtain ⟨k, v⟩ := kv
    intro d₀ hr hn
    rw [read_params]
    by_cases hu : endswith k "_unit" = true
    · rw [if_pos hu]
      obtain ⟨d', h1, h2, h3⟩ := ih d₀ (fun kv hkv => hr kv (List.mem_cons_of_mem _ hkv)) hn
      refine ⟨d', h1, h2, fun key => ?_⟩
      rcases h3 key with ⟨h4, h5⟩ | ⟨w, x, h4, h5, h6, h7⟩
      · refine Or.inl ⟨h4, fun kv hkv he => ?_⟩
        rcases List.mem_cons.1 hkv with rfl | hkv
        · rw [← he]; exact hu
        · exact h5 kv hkv he
      · exact Or.inr ⟨w, x, List.mem_cons_of_mem _ h4, h5, h6, h7⟩
    · rw [if_neg hu]
      obtain ⟨x, hx⟩ := hr (k, v) List.mem_cons_self (by simpa using hu)
      simp only at hx
      rw [hx, ok_bind]
      obtain ⟨d', h1, h2, h3⟩ := ih (d₀.set k x) (fun kv hkv => hr kv (List.mem_cons_of_mem _ hkv)) (Dict.set_nodup hn k x)
      refine ⟨d', h1, h2, fun key => ?_⟩
      rcases h3 key with ⟨h4, h5⟩ | ⟨w, y, h4, h5, h6, h7⟩
      · rw [Dict.get?_set] at h4
        by_cases he : key = k
        · subst he
          rw [if_pos rfl] at h4
          exact Or.inr ⟨v, x, List.mem_cons_self, by simpa using hu, hx, h4⟩
        · rw [if_neg he] at h4
          refine Or.inl ⟨h4, fun kv hkv he' => ?_⟩
          rcases List.mem_cons.1 hkv with rfl | hkv
          · exact absurd he'.symm he
          · exact h5 kv hkv he'
      · exact Or.inr ⟨w, y, List.mem_cons_of_mem _ h4, h5, h6, h7⟩

theorem mem_of_get? {d : Dict} {key : String} {v : PVal} (h : d.get? key = some v) : (key, v) ∈ d := by
  induction d with
  | nil => cases h
  | cons x rest ih =>
    obtain ⟨k, w⟩ := x
    change List.lookup key ((k, w) :: rest) = some v at h
    rw [List.lookup_cons] at h
    by_cases hk : key = k
    · subst hk
      simp at h
      rw [h]
      exact List.mem_cons_self
    · rw [beq_eq_false_iff_ne.2 hk] at h
      exact List.mem_cons_of_mem _ (ih h)

theorem get?_of_mem' {d : Dict} (hd : d.keys.Nodup) {key : String} {v : PVal} (h : (key, v) ∈ d) : d.get? key = some v :=
  lookup_of_mem hd h

/-- The unit written with a parameter. -/
def unitOf : PVal → Option AVal
  | .time _ => some (.str "s")
  | .length _ => some (.str "m")
  | _ => none

theorem lookup_unit_encode {d : Dict} (hd : d.keys.Nodup) (hu : NoUnit d) {key : String} {v : PVal} (h : (key, v) ∈ d) :
    (d.flatMap encode).lookup (key ++ "_unit") = unitOf v := by
  have hn := encode_nodup hd hu
  have hmem : ∀ y, y ∈ encode (key, v) → y ∈ d.flatMap encode := fun y hy => List.mem_flatMap.2 ⟨_, h, hy⟩
  have hnone : (∀ y ∈ encode (key, v), y.1 ≠ key ++ "_unit") → (d.flatMap encode).lookup (key ++ "_unit") = none := by
    intro hy
    refine lookup_none fun hm => ?_
    obtain ⟨z, hz, hzk⟩ := List.mem_map.1 hm
    obtain ⟨w, hw, hz⟩ := List.mem_flatMap.1 hz
    rcases encode_keys hz with h1 | h1
    · have := hu w hw
      rw [← h1, hzk, endswith_append] at this
      cases this
    · have h2 : w.1 = key := append_unit_inj (h1.symm.trans hzk)
      have h3 : w = (key, v) := by
        have h4 := get?_of_mem' hd (key := w.1) (v := w.2) hw
        rw [h2, get?_of_mem' hd h] at h4
        cases h4
        rw [← h2]
      rw [h3] at hz
      exact hy z hz hzk
  have hne : key ≠ key ++ "_unit" := by
    intro he
    have h1 := hu _ h
    simp only at h1
    rw [he, endswith_append] at h1
    cases h1
  cases v with
  | time t => exact lookup_of_mem hn (hmem _ (by simp [encode]))
  | length t => exact lookup_of_mem hn (hmem _ (by simp [encode]))
  | _ => exact hnone (by simp [encode, hne])

/-- Every parameter that was written is read as it was. -/
theorem read_param_encode {d : Dict} (hd : d.keys.Nodup) (hu : NoUnit d) {key : String} {v : AVal}
    (h : (key, v) ∈ d.flatMap encode) (hk : endswith key "_unit" = false) :
    ∃ x, (key, x) ∈ d ∧ IsFunction x = false ∧ read_param (d.flatMap encode) key v = .ok (asRead x) := by
  obtain ⟨⟨k, x⟩, hx, hy⟩ := List.mem_flatMap.1 h
  have hkk : k = key := by
    rcases encode_keys hy with h1 | h1
    · exact h1.symm
    · simp only at h1
      rw [h1, endswith_append] at hk
      cases hk
  subst hkk
  have hne : k ≠ k ++ "_unit" := by
    intro he
    rw [he, endswith_append] at hk
    cases hk
  have hl := lookup_unit_encode hd hu hx
  refine ⟨x, hx, ?_⟩
  cases x with
  | psdFn => cases hy
  | noiseFn => cases hy
  | none =>
    simp only [encode, List.mem_singleton, Prod.mk.injEq, true_and] at hy
    subst hy
    refine ⟨rfl, ?_⟩
    unfold read_param
    rw [hl]
    rfl
  | str s =>
    simp only [encode, List.mem_singleton, Prod.mk.injEq, true_and] at hy
    subst hy
    refine ⟨rfl, ?_⟩
    unfold read_param
    rw [hl]
    simp only [unitOf, asRead]
    split_ifs <;> rfl
  | bool b =>
    simp only [encode, List.mem_singleton, Prod.mk.injEq, true_and] at hy
    subst hy
    refine ⟨rfl, ?_⟩
    unfold read_param
    rw [hl]
    rfl
  | num b =>
    simp only [encode, List.mem_singleton, Prod.mk.injEq, true_and] at hy
    subst hy
    refine ⟨rfl, ?_⟩
    unfold read_param
    rw [hl]
    rfl
  | time t =>
    simp only [encode, List.mem_cons, Prod.mk.injEq, true_and, hne, false_and, List.not_mem_nil, or_false] at hy
    subst hy
    refine ⟨rfl, ?_⟩
    unfold read_param
    rw [hl]
    simp [unitOf, with_unit, pure, Except.pure, asRead]
  | length t =>
    simp only [encode, List.mem_cons, Prod.mk.injEq, true_and, hne, false_and, List.not_mem_nil, or_false] at hy
    subst hy
    refine ⟨rfl, ?_⟩
    unfold read_param
    rw [hl]
    simp [unitOf, with_unit, pure, Except.pure, asRead]

theorem encode_head {key : String} {v : PVal} (hf : IsFunction v = false) : ∃ w, (key, w) ∈ encode (key, v) := by
  cases v <;> first | exact ⟨_, List.mem_cons_self⟩ | cases hf

/-- The parameters read back, in whatever order. -/
theorem read_params_encode {d : Dict} (hd : d.keys.Nodup) (hu : NoUnit d) {o : List (String × AVal)}
    (ho : o.Perm (d.flatMap encode)) :
    ∃ d', read_params (d.flatMap encode) o [] = .ok d' ∧ d'.keys.Nodup ∧
      ∀ key, d'.get? key = ((d.get? key).filter fun v => !IsFunction v).map asRead := by
  obtain ⟨d', h1, h2, h3⟩ := read_params_spec (d.flatMap encode) o [] (fun kv hkv hk => by
    obtain ⟨x, -, -, hx⟩ := read_param_encode hd hu (ho.mem_iff.1 hkv) hk
    exact ⟨_, hx⟩) List.nodup_nil
  refine ⟨d', h1, h2, fun key => ?_⟩
  rcases h3 key with ⟨h4, h5⟩ | ⟨v, x, h4, h5, h6, h7⟩
  · rw [h4]
    rcases hg : d.get? key with _ | v
    · rfl
    · have hm := mem_of_get? hg
      by_cases hf : IsFunction v = true
      · simp [Option.filter, hf, Dict.get?]
      · obtain ⟨w, hw⟩ := encode_head (key := key) (by simpa using hf)
        have := h5 (key, w) (ho.mem_iff.2 (List.mem_flatMap.2 ⟨_, hm, hw⟩)) rfl
        have h6 := hu _ hm
        simp only at h6
        rw [this] at h6
        cases h6
  · obtain ⟨y, hy, hyf, hyr⟩ := read_param_encode hd hu (ho.mem_iff.1 h4) h5
    rw [h6] at hyr
    cases hyr
    rw [h7, get?_of_mem' hd hy]
    simp [Option.filter, hyf]

theorem scKeys_no_unit : ∀ key ∈ scKeys, endswith key "_unit" = false := by decide

theorem noUnit_of_keysOk {d : Dict} (h : KeysOk d) : NoUnit d := by
  intro x hx
  refine scKeys_no_unit _ ((h.1 x.1).1 ?_)
  rw [get?_of_mem' h.2 (key := x.1) (v := x.2) hx]
  rfl

theorem comesBack_get? (d : Dict) (key : String) : (comesBack d).get? key =
    if key ∈ scKeys then some (if IsFunction (d.get key) then DEFAULT_SC_PARAMS.get key else asRead (d.get key)) else none := by
  have : ∀ l : List String, List.lookup key (l.map fun key =>
      (key, if IsFunction (d.get key) then DEFAULT_SC_PARAMS.get key else asRead (d.get key))) =
      if key ∈ l then some (if IsFunction (d.get key) then DEFAULT_SC_PARAMS.get key else asRead (d.get key)) else none := by
    intro l
    induction l with
    | nil => rfl
    | cons k l ih =>
      rw [List.map_cons, List.lookup_cons]
      by_cases hk : key = k
      · subst hk; simp
      · rw [beq_eq_false_iff_ne.2 hk]
        simp only
        rw [ih]
        simp [hk]
  exact this scKeys

/-- The dictionary of the new parameters. -/
theorem filled_read {d d' : Dict} (hd : KeysOk d) (hn : d'.keys.Nodup)
    (h : ∀ key, d'.get? key = ((d.get? key).filter fun v => !IsFunction v).map asRead) :
    ∃ d'', filled_params (some d') = .ok d'' ∧ d''.eq (comesBack d) := by
  refine ⟨DEFAULT_SC_PARAMS.update d', ?_, ?_⟩
  · unfold filled_params
    have : check_keys d'.keys = .ok () := by
      refine (check_keys_ok_iff _).2 fun key hk => (hd.1 key).1 ?_
      rw [Dict.mem_keys, h] at hk
      rcases hg : d.get? key with _ | v
      · rw [hg] at hk; cases hk
      · rfl
    simp only [this, bind, Except.bind, pure, Except.pure]
  · intro key
    rw [Dict.get?_update_of_nodup _ hn, h, comesBack_get?]
    by_cases hk : key ∈ scKeys
    · obtain ⟨v, hv⟩ := Option.isSome_iff_exists.1 ((hd.1 key).2 hk)
      obtain ⟨w, hw⟩ := Option.isSome_iff_exists.1 ((KeysOk.default.1 key).2 hk)
      have hdv : d.get key = v := by simp [Dict.get, hv]
      have hdw : DEFAULT_SC_PARAMS.get key = w := by simp [Dict.get, hw]
      rw [if_pos hk, hv, hdv, hdw, hw]
      cases hf : IsFunction v <;> simp [Option.filter, hf]
    · have h1 : d.get? key = none := by
        by_contra hne
        exact hk ((hd.1 key).1 (Option.isSome_iff_ne_none.2 hne))
      have h2 : DEFAULT_SC_PARAMS.get? key = none := by
        by_contra hne
        exact hk ((KeysOk.default.1 key).1 (Option.isSome_iff_ne_none.2 hne))
      rw [if_neg hk, h1]
      exact h2

/-! ### Arguments of the constructor -/

variable {W : World} {Φ Φ' : Files} {h k : Heap} {src : Src} {tol : ℝ} {d d' : Dict}

/-- The arguments for the constructor. -/
def reloaded (src : Src) (tol : ℝ) (d : Dict) (ig isc : Bool) (np : ℕ) : InitArgs :=
  { m_1 := .array src.cols.m_1 true, m_2 := .array src.cols.m_2 true, ecc := .array src.cols.ecc false,
    dist := .array src.cols.dist true, n_proc := np, f_orb := some (.array src.cols.f_orb true),
    position := src.cols.position.map .array, polarisation := src.cols.polarisation.map fun x => .array x true,
    inclination := src.cols.inclination.map fun x => .array x true,
    weights := src.cols.weights.map fun x => .array x false, gw_lum_tol := tol, stat_tol := src.stat_tol,
    interpolate_g := ig, interpolate_sc := isc, sc_params := some d }

theorem read_raw_reals {f : H5} {name : String} {o : Option (List ℝ)} {u : Bool}
    (h : f.data.lookup name = o.map fun x => ⟨.reals x, u⟩) : read_raw f name = .ok (o.map fun x => .array x u) := by
  unfold read_raw
  rw [h]
  cases o <;> rfl

theorem read_needed_reals {f : H5} {name : String} {x : List ℝ} {u : Bool}
    (h : f.data.lookup name = some ⟨.reals x, u⟩) : read_needed f name = .ok (.array x u) := by
  unfold read_needed
  rw [read_raw_reals (o := some x) h, ok_bind]
  rfl

theorem read_position_saved (hr : Rect src.cols) :
    read_position (saved Φ h src tol d) (.array src.cols.dist true) = .ok (src.cols.position.map .array) := by
  have h1 : (saved Φ h src tol d).data.lookup "position_lon" =
      (src.cols.position.map fun x => x.map Prod.fst).map fun x => ⟨.reals x, true⟩ := by
    rw [saved_data, Option.map_map]; rfl
  have h2 : (saved Φ h src tol d).data.lookup "position_lat" =
      (src.cols.position.map fun x => x.map Prod.snd).map fun x => ⟨.reals x, true⟩ := by
    rw [saved_data, Option.map_map]; rfl
  unfold read_position
  rw [read_raw_reals h1, ok_bind]
  rcases hp : src.cols.position with _ | pos
  · rfl
  · rw [hp] at h2
    simp only [Option.map_some]
    rw [read_needed_reals h2, ok_bind]
    simp only [Raw.toList, List.length_map, if_true]
    have hz : (pos.map Prod.fst).zip (pos.map Prod.snd) = pos := by
      rw [List.zip_map']
      exact List.map_id pos
    rw [hz]
    unfold place
    rw [if_pos (by rw [hr.position pos hp, hr.dist])]
    rfl

theorem load_args_saved (hr : Rect src.cols) (hd : d.keys.Nodup) (hu : NoUnit d) (ig isc : Option Bool) (np : Option ℕ)
    (hl : read_params (d.flatMap encode) (Φ'.order (d.flatMap encode)) [] = .ok d') :
    load_args Φ' (saved Φ h src tol d) ig isc np = .ok (reloaded src tol d' (ig.getD src.g.isSome)
      (isc.getD src.interpolate_sc) (np.getD src.n_proc)) := by
  have e1 : (saved Φ h src tol d).data.lookup "m_1" = some ⟨.reals src.cols.m_1, true⟩ := by rw [saved_data]; rfl
  have e2 : (saved Φ h src tol d).data.lookup "m_2" = some ⟨.reals src.cols.m_2, true⟩ := by rw [saved_data]; rfl
  have e3 : (saved Φ h src tol d).data.lookup "dist" = some ⟨.reals src.cols.dist, true⟩ := by rw [saved_data]; rfl
  have e4 : (saved Φ h src tol d).data.lookup "f_orb" = (some src.cols.f_orb).map fun x => ⟨.reals x, true⟩ := by
    rw [saved_data]; rfl
  have e5 : (saved Φ h src tol d).data.lookup "ecc" = some ⟨.reals src.cols.ecc, false⟩ := by rw [saved_data]; rfl
  have e6 : (saved Φ h src tol d).data.lookup "weights" = src.cols.weights.map fun x => ⟨.reals x, false⟩ := by
    rw [saved_data]; rfl
  have e7 : (saved Φ h src tol d).data.lookup "inclination" = src.cols.inclination.map fun x => ⟨.reals x, true⟩ := by
    rw [saved_data]; rfl
  have e8 : (saved Φ h src tol d).data.lookup "polarisation" = src.cols.polarisation.map fun x => ⟨.reals x, true⟩ := by
    rw [saved_data]; rfl
  have a1 : attr_bool (saved Φ h src tol d) "interpolate_g" = .ok src.g.isSome := by
    unfold attr_bool; rw [saved_attrs]; rfl
  have a2 : attr_bool (saved Φ h src tol d) "interpolate_sc" = .ok src.interpolate_sc := by
    unfold attr_bool; rw [saved_attrs]; rfl
  have a3 : attr_nat (saved Φ h src tol d) "n_proc" = .ok src.n_proc := by
    unfold attr_nat; rw [saved_attrs]; rfl
  have a4 : attr_real (saved Φ h src tol d) "gw_lum_tol" = .ok tol := by
    unfold attr_real; rw [saved_attrs]; rfl
  have a5 : attr_real (saved Φ h src tol d) "stat_tol" = .ok src.stat_tol := by
    unfold attr_real; rw [saved_attrs]; rfl
  have g1 : ∀ {α : Type} (o : Option α) (x : α), given_or o (.ok x) = .ok (o.getD x) := by
    intro α o x; cases o <;> rfl
  unfold load_args
  rw [read_needed_reals e1, ok_bind, read_needed_reals e2, ok_bind, read_needed_reals e3, ok_bind, read_raw_reals e4,
    ok_bind, read_needed_reals e5, ok_bind, read_raw_reals e6, ok_bind, read_raw_reals e7, ok_bind, read_raw_reals e8,
    ok_bind, read_position_saved hr, ok_bind, saved_sc hd hu]
  simp only
  rw [hl, ok_bind, a1, g1, ok_bind, a2, g1, ok_bind, a3, g1, ok_bind, a4, ok_bind, a5, ok_bind]
  rfl

theorem reloaded_cols {c : Cols} (hr : Rect c) (hk : Coherent c) (hc : src.cols = c) (ig isc : Bool) (np : ℕ) :
    init_cols W (reloaded src tol d ig isc np) = .ok { c with
      merged := List.replicate c.n_sources false, t_merge := none } := by
  rw [init_cols_iff]
  refine ⟨by simp [reloaded, hc, Raw.toList], by simp [reloaded, hc, Raw.toList],
    by simp [reloaded, hc, Raw.toList], by simp [reloaded, hc, Raw.toList],
    ⟨.array c.f_orb true, by simp [reloaded, hc, init_f_orb]; rfl, rfl, rfl⟩, ⟨rfl, rfl, rfl⟩,
    ⟨hr.m_2, hr.dist, hr.f_orb, hr.ecc⟩, ?_, ?_, rfl, rfl⟩
  · simp only [reloaded, hc, Option.map_map]
    cases c.weights <;> rfl
  unfold init_orientation
  rcases hp : c.position with _ | pos
  · obtain ⟨h1, h2⟩ := hk.angles hp
    simp only [reloaded, hc, hp, h1, h2]
    rfl
  · have hsome : c.position.isSome := by rw [hp]; rfl
    obtain ⟨h1, h2⟩ := hr.angles hsome
    obtain ⟨x, hx⟩ := Option.isSome_iff_exists.1 h1
    obtain ⟨y, hy⟩ := Option.isSome_iff_exists.1 h2
    have hz := ecc_zero_of_rows (hk.circular hsome)
    simp only [reloaded, hc, hp, hx, hy, Option.map_some, fill_angle]
    rw [pure_bind, pure_bind, if_neg]
    · unfold place
      rw [if_pos (by simp only [RawPos.toList, Raw.toList]; rw [hr.position pos hp, hr.dist])]
      rfl
    · rintro ⟨e, he, hne⟩
      exact hne (hz e he)

/-! ### Results -/

/-- What `restore` does. -/
theorem restore_run {f : H5} {s : ℕ} {T : Option (List ℝ)} {S : Option (List (Option ℝ))} {H : Option (List ℕ)}
    {m : List Bool} {u : Bool} (hT : f.data.lookup "t_merge" = T.map fun x => ⟨.reals x, u⟩)
    (hS : f.data.lookup "snr" = S.map fun x => ⟨.nans x, false⟩)
    (hH : f.data.lookup "max_snr_harmonic" = H.map fun x => ⟨.nats x, false⟩)
    (hm : f.data.lookup "merged" = some ⟨.bools m, false⟩) {g : Heap} (g1 : (g.src s).cols.t_merge = none)
    (g2 : (g.src s).snr = none) (g3 : (g.src s).max_snr_harmonic = none) :
    ∃ g' r q, restore f s g = (.ok (), g') ∧ g'.src = Function.update g.src s { g.src s with
        cols := { (g.src s).cols with t_merge := T, merged := m }, snr := r, max_snr_harmonic := q } ∧
      r.map g'.snrs = S ∧ q.map g'.harms = H ∧ g'.par = g.par ∧ g.next ≤ g'.next ∧
      (∀ x < g.next, g'.snrs x = g.snrs x) ∧ (∀ x < g.next, g'.harms x = g.harms x) ∧ g'.trace = g.trace := by
  have step1 : ∃ g₁, restore_t_merge f s g = (.ok (), g₁) ∧ g₁ = g.setSrc s { g.src s with cols := { (g.src s).cols with t_merge := T } } := by
    unfold restore_t_merge
    rw [hT]
    rcases T with _ | T
    · refine ⟨_, rfl, ?_⟩
      rw [← g1]
      simp [Heap.setSrc]
    · exact ⟨_, rfl, rfl⟩
  obtain ⟨g₁, r1, e1⟩ := step1
  have step2 : ∃ g₂ r, restore_snr f s g₁ = (.ok (), g₂) ∧ g₂.src = Function.update g₁.src s { g₁.src s with snr := r } ∧
      r.map g₂.snrs = S ∧ g₂.harms = g₁.harms ∧ g₂.par = g₁.par ∧ g₁.next ≤ g₂.next ∧ g₂.trace = g₁.trace ∧
      ∀ x < g₁.next, g₂.snrs x = g₁.snrs x := by
    unfold restore_snr
    rw [hS]
    rcases S with _ | S
    · refine ⟨g₁, none, rfl, ?_, rfl, rfl, rfl, le_rfl, rfl, fun _ _ => rfl⟩
      have : (g₁.src s).snr = none := by rw [e1]; simpa using g2
      rw [← this]
      simp
    · refine ⟨(store_snr s S g₁).2, some g₁.next, ?_, ?_, ?_, ?_, ?_, ?_, ?_, ?_⟩
      · change (store_snr s S >>= fun _ => pure ()) g₁ = _
        rw [bind_run, store_snr_run]
        rfl
      all_goals rw [store_snr_run]
      · rfl
      · simp
      · rfl
      · rfl
      · exact Nat.le_succ _
      · rfl
      · intro x hx
        simp [Nat.ne_of_lt hx]
  obtain ⟨g₂, r, r2, e2, e3, e4, e5, e6, e61, e7⟩ := step2
  have step3 : ∃ g₃ q, restore_harm f s g₂ = (.ok (), g₃) ∧ g₃.src = Function.update g₂.src s { g₂.src s with max_snr_harmonic := q } ∧
      q.map g₃.harms = H ∧ g₃.snrs = g₂.snrs ∧ g₃.par = g₂.par ∧ g₂.next ≤ g₃.next ∧ g₃.trace = g₂.trace ∧
      ∀ x < g₂.next, g₃.harms x = g₂.harms x := by
    unfold restore_harm
    rw [hH]
    rcases H with _ | H
    · refine ⟨g₂, none, rfl, ?_, rfl, rfl, rfl, le_rfl, rfl, fun _ _ => rfl⟩
      have : (g₂.src s).max_snr_harmonic = none := by rw [e2, e1]; simpa using g3
      rw [← this]
      simp
    · refine ⟨(store_harm s H g₂).2, some g₂.next, ?_, ?_, ?_, ?_, ?_, ?_, ?_, ?_⟩
      · change (store_harm s H >>= fun _ => pure ()) g₂ = _
        rw [bind_run, store_harm_run]
        rfl
      all_goals rw [store_harm_run]
      · rfl
      · simp
      · rfl
      · rfl
      · exact Nat.le_succ _
      · rfl
      · intro x hx
        simp [Nat.ne_of_lt hx]
  obtain ⟨g₃, q, r3, e8, e9, e10, e11, e12, e121, e13⟩ := step3
  refine ⟨g₃.setSrc s { g₃.src s with cols := { (g₃.src s).cols with merged := m } }, r, q, ?_, ?_, ?_, ?_, ?_, ?_, ?_, ?_, ?_⟩
  · unfold restore
    rw [bind_ok r1, bind_ok r2, bind_ok r3, restore_merged, hm]
    rfl
  · simp [e8, e2, e1]
  · simpa [e10] using e3
  · exact e9
  · rw [setSrc_par, e11, e5, e1]; rfl
  · rw [setSrc_next]
    rw [e1] at e6
    exact le_trans e6 e12
  · intro x hx
    rw [setSrc_snrs, e10, e7 x (by rw [e1]; exact hx), e1]
    rfl
  · intro x hx
    have : x < g₂.next := by
      rw [e1] at e6
      exact lt_of_lt_of_le hx e6
    rw [setSrc_harms, e13 x this, e4, e1]
    rfl
  · rw [setSrc_trace, e121, e61, e1]; rfl

/-! ### Loading -/

theorem klass_saved (cls : Cls) : klass cls (saved Φ h src tol d) = classFor cls src.cls := by
  unfold klass
  rw [saved_attrs]
  cases cls <;> cases src.cls <;> rfl

theorem other_version_saved : other_version Φ' (saved Φ h src tol d) = decide (Φ.version ≠ Φ'.version) := by
  unfold other_version
  rw [saved_attrs]
  rfl

theorem no_psd_iff (d : Dict) : no_psd d = true ↔ d.get "instrument" = .str "custom" ∧ d.get "custom_psd" = .none := by
  unfold no_psd
  split
  · rename_i s h1 h2
    simp [h1, h2]
  · rename_i hx
    constructor
    · intro h; cases h
    · rintro ⟨h1, h2⟩
      exact absurd h2 (hx "custom" h1)

theorem asRead_custom (v : PVal) : asRead v = .str "custom" ↔ v = .str "custom" := by
  rcases v with _ | s | _ | _ | _ | _ | _
  case str =>
    simp only [asRead]
    split_ifs with h
    · rw [h]
      simp
    · exact Iff.rfl
  all_goals exact Iff.rfl

theorem no_psd_read (hd : KeysOk d) (h : ∀ key, d'.get? key = ((d.get? key).filter fun v => !IsFunction v).map asRead) :
    no_psd d' = true ↔ d.get? "instrument" = some (.str "custom") ∧
      ∃ v, d.get? "custom_psd" = some v ∧ (asRead v = .none ∨ IsFunction v = true) := by
  obtain ⟨i, hi⟩ := Option.isSome_iff_exists.1 ((hd.1 "instrument").2 (by simp [scKeys]))
  obtain ⟨c, hc⟩ := Option.isSome_iff_exists.1 ((hd.1 "custom_psd").2 (by simp [scKeys]))
  rw [no_psd_iff]
  unfold Dict.get
  rw [h, h, hi, hc]
  simp only [Option.some.injEq, exists_eq_left']
  refine and_congr ?_ ?_
  · cases hf : IsFunction i
    · simp [Option.filter, hf, asRead_custom]
    · cases i <;> simp_all [Option.filter, IsFunction]
  · cases hf : IsFunction c
    · simp [Option.filter, hf]
    · simp [Option.filter, hf]

theorem isfile_h5 {st : Store} {path : String} {f : H5} (h : st (Φ.locate path) = some (.h5 f)) : isfile Φ st path = true := by
  unfold isfile
  rw [h]

/-- The outcome of loading a saved file. -/
theorem from_file_saved {s : ℕ} {etol : ℝ} {cls : Cls} {st : Store} {name : String} (hsrc : h.src s = src)
    (hf : st (Φ'.locate (normalise name)) = some (.h5 (saved Φ h src tol d))) (hr : Rect src.cols)
    (hk : Coherent src.cols) (hd : KeysOk d) (he : find_eccentric_transition tol = .ok etol)
    (hcls : cls ≠ .VerificationBinaries) (ig isc : Option Bool) (np : Option ℕ) (k : Heap) :
    (((isc.getD src.interpolate_sc) = true → ∃ c, CurveOf W (comesBack d) c) →
      ∃ x k', from_file W Φ' st cls name ig isc np k = (.ok x, k') ∧ x.source = k.next ∧
        x.other_version = decide (Φ.version ≠ Φ'.version) ∧
        (x.no_psd = true ↔ d.get? "instrument" = some (.str "custom") ∧
          ∃ v, d.get? "custom_psd" = some v ∧ (asRead v = .none ∨ IsFunction v = true)) ∧
        LoadedAs W h s (classFor cls src.cls) (ig.getD src.g.isSome) (isc.getD src.interpolate_sc) (np.getD src.n_proc)
          tol (comesBack d) k' x.source ∧ Undisturbed k k' ∧ k.next < k'.next) ∧
    ((isc.getD src.interpolate_sc) = true → (¬ ∃ c, CurveOf W (comesBack d) c) →
      ∃ e k', from_file W Φ' st cls name ig isc np k = (.error e, k')) := by
  have hu := noUnit_of_keysOk hd
  obtain ⟨d', hl, hn, hg⟩ := read_params_encode hd.2 hu (Φ'.order_perm (d.flatMap encode))
  obtain ⟨d'', hfill, heq⟩ := filled_read hd hn hg
  have hargs := load_args_saved (Φ := Φ) (Φ' := Φ') (h := h) (tol := tol) hr hd.2 hu ig isc np hl
  obtain ⟨a, ha⟩ : ∃ a, a = reloaded src tol d' (ig.getD src.g.isSome) (isc.getD src.interpolate_sc)
      (np.getD src.n_proc) := ⟨_, rfl⟩
  rw [← ha] at hargs
  have a1 : a.gw_lum_tol = tol := by rw [ha]; rfl
  have a2 : a.sc_params = some d' := by rw [ha]; rfl
  have a3 : a.interpolate_sc = isc.getD src.interpolate_sc := by rw [ha]; rfl
  have a4 : a.interpolate_g = ig.getD src.g.isSome := by rw [ha]; rfl
  have a5 : a.n_proc = np.getD src.n_proc := by rw [ha]; rfl
  have a6 : a.stat_tol = src.stat_tol := by rw [ha]; rfl
  have hcols : init_cols W a = .ok { src.cols with
      merged := List.replicate src.cols.n_sources false, t_merge := none } := by
    rw [ha]; exact reloaded_cols hr hk rfl _ _ _
  have hkl : classFor cls src.cls ≠ .VerificationBinaries := by
    cases cls <;> cases src.cls <;> first | exact absurd rfl hcls | (intro hh; cases hh)
  have hrun : from_file W Φ' st cls name ig isc np k = (do
      let s ← init W (classFor cls src.cls) a
      restore (saved Φ h src tol d) s
      pure ⟨s, other_version Φ' (saved Φ h src tol d), no_psd d'⟩ : M Loaded) k := by
    unfold from_file
    rw [if_pos (isfile_h5 hf), hf]
    simp only
    rw [hargs, bind_run, lift_run]
    simp only
    rw [klass_saved, if_neg hkl, a2]
    rfl
  rw [hrun]
  rcases init_run W (classFor cls src.cls) a k with ⟨cols, etol', d₁, sc, h1, h2, h3, h4, h5⟩ | ⟨⟨e, k', h5⟩, hbad⟩
  · rw [hcols] at h1
    cases h1
    rw [a1, he] at h2
    cases h2
    rw [a2, hfill] at h3
    cases h3
    rw [a3] at h4
    constructor
    · intro _
      rw [bind_ok h5]
      obtain ⟨k₁, hk₁⟩ : ∃ k₁, k₁ = heapAfterInit W (classFor cls src.cls) a
        { src.cols with merged := List.replicate src.cols.n_sources false, t_merge := none } etol d'' sc k := ⟨_, rfl⟩
      have n1 : k₁.src k.next = newObject W (classFor cls src.cls) a
          { src.cols with merged := List.replicate src.cols.n_sources false, t_merge := none } etol sc (k.next + 1) := by
        rw [hk₁]; simp [heapAfterInit]
      have n2 : k₁.src = Function.update k.src k.next (k₁.src k.next) := by rw [hk₁]; simp [heapAfterInit]
      have n3 : k₁.par = Function.update k.par (k.next + 1) ⟨d'', some k.next⟩ := by rw [hk₁]; rfl
      have n4 : k₁.next = k.next + 2 := by rw [hk₁]; rfl
      have n5 : k₁.snrs = k.snrs ∧ k₁.harms = k.harms := by rw [hk₁]; exact ⟨rfl, rfl⟩
      rw [← hk₁]
      clear hk₁
      obtain ⟨g, r, q, r1, r2, r3, r4, r5, r6, r7, r8, -⟩ := restore_run (f := saved Φ h src tol d) (s := k.next)
        (T := src.cols.t_merge) (S := src.snr.map h.snrs) (H := src.max_snr_harmonic.map h.harms) (m := src.cols.merged)
        (u := true) (by rw [saved_data]; rfl) (by rw [saved_data, Option.map_map]; rfl)
        (by rw [saved_data, Option.map_map]; rfl) (by rw [saved_data]; rfl) (g := k₁) (by rw [n1]; rfl) (by rw [n1]; rfl)
        (by rw [n1]; rfl)
      rw [bind_ok r1]
      have hs' : g.src k.next = { newObject W (classFor cls src.cls) a
          { src.cols with merged := List.replicate src.cols.n_sources false, t_merge := none } etol sc (k.next + 1) with
          cols := src.cols, snr := r, max_snr_harmonic := q } := by
        rw [r2, Function.update_self, n1]
        rfl
      refine ⟨_, g, rfl, rfl, other_version_saved, no_psd_read hd hg, ?_, ?_, ?_⟩
      · simp only
        refine ⟨by rw [hs']; rfl, by rw [hs', hsrc], by rw [hs', hsrc, ← a6]; rfl, by rw [hs', ← a5]; rfl,
          by rw [hs', ← a1]; rfl, by rw [hs', ← a1]; rfl, by rw [hs', ← a1]; rfl, ⟨etol, he, by rw [hs']; rfl⟩,
          by rw [hs', ← a3]; rfl, ?_, ?_, by rw [hs', ← a4]; rfl, by rw [hs', hsrc]; exact r3, by rw [hs', hsrc]; exact r4, ?_⟩
        · intro hi
          rcases h4 with ⟨-, c, hc, hsc⟩ | ⟨h4, -⟩
          · rw [curve_congr W heq] at hc
            exact ⟨c, curve_ok_iff.1 hc, by rw [hs']; exact hsc⟩
          · rw [h4] at hi; cases hi
        · intro hi
          rcases h4 with ⟨h4, -⟩ | ⟨-, hsc⟩
          · rw [h4] at hi; cases hi
          · rw [hs']; exact hsc
        · refine ⟨k.next + 1, by rw [hs']; rfl, ?_, ?_⟩
          · rw [r5, n3, Function.update_self]; exact heq
          · rw [r5, n3, Function.update_self]
      · refine ⟨fun x hx => ?_, fun x hx => ?_, fun x hx => ?_, fun x hx => ?_⟩
        · rw [r2, Function.update_of_ne (Nat.ne_of_lt hx), n2, Function.update_of_ne (Nat.ne_of_lt hx)]
        · rw [r5, n3, Function.update_of_ne (by omega)]
        · rw [r7 x (by omega), n5.1]
        · rw [r8 x (by omega), n5.2]
      · omega
    · intro hi hno
      rcases h4 with ⟨-, c, hc, -⟩ | ⟨h4, -⟩
      · rw [curve_congr W heq] at hc
        exact absurd ⟨c, curve_ok_iff.1 hc⟩ hno
      · rw [h4] at hi; cases hi
  · constructor
    · intro hcur
      exfalso
      rcases hbad with ⟨e, hb⟩ | ⟨e, hb⟩ | ⟨e, hb⟩ | ⟨hb, d₁, e, hd₁, he₁⟩
      · rw [hcols] at hb; cases hb
      · rw [a1, he] at hb; cases hb
      · rw [a2, hfill] at hb; cases hb
      · rw [a2, hfill] at hd₁
        cases hd₁
        rw [a3] at hb
        obtain ⟨c, hc⟩ := hcur hb
        rw [curve_congr W heq, curve_ok_iff.2 hc] at he₁
        cases he₁
    · intro _ _
      refine ⟨e, k', ?_⟩
      rw [bind_run, h5]

end Legwork.source
