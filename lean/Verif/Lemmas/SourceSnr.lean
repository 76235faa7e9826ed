import Verif.Lemmas.SourceReach

/-!
# The SNR methods, step by step
-/

namespace Legwork.source

open Legwork.Spec
open PyM hiding bind

/-! ### Recording results -/

/-- Only the arrays of results differ. -/
structure SnrOnly (h h' : Heap) : Prop where
  src : ∀ s, ∃ r r', h'.src s = { h.src s with snr := r, max_snr_harmonic := r' }
  par : h'.par = h.par
  trace : h'.trace = h.trace
  next : h.next ≤ h'.next

theorem SnrOnly.refl (h : Heap) : SnrOnly h h := ⟨fun _ => ⟨_, _, rfl⟩, rfl, rfl, le_rfl⟩

theorem SnrOnly.trans {h h' h'' : Heap} (a : SnrOnly h h') (b : SnrOnly h' h'') : SnrOnly h h'' := by
  refine ⟨fun s => ?_, b.par.trans a.par, b.trace.trans a.trace, a.next.trans b.next⟩
  obtain ⟨r, r', h1⟩ := a.src s
  obtain ⟨q, q', h2⟩ := b.src s
  exact ⟨q, q', by rw [h2, h1]⟩

theorem SnrOnly.setSrc {h h' : Heap} {s : ℕ} {r r' : Option ℕ} (hp : h'.par = h.par) (ht : h'.trace = h.trace)
    (hn : h.next ≤ h'.next)
    (hs : h'.src = Function.update h.src s { h.src s with snr := r, max_snr_harmonic := r' }) : SnrOnly h h' := by
  refine ⟨fun s' => ?_, hp, ht, hn⟩
  rw [hs]
  by_cases he : s' = s
  · subst he; rw [Function.update_self]; exact ⟨_, _, rfl⟩
  · rw [Function.update_of_ne he]; exact ⟨_, _, rfl⟩

section

variable (h₀ : Heap)

theorem store_snr_snrOnly (s : ℕ) (xs) : Preserves (SnrOnly h₀) (store_snr s xs) := fun h hh =>
  hh.trans (SnrOnly.setSrc (s := s) rfl rfl (Nat.le_succ _) rfl)

theorem store_harm_snrOnly (s : ℕ) (xs) : Preserves (SnrOnly h₀) (store_harm s xs) := fun h hh =>
  hh.trans (SnrOnly.setSrc (s := s) rfl rfl (Nat.le_succ _) rfl)

theorem ensure_harm_snrOnly (s : ℕ) : Preserves (SnrOnly h₀) (ensure_harm s) := by
  refine (preserves_getSrc _ s).bind fun src => ?_
  rcases src.max_snr_harmonic with _ | r
  · exact store_harm_snrOnly h₀ s _
  · exact Preserves.pure _ _

theorem ensure_snr_snrOnly (s : ℕ) : Preserves (SnrOnly h₀) (ensure_snr s) := by
  refine (preserves_getSrc _ s).bind fun src => ?_
  rcases src.snr with _ | r
  · exact store_snr_snrOnly h₀ s _
  · exact Preserves.pure _ _

theorem record_snr_snrOnly (s : ℕ) (insp : List Bool) (res : SnrState) :
    Preserves (SnrOnly h₀) (record_snr s insp res) :=
  (ensure_harm_snrOnly h₀ s).bind fun r => (Preserves.get _).bind fun _ => (Preserves.lift _ _).bind fun _ =>
    Preserves.bind (fun h hh => hh.trans ⟨fun _ => ⟨_, _, rfl⟩, rfl, rfl, le_rfl⟩) fun _ =>
      (ensure_snr_snrOnly h₀ s).bind fun r => (Preserves.get _).bind fun _ => (Preserves.lift _ _).bind fun _ =>
        fun h hh => hh.trans ⟨fun _ => ⟨_, _, rfl⟩, rfl, rfl, le_rfl⟩

theorem getSettings_snrOnly (s : ℕ) : Preserves (SnrOnly h₀) (getSettings s) :=
  (preserves_getSrc _ s).bind fun _ => (preserves_attr _ _).bind fun _ => (preserves_attr _ _).bind fun _ =>
    Preserves.pure _ _

end

/-- After matching parameters, `get_snr_stationary` only touches results. -/
theorem get_snr_stationary_snrOnly (W : World) (s : ℕ) (a : SnrArgs) (w : Option (List Bool)) (h : Heap) :
    SnrOnly (match_params W s a true h).2 (get_snr_stationary W s a w h).2 := by
  unfold get_snr_stationary
  rw [bind_run]
  rcases match_params W s a true h with ⟨e | a', h₁⟩
  · exact SnrOnly.refl _
  · refine (?_ : Preserves (SnrOnly h₁) _) h₁ (SnrOnly.refl h₁)
    exact (preserves_getSrc _ s).bind fun _ => (getSettings_snrOnly h₁ s).bind fun _ =>
      (Preserves.lift _ _).bind fun _ => (Preserves.lift _ _).bind fun _ => (record_snr_snrOnly h₁ s _ _).bind fun _ =>
        Preserves.lift _ _

/-- After matching parameters, `get_snr_evolving` only touches results. -/
theorem get_snr_evolving_snrOnly (W : World) (s : ℕ) (a : SnrArgs) (n : ℕ) (w : Option (List Bool)) (h : Heap) :
    SnrOnly (match_params W s a true h).2 (get_snr_evolving W s a n w h).2 := by
  unfold get_snr_evolving
  rw [bind_run]
  rcases match_params W s a true h with ⟨e | a', h₁⟩
  · exact SnrOnly.refl _
  · refine (?_ : Preserves (SnrOnly h₁) _) h₁ (SnrOnly.refl h₁)
    exact (preserves_getSrc _ s).bind fun _ => (getSettings_snrOnly h₁ s).bind fun _ =>
      (Preserves.lift _ _).bind fun _ => (Preserves.lift _ _).bind fun _ => (record_snr_snrOnly h₁ s _ _).bind fun _ =>
        Preserves.lift _ _

/-! ### Matching parameters -/

/-- The dictionary holds exactly the given arguments. -/
def Agrees (d : Dict) (f : SnrArgs) : Prop := ∀ kv ∈ f.toDict, d.get? kv.1 = some kv.2

/-- Each argument is left out or as given. -/
structure Within (a f : SnrArgs) : Prop where
  t_obs : a.t_obs = .none ∨ a.t_obs = f.t_obs
  instrument : a.instrument = .none ∨ a.instrument = f.instrument
  custom_psd : a.custom_psd = .none ∨ a.custom_psd = f.custom_psd
  L : a.L = .none ∨ a.L = f.L
  approximate_R : a.approximate_R = .none ∨ a.approximate_R = f.approximate_R
  confusion_noise : a.confusion_noise = .none ∨ a.confusion_noise = f.confusion_noise

theorem agrees_iff {d : Dict} {f : SnrArgs} : Agrees d f ↔ d.get? "t_obs" = some f.t_obs ∧
    d.get? "instrument" = some f.instrument ∧ d.get? "custom_psd" = some f.custom_psd ∧ d.get? "L" = some f.L ∧
    d.get? "approximate_R" = some f.approximate_R ∧ d.get? "confusion_noise" = some f.confusion_noise := by
  unfold Agrees SnrArgs.toDict
  simp

theorem orParam_eq {d : Dict} {key : String} {x y : PVal} (hd : d.get? key = some y) (hx : x = .none ∨ x = y) :
    orParam d key x = .ok y := by
  unfold orParam Dict.item
  split_ifs with h
  · rw [hd]; rfl
  · rcases hx with hx | hx
    · exact absurd hx h
    · rw [hx]; rfl

theorem orParam_ok {d : Dict} {key : String} {x y : PVal} (h : orParam d key x = .ok y) : x = .none ∨ x = y := by
  unfold orParam at h
  split_ifs at h with hx
  · exact Or.inl hx
  · cases h; exact Or.inr rfl

theorem fill_args_within {d : Dict} {a f : SnrArgs} (hd : Agrees d f) (ha : Within a f) : fill_args d a = .ok f := by
  obtain ⟨h1, h2, h3, h4, h5, h6⟩ := agrees_iff.1 hd
  unfold fill_args
  rw [orParam_eq h1 ha.t_obs, orParam_eq h2 ha.instrument, orParam_eq h3 ha.custom_psd, orParam_eq h4 ha.L,
    orParam_eq h5 ha.approximate_R, orParam_eq h6 ha.confusion_noise]
  rfl

/-- Filled arguments extend the given ones. -/
theorem fill_args_ok {d : Dict} {a f : SnrArgs} (h : fill_args d a = .ok f) : Within a f ∧
    orParam d "t_obs" a.t_obs = .ok f.t_obs ∧ orParam d "instrument" a.instrument = .ok f.instrument ∧
    orParam d "custom_psd" a.custom_psd = .ok f.custom_psd ∧ orParam d "L" a.L = .ok f.L ∧
    orParam d "approximate_R" a.approximate_R = .ok f.approximate_R ∧
    orParam d "confusion_noise" a.confusion_noise = .ok f.confusion_noise := by
  unfold fill_args at h
  simp only [bind, Except.bind] at h
  rcases h1 : orParam d "t_obs" a.t_obs with e | x1
  · rw [h1] at h; cases h
  rcases h2 : orParam d "instrument" a.instrument with e | x2
  · rw [h1, h2] at h; cases h
  rcases h3 : orParam d "custom_psd" a.custom_psd with e | x3
  · rw [h1, h2, h3] at h; cases h
  rcases h4 : orParam d "L" a.L with e | x4
  · rw [h1, h2, h3, h4] at h; cases h
  rcases h5 : orParam d "approximate_R" a.approximate_R with e | x5
  · rw [h1, h2, h3, h4, h5] at h; cases h
  rcases h6 : orParam d "confusion_noise" a.confusion_noise with e | x6
  · rw [h1, h2, h3, h4, h5, h6] at h; cases h
  rw [h1, h2, h3, h4, h5, h6] at h
  cases h
  exact ⟨⟨orParam_ok h1, orParam_ok h2, orParam_ok h3, orParam_ok h4, orParam_ok h5, orParam_ok h6⟩,
    rfl, rfl, rfl, rfl, rfl, rfl⟩

theorem toDict_nodup (f : SnrArgs) : f.toDict.keys.Nodup := by
  change ["t_obs", "instrument", "custom_psd", "L", "approximate_R", "confusion_noise"].Nodup
  decide

theorem toDict_keys (f : SnrArgs) : ∀ key ∈ f.toDict.keys, key ∈ scKeys := by
  change ∀ key ∈ ["t_obs", "instrument", "custom_psd", "L", "approximate_R", "confusion_noise"], key ∈ scKeys
  decide

theorem toDict_ofPairs (f : SnrArgs) : f.toDict.ofPairs = f.toDict := rfl

theorem update_agrees (d : Dict) (f : SnrArgs) : Agrees (d.update f.toDict) f := by
  intro kv hkv
  rw [Dict.get?_update_of_nodup _ (toDict_nodup f)]
  have : f.toDict.get? kv.1 = some kv.2 := by
    unfold SnrArgs.toDict at hkv
    simp only [List.mem_cons, List.not_mem_nil, or_false] at hkv
    rcases hkv with rfl | rfl | rfl | rfl | rfl | rfl <;> rfl
  rw [this]

theorem setPar_self (h : Heap) (p : ℕ) : h.setPar p (h.par p) = h := by
  unfold Heap.setPar
  rw [Function.update_eq_self]

/-- An update with the values already there does nothing. -/
theorem params_update_same (W : World) {p : ℕ} {f : SnrArgs} {h : Heap} (ha : Agrees (h.par p).dict f) :
    params_update W p f.toDict h = (.ok (), h) := by
  rcases params_update_run W p f.toDict h with ⟨⟨k, hk, hk'⟩, -⟩ | ⟨-, -, hr⟩ | ⟨-, ⟨kv, hkv, hne⟩, -⟩
  · exact absurd (toDict_keys f k hk) hk'
  · rw [hr, toDict_ofPairs, Dict.update_same ha]
    exact congrArg _ (setPar_self h p)
  · exfalso
    rw [toDict_ofPairs] at hkv
    apply hne
    unfold Dict.get
    rw [ha kv hkv]
    rfl

/-- Interpolation does not change parameters. -/
theorem set_sc_par (W : World) (s : ℕ) (h : Heap) : (set_sc W s h).2.par = h.par := by
  rw [set_sc_run]
  split_ifs
  · rcases (h.src s).sc_params with _ | p
    · rfl
    · simp only
      rcases curve W (h.par p).dict with e | c <;> rfl
  · rfl

/-- Interpolation only touches one curve. -/
theorem set_sc_src (W : World) (s : ℕ) (h : Heap) :
    ∃ sc, (set_sc W s h).2.src = Function.update h.src s { h.src s with sc := sc } := by
  rw [set_sc_run]
  split_ifs
  · rcases (h.src s).sc_params with _ | p
    · exact ⟨(h.src s).sc, by simp only; rw [Function.update_eq_self]⟩
    · simp only
      rcases curve W (h.par p).dict with e | c
      · exact ⟨(h.src s).sc, by simp only [log_src]; rw [Function.update_eq_self]⟩
      · exact ⟨some c, rfl⟩
  · exact ⟨none, rfl⟩

theorem re_interpolate_par (W : World) (p : ℕ) (h : Heap) : (re_interpolate W p h).2.par = h.par := by
  rw [re_interpolate_run]
  rcases (h.par p).source with _ | s
  · rfl
  · exact set_sc_par W s h

theorem re_interpolate_src (W : World) (p : ℕ) (h : Heap) (s : ℕ) :
    ∃ sc, (re_interpolate W p h).2.src s = { h.src s with sc := sc } := by
  rw [re_interpolate_run]
  rcases (h.par p).source with _ | s'
  · exact ⟨_, rfl⟩
  · obtain ⟨sc, hsc⟩ := set_sc_src W s' h
    simp only
    rw [hsc]
    by_cases he : s = s'
    · subst he; rw [Function.update_self]; exact ⟨sc, rfl⟩
    · rw [Function.update_of_ne he]; exact ⟨_, rfl⟩

/-- The parameters after an update by the SNR methods, whether or not it raises an exception. -/
theorem params_update_args (W : World) (p : ℕ) (f : SnrArgs) (h : Heap) :
    (params_update W p f.toDict h).2.par = Function.update h.par p { h.par p with dict := (h.par p).dict.update f.toDict } ∧
    ∀ s, ∃ sc, (params_update W p f.toDict h).2.src s = { h.src s with sc := sc } := by
  rcases params_update_run W p f.toDict h with ⟨⟨k, hk, hk'⟩, -⟩ | ⟨-, -, hr⟩ | ⟨-, -, hr⟩
  · exact absurd (toDict_keys f k hk) hk'
  · rw [hr]
    exact ⟨rfl, fun s => ⟨_, rfl⟩⟩
  · rw [hr]
    refine ⟨by rw [re_interpolate_par]; rfl, fun s => ?_⟩
    obtain ⟨sc, hsc⟩ := re_interpolate_src W p
      (h.setPar p { h.par p with dict := (h.par p).dict.update f.toDict.ofPairs }) s
    exact ⟨sc, hsc⟩

/-- Matching parameters, step by step. -/
theorem match_params_ok {W : World} {s : ℕ} {a a' : SnrArgs} {r : Bool} {h h' : Heap}
    (hr : match_params W s a r h = (.ok a', h')) :
    ∃ p f, (h.src s).sc_params = some p ∧ fill_args (h.par p).dict a = .ok f ∧
      a' = (if r then resolve_auto f else f) ∧ params_update W p a'.toDict h = (.ok (), h') := by
  unfold match_params getSrcPar at hr
  obtain ⟨p, h1, hp, hr⟩ := bind_eq_ok hr
  obtain ⟨src, h2, hs, hp⟩ := bind_eq_ok hp
  cases hs
  rcases hpar : (h.src s).sc_params with _ | p'
  · rw [hpar] at hp; cases hp
  · rw [hpar] at hp
    cases hp
    obtain ⟨params, h3, hs, hr⟩ := bind_eq_ok hr
    cases hs
    obtain ⟨f, h3, hf, hr⟩ := bind_eq_ok hr
    have hf1 := congrArg Prod.fst hf
    have hf2 := congrArg Prod.snd hf
    simp only [lift_run] at hf1 hf2
    subst hf2
    obtain ⟨u, h4, hu, hr⟩ := bind_eq_ok hr
    cases hr
    exact ⟨p, f, rfl, hf1, rfl, hu⟩

/-- Matching parameters that already match does nothing. -/
theorem match_params_same (W : World) {s p : ℕ} {a f : SnrArgs} {r : Bool} {h : Heap}
    (hp : (h.src s).sc_params = some p) (hf : fill_args (h.par p).dict a = .ok f)
    (ha : Agrees (h.par p).dict (if r then resolve_auto f else f)) :
    match_params W s a r h = (.ok (if r then resolve_auto f else f), h) := by
  unfold match_params getSrcPar
  rw [bind_run, bind_run]
  simp only [getSrc, hp, attr, pure_run]
  rw [bind_run]
  simp only [getPar]
  rw [bind_run]
  simp only [lift_run, hf]
  rw [bind_run, params_update_same W ha]
  rfl

/-- After matching parameters, the dictionary holds the arguments used. -/
theorem match_params_agrees {W : World} {s : ℕ} {a a' : SnrArgs} {r : Bool} {h h' : Heap}
    (hr : match_params W s a r h = (.ok a', h')) :
    ∃ p f, (h.src s).sc_params = some p ∧ (h'.src s).sc_params = some p ∧ fill_args (h.par p).dict a = .ok f ∧
      a' = (if r then resolve_auto f else f) ∧ Agrees (h'.par p).dict a' := by
  obtain ⟨p, f, hp, hf, ha, hu⟩ := match_params_ok hr
  obtain ⟨h1, h2⟩ := params_update_args W p a' h
  rw [hu] at h1 h2
  refine ⟨p, f, hp, ?_, hf, ha, ?_⟩
  · obtain ⟨sc, hsc⟩ := h2 s
    simp only at hsc
    rw [hsc]
    exact hp
  · simp only at h1
    rw [h1, Function.update_self]
    exact update_agrees _ _

theorem resolve_auto_of_ne {a : SnrArgs} (h : a.t_obs ≠ .str "auto") : resolve_auto a = a := by
  unfold resolve_auto
  rw [if_neg h]

theorem resolve_auto_ne (a : SnrArgs) : (resolve_auto a).t_obs ≠ .str "auto" := by
  unfold resolve_auto
  split_ifs with h
  · simp
  · exact h

theorem resolve_auto_within {a f : SnrArgs} (h : Within a f) (ha : a.t_obs ≠ .str "auto") : Within a (resolve_auto f) := by
  unfold resolve_auto
  split_ifs with hf
  · refine ⟨?_, h.instrument, h.custom_psd, h.L, h.approximate_R, h.confusion_noise⟩
    rcases h.t_obs with h1 | h1
    · exact Or.inl h1
    · exact absurd (h1.trans hf) ha
  · exact h

/-! ### Repeated calls -/

/-- The parameters of the source already are those of a call with arguments `a`, and need no resolution. -/
def Settled (h : Heap) (s : ℕ) (a : SnrArgs) : Prop :=
  ∃ p f, (h.src s).sc_params = some p ∧ Agrees (h.par p).dict f ∧ Within a f ∧ f.t_obs ≠ .str "auto"

theorem SnrOnly.sc_params {h h' : Heap} (hh : SnrOnly h h') (s : ℕ) : (h'.src s).sc_params = (h.src s).sc_params := by
  obtain ⟨r, r', he⟩ := hh.src s
  rw [he]

theorem Settled.snrOnly {h h' : Heap} {s : ℕ} {a : SnrArgs} (hs : Settled h s a) (hh : SnrOnly h h') : Settled h' s a := by
  obtain ⟨p, f, h1, h2, h3, h4⟩ := hs
  exact ⟨p, f, by rw [hh.sc_params, h1], by rw [hh.par]; exact h2, h3, h4⟩

theorem Settled.match_params {W : World} {h : Heap} {s : ℕ} {a : SnrArgs} (hs : Settled h s a) (r : Bool) :
    ∃ f, match_params W s a r h = (.ok f, h) ∧ Settled h s f := by
  obtain ⟨p, f, h1, h2, h3, h4⟩ := hs
  have he : (if r then resolve_auto f else f) = f := by
    split_ifs
    · exact resolve_auto_of_ne h4
    · rfl
  have := match_params_same W (r := r) h1 (fill_args_within h2 h3) (by rw [he]; exact h2)
  rw [he] at this
  exact ⟨f, this, p, f, h1, h2,
    ⟨Or.inr rfl, Or.inr rfl, Or.inr rfl, Or.inr rfl, Or.inr rfl, Or.inr rfl⟩, h4⟩

/-- A call by a settled source only touches results. -/
theorem Settled.stationary {W : World} {h : Heap} {s : ℕ} {a : SnrArgs} (hs : Settled h s a) (w) :
    SnrOnly h (get_snr_stationary W s a w h).2 := by
  have := get_snr_stationary_snrOnly W s a w h
  obtain ⟨f, hf, -⟩ := hs.match_params (W := W) true
  rwa [hf] at this

theorem Settled.evolving {W : World} {h : Heap} {s : ℕ} {a : SnrArgs} (hs : Settled h s a) (n w) :
    SnrOnly h (get_snr_evolving W s a n w h).2 := by
  have := get_snr_evolving_snrOnly W s a n w h
  obtain ⟨f, hf, -⟩ := hs.match_params (W := W) true
  rwa [hf] at this

/-- Matching with resolution settles the source. -/
theorem settled_of_match {W : World} {s : ℕ} {a a' : SnrArgs} {h h' : Heap} (ha : a.t_obs ≠ .str "auto")
    (hr : match_params W s a true h = (.ok a', h')) : Settled h' s a := by
  obtain ⟨p, f, -, hp, hf, he, hag⟩ := match_params_agrees hr
  simp only [if_true] at he
  exact ⟨p, a', hp, hag, by rw [he]; exact resolve_auto_within (fill_args_ok hf).1 ha, by rw [he]; exact resolve_auto_ne f⟩

/-- A successful SNR call settles the source. -/
theorem settled_of_stationary {W : World} {s : ℕ} {a : SnrArgs} {w} {h h' : Heap} {v} (ha : a.t_obs ≠ .str "auto")
    (hr : get_snr_stationary W s a w h = (.ok v, h')) : Settled h' s a := by
  have hso := get_snr_stationary_snrOnly W s a w h
  rw [hr] at hso
  unfold get_snr_stationary at hr
  obtain ⟨a', h₁, hm, -⟩ := bind_eq_ok hr
  rw [hm] at hso
  exact (settled_of_match ha hm).snrOnly hso

theorem settled_of_evolving {W : World} {s : ℕ} {a : SnrArgs} {n w} {h h' : Heap} {v} (ha : a.t_obs ≠ .str "auto")
    (hr : get_snr_evolving W s a n w h = (.ok v, h')) : Settled h' s a := by
  have hso := get_snr_evolving_snrOnly W s a n w h
  rw [hr] at hso
  unfold get_snr_evolving at hr
  obtain ⟨a', h₁, hm, -⟩ := bind_eq_ok hr
  rw [hm] at hso
  exact (settled_of_match ha hm).snrOnly hso

/-- What `getSettings` reads. -/
theorem getSettings_run (s : ℕ) (h : Heap) :
    getSettings s h = (match (h.src s).ecc_tol, (h.src s).harmonics_required with
      | some e, some q => .ok ⟨e, q, (h.src s).n_proc⟩
      | _, _ => .error .AttributeError, h) := by
  unfold getSettings
  rw [bind_run]
  simp only [getSrc]
  rcases (h.src s).ecc_tol with _ | e
  · rfl
  rcases (h.src s).harmonics_required with _ | q
  · rfl
  rfl

/-- The mask of a source as a calculation. -/
noncomputable def maskOf (W : World) (src : Src) (par : ℕ → Params) (c st : Tri) (t : PVal) : Except PyErr (List Bool) :=
  match src.ecc_tol, src.harmonics_required, src.sc_params with
  | some e, some _, some p => do
    let cm ← circular_mask src.cols e c
    let sm ← stationary_mask W src.cols src.stat_tol (mask_t_obs (par p).dict t) st
    logical_and cm sm
  | _, _, _ => .error .AttributeError

theorem get_source_mask_run (W : World) (s : ℕ) (c st : Tri) (t : PVal) (h : Heap) :
    get_source_mask W s c st t h = (maskOf W (h.src s) h.par c st t, h) := by
  unfold get_source_mask maskOf
  rw [bind_run]
  simp only [getSrc]
  rw [bind_run, getSettings_run]
  rcases (h.src s).ecc_tol with _ | e
  · rfl
  rcases (h.src s).harmonics_required with _ | q
  · rfl
  simp only
  rw [bind_run]
  unfold getSrcPar
  rw [bind_run]
  simp only [getSrc]
  rcases (h.src s).sc_params with _ | p
  · rfl
  simp only [attr, pure_run]
  rw [bind_run]
  simp only [getPar]
  rw [bind_run]
  simp only [lift_run]
  rcases circular_mask (h.src s).cols e c with _ | m
  · rfl
  simp only
  rw [bind_run]
  simp only [lift_run]
  rcases stationary_mask W (h.src s).cols (h.src s).stat_tol (mask_t_obs (h.par p).dict t) st with _ | m'
  · rfl
  rfl

/-- The mask does not depend on results. -/
theorem get_source_mask_snrOnly {W : World} {s : ℕ} {c st : Tri} {t : PVal} {h h' : Heap} (hh : SnrOnly h h') :
    (get_source_mask W s c st t h').1 = (get_source_mask W s c st t h).1 := by
  obtain ⟨r, r', he⟩ := hh.src s
  rw [get_source_mask_run, get_source_mask_run, he, hh.par]
  rfl

/-- The mask leaves the heap alone. -/
theorem get_source_mask_heap (W : World) (s : ℕ) (c st : Tri) (t : PVal) (h : Heap) :
    (get_source_mask W s c st t h).2 = h := by
  rw [get_source_mask_run]

theorem lift_eq_ok {α : Type} {e : Except PyErr α} {h h' : Heap} {a : α} (hr : (PyM.lift e : M α) h = (.ok a, h')) :
    e = .ok a ∧ h' = h := by
  have h1 := congrArg Prod.fst hr
  have h2 := congrArg Prod.snd hr
  exact ⟨h1, h2.symm⟩

/-- The steps of a successful `Source.get_snr`. -/
theorem Source_get_snr_ok {W : World} {s : ℕ} {a : SnrArgs} {n : ℕ} {w : Option (List Bool)} {h h' : Heap} {r : ℕ}
    (hr : Source_get_snr W s a n w h = (.ok r, h')) :
    ∃ f h₁ stat sm evo em x h₂ y h₃, match_params W s a false h = (.ok f, h₁) ∧
      (get_source_mask W s .none (.bool true) f.t_obs h₁).1 = .ok stat ∧
      reduce3 stat (h₁.src s).cols.merged (which (h₁.src s).cols.n_sources w) = .ok sm ∧
      (get_source_mask W s .none (.bool false) f.t_obs h₁).1 = .ok evo ∧
      reduce3 evo (h₁.src s).cols.merged (which (h₁.src s).cols.n_sources w) = .ok em ∧
      snr_part sm (get_snr_stationary W s f (some sm)) (List.replicate (h₁.src s).cols.n_sources (some 0)) h₁ =
        (.ok x, h₂) ∧
      snr_part em (get_snr_evolving W s f n (some em)) x h₂ = (.ok y, h₃) ∧
      store_snr s y h₃ = (.ok r, h') := by
  unfold Source_get_snr at hr
  obtain ⟨f, h₁, hm, hr⟩ := bind_eq_ok hr
  obtain ⟨src, h₂, hs, hr⟩ := bind_eq_ok hr
  cases hs
  obtain ⟨stat, h₂, hstat, hr⟩ := bind_eq_ok hr
  have e1 := get_source_mask_heap W s .none (.bool true) f.t_obs h₁
  rw [hstat] at e1
  simp only at e1
  subst e1
  obtain ⟨sm, h₁', hsm, hr⟩ := bind_eq_ok hr
  obtain ⟨hsm, rfl⟩ := lift_eq_ok hsm
  obtain ⟨evo, h₁'', hevo, hr⟩ := bind_eq_ok hr
  have e2 := get_source_mask_heap W s .none (.bool false) f.t_obs h₁'
  rw [hevo] at e2
  simp only at e2
  subst e2
  obtain ⟨em, h₄, hem, hr⟩ := bind_eq_ok hr
  obtain ⟨hem, rfl⟩ := lift_eq_ok hem
  obtain ⟨x, h₅, hx, hr⟩ := bind_eq_ok hr
  obtain ⟨y, h₆, hy, hr⟩ := bind_eq_ok hr
  exact ⟨f, h₄, stat, sm, evo, em, x, h₅, y, h₆, hm, by rw [hstat], hsm, by rw [hevo], hem, hx, hy, hr⟩

theorem snr_part_cases (mask : List Bool) (run : M (List (Option ℝ))) (x : List (Option ℝ)) (h : Heap) :
    (mask.any id = false ∧ snr_part mask run x h = (.ok x, h)) ∨
    (mask.any id = true ∧ (snr_part mask run x h).2 = (run h).2 ∧
      ∀ y h', snr_part mask run x h = (.ok y, h') → ∃ v, run h = (.ok v, h') ∧ y = np.assign mask x v) := by
  unfold snr_part
  split_ifs with hm
  · right
    refine ⟨hm, ?_, ?_⟩
    · rw [bind_run]
      rcases run h with ⟨e | v, h'⟩ <;> rfl
    · intro y h' hr
      obtain ⟨v, h₁, hv, hr⟩ := bind_eq_ok hr
      cases hr
      exact ⟨v, hv, rfl⟩
  · exact Or.inl ⟨by simpa using hm, rfl⟩

/-- A `Source.get_snr` call by a settled source only touches results. -/
theorem Settled.Source_get_snr {W : World} {h : Heap} {s : ℕ} {a : SnrArgs} (hs : Settled h s a) (n w) :
    SnrOnly h (Source_get_snr W s a n w h).2 := by
  obtain ⟨f, hf, hs'⟩ := hs.match_params (W := W) false
  unfold source.Source_get_snr
  rw [bind_run, hf]
  simp only
  have mask : ∀ (c st : Tri) (t : PVal), Preserves (SnrOnly h) (get_source_mask W s c st t) := by
    intro c st t h₁ hh
    rw [get_source_mask_heap]
    exact hh
  have part : ∀ (m : List Bool) (run : M (List (Option ℝ))) (x : List (Option ℝ)), Preserves (SnrOnly h) run →
      Preserves (SnrOnly h) (snr_part m run x) := by
    intro m run x hrun h₁ hh
    rcases snr_part_cases m run x h₁ with ⟨-, hr⟩ | ⟨-, hr, -⟩
    · rw [hr]; exact hh
    · rw [hr]; exact hrun h₁ hh
  refine (?_ : Preserves (SnrOnly h) _) h (SnrOnly.refl h)
  refine (preserves_getSrc _ s).bind fun src => (mask _ _ _).bind fun _ => (Preserves.lift _ _).bind fun _ =>
    (mask _ _ _).bind fun _ => (Preserves.lift _ _).bind fun _ =>
    (part _ _ _ ?_).bind fun _ => (part _ _ _ ?_).bind fun _ => store_snr_snrOnly h s _
  · intro h₁ hh
    exact hh.trans ((hs'.snrOnly hh).stationary _)
  · intro h₁ hh
    exact hh.trans ((hs'.snrOnly hh).evolving _ _)

theorem Within.refl (f : SnrArgs) : Within f f :=
  ⟨Or.inr rfl, Or.inr rfl, Or.inr rfl, Or.inr rfl, Or.inr rfl, Or.inr rfl⟩

/-- Resolving `"auto"` settles the source; later calls with `"auto"` resolve to the same. -/
theorem settle_auto {W : World} {s p : ℕ} {a f f' : SnrArgs} {h h₁ : Heap} (ha : a.t_obs ≠ .str "auto")
    (hp : (h.src s).sc_params = some p) (hag : Agrees (h.par p).dict f) (hw : Within a f)
    (hm : match_params W s f true h = (.ok f', h₁)) :
    Settled h₁ s a ∧ ∀ h₂, SnrOnly h₁ h₂ → match_params W s f true h₂ = (.ok f', h₂) := by
  obtain ⟨q, g, hq, hq', hg, he, hag'⟩ := match_params_agrees hm
  rw [hp] at hq
  cases hq
  rw [fill_args_within hag (Within.refl f)] at hg
  cases hg
  simp only [if_true] at he
  refine ⟨⟨p, f', hq', hag', by rw [he]; exact resolve_auto_within hw ha, by rw [he]; exact resolve_auto_ne f⟩, ?_⟩
  intro h₂ hh
  have hfill : fill_args (h₂.par p).dict f = .ok f := by
    rw [hh.par]
    obtain ⟨h1, h2, h3, h4, h5, h6⟩ := agrees_iff.1 hag'
    rw [he] at h1 h2 h3 h4 h5 h6
    by_cases hauto : f.t_obs = .str "auto"
    · unfold resolve_auto at h1 h2 h3 h4 h5 h6
      rw [if_pos hauto] at h1 h2 h3 h4 h5 h6
      unfold fill_args
      rw [orParam_eq h2 (Or.inr rfl), orParam_eq h3 (Or.inr rfl), orParam_eq h4 (Or.inr rfl),
        orParam_eq h5 (Or.inr rfl), orParam_eq h6 (Or.inr rfl)]
      unfold orParam
      rw [if_neg (by rw [hauto]; simp)]
      rfl
    · rw [resolve_auto_of_ne hauto] at he
      rw [he] at hag'
      exact fill_args_within hag' (Within.refl f)
  have := match_params_same W (r := true) (by rw [hh.sc_params, hq']) hfill
    (by simp only [if_true]; rw [← he, hh.par]; exact hag')
  simp only [if_true] at this
  rw [this, he]

/-- Repeating a successful `Source.get_snr` call only touches results. -/
theorem Source_get_snr_repeat {W : World} {s : ℕ} {a : SnrArgs} {n : ℕ} {w : Option (List Bool)} {h h' : Heap} {r : ℕ}
    (ha : a.t_obs ≠ .str "auto") (hr : Source_get_snr W s a n w h = (.ok r, h')) :
    SnrOnly h' (Source_get_snr W s a n w h').2 := by
  obtain ⟨f, h₁, stat, sm, evo, em, x, h₂, y, h₃, hm, hstat, hsm, hevo, hem, hx, hy, hst⟩ := Source_get_snr_ok hr
  obtain ⟨p, f₀, -, hp, hf, he, hag⟩ := match_params_agrees hm
  simp only [Bool.false_eq_true, if_false] at he
  subst he
  have hw := (fill_args_ok hf).1
  have hstore : SnrOnly h₃ h' := by
    have := store_snr_snrOnly h₃ s y h₃ (SnrOnly.refl h₃)
    rwa [hst] at this
  have hpx : (sm.any id = false ∧ h₂ = h₁) ∨ ∃ v, get_snr_stationary W s f (some sm) h₁ = (.ok v, h₂) := by
    rcases snr_part_cases sm (get_snr_stationary W s f (some sm)) (List.replicate (h₁.src s).cols.n_sources (some 0)) h₁
      with ⟨h1, h2⟩ | ⟨-, -, h3⟩
    · rw [hx] at h2; cases h2; exact Or.inl ⟨h1, rfl⟩
    · obtain ⟨v, hv, -⟩ := h3 x h₂ hx
      exact Or.inr ⟨v, hv⟩
  have hpy : (em.any id = false ∧ h₃ = h₂) ∨ ∃ v, get_snr_evolving W s f n (some em) h₂ = (.ok v, h₃) := by
    rcases snr_part_cases em (get_snr_evolving W s f n (some em)) x h₂ with ⟨h1, h2⟩ | ⟨-, -, h3⟩
    · rw [hy] at h2; cases h2; exact Or.inl ⟨h1, rfl⟩
    · obtain ⟨v, hv, -⟩ := h3 y h₃ hy
      exact Or.inr ⟨v, hv⟩
  by_cases hauto : f.t_obs = .str "auto"
  · rcases hpx with ⟨hx1, rfl⟩ | ⟨v, hv⟩
    · rcases hpy with ⟨hy1, rfl⟩ | ⟨v, hv⟩
      · -- nothing to compute, now or the second time
        unfold Source_get_snr
        have hmm := match_params_same W (s := s) (p := p) (a := a) (f := f) (r := false) (h := h')
          (by rw [hstore.sc_params, hp]) (by rw [hstore.par]; exact fill_args_within hag hw)
          (by rw [hstore.par]; exact hag)
        simp only [Bool.false_eq_true, if_false] at hmm
        rw [bind_run, hmm]
        simp only
        rw [bind_run]
        simp only [getSrc]
        rw [bind_run, get_source_mask_run]
        have e1 := get_source_mask_snrOnly (W := W) (s := s) (c := .none) (st := .bool true) (t := f.t_obs) hstore
        have e2 := get_source_mask_snrOnly (W := W) (s := s) (c := .none) (st := .bool false) (t := f.t_obs) hstore
        rw [hstat, get_source_mask_run] at e1
        rw [hevo, get_source_mask_run] at e2
        simp only at e1 e2
        obtain ⟨q, q', hsrc⟩ := hstore.src s
        have hc : (h'.src s).cols = (h₃.src s).cols := by rw [hsrc]
        rw [e1, hc]
        simp only
        rw [bind_run]
        simp only [lift_run, hsm]
        rw [bind_run, get_source_mask_run, e2]
        simp only
        rw [bind_run]
        simp only [lift_run, hem]
        rw [bind_run]
        rcases snr_part_cases sm (get_snr_stationary W s f (some sm))
          (List.replicate (h₃.src s).cols.n_sources (some 0)) h' with ⟨-, h2⟩ | ⟨h3, -⟩
        swap
        · rw [hx1] at h3; cases h3
        rw [h2]
        simp only
        rw [bind_run]
        rcases snr_part_cases em (get_snr_evolving W s f n (some em))
          (List.replicate (h₃.src s).cols.n_sources (some 0)) h' with ⟨-, h2⟩ | ⟨h3, -⟩
        swap
        · rw [hy1] at h3; cases h3
        rw [h2]
        exact store_snr_snrOnly h' s _ h' (SnrOnly.refl h')
      · have hso := get_snr_evolving_snrOnly W s f n (some em) h₂
        rw [hv] at hso
        unfold get_snr_evolving at hv
        obtain ⟨f', h₄, hm', -⟩ := bind_eq_ok hv
        rw [hm'] at hso
        exact Settled.Source_get_snr (((settle_auto ha hp hag hw hm').1.snrOnly hso).snrOnly hstore) n w
    · have hso := get_snr_stationary_snrOnly W s f (some sm) h₁
      rw [hv] at hso
      unfold get_snr_stationary at hv
      obtain ⟨f', h₄, hm', -⟩ := bind_eq_ok hv
      rw [hm'] at hso
      obtain ⟨hset, hlater⟩ := settle_auto ha hp hag hw hm'
      have h23 : SnrOnly h₂ h₃ := by
        rcases hpy with ⟨hy1, rfl⟩ | ⟨v, hv⟩
        · exact SnrOnly.refl _
        · have hso' := get_snr_evolving_snrOnly W s f n (some em) h₂
          rw [hv, hlater h₂ hso] at hso'
          exact hso'
      exact Settled.Source_get_snr (((hset.snrOnly hso).snrOnly h23).snrOnly hstore) n w
  · have hset : Settled h₁ s a := ⟨p, f, hp, hag, hw, hauto⟩
    have hset' : Settled h₁ s f := ⟨p, f, hp, hag, Within.refl f, hauto⟩
    have h12 : SnrOnly h₁ h₂ := by
      rcases hpx with ⟨-, rfl⟩ | ⟨v, hv⟩
      · exact SnrOnly.refl _
      · have := hset'.stationary (W := W) (some sm)
        rwa [hv] at this
    have h23 : SnrOnly h₂ h₃ := by
      rcases hpy with ⟨-, rfl⟩ | ⟨v, hv⟩
      · exact SnrOnly.refl _
      · have := (hset'.snrOnly h12).evolving (W := W) n (some em)
        rwa [hv] at this
    exact Settled.Source_get_snr (((hset.snrOnly h12).snrOnly h23).snrOnly hstore) n w

/-! ### What SNR calls can change -/

/-- Only curves, results and parameter values differ. -/
structure SnrCall (h h' : Heap) : Prop where
  src : ∀ s, ∃ sc r r', h'.src s = { h.src s with sc := sc, snr := r, max_snr_harmonic := r' }
  par : ∀ p, (h'.par p).source = (h.par p).source
  next : h.next ≤ h'.next

theorem SnrCall.refl (h : Heap) : SnrCall h h := ⟨fun _ => ⟨_, _, _, rfl⟩, fun _ => rfl, le_rfl⟩

theorem SnrCall.trans {h h' h'' : Heap} (a : SnrCall h h') (b : SnrCall h' h'') : SnrCall h h'' := by
  refine ⟨fun s => ?_, fun p => (b.par p).trans (a.par p), a.next.trans b.next⟩
  obtain ⟨c, r, r', h1⟩ := a.src s
  obtain ⟨d, q, q', h2⟩ := b.src s
  exact ⟨d, q, q', by rw [h2, h1]⟩

theorem SnrOnly.snrCall {h h' : Heap} (a : SnrOnly h h') : SnrCall h h' := by
  refine ⟨fun s => ?_, fun p => by rw [a.par], a.next⟩
  obtain ⟨r, r', he⟩ := a.src s
  exact ⟨_, r, r', he⟩

theorem match_params_snrCall (W : World) (s : ℕ) (a : SnrArgs) (r : Bool) (h : Heap) :
    SnrCall h (match_params W s a r h).2 := by
  unfold match_params getSrcPar
  rw [bind_run, bind_run]
  simp only [getSrc]
  rcases (h.src s).sc_params with _ | p
  · exact SnrCall.refl h
  simp only [attr, pure_run]
  rw [bind_run]
  simp only [getPar]
  rw [bind_run]
  simp only [lift_run]
  rcases fill_args (h.par p).dict a with e | f
  · exact SnrCall.refl h
  simp only
  generalize (if r = true then resolve_auto f else f) = g
  rw [bind_run]
  have key : SnrCall h (params_update W p g.toDict h).2 := by
    obtain ⟨h1, h2⟩ := params_update_args W p g h
    refine ⟨fun s => ?_, fun q => ?_, (params_update_scOnly W p g.toDict h).next⟩
    · obtain ⟨sc, hsc⟩ := h2 s
      exact ⟨sc, _, _, hsc⟩
    · rw [h1]
      by_cases hq : q = p
      · subst hq; rw [Function.update_self]
      · rw [Function.update_of_ne hq]
  rcases hu : params_update W p g.toDict h with ⟨e | u, h'⟩
  · rw [hu] at key; exact key
  · rw [hu] at key; exact key

theorem get_snr_stationary_snrCall (W : World) (s : ℕ) (a : SnrArgs) (w : Option (List Bool)) (h : Heap) :
    SnrCall h (get_snr_stationary W s a w h).2 :=
  (match_params_snrCall W s a true h).trans (get_snr_stationary_snrOnly W s a w h).snrCall

theorem get_snr_evolving_snrCall (W : World) (s : ℕ) (a : SnrArgs) (n : ℕ) (w : Option (List Bool)) (h : Heap) :
    SnrCall h (get_snr_evolving W s a n w h).2 :=
  (match_params_snrCall W s a true h).trans (get_snr_evolving_snrOnly W s a n w h).snrCall

theorem store_snr_snrCall (s : ℕ) (xs) (h : Heap) : SnrCall h (store_snr s xs h).2 :=
  (store_snr_snrOnly h s xs h (SnrOnly.refl h)).snrCall

theorem snr_part_snrCall {m : List Bool} {run : M (List (Option ℝ))} {x : List (Option ℝ)} {h : Heap}
    (hrun : SnrCall h (run h).2) : SnrCall h (snr_part m run x h).2 := by
  rcases snr_part_cases m run x h with ⟨-, hr⟩ | ⟨-, hr, -⟩
  · rw [hr]; exact SnrCall.refl h
  · rw [hr]; exact hrun

theorem Source_get_snr_snrCall (W : World) (s : ℕ) (a : SnrArgs) (n : ℕ) (w : Option (List Bool)) (h : Heap) :
    SnrCall h (Source_get_snr W s a n w h).2 := by
  refine (?_ : Preserves (SnrCall h) _) h (SnrCall.refl h)
  have mask : ∀ (c st : Tri) (t : PVal), Preserves (SnrCall h) (get_source_mask W s c st t) := by
    intro c st t h₁ hh
    rw [get_source_mask_heap]
    exact hh
  refine Preserves.bind (fun h₁ hh => hh.trans (match_params_snrCall W s a false h₁)) fun f =>
    (preserves_getSrc _ s).bind fun src => (mask _ _ _).bind fun _ => (Preserves.lift _ _).bind fun _ =>
    (mask _ _ _).bind fun _ => (Preserves.lift _ _).bind fun _ =>
    Preserves.bind (fun h₁ hh => hh.trans (snr_part_snrCall (get_snr_stationary_snrCall W s _ _ h₁))) fun _ =>
    Preserves.bind (fun h₁ hh => hh.trans (snr_part_snrCall (get_snr_evolving_snrCall W s _ _ _ h₁))) fun _ =>
    fun h₁ hh => hh.trans (store_snr_snrCall s _ h₁)

/-- `get_snr` by class. -/
theorem get_snr_run (W : World) (s : ℕ) (a : SnrArgs) (n : ℕ) (w : Option (List Bool)) (h : Heap) :
    get_snr W s a n w h = match (h.src s).cls with
      | .Stationary => Stationary_get_snr W s a h
      | .Evolving => Evolving_get_snr W s a n h
      | _ => Source_get_snr W s a n w h := by
  unfold get_snr
  rw [bind_run]
  simp only [getSrc]
  rcases (h.src s).cls with _ | _ | _ | _ <;> rfl

theorem get_snr_snrCall (W : World) (s : ℕ) (a : SnrArgs) (n : ℕ) (w : Option (List Bool)) (h : Heap) :
    SnrCall h (get_snr W s a n w h).2 := by
  rw [get_snr_run]
  rcases (h.src s).cls with _ | _ | _ | _
  · exact Source_get_snr_snrCall W s a n w h
  · refine (?_ : Preserves (SnrCall h) (Stationary_get_snr W s a)) h (SnrCall.refl h)
    exact Preserves.bind (fun h₁ hh => hh.trans (get_snr_stationary_snrCall W s _ _ h₁)) fun _ =>
      fun h₁ hh => hh.trans (store_snr_snrCall s _ h₁)
  · refine (?_ : Preserves (SnrCall h) (Evolving_get_snr W s a n)) h (SnrCall.refl h)
    exact Preserves.bind (fun h₁ hh => hh.trans (get_snr_evolving_snrCall W s _ _ _ h₁)) fun _ =>
      fun h₁ hh => hh.trans (store_snr_snrCall s _ h₁)
  · exact Source_get_snr_snrCall W s a n w h

/-- Repeating a successful `get_snr` call only touches results. -/
theorem get_snr_repeat {W : World} {s : ℕ} {a : SnrArgs} {n : ℕ} {w : Option (List Bool)} {h h' : Heap} {r : ℕ}
    (ha : a.t_obs ≠ .str "auto") (hr : get_snr W s a n w h = (.ok r, h')) :
    SnrOnly h' (get_snr W s a n w h').2 := by
  have hcls : (h'.src s).cls = (h.src s).cls := by
    obtain ⟨c, q, q', hsrc⟩ := (get_snr_snrCall W s a n w h).src s
    rw [hr] at hsrc
    simp only at hsrc
    rw [hsrc]
  rw [get_snr_run] at hr ⊢
  rw [hcls]
  rcases hc : (h.src s).cls with _ | _ | _ | _
  · rw [hc] at hr
    exact Source_get_snr_repeat ha hr
  · rw [hc] at hr
    unfold Stationary_get_snr at hr
    obtain ⟨v, h₁, hv, hr⟩ := bind_eq_ok hr
    have hso : SnrOnly h₁ h' := by
      have := store_snr_snrOnly h₁ s v h₁ (SnrOnly.refl h₁)
      rwa [hr] at this
    have hset := (settled_of_stationary (a := { t_obs := a.t_obs, instrument := a.instrument, custom_psd := a.custom_psd })
      ha hv).snrOnly hso
    simp only
    unfold Stationary_get_snr
    rw [bind_run]
    have := hset.stationary (W := W) none
    rcases hq : get_snr_stationary W s { t_obs := a.t_obs, instrument := a.instrument, custom_psd := a.custom_psd } none h'
      with ⟨e | v', h₂⟩
    · rw [hq] at this; exact this
    · rw [hq] at this; exact store_snr_snrOnly h' s _ h₂ this
  · rw [hc] at hr
    unfold Evolving_get_snr at hr
    obtain ⟨v, h₁, hv, hr⟩ := bind_eq_ok hr
    have hso : SnrOnly h₁ h' := by
      have := store_snr_snrOnly h₁ s v h₁ (SnrOnly.refl h₁)
      rwa [hr] at this
    have hset := (settled_of_evolving (a := { t_obs := a.t_obs, instrument := a.instrument, custom_psd := a.custom_psd })
      ha hv).snrOnly hso
    simp only
    unfold Evolving_get_snr
    rw [bind_run]
    have := hset.evolving (W := W) n none
    rcases hq : get_snr_evolving W s { t_obs := a.t_obs, instrument := a.instrument, custom_psd := a.custom_psd } n none h'
      with ⟨e | v', h₂⟩
    · rw [hq] at this; exact this
    · rw [hq] at this; exact store_snr_snrOnly h' s _ h₂ this
  · rw [hc] at hr
    exact Source_get_snr_repeat ha hr

end Legwork.source
