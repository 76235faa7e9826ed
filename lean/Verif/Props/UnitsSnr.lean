import Verif.Lemmas.UnitsSnr

/-!
# C82 and C83: units in the evolution and in the signal-to-noise ratio

The functions on quantities are compared with the SI functions, which all other properties are about.
-/

namespace Legwork.Props

open Real Legwork.Spec Legwork.units

variable {K : Consts}

/-! ## C82: the evolution -/

/-- Circular evolution: for every combination of arguments given (with units) or left out, the rows are the SI ones, or
the same error is raised, and every row comes in its documented unit. The separation is compared with the merger
threshold in the unit of `a_i` (AU if it is derived from the frequency). -/
theorem C82_circ {b m₁ m₂ a f t : Option (Val × ℝ)} (hb : ∀ p ∈ b, Denotes p.1 betaDim p.2)
    (h₁ : ∀ p ∈ m₁, Denotes p.1 massDim p.2) (h₂ : ∀ p ∈ m₂, Denotes p.1 massDim p.2)
    (ha : ∀ p ∈ a, Denotes p.1 lengthDim p.2) (hf : ∀ p ∈ f, Denotes p.1 freqDim p.2)
    (ht : ∀ p ∈ t, Denotes p.1 timeDim p.2) (n : ℕ) {steps : Option Row} (hs : ∀ r ∈ steps, r.unit.dim = timeDim)
    (vars : List String) :
    let one : Option (Val × ℝ) → Option (Unit → ℝ) := fun o => (o.map Prod.snd).map fun x _ => x
    let run := units.evol_circ K (t.map Prod.fst) n steps (b.map Prod.fst) (m₁.map Prod.fst) (m₂.map Prod.fst)
      (a.map Prod.fst) (f.map Prod.fst) vars
    run.map (List.map Row.si) =
      (evol.evol_circ K ((a.map fun p => p.1.unit).getD AU).scale (t.map fun p => .array fun _ => p.2) n
        (steps.map fun r => .grids fun _ => r.si) (one b) (one m₁) (one m₂) (one a) (one f) vars).map (rowsAt ()) ∧
    ∀ rows, run = .ok rows → rows.map Row.unit = vars.filterMap (outputUnit false) := by
  intro one run
  refine ⟨?_, fun rows h => evol_circ_units h⟩
  have := evol_circ_si (K := K) () hb h₁ h₂ ha hf ht n hs vars
  rw [this]
  cases a <;> rfl

/-- Eccentric evolution: the same. -/
theorem C82_ecc (odeint : evol.Odeint) {e τ : ℝ} (he : 0 ≤ e) {b m₁ m₂ a f t T : Option (Val × ℝ)}
    (hb : ∀ p ∈ b, Denotes p.1 betaDim p.2) (h₁ : ∀ p ∈ m₁, Denotes p.1 massDim p.2)
    (h₂ : ∀ p ∈ m₂, Denotes p.1 massDim p.2) (ha : ∀ p ∈ a, Denotes p.1 lengthDim p.2)
    (hf : ∀ p ∈ f, Denotes p.1 freqDim p.2) (ht : ∀ p ∈ t, Denotes p.1 timeDim p.2) (n : ℕ) {steps : Option Row}
    (hs : ∀ r ∈ steps, r.unit.dim = timeDim) (vars : List String) (avoid exact : Bool) {t_before : Val}
    (hτ : Denotes t_before timeDim τ) (hT : ∀ p ∈ T, Denotes p.1 timeDim p.2) (n_proc : ℕ) (order : List ℕ)
    (hall : n_proc > 1 → 0 ∈ order) :
    let one : Option (Val × ℝ) → Option (Fin 1 → ℝ) := fun o => (o.map Prod.snd).map fun x _ => x
    let run := units.evol_ecc K odeint e (t.map Prod.fst) n steps (b.map Prod.fst) (m₁.map Prod.fst) (m₂.map Prod.fst)
      (a.map Prod.fst) (f.map Prod.fst) vars avoid exact t_before (T.map Prod.fst)
    run.map (List.map Row.si) =
      (evol.evol_ecc K odeint (fun _ => e) (t.map fun p => .array fun _ => p.2) n
        (steps.map fun r => .grids fun _ => r.si) (one b) (one m₁) (one m₂) (one a) (one f) vars n_proc order avoid exact
        τ (one T)).map (rowsAt 0) ∧
    ∀ rows, run = .ok rows → rows.map Row.unit = vars.filterMap (outputUnit true) :=
  ⟨evol_ecc_si odeint he hb h₁ h₂ ha hf ht n hs vars avoid exact hτ hT n_proc order hall, fun _ h => evol_ecc_units h⟩

private theorem same_split {d : Dim} {o o' : Option Val} (h : SameGiven d o o') : ∃ p p' : Option (Val × ℝ),
    o = p.map Prod.fst ∧ o' = p'.map Prod.fst ∧ p.map Prod.snd = p'.map Prod.snd ∧ (∀ q ∈ p, Denotes q.1 d q.2) ∧
      ∀ q ∈ p', Denotes q.1 d q.2 := by
  cases h with
  | none => exact ⟨none, none, rfl, rfl, rfl, fun q hq => (by cases hq), fun q hq => (by cases hq)⟩
  | some h =>
    obtain ⟨x, hv, hw⟩ := h
    exact ⟨some (_, x), some (_, x), rfl, rfl, rfl, fun q hq => (by cases hq; exact hv),
      fun q hq => (by cases hq; exact hw)⟩

private theorem array_eq {ι : Type} {p p' : Option (Val × ℝ)} (h : p.map Prod.snd = p'.map Prod.snd) :
    (p.map fun q => (evol.TEvol.array fun _ : ι => q.2)) = p'.map fun q => .array fun _ => q.2 := by
  cases p <;> cases p' <;> simp_all

private theorem grids_eq {ι : Type} {steps steps' : Option Row} (h : SameTimes steps steps') :
    (steps.map fun r => (evol.Steps.grids fun _ : ι => r.si)) = steps'.map fun r => .grids fun _ => r.si := by
  cases h with
  | none => rfl
  | some h => simp [h.2.2]

private theorem times_dim {steps steps' : Option Row} (h : SameTimes steps steps') :
    (∀ r ∈ steps, r.unit.dim = timeDim) ∧ ∀ r ∈ steps', r.unit.dim = timeDim := by
  cases h with
  | none => exact ⟨fun r hr => (by cases hr), fun r hr => (by cases hr)⟩
  | some h => exact ⟨fun r hr => (by cases hr; exact h.1), fun r hr => (by cases hr; exact h.2.1)⟩

private theorem runs_eq {r r' : Except PyErr (List Row)} (hs : r.map (List.map Row.si) = r'.map (List.map Row.si))
    (hu : ∀ rows rows', r = .ok rows → r' = .ok rows' → rows.map Row.unit = rows'.map Row.unit) : r = r' := by
  rcases r with e | rows <;> rcases r' with e' | rows' <;> simp only [Except.map, reduceCtorEq, Except.error.injEq,
    Except.ok.injEq] at hs
  · rw [hs]
  · rw [rows_ext (hu _ _ rfl rfl) hs]

/-- The result of the eccentric evolution does not depend on the units the arguments are given in. -/
theorem C82_ecc_same (odeint : evol.Odeint) {e : ℝ} (he : 0 ≤ e) {b m₁ m₂ a f t T b' m₁' m₂' a' f' t' T' : Option Val}
    (hb : SameGiven betaDim b b') (h₁ : SameGiven massDim m₁ m₁') (h₂ : SameGiven massDim m₂ m₂')
    (ha : SameGiven lengthDim a a') (hf : SameGiven freqDim f f') (ht : SameGiven timeDim t t')
    (hT : SameGiven timeDim T T') (n : ℕ) {steps steps' : Option Row} (hs : SameTimes steps steps') (vars : List String)
    (avoid exact : Bool) {tb tb' : Val} {τ : ℝ} (hτ : Denotes tb timeDim τ) (hτ' : Denotes tb' timeDim τ) :
    units.evol_ecc K odeint e t n steps b m₁ m₂ a f vars avoid exact tb T =
      units.evol_ecc K odeint e t' n steps' b' m₁' m₂' a' f' vars avoid exact tb' T' := by
  obtain ⟨b, b', rfl, rfl, eb, hb, hb'⟩ := same_split hb
  obtain ⟨m₁, m₁', rfl, rfl, e₁, h₁, h₁'⟩ := same_split h₁
  obtain ⟨m₂, m₂', rfl, rfl, e₂, h₂, h₂'⟩ := same_split h₂
  obtain ⟨a, a', rfl, rfl, ea, ha, ha'⟩ := same_split ha
  obtain ⟨f, f', rfl, rfl, ef, hf, hf'⟩ := same_split hf
  obtain ⟨t, t', rfl, rfl, et, ht, ht'⟩ := same_split ht
  obtain ⟨T, T', rfl, rfl, eT, hT, hT'⟩ := same_split hT
  refine runs_eq ?_ fun rows rows' h h' => (evol_ecc_units h).trans (evol_ecc_units h').symm
  rw [evol_ecc_si (K := K) odeint he hb h₁ h₂ ha hf ht n (times_dim hs).1 vars avoid exact hτ hT 1 []
      (fun h => absurd h (by norm_num)),
    evol_ecc_si (K := K) odeint he hb' h₁' h₂' ha' hf' ht' n (times_dim hs).2 vars avoid exact hτ' hT' 1 []
      (fun h => absurd h (by norm_num)), eb, e₁, e₂, ea, ef, eT, array_eq et, grids_eq hs]

/-- The result of the circular evolution does not depend on the units the arguments are given in, as long as frequencies
are not asked for or a given separation keeps its unit. -/
theorem C82_circ_same {b m₁ m₂ a f t b' m₁' m₂' a' f' t' : Option Val} (hb : SameGiven betaDim b b')
    (h₁ : SameGiven massDim m₁ m₁') (h₂ : SameGiven massDim m₂ m₂') (ha : SameGiven lengthDim a a')
    (hf : SameGiven freqDim f f') (ht : SameGiven timeDim t t') (n : ℕ) {steps steps' : Option Row}
    (hs : SameTimes steps steps') (vars : List String)
    (hu : ("f_orb" ∉ vars ∧ "f_GW" ∉ vars) ∨ a.map Val.unit = a'.map Val.unit) :
    units.evol_circ K t n steps b m₁ m₂ a f vars = units.evol_circ K t' n steps' b' m₁' m₂' a' f' vars := by
  obtain ⟨b, b', rfl, rfl, eb, hb, hb'⟩ := same_split hb
  obtain ⟨m₁, m₁', rfl, rfl, e₁, h₁, h₁'⟩ := same_split h₁
  obtain ⟨m₂, m₂', rfl, rfl, e₂, h₂, h₂'⟩ := same_split h₂
  obtain ⟨a, a', rfl, rfl, ea, ha, ha'⟩ := same_split ha
  obtain ⟨f, f', rfl, rfl, ef, hf, hf'⟩ := same_split hf
  obtain ⟨t, t', rfl, rfl, et, ht, ht'⟩ := same_split ht
  refine runs_eq ?_ fun rows rows' h h' => (evol_circ_units h).trans (evol_circ_units h').symm
  rw [evol_circ_si (K := K) () hb h₁ h₂ ha hf ht n (times_dim hs).1 vars,
    evol_circ_si (K := K) () hb' h₁' h₂' ha' hf' ht' n (times_dim hs).2 vars, eb, e₁, e₂, ea, ef, array_eq et,
    grids_eq hs]
  rcases hu with ⟨hu₁, hu₂⟩ | hu
  · have hw : evol.wantsFreq vars = false := by
      rw [evol.wantsFreq, List.any_eq_false]
      intro v hv
      simp only [Bool.or_eq_true, decide_eq_true_eq]
      rintro (rfl | rfl)
      · exact hu₁ hv
      · exact hu₂ hv
    unfold evol.evol_circ
    simp only [hw]
  · have : (a.map Prod.fst).elim AU Val.unit = (a'.map Prod.fst).elim AU Val.unit := by
      cases a <;> cases a' <;> simp_all
    rw [this]

/-- A duration which is not a time is a unit error in both evolutions. -/
theorem C82_time_checked (odeint : evol.Odeint) (q : Quantity) (hq : q.unit.dim ≠ timeDim) {m₁ m₂ a : Val} {x₁ x₂ x : ℝ}
    (h₁ : Denotes m₁ massDim x₁) (h₂ : Denotes m₂ massDim x₂) (ha : Denotes a lengthDim x) (n : ℕ) (vars : List String)
    (e : ℝ) (avoid exact : Bool) (tb : Val) (T : Option Val) :
    units.evol_circ K (some (.qty q)) n none none (some m₁) (some m₂) (some a) none vars = .error .UnitConversionError ∧
    units.evol_ecc K odeint e (some (.qty q)) n none none (some m₁) (some m₂) (some a) none vars avoid exact tb T =
      .error .UnitConversionError := by
  have hstep : ∀ b : Val, ∀ e : ℝ, units.create_timesteps_array K a b e (some (.qty q)) n none =
      .error .UnitConversionError := by
    intro b e
    show ((q.to s).map Val.qty >>= Val.value) >>= _ = _
    rw [to_error (u := s) hq]
    rfl
  have hcheck : units.check_mass_freq_input K none (some m₁) (some m₂) (some a) none =
      .ok (.qty ⟨utils.beta K x₁ x₂ / m4_s.scale, m4_s⟩, a) := by
    unfold units.check_mass_freq_input
    simp only [beta_eq h₁ h₂]
    rfl
  constructor
  · unfold units.evol_circ
    rw [hcheck, ok_bind]
    simp only [Option.isNone_some, Bool.false_eq_true, or_self, and_false, if_false]
    rw [hstep]; rfl
  · unfold units.evol_ecc
    rw [hcheck, ok_bind]
    simp only [Option.isNone_some, Bool.false_eq_true, or_self, and_false, if_false]
    rw [c_0_eq ha, ok_bind, hstep]; rfl

/-! ## C83: the signal-to-noise ratio -/

variable {U : units.Ctx} {C : snr.Ctx}

/-- A stationary circular source: the SNR of the SI function. -/
theorem C83_circ_stationary (h : SameObservation U C) {m_c f_orb dist : Val} {x y z : ℝ} (hm : Denotes m_c massDim x)
    (hf : Denotes f_orb freqDim y) (hd : Denotes dist lengthDim z) (o : strain.Orientation) (v : Option ℝ) :
    units.snr_circ_stationary U m_c f_orb dist o = .ok v ↔ snr.snr_circ_stationary C [⟨x, y, z, o⟩] = .ok [v] := by
  rw [circ_stat_si h hm hf hd, snr.snr_circ_stationary_iff, snr.mapM_one]
  rcases snr.circ1 C ⟨x, y, z, o⟩ with e | w
  · simp [bind, Except.bind]
  · simp [bind, Except.bind, pure, Except.pure]

/-- A stationary eccentric source: whatever the SI function gives, for all flags. -/
theorem C83_ecc_stationary (h : SameObservation U C) {m_c f_orb dist : Val} {x y z : ℝ} (hm : Denotes m_c massDim x)
    (hf : Denotes f_orb freqDim y) (hd : Denotes dist lengthDim z) (e : ℝ) (H : ℕ) (rm rb : Bool) :
    units.snr_ecc_stationary U m_c f_orb e dist H rm rb = snr.snr_ecc_stationary C [⟨x, y, e, z⟩] H rm rb :=
  ecc_stat_si h hm hf hd e H rm rb

/-- An evolving circular source, with or without a given merger time. -/
theorem C83_circ_evolving (h : SameObservation U C) {src : snr.EvolSrc} {m_1 m_2 f dist : Val}
    (h₁ : Denotes m_1 massDim src.m_1) (h₂ : Denotes m_2 massDim src.m_2) (hf : Denotes f freqDim src.f_orb_i)
    (hd : Denotes dist lengthDim src.dist) {n : ℕ} (hn : n ≠ 0) {T : Option (Val × ℝ)}
    (hT : ∀ p ∈ T, Denotes p.1 timeDim p.2) (v : Option ℝ) :
    units.snr_circ_evolving U m_1 m_2 f dist n (T.map Prod.fst) = .ok v ↔
      snr.snr_circ_evolving C [src] n (T.map fun p => [p.2]) = .ok [v] := by
  rw [circ_evol_si h h₁ h₂ hf hd hn hT]
  rcases T with _ | ⟨w, x⟩
  · refine (snr.circ_evol_one hn (T := snr.tCirc C.K src) ?_).symm
    show Except.ok (fun i : Fin [src].length => snr.tCirc C.K [src][i]) = _
    congr 1
    funext i
    match i with
    | ⟨0, _⟩ => rfl
  · refine (snr.circ_evol_one hn (T := x) ?_).symm
    show Except.ok (fun i : Fin [src].length => [x].getD i 0) = _
    congr 1
    funext i
    match i with
    | ⟨0, _⟩ => rfl

/-- An evolving eccentric source: whatever the SI function gives, for all flags and any number of processes. -/
theorem C83_ecc_evolving (h : SameObservation U C) (odeint : evol.Odeint) {src : snr.EvolSrc} {m_1 m_2 f dist : Val}
    (h₁ : Denotes m_1 massDim src.m_1) (h₂ : Denotes m_2 massDim src.m_2) (hf : Denotes f freqDim src.f_orb_i)
    (hd : Denotes dist lengthDim src.dist) (he : 0 ≤ src.ecc) (H : ℕ) {n : ℕ} (hn : n ≠ 0) {T : Option (Val × ℝ)}
    (hT : ∀ p ∈ T, Denotes p.1 timeDim p.2) (rm rb : Bool) (n_proc : ℕ) (order : List ℕ)
    (hall : n_proc > 1 → 0 ∈ order) :
    units.snr_ecc_evolving U odeint m_1 m_2 f dist src.ecc H n (T.map Prod.fst) rm rb =
      snr.snr_ecc_evolving C odeint [src] H n (T.map fun p => [p.2]) n_proc order rm rb := by
  rw [ecc_evol_si h odeint h₁ h₂ hf hd he H hn hT rm rb hall, Option.map_map]
  rfl

/-- The distance is never checked: anything which is `z` in SI units counts as `z` metres. -/
theorem C83_distance_unchecked (h : SameObservation U C) {m_c f_orb dist dist' : Val} {d : Dim} {x y z : ℝ}
    (hm : Denotes m_c massDim x) (hf : Denotes f_orb freqDim y) (hd : Denotes dist d z)
    (hd' : Denotes dist' lengthDim z) (o : strain.Orientation) (e : ℝ) (H : ℕ) (rm rb : Bool) :
    units.snr_circ_stationary U m_c f_orb dist o = units.snr_circ_stationary U m_c f_orb dist' o ∧
    units.snr_ecc_stationary U m_c f_orb e dist H rm rb = units.snr_ecc_stationary U m_c f_orb e dist' H rm rb := by
  rw [circ_stat_si h hm hf hd, circ_stat_si h hm hf hd', ecc_stat_si h hm hf hd, ecc_stat_si h hm hf hd']
  exact ⟨rfl, rfl⟩

/-- Settings for a built-in instrument: arm length and observation time may be in any units. -/
theorem C83_built_in (env : psd.Env) (instrument : String) (hi : instrument ≠ "custom") {L : Option (Val × ℝ)}
    (hL : ∀ p ∈ L, Denotes p.1 lengthDim p.2) (approximate_R : Bool) (name : Option String)
    (ig : Option (ℤ → ℝ → ℝ)) {t : Val} {τ : ℝ} (ht : Denotes t timeDim τ) :
    SameObservation
      { K, env, interpolated_g := ig, t_obs := t,
        kw := { instrument, approximate_R, L := L.map Prod.fst, confusion_noise := .model name } }
      { K, env, interpolated_g := ig, t_obs := τ,
        kw := { instrument, approximate_R, L := L.elim .auto fun p => .val p.2,
                confusion_noise := name.elim .none .name } } := by
  have hres : ∀ d : String, ∃ name', Noise.resolve d (.model name) = .model name' ∧
      psd.NoiseArg.resolve d (named name) = named name' := by
    intro d
    rcases name with _ | s
    · exact ⟨none, rfl, rfl⟩
    · by_cases hs : s = "auto"
      · exact ⟨some d, by simp [Noise.resolve, hs], by simp [psd.NoiseArg.resolve, named, hs]⟩
      · exact ⟨some s, by simp [Noise.resolve, hs], by simp [psd.NoiseArg.resolve, named, hs]⟩
  have hLres : ∀ (v : Val) (x : ℝ), Denotes v lengthDim x → Denotes ((L.map Prod.fst).getD v) lengthDim
      (psd.LenArg.resolve x (L.elim .auto fun p => .val p.2)) := by
    intro v x hv
    rcases L with _ | p
    · exact hv
    · exact hL p rfl
  have bare : ∀ name', bareNoise t (.model name') = named name' := fun name' => by cases name' <;> rfl
  have dens : ∀ r : WithTop ℝ, DenotesDensity ⟨r, perHz⟩ r := by
    intro r
    refine ⟨?_, ?_⟩
    · show (0 : Dim) - (0, 0, -1) = _
      dims
    · simp only [perHz_scale, mul_one]
      cases r <;> rfl
  have key : ∀ f x, Denotes f freqDim x → ∀ kw : units.PsdKw,
      kw = ⟨instrument, none, L.map Prod.fst, approximate_R, .model name⟩ →
      (∃ d n, units.power_spectral_density K env f t kw = .ok d ∧
        psd.power_spectral_density K env x instrument none (.val τ) (L.elim .auto fun p => .val p.2)
          approximate_R (named name) = .ok n ∧ DenotesDensity d n) ∨
      ∃ e, units.power_spectral_density K env f t kw = .error e ∧
        psd.power_spectral_density K env x instrument none (.val τ) (L.elim .auto fun p => .val p.2)
          approximate_R (named name) = .error e := by
    rintro f x hf kw rfl
    unfold units.power_spectral_density psd.power_spectral_density
    by_cases h1 : instrument = "LISA"
    · obtain ⟨name', hn, hn'⟩ := hres "karnesis21"
      simp only [h1, if_true]
      rw [hn, hn', lisa_eq env approximate_R (.model name') hf ht (hLres (.qty ⟨2.5e9, m⟩) 2.5e9 ⟨rfl, mul_one _⟩),
        bare name']
      show (∃ d n, ((psd.lisa_psd K env x (.val τ) _ approximate_R (named name') >>= fun r => pure ⟨r, perHz⟩)
          : Except PyErr Density) = .ok d ∧ psd.lisa_psd K env x (.val τ) _ approximate_R (named name') = .ok n ∧ _) ∨
        ∃ e, ((psd.lisa_psd K env x (.val τ) _ approximate_R (named name') >>= fun r => pure ⟨r, perHz⟩)
          : Except PyErr Density) = .error e ∧ psd.lisa_psd K env x (.val τ) _ approximate_R (named name') = .error e
      rcases psd.lisa_psd K env x (.val τ) _ approximate_R (named name') with e | r
      · exact .inr ⟨e, rfl, rfl⟩
      · exact .inl ⟨_, r, rfl, rfl, dens r⟩
    by_cases h2 : instrument = "TianQin"
    · obtain ⟨name', hn, hn'⟩ := hres "huang20"
      simp only [h2, if_true, show ¬ ("TianQin" = "LISA") by decide, if_false]
      rw [hn, hn']
      have hkm : Denotes (.qty ⟨Real.sqrt 3 * 1e5, km⟩) lengthDim (Real.sqrt 3 * 1e5 * 1000) := ⟨rfl, rfl⟩
      rcases tianqin_eq (K := K) name' hf ht (hLres _ _ hkm) with ⟨r, h3, h4⟩ | ⟨e, h3, h4⟩
      · refine .inl ⟨_, r, by rw [h4]; rfl, h3, ?_⟩
        refine ⟨?_, ?_⟩
        · show (-1 : ℚ) • ((0, 0, -1) : Dim) = _
          dims
        · show ((r * (1 : ℝ) ^ (((-1 : ℚ)) : ℝ) : ℝ) : WithTop ℝ) = r
          rw [Real.one_rpow, mul_one]
      · exact .inr ⟨e, by rw [h4]; rfl, h3⟩
    by_cases h3 : instrument = "DECIGO"
    · obtain ⟨name', hn, hn'⟩ := hres "karnesis21"
      simp only [h3, if_true, show ¬ ("DECIGO" = "LISA") by decide, show ¬ ("DECIGO" = "TianQin") by decide, if_false]
      rw [hn, hn', decigo_eq (.model name') hf ht (f_low := .qty ⟨1e-3, Hz⟩) (f_high := .qty ⟨1e2, Hz⟩)
        (lo := 1e-3) (hi := 1e2) ⟨rfl, mul_one _⟩ ⟨rfl, mul_one _⟩, bare name']
      show (∃ d n, ((psd.decigo_psd x (.val τ) (named name') 1e-3 1e2 >>= fun r => pure ⟨r, perHz⟩)
          : Except PyErr Density) = .ok d ∧ psd.decigo_psd x (.val τ) (named name') 1e-3 1e2 = .ok n ∧ _) ∨
        ∃ e, ((psd.decigo_psd x (.val τ) (named name') 1e-3 1e2 >>= fun r => pure ⟨r, perHz⟩)
          : Except PyErr Density) = .error e ∧ psd.decigo_psd x (.val τ) (named name') 1e-3 1e2 = .error e
      rcases psd.decigo_psd x (.val τ) (named name') 1e-3 1e2 with e | r
      · exact .inr ⟨e, rfl, rfl⟩
      · exact .inl ⟨_, r, rfl, rfl, dens r⟩
    · simp only [h1, h2, h3, hi, if_false]
      exact .inr ⟨_, rfl, rfl⟩
  have hname : name.elim psd.NoiseArg.none .name = named name := by cases name <;> rfl
  rw [hname]
  refine ⟨rfl, rfl, ht, fun f x hf n hn => ?_, fun f x hf e he => ?_⟩
  · rcases key f x hf _ rfl with ⟨d, n', h1, h2, h3⟩ | ⟨e, h1, h2⟩
    · obtain rfl := Except.ok.inj (h2.symm.trans hn)
      exact ⟨d, h1, h3⟩
    · exact absurd (h2.symm.trans hn) (by simp)
  · rcases key f x hf _ rfl with ⟨d, n', h1, h2, h3⟩ | ⟨e', h1, h2⟩
    · exact absurd (h2.symm.trans he) (by simp)
    · obtain rfl := Except.error.inj (h2.symm.trans he)
      exact h1

/-- Settings with an interpolated curve, which `Source.set_sc` wraps as `interp_sc(f.to(u.Hz)) / u.Hz`. -/
theorem C83_interpolated (env : psd.Env) (kw : units.PsdKw) (kw' : snr.PsdKw) (curve : ℝ → WithTop ℝ)
    (ig : Option (ℤ → ℝ → ℝ)) {t : Val} {τ : ℝ} (ht : Denotes t timeDim τ) :
    SameObservation
      { K, env, kw, interpolated_g := ig, t_obs := t,
        interpolated_sc := some fun f => (f.valueIn Hz).map fun x => ⟨curve x, one / Hz⟩ }
      { K, env, kw := kw', interpolated_g := ig, t_obs := τ, interpolated_sc := some curve } := by
  refine ⟨rfl, rfl, ht, fun f x hf n hn => ?_, fun f x hf e he => by cases he⟩
  cases hn
  refine ⟨⟨curve x, one / Hz⟩, ?_, ?_, ?_⟩
  · show (f.valueIn Hz).map _ = _
    rw [valueIn_hz hf]
    rfl
  · show (0 : Dim) - (0, 0, -1) = _
    dims
  · have : (one / Hz).scale = 1 := perHz_scale
    simp only [this, mul_one]
    cases curve x <;> rfl

/-! ## Non-vacuity -/

/-- A separation of 0.01 AU, a mass in kg and one in solar masses, evolved for ten years: accepted. -/
example : ∃ rows, units.evol_circ Consts.codata2018 (some (.qty ⟨10, yr⟩)) 3 none none (some (.qty ⟨1e31, kg⟩))
    (some (.qty ⟨10, Msun⟩)) (some (.qty ⟨0.01, AU⟩)) none ["timesteps", "a", "f_GW"] = .ok rows ∧
      rows.map Row.unit = [yr, AU, Hz] := by
  have h := C82_circ (K := Consts.codata2018) (b := none) (m₁ := some (.qty ⟨1e31, kg⟩, 1e31))
    (m₂ := some (.qty ⟨10, Msun⟩, 10 * Msun.scale)) (a := some (.qty ⟨0.01, AU⟩, 0.01 * AU.scale)) (f := none)
    (t := some (.qty ⟨10, yr⟩, 10 * yr.scale)) (by simp) (by rintro p ⟨⟩; exact ⟨rfl, mul_one _⟩)
    (by rintro p ⟨⟩; exact ⟨rfl, rfl⟩) (by rintro p ⟨⟩; exact ⟨rfl, rfl⟩) (by simp)
    (by rintro p ⟨⟩; exact ⟨rfl, rfl⟩) 3 (steps := none) (by simp) ["timesteps", "a", "f_GW"]
  obtain ⟨h1, h2⟩ := h
  simp only [Option.map_some, Option.map_none] at h1 h2
  generalize units.evol_circ Consts.codata2018 _ 3 none none _ _ _ none ["timesteps", "a", "f_GW"] = run at h1 h2 ⊢
  rcases run with e | rows
  · exact absurd h1 (by simp [Except.map, evol.evol_circ, evol.check_mass_freq_input, evol.create_timesteps_array,
      evol.construct_output, evol.output_step, evol.wantsFreq, evol.readVar, bind,
      Except.bind, pure, Except.pure])
  · exact ⟨rows, rfl, (h2 rows rfl).trans (by simp [outputUnit])⟩

/-- LISA with its arm length in kilometres observing for four years. -/
example : SameObservation
    { K := Consts.codata2018, env := env, t_obs := .qty ⟨4, yr⟩, kw := { L := some (.qty ⟨2.5e6, km⟩) } }
    { K := Consts.codata2018, env := env, t_obs := 4 * yr.scale, kw := { L := .val (2.5e6 * km.scale) } } :=
  C83_built_in env "LISA" (by decide) (L := some (.qty ⟨2.5e6, km⟩, 2.5e6 * km.scale)) (by rintro p ⟨⟩; exact ⟨rfl, rfl⟩)
    false (some "auto") none ⟨rfl, rfl⟩

end Legwork.Props
