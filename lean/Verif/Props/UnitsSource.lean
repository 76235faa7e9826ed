import Verif.Lemmas.ScCurve
import Verif.Lemmas.UnitsSource
import Verif.Props.Construct
import Verif.Props.SourceEvolve

/-!
# C90: source collections do not depend on units

Every source of a collection made and changed with quantities in any units is at all times the source of the collection
in SI units, which all other properties are about.
-/

namespace Legwork.Props

open Real Legwork.Spec Legwork.units Legwork.source

variable {W : World} {K : Consts} {x : units.Source} {r r' : One}

/-! ## Construction -/

/-- A new collection, by frequencies or by separations. -/
theorem C90_built {cls : Cls} {a : InitArgs} {h h' : Heap} {s : ℕ} (hr : init W cls a h = (.ok s, h'))
    (hp : a.position = none) {i : ℕ} (hi : i < count a.m_1) {m_1 m_2 dist : Val} {f_orb sep : Option Val}
    (h₁ : Denotes m_1 massDim ((valuesOf a.m_1).getD i 0)) (h₂ : Denotes m_2 massDim ((valuesOf a.m_2).getD i 0))
    (hd : Denotes dist lengthDim ((valuesOf a.dist).getD i 0))
    (hf : Option.Rel (fun v y => Denotes v freqDim ((valuesOf y).getD i 0)) f_orb a.f_orb)
    (ha : Option.Rel (fun v y => Denotes v lengthDim ((valuesOf y).getD (if count y = 1 then 0 else i) 0)) sep a.a) :
    ∃ x, units.Source.init W.K m_1 m_2 ((valuesOf a.ecc).getD i 0) dist f_orb sep = .ok x ∧
      SameSource x (rowAt (h'.src s).cols i) := by
  obtain ⟨hu, hb⟩ := C50_built hr
  have hmerged : (rowAt (h'.src s).cols i).merged = false := by
    show (h'.src s).cols.merged.getD i false = false
    rw [hb.fresh.1]
    rw [List.getD_eq_getElem?_getD, List.getElem?_replicate_of_lt hi]
    rfl
  have ht : (rowAt (h'.src s).cols i).t_merge = none := by
    show (h'.src s).cols.t_merge.map _ = none
    rw [hb.fresh.2.1]
    rfl
  have ho : (rowAt (h'.src s).cols i).orient = {} := by
    unfold One.orient
    have : (rowAt (h'.src s).cols i).position = none := by
      show (h'.src s).cols.position.map _ = none
      rw [(hb.unplaced hp).1]
      rfl
    rw [this]
  have hsame : ∀ v, Denotes v freqDim ((h'.src s).cols.f_orb.getD i 0) →
      SameSource { m_1, m_2, ecc := (valuesOf a.ecc).getD i 0, dist, f_orb := v } (rowAt (h'.src s).cols i) := fun v hv => by
    refine ⟨?_, ?_, ?_, hv, ?_, ho.symm, hmerged.symm, ?_⟩
    · show Denotes m_1 massDim ((h'.src s).cols.m_1.getD i 0)
      rw [hb.m_1]
      exact h₁
    · show Denotes m_2 massDim ((h'.src s).cols.m_2.getD i 0)
      rw [hb.m_2]
      exact h₂
    · show Denotes dist lengthDim ((h'.src s).cols.dist.getD i 0)
      rw [hb.dist]
      exact hd
    · show _ = (h'.src s).cols.ecc.getD i 0
      rw [hb.ecc]
    · rw [ht]
      exact .none
  have hall : ∀ {v y}, Denotes v freqDim y → [m_1, m_2, dist, v].all Val.isQuantity = true := fun hv => by
    simp [isQuantity_of h₁ mass_ne, isQuantity_of h₂ mass_ne, isQuantity_of hd length_ne, isQuantity_of hv freq_ne]
  unfold units.Source.init
  rcases hfa : a.f_orb with _ | f
  · rw [hfa] at hf
    cases hf
    rcases hu.orbit with ⟨f, hf', -⟩ | ⟨-, y, hy, -, -⟩
    · rw [hfa] at hf'
      cases hf'
    · rw [hy] at ha
      cases ha with
      | some ha =>
        have hk := (hb.kepler hfa).2 y hy i hi
        have hv : Denotes (express Hz ((h'.src s).cols.f_orb.getD i 0)) freqDim ((h'.src s).cols.f_orb.getD i 0) :=
          express_denotes Hz _
        refine ⟨_, ?_, hsame _ hv⟩
        have he := get_f_orb_from_a_eq (K := W.K) ha h₁ h₂
        rw [← hk] at he
        show (get_f_orb_from_a W.K _ m_1 m_2 >>= fun f => _) = _
        rw [he, ok_bind]
        exact if_pos (hall hv)
  · rw [hfa] at hf
    cases hf with
    | some hf =>
      rw [← hb.f_orb f hfa] at hf
      exact ⟨_, if_pos (hall hf), hsame _ hf⟩

/-- What the constructor checks: an orbit, and units at all. -/
theorem C90_checked (m_1 m_2 dist : Val) (ecc : ℝ) (sep : Option Val) :
    units.Source.init K m_1 m_2 ecc dist none none = .error .ValueError ∧
    (∀ v, ((units.Source.init K m_1 m_2 ecc dist (some v) sep).isOk ↔
      m_1.isQuantity ∧ m_2.isQuantity ∧ dist.isQuantity ∧ v.isQuantity)) ∧
    ∀ v, ¬ (units.Source.init K m_1 m_2 ecc dist (some v) sep).isOk →
      units.Source.init K m_1 m_2 ecc dist (some v) sep = .error .AssertionError := by
  have hv : ∀ v, units.Source.init K m_1 m_2 ecc dist (some v) sep =
      if [m_1, m_2, dist, v].all Val.isQuantity then .ok { m_1, m_2, ecc, dist, f_orb := v } else .error .AssertionError :=
    fun v => rfl
  refine ⟨rfl, fun v => ?_, fun v => ?_⟩
  · rw [hv]
    by_cases hq : [m_1, m_2, dist, v].all Val.isQuantity = true
    · rw [if_pos hq]
      simpa [Except.isOk, Except.toBool] using hq
    · rw [if_neg hq]
      simpa [Except.isOk, Except.toBool] using hq
  · rw [hv]
    by_cases hq : [m_1, m_2, dist, v].all Val.isQuantity = true
    · rw [if_pos hq]
      intro h
      exact absurd rfl h
    · rw [if_neg hq]
      exact fun _ => rfl

/-- It does not check dimensions. Masses which are not masses are noticed when the chirp mass is needed, that is for any
strain or SNR; a distance which is not a length is never noticed: it counts as so many metres. -/
theorem C90_dimensions (m_1 m_2 dist f : Quantity) (ecc : ℝ) (sep : Option Val) :
    ∃ x, units.Source.init K (.qty m_1) (.qty m_2) ecc (.qty dist) (some (.qty f)) sep = .ok x ∧
      (¬ (m_1.unit.dim = massDim ∧ m_2.unit.dim = massDim) → x.m_c = .error .UnitConversionError ∧
        (∀ g ns, x.get_h_0_n K g ns = .error .UnitConversionError ∧ x.get_h_c_n K g ns = .error .UnitConversionError) ∧
        ∀ (U : units.Ctx) (odeint : evol.Odeint) (S : units.Settings) (n : ℕ),
          x.get_snr U odeint S n = .error .UnitConversionError) ∧
      (m_1.unit.dim = massDim → m_2.unit.dim = massDim → f.unit.dim = freqDim → ∀ g ns,
        x.get_h_0_n K g ns = { x with dist := .qty ⟨dist.value * dist.unit.scale, m⟩ }.get_h_0_n K g ns ∧
        x.get_h_c_n K g ns = { x with dist := .qty ⟨dist.value * dist.unit.scale, m⟩ }.get_h_c_n K g ns) := by
  refine ⟨{ m_1 := .qty m_1, m_2 := .qty m_2, ecc, dist := .qty dist, f_orb := .qty f }, rfl, fun hd => ?_,
    fun d1 d2 df g ns => ?_⟩
  · have hm : units.chirp_mass (.qty m_1) (.qty m_2) = .error .UnitConversionError :=
      (C63_masses_checked (K := K) m_1 m_2).1.2 hd
    refine ⟨hm, fun g ns => ⟨?_, ?_⟩, fun U odeint S n => ?_⟩
    · unfold units.Source.get_h_0_n units.Source.strains units.Source.m_c
      rw [hm]
      rfl
    · unfold units.Source.get_h_c_n units.Source.strains units.Source.m_c
      rw [hm]
      rfl
    · unfold units.Source.get_snr units.Source.is_stationary units.Source.m_c
      rw [hm]
      rfl
  · have hm := chirp_mass_eq (m_1 := .qty m_1) (m_2 := .qty m_2) (x₁ := m_1.value * m_1.unit.scale)
      (x₂ := m_2.value * m_2.unit.scale) ⟨d1, rfl⟩ ⟨d2, rfl⟩
    have hd : Denotes (.qty dist) dist.unit.dim (dist.value * dist.unit.scale) := ⟨rfl, rfl⟩
    have hd' : Denotes (.qty ⟨dist.value * dist.unit.scale, m⟩) lengthDim (dist.value * dist.unit.scale) :=
      ⟨rfl, mul_one _⟩
    have hf : Denotes (.qty f) freqDim (f.value * f.unit.scale) := ⟨df, rfl⟩
    have hmc := express_denotes Msun (utils.chirp_mass (m_1.value * m_1.unit.scale) (m_2.value * m_2.unit.scale))
    unfold units.Source.get_h_0_n units.Source.get_h_c_n units.Source.strains units.Source.m_c
    simp only
    rw [hm, ok_bind, ok_bind, ok_bind, ok_bind]
    have h0 : ∀ k, h_0 K g (express Msun _) (.qty dist) (.qty f) ecc k =
        h_0 K g (express Msun _) (.qty ⟨dist.value * dist.unit.scale, m⟩) (.qty f) ecc k := fun k =>
      (h_0_eq hmc hd hf).trans (h_0_eq hmc hd' hf).symm
    have hc : ∀ k, h_c K g (express Msun _) (.qty dist) (.qty f) ecc k =
        h_c K g (express Msun _) (.qty ⟨dist.value * dist.unit.scale, m⟩) (.qty f) ecc k := fun k =>
      (h_c_eq hmc hd hf).trans (h_c_eq hmc hd' hf).symm
    exact ⟨by simp only [express] at h0 ⊢; simp only [h0], by simp only [express] at hc ⊢; simp only [hc]⟩

/-! ## Attributes -/

/-- The chirp mass comes in solar masses and the separation in au. -/
theorem C90_derived (h : SameSource x r) :
    (∃ v, x.m_c = .ok v ∧ Denotes v massDim (utils.chirp_mass r.m_1 r.m_2) ∧ v.unit = Msun) ∧
    ∃ v, x.a K = .ok v ∧ Denotes v lengthDim (utils.get_a_from_f_orb K r.f_orb r.m_1 r.m_2) ∧ v.unit = AU :=
  ⟨⟨_, chirp_si h, express_denotes Msun _, rfl⟩, ⟨_, sep_si h, express_denotes AU _, rfl⟩⟩

/-- Assigning a separation in any unit. -/
theorem C90_set_a (h : SameSource x r) {a : Val} {y : ℝ} (ha : Denotes a lengthDim y) :
    ∃ x', x.set_a K a = .ok x' ∧ SameSource x' { r with f_orb := utils.get_f_orb_from_a K y r.m_1 r.m_2 } ∧
      x'.f_orb.unit = Hz :=
  ⟨_, set_a_si h ha, set_freq_si h (express_denotes Hz _), rfl⟩

/-- The observation time meant by "auto": four years for LISA, five years for others. -/
theorem C90_auto (instrument : String) :
    Denotes (auto_time instrument) timeDim (if instrument = "LISA" then 4 * psd.yr else 5 * psd.yr) := by
  unfold auto_time
  split
  · exact ⟨rfl, rfl⟩
  · exact ⟨rfl, rfl⟩

/-- Whether a source counts as stationary. It must not merge at exactly the time asked about. -/
theorem C90_stationary (h : SameSource x r) (h₁ : 0 < r.m_1) (h₂ : 0 < r.m_2) (hf : 0 < r.f_orb) {t : Val} {T : ℝ}
    (ht : Denotes t timeDim T) (tol : ℝ) (h0 : evol.inner_part K r.f_orb r.m_c T r.ecc ≠ 0) :
    ∃ b, x.is_stationary K t tol = .ok b ∧ (b = true ↔ r.StationaryOver K T tol) := by
  classical
  exact ⟨_, stationary_si h h₁ h₂ hf ht tol h0, by simp⟩

/-! ## Strains -/

private theorem strains_si (h : SameSource x r) (ns : List ℤ)
    {hu : Val → Val → Val → ℝ → ℤ → Except PyErr ℝ} {val : ℝ → ℝ → ℝ → ℝ → ℤ → ℝ}
    (heq : ∀ {m d f : Val} {a b c : ℝ}, Denotes m massDim a → Denotes d lengthDim b → Denotes f freqDim c → ∀ e k,
      hu m d f e k = .ok (val a b c e k)) (row : List ℝ) :
    x.strains hu ns = .ok row ↔ (∀ k ∈ ns, 1 ≤ k) ∧
      if r.merged then row = List.replicate ns.length 0
      else (if ns.any (fun k => decide (k < 1)) then .error .ValueError
        else [r.strainRow].mapM (strain.row_strain val ns)) = .ok [[row]] := by
  have hbad : (ns.any fun k => decide (k < 1)) = false ↔ ∀ k ∈ ns, 1 ≤ k := by simp
  unfold units.Source.strains
  rw [chirp_si h, ok_bind, h.merged, h.orient, h.ecc]
  by_cases hk : (ns.any fun k => decide (k < 1)) = true
  · rw [if_pos hk]
    refine ⟨fun q => (by cases q), fun q => ?_⟩
    rw [← hbad, hk] at q
    cases q.1
  · have hk' := hbad.1 (by simpa using hk)
    rw [if_neg hk, if_neg hk]
    show (if r.merged = true then _ else _) = _ ↔ _
    by_cases hm : r.merged = true
    · rw [if_pos hm, if_pos hm]
      exact ⟨fun q => ⟨hk', (Except.ok.inj q).symm⟩, fun q => by rw [q.2]; rfl⟩
    · rw [if_neg hm, if_neg hm]
      rw [mapM_singleton_ok]
      unfold strain.row_strain One.strainRow
      rcases strain.modulation r.orient with e | m
      · refine ⟨fun q => (by cases q), fun q => (by cases q.2)⟩
      · have hl : (ns.mapM fun n => do
            pure (m * (← hu (express Msun r.m_c) x.dist x.f_orb r.ecc n))) =
              (.ok (ns.map fun k => m * val r.m_c r.dist r.f_orb r.ecc k) : Except PyErr (List ℝ)) := by
          clear hk hk' hbad
          induction ns with
          | nil => rfl
          | cons k ks ih =>
            rw [List.mapM_cons, ih, heq (express_denotes Msun r.m_c) h.dist h.f_orb]
            rfl
        rw [ok_bind, hl]
        constructor
        · intro q
          obtain rfl := Except.ok.inj q
          exact ⟨hk', rfl⟩
        · rintro ⟨-, q⟩
          have := Except.ok.inj q
          simp only [List.map_cons, List.map_nil, List.cons.injEq, and_true] at this
          rw [this]

/-- Strains: zeros for a merged source, else what `strain.h_0_n` gives in SI units. -/
theorem C90_h_0_n (h : SameSource x r) (g : Option (ℤ → ℝ → ℝ)) (ns : List ℤ) (row : List ℝ) :
    x.get_h_0_n K g ns = .ok row ↔ (∀ k ∈ ns, 1 ≤ k) ∧
      if r.merged then row = List.replicate ns.length 0 else strain.h_0_n K g ns [r.strainRow] = .ok [[row]] := by
  unfold strain.h_0_n units.Source.get_h_0_n
  exact strains_si h ns (hu := h_0 K g) (val := strain.h_0_val K g) (fun hm hd hf _ _ => h_0_eq hm hd hf) row

/-- Characteristic strains likewise. -/
theorem C90_h_c_n (h : SameSource x r) (g : Option (ℤ → ℝ → ℝ)) (ns : List ℤ) (row : List ℝ) :
    x.get_h_c_n K g ns = .ok row ↔ (∀ k ∈ ns, 1 ≤ k) ∧
      if r.merged then row = List.replicate ns.length 0 else strain.h_c_n K g ns [r.strainRow] = .ok [[row]] := by
  unfold strain.h_c_n units.Source.get_h_c_n
  exact strains_si h ns (hu := h_c K g) (val := strain.h_c_val K g) (fun hm hd hf _ _ => h_c_eq hm hd hf) row

/-! ## Time -/

/-- Merger times come in Gyr. -/
theorem C90_merger_time (h : SameSource x r) (he : 0 ≤ r.ecc) {ex : Bool} {t : ℝ} (ht : MergerTimeOf K ex r t) :
    ∃ v, x.get_merger_time K ex = .ok v ∧ Denotes v timeDim t ∧ v.unit = Gyr :=
  ⟨_, merger_si h he ht, express_denotes Gyr t, rfl⟩

/-- Storing them. -/
theorem C90_saved (h : SameSource x r) (he : 0 ≤ r.ecc) {ex : Bool} {t : ℝ} (ht : MergerTimeOf K ex r t) :
    ∃ x', x.save_merger_time K ex = .ok x' ∧ SameSource x' { r with t_merge := some t } := by
  refine ⟨{ x with t_merge := some (express Gyr t) }, ?_, ?_⟩
  · unfold units.Source.save_merger_time
    rw [merger_si h he ht]
    rfl
  · exact ⟨h.m_1, h.m_2, h.dist, h.f_orb, h.ecc, h.orient, h.merged, .some (express_denotes Gyr t)⟩

/-- Evolution for a time in any unit: the orbit comes in Hz, the time left in Gyr. -/
theorem C90_evolve (h : SameSource x r) (he : 0 ≤ r.ecc) {t : Val} {T : ℝ} (ht : Denotes t timeDim T)
    (hev : EvolvesTo W T r r') :
    ∃ x', x.evolve W.K W.odeint t = .ok x' ∧ SameSource x' r' ∧ x'.f_orb.unit = Hz ∧
      x'.t_merge.map Val.unit = some Gyr := by
  obtain ⟨tl, h1, h2⟩ := evolve_si h he ht hev
  refine ⟨_, h1, ?_, rfl, rfl⟩
  have hs := hev.same
  have m1 : r'.m_1 = r.m_1 := by rw [hs]
  have m2 : r'.m_2 = r.m_2 := by rw [hs]
  have d : r'.dist = r.dist := by rw [hs]
  have o : r'.orient = r.orient := by rw [hs]; rfl
  refine ⟨m1 ▸ h.m_1, m2 ▸ h.m_2, d ▸ h.dist, express_denotes Hz _, rfl, o ▸ h.orient, rfl, ?_⟩
  rw [h2]
  exact .some (express_denotes Gyr tl)

/-- A duration must be a time: other quantities and plain numbers are refused. -/
theorem C90_time_checked (h : SameSource x r) (he : 0 ≤ r.ecc) (odeint : evol.Odeint) :
    (∀ q : Quantity, q.unit.dim ≠ timeDim → x.evolve K odeint (.qty q) = .error .UnitConversionError) ∧
    (∀ y, y ≠ 0 → x.evolve K odeint (.num y) = .error .UnitConversionError) ∧
    x.evolve K odeint (.num 0) = .error .AttributeError := by
  obtain ⟨tm, htm⟩ : ∃ tm, TimeLeft K r tm := by
    unfold TimeLeft
    cases r.t_merge with
    | none => exact ⟨_, mergerTimeOf_iff.2 rfl⟩
    | some t => exact ⟨t, rfl⟩
  obtain ⟨v, hv, hvd⟩ := time_left_si h he htm
  obtain ⟨p, rfl, hp, -⟩ := qty_of_denotes hvd time_ne
  have hrun : ∀ t, x.evolve K odeint t = (do
      let merged ← t.ge (.qty p)
      let (ecc, f_orb) ← if merged then do
          let _ ← t.value
          pure (0, .qty ⟨100, Hz⟩)
        else x.evolved_orbit K odeint t
      let left ← Quantity.maximum ⟨0, Gyr⟩ (← (Val.qty p).sub t)
      pure { x with ecc, f_orb, merged, t_merge := some left }) := fun t => by
    unfold units.Source.evolve
    rcases hx : x.t_merge with _ | t₀ <;> simp only [hx] at hv
    · rw [hv]
      rfl
    · obtain rfl := Except.ok.inj hv
      rfl
  have herr : ∀ (t : Val) (e : PyErr), t.ge (.qty p) = .error e → x.evolve K odeint t = .error e := fun t e ht => by
    rw [hrun, ht]
    rfl
  have hdim : p.unit.dim ≠ 0 := hp ▸ time_ne
  refine ⟨fun q hq => herr _ _ ?_, fun y hy => herr _ _ ?_, ?_⟩
  · show (p.to q.unit).map _ = _
    unfold Quantity.to
    rw [if_neg (fun hc => hq (hc.symm.trans hp))]
    rfl
  · show (if p.unit.dim = 0 then _ else if y = 0 then _ else _) = _
    rw [if_neg hdim, if_neg hy]
  · have h0 : (Val.num 0).ge (.qty p) = .ok (decide (0 ≥ p.value)) := by
      show (if p.unit.dim = 0 then _ else if (0 : ℝ) = 0 then _ else _) = _
      rw [if_neg hdim, if_pos rfl]
    rw [hrun, h0, ok_bind]
    cases decide (0 ≥ p.value) <;> rfl

/-! ## Signal-to-noise ratio -/

/-- The SNR of a source that has not merged: what `get_snr` gives in SI units, see `SnrFor`. -/
theorem C90_snr {U : units.Ctx} {C : snr.Ctx} (hU : SameObservation U C) (odeint : evol.Odeint) (S : units.Settings)
    {n : ℕ} (hn : n ≠ 0) (h : SameSource x r) (he : 0 ≤ r.ecc) (h₁ : 0 < r.m_1) (h₂ : 0 < r.m_2) (hf : 0 < r.f_orb)
    (h0 : evol.inner_part C.K r.f_orb r.m_c C.t_obs r.ecc ≠ 0) (v : Option ℝ) (harm : ℕ) :
    x.get_snr U odeint S n = .ok (v, harm) ↔
      (r.StationaryOver C.K C.t_obs S.stat_tol → StationarySnr C S.ecc_tol S.harmonics_required r v harm) ∧
      (¬ r.StationaryOver C.K C.t_obs S.stat_tol → EvolvingSnr C odeint n S.ecc_tol S.harmonics_required r v harm) := by
  unfold units.Source.get_snr
  rw [hU.consts, stationary_si h h₁ h₂ hf hU.time S.stat_tol h0, ok_bind]
  by_cases hs : r.StationaryOver C.K C.t_obs S.stat_tol
  · simp only [hs, decide_true, if_true, not_true_eq_false, false_imp_iff, and_true, true_imp_iff]
    exact stat_si hU h
  · simp only [hs, decide_false, Bool.false_eq_true, if_false, not_false_eq_true, true_imp_iff, false_imp_iff, true_and]
    exact evol_si hU odeint h he hn

/-! ## Sensitivity curve -/

private theorem built_in_unit {env : psd.Env} {kw : units.PsdKw} (hi : kw.instrument ≠ "custom") {f t : Val} {d : Density}
    (hd : units.power_spectral_density K env f t kw = .ok d) : d.unit.scale = 1 := by
  unfold units.power_spectral_density at hd
  split_ifs at hd
  · obtain ⟨v, -, hv⟩ := except_bind_ok.1 hd
    obtain rfl := Except.ok.inj hv
    exact perHz_scale
  · obtain ⟨v, hv, hv'⟩ := except_bind_ok.1 hd
    obtain rfl := Except.ok.inj hv'
    have hto : ∀ {w : Val}, w.to (Hz ^ (-1 : ℚ)) = .ok v → (Density.ofVal v).unit.scale = 1 := fun {w} hw => by
      rcases w with y | q
      · cases hw
      · have hq : (q.to (Hz ^ (-1 : ℚ))).map Val.qty = .ok v := hw
        unfold Quantity.to at hq
        split_ifs at hq
        · obtain rfl := Except.ok.inj hq
          exact Real.one_rpow _
        · cases hq
    unfold tianqin_psd at hv
    obtain ⟨_, -, hv⟩ := except_bind_ok.1 hv
    obtain ⟨_, -, hv⟩ := except_bind_ok.1 hv
    obtain ⟨_, -, hv⟩ := except_bind_ok.1 hv
    rcases hcn : kw.confusion_noise.resolve "huang20" with name | noise <;> rw [hcn] at hv
    all_goals
      obtain ⟨_, -, hv⟩ := except_bind_ok.1 hv
      obtain ⟨_, -, hv⟩ := except_bind_ok.1 hv
      exact hto hv
  · obtain ⟨v, -, hv⟩ := except_bind_ok.1 hd
    obtain rfl := Except.ok.inj hv
    exact perHz_scale

private theorem perHz_dim : (one / Hz).dim = timeDim := by
  show (0 : Dim) - (0, 0, -1) = _
  dims

private theorem map_one (n : WithTop ℝ) : n.map (fun y => y * (1 : ℝ)) = n := by
  simp only [mul_one]
  cases n <;> rfl

/-- With interpolation, the curve of a collection for a built-in instrument is the interpolation of the SI one: if the
settings describe the same observation without interpolation, they do so with it. -/
theorem C90_curve {U : units.Ctx} {C : snr.Ctx} (hU : SameObservation U C) (hi : U.kw.instrument ≠ "custom")
    (h1 : U.interpolated_sc = none) (sc : List (WithTop ℝ)) (hsc : frequency_range.mapM (snr.noise C) = .ok sc) :
    ∃ curve, units.set_sc U.K U.env U.t_obs U.kw true = .ok curve ∧
      SameObservation { U with interpolated_sc := curve }
        { C with interpolated_sc := some (interp_sc (frequency_range.zip sc)) } := by
  have hnum : ∀ f ∈ frequency_range, ∀ n, snr.noise C f = .ok n →
      ∃ d, units.power_spectral_density U.K U.env (.qty ⟨f, Hz⟩) U.t_obs U.kw = .ok d ∧ d.number = n := by
    intro f _ n hn
    obtain ⟨d, hd, hd'⟩ := hU.noise (.qty ⟨f, Hz⟩) f ⟨rfl, mul_one _⟩ n hn
    unfold units.noise at hd
    rw [h1] at hd
    refine ⟨d, hd, ?_⟩
    have := hd'.2
    rw [built_in_unit hi hd, map_one] at this
    exact this
  have hall : ∀ l : List ℝ, (∀ f ∈ l, f ∈ frequency_range) → ∀ ns, l.mapM (snr.noise C) = .ok ns →
      ∃ ds, (l.mapM fun f => units.power_spectral_density U.K U.env (.qty ⟨f, Hz⟩) U.t_obs U.kw) = .ok ds ∧
        ds.map Density.number = ns := by
    intro l
    induction l with
    | nil =>
      intro _ ns hns
      obtain rfl := Except.ok.inj hns
      exact ⟨[], rfl, rfl⟩
    | cons f l ih =>
      intro hl ns hns
      rw [List.mapM_cons] at hns
      obtain ⟨n, hn, hns⟩ := except_bind_ok.1 hns
      obtain ⟨ns', hn', hns⟩ := except_bind_ok.1 hns
      obtain rfl := Except.ok.inj hns
      obtain ⟨d, hd, rfl⟩ := hnum f (hl f (List.mem_cons_self ..)) n hn
      obtain ⟨ds, hds, rfl⟩ := ih (fun g hg => hl g (List.mem_cons_of_mem _ hg)) ns' hn'
      exact ⟨d :: ds, by rw [List.mapM_cons, hd, hds]; rfl, rfl⟩
  obtain ⟨ds, hds, rfl⟩ := hall frequency_range (fun _ hf => hf) sc hsc
  refine ⟨some fun f => do pure ⟨interp_sc (frequency_range.zip (ds.map Density.number)) (← f.valueIn Hz), one / Hz⟩,
    by unfold units.set_sc; rw [if_pos rfl, hds]; rfl, hU.consts, hU.g, hU.time, fun f y hf n hn => ?_,
    fun f y hf e he => by cases he⟩
  obtain rfl := Except.ok.inj hn
  refine ⟨⟨interp_sc (frequency_range.zip (ds.map Density.number)) y, one / Hz⟩, ?_, ?_, ?_⟩
  · show (f.valueIn Hz >>= fun z => pure _) = _
    rw [valueIn_hz hf]
    rfl
  · exact perHz_dim
  · show WithTop.map (fun z => z * perHz.scale) _ = _
    rw [perHz_scale, map_one]

/-- But units are lost on the way. A user function returning the noise `n` in some unit of spectral density is
interpolated as if its numbers were in 1/Hz: without interpolation the noise is `n`, with interpolation it is
`n` divided by the size of the unit. -/
theorem C90_custom_unit (env : psd.Env) {t : Val} {u : PyUnit} (hu : u.dim = timeDim) (n : ℝ → ℝ) {kw : units.PsdKw}
    (hi : kw.instrument = "custom") {custom : CustomPsd} (hc : kw.custom_psd = some custom)
    (hn : ∀ f y, Denotes f freqDim y → custom f kw.L t kw.approximate_R kw.confusion_noise = .ok ⟨(n y / u.scale : ℝ), u⟩) :
    (∀ f y, Denotes f freqDim y → ∃ d, units.power_spectral_density K env f t kw = .ok d ∧ DenotesDensity d (n y : ℝ)) ∧
    ∃ curve, units.set_sc K env t kw true = .ok (some curve) ∧ ∀ i < 10000, ∀ f, Denotes f freqDim (scGrid i) →
      ∃ d, curve f = .ok d ∧ DenotesDensity d (n (scGrid i) / u.scale : ℝ) := by
  have hp : ∀ f, units.power_spectral_density K env f t kw = custom f kw.L t kw.approximate_R kw.confusion_noise :=
    fun f => by
      unfold units.power_spectral_density
      simp only [hi, hc, show ¬ ("custom" = "LISA") by decide, show ¬ ("custom" = "TianQin") by decide,
        show ¬ ("custom" = "DECIGO") by decide, if_false, if_true]
  refine ⟨fun f y hf => ⟨_, (hp f).trans (hn f y hf), hu, ?_⟩, ?_⟩
  · show (((n y / u.scale * u.scale : ℝ)) : WithTop ℝ) = _
    rw [div_mul_cancel₀ _ u.pos.ne']
  · have hm : ∀ l : List ℝ, (l.mapM fun f => units.power_spectral_density K env (.qty ⟨f, Hz⟩) t kw) =
        .ok (l.map fun f => ⟨(n f / u.scale : ℝ), u⟩) := fun l => by
      induction l with
      | nil => rfl
      | cons f l ih =>
        rw [List.mapM_cons, ih, hp, hn (.qty ⟨f, Hz⟩) f ⟨rfl, mul_one _⟩]
        rfl
    refine ⟨_, by unfold units.set_sc; rw [if_pos rfl, hm]; rfl, fun i hi' f hf => ?_⟩
    refine ⟨⟨(n (scGrid i) / u.scale : ℝ), one / Hz⟩, ?_, perHz_dim, ?_⟩
    · show (f.valueIn Hz >>= fun z => pure _) = _
      rw [valueIn_hz hf, ok_bind]
      show Except.ok (Density.mk _ _) = _
      rw [interp_sc_grid (by simp [frequency_range_length]) hi']
      simp [frequency_range_eq]
    · show WithTop.map (fun z => z * perHz.scale) _ = _
      rw [perHz_scale, map_one]

/-! ## Whole sessions -/

private theorem ecc_nonneg_after (hk : KeepsSign W.odeint) {T : ℝ} (he : 0 ≤ r.ecc) (hev : EvolvesTo W T r r') :
    0 ≤ r'.ecc := by
  obtain ⟨tm, -, -, ⟨-, -, -, h0⟩ | ⟨-, -, ho⟩⟩ := hev.change
  · exact h0.ge
  · rw [orbitAfter_iff] at ho
    split_ifs at ho
    · exact ho.1.ge
    · rw [ho.1]
      unfold eccLast eccRun
      have := hk (utils.beta W.K r.m_1 r.m_2) (c01 W.K r) r.ecc T he
      rw [← linspace_two] at this
      generalize W.odeint _ _ _ = l at this ⊢
      rcases List.eq_nil_or_concat l with rfl | ⟨l', y, rfl⟩
      · exact le_rfl
      · rw [List.concat_eq_append] at this ⊢
        rw [List.map_append, List.map_singleton, List.getLastD_concat]
        exact this y (by simp)

private theorem step {s n : ℕ} {u : UStep} {op : Op} (hop : SameStep s n u op) (hk : KeepsSign W.odeint) {h : Heap}
    {X : ℕ → units.Source} (hr : Rect (h.src s).cols) (hn : (h.src s).cols.n_sources = n)
    (hX : SameCollection X (h.src s).cols) (he : ∀ i < n, 0 ≤ (rowAt (h.src s).cols i).ecc) :
    ∃ X' h', (∀ i < n, u.run W.K W.odeint i (X i) = .ok (X' i)) ∧ op.run W h = (.ok (), h') ∧
      Rect (h'.src s).cols ∧ (h'.src s).cols.n_sources = n ∧ SameCollection X' (h'.src s).cols ∧
      ∀ i < n, 0 ≤ (rowAt (h'.src s).cols i).ecc := by
  have : Nonempty units.Source := ⟨X 0⟩
  unfold SameCollection at hX
  rw [hn] at hX
  have finish : ∀ (h' : Heap), op.run W h = (.ok (), h') → Rect (h'.src s).cols → (h'.src s).cols.n_sources = n →
      (∀ i < n, ∃ x', u.run W.K W.odeint i (X i) = .ok x' ∧ SameSource x' (rowAt (h'.src s).cols i)) →
      (∀ i < n, 0 ≤ (rowAt (h'.src s).cols i).ecc) → ∃ X' h', (∀ i < n, u.run W.K W.odeint i (X i) = .ok (X' i)) ∧
        op.run W h = (.ok (), h') ∧ Rect (h'.src s).cols ∧ (h'.src s).cols.n_sources = n ∧
        SameCollection X' (h'.src s).cols ∧ ∀ i < n, 0 ≤ (rowAt (h'.src s).cols i).ecc := by
    intro h' h1 h2 h3 h4 h5
    choose! X' hX' using h4
    exact ⟨X', h', fun i hi => (hX' i hi).1, h1, h2, h3, fun i hi => (hX' i (h3 ▸ hi)).2, h5⟩
  cases u with
  | set_a a =>
    cases op with
    | setA s' xs =>
      obtain ⟨rfl, hl, ha⟩ := hop
      have hrow : ∀ i < n, rowAt { (h.src s').cols with f_orb := freqs W.K (h.src s').cols xs } i =
          { rowAt (h.src s').cols i with
            f_orb := utils.get_f_orb_from_a W.K (xs.getD i 0) (rowAt (h.src s').cols i).m_1 (rowAt (h.src s').cols i).m_2 } :=
        fun i hi => by
        have : (freqs W.K (h.src s').cols xs).getD i 0 = _ := getD_range (hn ▸ hi) _ _
        unfold rowAt at this ⊢
        simp only [this]
      refine finish _ (set_a_run hr (hl.trans hn.symm)) ?_ ?_ ?_ ?_ <;>
        rw [setSrc_src, Function.update_self]
      · exact ⟨hr.m_2, hr.dist, by simp [Cols.n_sources, freqs], hr.ecc, hr.merged, hr.weights, hr.position,
          hr.inclination, hr.polarisation, hr.t_merge, hr.angles⟩
      · exact hn
      · intro i hi
        obtain ⟨x', h1, h2, -⟩ := C90_set_a (K := W.K) (hX i hi) (ha i hi)
        exact ⟨x', h1, by simpa only [hrow i hi] using h2⟩
      · exact he
    | _ => exact hop.elim
  | get_merger_time ex =>
    cases op with
    | mergerTime s' save w ex' =>
      obtain ⟨rfl, rfl, rfl⟩ := hop
      obtain ⟨ts, h1, h2⟩ := C58_saved (W := W) hr w ex'
      have hl : ts.length = n := by
        rw [← h2.length_eq, rows, List.length_map, List.length_range, hn]
      have hrow : ∀ i < n, MergerTimeOf W.K ex' (rowAt (h.src s').cols i) (ts.getD i 0) := fun i hi => by
        have := (List.forall₂_iff_get.1 h2).2 i (by simpa [rows, hn] using hi) (hl ▸ hi)
        rw [List.getD_eq_getElem?_getD, List.getElem?_eq_getElem (hl ▸ hi)]
        simpa [rows] using this
      have hrun : (Op.mergerTime s' true w ex').run W h = (.ok (), { h with
          src := Function.update h.src s' { h.src s' with cols := { (h.src s').cols with t_merge := some ts } } }) := by
        show (get_merger_time W s' true w ex' >>= fun _ => pure ()) h = _
        rw [PyM.bind_run, h1]
        rfl
      refine finish _ hrun ?_ ?_ ?_ ?_ <;> simp only [Function.update_self]
      · exact ⟨hr.m_2, hr.dist, hr.f_orb, hr.ecc, hr.merged, hr.weights, hr.position, hr.inclination, hr.polarisation,
          fun y hy => by cases hy; exact hl.trans hn.symm, hr.angles⟩
      · exact hn
      · intro i hi
        exact C90_saved (hX i hi) (he i hi) (hrow i hi)
      · exact he
    | _ => exact hop.elim
  | evolve_sources t =>
    cases op with
    | evolve s' τ =>
      obtain ⟨rfl, T, hT, ht⟩ := hop
      rw [← hn] at hT
      obtain ⟨h', h1, h2, h3, h4, -⟩ := C45_evolve (W := W) hr hT
      rw [hn] at h3 h4
      refine finish h' h1 h2 h3 (fun i hi => ?_) fun i hi => ?_
      · obtain ⟨x', h5, h6, -⟩ := C90_evolve (hX i hi) (he i hi) (ht i hi) (h4 i hi)
        exact ⟨x', h5, h6⟩
      · exact ecc_nonneg_after hk (he i hi) (h4 i hi)
    | _ => exact hop.elim

/-- Sessions. -/
theorem C90_session (hk : KeepsSign W.odeint) {s n : ℕ} (steps : List (UStep × Op))
    (hs : ∀ p ∈ steps, SameStep s n p.1 p.2) {h : Heap} {X : ℕ → units.Source} (hr : Rect (h.src s).cols)
    (hn : (h.src s).cols.n_sources = n) (hX : SameCollection X (h.src s).cols)
    (he : ∀ i < n, 0 ≤ (rowAt (h.src s).cols i).ecc) :
    ∃ X' h', (∀ i < n, runUnits W.K W.odeint i (X i) (steps.map Prod.fst) = .ok (X' i)) ∧
      runOps W (steps.map Prod.snd) h = (.ok (), h') ∧ SameCollection X' (h'.src s).cols := by
  induction steps generalizing h X with
  | nil => exact ⟨X, h, fun i _ => rfl, rfl, hX⟩
  | cons p ps ih =>
    obtain ⟨X₁, h₁, h1, h2, h3, h4, h5, h6⟩ := step (hs p (List.mem_cons_self ..)) hk hr hn hX he
    obtain ⟨X₂, h₂, h7, h8, h9⟩ := ih (fun q hq => hs q (List.mem_cons_of_mem _ hq)) h3 h4 h5 h6
    refine ⟨X₂, h₂, fun i hi => ?_, ?_, h9⟩
    · show (p.1.run W.K W.odeint i (X i) >>= fun x => runUnits W.K W.odeint i x (ps.map Prod.fst)) = _
      rw [h1 i hi]
      exact h7 i hi
    · show (p.2.run W >>= fun _ => runOps W (ps.map Prod.snd)) h = _
      rw [PyM.bind_run, h2]
      exact h8

/-! ## Non-vacuity -/

/-- The two binaries of `Example.heap`, with masses in kg and solar masses and distances in km. -/
noncomputable def example_units (i : ℕ) : units.Source where
  m_1 := .qty ⟨Example.cols.m_1.getD i 0, kg⟩
  m_2 := .qty ⟨Example.cols.m_2.getD i 0 / Msun.scale, Msun⟩
  ecc := Example.cols.ecc.getD i 0
  dist := .qty ⟨Example.cols.dist.getD i 0 / km.scale, km⟩
  f_orb := .qty ⟨Example.cols.f_orb.getD i 0, Hz⟩

theorem example_same : SameCollection example_units (Example.heap.src 0).cols := by
  intro i hi
  have hcols : (Example.heap.src 0).cols = Example.cols := rfl
  rw [hcols] at hi ⊢
  refine ⟨⟨rfl, mul_one _⟩, express_denotes Msun _, express_denotes km _, ⟨rfl, mul_one _⟩, rfl, rfl, ?_, .none⟩
  show false = Example.cols.merged.getD i false
  match i, hi with
  | 0, _ => rfl
  | 1, _ => rfl

theorem example_signs (i : ℕ) (hi : i < 2) : 0 ≤ (rowAt (Example.heap.src 0).cols i).ecc := by
  match i, hi with
  | 0, _ => exact le_rfl
  | 1, _ =>
    show (0 : ℝ) ≤ 0.3
    norm_num

theorem example_keeps_sign : KeepsSign Example.world.odeint := by
  intro β c e t he y hy
  obtain ⟨-, -, rfl⟩ := List.mem_map.1 hy
  exact he

/-- A session: merger times are stored, separations of 1e6 km and 0.01 au assigned, a year passes for one source and
half a day less for the other. -/
example : ∃ X' h', (∀ i < 2, runUnits Example.world.K Example.world.odeint i (example_units i)
      [.get_merger_time true, .set_a fun i => if i = 0 then .qty ⟨1e6, km⟩ else .qty ⟨0.01, AU⟩,
        .evolve_sources fun i => if i = 0 then .qty ⟨1, yr⟩ else .qty ⟨1 - 1e-3, yr⟩] = .ok (X' i)) ∧
    runOps Example.world [.mergerTime 0 true none true, .setA 0 [1e6 * km.scale, 0.01 * AU.scale],
      .evolve 0 (.array [psd.yr, (1 - 1e-3) * psd.yr])] Example.heap = (.ok (), h') ∧ SameCollection X' (h'.src 0).cols := by
  refine C90_session (n := 2) example_keeps_sign
    [(.get_merger_time true, .mergerTime 0 true none true),
     (.set_a fun i => if i = 0 then .qty ⟨1e6, km⟩ else .qty ⟨0.01, AU⟩, .setA 0 [1e6 * km.scale, 0.01 * AU.scale]),
     (.evolve_sources fun i => if i = 0 then .qty ⟨1, yr⟩ else .qty ⟨1 - 1e-3, yr⟩,
      .evolve 0 (.array [psd.yr, (1 - 1e-3) * psd.yr]))] (fun q hq => ?_) example_rect rfl example_same
    example_signs
  simp only [List.mem_cons, List.not_mem_nil, or_false] at hq
  rcases hq with rfl | rfl | rfl
  · exact ⟨rfl, rfl, rfl⟩
  · refine ⟨rfl, rfl, fun i hi => ?_⟩
    match i, hi with
    | 0, _ => exact ⟨rfl, rfl⟩
    | 1, _ => exact ⟨rfl, rfl⟩
  · refine ⟨rfl, fun i => if i = 0 then psd.yr else (1 - 1e-3) * psd.yr, ⟨rfl, fun i hi => ?_⟩, fun i hi => ?_⟩
    · match i, hi with
      | 0, _ => rfl
      | 1, _ => rfl
    · match i, hi with
      | 0, _ => exact ⟨rfl, one_mul _⟩
      | 1, _ => exact ⟨rfl, rfl⟩

/-- Observation times: of any two, at least one is not exactly the time at which a given source merges. -/
theorem example_times (K : Consts) {f m_c e T T' : ℝ} (hm : 0 < m_c) (he : 0 ≤ e) (he' : e < 1) (hT : T ≠ T') :
    evol.inner_part K f m_c T e ≠ 0 ∨ evol.inner_part K f m_c T' e ≠ 0 := by
  by_contra hc
  push Not at hc
  obtain ⟨h1, h2⟩ := hc
  have hp : 0 < utils.peters_f e := by
    unfold utils.peters_f
    have : 0 < 1 - e ^ 2 := by nlinarith
    positivity
  have hG := K.G_pos
  have hc := K.c_pos
  have hk : 0 < 2 ^ (32 / 3 : ℝ) * π ^ (8 / 3 : ℝ) / (5 * K.c ^ 5) * (K.G * m_c) ^ (5 / 3 : ℝ) * utils.peters_f e := by
    positivity
  apply hT
  apply mul_left_cancel₀ hk.ne'
  unfold evol.inner_part at h1 h2
  have : ∀ t : ℝ, 2 ^ (32 / 3 : ℝ) * π ^ (8 / 3 : ℝ) / (5 * K.c ^ 5) * (K.G * m_c) ^ (5 / 3 : ℝ) * utils.peters_f e * t =
      2 ^ (32 / 3 : ℝ) * π ^ (8 / 3 : ℝ) * t / (5 * K.c ^ 5) * (K.G * m_c) ^ (5 / 3 : ℝ) * utils.peters_f e := fun t => by
    ring
  rw [this, this]
  linarith

/-- Whether the second source of the example is stationary over four or over five years. -/
example : (∃ b, (example_units 1).is_stationary Example.world.K (.qty ⟨4, yr⟩) 0.01 = .ok b ∧
      (b = true ↔ (rowAt (Example.heap.src 0).cols 1).StationaryOver Example.world.K (4 * yr.scale) 0.01)) ∨
    ∃ b, (example_units 1).is_stationary Example.world.K (.qty ⟨5, yr⟩) 0.01 = .ok b ∧
      (b = true ↔ (rowAt (Example.heap.src 0).cols 1).StationaryOver Example.world.K (5 * yr.scale) 0.01) := by
  have h1 : 0 < (rowAt (Example.heap.src 0).cols 1).m_1 := by show (0 : ℝ) < 3e30; norm_num
  have h2 : 0 < (rowAt (Example.heap.src 0).cols 1).m_2 := by show (0 : ℝ) < 2e30; norm_num
  have hf : 0 < (rowAt (Example.heap.src 0).cols 1).f_orb := by show (0 : ℝ) < 1e-4; norm_num
  have he : (rowAt (Example.heap.src 0).cols 1).ecc < 1 := by show (0.3 : ℝ) < 1; norm_num
  have hne : (4 * yr.scale : ℝ) ≠ 5 * yr.scale := by
    have := yr.pos
    intro h
    linarith
  have hx := example_same 1 (by show 1 < 2; norm_num)
  rcases example_times Example.world.K (f := (rowAt (Example.heap.src 0).cols 1).f_orb) (C03_pos h1 h2)
    (example_signs 1 (by norm_num)) he hne with h | h
  · exact .inl (C90_stationary (t := .qty ⟨4, yr⟩) hx h1 h2 hf ⟨rfl, rfl⟩ 0.01 h)
  · exact .inr (C90_stationary (t := .qty ⟨5, yr⟩) hx h1 h2 hf ⟨rfl, rfl⟩ 0.01 h)

/-- The constructor: the second source of the example, with its first mass in solar masses. -/
example : ∃ x, units.Source.init Example.world.K (.qty ⟨3e30 / Msun.scale, Msun⟩) (.qty ⟨2e30, kg⟩) 0.3
    (.qty ⟨2e17, km⟩) (some (.qty ⟨1e-4, Hz⟩)) none = .ok x ∧ SameSource x (rowAt (Example.heap.src 0).cols 1) :=
  C90_built Example.init_start rfl (i := 1) (by decide) (express_denotes Msun _) ⟨rfl, mul_one _⟩
    ⟨rfl, by show (2e17 : ℝ) * 1000 = 2e20; norm_num⟩ (.some ⟨rfl, mul_one _⟩) .none

/-- The noise 1e-40/Hz, returned in years. -/
example : ∃ curve, units.set_sc Consts.codata2018 env (.qty ⟨4, yr⟩)
      { instrument := "custom", custom_psd := some fun _ _ _ _ _ => .ok ⟨(1e-40 / yr.scale : ℝ), yr⟩ } true =
        .ok (some curve) ∧
    ∀ i < 10000, ∀ f, Denotes f freqDim (scGrid i) → ∃ d, curve f = .ok d ∧ DenotesDensity d (1e-40 / yr.scale : ℝ) :=
  (C90_custom_unit env (u := yr) rfl (fun _ => 1e-40) (kw := { instrument := "custom", custom_psd := some _ }) rfl rfl
    fun _ _ _ => rfl).2

end Legwork.Props
