import Verif.Lemmas.EvolveRun
import Verif.Lemmas.SnrOf
import Verif.Lemmas.UnitsSnr
import Verif.Props.SourceDerived
import Verif.Props.Units
import Verif.Props.UnitsSnr
import Verif.Spec.UnitsSource

/-!
# Sources with units
-/

namespace Legwork.units

open Legwork.Spec Legwork.source

variable {K : Consts} {x : Source} {r r' : One}

theorem express_denotes (u : PyUnit) (y : ℝ) : Denotes (express u y) u.dim y := denotes_qty y u

theorem isQuantity_of {v : Val} {d : Dim} {y : ℝ} (h : Denotes v d y) (hd : d ≠ 0) : v.isQuantity = true := by
  obtain ⟨q, rfl, -⟩ := qty_of_denotes h hd
  rfl

theorem chirp_si (h : SameSource x r) : x.m_c = .ok (express Msun r.m_c) := chirp_mass_eq h.m_1 h.m_2

theorem sep_si (h : SameSource x r) :
    x.a K = .ok (express AU (utils.get_a_from_f_orb K r.f_orb r.m_1 r.m_2)) := get_a_from_f_orb_eq h.f_orb h.m_1 h.m_2

theorem set_a_si (h : SameSource x r) {a : Val} {y : ℝ} (ha : Denotes a lengthDim y) :
    x.set_a K a = .ok { x with f_orb := express Hz (utils.get_f_orb_from_a K y r.m_1 r.m_2) } := by
  unfold Source.set_a
  rw [if_pos (isQuantity_of ha length_ne), get_f_orb_from_a_eq ha h.m_1 h.m_2]
  rfl

theorem set_freq_si (h : SameSource x r) {v : Val} {y : ℝ} (hv : Denotes v freqDim y) :
    SameSource { x with f_orb := v } { r with f_orb := y } :=
  ⟨h.m_1, h.m_2, h.dist, hv, h.ecc, h.orient, h.merged, h.t_merge⟩

/-- The merger time. -/
theorem merger_si (h : SameSource x r) (he : 0 ≤ r.ecc) {ex : Bool} {t : ℝ} (ht : MergerTimeOf K ex r t) :
    x.get_merger_time K ex = .ok (express Gyr t) := by
  unfold Source.get_merger_time
  unfold MergerTimeOf at ht
  rw [h.merged]
  by_cases hm : r.merged = true
  · rw [if_pos hm] at ht ⊢
    subst ht
    unfold express
    rw [zero_div]
    rfl
  · rw [if_neg hm] at ht ⊢
    have h1 := get_t_merge_ecc_eq (K := K) (b := none) (m₁ := some (x.m_1, r.m_1)) (m₂ := some (x.m_2, r.m_2))
      (a := none) (f := some (x.f_orb, r.f_orb)) said_none (said_some h.m_1) (said_some h.m_2) said_none
      (said_some h.f_orb) r.ecc 0.15 (1 - 1e-4) ex
    have h2 := Legwork.Props.C18_array_eq_scalar (ι := Unit) K (fun _ => r.ecc) none (some fun _ => r.f_orb) none
      (some fun _ => r.m_1) (some fun _ => r.m_2) (s := 0.15) (l := 1 - 1e-4) ex (by norm_num) (by norm_num)
      (fun _ => he) ()
    rw [ht] at h2
    have h3 : get_t_merge_ecc K x.ecc none (some x.f_orb) none (some x.m_1) (some x.m_2) 0.15 (1 - 1e-4) ex =
        .ok (express Gyr t) := by
      rw [h.ecc]
      exact h1.trans (congrArg (Except.map (express Gyr)) h2.symm)
    rw [h3]
    show (express Gyr t).to Gyr = _
    rw [denotes_to (express_denotes Gyr t) time_ne rfl]
    rfl

theorem time_left_si (h : SameSource x r) (he : 0 ≤ r.ecc) {tm : ℝ} (ht : TimeLeft K r tm) :
    ∃ v, (match x.t_merge with
      | some t => pure t
      | none => x.get_merger_time K true : Except PyErr Val) = .ok v ∧ Denotes v timeDim tm := by
  have hr := h.t_merge
  unfold TimeLeft at ht
  rcases hx : x.t_merge with _ | v <;> rcases hy : r.t_merge with _ | t <;> rw [hx, hy] at hr <;> rw [hy] at ht
  · exact ⟨_, merger_si h he ht, express_denotes Gyr tm⟩
  · cases hr
  · cases hr
  · cases hr with
    | some hr => exact ⟨v, rfl, ht ▸ hr⟩

theorem ge_si {v w : Val} {a b : ℝ} (hv : Denotes v timeDim a) (hw : Denotes w timeDim b) :
    v.ge w = .ok (decide (b ≤ a)) := by
  obtain ⟨p, rfl, hp, rfl⟩ := qty_of_denotes hv time_ne
  obtain ⟨q, rfl, hq, rfl⟩ := qty_of_denotes hw time_ne
  show (q.to p.unit).map _ = _
  rw [to_ok (hq.trans hp.symm)]
  show Except.ok _ = _
  congr 1
  rw [decide_eq_decide, ge_iff_le, div_le_iff₀ p.unit.pos]

theorem maximum_si {q : Quantity} {v : Val} {a b : ℝ} (hq : Denotes (.qty q) timeDim a) (hv : Denotes v timeDim b) :
    Quantity.maximum q v = .ok (express q.unit (max a b)) := by
  obtain ⟨hd, rfl⟩ := hq
  unfold Quantity.maximum
  rw [denotes_valueIn hv time_ne hd.symm]
  show Except.ok _ = _
  unfold express
  congr 3
  rw [← max_div_div_right q.unit.pos.le, mul_div_cancel_right₀ _ q.unit.pos.ne']

theorem row_hz {row : Row} (hu : row.unit = Hz) : row.values = row.si := by
  unfold Row.si
  rw [hu]
  simp [Hz]

theorem row_one {row : Row} (hu : row.unit = one) : row.values = row.si := by
  unfold Row.si
  rw [hu]
  simp [one]

theorem to_hz (y : ℝ) : (Val.qty ⟨y, Hz⟩).to Hz = .ok (express Hz y) := by
  have h : Denotes (.qty ⟨y, Hz⟩) freqDim y := ⟨rfl, mul_one _⟩
  rw [denotes_to h freq_ne rfl]
  rfl

theorem value_of {v : Val} {d : Dim} {y : ℝ} (h : Denotes v d y) (hd : d ≠ 0) : ∃ z, v.value = .ok z := by
  obtain ⟨q, rfl, -⟩ := qty_of_denotes h hd
  exact ⟨_, rfl⟩

/-- The orbit after an evolution. -/
theorem orbit_si {W : World} (h : SameSource x r) (he : 0 ≤ r.ecc) {t : Val} {T e f : ℝ} (ht : Denotes t timeDim T)
    (ho : OrbitAfter W T r e f) : x.evolved_orbit W.K W.odeint t = .ok (e, express Hz f) := by
  obtain ⟨z, hz⟩ := value_of ht time_ne
  unfold Source.evolved_orbit
  rw [hz, ok_bind, h.ecc]
  unfold OrbitAfter at ho
  by_cases h0 : r.ecc = 0
  · rw [if_pos h0] at ho ⊢
    obtain ⟨rfl, F, hF, rfl⟩ := ho
    have h1 := evol_circ_si (K := W.K) () (b := none) (m₁ := some (x.m_1, r.m_1)) (m₂ := some (x.m_2, r.m_2)) (a := none)
      (f := some (x.f_orb, r.f_orb)) (t := some (t, T)) said_none (said_some h.m_1) (said_some h.m_2) said_none
      (said_some h.f_orb) (said_some ht) 2 (steps := none) (by simp) ["f_orb"]
    have h2 : evol.evol_circ W.K (((none : Option (Val × ℝ)).map Prod.fst).elim AU Val.unit).scale
        ((some (t, T)).map fun p => .array fun _ : Unit => p.2) 2 ((none : Option Row).map fun r => .grids fun _ => r.si)
        (one' ((none : Option (Val × ℝ)).map Prod.snd)) (one' ((some (x.m_1, r.m_1)).map Prod.snd))
        (one' ((some (x.m_2, r.m_2)).map Prod.snd)) (one' ((none : Option (Val × ℝ)).map Prod.snd))
        (one' ((some (x.f_orb, r.f_orb)).map Prod.snd)) ["f_orb"] = .ok (.one F) := hF
    rw [h2] at h1
    simp only [Option.map_some, Option.map_none] at h1
    rcases hrun : evol_circ W.K (some t) 2 none none (some x.m_1) (some x.m_2) none (some x.f_orb) ["f_orb"] with _ | rows
    · rw [hrun] at h1; cases h1
    · have hu := evol_circ_units hrun
      rw [hrun] at h1
      have hs : rows.map Row.si = [F ()] := Except.ok.inj h1
      rcases rows with _ | ⟨row, _ | ⟨_, _⟩⟩
      · simp at hs
      · have hu' : row.unit = Hz := by simpa [outputUnit] using hu
        have hs' : row.si = F () := by simpa using hs
        show (do
          let v ← (Val.qty ⟨row.values.getLastD 0, row.unit⟩).to Hz
          pure ((0 : ℝ), v) : Except PyErr (ℝ × Val)) = _
        rw [row_hz hu', hs', hu', to_hz]
        rfl
      · simp at hs
  · rw [if_neg h0] at ho ⊢
    obtain ⟨E, F, hF, rfl, rfl⟩ := ho
    have hτ : Denotes (.qty ⟨0.1, yr⟩) timeDim (0.1 * psd.yr) := ⟨rfl, rfl⟩
    have h1 := evol_ecc_si (K := W.K) W.odeint he (b := none) (m₁ := some (x.m_1, r.m_1)) (m₂ := some (x.m_2, r.m_2))
      (a := none) (f := some (x.f_orb, r.f_orb)) (t := some (t, T)) (T := none) said_none (said_some h.m_1)
      (said_some h.m_2) said_none (said_some h.f_orb) (said_some ht) 2 (steps := none) (by simp) ["ecc", "f_orb"] false
      true hτ said_none 1 [] (by simp)
    have h2 : evol.evol_ecc (n := 1) W.K W.odeint (fun _ => r.ecc)
        ((some (t, T)).map fun p => .array fun _ => p.2) 2 ((none : Option Row).map fun r => .grids fun _ => r.si)
        (one' ((none : Option (Val × ℝ)).map Prod.snd)) (one' ((some (x.m_1, r.m_1)).map Prod.snd))
        (one' ((some (x.m_2, r.m_2)).map Prod.snd)) (one' ((none : Option (Val × ℝ)).map Prod.snd))
        (one' ((some (x.f_orb, r.f_orb)).map Prod.snd)) ["ecc", "f_orb"] 1 [] false true (0.1 * psd.yr)
        (one' ((none : Option (Val × ℝ)).map Prod.snd)) = .ok (.many [E, F]) := hF
    rw [h2] at h1
    simp only [Option.map_some, Option.map_none] at h1
    rcases hrun : evol_ecc W.K W.odeint r.ecc (some t) 2 none none (some x.m_1) (some x.m_2) none (some x.f_orb)
        ["ecc", "f_orb"] false true (.qty ⟨0.1, yr⟩) none with _ | rows
    · rw [hrun] at h1; cases h1
    · have hu := evol_ecc_units hrun
      rw [hrun] at h1
      have hs : rows.map Row.si = [E 0, F 0] := Except.ok.inj h1
      rcases rows with _ | ⟨rowE, _ | ⟨rowF, _ | ⟨_, _⟩⟩⟩
      · simp at hs
      · simp at hs
      · have hu' : rowE.unit = one ∧ rowF.unit = Hz := by simpa [outputUnit] using hu
        have hs' : rowE.si = E 0 ∧ rowF.si = F 0 := by simpa using hs
        show (do
          let v ← (Val.qty ⟨rowF.values.getLastD 0, rowF.unit⟩).to Hz
          pure (rowE.values.getLastD 0, v) : Except PyErr (ℝ × Val)) = _
        rw [row_hz hu'.2, row_one hu'.1, hs'.1, hs'.2, hu'.2, to_hz]
        rfl
      · simp at hs

/-- Evolution of one source. -/
theorem evolve_si {W : World} (h : SameSource x r) (he : 0 ≤ r.ecc) {t : Val} {T : ℝ} (ht : Denotes t timeDim T)
    (hev : EvolvesTo W T r r') :
    ∃ tl, x.evolve W.K W.odeint t = .ok { x with
        ecc := r'.ecc
        f_orb := express Hz r'.f_orb
        merged := r'.merged
        t_merge := some (express Gyr tl) } ∧ r'.t_merge = some tl := by
  obtain ⟨tm, hl, htm, hc⟩ := hev.change
  obtain ⟨v, hv, hvd⟩ := time_left_si h he hl
  obtain ⟨w, hw, hwd⟩ := denotes_sub hvd ht
  obtain ⟨z, hz⟩ := value_of ht time_ne
  have hmax : Quantity.maximum ⟨0, Gyr⟩ w = .ok (express Gyr (max 0 (tm - T))) :=
    maximum_si (q := ⟨0, Gyr⟩) ⟨rfl, zero_mul _⟩ hwd
  refine ⟨max 0 (tm - T), ?_, htm⟩
  have hrun : x.evolve W.K W.odeint t = (do
      let merged ← t.ge v
      let (ecc, f_orb) ← if merged then do
          let _ ← t.value
          pure (0, .qty ⟨100, Hz⟩)
        else x.evolved_orbit W.K W.odeint t
      let left ← Quantity.maximum ⟨0, Gyr⟩ (← v.sub t)
      pure { x with ecc, f_orb, merged, t_merge := some left }) := by
    unfold Source.evolve
    rcases hx : x.t_merge with _ | t₀ <;> simp only [hx] at hv
    · rw [hv]
      rfl
    · obtain rfl : t₀ = v := Except.ok.inj hv
      rfl
  rw [hrun, ge_si ht hvd, ok_bind]
  rcases hc with ⟨hle, h1, h2, h3⟩ | ⟨hlt, h1, ho⟩
  · rw [decide_eq_true hle, hz]
    simp only [if_true, ok_bind, hw, hmax]
    rw [h1, h2, h3]
    have : express Hz 100 = .qty ⟨100, Hz⟩ := by unfold express Hz; norm_num
    rw [this]
    rfl
  · rw [decide_eq_false (not_le.2 hlt), orbit_si h he ht ho]
    simp only [hw, hmax, ok_bind]
    rw [h1]
    rfl

/-! ### SNR -/

theorem by_group_iff {need : ℤ} {run : ℕ → Except PyErr snr.SnrOut} {p : Option ℝ × ℕ} :
    by_group need run harmonic_groups = .ok p ↔ (∀ H, HarmonicLimit need H → run H = .ok (.withMax [p.1] [p.2])) ∧
      ((¬ ∃ H, HarmonicLimit need H) → p.1 = some 0 ∧ p.2 = 2) := by
  have hstep : ∀ H, (run H >>= only) = .ok p ↔ run H = .ok (.withMax [p.1] [p.2]) := fun H => by
    constructor
    · intro h
      rcases hr : run H with e | out
      · rw [hr] at h; cases h
      · rw [hr, ok_bind] at h
        unfold only at h
        split at h
        · obtain rfl := Except.ok.inj h
          rfl
        · cases h
    · intro h
      rw [h]
      rfl
  by_cases hex : ∃ H, HarmonicLimit need H
  · obtain ⟨H, hH⟩ := hex
    have hrun : by_group need run harmonic_groups = (run H >>= only) := by
      unfold harmonic_groups
      simp only [by_group]
      push_cast
      rcases hH with ⟨h1, h2, rfl⟩ | ⟨h1, h2, rfl⟩ | ⟨h1, h2, rfl⟩ | ⟨h1, h2, rfl⟩
      · rw [if_pos ⟨h1, h2⟩]
      · rw [if_neg (by omega), if_pos ⟨h1, h2⟩]
      · rw [if_neg (by omega), if_neg (by omega), if_pos ⟨h1, h2⟩]
      · rw [if_neg (by omega), if_neg (by omega), if_neg (by omega), if_pos ⟨h1, h2⟩]
    rw [hrun, hstep]
    refine ⟨fun h => ⟨fun H' hH' => ?_, fun hn => absurd ⟨H, hH⟩ hn⟩, fun h => h.1 H hH⟩
    rwa [harmonicLimit_unique hH' hH]
  · have hno : need ≤ 1 ∨ 10000 < need := by
      by_contra hc
      push Not at hc
      apply hex
      unfold HarmonicLimit
      by_cases h1 : need ≤ 10
      · exact ⟨10, by omega⟩
      by_cases h2 : need ≤ 100
      · exact ⟨100, by omega⟩
      by_cases h3 : need ≤ 1000
      · exact ⟨1000, by omega⟩
      · exact ⟨10000, by omega⟩
    have hrun : by_group need run harmonic_groups = .ok (some 0, 2) := by
      unfold harmonic_groups
      simp only [by_group]
      push_cast
      rw [if_neg (by omega), if_neg (by omega), if_neg (by omega), if_neg (by omega)]
      rfl
    rw [hrun]
    constructor
    · intro h
      obtain rfl := Except.ok.inj h
      exact ⟨fun H hH => absurd ⟨H, hH⟩ hex, fun _ => ⟨rfl, rfl⟩⟩
    · intro h
      obtain ⟨h1, h2⟩ := h.2 hex
      rw [← h1, ← h2]

theorem pair_two {m : Except PyErr (Option ℝ)} {p : Option ℝ × ℕ} :
    (m >>= fun v => pure (v, 2)) = .ok p ↔ m = .ok p.1 ∧ p.2 = 2 := by
  rcases m with e | v
  · exact ⟨fun h => (by cases h), fun h => (by cases h.1)⟩
  · constructor
    · intro h
      obtain rfl := Except.ok.inj h
      exact ⟨rfl, rfl⟩
    · rintro ⟨h1, h2⟩
      obtain rfl := Except.ok.inj h1
      rw [ok_bind, ← h2]
      rfl

variable {U : Ctx} {C : snr.Ctx} {S : Settings} {p : Option ℝ × ℕ}

theorem stat_si (hU : SameObservation U C) (h : SameSource x r) :
    x.snr_stationary U S = .ok p ↔ StationarySnr C S.ecc_tol S.harmonics_required r p.1 p.2 := by
  have hm : Denotes (express Msun r.m_c) massDim r.m_c := express_denotes Msun _
  have hc : ∀ v, snr_circ_stationary U (express Msun r.m_c) x.f_orb x.dist x.orient = .ok v ↔
      snr.snr_circ_stationary C [r.circ] = .ok [v] := fun v => by
    rw [h.orient]
    exact Legwork.Props.C83_circ_stationary hU hm h.f_orb h.dist r.orient v
  have he : ∀ H, snr_ecc_stationary U (express Msun r.m_c) x.f_orb r.ecc x.dist H true false =
      snr.snr_ecc_stationary C [r.eccentric] H true false := fun H =>
    Legwork.Props.C83_ecc_stationary hU hm h.f_orb h.dist r.ecc H true false
  unfold Source.snr_stationary StationarySnr
  rw [chirp_si h, ok_bind, h.ecc]
  by_cases ht : r.ecc ≤ S.ecc_tol
  · simp only [ht, if_true, pair_two, hc]
    exact ⟨fun q => ⟨fun _ => q, fun q' => absurd q' (not_lt.2 ht)⟩, fun q => q.1 trivial⟩
  · simp only [ht, if_false, by_group_iff, he]
    exact ⟨fun q => ⟨fun q' => absurd q' (by simp), fun _ => q⟩, fun q => q.2 (not_le.1 ht)⟩

theorem evol_si (hU : SameObservation U C) (odeint : evol.Odeint) (h : SameSource x r) (he0 : 0 ≤ r.ecc) {n : ℕ}
    (hn : n ≠ 0) :
    x.snr_evolving U odeint S n = .ok p ↔ EvolvingSnr C odeint n S.ecc_tol S.harmonics_required r p.1 p.2 := by
  have hc : ∀ v, snr_circ_evolving U x.m_1 x.m_2 x.f_orb x.dist n x.t_merge = .ok v ↔
      snr.snr_circ_evolving C [r.evolvingCirc] n (r.t_merge.map fun t => [t]) = .ok [v] := fun v => by
    have key : ∀ {T : Option (Val × ℝ)}, Said timeDim T →
        (snr_circ_evolving U x.m_1 x.m_2 x.f_orb x.dist n (T.map Prod.fst) = .ok v ↔
          snr.snr_circ_evolving C [r.evolvingCirc] n (T.map fun p => [p.2]) = .ok [v]) := fun hT =>
      Legwork.Props.C83_circ_evolving hU (src := r.evolvingCirc) h.m_1 h.m_2 h.f_orb h.dist hn hT v
    have hr := h.t_merge
    rcases hx : x.t_merge with _ | w <;> rcases hy : r.t_merge with _ | t <;> rw [hx, hy] at hr
    · exact key said_none
    · cases hr
    · cases hr
    · cases hr with
      | some hr => exact key (said_some hr)
  have he : ∀ H, snr_ecc_evolving U odeint x.m_1 x.m_2 x.f_orb x.dist r.ecc H n none true false =
      snr.snr_ecc_evolving C odeint [r.evolving] H n none 1 [] true false := fun H =>
    Legwork.Props.C83_ecc_evolving hU odeint (src := r.evolving) h.m_1 h.m_2 h.f_orb h.dist he0 H hn (T := none)
      said_none true false 1 [] (by simp)
  unfold Source.snr_evolving EvolvingSnr
  rw [h.ecc]
  by_cases ht : r.ecc ≤ S.ecc_tol
  · simp only [ht, if_true, pair_two, hc]
    exact ⟨fun q => ⟨fun _ => q, fun q' => absurd q' (not_lt.2 ht)⟩, fun q => q.1 trivial⟩
  · simp only [ht, if_false, by_group_iff, he]
    exact ⟨fun q => ⟨fun q' => absurd q' (by simp), fun _ => q⟩, fun q => q.2 (not_le.1 ht)⟩

open Classical in
theorem stationary_si (h : SameSource x r) (h₁ : 0 < r.m_1) (h₂ : 0 < r.m_2) (hf : 0 < r.f_orb) {t : Val} {T : ℝ}
    (ht : Denotes t timeDim T) (tol : ℝ) (h0 : evol.inner_part K r.f_orb r.m_c T r.ecc ≠ 0) :
    x.is_stationary K t tol = .ok (decide (r.StationaryOver K T tol)) := by
  have hm : Denotes (express Msun r.m_c) massDim r.m_c := express_denotes Msun _
  unfold Source.is_stationary
  rw [chirp_si h, ok_bind, h.ecc]
  have hmc : 0 < r.m_c := Legwork.Props.C03_pos h₁ h₂
  have hrun := stationarity_eq (K := K) h.f_orb (m₁ := none) (m₂ := none) (mc := some (express Msun r.m_c, r.m_c))
    (fun p hp => by cases hp) (fun p hp => by cases hp) (fun p hp => by cases hp; exact ⟨hm, hmc⟩) ht r.ecc tol hf
    (fun p hp => by cases hp; exact h0) (fun p hp => by cases hp)
  refine hrun.trans ?_
  unfold One.StationaryOver
  rcases hd : evol.determine_stationarity K (fun _ : Unit => r.f_orb) T (fun _ => r.ecc) none none
    (some fun _ => r.m_c) tol with e | b
  · exfalso
    unfold evol.determine_stationarity at hd
    cases hd
  · refine (congrArg (Except.map fun b : Unit → Prop => decide (b ())) hd).trans ?_
    show Except.ok _ = _
    congr 1
    rw [decide_eq_decide]
    exact ⟨fun q => ⟨b, rfl, q⟩, fun ⟨b', hb', q⟩ => by obtain rfl := Except.ok.inj hb'; exact q⟩

end Legwork.units
