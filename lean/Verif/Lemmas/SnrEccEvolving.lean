import Verif.Lemmas.SnrEvolving
import Verif.Lemmas.MergeTime

/-!
# Helper lemmas on evolving eccentric signal-to-noise ratios
-/

namespace Legwork.snr

open Real Legwork.utils Legwork.strain Legwork.evol

/-- The times at which a source is evolved. -/
noncomputable def eccTimes (C : Ctx) (T : ℝ) (n : ℕ) : List ℝ :=
  clamp_row Gyr T (0.1 * psd.yr) (np.linspace (min (T - 0.1 * psd.yr) C.t_obs) n)

/-- The eccentricities reported for a source. -/
noncomputable def eccRow (C : Ctx) (odeint : Odeint) (s : EvolSrc) (T : ℝ) (n : ℕ) : List ℝ :=
  (odeint (fun e => de_dt e (utils.beta C.K s.m_1 s.m_2)
    (c_0 (get_a_from_f_orb C.K s.f_orb_i s.m_1 s.m_2) s.ecc)) s.ecc (eccTimes C T n)).map nan_to_num

/-- The orbital frequency at eccentricity `e` along the evolution of a source. -/
noncomputable def eccFreq (K : Consts) (s : EvolSrc) (e : ℝ) : ℝ :=
  f_or_merged K AU (get_a_from_ecc e (c_0 (get_a_from_f_orb K s.f_orb_i s.m_1 s.m_2) s.ecc)) s.m_1 s.m_2

/-- The orbital frequencies used for a source. -/
noncomputable def eccFreqs (C : Ctx) (odeint : Odeint) (s : EvolSrc) (T : ℝ) (n : ℕ) : List ℝ :=
  drop_merged_ecc (eccRow C odeint s T n) ((eccRow C odeint s T n).map (eccFreq C.K s))

/-- The SNR² integrand of harmonic `k`. -/
noncomputable def eccW (C : Ctx) (N : ℝ → WithTop ℝ) (s : EvolSrc) (k : ℤ) (fe : ℝ × ℝ) : ℝ :=
  divNoise (h_c_val C.K C.interpolated_g (chirp_mass s.m_1 s.m_2) s.dist fe.1 fe.2 k ^ 2)
    ((N (k * fe.1)).map fun n => (k * fe.1) ^ 2 * n)

/-- SNR² of harmonic `k` of an evolving source. -/
noncomputable def eccSnr2 (C : Ctx) (odeint : Odeint) (N : ℝ → WithTop ℝ) (s : EvolSrc) (T : ℝ) (n : ℕ) (k : ℤ) : ℝ :=
  trapezoid (((eccFreqs C odeint s T n).zip (eccRow C odeint s T n)).map (eccW C N s k))
    ((eccFreqs C odeint s T n).map fun f => k * f)

theorem zipWith_zip_map {α β γ δ ε : Type*} (F : γ → δ → ε) (g : α × β → γ) (h : α → δ) (l : List α) (l' : List β) :
    ((l.zip l').map g).zipWith F (l.map h) = (l.zip l').map fun p => F (g p) (h p.1) := by
  induction l generalizing l' with
  | nil => rfl
  | cons x xs ih =>
    cases l' with
    | nil => rfl
    | cons y ys => simp [ih]

theorem zip_map_self {α β : Type*} (h : α → β) (l : List α) : l.zip (l.map h) = l.map fun x => (x, h x) := by
  induction l with
  | nil => rfl
  | cons x xs ih => simp [ih]

theorem evol_ecc_snr (C : Ctx) (odeint : Odeint) (srcs : List EvolSrc) {n : ℕ} (hn : n ≠ 0) (np : ℕ) (order : List ℕ)
    (hall : np > 1 → ∀ i < srcs.length, i ∈ order) (T : Fin srcs.length → ℝ) :
    evol_ecc C.K odeint (column srcs EvolSrc.ecc)
      (some (.array fun i => min (T i - 0.1 * psd.yr) C.t_obs)) n none none (some (column srcs EvolSrc.m_1))
      (some (column srcs EvolSrc.m_2)) none (some (column srcs EvolSrc.f_orb_i)) ["ecc", "f_orb"] np order true false
      (0.1 * psd.yr) (some T)
      = .ok (.many [fun i => eccRow C odeint srcs[i] (T i) n,
          fun i => (eccRow C odeint srcs[i] (T i) n).map (eccFreq C.K srcs[i])]) := by
  rw [evol_ecc_eq C.K odeint _ _ _ _ _ _ _ _ _ _ _ _ _ _ _ _ (b' := fun i => utils.beta C.K srcs[i].m_1 srcs[i].m_2)
    (a' := fun i => get_a_from_f_orb C.K srcs[i].f_orb_i srcs[i].m_1 srcs[i].m_2)
    (ts := fun i => Legwork.np.linspace (min (T i - 0.1 * psd.yr) C.t_obs) n)
    (R := fun i => eccTimes C (T i) n) rfl (fun _ => ⟨rfl, rfl⟩) rfl]
  · rw [integrate_eq odeint np order hall]
    simp [isKnown, unwrap, eccVal, column, eccRow, eccFreq, List.map_map, Function.comp_def]
  · unfold avoid_merger_times
    simp only [if_true, bind, Except.bind, pure, Except.pure]
    rw [if_neg]
    · rfl
    · rintro ⟨i, hi⟩
      have : (Legwork.np.linspace (min (T i - 0.1 * psd.yr) C.t_obs) n).length = n := by simp [Legwork.np.linspace]
      rw [hi] at this
      exact hn (by simpa using this.symm)

theorem snr_ecc_evolving_eq (C : Ctx) (odeint : Odeint) (srcs : List EvolSrc) (H : ℕ) {n : ℕ} (hn : n ≠ 0)
    (t_merge : Option (List ℝ)) (np : ℕ) (order : List ℕ) (hall : np > 1 → ∀ i < srcs.length, i ∈ order)
    (rm rb : Bool) {N : ℝ → WithTop ℝ} (hN : ∀ f, noise C f = .ok (N f)) {T : Fin srcs.length → ℝ}
    (hT : merge_times_ecc C srcs t_merge = .ok T) :
    snr_ecc_evolving C odeint srcs H n t_merge np order rm rb = finish rm rb H (List.ofFn fun i =>
      (harmonics H).map fun k => eccSnr2 C odeint N srcs[i] (T i) n k) := by
  unfold snr_ecc_evolving
  simp only
  rw [hT]
  simp only [bind, Except.bind]
  rw [evol_ecc_snr C odeint srcs hn np order hall T]
  simp only [pair, pure, Except.pure]
  rw [zip_ofFn, zipWith_ofFn]
  rw [h_c_n_ok C.K C.interpolated_g (harmonics_any H) (by
    intro r hr
    obtain ⟨i, rfl⟩ := List.mem_ofFn.1 hr
    rfl)]
  rw [List.map_ofFn]
  simp only
  rw [mapM_ok (g := fun fs => (harmonics H).map fun k : ℤ => fs.map fun f => N (k * f))
    (fun fs _ => mapM_ok fun k _ => mapM_ok fun f _ => hN _)]
  rw [List.map_ofFn]
  simp only
  rw [zip_ofFn, zip_ofFn, List.map_ofFn]
  congr 2
  funext i
  simp only [Function.comp, zip_map_self]
  apply List.ext_getElem?
  intro k
  simp only [List.getElem?_map, List.getElem?_zipIdx, harmonics_get?]
  split_ifs with hk
  · simp only [Option.map_some]
    congr 1
    unfold snr2_harmonic eccSnr2
    simp only [List.map_map]
    congr 1
    have hstep : ∀ fe : ℝ × ℝ, ((harmonics H).map fun n => h_c_val C.K C.interpolated_g
        (chirp_mass srcs[i].m_1 srcs[i].m_2) srcs[i].dist fe.1 fe.2 n).getD (0 + k) 0
        = h_c_val C.K C.interpolated_g (chirp_mass srcs[i].m_1 srcs[i].m_2) srcs[i].dist fe.1 fe.2 ((k : ℤ) + 1) := by
      intro fe
      rw [List.getD_eq_getElem?_getD, zero_add, List.getElem?_map, harmonics_get?, if_pos hk]
      rfl
    simp only [Function.comp_def, hstep]
    change List.zipWith divNoise (List.map _ ((eccFreqs C odeint srcs[i] (T i) n).zip (eccRow C odeint srcs[i] (T i) n)))
      (List.zipWith _ (List.map _ (eccFreqs C odeint srcs[i] (T i) n)) (List.map _ (eccFreqs C odeint srcs[i] (T i) n)))
      = _
    rw [zipWith_map_map, zipWith_zip_map]
    rfl
  · rfl

end Legwork.snr
