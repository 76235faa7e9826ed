import Verif.Lemmas.Pointwise
import Verif.Lemmas.SnrEccEvolving

/-!
# Signal-to-noise ratios are computed source by source
-/

namespace Legwork.snr

open Real Legwork.utils Legwork.strain Legwork.evol

/-! ### Stationary sources -/

/-- The SNR of one circular stationary source. -/
noncomputable def circ1 (C : Ctx) (s : CircSrc) : Except PyErr (Option ℝ) := do
  let m ← modulation s.orient
  let n ← noise C (2 * s.f_orb)
  pure (sqrt? (divNoise ((m * h_0_val C.K C.interpolated_g s.m_c s.dist s.f_orb 0 2) ^ 2 * C.t_obs) n))

theorem snr_circ_stationary_iff {C : Ctx} {srcs : List CircSrc} {vs : List (Option ℝ)} :
    snr_circ_stationary C srcs = .ok vs ↔ srcs.mapM (circ1 C) = .ok vs := by
  have hfl : ∀ xs : List ℝ, (xs.map fun x => [[x]]).flatten.flatten = xs := by
    intro xs
    induction xs with
    | nil => rfl
    | cons x xs ih => simpa using ih
  have hrow : ∀ h, h_0_n C.K C.interpolated_g [2] (srcs.map fun s => ⟨s.m_c, s.dist, [(s.f_orb, 0)], s.orient⟩) = .ok h ↔
      ∃ xs, srcs.mapM (fun s => do
        let m ← modulation s.orient
        pure (m * h_0_val C.K C.interpolated_g s.m_c s.dist s.f_orb 0 2)) = .ok xs ∧ xs.map (fun x => [[x]]) = h := by
    intro h
    rw [mapM_map_ok]
    unfold h_0_n
    rw [if_neg two_any, mapM_map']
    refine mapM_congr_ok fun s _ b => ?_
    unfold row_strain
    simp only [List.map_cons, List.map_nil, bind_assoc, pure_bind]
  unfold snr_circ_stationary circ1
  have e : ∀ (s : CircSrc), (do
      let m ← modulation s.orient
      let n ← noise C (2 * s.f_orb)
      pure (sqrt? (divNoise ((m * h_0_val C.K C.interpolated_g s.m_c s.dist s.f_orb 0 2) ^ 2 * C.t_obs) n))) = (do
      let x ← (do
        let m ← modulation s.orient
        pure (m * h_0_val C.K C.interpolated_g s.m_c s.dist s.f_orb 0 2))
      let n ← noise C (2 * s.f_orb)
      pure (sqrt? (divNoise (x ^ 2 * C.t_obs) n))) := by
    intro s
    simp only [bind_assoc, pure_bind]
  simp only [e]
  rw [← mapM_zipWith (f := fun s : CircSrc => do
        let m ← modulation s.orient
        pure (m * h_0_val C.K C.interpolated_g s.m_c s.dist s.f_orb 0 2)) (g := fun s : CircSrc => noise C (2 * s.f_orb))
        (k := fun x n => sqrt? (divNoise (x ^ 2 * C.t_obs) n))]
  rw [except_bind_ok]
  constructor
  · rintro ⟨h, hh, hv⟩
    obtain ⟨xs, hxs, rfl⟩ := (hrow h).1 hh
    rw [hfl] at hv
    obtain ⟨ns, hns, hv⟩ := except_bind_ok.1 hv
    refine ⟨xs, ns, hxs, hns, ?_⟩
    rw [← pure_ok.1 hv, List.map_map, List.map_zipWith, List.zipWith_map_left]
    rfl
  · rintro ⟨xs, ns, hxs, hns, rfl⟩
    refine ⟨_, (hrow _).2 ⟨xs, hxs, rfl⟩, ?_⟩
    rw [hfl, hns, ok_bind, List.map_map, List.map_zipWith, List.zipWith_map_left]
    rfl

/-- What is returned for each source, as the pair of lists returned for all. -/
def pairOut (ps : List (Option ℝ × ℕ)) : SnrOut := .withMax (ps.map Prod.fst) (ps.map Prod.snd)

/-- SNR and strongest harmonic from the SNR² of each harmonic. -/
noncomputable def finish1 (row : List ℝ) : Option ℝ × ℕ := (sqrt? row.sum, argmax row + 1)

theorem finish_pair {H : ℕ} (hH : 0 < H) (rows : List (List ℝ)) :
    finish true false H rows = .ok (pairOut (rows.map finish1)) := by
  unfold finish pairOut
  simp only [Bool.false_eq_true, if_false, if_true]
  rw [if_neg fun h => hH.ne' h.1]
  simp only [List.map_map]
  rfl

/-- The SNR and strongest harmonic of one eccentric stationary source. -/
noncomputable def ecc1 (C : Ctx) (H : ℕ) (s : EccSrc) : Except PyErr (Option ℝ × ℕ) := do
  let ns ← (harmonics H).mapM fun n : ℤ => noise C (n * s.f_orb)
  pure (finish1 (((harmonics H).map fun n => h_0_val C.K C.interpolated_g s.m_c s.dist s.f_orb s.ecc n ^ 2 * C.t_obs).zipWith
    divNoise ns))

theorem snr_ecc_stationary_iff {C : Ctx} {srcs : List EccSrc} {H : ℕ} (hH : 0 < H) {out : SnrOut} :
    snr_ecc_stationary C srcs H true false = .ok out ↔ ∃ ps, srcs.mapM (ecc1 C H) = .ok ps ∧ pairOut ps = out := by
  unfold snr_ecc_stationary
  simp only
  rw [h_0_n_ok (μ := fun _ => 1) C.K C.interpolated_g (harmonics_any H)
    (by intro r hr; obtain ⟨s, -, rfl⟩ := List.mem_map.1 hr; rfl)]
  rw [ok_bind]
  simp only [List.map_map]
  have key : ∀ ps, srcs.mapM (ecc1 C H) = .ok ps ↔ ∃ xs ys, srcs.mapM (fun s => (pure
      ((harmonics H).map fun n => h_0_val C.K C.interpolated_g s.m_c s.dist s.f_orb s.ecc n ^ 2 * C.t_obs) :
      Except PyErr (List ℝ))) = .ok xs ∧ srcs.mapM (fun s => (harmonics H).mapM fun n : ℤ => noise C (n * s.f_orb)) = .ok ys ∧
      xs.zipWith (fun x ns => finish1 (x.zipWith divNoise ns)) ys = ps := by
    intro ps
    rw [mapM_zipWith]
    refine mapM_congr_ok fun s _ b => ?_
    unfold ecc1
    rw [pure_bind]
  constructor
  · intro h
    obtain ⟨ns, hns, h⟩ := except_bind_ok.1 h
    rw [finish_pair hH] at h
    refine ⟨_, (key _).2 ⟨_, ns, mapM_ok fun _ _ => rfl, hns, rfl⟩, ?_⟩
    rw [← Except.ok.inj h, List.map_zipWith]
    congr 1
    rw [List.zipWith_map_left, List.zipWith_map_left]
    congr 1
    funext s ns
    simp [Function.comp_def]
  · rintro ⟨ps, hps, rfl⟩
    obtain ⟨xs, ns, hxs, hns, rfl⟩ := (key _).1 hps
    obtain rfl := Except.ok.inj ((mapM_ok fun _ _ => rfl).symm.trans hxs)
    rw [hns, ok_bind, finish_pair hH]
    congr 2
    rw [List.map_zipWith, List.zipWith_map_left, List.zipWith_map_left]
    congr 1
    funext s ns
    simp [Function.comp_def]

/-! ### Evolving sources -/

/-- The SNR of one circular evolving source with merger time `T`. -/
noncomputable def circE1 (C : Ctx) (n : ℕ) (s : EvolSrc) (T : ℝ) : Except PyErr (Option ℝ) := do
  let fs := drop_merged_circ (circRow C.K s (min (T - 1) C.t_obs) n)
  let ns ← fs.mapM fun f => noise C (2 * f)
  pure (sqrt? (snr2_circ_row fs
    (fs.map fun f => h_c_val C.K C.interpolated_g (chirp_mass s.m_1 s.m_2) s.dist f 0 2) ns))

theorem ofFn_eq_map {β : Type} {n : ℕ} (f : Fin n → β) : List.ofFn f = (List.finRange n).map f :=
  List.ofFn_eq_map

theorem snr_circ_evolving_fin {C : Ctx} {srcs : List EvolSrc} {n : ℕ} (hn : n ≠ 0) {t_merge : Option (List ℝ)}
    {T : Fin srcs.length → ℝ} (hT : merge_times_circ C srcs t_merge = .ok T) {vs : List (Option ℝ)} :
    snr_circ_evolving C srcs n t_merge = .ok vs ↔
      (List.finRange srcs.length).mapM (fun i => circE1 C n srcs[i] (T i)) = .ok vs := by
  unfold snr_circ_evolving
  simp only
  rw [hT, ok_bind, evol_circ_snr, ok_bind]
  simp only [single, pure_bind, hn, false_and, if_false]
  rw [zipWith_ofFn]
  rw [h_c_n_ok C.K C.interpolated_g two_any (by
    intro r hr
    obtain ⟨i, rfl⟩ := List.mem_ofFn.1 hr
    rfl)]
  rw [ok_bind, ofFn_eq_map, ofFn_eq_map, mapM_map']
  have key : (List.finRange srcs.length).mapM (fun i => circE1 C n srcs[i] (T i)) = .ok vs ↔ ∃ xs ys,
      (List.finRange srcs.length).mapM (fun i => (pure i : Except PyErr _)) = .ok xs ∧
      (List.finRange srcs.length).mapM (fun i => (drop_merged_circ (circRow C.K srcs[i] (min (T i - 1) C.t_obs) n)).mapM
        fun f => noise C (2 * f)) = .ok ys ∧
      xs.zipWith (fun i ns => sqrt? (snr2_circ_row (drop_merged_circ (circRow C.K srcs[i] (min (T i - 1) C.t_obs) n))
        ((drop_merged_circ (circRow C.K srcs[i] (min (T i - 1) C.t_obs) n)).map fun f =>
          h_c_val C.K C.interpolated_g (chirp_mass srcs[i].m_1 srcs[i].m_2) srcs[i].dist f 0 2) ns)) ys = vs := by
    rw [mapM_zipWith]
    refine mapM_congr_ok fun s _ b => ?_
    unfold circE1
    rw [pure_bind]
  rw [key, except_bind_ok]
  have hid : (List.finRange srcs.length).mapM (fun i => (pure i : Except PyErr _)) = .ok (List.finRange srcs.length) := by
    refine (mapM_ok (g := fun i => i) fun _ _ => rfl).trans ?_
    rw [List.map_id']
  have comb : ∀ (is : List (Fin srcs.length)) (ns : List (List (WithTop ℝ))),
      ((is.map fun i => drop_merged_circ (circRow C.K srcs[i] (min (T i - 1) C.t_obs) n)).zip
        (((is.map fun i => (⟨chirp_mass srcs[i].m_1 srcs[i].m_2, srcs[i].dist,
          (drop_merged_circ (circRow C.K srcs[i] (min (T i - 1) C.t_obs) n)).map fun f => (f, 0), {}⟩ : Row)).map fun r =>
          r.steps.map fun s => ([2] : List ℤ).map fun k => h_c_val C.K C.interpolated_g r.m_c r.dist s.1 s.2 k).zip ns)).map
        (fun x => sqrt? (snr2_circ_row x.1 x.2.1.flatten x.2.2)) =
      is.zipWith (fun i ns => sqrt? (snr2_circ_row (drop_merged_circ (circRow C.K srcs[i] (min (T i - 1) C.t_obs) n))
        ((drop_merged_circ (circRow C.K srcs[i] (min (T i - 1) C.t_obs) n)).map fun f =>
          h_c_val C.K C.interpolated_g (chirp_mass srcs[i].m_1 srcs[i].m_2) srcs[i].dist f 0 2) ns)) ns := by
    intro is
    induction is with
    | nil => intro ns; rfl
    | cons i is ih =>
      intro ns
      cases ns with
      | nil => rfl
      | cons x ns =>
        simp only [List.map_cons, List.zip_cons_cons, List.zipWith_cons_cons, List.map_nil]
        rw [← ih ns]
        simp only [List.map_map, Function.comp_def, List.map_cons, List.map_nil]
        rw [h_c_row_flatten]
  constructor
  · rintro ⟨ns, hns, hv⟩
    refine ⟨_, ns, hid, hns, ?_⟩
    rw [← pure_ok.1 hv]
    exact (comb _ ns).symm
  · rintro ⟨xs, ns, hxs, hns, rfl⟩
    rw [hid] at hxs
    cases hxs
    refine ⟨ns, hns, ?_⟩
    exact congrArg Except.ok (comb _ ns)

/-- A list read by position. -/
theorem finRange_mapM {α β γ : Type} {l : List α} {T : Fin l.length → β} {f : α → β → Except PyErr γ} :
    (List.finRange l.length).mapM (fun i => f l[i] (T i)) = (l.zip (List.ofFn T)).mapM fun x => f x.1 x.2 := by
  have : l.zip (List.ofFn T) = (List.finRange l.length).map fun i => (l[i], T i) := by
    apply List.ext_getElem
    · simp
    · intro i h1 h2
      simp
  rw [this, mapM_map']

theorem ofFn_getD {α : Type} {n : ℕ} {ts : List α} (d : α) (h : ts.length = n) :
    List.ofFn (fun i : Fin n => ts.getD i d) = ts := by
  apply List.ext_getElem
  · simp [h]
  · intro i h1 h2
    simp [List.getD_eq_getElem?_getD, List.getElem?_eq_getElem h2]

/-- The merger time of one circular source. -/
noncomputable def tCirc (K : Consts) (s : EvolSrc) : ℝ :=
  get_a_from_f_orb K s.f_orb_i s.m_1 s.m_2 ^ 4 / (4 * utils.beta K s.m_1 s.m_2)

theorem zip_map_right_self {α β : Type} (l : List α) (f : α → β) : l.zip (l.map f) = l.map fun x => (x, f x) := by
  induction l with
  | nil => rfl
  | cons x l ih => simpa using ih

theorem snr_circ_evolving_some {C : Ctx} {srcs : List EvolSrc} {n : ℕ} (hn : n ≠ 0) {ts : List ℝ}
    (ht : ts.length = srcs.length) {vs : List (Option ℝ)} :
    snr_circ_evolving C srcs n (some ts) = .ok vs ↔ (srcs.zip ts).mapM (fun x => circE1 C n x.1 x.2) = .ok vs := by
  rw [snr_circ_evolving_fin hn (T := fun i => ts.getD i 0) rfl, finRange_mapM (f := circE1 C n), ofFn_getD 0 ht]

theorem snr_circ_evolving_none {C : Ctx} {srcs : List EvolSrc} {n : ℕ} (hn : n ≠ 0) {vs : List (Option ℝ)} :
    snr_circ_evolving C srcs n none = .ok vs ↔ srcs.mapM (fun x => circE1 C n x (tCirc C.K x)) = .ok vs := by
  rw [snr_circ_evolving_fin hn (T := fun i => tCirc C.K srcs[i]) rfl, finRange_mapM (f := circE1 C n)]
  have : List.ofFn (fun i : Fin srcs.length => tCirc C.K srcs[i]) = srcs.map (tCirc C.K) := by
    apply List.ext_getElem
    · simp
    · intro i h1 h2
      simp
  rw [this, zip_map_right_self, mapM_map']

/-- SNR² by harmonic of one eccentric evolving source. -/
noncomputable def eccE1Row (C : Ctx) (odeint : Odeint) (H n : ℕ) (s : EvolSrc) (T : ℝ) (ns : List (List (WithTop ℝ))) :
    List ℝ :=
  ((harmonics H).zip ns).zipIdx.map fun x =>
    snr2_harmonic ((eccFreqs C odeint s T n).map fun f => x.1.1 * f)
      ((((eccFreqs C odeint s T n).zip (eccRow C odeint s T n)).map fun fe => (harmonics H).map fun k =>
        h_c_val C.K C.interpolated_g (chirp_mass s.m_1 s.m_2) s.dist fe.1 fe.2 k).map fun step => step.getD x.2 0) x.1.2

/-- The SNR and strongest harmonic of one eccentric evolving source with merger time `T`. -/
noncomputable def eccE1 (C : Ctx) (odeint : Odeint) (H n : ℕ) (s : EvolSrc) (T : ℝ) : Except PyErr (Option ℝ × ℕ) := do
  let ns ← (harmonics H).mapM fun k : ℤ => (eccFreqs C odeint s T n).mapM fun f => noise C (k * f)
  pure (finish1 (eccE1Row C odeint H n s T ns))

theorem snr_ecc_evolving_fin {C : Ctx} {odeint : Odeint} {srcs : List EvolSrc} {H n : ℕ} (hH : 0 < H) (hn : n ≠ 0)
    {t_merge : Option (List ℝ)} {np : ℕ} {order : List ℕ} (hall : np > 1 → ∀ i < srcs.length, i ∈ order)
    {T : Fin srcs.length → ℝ} (hT : merge_times_ecc C srcs t_merge = .ok T) {out : SnrOut} :
    snr_ecc_evolving C odeint srcs H n t_merge np order true false = .ok out ↔
      ∃ ps, (List.finRange srcs.length).mapM (fun i => eccE1 C odeint H n srcs[i] (T i)) = .ok ps ∧ pairOut ps = out := by
  unfold snr_ecc_evolving
  simp only
  rw [hT, ok_bind, evol_ecc_snr C odeint srcs hn np order hall T, ok_bind]
  simp only [pair, pure_bind]
  rw [zip_ofFn, zipWith_ofFn]
  rw [h_c_n_ok C.K C.interpolated_g (harmonics_any H) (by
    intro r hr
    obtain ⟨i, rfl⟩ := List.mem_ofFn.1 hr
    rfl)]
  rw [ok_bind, ofFn_eq_map, ofFn_eq_map, mapM_map']
  have key : ∀ ps, (List.finRange srcs.length).mapM (fun i => eccE1 C odeint H n srcs[i] (T i)) = .ok ps ↔ ∃ xs ys,
      (List.finRange srcs.length).mapM (fun i => (pure i : Except PyErr _)) = .ok xs ∧
      (List.finRange srcs.length).mapM (fun i => (harmonics H).mapM fun k : ℤ =>
        (eccFreqs C odeint srcs[i] (T i) n).mapM fun f => noise C (k * f)) = .ok ys ∧
      xs.zipWith (fun i ns => finish1 (eccE1Row C odeint H n srcs[i] (T i) ns)) ys = ps := by
    intro ps
    rw [mapM_zipWith]
    refine mapM_congr_ok fun s _ b => ?_
    unfold eccE1
    rw [pure_bind]
  have hid : (List.finRange srcs.length).mapM (fun i => (pure i : Except PyErr _)) = .ok (List.finRange srcs.length) := by
    refine (mapM_ok (g := fun i => i) fun _ _ => rfl).trans ?_
    rw [List.map_id']
  have comb : ∀ (is : List (Fin srcs.length)) (ns : List (List (List (WithTop ℝ)))),
      (((is.map fun i => drop_merged_ecc (eccRow C odeint srcs[i] (T i) n) ((eccRow C odeint srcs[i] (T i) n).map
          (eccFreq C.K srcs[i]))).zip
        (((is.map fun i => (⟨chirp_mass srcs[i].m_1 srcs[i].m_2, srcs[i].dist,
          (drop_merged_ecc (eccRow C odeint srcs[i] (T i) n) ((eccRow C odeint srcs[i] (T i) n).map
          (eccFreq C.K srcs[i]))).zip (eccRow C odeint srcs[i] (T i) n), {}⟩ : Row)).map fun r =>
          r.steps.map fun s => (harmonics H).map fun k => h_c_val C.K C.interpolated_g r.m_c r.dist s.1 s.2 k).zip ns)).map
        (fun x => ((harmonics H).zip x.2.2).zipIdx.map fun y =>
          snr2_harmonic (x.1.map fun f => y.1.1 * f) (x.2.1.map fun step => step.getD y.2 0) y.1.2)) =
      is.zipWith (fun i ns => eccE1Row C odeint H n srcs[i] (T i) ns) ns := by
    intro is
    induction is with
    | nil => intro ns; rfl
    | cons i is ih =>
      intro ns
      cases ns with
      | nil => rfl
      | cons x ns =>
        simp only [List.map_cons, List.zip_cons_cons, List.zipWith_cons_cons]
        rw [← ih ns]
        rfl
  rw [except_bind_ok]
  constructor
  · rintro ⟨ns, hns, hv⟩
    rw [finish_pair hH] at hv
    refine ⟨_, (key _).2 ⟨_, ns, hid, hns, rfl⟩, ?_⟩
    rw [← Except.ok.inj hv]
    congr 1
    rw [← List.map_zipWith]
    congr 1
    exact (comb _ ns).symm
  · rintro ⟨ps, hps, rfl⟩
    obtain ⟨xs, ns, hxs, hns, rfl⟩ := (key _).1 hps
    rw [hid] at hxs
    cases hxs
    refine ⟨ns, hns, ?_⟩
    rw [finish_pair hH]
    congr 2
    rw [← List.map_zipWith]
    congr 1
    exact comb _ ns

/-- The merger time of one source as `get_t_merge_ecc` computes it. -/
noncomputable def tEcc (K : Consts) (m_1 m_2 f e : ℝ) (exact : Bool) : ℝ :=
  if e < 0 then 0 else t_val (get_a_from_f_orb K f m_1 m_2) (utils.beta K m_1 m_2) e 0.15 (1 - 1e-4) exact

theorem get_t_merge_ecc_each {ι : Type} (K : Consts) (ecc f m₁ m₂ : ι → ℝ) (ex : Bool) :
    get_t_merge_ecc K ecc none (some f) none (some m₁) (some m₂) 0.15 (1 - 1e-4) ex =
      .ok fun i => tEcc K (m₁ i) (m₂ i) (f i) (ecc i) ex := by
  classical
  have hs : (0 : ℝ) < 0.15 := by norm_num
  have hsl : (0.15 : ℝ) ≤ 1 - 1e-4 := by norm_num
  have hc : check_mass_freq_input K none (some m₁) (some m₂) none (some f) =
    .ok (fun i => utils.beta K (m₁ i) (m₂ i), fun i => get_a_from_f_orb K (f i) (m₁ i) (m₂ i)) := rfl
  simp only [get_t_merge_ecc, hc, bind, Except.bind, pure, Except.pure, tEcc]
  generalize (0.15 : ℝ) = s at hs hsl
  generalize (1 - 1e-4 : ℝ) = l at hsl
  split_ifs with hall
  · rw [get_t_merge_circ_some]
    congr 1; funext i
    simp [t_val, hall i]
  all_goals
    congr 1; funext i
    by_cases hneg : ecc i < 0
    · have h1 : ¬ ecc i = 0 := hneg.ne
      have h2 : ¬ 0 < ecc i := not_lt.2 hneg.le
      have h3 : ¬ s ≤ ecc i := not_le.2 (hneg.trans hs)
      have h4 : ¬ l < ecc i := not_lt.2 (hneg.le.trans (hs.le.trans hsl))
      simp [np.maskAssign, hneg, h1, h2, h3, h4]
    have := not_lt.1 hneg
    rw [if_neg hneg]
    by_cases he : ecc i = 0
    · simp [np.maskAssign, t_val, he, not_le.2 hs, not_lt.2 (hs.le.trans hsl)]
    · have hpos : 0 < ecc i := lt_of_le_of_ne this (Ne.symm he)
      by_cases h1 : ecc i < s
      · simp [np.maskAssign, t_val, he, hpos, h1, not_le.2 h1, not_lt.2 (h1.le.trans hsl)]
      · by_cases h2 : l < ecc i
        · simp [np.maskAssign, t_val, he, h1, h2, not_le.2 h2]
        · simp [np.maskAssign, t_val, *, not_lt.1 h1, not_lt.1 h2]

theorem snr_ecc_evolving_none {C : Ctx} {odeint : Odeint} {srcs : List EvolSrc} {H n : ℕ} (hH : 0 < H) (hn : n ≠ 0)
    {np : ℕ} {order : List ℕ} (hall : np > 1 → ∀ i < srcs.length, i ∈ order) {out : SnrOut} :
    snr_ecc_evolving C odeint srcs H n none np order true false = .ok out ↔
      ∃ ps, srcs.mapM (fun s => eccE1 C odeint H n s (tEcc C.K s.m_1 s.m_2 s.f_orb_i s.ecc true)) = .ok ps ∧
        pairOut ps = out := by
  rw [snr_ecc_evolving_fin (C := C) (t_merge := none) hH hn hall
    (T := fun i => tEcc C.K srcs[i].m_1 srcs[i].m_2 srcs[i].f_orb_i srcs[i].ecc true)
    (get_t_merge_ecc_each C.K (column srcs EvolSrc.ecc) (column srcs EvolSrc.f_orb_i) (column srcs EvolSrc.m_1)
      (column srcs EvolSrc.m_2) true)]
  rw [finRange_mapM (f := eccE1 C odeint H n)]
  have : List.ofFn (fun i : Fin srcs.length => tEcc C.K srcs[i].m_1 srcs[i].m_2 srcs[i].f_orb_i srcs[i].ecc true) =
      srcs.map fun s => tEcc C.K s.m_1 s.m_2 s.f_orb_i s.ecc true := by
    apply List.ext_getElem
    · simp
    · intro i h1 h2
      simp
  rw [this, zip_map_right_self, mapM_map']

end Legwork.snr
