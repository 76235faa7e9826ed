import Verif.Props.Classes
import Verif.Props.Stricter

/-!
# A quieter detector: C111
-/

namespace Legwork.Props

open Real Legwork.source Legwork.Spec Legwork.snr Legwork.strain Legwork.utils Legwork.evol
open PyM hiding bind

/-! ### Evolving sources -/

private lemma noise_less {x : ℝ} (hx : 0 ≤ x) {y y' : WithTop ℝ} (hy : 0 < y') (h : y' ≤ y) {c : ℝ} (hc : 0 < c) :
    0 ≤ divNoise x (y.map fun n => c * n) ∧ divNoise x (y.map fun n => c * n) ≤ divNoise x (y'.map fun n => c * n) := by
  cases y' with
  | top =>
    rw [top_le_iff] at h
    subst h
    exact ⟨le_rfl, le_rfl⟩
  | coe y' =>
    have h1 : 0 < y' := by exact_mod_cast hy
    cases y with
    | top => exact ⟨le_rfl, show 0 ≤ x / (c * y') by positivity⟩
    | coe y =>
      have h2 : y' ≤ y := by exact_mod_cast h
      have h3 : 0 < y := h1.trans_le h2
      exact ⟨show 0 ≤ x / (c * y) by positivity,
        show x / (c * y) ≤ x / (c * y') from div_le_div_of_nonneg_left hx (by positivity) (mul_le_mul_of_nonneg_left h2 hc.le)⟩

theorem trapezoid_mono {α : Type*} {l : List α} {F G : α → ℝ} {xs : List ℝ} (h : ∀ a ∈ l, 0 ≤ F a ∧ F a ≤ G a)
    (hx : xs.Pairwise (· ≤ ·)) : 0 ≤ trapezoid (l.map F) xs ∧ trapezoid (l.map F) xs ≤ trapezoid (l.map G) xs := by
  refine ⟨trapezoid_nonneg (fun y hy => by obtain ⟨a, ha, rfl⟩ := List.mem_map.1 hy; exact (h a ha).1) hx, ?_⟩
  induction l generalizing xs with
  | nil => simp [trapezoid]
  | cons a l ih =>
    rcases l with _ | ⟨b, l⟩
    · simp [trapezoid]
    · rcases xs with _ | ⟨x₀, _ | ⟨x₁, xs⟩⟩
      · simp [trapezoid]
      · simp [trapezoid]
      · have h1 : x₀ ≤ x₁ := (List.pairwise_cons.1 hx).1 x₁ (by simp)
        have h2 := ih (fun y hy' => h y (by simp [hy'])) (List.pairwise_cons.1 hx).2
        have h3 := (h a (by simp)).2
        have h4 := (h b (by simp)).2
        simp only [List.map_cons, trapezoid] at h2 ⊢
        have := mul_le_mul_of_nonneg_left (add_le_add h4 h3) (sub_nonneg.2 h1)
        linarith

/-- **C111** (evolving circular sources). Lower the noise of a detector at every frequency, or leave it as it is. Then
`snr_circ_evolving` returns for every source an SNR that is no smaller than before. The sources do not hit exactly 100 Hz (the
code's marker for merged ones) and merge at least one second after the start of the observation; merger times supplied
by the caller are no later than the true ones. -/
theorem C111_circular {C C' : Ctx} (hK : C'.K = C.K) (hg : C'.interpolated_g = C.interpolated_g) (ht : C'.t_obs = C.t_obs)
    (h0 : 0 ≤ C.t_obs) {N N' : ℝ → WithTop ℝ} (hN : Curve C N) (hN' : Curve C' N') (hle : ∀ f, 0 < f → N' f ≤ N f)
    (srcs : List EvolSrc) {n : ℕ} (hn : 1 ≤ n) (hs : ∀ s ∈ srcs, EvolPhys s) {T Tc : Fin srcs.length → ℝ}
    (hT : get_t_merge_circ C.K none (some fun i => srcs[i].m_1) (some fun i => srcs[i].m_2) none
      (some fun i => srcs[i].f_orb_i) = .ok Tc) {t_merge : Option (List ℝ)}
    (htm : t_merge = none ∧ T = Tc ∨ t_merge = some (List.ofFn T)) (h1 : ∀ i, 1 ≤ T i ∧ T i ≤ Tc i)
    {fs : Fin srcs.length → List ℝ}
    (hfs : evol_circ C.K AU (some (.array fun i => min (T i - 1) C.t_obs)) n none none
      (some fun i => srcs[i].m_1) (some fun i => srcs[i].m_2) none (some fun i => srcs[i].f_orb_i) ["f_orb"]
      = .ok (.one fs)) (h100 : ∀ i, (100 : ℝ) ∉ fs i) :
    ∃ snr snr', snr_circ_evolving C srcs n t_merge = .ok snr ∧ snr_circ_evolving C' srcs n t_merge = .ok snr' ∧
      snr.length = srcs.length ∧ Pointwise (fun x y => ∃ v w, x = some v ∧ y = some w ∧ 0 ≤ v ∧ v ≤ w) snr snr' := by
  have hTT : ∀ D : Ctx, D.K = C.K → merge_times_circ D srcs t_merge = .ok T := by
    intro D hD
    rcases htm with ⟨rfl, rfl⟩ | rfl
    · unfold merge_times_circ
      rw [hD]
      exact hT
    · simp [merge_times_circ, pure, Except.pure]
  have hfs' := evol_circ_snr C.K srcs (fun i => min (T i - 1) C.t_obs) n
  have hfe : fs = fun i => circRow C.K srcs[i] (min (T i - 1) C.t_obs) n := by
    have := hfs.symm.trans hfs'
    simpa using this
  subst hfe
  refine ⟨_, _, snr_circ_evolving_eq C srcs (by omega) t_merge hN.ok (hTT C rfl),
    snr_circ_evolving_eq C' srcs (by omega) t_merge hN'.ok (hTT C' hK), by simp, ?_⟩
  unfold Pointwise
  rw [List.forall₂_iff_get]
  refine ⟨by simp, fun j hj1 hj2 => ?_⟩
  simp only [List.get_eq_getElem, List.getElem_ofFn]
  set i : Fin srcs.length := ⟨j, by simpa using hj1⟩
  rw [hK, ht]
  have hTi : Tc i = get_a_from_f_orb C.K srcs[i].f_orb_i srcs[i].m_1 srcs[i].m_2 ^ 4
      / (4 * utils.beta C.K srcs[i].m_1 srcs[i].m_2) := by
    rw [get_t_merge_circ_masses] at hT
    simp only [Except.ok.injEq] at hT
    rw [← hT]
  have hsi : EvolPhys srcs[i] := hs _ (List.getElem_mem _)
  have h100i := h100 i
  simp only at h100i
  have hb := circRow_pairwise C.K hsi h100i hTi
  have hlt : min (T i - 1) C.t_obs < Tc i := lt_of_le_of_lt (min_le_left _ _) (by linarith [(h1 i).2])
  have hpos := hb.2.2 hlt
  have hsort := hb.1 (le_min (by linarith [(h1 i).1]) h0) hlt
  rw [drop_merged_circ_of_not_mem h100i]
  obtain ⟨q1, q2⟩ := trapezoid_mono (l := circRow C.K srcs[i] (min (T i - 1) C.t_obs) n) (F := circW C N srcs[i])
    (G := circW C' N' srcs[i]) (xs := (circRow C.K srcs[i] (min (T i - 1) C.t_obs) n).map fun f => 2 * f)
    (fun f hf => by
      have hp := hpos f hf
      have h2 : 0 < 2 * f := by linarith
      unfold circW
      rw [hK, hg]
      exact noise_less (sq_nonneg _) (hN'.pos _ h2) (hle _ h2) (by positivity))
    (by rw [List.pairwise_map]; exact hsort.imp fun h => by linarith)
  exact ⟨_, _, sqrt?_nonneg q1, sqrt?_nonneg (q1.trans q2), sqrt_nonneg _, sqrt_le_sqrt q2⟩

/-- **C111** (evolving eccentric sources). The same for `snr_ecc_evolving` under the conditions of C65, for any number of
harmonics, steps and worker processes. -/
theorem C111_eccentric {C C' : Ctx} (hK : C'.K = C.K) (hg : C'.interpolated_g = C.interpolated_g) (ht : C'.t_obs = C.t_obs)
    (h0 : 0 ≤ C.t_obs) {N N' : ℝ → WithTop ℝ} (hN : Curve C N) (hN' : Curve C' N') (hle : ∀ f, 0 < f → N' f ≤ N f)
    {odeint : Odeint} (ho : DecreasingIntegrator odeint) (srcs : List EvolSrc) (H : ℕ) {n : ℕ} (hn : 1 ≤ n)
    (hs : ∀ s ∈ srcs, EvolPhys s) (he : ∀ s ∈ srcs, 0 < s.ecc ∧ s.ecc < 1) (nproc : ℕ) (order : List ℕ)
    (hall : nproc > 1 → ∀ i < srcs.length, i ∈ order) {T : Fin srcs.length → ℝ} {t_merge : Option (List ℝ)}
    (hT : t_merge = some (List.ofFn T) ∨ t_merge = none ∧ get_t_merge_ecc C.K (fun i => srcs[i].ecc) none
      (some fun i => srcs[i].f_orb_i) none (some fun i => srcs[i].m_1) (some fun i => srcs[i].m_2) 0.15 (1 - 1e-4) true
      = .ok T) (h100 : Avoids100 C odeint srcs T n) :
    ∃ snr snr', snr_ecc_evolving C odeint srcs H n t_merge nproc order false false = .ok (.total snr) ∧
      snr_ecc_evolving C' odeint srcs H n t_merge nproc order false false = .ok (.total snr') ∧ snr.length = srcs.length ∧
      Pointwise (fun x y => ∃ v w, x = some v ∧ y = some w ∧ 0 ≤ v ∧ v ≤ w) snr snr' := by
  have hTT : ∀ D : Ctx, D.K = C.K → merge_times_ecc D srcs t_merge = .ok T := by
    intro D hD
    rcases hT with rfl | ⟨rfl, h⟩
    · simp [merge_times_ecc, pure, Except.pure]
    · unfold merge_times_ecc
      rw [hD]
      exact h
  have hn' : n ≠ 0 := by omega
  refine ⟨_, _, by rw [snr_ecc_evolving_eq C odeint srcs H hn' t_merge nproc order hall false false hN.ok (hTT C rfl)]; rfl,
    by rw [snr_ecc_evolving_eq C' odeint srcs H hn' t_merge nproc order hall false false hN'.ok (hTT C' hK)]; rfl, by simp, ?_⟩
  unfold Pointwise
  rw [List.map_ofFn, List.map_ofFn, List.forall₂_iff_get]
  refine ⟨by simp, fun j hj1 hj2 => ?_⟩
  simp only [List.get_eq_getElem, List.getElem_ofFn, Function.comp]
  set i : Fin srcs.length := ⟨j, by simpa using hj1⟩
  have hsi : EvolPhys srcs[i] := hs _ (List.getElem_mem _)
  obtain ⟨e0, e1⟩ := he srcs[i] (List.getElem_mem _)
  obtain ⟨hpos, hsort⟩ := eccFreqs_facts ho hsi e0 e1 hn' h0 (avoids_row hn' h100 i)
  have hrow : eccRow C' odeint srcs[i] (T i) n = eccRow C odeint srcs[i] (T i) n := by
    unfold eccRow eccTimes
    rw [hK, ht]
  have hfreq : eccFreqs C' odeint srcs[i] (T i) n = eccFreqs C odeint srcs[i] (T i) n := by
    unfold eccFreqs
    rw [hrow, hK]
  have key : ∀ k ∈ harmonics H, 0 ≤ eccSnr2 C odeint N srcs[i] (T i) n k ∧
      eccSnr2 C odeint N srcs[i] (T i) n k ≤ eccSnr2 C' odeint N' srcs[i] (T i) n k := by
    intro k hk
    have hkp : (0 : ℝ) < k := by
      have := (mem_harmonics.1 hk).1
      exact_mod_cast (by omega : 0 < k)
    unfold eccSnr2
    rw [hfreq, hrow]
    refine trapezoid_mono (fun fe hfe => ?_) (by rw [List.pairwise_map]; exact hsort.imp fun h => mul_le_mul_of_nonneg_left h hkp.le)
    have hp := mul_pos hkp (hpos fe.1 (List.of_mem_zip hfe).1)
    unfold eccW
    rw [hK, hg]
    exact noise_less (sq_nonneg _) (hN'.pos _ hp) (hle _ hp) (by positivity)
  have hsum : ∀ ks : List ℤ, (∀ k ∈ ks, k ∈ harmonics H) → 0 ≤ (ks.map fun k => eccSnr2 C odeint N srcs[i] (T i) n k).sum ∧
      (ks.map fun k => eccSnr2 C odeint N srcs[i] (T i) n k).sum ≤ (ks.map fun k => eccSnr2 C' odeint N' srcs[i] (T i) n k).sum := by
    intro ks hks
    induction ks with
    | nil => simp
    | cons k ks ih =>
      obtain ⟨a, b⟩ := ih fun j hj => hks j (by simp [hj])
      obtain ⟨c, d⟩ := key k (hks k (by simp))
      simp only [List.map_cons, List.sum_cons]
      constructor <;> linarith
  obtain ⟨q1, q2⟩ := hsum _ fun k hk => hk
  exact ⟨_, _, sqrt?_nonneg q1, sqrt?_nonneg (q1.trans q2), sqrt_nonneg _, sqrt_le_sqrt q2⟩

/-! ### Objects -/

/-- What is asked of a source that changes its frequency. A circular one merges at least one second after the start of the
observation, a merger time stored in the object is no later than the true one, and the evolution does not hit exactly 100 Hz.
For an eccentric one the integrator is as in C65, and the evolution does not hit exactly 100 Hz. -/
def WellEvolved (W : World) (C : Ctx) (n : ℕ) (tol : ℝ) (x : One) : Prop :=
  EvolPhys x.evolving ∧
  (x.ecc ≤ tol → ∃ T Tc, get_t_merge_circ W.K none (some fun _ : Fin 1 => x.m_1) (some fun _ => x.m_2) none
      (some fun _ => x.f_orb) = .ok (fun _ => Tc) ∧ T = x.t_merge.getD Tc ∧ 1 ≤ T ∧ T ≤ Tc ∧
    ∃ fs, evol_circ W.K AU (some (.array fun _ : Fin 1 => min (T - 1) C.t_obs)) n none none (some fun _ => x.m_1)
      (some fun _ => x.m_2) none (some fun _ => x.f_orb) ["f_orb"] = .ok (.one fs) ∧ ∀ i, (100 : ℝ) ∉ fs i) ∧
  (tol < x.ecc → 0 < x.ecc ∧ x.ecc < 1 ∧ DecreasingIntegrator W.odeint ∧
    ∃ T, get_t_merge_ecc W.K (fun _ : Fin 1 => x.ecc) none (some fun _ => x.f_orb) none (some fun _ => x.m_1)
      (some fun _ => x.m_2) 0.15 (1 - 1e-4) true = .ok T ∧ Avoids100 C W.odeint [x.evolving] T n)

private lemma finish_total' {H : ℕ} {rows : List (List ℝ)} {vs : List (Option ℝ)} {ks : List ℕ}
    (h : snr.finish true false H rows = .ok (.withMax vs ks)) : snr.finish false false H rows = .ok (.total vs) := by
  unfold snr.finish at h ⊢
  simp only [Bool.false_eq_true, if_false, if_true] at h ⊢
  split_ifs at h
  cases h
  rfl

/-- One source that is treated as evolving in both calls. -/
theorem evolving_quieter {W : World} {C C' : Ctx} (hKW : C.K = W.K) (hK : C'.K = C.K)
    (hg : C'.interpolated_g = C.interpolated_g) (ht : C'.t_obs = C.t_obs) (h0 : 0 ≤ C.t_obs) {N N' : ℝ → WithTop ℝ}
    (hN : Curve C N) (hN' : Curve C' N') (hle : ∀ f, 0 < f → N' f ≤ N f) {n : ℕ} (hn : n ≠ 0) {x : One} {tol : ℝ} {q : ℝ → ℤ}
    (hx : WellEvolved W C n tol x) {v v' : Option ℝ} {harm harm' : ℕ} (hs : EvolvingSnr C W.odeint n tol q x v harm)
    (hs' : EvolvingSnr C' W.odeint n tol q x v' harm') : ∃ a b : ℝ, v = some a ∧ v' = some b ∧ 0 ≤ a ∧ a ≤ b := by
  obtain ⟨c1, e1⟩ := hs
  obtain ⟨c2, e2⟩ := hs'
  obtain ⟨hph, hcirc, hecc⟩ := hx
  have hone : ∀ i : Fin [x.evolving].length, [x.evolving][i] = x.evolving := fun i => by simp
  have hone' : ∀ i : Fin [x.evolvingCirc].length, [x.evolvingCirc][i] = x.evolvingCirc := fun i => by simp
  by_cases he : x.ecc ≤ tol
  · obtain ⟨T, Tc, hTc, hT, h1, h2, fs, hfs, h100⟩ := hcirc he
    rw [← hKW] at hTc hfs
    obtain ⟨u, u', d1, d2, -, hp⟩ := C111_circular hK hg ht h0 hN hN' hle [x.evolvingCirc] (n := n) (by omega)
      (by intro s hs; rw [List.mem_singleton] at hs; subst hs; exact hph) (T := fun _ => T) (Tc := fun _ => Tc)
      (by simp only [hone']; exact hTc) (t_merge := x.t_merge.map fun t => [t])
      (by
        rcases hm : x.t_merge with _ | t
        · rw [hm] at hT
          exact Or.inl ⟨rfl, by rw [hT]; rfl⟩
        · rw [hm] at hT
          exact Or.inr (by rw [hT]; rfl))
      (fun _ => ⟨h1, h2⟩) (fs := fs) (by simp only [hone']; exact hfs) h100
    rw [(c1 he).1] at d1
    rw [(c2 he).1] at d2
    cases d1
    cases d2
    cases hp with
    | cons hp _ => exact hp
  · obtain ⟨g1, g2⟩ := e1 (not_le.1 he)
    obtain ⟨k1, k2⟩ := e2 (not_le.1 he)
    obtain ⟨p0, p1, ho, T, hT, h100⟩ := hecc (not_le.1 he)
    rw [← hKW] at hT
    by_cases hH : ∃ H, HarmonicLimit (q x.ecc) H
    · obtain ⟨H, hH⟩ := hH
      have hT' : get_t_merge_ecc C.K (fun i : Fin [x.evolving].length => [x.evolving][i].ecc) none
          (some fun i => [x.evolving][i].f_orb_i) none (some fun i => [x.evolving][i].m_1) (some fun i => [x.evolving][i].m_2)
          0.15 (1 - 1e-4) true = .ok T := by
        simp only [hone]
        exact hT
      obtain ⟨u, u', d1, d2, -, hp⟩ := C111_eccentric hK hg ht h0 hN hN' hle ho [x.evolving] H (n := n) (by omega)
        (by intro s hs; rw [List.mem_singleton] at hs; subst hs; exact hph)
        (by intro s hs; rw [List.mem_singleton] at hs; subst hs; exact ⟨p0, p1⟩) 1 [] (by omega) (Or.inr ⟨rfl, hT'⟩) h100
      have i1 := g1 H hH
      have i2 := k1 H hH
      have hT₂ : merge_times_ecc C' [x.evolving] none = .ok T := by
        unfold merge_times_ecc
        rw [hK]
        exact hT'
      rw [snr_ecc_evolving_eq C W.odeint _ _ hn none _ _ (by omega) _ _ hN.ok hT'] at i1 d1
      rw [snr_ecc_evolving_eq C' W.odeint _ _ hn none _ _ (by omega) _ _ hN'.ok hT₂] at i2 d2
      rw [finish_total' i1] at d1
      rw [finish_total' i2] at d2
      cases d1
      cases d2
      cases hp with
      | cons hp _ => exact hp
    · exact ⟨0, 0, (g2 hH).1, (k2 hH).1, le_rfl, le_rfl⟩

private lemma noise_total {W : World} {h : Heap} {s p : ℕ} {C : Ctx} (hC : CallCtx W h s C) (hp : (h.src s).sc_params = some p)
    (hN : ∀ f, ∃ y, psd_of_dict W (h.par p).dict f = .ok y) (f : ℝ) : ∃ y, noise C f = .ok y := by
  rcases hi : C.interpolated_sc with _ | k
  · obtain ⟨y, h1⟩ := hN f
    have h1 := noise_of_dict hC hp h1
    have hE : { C with interpolated_sc := none } = C := by rw [← hi]
    rw [hE] at h1
    exact ⟨y, h1⟩
  · exact ⟨k f, by unfold noise; rw [hi]; rfl⟩

/-- **C111.** Let `get_snr` return for two objects, or twice for one, however the programs got there: the second time for a
detector whose noise is no larger at any frequency (another instrument, arm length or response, without confusion noise, with
a noise given by the user, …), with the same observation time and number of steps. Every unmerged binary has an SNR that is no
smaller the second time: circular or eccentric, with or without position, stationary or not. Binaries that are not stationary
are as in `WellEvolved`. -/
theorem C111_get_snr {W : World} {h₁ h₂ h₁' h₂' : Heap} {s₁ s₂ n r₁ r₂ p₁ p₂ : ℕ} {a₁ a₂ : SnrArgs}
    {ws₁ ws₂ : Option (List Bool)} (hr₁ : Reachable W AnyCall h₁) (hr₂ : Reachable W AnyCall h₂)
    (hcls₁ : (h₁.src s₁).cls = .Source ∨ (h₁.src s₁).cls = .VerificationBinaries)
    (hcls₂ : (h₂.src s₂).cls = .Source ∨ (h₂.src s₂).cls = .VerificationBinaries) (hn : n ≠ 0)
    (hsch₁ : CompleteSchedule W (h₁.src s₁)) (hsch₂ : CompleteSchedule W (h₂.src s₂)) (hrect₁ : Rect (h₁.src s₁).cols)
    (hrect₂ : Rect (h₂.src s₂).cols) (hw₁ : FitsMask (h₁.src s₁).cols ws₁) (hw₂ : FitsMask (h₂.src s₂).cols ws₂)
    (hrun₁ : get_snr W s₁ a₁ n ws₁ h₁ = (.ok r₁, h₁')) (hrun₂ : get_snr W s₂ a₂ n ws₂ h₂ = (.ok r₂, h₂'))
    (hp₁ : (h₁'.src s₁).sc_params = some p₁) (hp₂ : (h₂'.src s₂).sc_params = some p₂) (hS : SameTables h₁' s₁ h₂' s₂)
    {t : ℝ} (ht₁ : (h₁'.par p₁).dict.get? "t_obs" = some (.time t)) (ht₂ : (h₂'.par p₂).dict.get? "t_obs" = some (.time t))
    (h0 : 0 ≤ t)
    (hN : ∀ f, ∃ y y', psd_of_dict W (h₁'.par p₁).dict f = .ok y ∧ psd_of_dict W (h₂'.par p₂).dict f = .ok y' ∧
      (0 < f → 0 < y' ∧ y' ≤ y)) {i₁ i₂ : ℕ} {x : One} (hi₁ : (rows (h₁.src s₁).cols)[i₁]? = some x)
    (hi₂ : (rows (h₂.src s₂).cols)[i₂]? = some x) (hm : x.merged = false) (hch₁ : Chosen ws₁ i₁) (hch₂ : Chosen ws₂ i₂)
    (hx : PhysicalOne x) (hev : ¬ x.StationaryOver W.K t (h₁'.src s₁).stat_tol →
      ∀ C tol, CallCtx W h₁' s₁ C → (h₁'.src s₁).ecc_tol = some tol → WellEvolved W C n tol x) :
    ∃ v v' : ℝ, (h₁'.snrs r₁)[i₁]? = some (some v) ∧ (h₂'.snrs r₂)[i₂]? = some (some v') ∧ 0 ≤ v ∧ v ≤ v' := by
  obtain ⟨-, -, -, hrow₁⟩ := C36_get_snr hcls₁ hn hsch₁ hrect₁ hw₁ hrun₁
  obtain ⟨-, -, -, hrow₂⟩ := C36_get_snr hcls₂ hn hsch₂ hrect₂ hw₂ hrun₂
  obtain ⟨v, harm, -, hv, -, -, C, tol, q, hC, htl, hq, hstat, hevol⟩ := (hrow₁ i₁ x hi₁).2 hm hch₁
  obtain ⟨v', harm', -, hv', -, -, C', tol', q', hC', htl', hq', hstat', hevol'⟩ := (hrow₂ i₂ x hi₂).2 hm hch₂
  have hN₀ : ∀ f, 0 < f → ∃ y y', psd_of_dict W (h₁'.par p₁).dict f = .ok y ∧ psd_of_dict W (h₂'.par p₂).dict f = .ok y' ∧
      0 < y' ∧ y' ≤ y := fun f hf => by
    obtain ⟨y, y', e1, e2, e3⟩ := hN f
    exact ⟨y, y', e1, e2, e3 hf⟩
  obtain ⟨hL, hCt, hCt'⟩ := longer_call (snr_reachable hr₁ trivial hrun₁) (snr_reachable hr₂ trivial hrun₂) hC hC' hp₁ hp₂ hS
    ht₁ ht₂ h0 le_rfl hN₀
  rw [hS.ecc_tol, htl] at htl'
  cases htl'
  rw [hS.harmonics_required, hq] at hq'
  cases hq'
  have hNC := noise_total hC hp₁ fun f => by obtain ⟨y, -, e1, -⟩ := hN f; exact ⟨y, e1⟩
  have hNC' := noise_total hC' hp₂ fun f => by obtain ⟨-, y, -, e1, -⟩ := hN f; exact ⟨y, e1⟩
  choose N hNN using hNC
  choose N' hNN' using hNC'
  have hpos : ∀ f, 0 < f → 0 < N' f ∧ N' f ≤ N f := fun f hf => by
    obtain ⟨y, y', e1, e2, e3, e4⟩ := hL.noise f hf
    rw [hNN] at e1
    rw [hNN'] at e2
    cases e1
    cases e2
    exact ⟨e3, e4⟩
  rw [hCt] at hstat hevol
  rw [hCt', hS.stat_tol] at hstat' hevol'
  have : ∃ a b : ℝ, v = some a ∧ v' = some b ∧ 0 ≤ a ∧ a ≤ b := by
    by_cases hst : x.StationaryOver W.K t (h₁'.src s₁).stat_tol
    · exact stationary_longer hL hx (hstat hst) (hstat' hst)
    · exact evolving_quieter (callCtx_K hC) hL.K hL.g (hCt'.trans hCt.symm) (by rw [hCt]; exact h0)
        ⟨hNN, fun f hf => (hpos f hf).1.trans_le (hpos f hf).2⟩ ⟨hNN', fun f hf => (hpos f hf).1⟩ (fun f hf => (hpos f hf).2)
        hn (hev hst C tol hC htl) (hevol hst) (hevol' hst)
  obtain ⟨a, b, rfl, rfl, ha, hab⟩ := this
  exact ⟨a, b, hv, hv', ha, hab⟩

/-! ### Confusion noise -/

/-- **C111** (confusion noise). For LISA with the analytic response, TianQin and DECIGO, each with its default or a positive
arm length: the noise exists at every frequency with any named confusion noise and without one, and at positive frequencies
it is positive and no larger without one. -/
theorem C111_confusion_psd (K : Consts) (env : psd.Env) (custom : Option psd.CustomPsd) {inst : String} {R : Bool}
    (hinst : inst = "LISA" ∧ R = true ∨ inst = "TianQin" ∨ inst = "DECIGO") {L : psd.LenArg} (hL : ∀ l, L = .val l → 0 < l)
    {name : String} {t : ℝ} (hname : name = "auto" ∨ Recognised (.name name) (.val t)) (f : ℝ) :
    ∃ y y', psd.power_spectral_density K env f inst custom (.val t) L R (.name name) = .ok y ∧
      psd.power_spectral_density K env f inst custom (.val t) L R .none = .ok y' ∧ (0 < f → 0 < y' ∧ y' ≤ y) := by
  have hLp : ∀ d : ℝ, 0 < d → 0 < L.resolve d := fun d hd => by
    cases L with
    | auto => exact hd
    | val l => exact hL l rfl
  have hres : ∀ d : String, Recognised (.name d) (.val t) →
      ∃ s, (psd.NoiseArg.name name).resolve d = .name s ∧ Recognised (.name s) (.val t) := by
    intro d hd
    by_cases h : name = "auto"
    · exact ⟨d, if_pos h, hd⟩
    · exact ⟨name, if_neg h, hname.resolve_left h⟩
  have hnone : Recognised .none (.val t) := Or.inl rfl
  rcases hinst with ⟨rfl, rfl⟩ | rfl | rfl
  · obtain ⟨s, e, hs⟩ := hres "karnesis21" (by simp [Recognised])
    have hl := hLp 2.5e9 (by norm_num)
    obtain ⟨x, hx, -⟩ := C24_lisa K env f (.val t) hl true hs (fun g _ => Or.inl rfl)
    obtain ⟨x', hx', h1, h2⟩ := C24_lisa K env f (.val t) hl true hnone (fun g _ => Or.inl rfl)
    refine ⟨x, x', ?_, hx', fun hf => ⟨?_, (C25_psd_ge_without K env (f_low := 0) (f_high := 0) hf _ _ s).1 hx hx'⟩⟩
    · change psd.lisa_psd K env f _ _ _ ((psd.NoiseArg.name name).resolve "karnesis21") = _
      rw [e]
      exact hx
    · by_cases hout : f < 1e-7 ∨ 2 < f
      · rw [h1 hout]
        exact WithTop.coe_lt_top 0
      · push Not at hout
        obtain ⟨z, hz, rfl⟩ := h2 hout.1 hout.2
        exact_mod_cast hz
  · obtain ⟨s, e, hs⟩ := hres "huang20" (by simp [Recognised])
    have hl := hLp (√3 * 1e5 * 1000) (by positivity)
    have htot : ∀ cn, Recognised cn (.val t) → ∃ x, psd.tianqin_psd K f (L.resolve (√3 * 1e5 * 1000)) (.val t) cn = .ok x := by
      intro cn hcn
      obtain ⟨y, -, hy, -⟩ := noise_of_recognised hcn f
      simp only [psd.tianqin_psd, bind, Except.bind, pure, Except.pure, hy]
      exact ⟨_, rfl⟩
    obtain ⟨x, hx⟩ := htot _ hs
    obtain ⟨x', hx'⟩ := htot _ hnone
    refine ⟨x, x', ?_, hx', fun hf => ⟨?_, (C25_psd_ge_without K env (f_low := 0) (f_high := 0) hf _ true s).2.1 hx hx'⟩⟩
    · change psd.tianqin_psd K f _ _ ((psd.NoiseArg.name name).resolve "huang20") = _
      rw [e]
      exact hx
    · obtain ⟨z, hz, hz'⟩ := C24_tianqin K hf hl (.val t) hnone
      rw [hx'] at hz'
      cases hz'
      exact_mod_cast hz
  · obtain ⟨s, e, hs⟩ := hres "karnesis21" (by simp [Recognised])
    obtain ⟨x, hx, -⟩ := C24_decigo f (.val t) hs (f_low := 1e-3) (f_high := 1e2) (by norm_num)
    obtain ⟨x', hx', h1, h2⟩ := C24_decigo f (.val t) hnone (f_low := 1e-3) (f_high := 1e2) (by norm_num)
    refine ⟨x, x', ?_, hx', fun hf => ⟨?_, (C25_psd_ge_without K env (L := 1) hf _ true s).2.2 hx hx'⟩⟩
    · change psd.decigo_psd f _ ((psd.NoiseArg.name name).resolve "karnesis21") _ _ = _
      rw [e]
      exact hx
    · by_cases hout : f < 1e-3 ∨ 1e2 < f
      · rw [h1 hout]
        exact WithTop.coe_lt_top 0
      · push Not at hout
        obtain ⟨z, hz, rfl⟩ := h2 hout.1 hout.2
        exact_mod_cast hz

/-- **C111** (without confusion noise). As `C111_get_snr`, for LISA with the analytic response, TianQin or DECIGO, with its
default or a positive arm length: first with a named confusion noise, then without one, otherwise with the same settings. -/
theorem C111_confusion {W : World} {h₁ h₂ h₁' h₂' : Heap} {s₁ s₂ n r₁ r₂ p₁ p₂ : ℕ} {a₁ a₂ : SnrArgs}
    {ws₁ ws₂ : Option (List Bool)} (hr₁ : Reachable W AnyCall h₁) (hr₂ : Reachable W AnyCall h₂)
    (hcls₁ : (h₁.src s₁).cls = .Source ∨ (h₁.src s₁).cls = .VerificationBinaries)
    (hcls₂ : (h₂.src s₂).cls = .Source ∨ (h₂.src s₂).cls = .VerificationBinaries) (hn : n ≠ 0)
    (hsch₁ : CompleteSchedule W (h₁.src s₁)) (hsch₂ : CompleteSchedule W (h₂.src s₂)) (hrect₁ : Rect (h₁.src s₁).cols)
    (hrect₂ : Rect (h₂.src s₂).cols) (hw₁ : FitsMask (h₁.src s₁).cols ws₁) (hw₂ : FitsMask (h₂.src s₂).cols ws₂)
    (hrun₁ : get_snr W s₁ a₁ n ws₁ h₁ = (.ok r₁, h₁')) (hrun₂ : get_snr W s₂ a₂ n ws₂ h₂ = (.ok r₂, h₂'))
    (hp₁ : (h₁'.src s₁).sc_params = some p₁) (hp₂ : (h₂'.src s₂).sc_params = some p₂) (hS : SameTables h₁' s₁ h₂' s₂)
    (hsame : ∀ key, key ≠ "confusion_noise" → (h₂'.par p₂).dict.get? key = (h₁'.par p₁).dict.get? key) {inst name : String}
    {t : ℝ} (hinst : (h₁'.par p₁).dict.get? "instrument" = some (.str inst))
    (hthree : inst = "LISA" ∧ (h₁'.par p₁).dict.get? "approximate_R" = some (.bool true) ∨ inst = "TianQin" ∨ inst = "DECIGO")
    (hL : (h₁'.par p₁).dict.get? "L" = some (.str "auto") ∨ ∃ l, 0 < l ∧ (h₁'.par p₁).dict.get? "L" = some (.length l))
    (ht : (h₁'.par p₁).dict.get? "t_obs" = some (.time t)) (h0 : 0 ≤ t)
    (hname : name = "auto" ∨ Recognised (.name name) (.val t))
    (hcn₁ : (h₁'.par p₁).dict.get? "confusion_noise" = some (.str name))
    (hcn₂ : (h₂'.par p₂).dict.get? "confusion_noise" = some .none) {i₁ i₂ : ℕ} {x : One}
    (hi₁ : (rows (h₁.src s₁).cols)[i₁]? = some x) (hi₂ : (rows (h₂.src s₂).cols)[i₂]? = some x) (hm : x.merged = false)
    (hch₁ : Chosen ws₁ i₁) (hch₂ : Chosen ws₂ i₂) (hx : PhysicalOne x)
    (hev : ¬ x.StationaryOver W.K t (h₁'.src s₁).stat_tol →
      ∀ C tol, CallCtx W h₁' s₁ C → (h₁'.src s₁).ecc_tol = some tol → WellEvolved W C n tol x) :
    ∃ v v' : ℝ, (h₁'.snrs r₁)[i₁]? = some (some v) ∧ (h₂'.snrs r₂)[i₂]? = some (some v') ∧ 0 ≤ v ∧ v ≤ v' := by
  refine C111_get_snr hr₁ hr₂ hcls₁ hcls₂ hn hsch₁ hsch₂ hrect₁ hrect₂ hw₁ hw₂ hrun₁ hrun₂ hp₁ hp₂ hS ht
    ((hsame _ (by decide)).trans ht) h0 ?_ hi₁ hi₂ hm hch₁ hch₂ hx hev
  obtain ⟨-, -, -, hrow₁⟩ := C36_get_snr hcls₁ hn hsch₁ hrect₁ hw₁ hrun₁
  obtain ⟨-, -, -, hrow₂⟩ := C36_get_snr hcls₂ hn hsch₂ hrect₂ hw₂ hrun₂
  obtain ⟨-, -, -, -, -, -, C, -, -, hC, -⟩ := (hrow₁ i₁ x hi₁).2 hm hch₁
  obtain ⟨-, -, -, -, -, -, C', -, -, hC', -⟩ := (hrow₂ i₂ x hi₂).2 hm hch₂
  have d₁ := dict_of_noise hC hp₁ (six_keys (snr_reachable hr₁ trivial hrun₁) hp₁)
  have d₂ := dict_of_noise hC' hp₂ (six_keys (snr_reachable hr₂ trivial hrun₂) hp₂)
  obtain ⟨q, i, cp, l, aR, cn, kw, T, hq, g1, g2, g3, g4, g5, hkw, g6, rfl⟩ := hC
  obtain ⟨q', i', cp', l', aR', cn', kw', T', hq', g1', g2', g3', g4', g5', hkw', g6', rfl⟩ := hC'
  rw [hp₁] at hq
  rw [hp₂] at hq'
  cases hq
  cases hq'
  rw [hsame _ (by decide), g1] at g1'
  rw [hsame _ (by decide), g2] at g2'
  rw [hsame _ (by decide), g3] at g3'
  rw [hsame _ (by decide), g4] at g4'
  rw [hsame _ (by decide), g6] at g6'
  rw [hcn₁] at g5
  rw [hcn₂] at g5'
  rw [hinst] at g1
  rw [ht] at g6
  cases g1
  cases g6
  cases g1'
  cases g2'
  cases g3'
  cases g4'
  cases g5
  cases g5'
  cases g6'
  unfold asKw at hkw hkw'
  obtain ⟨_, e1, hkw⟩ := except_bind_ok.1 hkw
  obtain ⟨custom, e2, hkw⟩ := except_bind_ok.1 hkw
  obtain ⟨len, e3, hkw⟩ := except_bind_ok.1 hkw
  obtain ⟨R, e4, hkw⟩ := except_bind_ok.1 hkw
  obtain ⟨_, e5, hkw⟩ := except_bind_ok.1 hkw
  obtain ⟨_, e1', hkw'⟩ := except_bind_ok.1 hkw'
  obtain ⟨_, e2', hkw'⟩ := except_bind_ok.1 hkw'
  obtain ⟨_, e3', hkw'⟩ := except_bind_ok.1 hkw'
  obtain ⟨_, e4', hkw'⟩ := except_bind_ok.1 hkw'
  obtain ⟨_, e5', hkw'⟩ := except_bind_ok.1 hkw'
  rw [e2] at e2'
  rw [e3] at e3'
  rw [e4] at e4'
  cases e1
  cases e1'
  cases e2'
  cases e3'
  cases e4'
  cases e5
  cases e5'
  cases hkw
  cases hkw'
  intro f
  rw [d₁, d₂]
  refine C111_confusion_psd W.K W.env custom (L := len) ?_ ?_ hname f
  · rcases hthree with ⟨rfl, h⟩ | h | h
    · rw [h] at g4
      cases g4
      cases e4
      exact Or.inl ⟨rfl, rfl⟩
    · exact Or.inr (Or.inl h)
    · exact Or.inr (Or.inr h)
  · intro l hl
    subst hl
    rcases hL with h | ⟨l', hl', h⟩
    · rw [h] at g3
      cases g3
      cases e3
    · rw [h] at g3
      cases g3
      cases e3
      exact hl'

/-! ### Examples -/

private noncomputable def whiteCtx (y : ℝ) : Ctx :=
  { K := Example.world.K, env := Example.world.env, kw := {}, interpolated_sc := some fun _ => (y : WithTop ℝ), t_obs := psd.yr }

private lemma white_curve {y : ℝ} (hy : 0 < y) : Curve (whiteCtx y) fun _ => (y : WithTop ℝ) :=
  ⟨fun _ => rfl, fun _ _ => by exact_mod_cast hy⟩

/-- Non-vacuity of `C111_circular`: the circular binary of the example for a year, with half of the noise. -/
example : ∃ (s : EvolSrc) (v w : ℝ), snr_circ_evolving (whiteCtx 2) [s] 100 none = .ok [some v] ∧
    snr_circ_evolving (whiteCtx 1) [s] 100 none = .ok [some w] ∧ 0 ≤ v ∧ v ≤ w := by
  obtain ⟨T, hT8, hb⟩ := example_binary
  have hy : (0 : ℝ) < psd.yr := by norm_num [psd.yr]
  have hph : EvolPhys (rowAt Example.cols 0).evolvingCirc := ⟨hb.m_1, hb.m_2, hb.f_orb, hb.dist⟩
  have hone : ∀ i : Fin [(rowAt Example.cols 0).evolvingCirc].length,
      [(rowAt Example.cols 0).evolvingCirc][i] = (rowAt Example.cols 0).evolvingCirc := fun i => by simp
  have hmin : min (T - 1) psd.yr = psd.yr := min_eq_right (by norm_num [psd.yr] at hT8 ⊢; linarith)
  have e := evol_circ_snr Example.world.K [(rowAt Example.cols 0).evolvingCirc] (fun _ => psd.yr) 100
  have hcol : ∀ x : EvolSrc → ℝ, column [(rowAt Example.cols 0).evolvingCirc] x = fun _ => x (rowAt Example.cols 0).evolvingCirc :=
    fun x => by
      funext i
      match i with
      | ⟨0, _⟩ => rfl
  simp only [hcol] at e
  obtain ⟨u, u', d1, d2, hl, hp⟩ := C111_circular (C := whiteCtx 2) (C' := whiteCtx 1) rfl rfl rfl hy.le
    (white_curve (by norm_num)) (white_curve (by norm_num)) (fun f _ => by exact_mod_cast (by norm_num : (1 : ℝ) ≤ 2))
    [(rowAt Example.cols 0).evolvingCirc] (n := 100) (by norm_num)
    (by intro s hs; rw [List.mem_singleton] at hs; subst hs; exact hph) (T := fun _ => T) (Tc := fun _ => T)
    (by simp only [hone]; exact hb.merger) (Or.inl ⟨rfl, rfl⟩)
    (fun _ => ⟨by norm_num [psd.yr] at hT8 ⊢; linarith, le_rfl⟩)
    (by
      simp only [hone]
      change evol_circ Example.world.K AU (some (.array fun _ => min (T - 1) psd.yr)) _ _ _ _ _ _ _ _ = _
      rw [hmin]
      exact e)
    (by
      intro i hmem
      have h1 := no_marker Example.world.K hph (t_merge_eq hb.merger) hy.le (by norm_num [psd.yr] at hT8 ⊢; linarith)
        (by
          unfold Spec.chirp
          have hT : 0 < T := by norm_num [psd.yr] at hT8; linarith
          have hd : 0 < T - psd.yr := by norm_num [psd.yr] at hT8 ⊢; linarith
          have hh : T / (T - psd.yr) ≤ 2 := by
            rw [div_le_iff₀ hd]
            norm_num [psd.yr] at hT8 ⊢
            linarith
          have : (T / (T - psd.yr)) ^ (3 / 8 : ℝ) ≤ 2 := by
            calc (T / (T - psd.yr)) ^ (3 / 8 : ℝ) ≤ (2 : ℝ) ^ (3 / 8 : ℝ) := rpow_le_rpow (by positivity) hh (by norm_num)
              _ ≤ (2 : ℝ) ^ (1 : ℝ) := rpow_le_rpow_of_exponent_le (by norm_num) (by norm_num)
              _ = 2 := rpow_one _
          change (1e-3 : ℝ) * _ ≤ 1
          norm_num at this ⊢
          linarith)
        hb.mass (n := 100) (by norm_num) _ e 100
      have := (h1 (by simpa [hone] using hmem)).2
      norm_num at this)
  rcases u with _ | ⟨x, _ | ⟨y, u⟩⟩
  · simp at hl
  · cases hp with
    | cons hp hnil =>
      obtain ⟨v, w, rfl, rfl, q1, q2⟩ := hp
      cases hnil
      exact ⟨_, v, w, d1, d2, q1, q2⟩
  · simp at hl

private lemma constant_decreasing : DecreasingIntegrator (fun _ e₀ ts => ts.map fun _ => some e₀) where
  length := by intros; simp
  range := by
    intro rhs e₀ ts _ h0 h1 _ x hx
    obtain ⟨_, -, h⟩ := List.mem_map.1 hx
    cases h
    exact ⟨h0, h1⟩
  decreasing := by
    intro rhs e₀ ts _ _ _ _ i j x y _ hx hy
    rw [List.getElem?_map] at hx hy
    obtain ⟨_, -, h⟩ := Option.map_eq_some_iff.1 hx
    obtain ⟨_, -, h'⟩ := Option.map_eq_some_iff.1 hy
    cases h
    cases h'
    exact le_rfl
  failed := by
    intro rhs e₀ ts _ _ _ _ i j x _ hx _
    rw [List.getElem?_map] at hx
    obtain ⟨_, -, h⟩ := Option.map_eq_some_iff.1 hx
    cases h
  start := by
    intro rhs e₀ ts _ _ _ _ i t _ hi
    rw [List.getElem?_map, hi]
    rfl

/-- Non-vacuity of `C111_eccentric`: the eccentric binary of the example for a year, with half of the noise. -/
example : ∃ (odeint : Odeint) (s : EvolSrc) (v w : ℝ), s.ecc = 0.3 ∧
    snr_ecc_evolving (whiteCtx 2) odeint [s] 10 100 none 1 [] false false = .ok (.total [some v]) ∧
    snr_ecc_evolving (whiteCtx 1) odeint [s] 10 100 none 1 [] false false = .ok (.total [some w]) ∧ 0 ≤ v ∧ v ≤ w := by
  have hy : (0 : ℝ) < psd.yr := by norm_num [psd.yr]
  have hone : ∀ i : Fin [(rowAt Example.cols 1).evolving].length,
      [(rowAt Example.cols 1).evolving][i] = (rowAt Example.cols 1).evolving := fun i => by simp
  have hph : ∀ s ∈ [(rowAt Example.cols 1).evolving], EvolPhys s := by
    intro s hs
    rw [List.mem_singleton] at hs
    subst hs
    exact ⟨by show (0 : ℝ) < 3e30; norm_num, by show (0 : ℝ) < 2e30; norm_num, by show (0 : ℝ) < 1e-4; norm_num,
      by show (0 : ℝ) < 2e20; norm_num⟩
  have hee : ∀ s ∈ [(rowAt Example.cols 1).evolving], 0 < s.ecc ∧ s.ecc < 1 := by
    intro s hs
    rw [List.mem_singleton] at hs
    subst hs
    exact ⟨by show (0 : ℝ) < 0.3; norm_num, by show (0.3 : ℝ) < 1; norm_num⟩
  obtain ⟨T, hT⟩ : ∃ T, get_t_merge_ecc Example.world.K (fun i : Fin [(rowAt Example.cols 1).evolving].length =>
      [(rowAt Example.cols 1).evolving][i].ecc) none (some fun i => [(rowAt Example.cols 1).evolving][i].f_orb_i) none
      (some fun i => [(rowAt Example.cols 1).evolving][i].m_1) (some fun i => [(rowAt Example.cols 1).evolving][i].m_2) 0.15
      (1 - 1e-4) true = .ok T := ⟨_, get_t_merge_ecc_each _ _ _ _ _ _⟩
  obtain ⟨u, u', d1, d2, hl, hp⟩ := C111_eccentric (C := whiteCtx 2) (C' := whiteCtx 1) rfl rfl rfl hy.le
    (white_curve (by norm_num)) (white_curve (by norm_num)) (fun f _ => by exact_mod_cast (by norm_num : (1 : ℝ) ≤ 2))
    constant_decreasing [(rowAt Example.cols 1).evolving] 10 (n := 100) (by norm_num) hph hee 1 [] (by omega) (Or.inr ⟨rfl, hT⟩)
    (constant_avoids _ _ _ (by norm_num) hph hee
      (by intro s hs; rw [List.mem_singleton] at hs; subst hs; show (1e-4 : ℝ) < 100; norm_num)
      (by
        intro s hs
        rw [List.mem_singleton] at hs
        subst hs
        have hc := a_cube (f := 1e-4) (m₁ := 3e30) (m₂ := 2e30) (by norm_num) (by norm_num) (by norm_num)
        change utils.get_a_from_f_orb Consts.codata2018 1e-4 3e30 2e30 ≠ _
        intro h
        rw [h] at hc
        have h3 : (1 : ℝ) ≤ (1e-30 * AU) ^ 3 := by
          rw [hc, le_div_iff₀ (by positivity)]
          have := Real.pi_le_four
          have := Real.pi_pos
          nlinarith
        norm_num [AU] at h3))
  rcases u with _ | ⟨x, _ | ⟨y, u⟩⟩
  · simp at hl
  · cases hp with
    | cons hp hnil =>
      obtain ⟨v, w, rfl, rfl, q1, q2⟩ := hp
      cases hnil
      exact ⟨_, _, v, w, by show (0.3 : ℝ) = 0.3; rfl, d1, d2, q1, q2⟩
  · simp at hl

/-- Non-vacuity of `C111_confusion` and with it of `C111_get_snr`: LISA with the default confusion noise and without one, for
the example object over 1e8 seconds. Both binaries are stationary, the first is circular and the second eccentric. -/
example : ∃ (h h₁ h₂ : Heap) (r₁ r₂ : ℕ), Reachable Example.world AnyCall h ∧
    get_snr Example.world 0 { t_obs := .time 1e8, confusion_noise := .str "auto" } 100 none h = (.ok r₁, h₁) ∧
    get_snr Example.world 0 { t_obs := .time 1e8 } 100 none h = (.ok r₂, h₂) ∧
    ∀ i < 2, ∃ v v' : ℝ, (h₁.snrs r₁)[i]? = some (some v) ∧ (h₂.snrs r₂)[i]? = some (some v') ∧ 0 ≤ v ∧ v ≤ v' := by
  obtain ⟨h, hreach, hready, hcls, hsch, hcols, hp, hd, hint, hstat, hetol⟩ := lisa_made
  have hno : FitsMask (h.src 0).cols none := fun m hm => by cases hm
  have hpsd : ∀ (cn : PVal) (k : psd.NoiseArg), (cn = .none ∧ k = .none ∨ cn = .str "auto" ∧ k = .name "auto") → ∀ f,
      psd_of_dict Example.world (SnrArgs.toDict ⟨.time 1e8, .str "LISA", .none, .str "auto", .bool true, cn⟩) f =
        psd.power_spectral_density Example.world.K Example.world.env f "LISA" none (.val 1e8) .auto true k := by
    intro cn k hk f
    have hkeys : ((SnrArgs.toDict ⟨.time 1e8, .str "LISA", .none, .str "auto", .bool true, cn⟩).keys.any
        fun key => decide (key ∉ DEFAULT_SC_PARAMS.keys)) = false := by
      change ((SnrArgs.toDict ⟨.time 0, .str "LISA", .none, .str "auto", .bool true, .none⟩).keys.any
        fun key => decide (key ∉ DEFAULT_SC_PARAMS.keys)) = false
      decide
    unfold psd_of_dict
    rw [hkeys]
    rcases hk with ⟨rfl, rfl⟩ | ⟨rfl, rfl⟩ <;> rfl
  have hex := C111_confusion_psd Example.world.K Example.world.env none (Or.inl ⟨rfl, rfl⟩) (L := .auto) (R := true)
    (inst := "LISA") (fun l hl => by cases hl) (name := "auto") (t := 1e8) (Or.inl rfl)
  obtain ⟨c₁, hc₁⟩ : ∃ c, CurveOf Example.world (SnrArgs.toDict ⟨.time 1e8, .str "LISA", .none, .str "auto", .bool true, .str "auto"⟩) c := by
    obtain ⟨c, hc⟩ := curve_exists_iff.2 fun i (_ : i < 10000) => by
      obtain ⟨y, -, e, -⟩ := hex (scGrid i)
      exact ⟨y, (hpsd (.str "auto") _ (Or.inr ⟨rfl, rfl⟩) (scGrid i)).trans e⟩
    exact ⟨c, curve_ok_iff.1 hc⟩
  obtain ⟨c₂, hc₂⟩ : ∃ c, CurveOf Example.world (SnrArgs.toDict ⟨.time 1e8, .str "LISA", .none, .str "auto", .bool true, .none⟩) c := by
    obtain ⟨c, hc⟩ := curve_exists_iff.2 fun i (_ : i < 10000) => by
      obtain ⟨-, y, -, e, -⟩ := hex (scGrid i)
      exact ⟨y, (hpsd .none _ (Or.inl ⟨rfl, rfl⟩) (scGrid i)).trans e⟩
    exact ⟨c, curve_ok_iff.1 hc⟩
  obtain ⟨r₁, h₁, hrun₁⟩ := C36_succeeds_with (n := 100) (ws := none) (a := { t_obs := .time 1e8, confusion_noise := .str "auto" })
    hreach (Or.inl hcls) (by norm_num) hsch hno hready.rect hready.built hint hready.snr_length hready.harm_length hp
    (by rw [hd]; exact ⟨Or.inl ⟨by simp, rfl⟩, Or.inr ⟨rfl, rfl⟩, Or.inr ⟨rfl, rfl⟩, Or.inr ⟨rfl, rfl⟩, Or.inr ⟨rfl, rfl⟩, Or.inl ⟨by simp, rfl⟩⟩)
    rfl hc₁
  obtain ⟨r₂, h₂, hrun₂⟩ := C36_succeeds_with (n := 100) (ws := none) (a := { t_obs := .time 1e8 })
    hreach (Or.inl hcls) (by norm_num) hsch hno hready.rect hready.built hint hready.snr_length hready.harm_length hp
    (by rw [hd]; exact ⟨Or.inl ⟨by simp, rfl⟩, Or.inr ⟨rfl, rfl⟩, Or.inr ⟨rfl, rfl⟩, Or.inr ⟨rfl, rfl⟩, Or.inr ⟨rfl, rfl⟩, Or.inr ⟨rfl, rfl⟩⟩)
    rfl hc₂
  obtain ⟨sc₁, q₁, x₁, y₁, e₁⟩ := get_snr_frame (Or.inl hcls) (by norm_num) hsch hready.rect hno hrun₁
  obtain ⟨sc₂, q₂, x₂, y₂, e₂⟩ := get_snr_frame (Or.inl hcls) (by norm_num) hsch hready.rect hno hrun₂
  obtain ⟨p', hp', hp₁, hst₁⟩ := C36_settings (Or.inl hcls) (by norm_num) hsch hready.rect hno hrun₁
  rw [hp] at hp'
  cases hp'
  obtain ⟨p', hp', hp₂, hst₂⟩ := C36_settings (Or.inl hcls) (by norm_num) hsch hready.rect hno hrun₂
  rw [hp] at hp'
  cases hp'
  have hr₁ := snr_reachable hreach trivial hrun₁
  have hr₂ := snr_reachable hreach trivial hrun₂
  have hgiven : ∀ {key : String} {v w : PVal}, Given (h.par 1).dict key .none v → (h.par 1).dict.get? key = some w → v = w := by
    intro key v w hg hw
    rcases hg with ⟨hg, -⟩ | ⟨-, hg⟩
    · exact absurd rfl hg
    · rw [hg] at hw
      exact Option.some.inj hw
  have htime : ∀ {d d' : Dict} {T : ℝ}, (∃ v, Given d "t_obs" (.time T) v ∧ (d'.get? "t_obs" = some v ∨ v = .str "auto" ∧
      ((d'.get? "instrument" = some (.str "LISA") ∧ d'.get? "t_obs" = some (.time (4 * psd.yr))) ∨
       (d'.get? "instrument" ≠ some (.str "LISA") ∧ d'.get? "t_obs" = some (.time (5 * psd.yr)))))) →
      d'.get? "t_obs" = some (.time T) := by
    rintro d d' T ⟨v, ⟨-, rfl⟩ | ⟨h1, -⟩, h2⟩
    · rcases h2 with h2 | ⟨h2, -⟩
      · exact h2
      · cases h2
    · cases h1
  obtain ⟨⟨v1, a1, b1⟩, ⟨v2, a2, b2⟩, ⟨v3, a3, b3⟩, ⟨v4, a4, b4⟩, ⟨v5, a5, b5⟩, k6⟩ := hst₁
  obtain ⟨⟨w1, c1, f1⟩, ⟨w2, c2, f2⟩, ⟨w3, c3, f3⟩, ⟨w4, c4, f4⟩, ⟨w5, c5, f5⟩, l6⟩ := hst₂
  rw [hgiven a1 (w := .str "LISA") (by rw [hd]; rfl)] at b1
  rw [hgiven a2 (w := .none) (by rw [hd]; rfl)] at b2
  rw [hgiven a3 (w := .str "auto") (by rw [hd]; rfl)] at b3
  rw [hgiven a4 (w := .bool true) (by rw [hd]; rfl)] at b4
  rw [hgiven c1 (w := .str "LISA") (by rw [hd]; rfl)] at f1
  rw [hgiven c2 (w := .none) (by rw [hd]; rfl)] at f2
  rw [hgiven c3 (w := .str "auto") (by rw [hd]; rfl)] at f3
  rw [hgiven c4 (w := .bool true) (by rw [hd]; rfl)] at f4
  rw [hgiven c5 (w := .none) (by rw [hd]; rfl)] at f5
  have b5' : (h₁.par 1).dict.get? "confusion_noise" = some (.str "auto") := by
    rcases a5 with ⟨-, rfl⟩ | ⟨a5, -⟩
    · exact b5
    · cases a5
  have b6 := htime k6
  have f6 := htime l6
  have s₁ := six_keys hr₁ hp₁
  have s₂ := six_keys hr₂ hp₂
  have g₁ : Agrees (h₁.par 1).dict ⟨.time 1e8, .str "LISA", .none, .str "auto", .bool true, .str "auto"⟩ :=
    agrees_iff.2 ⟨b6, b1, b2, b3, b4, b5'⟩
  have g₂ : Agrees (h₂.par 1).dict ⟨.time 1e8, .str "LISA", .none, .str "auto", .bool true, .none⟩ :=
    agrees_iff.2 ⟨f6, f1, f2, f3, f4, f5⟩
  have k₁ := sixKeys_eq s₁ (toDict_sixKeys _) g₁ (toDict_agrees _)
  have k₂ := sixKeys_eq s₂ (toDict_sixKeys _) g₂ (toDict_agrees _)
  have t₁ := (C40_current hr₁ hp₁).1 (by rw [e₁]; exact hint) c₁
    (curve_ok_iff.1 (by rw [curve_congr Example.world k₁]; exact curve_ok_iff.2 hc₁))
  have t₂ := (C40_current hr₂ hp₂).1 (by rw [e₂]; exact hint) c₂
    (curve_ok_iff.1 (by rw [curve_congr Example.world k₂]; exact curve_ok_iff.2 hc₂))
  have hS : SameTables h₁ 0 h₂ 0 := ⟨by rw [e₁, e₂], by rw [e₁, e₂], by rw [e₁, e₂], by rw [e₁, e₂],
    (congrArg Option.isSome t₂).trans (congrArg Option.isSome t₁).symm⟩
  have hsame : ∀ key, key ≠ "confusion_noise" → (h₂.par 1).dict.get? key = (h₁.par 1).dict.get? key := by
    intro key hk
    rw [k₁ key, k₂ key]
    unfold Dict.get? SnrArgs.toDict
    simp only [List.lookup]
    have : (key == "confusion_noise") = false := by simpa using hk
    simp only [this]
  have hst' : (h₁.src 0).stat_tol = 0.01 := by
    rw [e₁]
    show (h.src 0).stat_tol = _
    rw [hstat]
  refine ⟨h, h₁, h₂, r₁, r₂, reachable_any hreach, hrun₁, hrun₂, fun i hi => ?_⟩
  have hch : Chosen none i := fun m hm => by cases hm
  have main : ∀ x : One, (rows (h.src 0).cols)[i]? = some x → x.merged = false → PhysicalOne x →
      x.StationaryOver Example.world.K 1e8 0.01 →
      ∃ v v' : ℝ, (h₁.snrs r₁)[i]? = some (some v) ∧ (h₂.snrs r₂)[i]? = some (some v') ∧ 0 ≤ v ∧ v ≤ v' :=
    fun x hx hm hph hstx => C111_confusion (reachable_any hreach) (reachable_any hreach) (Or.inl hcls) (Or.inl hcls) (by norm_num)
      hsch hsch hready.rect hready.rect hno hno hrun₁ hrun₂ hp₁ hp₂ hS hsame b1 (Or.inl ⟨rfl, b4⟩) (Or.inl b3) b6 (by norm_num)
      (Or.inl rfl) b5' f5 hx hx hm hch hch hph (fun hne => absurd (hst' ▸ hstx) hne)
  obtain rfl | rfl : i = 0 ∨ i = 1 := by omega
  · exact main (rowAt Example.cols 0) (by rw [hcols]; rfl) rfl
      ⟨by show (0 : ℝ) < 2e30; norm_num, by show (0 : ℝ) < 1e30; norm_num, by show (0 : ℝ) < 1e-3; norm_num,
        by show (0 : ℝ) ≤ 0; norm_num, by show (0 : ℝ) < 1; norm_num⟩ example_stationary
  · exact main (rowAt Example.cols 1) (by rw [hcols]; rfl) rfl
      ⟨by show (0 : ℝ) < 3e30; norm_num, by show (0 : ℝ) < 2e30; norm_num, by show (0 : ℝ) < 1e-4; norm_num,
        by show (0 : ℝ) ≤ 0.3; norm_num, by show (0.3 : ℝ) < 1; norm_num⟩ example_wide

end Legwork.Props
