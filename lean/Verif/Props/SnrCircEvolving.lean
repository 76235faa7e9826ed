import Verif.Lemmas.SnrEvolving
import Verif.Lemmas.Psd
import Verif.Spec.Snr
import Mathlib.Analysis.Real.Pi.Bounds

/-!
# Evolving circular signal-to-noise ratios: C62
-/

namespace Legwork.Props

open Real Legwork.utils Legwork.strain Legwork.snr Legwork.evol Legwork.Spec

private lemma linspace_mem {t x : ℝ} {n : ℕ} (h : x ∈ np.linspace t n) : ∃ s : ℝ, 0 ≤ s ∧ s ≤ 1 ∧ x = s * t := by
  unfold np.linspace at h
  obtain ⟨k, hk, rfl⟩ := List.mem_map.1 h
  rw [List.mem_range] at hk
  rcases Nat.lt_or_ge n 2 with h2 | h2
  · have : k = 0 := by omega
    exact ⟨0, le_rfl, zero_le_one, by simp [this]⟩
  · have hn : (0 : ℝ) < (n : ℝ) - 1 := by
      have : (2 : ℝ) ≤ n := by exact_mod_cast h2
      linarith
    refine ⟨k / ((n : ℝ) - 1), by positivity, ?_, by field_simp⟩
    rw [div_le_one hn]
    have : ((k + 1 : ℕ) : ℝ) ≤ n := by exact_mod_cast hk
    push_cast at this
    linarith

private lemma circW_nonneg {C : Ctx} {N : ℝ → WithTop ℝ} (s : EvolSrc) {f : ℝ} (h : 0 ≤ N (2 * f)) :
    0 ≤ circW C N s f := by
  unfold circW
  apply divNoise_nonneg (sq_nonneg _)
  cases hN : N (2 * f) with
  | top => exact le_top
  | coe y =>
    rw [hN] at h
    have hy : 0 ≤ y := by exact_mod_cast h
    show ((0 : ℝ) : WithTop ℝ) ≤ (((2 * f) ^ 2 * y : ℝ) : WithTop ℝ)
    exact_mod_cast (by positivity : 0 ≤ (2 * f) ^ 2 * y)

/-- Positive masses, initial frequency and distance. -/
def EvolPhys (s : EvolSrc) : Prop := 0 < s.m_1 ∧ 0 < s.m_2 ∧ 0 < s.f_orb_i ∧ 0 < s.dist

private lemma circW_pos {C : Ctx} (hig : C.interpolated_g = none) {N : ℝ → WithTop ℝ} {s : EvolSrc} (hs : EvolPhys s)
    {f : ℝ} (hf : 0 < f) (h : 0 < N (2 * f)) (h' : N (2 * f) ≠ ⊤) : 0 < circW C N s f := by
  unfold circW
  lift N (2 * f) to ℝ using h' with y hy
  show 0 < _ / ((2 * f) ^ 2 * y)
  have hy0 : 0 < y := by exact_mod_cast h
  obtain ⟨h1, h2, -, h4⟩ := hs
  have hmc := C03_pos h1 h2
  have hK := C.K.G_pos
  have hc := C.K.c_pos
  have hv : 0 < h_c_val C.K C.interpolated_g (chirp_mass s.m_1 s.m_2) s.dist f 0 2 := by
    rw [hig]
    unfold h_c_val
    simp only [g_vals]
    rw [C05_circular (by norm_num), if_pos rfl, C04_zero]
    have := pi_pos
    positivity
  positivity

theorem circRow_pairwise (K : Consts) {s : EvolSrc} (hs : EvolPhys s) {t : ℝ} {n : ℕ}
    (h100 : (100 : ℝ) ∉ circRow K s t n) {T : ℝ}
    (hT : T = get_a_from_f_orb K s.f_orb_i s.m_1 s.m_2 ^ 4 / (4 * utils.beta K s.m_1 s.m_2)) :
    (0 ≤ t → t < T → (circRow K s t n).Pairwise (· ≤ ·)) ∧ (t < 0 → (circRow K s t n).Pairwise (· > ·)) ∧
    (t < T → ∀ f ∈ circRow K s t n, 0 < f) := by
  obtain ⟨h1, h2, h3, h4⟩ := hs
  have ha := get_a_from_f_orb_pos K h3 h1 h2
  have hb := beta_pos K h1 h2
  have hT0 : 0 < T := by rw [hT]; positivity
  have hmem : ∀ x ∈ np.linspace t n, f_or_merged K AU (a_circ (get_a_from_f_orb K s.f_orb_i s.m_1 s.m_2)
      (utils.beta K s.m_1 s.m_2) x) s.m_1 s.m_2 ≠ 100 := by
    intro x hx e
    apply h100
    rw [← e]
    exact List.mem_map.2 ⟨x, hx, rfl⟩
  have key : ∀ x ∈ np.linspace t n, ∀ y ∈ np.linspace t n, x < y → y < T →
      f_or_merged K AU (a_circ (get_a_from_f_orb K s.f_orb_i s.m_1 s.m_2) (utils.beta K s.m_1 s.m_2) x) s.m_1 s.m_2
      < f_or_merged K AU (a_circ (get_a_from_f_orb K s.f_orb_i s.m_1 s.m_2) (utils.beta K s.m_1 s.m_2) y) s.m_1 s.m_2 :=
    fun x hx y hy hxy hyT => (f_or_merged_lt K ha hb h1 h2 hxy (hT ▸ hyT) (hmem x hx) (hmem y hy)).2
  refine ⟨fun h0 hlt => ?_, fun hlt => ?_, fun hlt => ?_⟩
  · have hle : ∀ x ∈ np.linspace t n, x < T := by
      intro x hx
      obtain ⟨r, hr0, hr1, rfl⟩ := linspace_mem hx
      nlinarith
    unfold circRow
    rw [List.pairwise_map]
    rcases h0.eq_or_lt with rfl | h0
    · apply List.pairwise_of_forall_mem_list
      intro x hx y hy
      obtain ⟨r, -, -, rfl⟩ := linspace_mem hx
      obtain ⟨r', -, -, rfl⟩ := linspace_mem hy
      simp
    · exact ((linspace_mono h0 n).imp_of_mem fun hx hy hxy => (key _ hx _ hy hxy (hle _ hy)).le)
  · have hle : ∀ x ∈ np.linspace t n, x < T := by
      intro x hx
      obtain ⟨r, hr0, hr1, rfl⟩ := linspace_mem hx
      nlinarith
    unfold circRow
    rw [List.pairwise_map]
    have hneg : (np.linspace t n).Pairwise (· > ·) := by
      have e : np.linspace t n = (np.linspace (-t) n).map (fun x => -x) := by
        unfold np.linspace
        rw [List.map_map]
        apply List.map_congr_left
        intro k _
        simp only [Function.comp]
        ring
      rw [e, List.pairwise_map]
      exact (linspace_mono (by linarith : 0 < -t) n).imp fun h => by linarith
    exact hneg.imp_of_mem fun hx hy hxy => key _ hy _ hx hxy (hle _ hx)
  · intro f hf
    obtain ⟨x, hx, rfl⟩ := List.mem_map.1 hf
    have hxT : x < T := by
      obtain ⟨r, hr0, hr1, rfl⟩ := linspace_mem hx
      rcases le_or_gt 0 t with h | h <;> nlinarith
    have hin := a_circ_inspiral ha hb
    have hp := hin.pos x (hT ▸ hxT)
    have hm : a_circ (get_a_from_f_orb K s.f_orb_i s.m_1 s.m_2) (utils.beta K s.m_1 s.m_2) x ≠ 1e-30 * AU := by
      intro e
      apply hmem x hx
      rw [e]
      unfold f_or_merged
      simp only
      rw [ite_self, if_pos rfl]
      norm_num
    rw [f_or_merged_of_ne K hp.ne' hm]
    exact get_f_orb_from_a_pos K hp h1 h2

/-- **C62.** Let the merger times be those of `get_t_merge_circ` (computed or supplied) and let no orbital frequency
reported by `evol_circ` over the observed time be exactly the 100 Hz that stands for merged binaries. On every
positive noise curve `snr_circ_evolving` then returns one value per source: for a source at least one second from
merger a non-negative SNR; for a source closer than that NaN, because the evolution runs backwards in time (shown
for finite noise, exact `g` and at least two steps). -/
theorem C62_well_defined (C : Ctx) (srcs : List EvolSrc) {n : ℕ} (hn : 1 ≤ n) (ht : 0 ≤ C.t_obs)
    {N : ℝ → WithTop ℝ} (hN : Curve C N) (hs : ∀ s ∈ srcs, EvolPhys s) {T : Fin srcs.length → ℝ}
    (hT : get_t_merge_circ C.K none (some fun i => srcs[i].m_1) (some fun i => srcs[i].m_2) none
      (some fun i => srcs[i].f_orb_i) = .ok T)
    {t_merge : Option (List ℝ)} (htm : t_merge = none ∨ t_merge = some (List.ofFn T))
    {fs : Fin srcs.length → List ℝ}
    (hfs : evol_circ C.K AU (some (.array fun i => min (T i - 1) C.t_obs)) n none none
      (some fun i => srcs[i].m_1) (some fun i => srcs[i].m_2) none (some fun i => srcs[i].f_orb_i) ["f_orb"]
      = .ok (.one fs)) (h100 : ∀ i, (100 : ℝ) ∉ fs i) :
    ∃ snr, snr_circ_evolving C srcs n t_merge = .ok snr ∧ snr.length = srcs.length ∧
      ∀ (i : Fin srcs.length) (x : Option ℝ), snr[i]? = some x →
        (1 ≤ T i → ∃ v, x = some v ∧ 0 ≤ v) ∧
        (T i < 1 → 2 ≤ n → C.interpolated_g = none → (∀ f, 0 < f → N f ≠ ⊤) → x = none) := by
  have hTT : merge_times_circ C srcs t_merge = .ok T := by
    rcases htm with rfl | rfl
    · exact hT
    · simp [merge_times_circ, pure, Except.pure]
  have hfs' := evol_circ_snr C.K srcs (fun i => min (T i - 1) C.t_obs) n
  have hfe : fs = fun i => circRow C.K srcs[i] (min (T i - 1) C.t_obs) n := by
    have := hfs.symm.trans hfs'
    simpa using this
  subst hfe
  refine ⟨_, snr_circ_evolving_eq C srcs (by omega) t_merge hN.ok hTT, by simp, ?_⟩
  intro i x hx
  have hTi : T i = get_a_from_f_orb C.K srcs[i].f_orb_i srcs[i].m_1 srcs[i].m_2 ^ 4
      / (4 * utils.beta C.K srcs[i].m_1 srcs[i].m_2) := by
    rw [get_t_merge_circ_masses] at hT
    simp only [Except.ok.injEq] at hT
    rw [← hT]
  have hsi : EvolPhys srcs[i] := hs _ (List.getElem_mem _)
  have h100i := h100 i
  simp only at h100i
  have hb := circRow_pairwise C.K hsi h100i hTi
  have hlt : min (T i - 1) C.t_obs < T i := lt_of_le_of_lt (min_le_left _ _) (by linarith)
  have hpos := hb.2.2 hlt
  simp only [Fin.getElem?_fin, List.getElem?_ofFn, Fin.is_lt, dif_pos, Fin.eta, Option.some.injEq] at hx
  rw [drop_merged_circ_of_not_mem h100i] at hx
  have hw : ∀ f ∈ circRow C.K srcs[i] (min (T i - 1) C.t_obs) n, 0 < N (2 * f) := fun f hf =>
    hN.pos _ (by have := hpos f hf; linarith)
  constructor
  · intro h1
    have hsort := hb.1 (le_min (by linarith) ht) hlt
    have h0 : 0 ≤ trapezoid ((circRow C.K srcs[i] (min (T i - 1) C.t_obs) n).map (circW C N srcs[i]))
        ((circRow C.K srcs[i] (min (T i - 1) C.t_obs) n).map fun f => 2 * f) := by
      apply trapezoid_nonneg
      · intro y hy
        obtain ⟨f, hf, rfl⟩ := List.mem_map.1 hy
        exact circW_nonneg _ (hw f hf).le
      · rw [List.pairwise_map]
        exact hsort.imp fun h => by linarith
    exact ⟨_, hx.symm.trans (sqrt?_nonneg h0), sqrt_nonneg _⟩
  · intro h1 h2 hig hfin
    have hsort := hb.2.1 (lt_of_le_of_lt (min_le_left _ _) (by linarith))
    rw [← hx]
    apply sqrt?_neg
    have hlen : (circRow C.K srcs[i] (min (T i - 1) C.t_obs) n).length = n := by simp [circRow, np.linspace]
    have hpos' : ∀ f ∈ circRow C.K srcs[i] (min (T i - 1) C.t_obs) n, 0 < circW C N srcs[i] f := fun f hf =>
      circW_pos hig hsi (hpos f hf) (hw f hf) (hfin _ (by have := hpos f hf; linarith))
    generalize circRow C.K srcs[i] (min (T i - 1) C.t_obs) n = row at hsort hlen hpos'
    rcases row with _ | ⟨f₀, _ | ⟨f₁, row⟩⟩
    · simp at hlen; omega
    · simp at hlen; omega
    · simp only [List.map_cons]
      apply trapezoid_neg
      · intro y hy
        obtain ⟨f, hf, rfl⟩ := List.mem_map.1 (show y ∈ (f₀ :: f₁ :: row).map (circW C N srcs[i]) by simpa using hy)
        exact hpos' f hf
      · have : ((f₀ :: f₁ :: row).map fun f => 2 * f).Pairwise (· > ·) := by
          rw [List.pairwise_map]
          exact hsort.imp fun h => by linarith
        simpa using this

private lemma ten_pow_lt : (100 : ℝ) ^ (-8 / 3 : ℝ) < 2 ^ (32 / 3 : ℝ) * π ^ (8 / 3 : ℝ) / 5 * (3.375e-6) ^ (5 / 3 : ℝ) := by
  have e0 : (3.375e-6 : ℝ) ^ (5 / 3 : ℝ) = (0.015 : ℝ) ^ 5 := by
    rw [show (3.375e-6 : ℝ) = 0.015 ^ 3 by norm_num]
    exact pow_rpow_eq (by norm_num) 3 5 (by norm_num)
  have e1 : (100 : ℝ) ^ (-8 / 3 : ℝ) < 4.65e-6 := by
    rw [show (-8 / 3 : ℝ) = -(8 / 3) by norm_num, rpow_neg (by norm_num)]
    rw [inv_lt_comm₀ (by positivity) (by norm_num)]
    apply lt_of_pow_lt_pow_left₀ 3 (by positivity)
    rw [rpow_pow_eq' (by norm_num)]
    norm_num
  have e2 : (1.58 : ℝ) * 1024 < 2 ^ (32 / 3 : ℝ) := by
    apply lt_of_pow_lt_pow_left₀ 3 (by positivity)
    rw [rpow_pow_eq' (by norm_num)]
    norm_num
  have e3 : (2.1 : ℝ) * 9.8 < π ^ (8 / 3 : ℝ) := by
    apply lt_of_pow_lt_pow_left₀ 3 (by positivity)
    rw [rpow_pow_eq' pi_pos.le]
    have h1 : (3.14 : ℝ) ^ 8 < π ^ 8 := pow_lt_pow_left₀ (by have := pi_gt_d2; linarith) (by norm_num) (by norm_num)
    have h2 : π ^ (8 / 3 * (3 : ℕ) : ℝ) = π ^ 8 := by
      rw [← rpow_natCast]; norm_num
    rw [h2]
    refine lt_trans ?_ h1
    norm_num
  rw [e0]
  have h3 : (1.58 : ℝ) * 1024 * (2.1 * 9.8) < 2 ^ (32 / 3 : ℝ) * π ^ (8 / 3 : ℝ) :=
    mul_lt_mul'' e2 e3 (by norm_num) (by norm_num)
  nlinarith

/-- **C62** (100 Hz is not reached). The hypothesis of `C62_well_defined` holds for every binary at least one second from
merger whose chirp mass is at least `3.375e-6 c³/G` (0.69 solar masses): all its reported frequencies are below
100 Hz. -/
theorem C62_below_100Hz (K : Consts) (hc1 : 1 ≤ K.c) (srcs : List EvolSrc) (n : ℕ) (t_obs : ℝ)
    (hs : ∀ s ∈ srcs, EvolPhys s) {T : Fin srcs.length → ℝ}
    (hT : get_t_merge_circ K none (some fun i => srcs[i].m_1) (some fun i => srcs[i].m_2) none
      (some fun i => srcs[i].f_orb_i) = .ok T)
    (hm : ∀ s ∈ srcs, 3.375e-6 * K.c ^ 3 ≤ K.G * chirp_mass s.m_1 s.m_2) (hT0 : ∀ i, 0 ≤ min (T i - 1) t_obs) :
    ∃ fs, evol_circ K AU (some (.array fun i => min (T i - 1) t_obs)) n none none
      (some fun i => srcs[i].m_1) (some fun i => srcs[i].m_2) none (some fun i => srcs[i].f_orb_i) ["f_orb"]
      = .ok (.one fs) ∧ ∀ i, ∀ f ∈ fs i, f < 100 := by
  refine ⟨_, evol_circ_snr K srcs (fun i => min (T i - 1) t_obs) n, ?_⟩
  intro i f hf
  obtain ⟨x, hx, rfl⟩ := List.mem_map.1 hf
  have hsi : EvolPhys srcs[i] := hs _ (List.getElem_mem _)
  have hmi := hm srcs[i] (List.getElem_mem _)
  have hTi : T i = get_a_from_f_orb K srcs[i].f_orb_i srcs[i].m_1 srcs[i].m_2 ^ 4
      / (4 * utils.beta K srcs[i].m_1 srcs[i].m_2) := by
    rw [get_t_merge_circ_masses] at hT
    simp only [Except.ok.injEq] at hT
    rw [← hT]
  have hTi0 := hT0 i
  generalize srcs[i] = s at *
  obtain ⟨h1, h2, h3, h4⟩ := hsi
  have ha := get_a_from_f_orb_pos K h3 h1 h2
  have hb := beta_pos K h1 h2
  have hM : 0 < s.m_1 + s.m_2 := by positivity
  have hkap := kap_pos K hM
  have hG := K.G_pos
  have hc := K.c_pos
  have hxT : x ≤ T i - 1 := by
    obtain ⟨r, hr0, hr1, rfl⟩ := linspace_mem hx
    have := min_le_left (T i - 1) t_obs
    nlinarith
  set A := get_a_from_f_orb K s.f_orb_i s.m_1 s.m_2 with hA
  set B := utils.beta K s.m_1 s.m_2 with hB
  have hA4 : A ^ 4 = 4 * B * T i := by rw [hTi]; field_simp
  have hlt : 4 * B * x < A ^ 4 := by rw [hA4]; nlinarith
  have hap := a_circ_pos hlt
  have h4b : 4 * B ≤ a_circ A B x ^ 4 := by
    rw [a_circ_pow_four, max_eq_right (by linarith), hA4]
    nlinarith
  -- the Kepler frequency is below 100 Hz
  have hfp := get_f_orb_from_a_pos K hap h1 h2
  have hk := (C01_get_f_iff_kepler K hfp hap h1 h2).1 rfl
  have hpow := kepler_f_pow K hfp hap hk
  have hkb := kap_mul_beta K h1 h2
  rw [← hB] at hkb
  have hbig : (100 : ℝ) ^ (-8 / 3 : ℝ) < get_f_orb_from_a K (a_circ A B x) s.m_1 s.m_2 ^ (-8 / 3 : ℝ) := by
    rw [hpow]
    refine lt_of_lt_of_le ten_pow_lt (le_trans ?_ (mul_le_mul_of_nonneg_left h4b hkap.le))
    rw [hkb]
    have e : (3.375e-6 * K.c ^ 3 : ℝ) ^ (5 / 3 : ℝ) = (3.375e-6 : ℝ) ^ (5 / 3 : ℝ) * K.c ^ 5 := by
      rw [mul_rpow (by norm_num) (by positivity), pow_rpow_eq hc.le 3 5 (by norm_num)]
    have h5 : (3.375e-6 * K.c ^ 3 : ℝ) ^ (5 / 3 : ℝ) ≤ (K.G * chirp_mass s.m_1 s.m_2) ^ (5 / 3 : ℝ) :=
      rpow_le_rpow (by positivity) hmi (by norm_num)
    rw [e] at h5
    have h6 : 0 < 2 ^ (32 / 3 : ℝ) * π ^ (8 / 3 : ℝ) / (5 * K.c ^ 5) := by have := pi_pos; positivity
    refine le_trans (le_of_eq ?_) (mul_le_mul_of_nonneg_left h5 h6.le)
    field_simp
  have hf100 : get_f_orb_from_a K (a_circ A B x) s.m_1 s.m_2 < 100 := by
    by_contra hge
    rw [not_lt] at hge
    have := rpow_le_rpow_of_nonpos (by norm_num : (0 : ℝ) < 100) hge (by norm_num : (-8 / 3 : ℝ) ≤ 0)
    linarith
  -- hence the separation is far above the marker
  have hne : a_circ A B x ≠ 1e-30 * AU := by
    intro e
    unfold KeplerThird at hk
    have hmc : chirp_mass s.m_1 s.m_2 ≤ s.m_1 + s.m_2 := by
      refine (C03_le h1 h2).trans ?_
      apply div_le_self hM.le
      exact one_le_rpow (by norm_num) (by norm_num)
    have hGM : 3.375e-6 ≤ K.G * (s.m_1 + s.m_2) := by
      have : (1 : ℝ) ≤ K.c ^ 3 := one_le_pow₀ hc1
      nlinarith [mul_le_mul_of_nonneg_left hmc hG.le]
    rw [← hk, e] at hGM
    have h7 : (2 * π * get_f_orb_from_a K (1e-30 * AU) s.m_1 s.m_2) ^ 2 ≤ (2 * 4 * 100) ^ 2 := by
      rw [e] at hf100 hfp
      have := pi_le_four
      apply pow_le_pow_left₀ (by have := pi_pos; positivity)
      have := pi_pos
      nlinarith
    have h8 : (0 : ℝ) ≤ (1e-30 * AU) ^ 3 := by unfold AU; norm_num
    have h9 := mul_le_mul_of_nonneg_right h7 h8
    have := hGM.trans h9
    unfold AU at this
    norm_num at this
  rw [f_or_merged_of_ne K hap.ne' hne]
  exact hf100

end Legwork.Props
