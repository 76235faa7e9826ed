import Verif.Lemmas.Redshift
import Verif.Lemmas.EvolEcc
import Verif.Props.Convergence
import Verif.Spec.EccOrbit

/-!
# SNRs along the orbit of an eccentric source
-/

namespace Legwork.Lemmas

open Real MeasureTheory Filter Topology Set Legwork.snr Legwork.strain Legwork.utils Legwork.evol Legwork.Spec Legwork.Props

variable {K : Consts} {C : Ctx} {odeint : Odeint} {s : EvolSrc} {T τ : ℝ} {e f : ℝ → ℝ} {N : ℝ → WithTop ℝ} {H n : ℕ}

theorem mem_linspace_Icc {τ t : ℝ} (hτ : 0 ≤ τ) {n : ℕ} (h : t ∈ np.linspace τ n) : t ∈ Icc 0 τ := by
  unfold np.linspace at h
  obtain ⟨k, hk, rfl⟩ := List.mem_map.1 h
  rw [List.mem_range] at hk
  rcases Nat.lt_or_ge n 2 with h2 | h2
  · have : k = 0 := by omega
    simp [this, hτ]
  · have hn : (0 : ℝ) < (n : ℝ) - 1 := by
      have : (2 : ℝ) ≤ n := by exact_mod_cast h2
      linarith
    have hk' : (k : ℝ) ≤ (n : ℝ) - 1 := by
      have : ((k + 1 : ℕ) : ℝ) ≤ n := by exact_mod_cast hk
      push_cast at this
      linarith
    refine ⟨by positivity, ?_⟩
    rw [← mul_div_assoc, div_le_iff₀ hn]
    nlinarith

private lemma linspace_le {τ : ℝ} (hτ : 0 ≤ τ) (n : ℕ) : (np.linspace τ n).Pairwise (· ≤ ·) := by
  rcases hτ.eq_or_lt with rfl | h
  · apply List.pairwise_of_forall_mem_list
    intro x hx y hy
    have h1 := mem_linspace_Icc le_rfl hx
    have h2 := mem_linspace_Icc le_rfl hy
    rw [Icc_self, mem_singleton_iff] at h1 h2
    rw [h1, h2]
  · exact (linspace_mono h n).imp fun h => h.le

private lemma fromZero_linspace {τ : ℝ} (hτ : 0 ≤ τ) (n : ℕ) : FromZero (np.linspace τ n) := by
  refine ⟨linspace_le hτ n, fun t ht => ?_⟩
  rcases Nat.eq_zero_or_pos n with rfl | hn
  · simp [np.linspace] at ht
  · obtain ⟨m, rfl⟩ := Nat.exists_eq_succ_of_ne_zero hn.ne'
    unfold np.linspace at ht
    rw [Nat.succ_eq_add_one, List.range_succ_eq_map] at ht
    simp at ht
    exact ht.symm

private lemma harmonicY_nonneg {C : Ctx} {N : ℝ → WithTop ℝ} (hN : Curve C N) (ig : Option (ℤ → ℝ → ℝ)) (m d : ℝ)
    {k : ℤ} {f e : ℝ → ℝ} {t : ℝ} (h : 0 < k * f t) : 0 ≤ harmonicY C.K ig N m d k f e t := by
  unfold harmonicY
  apply divNoise_nonneg (sq_nonneg _)
  have := hN.pos _ h
  cases hn : N (k * f t) with
  | top => exact le_top
  | coe y =>
    rw [hn] at this
    have hy : 0 < y := by exact_mod_cast this
    show ((0 : ℝ) : WithTop ℝ) ≤ (((k * f t) ^ 2 * y : ℝ) : WithTop ℝ)
    exact_mod_cast (by positivity : 0 ≤ (k * f t) ^ 2 * y)

private lemma drop_merged_ecc_of_not_mem {es row : List ℝ} (hl : es.length = row.length) (h : (100 : ℝ) ∉ row) :
    drop_merged_ecc es row = row := by
  unfold drop_merged_ecc
  rcases es with _ | ⟨e, es⟩
  · have : row = [] := List.length_eq_zero_iff.1 hl.symm
    subst this
    rfl
  rcases row with _ | ⟨x, xs⟩
  · simp at hl
  · simp only [List.zipWith_cons_cons]
    conv_rhs => rw [← List.map_id (x :: xs)]
    apply List.map_congr_left
    intro f hf
    rw [if_neg]
    · rfl
    · intro e
      apply h
      norm_num at e
      exact e ▸ hf

theorem EccentricOrbit.c_pos (hs : EvolPhys s) (ho : EccentricOrbit K s τ e f) (h0 : 0 ≤ τ) :
    0 < c_0 (get_a_from_f_orb K s.f_orb_i s.m_1 s.m_2) s.ecc := by
  obtain ⟨p1, p2, p3, -⟩ := hs
  have b := ho.solves.bound 0 ⟨le_rfl, h0⟩
  rw [ho.start] at b
  exact c_0_pos b.1 b.2 (get_a_from_f_orb_pos K p3 p1 p2)

theorem EccentricOrbit.later (hs : EvolPhys s) (ho : EccentricOrbit K s τ e f) {t : ℝ} (ht : t ∈ Icc 0 τ) :
    1e-30 * AU < get_a_from_ecc (e t) (c_0 (get_a_from_f_orb K s.f_orb_i s.m_1 s.m_2) s.ecc) ∧ 0 < f t ∧ f t < 100 := by
  have h0 := ht.1.trans ht.2
  have hc := EccentricOrbit.c_pos hs ho h0
  obtain ⟨p1, p2, p3, -⟩ := hs
  have hb := beta_pos K p1 p2
  obtain ⟨b0, b1⟩ := ho.solves.bound t ht
  have hτ : τ ∈ Icc 0 τ := ⟨h0, le_rfl⟩
  obtain ⟨d0, d1⟩ := ho.solves.bound τ hτ
  have hle : get_a_from_ecc (e τ) (c_0 (get_a_from_f_orb K s.f_orb_i s.m_1 s.m_2) s.ecc) ≤
      get_a_from_ecc (e t) (c_0 (get_a_from_f_orb K s.f_orb_i s.m_1 s.m_2) s.ecc) := by
    rcases ht.2.eq_or_lt with rfl | hlt
    · exact le_rfl
    · exact (C02_get_a_strictMono hc d0.le (ho.solves.antitone hb hc ht hτ hlt) b1).le
  have ha := get_a_from_ecc_pos d0 d1 hc
  refine ⟨ho.apart.trans_le hle, ?_, lt_of_le_of_lt ?_ ho.low⟩
  · rw [ho.freq]
    exact get_f_orb_from_a_pos K (ha.trans_le hle) p1 p2
  · rw [ho.freq, ho.freq]
    have := K.G_pos
    unfold get_f_orb_from_a
    have hp := ha.trans_le hle
    have : 0 ≤ K.G * (s.m_1 + s.m_2) / get_a_from_ecc (e t) (c_0 (get_a_from_f_orb K s.f_orb_i s.m_1 s.m_2) s.ecc) ^ 3 := by
      positivity
    gcongr

theorem orbit_rows (hx : SolvesPeters odeint) (hs : EvolPhys s) (ho : EccentricOrbit C.K s C.t_obs e f) (h0 : 0 ≤ C.t_obs)
    (hT : C.t_obs < T - 0.1 * psd.yr) :
    eccRow C odeint s T n = (np.linspace C.t_obs n).map e ∧ eccFreqs C odeint s T n = (np.linspace C.t_obs n).map f := by
  have hc := EccentricOrbit.c_pos hs ho h0
  have hb := beta_pos C.K hs.1 hs.2.1
  have hmem : ∀ t ∈ np.linspace C.t_obs n, t ∈ Icc 0 C.t_obs := fun t ht => mem_linspace_Icc h0 ht
  have htimes : eccTimes C T n = np.linspace C.t_obs n := by
    unfold eccTimes
    rw [min_eq_right hT.le, clamp_linspace h0 rfl hT.le, if_pos hT]
  have hrow : eccRow C odeint s T n = (np.linspace C.t_obs n).map e := by
    unfold eccRow
    have := hx _ _ C.t_obs e (np.linspace C.t_obs n) hb hc ho.solves (fromZero_linspace h0 n) hmem
    rw [ho.start] at this
    rw [htimes, this, List.map_map]
    rfl
  refine ⟨hrow, ?_⟩
  have hfr : ((np.linspace C.t_obs n).map e).map (eccFreq C.K s) = (np.linspace C.t_obs n).map f := by
    rw [List.map_map]
    refine List.map_congr_left fun t ht => ?_
    obtain ⟨q1, -, -⟩ := EccentricOrbit.later hs ho (hmem t ht)
    show f_or_merged _ _ _ _ _ = _
    rw [f_or_merged_of_ne C.K (get_a_from_ecc_pos (ho.solves.bound t (hmem t ht)).1 (ho.solves.bound t (hmem t ht)).2 hc).ne'
      q1.ne', ho.freq]
  unfold eccFreqs
  rw [hrow, hfr, drop_merged_ecc_of_not_mem (by simp)]
  intro h
  obtain ⟨t, ht, h1⟩ := List.mem_map.1 h
  exact (EccentricOrbit.later hs ho (hmem t ht)).2.2.ne h1

theorem orbit_snr2 (hx : SolvesPeters odeint) (hs : EvolPhys s) (ho : EccentricOrbit C.K s C.t_obs e f) (h0 : 0 ≤ C.t_obs)
    (hT : C.t_obs < T - 0.1 * psd.yr) (k : ℤ) :
    eccSnr2 C odeint N s T n k = trapezoid
      ((np.linspace C.t_obs n).map (harmonicY C.K C.interpolated_g N (chirp_mass s.m_1 s.m_2) s.dist k f e))
      ((np.linspace C.t_obs n).map fun t => k * f t) := by
  obtain ⟨h1, h2⟩ := orbit_rows (n := n) hx hs ho h0 hT
  unfold eccSnr2
  rw [h1, h2, List.map_map, List.zip_map', List.map_map]
  rfl

/-- `snr_ecc_evolving` source by source. -/
theorem snr_ecc_evolving_map (C : Ctx) (odeint : Odeint) (srcs : List EvolSrc) (H : ℕ) (hn : n ≠ 0)
    (np : ℕ) (order : List ℕ) (hall : np > 1 → ∀ i < srcs.length, i ∈ order) (rm rb : Bool)
    (hN : ∀ f, noise C f = .ok (N f)) :
    snr_ecc_evolving C odeint srcs H n none np order rm rb = finish rm rb H (srcs.map fun s =>
      (harmonics H).map fun k => eccSnr2 C odeint N s (tEcc C.K s.m_1 s.m_2 s.f_orb_i s.ecc true) n k) := by
  rw [snr_ecc_evolving_eq C odeint srcs H hn none np order hall rm rb hN
    (get_t_merge_ecc_each C.K (column srcs EvolSrc.ecc) (column srcs EvolSrc.f_orb_i) (column srcs EvolSrc.m_1)
      (column srcs EvolSrc.m_2) true)]
  congr 1
  apply List.ext_getElem
  · simp
  · intro i h1 h2
    simp [column]

/-- The SNR² of `H` harmonics per time. -/
noncomputable def eccRate (C : Ctx) (N : ℝ → WithTop ℝ) (s : EvolSrc) (H : ℕ) (e f : ℝ → ℝ) (t : ℝ) : ℝ :=
  ((harmonics H).map fun k => divNoise (h_0_val C.K C.interpolated_g (chirp_mass s.m_1 s.m_2) s.dist (f t) (e t) k ^ 2)
    (N (k * f t))).sum

theorem orbit_limit (hx : SolvesPeters odeint) (hs : EvolPhys s) (ho : EccentricOrbit C.K s C.t_obs e f) (h0 : 0 ≤ C.t_obs)
    (hN : Curve C N) (hreg : Tame N) (hig : ContinuousG C.interpolated_g)
    (hT : C.t_obs < tEcc C.K s.m_1 s.m_2 s.f_orb_i s.ecc true - 0.1 * psd.yr) (H : ℕ) (nproc : ℕ) (order : List ℕ)
    (hall : nproc > 1 → 0 ∈ order) :
    IntervalIntegrable (eccRate C N s H e f) volume 0 C.t_obs ∧
    ∃ v : ℕ → ℝ, (∀ n ≥ 1, snr_ecc_evolving C odeint [s] H n none nproc order false false = .ok (.total [some (v n)])) ∧
      Tendsto v atTop (𝓝 √(∫ t in (0 : ℝ)..C.t_obs, eccRate C N s H e f t)) := by
  have hc := EccentricOrbit.c_pos hs ho h0
  have hl := fun t ht => EccentricOrbit.later hs ho (t := t) ht
  have hmc := C03_pos hs.1 hs.2.1
  have hfeq : f = fun t => get_f_orb_from_a C.K (get_a_from_ecc (e t)
      (c_0 (get_a_from_f_orb C.K s.f_orb_i s.m_1 s.m_2) s.ecc)) s.m_1 s.m_2 := funext ho.freq
  have hder : ∀ (k : ℤ), 1 ≤ k → ∀ t ∈ Icc 0 C.t_obs, HasDerivAt (fun s => k * f s)
      (fn_dot_val C.K (chirp_mass s.m_1 s.m_2) (f t) (e t) k) t := by
    intro k hk t ht
    obtain ⟨r, hr, hd⟩ := C15_frequency_rate C.K hs.1 hs.2.1 hc ho.solves ht k hk
    simp only [fn_dot, List.any_cons, List.any_nil, not_lt.2 hk, Bool.or_false, if_false, List.map_cons,
      List.map_nil, Except.ok.injEq, List.cons.injEq, and_true, decide_false, Bool.false_eq_true] at hr
    rw [hfeq]
    simp only
    rw [hr]
    exact hd
  have heb : ∀ t ∈ Icc 0 C.t_obs, 0 ≤ e t ∧ e t < 1 := fun t ht =>
    ⟨(ho.solves.bound t ht).1.le, (ho.solves.bound t ht).2⟩
  have hec : ContinuousOn e (Icc 0 C.t_obs) := fun t ht => (ho.solves.ode t ht).continuousAt.continuousWithinAt
  have hg : ∀ k, ContinuousOn (fun t => g_vals C.interpolated_g k (e t)) (Icc 0 C.t_obs) := fun k =>
    (continuousOn_g_vals hig k).comp hec heb
  have hk1 : ∀ k ∈ harmonics H, 1 ≤ k := by
    intro k hk
    obtain ⟨j, -, rfl⟩ := List.mem_map.1 hk
    omega
  have hfp : ∀ t ∈ Icc 0 C.t_obs, 0 < f t := fun t ht => (hl t ht).2.1
  have hlim := fun k (hk : k ∈ harmonics H) =>
    harmonic_tendsto C.K C.interpolated_g hreg s.dist hmc h0 (hk1 k hk) hfp (hder k (hk1 k hk)) heb hec (hg k)
  obtain ⟨l1, l2⟩ := list_tendsto (τ := C.t_obs) (ks := harmonics H) fun k hk => ⟨(hlim k hk).1, (hlim k hk).2.1⟩
  refine ⟨l1, fun n => √(((harmonics H).map fun k => trapezoid
      ((np.linspace C.t_obs n).map (harmonicY C.K C.interpolated_g N (chirp_mass s.m_1 s.m_2) s.dist k f e))
      ((np.linspace C.t_obs n).map fun t => k * f t)).sum), ?_, (continuous_sqrt.tendsto _).comp l2⟩
  intro n hn
  have hnn : 0 ≤ ((harmonics H).map fun k => trapezoid
      ((np.linspace C.t_obs n).map (harmonicY C.K C.interpolated_g N (chirp_mass s.m_1 s.m_2) s.dist k f e))
      ((np.linspace C.t_obs n).map fun t => k * f t)).sum := by
    apply List.sum_nonneg
    intro x hx
    obtain ⟨k, hk, rfl⟩ := List.mem_map.1 hx
    obtain ⟨-, hmono, -⟩ := harmonic_regular C.K C.interpolated_g hreg s.dist hmc h0 (hk1 k hk) hfp (hder k (hk1 k hk)) heb
      hec (hg k)
    apply trapezoid_nonneg
    · intro y hy
      obtain ⟨t, ht, rfl⟩ := List.mem_map.1 hy
      exact harmonicY_nonneg hN _ _ _ (mul_pos (by exact_mod_cast (by have := hk1 k hk; omega : 0 < k))
        (hfp t (mem_linspace_Icc h0 ht)))
    · rw [List.pairwise_map]
      exact (linspace_le h0 n).imp_of_mem fun hx hy hxy =>
        hmono.monotoneOn (mem_linspace_Icc h0 hx) (mem_linspace_Icc h0 hy) hxy
  rw [snr_ecc_evolving_map C odeint [s] H (by omega) nproc order (fun h i hi => by
    obtain rfl : i = 0 := by simpa using hi
    exact hall h) false false hN.ok]
  simp only [finish, Bool.false_eq_true, if_false, List.map_cons, List.map_nil, pure, Except.pure]
  simp only [orbit_snr2 hx hs ho h0 hT]
  rw [sqrt?_nonneg hnn]

end Legwork.Lemmas
