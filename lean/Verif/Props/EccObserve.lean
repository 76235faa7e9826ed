import Verif.Lemmas.EccOrbit
import Verif.Lemmas.ExactOdeint
import Verif.Props.Longer
import Verif.Props.Redshift

/-!
# Observing eccentric sources that change: C101, C103
-/

namespace Legwork.Props

open Real MeasureTheory Filter Topology Set Legwork.snr Legwork.strain Legwork.utils Legwork.evol Legwork.Spec Legwork.Lemmas

variable {odeint : Odeint} {s : EvolSrc} {e f : ℝ → ℝ} {H n nproc : ℕ} {order : List ℕ} {κ T : ℝ}

private lemma time_of {K : Consts} (hT : get_t_merge_ecc K (fun _ : Fin 1 => s.ecc) none (some fun _ => s.f_orb_i) none
    (some fun _ => s.m_1) (some fun _ => s.m_2) 0.15 (1 - 1e-4) true = .ok fun _ => T) :
    tEcc K s.m_1 s.m_2 s.f_orb_i s.ecc true = T := by
  rw [get_t_merge_ecc_each] at hT
  exact congrFun (Except.ok.inj hT) 0

private lemma noise_longer {x : ℝ} (hx : 0 ≤ x) {y y' : WithTop ℝ} (hy : 0 < y') (h : y' ≤ y) :
    0 ≤ divNoise x y ∧ divNoise x y ≤ divNoise x y' := by
  refine ⟨divNoise_nonneg hx (hy.le.trans h), ?_⟩
  cases y with
  | top => exact divNoise_nonneg hx hy.le
  | coe y =>
    cases y' with
    | top => exact absurd h (by simp)
    | coe y' =>
      have h1 : 0 < y' := by exact_mod_cast hy
      have h2 : y' ≤ y := by exact_mod_cast h
      exact div_le_div₀ hx le_rfl h1 h2

private lemma sum_longer' {ks : List ℤ} {F G : ℤ → ℝ} (h : ∀ k ∈ ks, 0 ≤ F k ∧ F k ≤ G k) :
    0 ≤ (ks.map F).sum ∧ (ks.map F).sum ≤ (ks.map G).sum := by
  induction ks with
  | nil => simp
  | cons k ks ih =>
    obtain ⟨a, b⟩ := ih fun j hj => h j (by simp [hj])
    obtain ⟨c, d⟩ := h k (by simp)
    simp only [List.map_cons, List.sum_cons]
    constructor <;> linarith

private lemma rate_longer {C C' : Ctx} (hK : C'.K = C.K) (hg : C'.interpolated_g = C.interpolated_g) {N N' : ℝ → WithTop ℝ}
    (hN' : ∀ f, 0 < f → 0 < N' f) (hle : ∀ f, 0 < f → N' f ≤ N f) {t : ℝ} (hf : 0 < f t) :
    0 ≤ eccRate C N s H e f t ∧ eccRate C N s H e f t ≤ eccRate C' N' s H e f t := by
  unfold eccRate
  rw [hK, hg]
  refine sum_longer' fun k hk => ?_
  obtain ⟨j, -, rfl⟩ := List.mem_map.1 hk
  have : (0 : ℝ) < ((j : ℤ) + 1 : ℤ) * f t := mul_pos (by exact_mod_cast Nat.succ_pos j) hf
  exact noise_longer (sq_nonneg _) (hN' _ this) (hle _ this)

private lemma orbit_shorter {K : Consts} (hs : EvolPhys s) {t t' : ℝ} (h0 : 0 ≤ t) (h : t ≤ t')
    (ho : EccentricOrbit K s t' e f) : EccentricOrbit K s t e f := by
  obtain ⟨q1, -, q2⟩ := EccentricOrbit.later hs ho ⟨h0, h⟩
  exact ⟨ho.start, ho.solves.mono le_rfl h, ho.freq, q1, q2⟩

/-- **C101** (eccentric sources that change their frequency). With an integrator without errors, observing an eccentric source
for longer, with a noise that is no larger, does not lower what the SNR of `snr_ecc_evolving` tends to as the number of steps
grows, for any number of harmonics and processes. -/
theorem C101_eccentric {C C' : Ctx} (hK : C'.K = C.K) (hg : C'.interpolated_g = C.interpolated_g) {N N' : ℝ → WithTop ℝ}
    (hN : Curve C N) (hN' : Curve C' N') (hreg : Tame N) (hreg' : Tame N') (hle : ∀ f, 0 < f → N' f ≤ N f)
    (hig : ContinuousG C.interpolated_g) (hx : SolvesPeters odeint) (h0 : 0 ≤ C.t_obs) (htt : C.t_obs ≤ C'.t_obs)
    (hs : EvolPhys s) (ho : EccentricOrbit C.K s C'.t_obs e f)
    (hT : get_t_merge_ecc C.K (fun _ : Fin 1 => s.ecc) none (some fun _ => s.f_orb_i) none (some fun _ => s.m_1)
      (some fun _ => s.m_2) 0.15 (1 - 1e-4) true = .ok fun _ => T) (hfar : C'.t_obs + 0.1 * psd.yr < T)
    (hall : nproc > 1 → 0 ∈ order) :
    ∃ v v' : ℕ → ℝ, (∀ n ≥ 1, snr_ecc_evolving C odeint [s] H n none nproc order false false = .ok (.total [some (v n)]) ∧
        snr_ecc_evolving C' odeint [s] H n none nproc order false false = .ok (.total [some (v' n)])) ∧
      ∃ x x' : ℝ, Tendsto v atTop (𝓝 x) ∧ Tendsto v' atTop (𝓝 x') ∧ 0 ≤ x ∧ x ≤ x' := by
  have hT' := time_of hT
  obtain ⟨i1, v, hv, l1⟩ := orbit_limit (C := C) hx hs (orbit_shorter hs h0 htt ho) h0 hN hreg hig (by rw [hT']; linarith) H nproc
    order hall
  obtain ⟨i2, v', hv', l2⟩ := orbit_limit (C := C') hx hs (by rw [hK]; exact ho) (h0.trans htt) hN' hreg' (by rw [hg]; exact hig)
    (by rw [hK, hT']; linarith) H nproc order hall
  refine ⟨v, v', fun n hn => ⟨hv n hn, hv' n hn⟩, _, _, l1, l2, sqrt_nonneg _, sqrt_le_sqrt ?_⟩
  have key : ∀ t ∈ Icc 0 C'.t_obs, 0 ≤ eccRate C N s H e f t ∧ eccRate C N s H e f t ≤ eccRate C' N' s H e f t := fun t ht =>
    rate_longer hK hg hN'.pos hle (EccentricOrbit.later hs ho ht).2.1
  have hi₁ : IntervalIntegrable (eccRate C' N' s H e f) volume 0 C.t_obs :=
    i2.mono_set (by rw [uIcc_of_le h0, uIcc_of_le (by linarith)]; exact Icc_subset_Icc_right htt)
  have hi₂ : IntervalIntegrable (eccRate C' N' s H e f) volume C.t_obs C'.t_obs :=
    i2.mono_set (by rw [uIcc_of_le htt, uIcc_of_le (by linarith)]; exact Icc_subset_Icc_left h0)
  rw [← intervalIntegral.integral_add_adjacent_intervals hi₁ hi₂]
  have a1 := intervalIntegral.integral_mono_on h0 i1 hi₁ fun t ht => (key t ⟨ht.1, ht.2.trans htt⟩).2
  have a2 : 0 ≤ ∫ t in C.t_obs..C'.t_obs, eccRate C' N' s H e f t :=
    intervalIntegral.integral_nonneg htt fun t ht => by
      have := key t ⟨h0.trans ht.1, ht.2⟩
      exact this.1.trans this.2
  linarith

/-- **C101** (eccentric sources that change their frequency). Cut an observation of an eccentric source into two parts; the
second part begins with the eccentricity and frequency at the end of the first one. With an integrator without errors, the
SNR² of `snr_ecc_evolving` for the whole observation becomes the sum of those for its parts as the number of steps grows, for
any number of harmonics. -/
theorem C101_eccentric_split {C₁ C₂ C : Ctx} (hK₁ : C₁.K = C.K) (hK₂ : C₂.K = C.K) (hg₁ : C₁.interpolated_g = C.interpolated_g)
    (hg₂ : C₂.interpolated_g = C.interpolated_g) {N : ℝ → WithTop ℝ} (hN₁ : Curve C₁ N) (hN₂ : Curve C₂ N) (hN : Curve C N)
    (hreg : Tame N) (hig : ContinuousG C.interpolated_g) (hx : SolvesPeters odeint) (h₁ : 0 ≤ C₁.t_obs) (h₂ : 0 ≤ C₂.t_obs)
    (hsum : C.t_obs = C₁.t_obs + C₂.t_obs) (hs : EvolPhys s) (ho : EccentricOrbit C.K s C.t_obs e f) {s₂ : EvolSrc}
    (hs₂ : s₂ = { s with f_orb_i := f C₁.t_obs, ecc := e C₁.t_obs })
    (hT : get_t_merge_ecc C.K (fun _ : Fin 1 => s.ecc) none (some fun _ => s.f_orb_i) none (some fun _ => s.m_1)
      (some fun _ => s.m_2) 0.15 (1 - 1e-4) true = .ok fun _ => T) (hfar : C.t_obs + 0.1 * psd.yr < T) {T₂ : ℝ}
    (hT₂ : get_t_merge_ecc C.K (fun _ : Fin 1 => s₂.ecc) none (some fun _ => s₂.f_orb_i) none (some fun _ => s₂.m_1)
      (some fun _ => s₂.m_2) 0.15 (1 - 1e-4) true = .ok fun _ => T₂) (hfar₂ : C₂.t_obs + 0.1 * psd.yr < T₂)
    (hall : nproc > 1 → 0 ∈ order) :
    ∃ v₁ v₂ v : ℕ → ℝ,
      (∀ n ≥ 1, snr_ecc_evolving C₁ odeint [s] H n none nproc order false false = .ok (.total [some (v₁ n)]) ∧
        snr_ecc_evolving C₂ odeint [s₂] H n none nproc order false false = .ok (.total [some (v₂ n)]) ∧
        snr_ecc_evolving C odeint [s] H n none nproc order false false = .ok (.total [some (v n)])) ∧
      ∃ x₁ x₂ x : ℝ, Tendsto v₁ atTop (𝓝 x₁) ∧ Tendsto v₂ atTop (𝓝 x₂) ∧ Tendsto v atTop (𝓝 x) ∧
        x ^ 2 = x₁ ^ 2 + x₂ ^ 2 := by
  have hT' := time_of hT
  have hT₂' := time_of hT₂
  have h0 : 0 ≤ C.t_obs := by linarith
  have hmid : C₁.t_obs ∈ Icc 0 C.t_obs := ⟨h₁, by linarith⟩
  have hc := EccentricOrbit.c_pos hs ho h0
  obtain ⟨q1, q2, q3⟩ := EccentricOrbit.later hs ho hmid
  obtain ⟨b0, b1⟩ := ho.solves.bound _ hmid
  have ha := get_a_from_ecc_pos b0 b1 hc
  have hs₂p : EvolPhys s₂ := by
    rw [hs₂]
    exact ⟨hs.1, hs.2.1, q2, hs.2.2.2⟩
  have hcc : c_0 (get_a_from_f_orb C.K s₂.f_orb_i s₂.m_1 s₂.m_2) s₂.ecc =
      c_0 (get_a_from_f_orb C.K s.f_orb_i s.m_1 s.m_2) s.ecc := by
    rw [hs₂]
    simp only
    rw [ho.freq, C01_a_roundtrip C.K ha hs.1 hs.2.1, c_0_of_get_a b0 b1]
  have hm₁ : s₂.m_1 = s.m_1 := by rw [hs₂]
  have hm₂ : s₂.m_2 = s.m_2 := by rw [hs₂]
  have hd₂ : s₂.dist = s.dist := by rw [hs₂]
  have ho₂ : EccentricOrbit C₂.K s₂ C₂.t_obs (fun t => e (C₁.t_obs + t)) fun t => f (C₁.t_obs + t) := by
    rw [hK₂]
    refine ⟨by rw [hs₂]; simp, ?_, fun t => ?_, ?_, ?_⟩
    · rw [hcc, hm₁, hm₂]
      refine ⟨fun y hy => ho.solves.bound _ ⟨by linarith [hy.1], by linarith [hy.2]⟩, fun y hy => ?_⟩
      exact (ho.solves.ode (C₁.t_obs + y) ⟨by linarith [hy.1], by linarith [hy.2]⟩).comp_const_add _ y
    · rw [hcc, hm₁, hm₂]
      exact ho.freq _
    · rw [hcc, ← hsum]
      exact ho.apart
    · rw [← hsum]
      exact ho.low
  obtain ⟨i1, v₁, hv₁, l1⟩ := orbit_limit (C := C₁) hx hs (by rw [hK₁]; exact orbit_shorter hs h₁ hmid.2 ho) h₁ hN₁ hreg
    (by rw [hg₁]; exact hig) (by rw [hK₁, hT']; linarith) H nproc order hall
  obtain ⟨i2, v₂, hv₂, l2⟩ := orbit_limit (C := C₂) hx hs₂p ho₂ h₂ hN₂ hreg
    (by rw [hg₂]; exact hig) (by rw [hK₂, hT₂']; linarith) H nproc order hall
  obtain ⟨i3, v, hv, l3⟩ := orbit_limit (C := C) hx hs ho h0 hN hreg hig (by rw [hT']; linarith) H nproc order hall
  refine ⟨v₁, v₂, v, fun n hn => ⟨hv₁ n hn, hv₂ n hn, hv n hn⟩, _, _, _, l1, l2, l3, ?_⟩
  have hnn : ∀ t ∈ Icc 0 C.t_obs, 0 ≤ eccRate C N s H e f t := fun t ht =>
    (rate_longer (C' := C) rfl rfl hN.pos (fun _ _ => le_rfl) (EccentricOrbit.later hs ho ht).2.1).1
  have e1 : eccRate C₁ N s H e f = eccRate C N s H e f := by
    unfold eccRate
    rw [hK₁, hg₁]
  have e2 : eccRate C₂ N s₂ H (fun t => e (C₁.t_obs + t)) (fun t => f (C₁.t_obs + t)) =
      fun t => eccRate C N s H e f (C₁.t_obs + t) := by
    unfold eccRate
    rw [hK₂, hg₂, hm₁, hm₂, hd₂]
  rw [e1] at i1 ⊢
  rw [e2] at i2 ⊢
  have hshift : ∫ t in (0 : ℝ)..C₂.t_obs, eccRate C N s H e f (C₁.t_obs + t) =
      ∫ t in C₁.t_obs..C.t_obs, eccRate C N s H e f t := by
    rw [intervalIntegral.integral_comp_add_left (eccRate C N s H e f), add_zero, hsum]
  have hi₂ : IntervalIntegrable (eccRate C N s H e f) volume C₁.t_obs C.t_obs :=
    i3.mono_set (by rw [uIcc_of_le hmid.2, uIcc_of_le h0]; exact Icc_subset_Icc_left h₁)
  rw [sq_sqrt (intervalIntegral.integral_nonneg h0 hnn),
    sq_sqrt (intervalIntegral.integral_nonneg h₁ fun t ht => hnn t ⟨ht.1, ht.2.trans hmid.2⟩),
    sq_sqrt (intervalIntegral.integral_nonneg h₂ fun t ht => hnn _ ⟨by linarith [ht.1], by linarith [ht.2]⟩), hshift,
    intervalIntegral.integral_add_adjacent_intervals i1 hi₂]

private lemma orbit_red {K : Consts} (hκ : 0 < κ) (hs : EvolPhys s) {τ : ℝ} (h0 : 0 ≤ τ) (ho : EccentricOrbit K s τ e f)
    (hap : 1e-30 * AU < κ * get_a_from_ecc (e τ) (c_0 (get_a_from_f_orb K s.f_orb_i s.m_1 s.m_2) s.ecc)) (hlow : f τ < κ * 100) :
    ∃ f', EccentricOrbit K (redEvol κ s) (κ * τ) (fun t => e (t / κ)) f' ∧ ∀ t ∈ Icc 0 τ, f' (κ * t) = f t / κ := by
  obtain ⟨p1, p2, p3, p4⟩ := id hs
  have hc := EccentricOrbit.c_pos hs ho h0
  have hcr : c_0 (get_a_from_f_orb K (redEvol κ s).f_orb_i (redEvol κ s).m_1 (redEvol κ s).m_2) (redEvol κ s).ecc =
      κ * c_0 (get_a_from_f_orb K s.f_orb_i s.m_1 s.m_2) s.ecc := by
    unfold redEvol
    simp only
    rw [a_red K hκ p3 p1 p2, c_0_red]
  have har : ∀ x c : ℝ, get_a_from_ecc x (κ * c) = κ * get_a_from_ecc x c := by
    intro x c
    unfold get_a_from_ecc
    ring
  have hmem : ∀ {t}, t ∈ Icc 0 (κ * τ) → t / κ ∈ Icc 0 τ := fun {t} ht =>
    ⟨div_nonneg ht.1 hκ.le, by rw [div_le_iff₀ hκ, mul_comm]; exact ht.2⟩
  have hfr : ∀ t ∈ Icc 0 τ, get_f_orb_from_a K (get_a_from_ecc (e t) (κ * c_0 (get_a_from_f_orb K s.f_orb_i s.m_1 s.m_2) s.ecc))
      (κ * s.m_1) (κ * s.m_2) = f t / κ := by
    intro t ht
    obtain ⟨b0, b1⟩ := ho.solves.bound t ht
    rw [har, f_red K hκ (get_a_from_ecc_pos b0 b1 hc) p1 p2, ho.freq]
  refine ⟨fun t => get_f_orb_from_a K (get_a_from_ecc (e (t / κ))
    (κ * c_0 (get_a_from_f_orb K s.f_orb_i s.m_1 s.m_2) s.ecc)) (κ * s.m_1) (κ * s.m_2), ⟨?_, ?_, ?_, ?_, ?_⟩, ?_⟩
  · rw [zero_div]
    exact ho.start
  · rw [hcr, show beta K (redEvol κ s).m_1 (redEvol κ s).m_2 = κ ^ 3 * beta K s.m_1 s.m_2 from beta_red K _ _]
    refine ⟨fun t ht => ho.solves.bound _ (hmem ht), fun t ht => ?_⟩
    have hd := (ho.solves.ode _ (hmem ht)).comp t ((hasDerivAt_id t).div_const κ)
    refine hd.congr_deriv ?_
    rw [show κ ^ 3 * beta K s.m_1 s.m_2 / (κ * c_0 (get_a_from_f_orb K s.f_orb_i s.m_1 s.m_2) s.ecc) ^ 4 =
      beta K s.m_1 s.m_2 / c_0 (get_a_from_f_orb K s.f_orb_i s.m_1 s.m_2) s.ecc ^ 4 * (1 / κ) by field_simp]
    ring
  · intro t
    rw [hcr]
    rfl
  · rw [hcr, har, mul_div_cancel_left₀ _ hκ.ne']
    exact hap
  · rw [mul_div_cancel_left₀ _ hκ.ne', hfr τ ⟨h0, le_rfl⟩, div_lt_iff₀ hκ, mul_comm]
    exact hlow
  · intro t ht
    simp only
    rw [mul_div_cancel_left₀ _ hκ.ne', hfr t ht]

/-- **C103** (evolving eccentric sources). With an integrator without errors, the SNRs of evolving eccentric sources are the
same in both descriptions, as are the strongest harmonics and the contributions of the harmonics, for any number of timesteps,
harmonics and processes, as long as the sources stay below 100 Hz, further apart than 1e-30 au and more than 0.1 yr away from
merger in both descriptions. -/
theorem C103_eccentric {C C' : Ctx} (hκ : 0 < κ) (h : Redshifted κ C C') (hx : SolvesPeters odeint) (hobs : 0 ≤ C.t_obs)
    {srcs : List EvolSrc} (hn : 1 ≤ n) (hall : nproc > 1 → ∀ i < srcs.length, i ∈ order)
    (hs : ∀ s ∈ srcs, EvolPhys s ∧ ∃ e f T, EccentricOrbit C.K s C.t_obs e f ∧
      1e-30 * AU < κ * get_a_from_ecc (e C.t_obs) (c_0 (get_a_from_f_orb C.K s.f_orb_i s.m_1 s.m_2) s.ecc) ∧
      f C.t_obs < κ * 100 ∧
      get_t_merge_ecc C.K (fun _ : Fin 1 => s.ecc) none (some fun _ => s.f_orb_i) none (some fun _ => s.m_1)
        (some fun _ => s.m_2) 0.15 (1 - 1e-4) true = .ok (fun _ => T) ∧
      C.t_obs + 0.1 * psd.yr < T ∧ κ * C.t_obs + 0.1 * psd.yr < κ * T) (rm rb : Bool) :
    snr_ecc_evolving C' odeint (srcs.map (redEvol κ)) H n none nproc order rm rb =
      snr_ecc_evolving C odeint srcs H n none nproc order rm rb := by
  choose N hN hN' using h.noise
  have hNred : ∀ f, noise C' f = .ok ((N (κ * f)).map (κ * ·)) := fun f => by
    have := hN' (κ * f)
    rwa [mul_div_cancel_left₀ _ hκ.ne'] at this
  rw [snr_ecc_evolving_map C odeint srcs H (by omega) nproc order hall rm rb hN,
    snr_ecc_evolving_map C' odeint (srcs.map (redEvol κ)) H (by omega) nproc order (by simpa using hall) rm rb hNred,
    List.map_map]
  congr 1
  refine List.map_congr_left fun s hm => List.map_congr_left fun k hk => ?_
  obtain ⟨hph, e, f, T, ho, hap, hlow, hT, ht1, ht2⟩ := hs s hm
  obtain ⟨p1, p2, p3, p4⟩ := id hph
  have hT' := time_of hT
  have hTr : tEcc C'.K (redEvol κ s).m_1 (redEvol κ s).m_2 (redEvol κ s).f_orb_i (redEvol κ s).ecc true = κ * T := by
    obtain ⟨T₀, hT₀, hT₁⟩ := (C103_merger_times C.K hκ (ι := Fin 1) (m₁ := fun _ => s.m_1) (m₂ := fun _ => s.m_2)
      (f := fun _ => s.f_orb_i) (fun _ => p1) (fun _ => p2) fun _ => p3).2 (fun _ => s.ecc) 0.15 (1 - 1e-4) true
    rw [hT] at hT₀
    obtain rfl := Except.ok.inj hT₀
    rw [h.K]
    exact time_of (s := redEvol κ s) hT₁
  have hph' : EvolPhys (redEvol κ s) := ⟨mul_pos hκ p1, mul_pos hκ p2, div_pos p3 hκ, mul_pos hκ p4⟩
  obtain ⟨f', ho', hf'⟩ := orbit_red hκ hph hobs ho hap hlow
  rw [orbit_snr2 hx hph ho hobs (by rw [hT']; linarith), orbit_snr2 (C := C') hx hph' (by rw [h.K, h.t_obs]; exact ho')
    (by rw [h.t_obs]; positivity) (by rw [hTr, h.t_obs]; linarith), h.t_obs, linspace_red, List.map_map, List.map_map, h.K, h.g]
  have hmem : ∀ t ∈ np.linspace C.t_obs n, t ∈ Icc 0 C.t_obs := fun t ht => mem_linspace_Icc hobs ht
  refine Eq.trans ?_ (trapezoid_red hκ.ne' _ _)
  rw [List.map_map, List.map_map]
  refine congrArg₂ trapezoid (List.map_congr_left fun t ht => ?_) (List.map_congr_left fun t ht => ?_)
  · simp only [Function.comp, harmonicY]
    have hfp := (EccentricOrbit.later hph ho (hmem t ht)).2.1
    rw [hf' t (hmem t ht), mul_div_cancel_left₀ _ hκ.ne',
      show chirp_mass (redEvol κ s).m_1 (redEvol κ s).m_2 = κ * chirp_mass s.m_1 s.m_2 from chirp_mass_red hκ p1 p2,
      show (redEvol κ s).dist = κ * s.dist from rfl, h_c_red C.K C.interpolated_g hκ (C03_pos p1 p2).le hfp.le,
      show κ * (k * (f t / κ)) = k * f t by field_simp]
    set v := N (k * f t)
    cases v with
    | top => simp [divNoise]
    | coe v =>
      show _ / ((k * (f t / κ)) ^ 2 * (κ * v)) = κ * (_ / ((k * f t) ^ 2 * v))
      by_cases hv : v = 0
      · simp [hv]
      · by_cases hk0 : (k : ℝ) = 0
        · simp [hk0]
        · field_simp
  · simp only [Function.comp]
    rw [hf' t (hmem t ht)]
    ring

/-! ### Cases -/

/-- A wide orbit of eccentricity 0.1 has a merger time of at least nine years. -/
private lemma wide_time {a β : ℝ} (hβ : 0 < β) (ha : 1 ≤ a) (h : 40 * β * psd.yr ≤ a) : psd.yr < t_small (c_0 a 0.1) β 0.1 := by
  have hyr : 0 < psd.yr := by unfold psd.yr; norm_num
  have ha0 : 0 < a := by linarith
  have hX : (0.99 : ℝ) ≤ (1 + 121 / 304 * 0.1 ^ 2 : ℝ) ^ (-870 / 2299 : ℝ) :=
    calc (0.99 : ℝ) ≤ (1 + 121 / 304 * 0.1 ^ 2 : ℝ) ^ (-1 : ℝ) := by rw [rpow_neg_one]; norm_num
      _ ≤ _ := rpow_le_rpow_of_exponent_le (by norm_num) (by norm_num)
  have hp : (0.1 : ℝ) ^ (-12 / 19 : ℝ) * (0.1 : ℝ) ^ (12 / 19 : ℝ) = 1 := by
    rw [← rpow_add (by norm_num)]; norm_num
  have h4 : (0.1 : ℝ) ^ (48 / 19 : ℝ) = ((0.1 : ℝ) ^ (12 / 19 : ℝ)) ^ 4 := by
    rw [← rpow_natCast ((0.1 : ℝ) ^ (12 / 19 : ℝ)) 4, ← rpow_mul (by norm_num)]; norm_num
  have hc : c_0 a 0.1 * (0.1 : ℝ) ^ (12 / 19 : ℝ) = a * 0.99 * (1 + 121 / 304 * 0.1 ^ 2 : ℝ) ^ (-870 / 2299 : ℝ) := by
    unfold c_0
    linear_combination a * (1 - 0.1 ^ 2) * (1 + 121 / 304 * 0.1 ^ 2 : ℝ) ^ (-870 / 2299 : ℝ) * hp
  have hge : a * 0.98 ≤ c_0 a 0.1 * (0.1 : ℝ) ^ (12 / 19 : ℝ) := by
    rw [hc]
    have := mul_le_mul_of_nonneg_left hX (show 0 ≤ a * 0.99 by positivity)
    linarith
  have ha4 : a ≤ a ^ 4 := by
    calc a = a * 1 := by ring
      _ ≤ a * a ^ 3 := by gcongr; exact one_le_pow₀ ha
      _ = a ^ 4 := by ring
  unfold t_small
  rw [h4, div_mul_eq_mul_div, ← mul_pow, lt_div_iff₀ (by positivity)]
  calc psd.yr * (4 * β) < 0.9 * (40 * β * psd.yr) := by nlinarith [mul_pos hβ hyr]
    _ ≤ 0.9 * a ^ 4 := by gcongr; exact h.trans ha4
    _ ≤ (a * 0.98) ^ 4 := by rw [mul_pow]; nlinarith [pow_pos ha0 4]
    _ ≤ _ := by gcongr

private lemma orbit_start {K : Consts} {τ : ℝ} (hs : EvolPhys s) (ho : EccentricOrbit K s τ e f) (hτ : 0 ≤ τ) :
    f 0 = s.f_orb_i := by
  obtain ⟨h0, h1⟩ := ho.solves.bound 0 ⟨le_rfl, hτ⟩
  rw [ho.start] at h0 h1
  rw [ho.freq, ho.start, C02_a_roundtrip h0 h1]
  exact C01_f_roundtrip K hs.2.2.1 hs.1 hs.2.1

/-- There are sources, observation times and orbits as the theorems ask for: two stars of 2e30 kg in a wide orbit of
eccentricity 0.1, which merge after more than a year. -/
private lemma exists_orbit (K : Consts) : ∃ (s : EvolSrc) (τ : ℝ) (e f : ℝ → ℝ), EvolPhys s ∧ 0 < τ ∧ τ < 0.1 * psd.yr ∧
    EccentricOrbit K s τ e f ∧ ∀ t ∈ Icc 0 τ, ∃ T, get_t_merge_ecc K (fun _ : Fin 1 => e t) none (some fun _ => f t) none
      (some fun _ => s.m_1) (some fun _ => s.m_2) 0.15 (1 - 1e-4) true = .ok (fun _ => T) ∧ psd.yr < T := by
  obtain ⟨m, hm⟩ : ∃ m : ℝ, m = 2e30 := ⟨_, rfl⟩
  have hm0 : 0 < m := by rw [hm]; norm_num
  have hb : 0 < beta K m m := beta_pos K hm0 hm0
  have hG := K.G_pos
  have hyr : 0 < psd.yr := by unfold psd.yr; norm_num
  have hAU : 0 < AU := by unfold AU; norm_num
  obtain ⟨a, ha1, haA, haβ, haG⟩ : ∃ a : ℝ, 1 ≤ a ∧ 1e-30 * AU < a ∧ 40 * beta K m m * psd.yr ≤ a ∧ K.G * (m + m) ≤ a := by
    have h1 : 0 < 40 * beta K m m * psd.yr := by positivity
    have h2 : 0 < K.G * (m + m) := by positivity
    exact ⟨1 + AU + 40 * beta K m m * psd.yr + K.G * (m + m), by linarith, by linarith, by linarith, by linarith⟩
  have ha0 : 0 < a := by linarith
  have hf1 : get_f_orb_from_a K a m m < 100 := by
    unfold get_f_orb_from_a
    have h3 : K.G * (m + m) / a ^ 3 ≤ 1 := by
      rw [div_le_one (by positivity)]
      calc K.G * (m + m) ≤ a := haG
        _ = a * 1 := by ring
        _ ≤ a * a ^ 2 := by gcongr; exact one_le_pow₀ ha1
        _ = a ^ 3 := by ring
    have h4 : (K.G * (m + m) / a ^ 3) ^ (0.5 : ℝ) ≤ 1 := rpow_le_one (by positivity) h3 (by norm_num)
    have := pi_gt_three
    rw [div_lt_iff₀ (by positivity)]
    linarith
  have hf0 : 0 < get_f_orb_from_a K a m m := get_f_orb_from_a_pos K ha0 hm0 hm0
  have hback : get_a_from_f_orb K (get_f_orb_from_a K a m m) m m = a := C01_a_roundtrip K ha0 hm0 hm0
  have hc := c_0_pos (a := a) (e := 0.1) (by norm_num) (by norm_num) ha0
  have hwide := wide_time hb ha1 haβ
  have hac : get_a_from_ecc 0.1 (c_0 a 0.1) = a := C02_a_roundtrip (by norm_num) (by norm_num)
  obtain ⟨e, Te, hTe, he0, hsol⟩ := C15_solutions_exist hb hc (e₀ := 0.1) (by norm_num) (by norm_num)
  set c := c_0 a 0.1 with hcdef
  have hec : ContinuousAt e 0 := ((hsol 0 hTe).deriv ⟨le_rfl, le_rfl⟩).continuousAt
  have had := C15_separation_rate hb hc (hsol 0 hTe) (t := 0) ⟨le_rfl, le_rfl⟩
  have hap : 0 < get_a_from_ecc (e 0) c := by rw [he0, hac]; exact ha0
  have hfd := hasDerivAt_f K (a := fun s => get_a_from_ecc (e s) c) hap hm0 hm0 had
  have ev1 : ∀ᶠ t in 𝓝 (0 : ℝ), get_f_orb_from_a K (get_a_from_ecc (e t) c) m m < 100 :=
    hfd.continuousAt.eventually (gt_mem_nhds (by simp only; rw [he0, hac]; exact hf1))
  have ev2 : ∀ᶠ t in 𝓝 (0 : ℝ), 1e-30 * AU < get_a_from_ecc (e t) c :=
    had.continuousAt.eventually (lt_mem_nhds (by simp only; rw [he0, hac]; exact haA))
  have ev3 : ∀ᶠ t in 𝓝 (0 : ℝ), e t < 0.15 := hec.eventually (gt_mem_nhds (by rw [he0]; norm_num))
  have hts : ContinuousAt (fun t => t_small c (beta K m m) (e t)) 0 := by
    unfold t_small
    exact (hec.rpow_const (Or.inr (by norm_num))).const_mul _
  have ev4 : ∀ᶠ t in 𝓝 (0 : ℝ), psd.yr < t_small c (beta K m m) (e t) :=
    hts.eventually (lt_mem_nhds (by simp only; rw [he0]; exact hwide))
  obtain ⟨δ, hδ, hball⟩ := Metric.eventually_nhds_iff.1 ((ev1.and ev2).and (ev3.and ev4))
  obtain ⟨τ, h0, h1, h2, h3⟩ : ∃ τ : ℝ, 0 < τ ∧ τ < 0.1 * psd.yr ∧ τ < Te ∧ τ < δ := by
    obtain ⟨τ, h0, h⟩ := exists_between (lt_min (show 0 < 0.1 * psd.yr by positivity) (lt_min hTe hδ))
    exact ⟨τ, h0, (lt_min_iff.1 h).1, (lt_min_iff.1 (lt_min_iff.1 h).2).1, (lt_min_iff.1 (lt_min_iff.1 h).2).2⟩
  have hin : ∀ t ∈ Icc 0 τ, (get_f_orb_from_a K (get_a_from_ecc (e t) c) m m < 100 ∧ 1e-30 * AU < get_a_from_ecc (e t) c) ∧
      (e t < 0.15 ∧ psd.yr < t_small c (beta K m m) (e t)) := fun t ht => hball (by
    rw [dist_zero_right, norm_eq_abs, abs_of_nonneg ht.1]
    exact ht.2.trans_lt h3)
  have hend := hin τ ⟨h0.le, le_rfl⟩
  refine ⟨⟨m, m, get_f_orb_from_a K a m m, 0.1, 1e20⟩, τ, e, fun t => get_f_orb_from_a K (get_a_from_ecc (e t) c) m m,
    ⟨hm0, hm0, hf0, by norm_num⟩, h0, h1, ⟨he0, ?_, ?_, ?_, hend.1.1⟩, ?_⟩
  · simp only [hback]
    exact hsol τ h2
  · simp only [hback]
    exact fun _ => rfl
  · simp only [hback]
    exact hend.1.2
  · intro t ht
    obtain ⟨-, hsm, hT⟩ := hin t ht
    obtain ⟨b0, b1⟩ := (hsol τ h2).bound t ht
    refine ⟨_, get_t_merge_ecc_each _ _ _ _ _ _, ?_⟩
    simp only [tEcc]
    rw [if_neg b0.not_gt, C01_a_roundtrip K (get_a_from_ecc_pos b0 b1 hc) hm0 hm0]
    unfold t_val
    rw [if_neg b0.ne', if_pos hsm, C02_c_roundtrip b0 b1]
    exact hT

private noncomputable def orbitCtx (t : ℝ) : Ctx :=
  { K := Example.world.K, env := Example.world.env, kw := { approximate_R := true, confusion_noise := .none }, t_obs := t }

private lemma orbit_noise : ∃ N, (∀ t, Curve (orbitCtx t) N) ∧ Tame N := by
  obtain ⟨N, hN, hreg⟩ := C85_builtin_noise (orbitCtx 0) rfl (fun L h => by cases h)
    (Or.inl ⟨rfl, by simp [orbitCtx, psd.NoiseArg.resolve, Recognised], fun _ _ => Or.inl rfl⟩)
  exact ⟨N, fun t => ⟨fun f => hN.ok f, hN.pos⟩, hreg⟩

/-- Non-vacuity of `C101_eccentric`: LISA, for some time and for twice that time. -/
example : ∃ (s : EvolSrc) (τ : ℝ) (v v' : ℕ → ℝ), 0 < τ ∧ s.ecc ≠ 0 ∧
    (∀ n ≥ 1, snr_ecc_evolving (orbitCtx (τ / 2)) exactOdeint [s] 10 n none 1 [] false false = .ok (.total [some (v n)]) ∧
      snr_ecc_evolving (orbitCtx τ) exactOdeint [s] 10 n none 1 [] false false = .ok (.total [some (v' n)])) ∧
    ∃ x x' : ℝ, Tendsto v atTop (𝓝 x) ∧ Tendsto v' atTop (𝓝 x') ∧ 0 ≤ x ∧ x ≤ x' := by
  obtain ⟨N, hN, hreg⟩ := orbit_noise
  obtain ⟨s, τ, e, f, hs, h0, h1, ho, hT⟩ := exists_orbit Example.world.K
  obtain ⟨T, hT, hlt⟩ := hT 0 ⟨le_rfl, h0.le⟩
  rw [ho.start, orbit_start hs ho h0.le] at hT
  obtain ⟨v, v', hv⟩ := C101_eccentric (C := orbitCtx (τ / 2)) (C' := orbitCtx τ) (H := 10) (nproc := 1) (order := []) rfl rfl (hN _) (hN _)
    hreg hreg (fun _ _ => le_rfl) (fun g h => by cases h) exactOdeint_solves (by show 0 ≤ τ / 2; linarith)
    (by show τ / 2 ≤ τ; linarith) hs ho hT (by show τ + 0.1 * psd.yr < T; linarith) (fun h => absurd h (by norm_num))
  refine ⟨s, τ, v, v', h0, ?_, hv⟩
  rw [← ho.start]
  exact (ho.solves.bound 0 ⟨le_rfl, h0.le⟩).1.ne'

/-- Non-vacuity of `C101_eccentric_split`: LISA, an observation cut in the middle. -/
example : ∃ (s s₂ : EvolSrc) (τ : ℝ) (v₁ v₂ v : ℕ → ℝ), 0 < τ ∧ s.ecc ≠ 0 ∧
    (∀ n ≥ 1, snr_ecc_evolving (orbitCtx (τ / 2)) exactOdeint [s] 10 n none 1 [] false false = .ok (.total [some (v₁ n)]) ∧
      snr_ecc_evolving (orbitCtx (τ / 2)) exactOdeint [s₂] 10 n none 1 [] false false = .ok (.total [some (v₂ n)]) ∧
      snr_ecc_evolving (orbitCtx τ) exactOdeint [s] 10 n none 1 [] false false = .ok (.total [some (v n)])) ∧
    ∃ x₁ x₂ x : ℝ, Tendsto v₁ atTop (𝓝 x₁) ∧ Tendsto v₂ atTop (𝓝 x₂) ∧ Tendsto v atTop (𝓝 x) ∧
        x ^ 2 = x₁ ^ 2 + x₂ ^ 2 := by
  obtain ⟨N, hN, hreg⟩ := orbit_noise
  obtain ⟨s, τ, e, f, hs, h0, h1, ho, hT⟩ := exists_orbit Example.world.K
  obtain ⟨T₂, hT₂, hlt₂⟩ := hT (τ / 2) ⟨by linarith, by linarith⟩
  obtain ⟨T, hT, hlt⟩ := hT 0 ⟨le_rfl, h0.le⟩
  rw [ho.start, orbit_start hs ho h0.le] at hT
  obtain ⟨v₁, v₂, v, hv⟩ := C101_eccentric_split (C₁ := orbitCtx (τ / 2)) (C₂ := orbitCtx (τ / 2)) (C := orbitCtx τ)
    (H := 10) (nproc := 1) (order := []) rfl rfl rfl rfl (hN _) (hN _) (hN _) hreg (fun g h => by cases h) exactOdeint_solves (by show 0 ≤ τ / 2; linarith)
    (by show 0 ≤ τ / 2; linarith) (by show τ = τ / 2 + τ / 2; ring) hs ho rfl hT (by show τ + 0.1 * psd.yr < T; linarith) hT₂
    (by show τ / 2 + 0.1 * psd.yr < T₂; linarith) (fun h => absurd h (by norm_num))
  refine ⟨s, _, τ, v₁, v₂, v, h0, ?_, hv⟩
  rw [← ho.start]
  exact (ho.solves.bound 0 ⟨le_rfl, h0.le⟩).1.ne'

/-- Non-vacuity of `C103_eccentric` at redshift 1, for LISA. -/
example : ∃ (C C' : Ctx) (s : EvolSrc), Redshifted 2 C C' ∧ s.ecc ≠ 0 ∧ ∀ rm rb,
    snr_ecc_evolving C' exactOdeint [redEvol 2 s] 10 50 none 1 [] rm rb =
      snr_ecc_evolving C exactOdeint [s] 10 50 none 1 [] rm rb := by
  obtain ⟨N, hN, hreg⟩ := orbit_noise
  obtain ⟨s, τ, e, f, hs, h0, h1, ho, hT⟩ := exists_orbit Example.world.K
  obtain ⟨T, hT, hlt⟩ := hT 0 ⟨le_rfl, h0.le⟩
  rw [ho.start, orbit_start hs ho h0.le] at hT
  obtain ⟨C', hC'⟩ := C103_exists (C := orbitCtx τ) two_pos fun f => ⟨_, (hN τ).ok f⟩
  refine ⟨orbitCtx τ, C', s, hC', ?_, fun rm rb => C103_eccentric two_pos hC' exactOdeint_solves h0.le (srcs := [s]) (by norm_num)
    (fun h => absurd h (by norm_num)) ?_ rm rb⟩
  · rw [← ho.start]
    exact (ho.solves.bound 0 ⟨le_rfl, h0.le⟩).1.ne'
  · intro s' hs'
    obtain rfl := List.mem_singleton.1 hs'
    have hAU : 0 < AU := by unfold AU; norm_num
    have hyr : 0 < psd.yr := by unfold psd.yr; norm_num
    have := ho.apart
    have := ho.low
    refine ⟨hs, e, f, T, ho, ?_, ?_, hT, ?_, ?_⟩
    · show 1e-30 * AU < 2 * get_a_from_ecc (e τ) (c_0 (get_a_from_f_orb Example.world.K s'.f_orb_i s'.m_1 s'.m_2) s'.ecc)
      linarith
    · show f τ < 2 * 100
      linarith
    · show τ + 0.1 * psd.yr < T
      linarith
    · show 2 * τ + 0.1 * psd.yr < 2 * T
      linarith

end Legwork.Props
