import Verif.Props.NearlyCircular
import Verif.Props.Transition

/-!
# What the tolerance of the luminosity means for SNRs: C116
-/

namespace Legwork.Props

open Real Legwork.source Legwork.Spec Legwork.snr Legwork.strain Legwork.utils Legwork.evol
open Filter (Tendsto atTop)
open PyM hiding bind

/-- A tolerance that has a transition is not close to 1. -/
private lemma tol_small {tol e : ℝ} (htol : 0 ≤ tol) (h : find_eccentric_transition tol = .ok e) : tol + 0.0002 < 1 := by
  have h1 := (C115_found htol).1 ⟨e, h⟩
  have h2 := peters_g_two_slope (x := 0.2) (y := 0) le_rfl (by norm_num) le_rfl
  have h3 := peters_f_slope (x := 0.2) (y := 0) le_rfl (by norm_num) le_rfl
  rw [C05_circular (by norm_num), if_pos rfl] at h2
  rw [C04_zero] at h3
  by_contra hlt
  norm_num at h1 h2 h3 hlt
  have h4 : (1 - tol) * peters_f (1 / 5) ≤ 1 / 5000 * (9 / 5) :=
    mul_le_mul (by linarith) (by linarith) (zero_le_one.trans (C04_one_le (by norm_num) (by norm_num))) (by norm_num)
  linarith

private lemma transition_le {tol e : ℝ} (h : find_eccentric_transition tol = .ok e) : e ≤ 0.2 := by
  obtain ⟨k, hk, rfl⟩ := List.mem_map.1 (C33_first h).1
  rw [List.mem_range] at hk
  have hk' : (k : ℝ) ≤ 9999 := by exact_mod_cast (by omega : k ≤ 9999)
  norm_num
  linarith

private lemma g_two_le_one {e : ℝ} (h0 : 0 ≤ e) (h1 : e ≤ 0.2) : peters_g 2 e ≤ 1 := by
  rcases h0.eq_or_lt with rfl | h
  · rw [C05_circular (by norm_num), if_pos rfl]
  · exact (peters_g_two_lt_one h h1).le

/-- The factors of C114 in terms of the tolerance. -/
private lemma tol_factor {g₁ g₂ F τ ν S₂ : ℝ} (hτ0 : 0 ≤ τ) (hτ : τ < 1) (hν : 0 < ν) (hS : 0 < S₂) (hg : (1 - τ) * F ≤ g₂)
    (hg1 : g₂ ≤ 1) (hF : 1 ≤ F) : 1 - τ ≤ g₂ ∧
    g₂ + 4 * S₂ * (g₁ / (4 * S₂ / ν) + (F - g₁ - g₂) / (4 * S₂ / ν)) ≤ 1 + ν * τ / (1 - τ) := by
  have h1 : 0 < 1 - τ := by linarith
  have e1 : 4 * S₂ * (g₁ / (4 * S₂ / ν) + (F - g₁ - g₂) / (4 * S₂ / ν)) = ν * (F - g₂) := by
    field_simp
    ring
  have hF1 : F ≤ 1 / (1 - τ) := by
    rw [le_div_iff₀ h1]
    linarith
  have h2 : F - g₂ ≤ τ * F := by linarith
  have h3 : τ * F ≤ τ * (1 / (1 - τ)) := mul_le_mul_of_nonneg_left hF1 hτ0
  have h4 : ν * (F - g₂) ≤ ν * (τ * (1 / (1 - τ))) := mul_le_mul_of_nonneg_left (h2.trans h3) hν.le
  have h5 : ν * (τ * (1 / (1 - τ))) = ν * τ / (1 - τ) := by ring
  refine ⟨?_, ?_⟩
  · have : (1 - τ) * 1 ≤ (1 - τ) * F := mul_le_mul_of_nonneg_left hF h1.le
    linarith
  · rw [e1]
    linarith

/-- **C116** (one harmonic instead of all). Take a binary whose eccentricity is at most the transition for the tolerance `tol`.
Let `c` be its SNR when treated as circular and `ρ` that of all its harmonics, computed without interpolated powers. If
`n² S(n f_orb)` is nowhere below `4 S(2 f_orb)/ν` then, with `τ = tol + 0.0002`, the ratio of the squares is at least `1 - τ` and
at most `1 + ν τ/(1 - τ)`. -/
theorem C116_circular (C : Ctx) (ht : 0 ≤ C.t_obs) (hig : C.interpolated_g = none) {tol etol : ℝ} (htol : 0 ≤ tol)
    (hfind : find_eccentric_transition tol = .ok etol) {s : EccSrc} (h0 : 0 ≤ s.ecc) (he : s.ecc ≤ etol)
    {N : ℕ → WithTop ℝ} (hN : ∀ n : ℕ, 1 ≤ n → noise C (n * s.f_orb) = .ok (N n)) (hp : ∀ n, 1 ≤ n → 0 < N n)
    {ν S₂ : ℝ} (hν : 0 < ν) (h2 : N 2 = S₂) (hother : ∀ (n : ℕ) (S : ℝ), 1 ≤ n → N n = S → 4 * S₂ ≤ ν * ((n : ℝ) ^ 2 * S)) :
    ∃ (v : ℕ → ℝ) (ρ c : ℝ), (∀ H, snr_ecc_stationary C [s] H false false = .ok (.total [some (v H)])) ∧
      Tendsto v atTop (nhds ρ) ∧ 0 ≤ ρ ∧ snr_circ_stationary C [⟨s.m_c, s.f_orb, s.dist, {}⟩] = .ok [some c] ∧ 0 ≤ c ∧
      (1 - (tol + 0.0002)) * c ^ 2 ≤ ρ ^ 2 ∧
      ρ ^ 2 ≤ (1 + ν * (tol + 0.0002) / (1 - (tol + 0.0002))) * c ^ 2 := by
  have he2 := he.trans (transition_le hfind)
  have h1 : s.ecc < 1 := he2.trans_lt (by norm_num)
  have hS : 0 < S₂ := by
    have := hp 2 (by norm_num)
    rw [h2] at this
    exact WithTop.coe_pos.1 this
  obtain ⟨v, ρ, c, r1, r2, r3, r4, r5, r6, r7⟩ := C114_circular C ht hig h0 h1 hN hp (B₁ := 4 * S₂ / ν) (B := 4 * S₂ / ν)
    (by positivity) (by positivity) h2
    (fun S hS' => by
      rw [div_le_iff₀ hν]
      have := hother 1 S le_rfl hS'
      norm_num at this
      linarith)
    (fun n S hn hS' => by
      rw [div_le_iff₀ hν]
      linarith [hother n S (by omega) hS'])
  obtain ⟨f1, f2⟩ := tol_factor (g₁ := peters_g 1 s.ecc) (by positivity) (tol_small htol hfind) hν hS
    (C115_neglected htol hfind h0 he).1 (g_two_le_one h0 he2) (C04_one_le h0 h1)
  exact ⟨v, ρ, c, r1, r2, r3, r4, r5, (mul_le_mul_of_nonneg_right f1 (sq_nonneg c)).trans r6,
    r7.trans (mul_le_mul_of_nonneg_right f2 (sq_nonneg c))⟩

/-- **C116.** Let `get_snr` return, however the program got there, with a noise of slope at most `k` in the band of the grid
and, if the powers of the harmonics are interpolated, with a power of the circular binary within a factor `γ` of 1. Take a
stationary binary without position that is treated as circular, with `n² S(n f_orb)` nowhere below `4 S(2 f_orb)/ν`. Compared
with the SNR of all its harmonics, computed without interpolation, and with `τ = gw_lum_tol + 0.0002`, the SNR returned is too
large by at most a factor `1.0017^(k/2) (γ/(1 - τ))^(1/2)` and too small by at most `1.0017^(k/2) γ^(1/2) (1 + ν τ/(1 - τ))^(1/2)`. -/
theorem C116_get_snr {W : World} {h h' : Heap} {s n r p : ℕ} {a : SnrArgs} {ws : Option (List Bool)}
    (hr : Reachable W AnyCall h) (hcls : (h.src s).cls = .Source ∨ (h.src s).cls = .VerificationBinaries) (hn : n ≠ 0)
    (hsch : CompleteSchedule W (h.src s)) (hrect : Rect (h.src s).cols) (hw : FitsMask (h.src s).cols ws)
    (hrun : get_snr W s a n ws h = (.ok r, h')) (hp : (h'.src s).sc_params = some p) {t_obs : ℝ}
    (ht : (h'.par p).dict.get? "t_obs" = some (.time t_obs)) (ht1 : 1 ≤ t_obs) {k : ℝ} (hk : 0 ≤ k) {S : ℝ → ℝ}
    (hS : SlopeAtMost k S 1e-7 2) (hN : ∀ f, 1e-7 ≤ f → f ≤ 2 → psd_of_dict W (h'.par p).dict f = .ok (S f : ℝ)) {i : ℕ}
    {x : One} (hi : (rows (h.src s).cols)[i]? = some x) (hm : x.merged = false) (hch : Chosen ws i)
    (hst : x.StationaryOver W.K t_obs (h'.src s).stat_tol) {tol etol : ℝ} (htol : (h'.src s).gw_lum_tol = some tol)
    (htol0 : 0 ≤ tol) (htol1 : peters_g 2 0.2 < (1 - tol) * peters_f 0.2) (het : (h'.src s).ecc_tol = some etol)
    (h0 : 0 ≤ x.ecc) (he : x.ecc ≤ etol) (hpos : x.position = none) (hlow : 1e-7 ≤ 2 * x.f_orb) (hhigh : 2 * x.f_orb ≤ 2)
    {γ : ℝ} (hγ : 1 ≤ γ) (hg : ∀ g, (h'.src s).g = some g → WithinFactor γ (g 2 0) 1) {N : ℕ → WithTop ℝ}
    (hNn : ∀ n : ℕ, 1 ≤ n → psd_of_dict W (h'.par p).dict (n * x.f_orb) = .ok (N n)) (hNp : ∀ n, 1 ≤ n → 0 < N n)
    {ν S₂ : ℝ} (hν : 0 < ν) (h2 : N 2 = S₂) (hother : ∀ (n : ℕ) (S : ℝ), 1 ≤ n → N n = S → 4 * S₂ ≤ ν * ((n : ℝ) ^ 2 * S)) :
    ∃ (C : Ctx) (v ρ : ℝ), CallCtx W h' s C ∧ C.t_obs = t_obs ∧ (h'.snrs r)[i]? = some (some v) ∧ AllHarmonicsSnr C x ρ ∧
      √(1 - (tol + 0.0002)) * v ≤ 1.0017 ^ (k / 2) * √γ * ρ ∧
      ρ ≤ 1.0017 ^ (k / 2) * √γ * √(1 + ν * (tol + 0.0002) / (1 - (tol + 0.0002))) * v := by
  obtain ⟨e, hfind⟩ := (C115_found htol0).2 htol1
  obtain ⟨f1, f2, f3⟩ := C33_first hfind
  have heq : e = etol := by
    have := (C43_tolerances (snr_reachable hr trivial hrun) htol).2.2 e f1 f2 f3
    rw [het] at this
    exact (Option.some.inj this).symm
  subst heq
  have he2 := he.trans (transition_le hfind)
  have h1 : x.ecc < 1 := he2.trans_lt (by norm_num)
  have hS2 : 0 < S₂ := by
    have := hNp 2 (by norm_num)
    rw [h2] at this
    exact WithTop.coe_pos.1 this
  obtain ⟨C, v, ρ, c1, c2, c3, c4, c5, c6⟩ := C114_get_snr hr hcls hn hsch hrect hw hrun hp ht ht1 hk hS hN hi hm hch hst het h0 he h1
    hpos hlow hhigh hγ hg hNn hNp (B₁ := 4 * S₂ / ν) (B := 4 * S₂ / ν) (by positivity) (by positivity) h2
    (fun S hS' => by
      rw [div_le_iff₀ hν]
      have := hother 1 S le_rfl hS'
      norm_num at this
      linarith)
    (fun n S hn hS' => by
      rw [div_le_iff₀ hν]
      linarith [hother n S (by omega) hS'])
  obtain ⟨-, v', c, -, -, hv', -, hc0, -, hw2⟩ := C114_interpolated hr hcls hn hsch hrect hw hrun hp ht ht1 hk hS hN hi hm hch hst het he
    hpos hlow hhigh hγ hg
  have hvv : v' = v := by
    rw [c3] at hv'
    simpa using hv'.symm
  subst hvv
  have hA : (0 : ℝ) < 1.0017 ^ (k / 2) * √γ := mul_pos (rpow_pos_of_pos (by norm_num) _) (sqrt_pos.2 (by linarith))
  have hv0 : 0 ≤ v' := by
    by_contra hlt
    push Not at hlt
    have := mul_neg_of_pos_of_neg hA hlt
    linarith
  obtain ⟨q1, q2⟩ := tol_factor (g₁ := peters_g 1 x.ecc) (by positivity) (tol_small htol0 hfind) hν hS2
    (C115_neglected htol0 hfind h0 he).1 (g_two_le_one h0 he2) (C04_one_le h0 h1)
  refine ⟨C, v', ρ, c1, c2, c3, c4, (mul_le_mul_of_nonneg_right (sqrt_le_sqrt q1) hv0).trans c5, c6.trans ?_⟩
  exact mul_le_mul_of_nonneg_right (mul_le_mul_of_nonneg_left (sqrt_le_sqrt q2) hA.le) hv0

/-! ### Examples -/

section Objects

/-- An object with one binary of low mass at 10 mHz and eccentricity 0.06, in white noise. -/
private noncomputable def tolrArgs : InitArgs where
  m_1 := .array [2e29] true
  m_2 := .array [1e29] true
  ecc := .array [0.06] false
  dist := .array [1e20] true
  f_orb := some (.array [1e-2] true)
  sc_params := some (Example.custom 0)

private noncomputable def tolrCols : Cols where
  m_1 := [2e29]
  m_2 := [1e29]
  dist := [1e20]
  f_orb := [1e-2]
  ecc := [0.06]
  merged := [false]

private lemma tolr_cols : init_cols Example.world tolrArgs = .ok tolrCols := by
  unfold init_cols init_orientation init_f_orb tolrArgs
  simp [bind, Except.bind, pure, Except.pure, Raw.hasUnits, Raw.toList, tolrCols, List.replicate]

private lemma tolr_transition : ∃ e, find_eccentric_transition 0.05 = .ok e ∧ 0.06 ≤ e := by
  obtain ⟨e, he⟩ := find_eccentric_transition_default
  refine ⟨e, he, ?_⟩
  by_contra hlt
  push Not at hlt
  have := (peters_g_two_ge (C33_pos (by norm_num) he).le hlt.le).1
  have := (C33_first he).2.1
  linarith

private lemma tolr_stationary : (rowAt tolrCols 0).StationaryOver Example.world.K 1e8 1e-2 := by
  rw [stationaryOver_iff]
  change evol.change_le (evol.evolve_f_orb_circ Consts.codata2018 1e-2 (utils.chirp_mass 2e29 1e29) 1e8 0.06 1e9) 1e-2 1e-2
  rw [stationarity_iff _ (by norm_num) (by norm_num) (by norm_num) (by norm_num) (by norm_num)]
  have ha := get_a_from_f_orb_pos Consts.codata2018 (f := 1e-2) (m₁ := 2e29) (m₂ := 1e29) (by norm_num) (by norm_num) (by norm_num)
  have hc := a_cube (f := 1e-2) (m₁ := 2e29) (m₂ := 1e29) (by norm_num) (by norm_num) (by norm_num)
  set a := utils.get_a_from_f_orb Consts.codata2018 1e-2 2e29 1e29
  have h3 : (1e21 : ℝ) ≤ a ^ 3 := by
    rw [hc, le_div_iff₀ (by positivity)]
    have := Real.pi_le_four
    have := Real.pi_pos
    nlinarith
  have h1 : (1e7 : ℝ) ≤ a := by
    by_contra hlt
    push Not at hlt
    have : a ^ 3 < 1e7 ^ 3 := by gcongr
    norm_num at this h3
    linarith
  have h4 : (1e28 : ℝ) ≤ a ^ 4 := by
    have : (1e7 : ℝ) ^ 4 ≤ a ^ 4 := by gcongr
    norm_num at this ⊢
    exact this
  have hb : utils.beta Consts.codata2018 2e29 1e29 ≤ 1e16 := by
    unfold utils.beta Consts.codata2018
    norm_num
  have hb0 := Legwork.evol.beta_pos Consts.codata2018 (m₁ := 2e29) (m₂ := 1e29) (by norm_num) (by norm_num)
  have hp : ((1 : ℝ) + 1e-2) ^ (-8 / 3 : ℝ) ≤ 1 / 1.01 := by
    have : ((1 : ℝ) + 1e-2) ^ (-8 / 3 : ℝ) ≤ ((1 : ℝ) + 1e-2) ^ (-1 : ℝ) :=
      Real.rpow_le_rpow_of_exponent_le (by norm_num) (by norm_num)
    rw [Real.rpow_neg_one] at this
    norm_num at this ⊢
    exact this
  have hq : (9e-3 : ℝ) ≤ 1 - ((1 : ℝ) + 1e-2) ^ (-8 / 3 : ℝ) := by
    norm_num at hp ⊢
    linarith
  have hF := peters_f_le_ten (e := 0.06) (by norm_num) (by norm_num)
  have hd : (2e11 : ℝ) ≤ a ^ 4 / (4 * utils.beta Consts.codata2018 2e29 1e29) := by
    rw [le_div_iff₀ (by positivity)]
    norm_num at hb h4 ⊢
    linarith
  calc (1e8 : ℝ) * peters_f 0.06 ≤ 2e11 * 9e-3 := by norm_num at hF ⊢; linarith
    _ ≤ _ := mul_le_mul hd hq (by norm_num) (by positivity)

/-- Non-vacuity of `C116_get_snr`, and with it of `C116_circular`: the object above. In white noise `ν = 4` is right, and the
tolerance is the default one, 0.05. -/
example : ∃ (h h' : Heap) (r : ℕ) (C : Ctx) (v ρ : ℝ), Reachable Example.world AnyCall h ∧
    get_snr Example.world 0 {} 100 none h = (.ok r, h') ∧ (h'.snrs r)[0]? = some (some v) ∧ CallCtx Example.world h' 0 C ∧
    C.t_obs = 1e8 ∧ AllHarmonicsSnr C (rowAt tolrCols 0) ρ ∧
    √(1 - (0.05 + 0.0002)) * v ≤ 1.0017 ^ ((0 : ℝ) / 2) * √1 * ρ ∧
    ρ ≤ 1.0017 ^ ((0 : ℝ) / 2) * √1 * √(1 + 4 * (0.05 + 0.0002) / (1 - (0.05 + 0.0002))) * v := by
  obtain ⟨e₀, he₀, hle⟩ := tolr_transition
  have hc : curve Example.world (Example.params 0) = .ok (Example.sc 0) := Example.curve_params 0
  have e2 : find_eccentric_transition tolrArgs.gw_lum_tol = .ok e₀ := he₀
  have e3 : filled_params tolrArgs.sc_params = .ok (Example.params 0) := rfl
  obtain ⟨k, hk, hinit⟩ : ∃ k, k = heapAfterInit Example.world .Source tolrArgs tolrCols e₀ (Example.params 0) (some (Example.sc 0)) Example.start ∧
      init Example.world .Source tolrArgs Example.start = (.ok 0, k) := by
    refine ⟨_, rfl, ?_⟩
    rcases init_run Example.world .Source tolrArgs Example.start with ⟨_, _, _, _, h1, h2, h3, h4, h5⟩ | ⟨-, h⟩
    · rw [tolr_cols] at h1
      rw [e2] at h2
      rw [e3] at h3
      cases h1
      cases h2
      cases h3
      rcases h4 with ⟨-, c', hc', rfl⟩ | ⟨h4, -⟩
      · rw [hc] at hc'
        cases hc'
        exact h5
      · cases h4
    · exfalso
      rcases h with ⟨e, he⟩ | ⟨e, he⟩ | ⟨e, he⟩ | ⟨-, d, e, hd, he⟩
      · rw [tolr_cols] at he
        cases he
      · rw [e2] at he
        cases he
      · rw [e3] at he
        cases he
      · rw [e3] at hd
        cases hd
        rw [hc] at he
        cases he
  have hsrc : k.src 0 = newObject Example.world .Source tolrArgs tolrCols e₀ (some (Example.sc 0)) 1 := by
    rw [hk]
    change Function.update Example.start.src 0 _ 0 = _
    rw [Function.update_self]
    rfl
  have hpar : k.par 1 = ⟨Example.params 0, some 0⟩ := by
    rw [hk]
    change Function.update Example.start.par 1 _ 1 = _
    rw [Function.update_self]
    rfl
  have hreach : Reachable Example.world AnyCall k := by
    have h1 := Reachable.call (.init .Source tolrArgs) (Reachable.start (W := Example.world) (ok := AnyCall) (h := Example.start)
      fun _ => rfl) trivial
    have h2 : (Op.run Example.world (.init .Source tolrArgs) Example.start).2 = k := by
      change ((init Example.world .Source tolrArgs >>= fun _ => pure ()) Example.start).2 = k
      rw [PyM.bind_run, hinit]
      rfl
    rwa [h2] at h1
  have hcls : (k.src 0).cls = .Source := by rw [hsrc]; rfl
  have hcols : (k.src 0).cols = tolrCols := by rw [hsrc]; rfl
  have hp : (k.src 0).sc_params = some 1 := by rw [hsrc]; rfl
  have hrect : Rect (k.src 0).cols := by
    rw [hcols]
    refine ⟨rfl, rfl, rfl, rfl, rfl, ?_, ?_, ?_, ?_, ?_, ?_⟩ <;> simp [tolrCols]
  have hsch : CompleteSchedule Example.world (k.src 0) := by
    rw [hsrc]
    intro hn
    simp [newObject, tolrArgs] at hn
  have hno : FitsMask (k.src 0).cols none := fun m hm => by cases hm
  have hready : Ready Example.world k 0 := by
    refine ⟨hrect, by rw [hsrc]; exact ⟨rfl, rfl, rfl⟩, ⟨1, 1e8, Example.sc 0, hp, by rw [hpar]; exact (filled_params_ok e3).1, by rw [hpar]; rfl,
      by rw [hpar]; exact curve_ok_iff.1 hc, by rw [hsrc]; rfl⟩, ?_, ?_⟩
    · unfold storedSnr; rw [hsrc]; simp [newObject]
    · unfold storedHarm; rw [hsrc]; simp [newObject]
  obtain ⟨r, h', hrun⟩ := C36_succeeds (n := 100) (ws := none) (by norm_num) hsch hno hready
  have hi : (rows (k.src 0).cols)[0]? = some (rowAt tolrCols 0) := by rw [hcols]; rfl
  have hch : Chosen none 0 := fun m hm => by cases hm
  obtain ⟨p', hp', hp'', hst⟩ := C36_settings (Or.inl hcls) (by norm_num) hsch hrect hno hrun
  rw [hp] at hp'
  cases hp'
  obtain ⟨⟨v1, a1, b1⟩, ⟨v2, a2, b2⟩, ⟨v3, a3, b3⟩, ⟨v4, a4, b4⟩, ⟨v5, a5, b5⟩, ⟨v6, a6, b6⟩⟩ := hst
  have hgiven : ∀ {key : String} {v w : PVal}, Given (k.par 1).dict key .none v → (k.par 1).dict.get? key = some w → v = w := by
    intro key v w hg hw
    rcases hg with ⟨hg, -⟩ | ⟨-, hg⟩
    · exact absurd rfl hg
    · rw [hg] at hw
      exact Option.some.inj hw
  rw [hgiven a1 (w := .str "custom") (by rw [hpar]; rfl)] at b1
  rw [hgiven a2 (w := .psdFn 0) (by rw [hpar]; rfl)] at b2
  rw [hgiven a3 (w := .str "auto") (by rw [hpar]; rfl)] at b3
  rw [hgiven a4 (w := .bool false) (by rw [hpar]; rfl)] at b4
  rw [hgiven a5 (w := .str "auto") (by rw [hpar]; rfl)] at b5
  have hv6 := hgiven a6 (w := .time 1e8) (by rw [hpar]; rfl)
  have b6' : (h'.par 1).dict.get? "t_obs" = some (.time 1e8) := by
    rcases b6 with b6 | ⟨b6, -⟩
    · rw [b6, hv6]
    · rw [hv6] at b6
      cases b6
  obtain ⟨_, _, _, hsrc'⟩ := (get_snr_snrCall Example.world 0 {} 100 none k).src 0
  rw [hrun] at hsrc'
  simp only at hsrc'
  have heq : (h'.par 1).dict.eq (Example.params 0) := sixKeys_eq (six_keys (snr_reachable hreach trivial hrun) hp'')
    (filled_params_ok (Example.filled_custom 0)).1 (f := ⟨.time 1e8, .str "custom", .psdFn 0, .str "auto", .bool false, .str "auto"⟩)
    (agrees_iff.2 ⟨b6', b1, b2, b3, b4, b5⟩) (agrees_iff.2 ⟨rfl, rfl, rfl, rfl, rfl, rfl⟩)
  have hN : ∀ f, psd_of_dict Example.world (h'.par 1).dict f = .ok ((1e-40 : ℝ) : WithTop ℝ) := by
    intro f
    rw [psd_of_dict_congr _ heq, Example.psd_params]
    norm_num
  obtain ⟨C, v, ρ, g1, g2, g3, g4, g5, g6⟩ := C116_get_snr hreach (Or.inl hcls) (by norm_num) hsch hrect hno hrun
    hp'' b6' (by norm_num) (k := 0) le_rfl (S := fun _ => 1e-40) ⟨fun f _ _ => by norm_num, fun f f' _ _ _ => by simp⟩
    (fun f _ _ => hN f) hi rfl hch
    (by
      have : (h'.src 0).stat_tol = 1e-2 := by rw [hsrc', hsrc]; rfl
      rw [this]
      exact tolr_stationary)
    (tol := 0.05) (etol := e₀) (by rw [hsrc', hsrc]; rfl) (by norm_num) peters_g_two_lt (by rw [hsrc', hsrc]; rfl)
    (by show (0 : ℝ) ≤ 0.06; norm_num) hle rfl
    (by show (1e-7 : ℝ) ≤ 2 * 1e-2; norm_num) (by show (2 : ℝ) * 1e-2 ≤ 2; norm_num) (γ := 1) le_rfl
    (fun g hg => by
      rw [hsrc', hsrc] at hg
      cases hg
      have : Example.world.gSpline 2 0 = 1 := by
        change peters_g 2 0 = 1
        rw [C05_circular (by norm_num), if_pos rfl]
      rw [this]
      exact within_refl le_rfl (by norm_num))
    (N := fun _ => ((1e-40 : ℝ) : WithTop ℝ)) (fun n _ => hN _)
    (fun n _ => by
      have : (0 : ℝ) < 1e-40 := by norm_num
      exact_mod_cast this)
    (ν := 4) (S₂ := 1e-40) (by norm_num) rfl
    (fun n S h1 h2 => by
      have h2 : S = 1e-40 := by
        have : (1e-40 : ℝ) = S := by exact_mod_cast h2
        exact this.symm
      subst h2
      have : (1 : ℝ) ≤ n := by exact_mod_cast h1
      have h3 : (1 : ℝ) ≤ (n : ℝ) ^ 2 := by nlinarith
      norm_num
      linarith)
  exact ⟨k, h', r, C, v, ρ, hreach, hrun, g3, g1, g2, g4, g5, g6⟩

end Objects

end Legwork.Props
