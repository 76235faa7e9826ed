import Verif.Lemmas.MergeTime

/-!
# Stationarity: C19-C20
-/

namespace Legwork.Props

open Real Legwork.utils Legwork.evol Legwork.Spec

variable {ι : Type*}

/-- The stationarity decision for one binary in terms of the circular merger time. -/
theorem stationarity_iff (K : Consts) {f m₁ m₂ t e tol : ℝ} (hf : 0 < f) (h₁ : 0 < m₁) (h₂ : 0 < m₂)
    (htol : 0 ≤ tol) (hbig : f * (1 + tol) < 1e9) :
    change_le (evolve_f_orb_circ K f (chirp_mass m₁ m₂) t e 1e9) f tol ↔
      t * peters_f e ≤ get_a_from_f_orb K f m₁ m₂ ^ 4 / (4 * utils.beta K m₁ m₂)
        * (1 - (1 + tol) ^ (-8 / 3 : ℝ)) := by
  have ha := get_a_from_f_orb_pos K hf h₁ h₂
  have hb := beta_pos K h₁ h₂
  have hk := kap_pos K (add_pos h₁ h₂)
  have hin := inner_part_eq K (t := t) (e := e) hf h₁ h₂
  have hf8 := kepler_f_pow K hf ha ((C01_get_a_iff_kepler K hf ha h₁ h₂).1 rfl)
  set X := inner_part K f (chirp_mass m₁ m₂) t e with hX
  set A := get_a_from_f_orb K f m₁ m₂ with hA
  set B := utils.beta K m₁ m₂ with hB
  have hq : 0 < (1 + tol) ^ (-8 / 3 : ℝ) := by positivity
  -- the threshold on the bracket
  have hthr : (t * peters_f e ≤ A ^ 4 / (4 * B) * (1 - (1 + tol) ^ (-8 / 3 : ℝ)))
      ↔ (f * (1 + tol)) ^ (-8 / 3 : ℝ) ≤ X := by
    rw [mul_rpow hf.le (by linarith), hf8, hin, mul_assoc, mul_le_mul_iff_right₀ hk, div_mul_eq_mul_div,
      le_div_iff₀ (by positivity)]
    constructor <;> intro h <;> nlinarith
  rw [hthr]
  have hft : 0 < f * (1 + tol) := by positivity
  have hfq : 0 < (f * (1 + tol)) ^ (-8 / 3 : ℝ) := by positivity
  unfold evolve_f_orb_circ
  simp only [← hX]
  by_cases h0 : X ≥ 0
  · rw [if_pos h0]
    by_cases h1 : X = 0
    · rw [if_pos h1]
      simp only [change_le]
      constructor
      · exact False.elim
      · intro h; linarith
    · rw [if_neg h1]
      have hXp : 0 < X := lt_of_le_of_ne h0 (Ne.symm h1)
      simp only [change_le]
      rw [div_le_iff₀ hf]
      have e1 : (X ^ (-3 / 8 : ℝ) - f ≤ tol * f) ↔ X ^ (-3 / 8 : ℝ) ≤ f * (1 + tol) := by
        constructor <;> intro h <;> linarith
      rw [e1]
      have e2 : X = (X ^ (-3 / 8 : ℝ)) ^ (-8 / 3 : ℝ) := by rw [← rpow_mul hXp.le]; norm_num
      have hY : 0 < X ^ (-3 / 8 : ℝ) := by positivity
      conv_rhs => rw [e2]
      rw [rpow_le_rpow_iff_of_neg hft hY (by norm_num)]
  · rw [if_neg h0]
    simp only [change_le]
    constructor
    · intro h
      rw [div_le_iff₀ hf] at h
      linarith
    · intro h; linarith

/-- **C19.** For positive masses and frequencies (with `f (1 + stat_tol)` below the 1 GHz used for merged binaries), a
binary is stationary exactly when `t_evol` times the enhancement factor is at most the fraction
`1 - (1 + stat_tol)^(-8/3)` of its circular merger time. -/
theorem C19_threshold (K : Consts) (f e m₁ m₂ : ι → ℝ) (t tol : ℝ) (hf : ∀ i, 0 < f i) (h₁ : ∀ i, 0 < m₁ i)
    (h₂ : ∀ i, 0 < m₂ i) (htol : 0 ≤ tol) (hbig : ∀ i, f i * (1 + tol) < 1e9) :
    ∃ (S : ι → Prop) (T : ι → ℝ), determine_stationarity K f t e (some m₁) (some m₂) none tol = .ok S ∧
      get_t_merge_circ K none (some m₁) (some m₂) none (some f) = .ok T ∧
      ∀ i, S i ↔ t * peters_f (e i) ≤ T i * (1 - (1 + tol) ^ (-8 / 3 : ℝ)) :=
  ⟨_, _, rfl, get_t_merge_circ_masses K m₁ m₂ f, fun i =>
    stationarity_iff K (hf i) (h₁ i) (h₂ i) htol (hbig i)⟩

/-- **C19** (meaning). It is stationary exactly when the estimated final frequency is finite and exceeds the initial
one by at most the fraction `stat_tol`. -/
theorem C19_fractional_change (K : Consts) (f e m : ι → ℝ) (t tol : ℝ) (hf : ∀ i, 0 < f i) :
    ∃ S : ι → Prop, determine_stationarity K f t e none none (some m) tol = .ok S ∧
      ∀ i, S i ↔ ∃ f' : ℝ, evolve_f_orb_circ K (f i) (m i) t (e i) 1e9 = (f' : WithTop ℝ) ∧
        f' ≤ f i * (1 + tol) := by
  refine ⟨_, rfl, fun i => ?_⟩
  simp only [change_le]
  have hfi := hf i
  cases h : evolve_f_orb_circ K (f i) (m i) t (e i) 1e9 with
  | top => simp
  | coe x =>
    simp only [WithTop.coe_inj, exists_eq_left']
    rw [div_le_iff₀ hfi]
    constructor <;> intro h <;> linarith

/-- **C19** (monotonicity). Stationarity is kept for a shorter time, a smaller eccentricity and a larger tolerance. -/
theorem C19_monotone (K : Consts) (f e e' m₁ m₂ : ι → ℝ) {t t' tol tol' : ℝ} (hf : ∀ i, 0 < f i)
    (h₁ : ∀ i, 0 < m₁ i) (h₂ : ∀ i, 0 < m₂ i) (htol : 0 ≤ tol) (hbig : ∀ i, f i * (1 + tol') < 1e9)
    (ht0 : 0 ≤ t') (htt : t' ≤ t) (he0 : ∀ i, 0 ≤ e' i) (hee : ∀ i, e' i ≤ e i) (he1 : ∀ i, e i < 1)
    (htoltol : tol ≤ tol') {S S' : ι → Prop}
    (hS : determine_stationarity K f t e (some m₁) (some m₂) none tol = .ok S)
    (hS' : determine_stationarity K f t' e' (some m₁) (some m₂) none tol' = .ok S') (i : ι) (h : S i) : S' i := by
  obtain ⟨S0, T, q1, q2, q3⟩ := C19_threshold K f e m₁ m₂ t tol hf h₁ h₂ htol
    (fun i => lt_of_le_of_lt (by have := hf i; nlinarith) (hbig i))
  obtain ⟨S1, T1, r1, r2, r3⟩ := C19_threshold K f e' m₁ m₂ t' tol' hf h₁ h₂ (htol.trans htoltol) hbig
  rw [q1] at hS; rw [r1] at hS'; rw [q2] at r2
  simp only [Except.ok.injEq] at hS hS' r2
  subst hS hS' r2
  rw [q3] at h
  rw [r3]
  have hT : 0 < T i := by
    rw [get_t_merge_circ_masses] at q2
    simp only [Except.ok.injEq] at q2
    have := get_a_from_f_orb_pos K (hf i) (h₁ i) (h₂ i)
    have := beta_pos K (h₁ i) (h₂ i)
    rw [← q2]; positivity
  have hF : peters_f (e' i) ≤ peters_f (e i) :=
    C04_strictMono.monotoneOn ⟨he0 i, lt_of_le_of_lt (hee i) (he1 i)⟩ ⟨(he0 i).trans (hee i), he1 i⟩ (hee i)
  have hFp : 0 < peters_f (e' i) := peters_f_pos' (he0 i) (lt_of_le_of_lt (hee i) (he1 i))
  have hpow : (1 + tol') ^ (-8 / 3 : ℝ) ≤ (1 + tol) ^ (-8 / 3 : ℝ) :=
    rpow_le_rpow_of_nonpos (by linarith) (by linarith) (by norm_num)
  calc t' * peters_f (e' i) ≤ t * peters_f (e i) := mul_le_mul htt hF hFp.le (ht0.trans htt)
    _ ≤ T i * (1 - (1 + tol) ^ (-8 / 3 : ℝ)) := h
    _ ≤ T i * (1 - (1 + tol') ^ (-8 / 3 : ℝ)) := mul_le_mul_of_nonneg_left (by linarith) hT.le

/-- **C19** (mergers). A binary whose (default, exact or fitted) merger time is within `t_evol` is never stationary. -/
theorem C19_merging_not_stationary (K : Consts) (f e m₁ m₂ : ι → ℝ) {t tol : ℝ} (ex : Bool) (hf : ∀ i, 0 < f i)
    (h₁ : ∀ i, 0 < m₁ i) (h₂ : ∀ i, 0 < m₂ i) (htol : 0 ≤ tol) (hbig : ∀ i, f i * (1 + tol) < 1e9)
    (he0 : ∀ i, 0 ≤ e i) (he1 : ∀ i, e i < 1) {S : ι → Prop} {T : ι → ℝ}
    (hS : determine_stationarity K f t e (some m₁) (some m₂) none tol = .ok S)
    (hT : get_t_merge_ecc K e none (some f) none (some m₁) (some m₂) 0.15 (1 - 1e-4) ex = .ok T)
    (i : ι) (hm : T i ≤ t) : ¬ S i := by
  obtain ⟨S0, Tc, q1, q2, q3⟩ := C19_threshold K f e m₁ m₂ t tol hf h₁ h₂ htol hbig
  have hin : check_mass_freq_input K none (some m₁) (some m₂) none (some f)
      = .ok (fun i => utils.beta K (m₁ i) (m₂ i), fun i => get_a_from_f_orb K (f i) (m₁ i) (m₂ i)) := by
    simp [check_mass_freq_input, pure, Except.pure, bind, Except.bind]
  rw [q1] at hS
  rw [get_t_merge_ecc_of_check K ex hin (by norm_num) (by norm_num) he0] at hT
  rw [get_t_merge_circ_masses] at q2
  simp only [Except.ok.injEq] at hS hT q2
  subst hS
  rw [q3, not_le]
  have hai := get_a_from_f_orb_pos K (hf i) (h₁ i) (h₂ i)
  have hbi := beta_pos K (h₁ i) (h₂ i)
  have hTc : 0 < Tc i := by rw [← q2]; positivity
  have hq : 0 < (1 + tol) ^ (-8 / 3 : ℝ) := by positivity
  have hF := peters_f_pos' (he0 i) (he1 i)
  have key : Tc i ≤ T i * peters_f (e i) := by
    rw [← q2, ← hT]
    exact (t_val_bounds hbi hai (he0 i) (he1 i) ex).2.2
  nlinarith [mul_le_mul_of_nonneg_right hm hF.le, mul_pos hTc hq]

/-- **C19** (negative part). The condition `f (1 + stat_tol) < 1e9` is needed: above it, every merged binary is marked
stationary. -/
theorem C19_above_1e9_merged_is_stationary (K : Consts) (f m : Unit → ℝ) {t tol : ℝ} (hf : 0 < f ())
    (hbig : 1e9 ≤ f () * (1 + tol)) (hm : inner_part K (f ()) (m ()) t 0 < 0) :
    ∃ S : Unit → Prop, determine_stationarity K f t (fun _ => 0) none none (some m) tol = .ok S ∧ S () := by
  refine ⟨_, rfl, ?_⟩
  unfold evolve_f_orb_circ
  simp only
  rw [if_neg (not_le.2 hm)]
  simp only [change_le]
  rw [div_le_iff₀ hf]
  linarith

/-- Non-vacuity of C19: with positive inputs both outcomes occur. -/
example (K : Consts) : ∃ S S' : Unit → Prop,
    determine_stationarity K (fun _ => 1) 0 (fun _ => 0) (some fun _ => 1) (some fun _ => 1) none 0.01 = .ok S ∧ S () ∧
    determine_stationarity K (fun _ => 1) (get_a_from_f_orb K 1 1 1 ^ 4 / (4 * utils.beta K 1 1)) (fun _ => 0)
      (some fun _ => 1) (some fun _ => 1) none 0.01 = .ok S' ∧ ¬ S' () := by
  have ha := get_a_from_f_orb_pos K one_pos one_pos one_pos
  have hb := beta_pos K one_pos one_pos
  refine ⟨_, _, rfl, ?_, rfl, ?_⟩
  · simp only
    rw [stationarity_iff K one_pos one_pos one_pos (by norm_num) (by norm_num), zero_mul]
    have : (1 + 0.01 : ℝ) ^ (-8 / 3 : ℝ) ≤ 1 := rpow_le_one_of_one_le_of_nonpos (by norm_num) (by norm_num)
    have : 0 ≤ 1 - (1 + 0.01 : ℝ) ^ (-8 / 3 : ℝ) := by linarith
    positivity
  · simp only
    rw [stationarity_iff K one_pos one_pos one_pos (by norm_num) (by norm_num), C04_zero, mul_one, not_le]
    have : (0 : ℝ) < (1 + 0.01 : ℝ) ^ (-8 / 3 : ℝ) := by positivity
    have hT : 0 < get_a_from_f_orb K 1 1 1 ^ 4 / (4 * utils.beta K 1 1) := by positivity
    nlinarith

/-! ## C20 -/

/-- **C20.** Along every exact eccentric solution starting from the frequency `f`, the bracket of
`evolve_f_orb_circ` (evaluated with the initial eccentricity) is at most the true `f(t)^(-8/3)`: the estimate never
falls below the true frequency unless it declares the binary merged. -/
theorem C20_estimate_is_upper_bound (K : Consts) {m₁ m₂ f c t merge_f : ℝ} {e : ℝ → ℝ} (h₁ : 0 < m₁) (h₂ : 0 < m₂)
    (hf : 0 < f) (hc : c = c_0 (get_a_from_f_orb K f m₁ m₂) (e 0)) (ht : 0 ≤ t)
    (h : EccentricInspiral (utils.beta K m₁ m₂) c 0 t e) :
    evolve_f_orb_circ K f (chirp_mass m₁ m₂) t (e 0) merge_f = (merge_f : WithTop ℝ) ∨
    ((get_f_orb_from_a K (get_a_from_ecc (e t) c) m₁ m₂ : ℝ) : WithTop ℝ)
      ≤ evolve_f_orb_circ K f (chirp_mass m₁ m₂) t (e 0) merge_f := by
  have m0 : (0 : ℝ) ∈ Set.Icc 0 t := ⟨le_rfl, ht⟩
  have m1 : t ∈ Set.Icc 0 t := ⟨ht, le_rfl⟩
  obtain ⟨p0, q0⟩ := h.bound 0 m0
  obtain ⟨p1, q1⟩ := h.bound t m1
  have hA := get_a_from_f_orb_pos K hf h₁ h₂
  have hb := beta_pos K h₁ h₂
  have hcp : 0 < c := hc ▸ c_0_pos p0 q0 hA
  have hk := kap_pos K (add_pos h₁ h₂)
  have hat := get_a_from_ecc_pos p1 q1 hcp
  have hft := get_f_orb_from_a_pos K hat h₁ h₂
  have hf8 := kepler_f_pow K hft hat ((C01_get_f_iff_kepler K hft hat h₁ h₂).1 rfl)
  have hin := inner_part_eq K (t := t) (e := e 0) hf h₁ h₂
  have ha0 : get_a_from_ecc (e 0) c = get_a_from_f_orb K f m₁ m₂ := by rw [hc]; exact C02_a_roundtrip p0 q0
  set B := utils.beta K m₁ m₂ with hB
  -- the fourth power of the separation decreases at most at the initial rate
  have hmono : MonotoneOn (fun s => get_a_from_ecc (e s) c ^ 4 + 4 * B * peters_f (e 0) * s) (Set.Icc 0 t) := by
    have hd : ∀ s ∈ Set.Icc 0 t, HasDerivAt (fun s => get_a_from_ecc (e s) c ^ 4 + 4 * B * peters_f (e 0) * s)
        (-(4 * B * peters_f (e s)) + 4 * B * peters_f (e 0)) s := by
      intro s hs
      obtain ⟨ps, qs⟩ := h.bound s hs
      have has := get_a_from_ecc_pos ps qs hcp
      have d := (hasDerivAt_a_of_solution ps qs hb hcp (h.deriv hs)).pow 4
      have d2 : HasDerivAt (fun s : ℝ => 4 * B * peters_f (e 0) * s) (4 * B * peters_f (e 0)) s := by
        simpa using (hasDerivAt_id s).const_mul (4 * B * peters_f (e 0))
      refine (d.add d2).congr_deriv ?_
      push_cast
      field_simp
    apply monotoneOn_of_deriv_nonneg (convex_Icc _ _)
    · exact fun s hs => (hd s hs).continuousAt.continuousWithinAt
    · exact fun s hs => (hd s (interior_subset hs)).differentiableAt.differentiableWithinAt
    · intro s hs
      have hs' := interior_subset hs
      rw [(hd s hs').deriv]
      obtain ⟨ps, qs⟩ := h.bound s hs'
      have hle : e s ≤ e 0 := (h.antitone hb hcp).antitoneOn m0 hs' hs'.1
      have := C04_strictMono.monotoneOn ⟨ps.le, qs⟩ ⟨p0.le, q0⟩ hle
      nlinarith
  have hge := hmono m0 m1 ht
  simp only [mul_zero, add_zero] at hge
  rw [ha0] at hge
  have hX : inner_part K f (chirp_mass m₁ m₂) t (e 0)
      ≤ get_f_orb_from_a K (get_a_from_ecc (e t) c) m₁ m₂ ^ (-8 / 3 : ℝ) := by
    rw [hin, hf8]
    apply mul_le_mul_of_nonneg_left _ hk.le
    linarith
  unfold evolve_f_orb_circ
  simp only
  by_cases g0 : inner_part K f (chirp_mass m₁ m₂) t (e 0) ≥ 0
  · right
    rw [if_pos g0]
    by_cases g1 : inner_part K f (chirp_mass m₁ m₂) t (e 0) = 0
    · rw [if_pos g1]; exact le_top
    · rw [if_neg g1, WithTop.coe_le_coe]
      have hXp := lt_of_le_of_ne g0 (Ne.symm g1)
      calc _ = (get_f_orb_from_a K (get_a_from_ecc (e t) c) m₁ m₂ ^ (-8 / 3 : ℝ)) ^ (-3 / 8 : ℝ) :=
            (f_of_pow hft rfl).symm
        _ ≤ _ := rpow_le_rpow_of_nonpos hXp hX (by norm_num)
  · left; rw [if_neg g0]

/-- **C20.** A binary marked stationary over `t_evol` really changes its frequency by at most the fraction
`stat_tol`: for every source of the array and every exact solution from its initial state. -/
theorem C20_stationary_is_safe (K : Consts) (f e₀ m₁ m₂ : ι → ℝ) {t tol : ℝ} (ht : 0 ≤ t) (hf : ∀ i, 0 < f i)
    (h₁ : ∀ i, 0 < m₁ i) (h₂ : ∀ i, 0 < m₂ i) (hbig : ∀ i, f i * (1 + tol) < 1e9) {S : ι → Prop}
    (hS : determine_stationarity K f t e₀ (some m₁) (some m₂) none tol = .ok S) (i : ι) (hi : S i) {c : ℝ} {e : ℝ → ℝ}
    (he : e 0 = e₀ i) (hc : c = c_0 (get_a_from_f_orb K (f i) (m₁ i) (m₂ i)) (e₀ i))
    (h : EccentricInspiral (utils.beta K (m₁ i) (m₂ i)) c 0 t e) :
    get_f_orb_from_a K (get_a_from_ecc (e t) c) (m₁ i) (m₂ i) ≤ f i * (1 + tol) := by
  rw [← he] at hc
  have hup := C20_estimate_is_upper_bound K (merge_f := 1e9) (h₁ i) (h₂ i) (hf i) hc ht h
  simp only [determine_stationarity, bind, Except.bind, pure, Except.pure, Except.ok.injEq] at hS
  subst hS
  rw [he] at hup
  simp only [change_le] at hi
  have hfi := hf i
  cases hv : evolve_f_orb_circ K (f i) (chirp_mass (m₁ i) (m₂ i)) t (e₀ i) 1e9 with
  | top => rw [hv] at hi; exact hi.elim
  | coe x =>
    rw [hv] at hi hup
    simp only at hi
    rw [div_le_iff₀ hfi] at hi
    rcases hup with hx | hx
    · have : x = 1e9 := by exact_mod_cast hx
      have := hbig i
      linarith
    · have : get_f_orb_from_a K (get_a_from_ecc (e t) c) (m₁ i) (m₂ i) ≤ x := by exact_mod_cast hx
      linarith

/-- Non-vacuity of C20: solutions with these constants exist from every initial state. -/
example (K : Consts) {f e₀ m₁ m₂ : ℝ} (hf : 0 < f) (h₁ : 0 < m₁) (h₂ : 0 < m₂) (h0 : 0 < e₀) (h1 : e₀ < 1) :
    ∃ (e : ℝ → ℝ) (t : ℝ), 0 < t ∧ e 0 = e₀ ∧
      EccentricInspiral (utils.beta K m₁ m₂) (c_0 (get_a_from_f_orb K f m₁ m₂) e₀) 0 t e := by
  have hc := c_0_pos h0 h1 (get_a_from_f_orb_pos K hf h₁ h₂)
  obtain ⟨e, he, h⟩ := exists_solution (beta_pos K h₁ h₂) hc h0 h1
  have hT := t_exact_pos (beta_pos K h₁ h₂) hc h0 h1
  exact ⟨e, t_exact (c_0 (get_a_from_f_orb K f m₁ m₂) e₀) (utils.beta K m₁ m₂) e₀ / 2, by linarith, he,
    h _ (by linarith)⟩

end Legwork.Props
