import Verif.Lemmas.EvolCirc

/-!
# Circular evolution: C11-C14
-/

namespace Legwork.Props

open Real Legwork.utils Legwork.evol Legwork.Spec

variable {ι : Type*}

/-! ## C11 -/

/-- **C11.** For every choice of times, the separations reported by `evol_circ` are the values at those times of
a history that solves Peters' equation from `a_i`, strictly decreases until the time returned by
`get_t_merge_circ`, and is zero from then on. -/
theorem C11_evol_circ_solves_peters (K : Consts) (u : ℝ) (β a : ι → ℝ) (hβ : ∀ i, 0 < β i) (ha : ∀ i, 0 < a i) :
    ∃ (T : ι → ℝ) (s : ι → ℝ → ℝ),
      get_t_merge_circ K (some β) none none (some a) none = .ok T ∧
      (∀ i, CircularInspiral (β i) (a i) (T i) (s i)) ∧
      ∀ te n steps out,
        evol_circ K u te n steps (some β) none none (some a) none ["timesteps", "a"] = .ok out →
        ∃ ts, out = .many [ts, fun i => (ts i).map (s i)] := by
  refine ⟨_, fun i => a_circ (a i) (β i), get_t_merge_circ_some K β a none none none,
    fun i => a_circ_inspiral (ha i) (hβ i), ?_⟩
  intro te n steps out h
  simp only [evol_circ, check_mass_freq_input, wantsFreq, bind, Except.bind, pure, Except.pure] at h
  rcases hts : create_timesteps_array K a β (some fun _ => 0) te n steps with er | ts
  · simp [hts] at h
  · simp [hts, construct_output, output_step, readVar, bind, Except.bind, pure, Except.pure] at h
    exact ⟨ts, h.symm⟩

/-- Without `t_evol` the evolution runs exactly to the merger: with at least two steps the last reported
separation is 0, at the time `get_t_merge_circ`. -/
theorem C11_default_ends_at_merger (K : Consts) (u : ℝ) (β a : ι → ℝ) (hβ : ∀ i, 0 < β i) (ha : ∀ i, 0 < a i)
    (n : ℕ) (i : ι) :
    ∃ ts as, evol_circ K u none (n + 2) none (some β) none none (some a) none ["timesteps", "a"]
        = .ok (.many [ts, as]) ∧
      (ts i).getLast? = some (a i ^ 4 / (4 * β i)) ∧ (as i).getLast? = some 0 := by
  have hts : create_timesteps_array K a β (some fun _ => 0) none (n + 2) none
      = .ok fun i => np.linspace (a i ^ 4 / (4 * β i)) (n + 2) := by
    simp [create_timesteps_array, get_t_merge_ecc, check_mass_freq_input, get_t_merge_circ_some, bind, Except.bind,
      pure, Except.pure]
  have hlast : ∀ t : ℝ, (np.linspace t (n + 2)).getLast? = some t := by
    intro t
    unfold np.linspace
    rw [List.range_succ, List.map_append, List.map_singleton, List.getLast?_concat]
    congr 1
    have : ((n : ℝ) + 1) ≠ 0 := by positivity
    push_cast
    rw [show (n : ℝ) + 2 - 1 = n + 1 by ring]
    field_simp
  refine ⟨fun i => np.linspace (a i ^ 4 / (4 * β i)) (n + 2),
    fun i => (np.linspace (a i ^ 4 / (4 * β i)) (n + 2)).map (a_circ (a i) (β i)), ?_, hlast _, ?_⟩
  · simp only [evol_circ, check_mass_freq_input, wantsFreq, bind, Except.bind, pure, Except.pure]
    simp [hts, construct_output, output_step, readVar, bind, Except.bind, pure, Except.pure]
  · simp only [List.getLast?_map, hlast, Option.map_some]
    congr 1
    exact (a_circ_inspiral (ha i) (hβ i)).merged _ le_rfl

/-- Non-vacuity of C11. -/
example : ∃ (T : Unit → ℝ) (s : Unit → ℝ → ℝ),
    get_t_merge_circ .codata2018 (some fun _ => 2) none none (some fun _ => 3) none = .ok T ∧
      CircularInspiral 2 3 (T ()) (s ()) := by
  obtain ⟨T, s, h1, h2, _⟩ := C11_evol_circ_solves_peters (ι := Unit) .codata2018 1 (fun _ => 2) (fun _ => 3)
    (by norm_num) (by norm_num)
  exact ⟨T, s, h1, h2 ()⟩

/-! ## C12 -/

/-- **C12** (separation). Evolving for `t₁` and then, from the separation reached, for `t₂` gives the separation
of a single evolution for `t₁ + t₂`. -/
theorem C12_separation_composes (K : Consts) (u : ℝ) (β a a₁ : ι → ℝ) (hβ : ∀ i, 0 < β i) {t₁ t₂ : ℝ}
    (h₂ : 0 ≤ t₂) (n : ℕ)
    (h : evol_circ K u none n (some (.grid [t₁])) (some β) none none (some a) none ["a"]
      = .ok (.one fun i => [a₁ i])) :
    evol_circ K u none n (some (.grid [t₂])) (some β) none none (some a₁) none ["a"]
      = evol_circ K u none n (some (.grid [t₁ + t₂])) (some β) none none (some a) none ["a"] := by
  rw [evol_circ_a_grid] at h ⊢
  rw [evol_circ_a_grid]
  simp only [Except.ok.injEq, EvolOut.one.injEq] at h ⊢
  funext i
  have hi := congrFun h i
  simp only [List.map_cons, List.map_nil, List.cons.injEq, and_true] at hi ⊢
  rw [← hi, a_circ_comp (hβ i) h₂]

/-- **C12** (frequency). The same for the reported orbital frequency. -/
theorem C12_frequency_composes (K : Consts) (u : ℝ) (m₁ m₂ a a₁ : ι → ℝ) (h₁ : ∀ i, 0 < m₁ i)
    (h₂ : ∀ i, 0 < m₂ i) {t₁ t₂ : ℝ} (ht : 0 ≤ t₂) (n : ℕ)
    (h : evol_circ K u none n (some (.grid [t₁])) none (some m₁) (some m₂) (some a) none ["a"]
      = .ok (.one fun i => [a₁ i])) :
    evol_circ K u none n (some (.grid [t₂])) none (some m₁) (some m₂) (some a₁) none ["f_orb", "f_GW"]
      = evol_circ K u none n (some (.grid [t₁ + t₂])) none (some m₁) (some m₂) (some a) none ["f_orb", "f_GW"] := by
  simp [evol_circ, check_mass_freq_input, wantsFreq, create_timesteps_array, construct_output, output_step, readVar, bind, Except.bind, pure,
    Except.pure] at h ⊢
  have h' : ∀ i, a_circ (a i) (utils.beta K (m₁ i) (m₂ i)) t₁ = a₁ i := by
    intro i; simpa using congrFun h i
  have hc : ∀ i, a_circ (a₁ i) (utils.beta K (m₁ i) (m₂ i)) t₂
      = a_circ (a i) (utils.beta K (m₁ i) (m₂ i)) (t₁ + t₂) := by
    intro i; rw [← h' i, a_circ_comp (beta_pos K (h₁ i) (h₂ i)) ht]
  simp only [hc, and_self]

/-- **C12** (time to merger). After evolving for `t₁` no longer than the merger time, the merger time of the
evolved binary is what was left. -/
theorem C12_remaining_time (K : Consts) (u : ℝ) (β a a₁ T T₁ : ι → ℝ) (hβ : ∀ i, 0 < β i)
    {t₁ : ℝ} (n : ℕ)
    (h : evol_circ K u none n (some (.grid [t₁])) (some β) none none (some a) none ["a"]
      = .ok (.one fun i => [a₁ i]))
    (hT : get_t_merge_circ K (some β) none none (some a) none = .ok T)
    (hT₁ : get_t_merge_circ K (some β) none none (some a₁) none = .ok T₁) (i : ι) (hle : t₁ ≤ T i) :
    T₁ i = T i - t₁ := by
  rw [evol_circ_a_grid] at h
  rw [get_t_merge_circ_some] at hT hT₁
  simp only [Except.ok.injEq, EvolOut.one.injEq] at h hT hT₁
  have hi := congrFun h i
  simp only [List.map_cons, List.map_nil, List.cons.injEq, and_true] at hi
  have hb := hβ i
  subst hT hT₁
  simp only at hle ⊢
  rw [← hi, a_circ_pow_four]
  rw [le_div_iff₀ (by positivity)] at hle
  rw [max_eq_right (by linarith)]
  field_simp

/-- Non-vacuity of C12. -/
example (K : Consts) : ∃ a₁ : Unit → ℝ, evol_circ K 1 none 1 (some (.grid [1])) (some fun _ => 2) none none
    (some fun _ => 3) none ["a"] = .ok (.one fun i => [a₁ i]) ∧ (1 : ℝ) ≤ 3 ^ 4 / (4 * 2) :=
  ⟨fun _ => a_circ 3 2 1, evol_circ_a_grid K 1 1 none [1] _ _ none none none, by norm_num⟩

/-! ## C13 -/

/-- **C13.** For every time before the merger time of `get_t_merge_circ`, `evolve_f_orb_circ` with the chirp mass
gives exactly the frequency that `evol_circ` reports. (The separation `1e-30` in the unit of the input is the
code's marker for merged binaries and is excluded.) -/
theorem C13_circular_evolutions_agree (K : Consts) (u : ℝ) (m₁ m₂ f T : ι → ℝ) (h₁ : ∀ i, 0 < m₁ i)
    (h₂ : ∀ i, 0 < m₂ i) (hf : ∀ i, 0 < f i) (merge_f t : ℝ) (n : ℕ)
    (hT : get_t_merge_circ K none (some m₁) (some m₂) none (some f) = .ok T) (i : ι) (ht : t < T i)
    {fs as : ι → List ℝ}
    (hev : evol_circ K u none n (some (.grid [t])) none (some m₁) (some m₂) none (some f) ["f_orb", "a"]
      = .ok (.many [fs, as])) (hmark : as i ≠ [1e-30 * u]) :
    ∃ x : ℝ, fs i = [x] ∧
      evolve_f_orb_circ K (f i) (chirp_mass (m₁ i) (m₂ i)) t 0 merge_f = (x : WithTop ℝ) := by
  rw [get_t_merge_circ_masses] at hT
  simp only [Except.ok.injEq] at hT
  subst hT
  simp [evol_circ, check_mass_freq_input, wantsFreq, create_timesteps_array, construct_output, output_step, readVar, bind, Except.bind, pure,
    Except.pure] at hev
  obtain ⟨hfs, has⟩ := hev
  have ha := get_a_from_f_orb_pos K (hf i) (h₁ i) (h₂ i)
  have hb := beta_pos K (h₁ i) (h₂ i)
  simp only at ht
  rw [lt_div_iff₀ (by positivity)] at ht
  have hlt : 4 * utils.beta K (m₁ i) (m₂ i) * t < get_a_from_f_orb K (f i) (m₁ i) (m₂ i) ^ 4 := by linarith
  have hap := a_circ_pos hlt
  have hasi : as i = [a_circ (get_a_from_f_orb K (f i) (m₁ i) (m₂ i)) (utils.beta K (m₁ i) (m₂ i)) t] := by
    rw [← has]
  have hne : a_circ (get_a_from_f_orb K (f i) (m₁ i) (m₂ i)) (utils.beta K (m₁ i) (m₂ i)) t ≠ 1e-30 * u := by
    intro h; exact hmark (by rw [hasi, h])
  refine ⟨_, by rw [← hfs], ?_⟩
  rw [f_or_merged_of_ne K hap.ne' hne]
  have hfp := get_f_orb_from_a_pos K hap (h₁ i) (h₂ i)
  have hk := (C01_get_f_iff_kepler K hfp hap (h₁ i) (h₂ i)).1 rfl
  have hpow := kepler_f_pow K hfp hap hk
  rw [a_circ_pow_four, max_eq_right (by linarith)] at hpow
  have hinner := inner_part_eq K (t := t) (e := 0) (hf i) (h₁ i) (h₂ i)
  rw [C04_zero, mul_one] at hinner
  rw [← hpow] at hinner
  have hip : 0 < inner_part K (f i) (chirp_mass (m₁ i) (m₂ i)) t 0 := by
    rw [hinner]; exact rpow_pos_of_pos hfp _
  unfold evolve_f_orb_circ
  simp only
  rw [if_pos hip.le, if_neg hip.ne', f_of_pow hfp hinner.symm]

/-- **C13** (merged branch). The binary is treated as merged by `evolve_f_orb_circ` exactly after the merger time
of `get_t_merge_circ`; at that time itself it returns an infinite frequency. -/
theorem C13_merged_branch (K : Consts) (m₁ m₂ f T : ι → ℝ) (h₁ : ∀ i, 0 < m₁ i)
    (h₂ : ∀ i, 0 < m₂ i) (hf : ∀ i, 0 < f i) (merge_f t : ℝ)
    (hT : get_t_merge_circ K none (some m₁) (some m₂) none (some f) = .ok T) (i : ι) :
    (T i < t → evolve_f_orb_circ K (f i) (chirp_mass (m₁ i) (m₂ i)) t 0 merge_f = (merge_f : WithTop ℝ)) ∧
    (t = T i → evolve_f_orb_circ K (f i) (chirp_mass (m₁ i) (m₂ i)) t 0 merge_f = ⊤) := by
  rw [get_t_merge_circ_masses] at hT
  simp only [Except.ok.injEq] at hT
  subst hT
  have hb := beta_pos K (h₁ i) (h₂ i)
  have hkap : 0 < kap K (m₁ i + m₂ i) := kap_pos K (add_pos (h₁ i) (h₂ i))
  have hinner := inner_part_eq K (t := t) (e := 0) (hf i) (h₁ i) (h₂ i)
  rw [C04_zero, mul_one] at hinner
  refine ⟨fun h => ?_, fun h => ?_⟩
  · simp only at h
    rw [div_lt_iff₀ (by positivity)] at h
    have : inner_part K (f i) (chirp_mass (m₁ i) (m₂ i)) t 0 < 0 := by
      rw [hinner]; exact mul_neg_of_pos_of_neg hkap (by linarith)
    unfold evolve_f_orb_circ
    simp only
    rw [if_neg (by linarith)]
  · have : inner_part K (f i) (chirp_mass (m₁ i) (m₂ i)) t 0 = 0 := by
      rw [hinner, h]; field_simp; ring
    unfold evolve_f_orb_circ
    simp [this]

/-! ## C14 -/

/-- **C14.** Along an increasing time grid the frequency reported before merger never decreases (it strictly
increases), every merged step is reported at exactly 100 Hz, and `f_GW` is twice `f_orb`. -/
theorem C14_frequency_history (K : Consts) (u : ℝ) (m₁ m₂ f T : ι → ℝ) (h₁ : ∀ i, 0 < m₁ i)
    (h₂ : ∀ i, 0 < m₂ i) (hf : ∀ i, 0 < f i) (ts : List ℝ) (n : ℕ)
    (hT : get_t_merge_circ K none (some m₁) (some m₂) none (some f) = .ok T)
    {fs gs as : ι → List ℝ}
    (hev : evol_circ K u none n (some (.grid ts)) none (some m₁) (some m₂) none (some f) ["f_orb", "f_GW", "a"]
      = .ok (.many [fs, gs, as])) (i : ι) (hmark : 1e-30 * u ∉ as i) :
    (fs i).length = ts.length ∧ gs i = (fs i).map (2 * ·) ∧
    (∀ (j k : ℕ) (tj tk xj xk : ℝ), ts[j]? = some tj → ts[k]? = some tk → (fs i)[j]? = some xj → (fs i)[k]? = some xk →
      tj < tk → tk < T i → xj < xk) ∧
    (∀ (j : ℕ) (tj xj : ℝ), ts[j]? = some tj → (fs i)[j]? = some xj → T i ≤ tj → xj = 100) := by
  rw [get_t_merge_circ_masses] at hT
  simp only [Except.ok.injEq] at hT
  subst hT
  simp [evol_circ, check_mass_freq_input, wantsFreq, create_timesteps_array, construct_output, output_step, readVar, bind, Except.bind, pure,
    Except.pure] at hev
  obtain ⟨hfs, hgs, has⟩ := hev
  have ha := get_a_from_f_orb_pos K (hf i) (h₁ i) (h₂ i)
  have hb := beta_pos K (h₁ i) (h₂ i)
  set A := get_a_from_f_orb K (f i) (m₁ i) (m₂ i) with hA
  set B := utils.beta K (m₁ i) (m₂ i) with hB
  have hfi : fs i = ts.map fun t => f_or_merged K u (a_circ A B t) (m₁ i) (m₂ i) := by
    rw [← hfs, hA, hB]; rfl
  have hin := a_circ_inspiral ha hb
  have hasi : as i = ts.map (a_circ A B) := by rw [← has]
  rw [hasi] at hmark
  refine ⟨by simp [hfi], ?_, ?_, ?_⟩
  · rw [← hgs, ← hfs]; simp
  · intro j k tj tk xj xk hj hk hxj hxk hjk hkT
    rw [hfi] at hxj hxk
    simp [hj] at hxj
    simp [hk] at hxk
    have hpk := hin.pos tk hkT
    have hpj := hin.pos tj (hjk.trans hkT)
    have hlt := hin.decreasing (show tj ∈ Set.Iic (A ^ 4 / (4 * B)) from (hjk.trans hkT).le)
      (show tk ∈ Set.Iic (A ^ 4 / (4 * B)) from hkT.le) hjk
    have hne : ∀ t ∈ ts, a_circ A B t ≠ 1e-30 * u := by
      intro t htm h; exact hmark (List.mem_map.2 ⟨t, htm, h⟩)
    rw [f_or_merged_of_ne K hpj.ne' (hne _ (List.mem_of_getElem? hj))] at hxj
    rw [f_or_merged_of_ne K hpk.ne' (hne _ (List.mem_of_getElem? hk))] at hxk
    rw [← hxj, ← hxk]
    unfold get_f_orb_from_a
    have hG := K.G_pos
    have hm1 := h₁ i
    have hm2 := h₂ i
    apply div_lt_div_of_pos_right _ (by positivity)
    apply rpow_lt_rpow (by positivity) _ (by norm_num)
    apply div_lt_div_of_pos_left (by positivity) (by positivity)
    exact pow_lt_pow_left₀ hlt hpk.le (by norm_num)
  · intro j tj xj hj hxj hT
    rw [hfi] at hxj
    simp [hj] at hxj
    rw [← hxj, hin.merged tj hT, f_or_merged_zero]

/-- **C14** (negative part). The stronger claim that the reported frequency never decreases is false: a binary
above 100 Hz drops to 100 Hz when it merges. -/
theorem C14_not_monotone (K : Consts) : ∃ (m₁ m₂ f : Unit → ℝ) (T x y : ℝ),
    (0 < m₁ ()) ∧ (0 < m₂ ()) ∧ 0 < f () ∧
    evol_circ K 1 none 2 (some (.grid [0, T])) none (some m₁) (some m₂) none (some f) ["f_orb"]
      = .ok (.one fun _ => [x, y]) ∧ y < x := by
  have hG := K.G_pos
  have hK : 0 < 1 / K.G := by positivity
  refine ⟨fun _ => 1 / K.G, fun _ => 1 / K.G, fun _ => 200,
    get_a_from_f_orb K 200 (1 / K.G) (1 / K.G) ^ 4 / (4 * utils.beta K (1 / K.G) (1 / K.G)), 200, 100,
    hK, hK, by norm_num, ?_, by norm_num⟩
  rw [evol_circ_f_grid]
  have ha := get_a_from_f_orb_pos K (f := 200) (by norm_num) hK hK
  have hb := beta_pos K hK hK
  have hin := a_circ_inspiral ha hb
  simp only [List.map_cons, List.map_nil, Except.ok.injEq, EvolOut.one.injEq]
  funext i
  rw [hin.merged _ le_rfl, f_or_merged_zero, hin.start]
  rw [f_or_merged_of_ne K ha.ne', C01_f_roundtrip K (by norm_num) hK hK]
  intro h
  have hk := (C01_get_a_iff_kepler K (f := 200) (by norm_num) ha hK hK).1 rfl
  rw [h] at hk
  unfold KeplerThird at hk
  have hGG : K.G * (1 / K.G + 1 / K.G) = 2 := by field_simp; norm_num
  rw [hGG] at hk
  have hpi := Real.pi_le_four
  have hpi0 := Real.pi_pos
  have : (2 * π * 200) ^ 2 * (1e-30 * 1) ^ 3 ≤ (2 * 4 * 200) ^ 2 * (1e-30 * 1) ^ 3 := by
    apply mul_le_mul_of_nonneg_right _ (by norm_num)
    apply pow_le_pow_left₀ (by positivity); nlinarith
  rw [hk] at this
  norm_num at this

end Legwork.Props
