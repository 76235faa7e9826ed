import Mathlib.Tactic.IntervalCases
import Verif.Lemmas.Psd

/-!
# C24–C28, C60, C64: noise curves
-/

namespace Legwork.Props

open Real Legwork.psd Legwork.Spec

/-- A confusion noise setting that is supported for the observation time `t`. -/
def Recognised (noise : NoiseArg) (t : TimeArg) : Prop :=
  noise = .none ∨ noise = .name "robson19" ∨ noise = .name "huang20" ∨ noise = .name "karnesis21" ∨
    (noise = .name "thiele21" ∧ (t = .auto ∨ t = .val (4 * yr)))

/-- The LISA response at `f` is available and positive. -/
def ResponseOk (K : Consts) (env : Env) (L : ℝ) (approx : Bool) (f : ℝ) : Prop :=
  approx = true ∨ ∃ r, 0 < r ∧ load_response_function env.file env.spline f (K.c / (2 * π * L)) = .ok r

/-- Supported settings evaluate to a non-negative noise, at every frequency. -/
theorem noise_of_recognised {noise : NoiseArg} {t : TimeArg} (h : Recognised noise t) (f : ℝ) :
    (∃ y, noise_bare f t noise = .ok y ∧ noise_quantity f t noise = .ok y ∧ (0 < f → 0 ≤ y)) := by
  rcases h with rfl | rfl | rfl | rfl | ⟨rfl, h⟩
  · exact ⟨0, rfl, rfl, fun _ => le_rfl⟩
  · exact ⟨_, by simp [noise_bare, get_confusion_noise]; rfl, by simp [noise_quantity, get_confusion_noise]; rfl,
      fun hf => (robson_pos hf _).le⟩
  · exact ⟨_, by simp [noise_bare, get_confusion_noise]; rfl, by simp [noise_quantity, get_confusion_noise]; rfl,
      fun _ => huang_nonneg f _⟩
  · exact ⟨_, by simp [noise_bare, get_confusion_noise]; rfl, by simp [noise_quantity, get_confusion_noise]; rfl,
      fun hf => (karnesis_pos hf _).le⟩
  · have ht : t.resolve (4 * yr) = 4 * yr := by rcases h with rfl | rfl <;> rfl
    exact ⟨_, by simp [noise_bare, get_confusion_noise, ht]; rfl, by simp [noise_quantity, get_confusion_noise, ht]; rfl,
      fun hf => (thiele_pos f).le⟩

theorem approx_pos (f fstar : ℝ) : 0 < approximate_response_function f fstar := by
  unfold approximate_response_function; positivity

/-! ## C24 -/

/-- **C24** (LISA). With a supported confusion noise and an available positive response, the LISA noise is infinite
outside [1e-7, 2] Hz and a positive number inside. (Out of band the response is evaluated at 1e-8 Hz and its value
does not matter.) -/
theorem C24_lisa (K : Consts) (env : Env) (f : ℝ) (t : TimeArg) {L : ℝ} (hL : 0 < L) (approx : Bool)
    {noise : NoiseArg} (hn : Recognised noise t) (hR : ∀ g, 0 < g → ResponseOk K env L approx g) :
    ∃ x, lisa_psd K env f t L approx noise = .ok x ∧
      (f < 1e-7 ∨ 2 < f → x = ⊤) ∧ (1e-7 ≤ f → f ≤ 2 → ∃ y : ℝ, 0 < y ∧ x = y) := by
  classical
  unfold lisa_psd
  simp only [bind, Except.bind, pure, Except.pure, ge_iff_le]
  set g : ℝ := if 1e-7 ≤ f ∧ f ≤ 2e0 then f else 1e-8 with hg
  have hg0 : 0 < g := by
    rw [hg]; split_ifs with h
    · have := h.1; norm_num at this; linarith
    · norm_num
  obtain ⟨r, hr, hrv⟩ : ∃ r, 0 < r ∧ lisa_response env approx g (K.c / (2 * π * L)) = .ok r := by
    unfold lisa_response
    by_cases ha : approx = true
    · exact ⟨_, approx_pos _ _, by rw [if_pos ha]; rfl⟩
    · rcases hR g hg0 with h | ⟨r, h1, h2⟩
      · exact absurd h ha
      · exact ⟨r, h1, by rw [if_neg ha, h2]⟩
  obtain ⟨y, hy, -, hy0⟩ := noise_of_recognised hn g
  simp only [hrv, hy]
  refine ⟨_, rfl, fun hf => ?_, fun h1 h2 => ?_⟩
  · have hc : ¬ (1e-7 ≤ f ∧ f ≤ 2e0) := by
      rintro ⟨h1, h2⟩
      rcases hf with h | h
      · linarith
      · norm_num at h2; linarith
    have hg' : g = 1e-8 := by rw [hg, if_neg hc]
    rw [if_neg]
    rw [hg']; norm_num
  · have hc : 1e-7 ≤ f ∧ f ≤ 2e0 := ⟨h1, by norm_num; exact h2⟩
    have hg' : g = f := by rw [hg, if_pos hc]
    rw [hg'] at hg0 hy0 ⊢
    rw [if_pos hc]
    refine ⟨_, ?_, rfl⟩
    have hp : 0 < lisa_Poms f := by unfold lisa_Poms; positivity
    have hq : 0 < lisa_Pacc f := by unfold lisa_Pacc; positivity
    have := hy0 hg0
    have := pi_pos
    positivity

/-- **C24** (DECIGO). With `f_low` above 1e-8 Hz the DECIGO noise is infinite outside `[f_low, f_high]` and a positive
number inside. -/
theorem C24_decigo (f : ℝ) (t : TimeArg) {noise : NoiseArg} (hn : Recognised noise t) {f_low f_high : ℝ}
    (hlow : 1e-8 < f_low) :
    ∃ x, decigo_psd f t noise f_low f_high = .ok x ∧
      (f < f_low ∨ f_high < f → x = ⊤) ∧ (f_low ≤ f → f ≤ f_high → ∃ y : ℝ, 0 < y ∧ x = y) := by
  classical
  unfold decigo_psd
  simp only [bind, Except.bind, pure, Except.pure, ge_iff_le]
  set g : ℝ := if f_low ≤ f ∧ f ≤ f_high then f else 1e-8 with hg
  obtain ⟨y, hy, -, hy0⟩ := noise_of_recognised hn g
  simp only [hy]
  refine ⟨_, rfl, fun hf => ?_, fun h1 h2 => ?_⟩
  · have hc : ¬ (f_low ≤ f ∧ f ≤ f_high) := by
      rintro ⟨h1, h2⟩
      rcases hf with h | h <;> linarith
    have hg' : g = 1e-8 := by rw [hg, if_neg hc]
    rw [if_neg]
    rw [hg']
    intro h; linarith [h.1]
  · have hc : f_low ≤ f ∧ f ≤ f_high := ⟨h1, h2⟩
    have hg' : g = f := by rw [hg, if_pos hc]
    rw [hg'] at hy0 ⊢
    rw [if_pos hc]
    refine ⟨_, ?_, rfl⟩
    have hf0 : 0 < f := by norm_num at hlow; linarith
    have := hy0 hf0
    positivity

/-- **C24** (DECIGO, small `f_low`). For `f_low` at most 1e-8 Hz the DECIGO noise below the band is wrongly finite:
bad frequencies are overwritten with 1e-8 Hz before the band check. -/
theorem C24_decigo_small_f_low (f : ℝ) (t : TimeArg) {f_low f_high : ℝ} (hlow : f_low ≤ 1e-8) (hhigh : 1e-8 ≤ f_high)
    (hf : f < f_low ∨ f_high < f) : ∃ y : ℝ, decigo_psd f t .none f_low f_high = .ok y := by
  classical
  have hc : ¬ (f_low ≤ f ∧ f ≤ f_high) := by
    rintro ⟨h1, h2⟩
    rcases hf with h | h <;> linarith
  simp only [decigo_psd, bind, Except.bind, pure, Except.pure, ge_iff_le, noise_bare, get_confusion_noise, if_neg hc,
    if_pos (And.intro hlow hhigh)]
  exact ⟨_, rfl⟩

/-- **C24** (TianQin). The TianQin noise is a positive number at every positive frequency. -/
theorem C24_tianqin (K : Consts) {f L : ℝ} (hf : 0 < f) (hL : 0 < L) (t : TimeArg) {noise : NoiseArg}
    (hn : Recognised noise t) : ∃ y : ℝ, 0 < y ∧ tianqin_psd K f L t noise = .ok y := by
  obtain ⟨y, -, hy, hy0⟩ := noise_of_recognised hn f
  simp only [tianqin_psd, bind, Except.bind, pure, Except.pure, hy]
  refine ⟨_, ?_, rfl⟩
  have := hy0 hf
  have := pi_pos
  have := K.c_pos
  positivity

example : Recognised (.name "thiele21") (.val (4 * yr)) := by simp [Recognised]

/-- A response file whose spline is 0.3 everywhere satisfies the response hypothesis of C24. -/
example (K : Consts) (L g : ℝ) : ResponseOk K ⟨.ok ([], []), fun _ _ _ => 0.3⟩ L false g :=
  Or.inr ⟨0.3, by norm_num, rfl⟩

/-! ## C25 -/

/-- **C25** (sign). Every confusion noise returned at a positive frequency is non-negative. -/
theorem C25_noise_nonneg {f y : ℝ} (hf : 0 < f) {model : Option String} {t : TimeArg}
    (h : get_confusion_noise f model t = .ok y) : 0 ≤ y := by
  rcases model with _ | m
  · simp only [get_confusion_noise, pure, Except.pure, Except.ok.injEq] at h; exact h.le
  · simp only [get_confusion_noise, pure, Except.pure, throw, throwThe, MonadExceptOf.throw] at h
    split_ifs at h
    all_goals injection h with h; subst h
    · exact (robson_pos hf _).le
    · exact huang_nonneg _ _
    · exact (thiele_pos f).le
    · exact (karnesis_pos hf _).le

/-- **C25** (support). `huang20` vanishes outside [1e-4, 1] Hz, and is positive inside; `None` is zero everywhere. -/
theorem C25_huang_support (f t : ℝ) :
    (get_confusion_noise f (some "huang20") (.val t) = .ok 0 ↔ f < 1e-4 ∨ 1 < f) ∧
    ∀ t', get_confusion_noise f none t' = .ok 0 := by
  refine ⟨?_, fun t' => rfl⟩
  simp only [get_confusion_noise, pure, Except.pure, get_confusion_noise_huang20]
  rw [if_neg (by decide), if_pos trivial]
  simp only [Except.ok.injEq]
  constructor
  · intro h
    by_contra hc
    rw [if_neg (by norm_num at hc ⊢; exact hc)] at h
    exact (pow_pos (rpow_pos_of_pos (by norm_num) _) 2).ne' h
  · intro h
    rw [if_pos (by norm_num at h ⊢; exact h)]; norm_num

/-- **C25** (errors). A model name is rejected, with `ValueError`, exactly when it is unknown or is `thiele21` with an
explicit observation time other than 4 years. -/
theorem C25_value_error_iff (f : ℝ) (m : String) (t : TimeArg) :
    (get_confusion_noise f (some m) t = .error .ValueError ↔
      m ∉ ["robson19", "huang20", "thiele21", "karnesis21"] ∨ (m = "thiele21" ∧ t ≠ .auto ∧ t ≠ .val (4 * yr))) ∧
    ∀ e, get_confusion_noise f (some m) t = .error e → e = .ValueError := by
  have ht : t.resolve (4 * yr) = 4 * yr ↔ ¬ (t ≠ .auto ∧ t ≠ .val (4 * yr)) := by
    rcases t with _ | t <;> simp [TimeArg.resolve]
  simp only [get_confusion_noise, pure, Except.pure, throw, throwThe, MonadExceptOf.throw]
  by_cases h1 : m = "robson19"
  · simp [h1]
  by_cases h2 : m = "huang20"
  · simp [h2]
  by_cases h3 : m = "thiele21"
  · subst h3
    by_cases h : t.resolve (4 * yr) = 4 * yr
    · have h' := ht.1 h
      simp only [h, if_true, h1, h2, if_false]
      simp
      intro h4; by_contra h5; exact h' ⟨h4, h5⟩
    · have h' : t ≠ .auto ∧ t ≠ .val (4 * yr) := by by_contra hc; exact h (ht.2 hc)
      simp [h, h'.1, h'.2]
  by_cases h4 : m = "karnesis21"
  · simp [h4]
  · simp [h1, h2, h3, h4]

/-- **C25** (noise only adds). Each instrument's noise with a named confusion model is at least its noise with
`None`. -/
theorem C25_psd_ge_without (K : Consts) (env : Env) {f L f_low f_high : ℝ} (hf : 0 < f) (t : TimeArg) (approx : Bool)
    (s : String) {x x₀ : WithTop ℝ} :
    (lisa_psd K env f t L approx (.name s) = .ok x → lisa_psd K env f t L approx .none = .ok x₀ → x₀ ≤ x) ∧
    (tianqin_psd K f L t (.name s) = .ok x → tianqin_psd K f L t .none = .ok x₀ → x₀ ≤ x) ∧
    (decigo_psd f t (.name s) f_low f_high = .ok x → decigo_psd f t .none f_low f_high = .ok x₀ → x₀ ≤ x) := by
  classical
  refine ⟨?_, ?_, ?_⟩
  · intro h h0
    unfold lisa_psd at h h0
    simp only [bind, Except.bind, pure, Except.pure, ge_iff_le] at h h0
    set g : ℝ := if 1e-7 ≤ f ∧ f ≤ 2e0 then f else 1e-8 with hg
    have hg0 : 0 < g := by rw [hg]; split_ifs; exacts [hf, by norm_num]
    rcases hR : lisa_response env approx g (K.c / (2 * π * L)) with e | r
    · rw [hR] at h; simp at h
    rw [hR] at h h0
    rcases hn : noise_bare g t (.name s) with e | y
    · simp [hn] at h
    have hy := C25_noise_nonneg hg0 (model := some s) (t := t) hn
    simp only [hn, Except.ok.injEq] at h
    simp only [noise_bare, get_confusion_noise, pure, Except.pure, Except.ok.injEq] at h0
    rw [← h, ← h0]
    split_ifs
    · apply WithTop.coe_le_coe.2; linarith
    · exact le_rfl
  · intro h h0
    unfold tianqin_psd at h h0
    simp only [bind, Except.bind, pure, Except.pure] at h h0
    rcases hn : noise_quantity f t (.name s) with e | y
    · simp [hn] at h
    have hy := C25_noise_nonneg hf (model := some s) (t := t) hn
    simp only [hn, Except.ok.injEq] at h
    simp only [noise_quantity, get_confusion_noise, pure, Except.pure, Except.ok.injEq] at h0
    rw [← h, ← h0]
    apply WithTop.coe_le_coe.2; linarith
  · intro h h0
    unfold decigo_psd at h h0
    simp only [bind, Except.bind, pure, Except.pure, ge_iff_le] at h h0
    set g : ℝ := if f_low ≤ f ∧ f ≤ f_high then f else 1e-8 with hg
    have hg0 : 0 < g := by rw [hg]; split_ifs; exacts [hf, by norm_num]
    rcases hn : noise_bare g t (.name s) with e | y
    · simp [hn] at h
    have hy := C25_noise_nonneg hg0 (model := some s) (t := t) hn
    simp only [hn, Except.ok.injEq] at h
    simp only [noise_bare, get_confusion_noise, pure, Except.pure, Except.ok.injEq] at h0
    rw [← h, ← h0]
    split_ifs
    · apply WithTop.coe_le_coe.2; linarith
    · exact le_rfl

/-! ## C26 -/

/-- **C26**. The default LISA noise and its `karnesis21` confusion noise never increase with the observation time. -/
theorem C26_longer_mission (K : Consts) (env : Env) {f t₁ t₂ : ℝ} (hf : 0 < f) (h1 : 0 < t₁) (h12 : t₁ ≤ t₂)
    (custom : Option CustomPsd) (L : LenArg) (approx : Bool) {x₁ x₂ : WithTop ℝ}
    (hx₁ : power_spectral_density K env f "LISA" custom (.val t₁) L approx (.name "auto") = .ok x₁)
    (hx₂ : power_spectral_density K env f "LISA" custom (.val t₂) L approx (.name "auto") = .ok x₂) :
    (∃ y₁ y₂ : ℝ, get_confusion_noise f (some "karnesis21") (.val t₁) = .ok y₁ ∧
      get_confusion_noise f (some "karnesis21") (.val t₂) = .ok y₂ ∧ y₂ ≤ y₁) ∧ x₂ ≤ x₁ := by
  classical
  refine ⟨⟨_, _, by simp [get_confusion_noise, pure, Except.pure]; rfl,
    by simp [get_confusion_noise, pure, Except.pure]; rfl, karnesis_antitone hf h1 h12⟩, ?_⟩
  simp only [power_spectral_density, if_true, NoiseArg.resolve, TimeArg.resolve, lisa_psd, bind, Except.bind, pure,
    Except.pure, ge_iff_le] at hx₁ hx₂
  set g : ℝ := if 1e-7 ≤ f ∧ f ≤ 2e0 then f else 1e-8 with hg
  have hg0 : 0 < g := by rw [hg]; split_ifs; exacts [hf, by norm_num]
  rcases hR : lisa_response env approx g (K.c / (2 * π * L.resolve 2.5e9)) with e | r
  · rw [hR] at hx₁; simp at hx₁
  rw [hR] at hx₁ hx₂
  have hk : ∀ t, noise_bare g (.val t) (.name "karnesis21") = .ok (get_confusion_noise_karnesis21 g t) := fun t => by
    simp [noise_bare, get_confusion_noise, TimeArg.resolve, pure, Except.pure]
  simp only [hk, Except.ok.injEq] at hx₁ hx₂
  rw [← hx₁, ← hx₂]
  have := karnesis_antitone hg0 h1 h12
  split_ifs
  · apply WithTop.coe_le_coe.2; linarith
  · exact le_rfl

example (K : Consts) (env : Env) : ∃ x, power_spectral_density K env 1e-3 "LISA" none (.val (4 * yr)) .auto true
    (.name "auto") = .ok x := by
  simp [power_spectral_density, lisa_psd, lisa_response, NoiseArg.resolve, TimeArg.resolve, noise_bare, get_confusion_noise, bind,
    Except.bind, pure, Except.pure]

/-! ## C27 -/

/-- **C27** (robson19). The noise is that of the Robson+19 column whose mission length is closest to `t_obs`, the
shorter one on a tie. -/
theorem C27_robson_nearest (f t : ℝ) : ∃ k r, robsonTable[k]? = some r ∧
    NearestMission (robsonTable.map fun r => r.years * yr) t k ∧
    get_confusion_noise f (some "robson19") (.val t) = .ok (r.noise f) := by
  have hl : (robsonTable.map fun r => r.years * yr) = ([0.5, 1.0, 2.0, 4.0].map (· * yr) : List ℝ) := by
    simp [robsonTable]; norm_num
  rw [hl]
  have hs := nearest_length_spec ([0.5, 1.0, 2.0, 4.0].map (· * yr)) t (by simp)
  have hk : nearest_length ([0.5, 1.0, 2.0, 4.0].map (· * yr)) t < 4 := by
    obtain ⟨l, h, -⟩ := hs
    simpa using (List.getElem?_eq_some_iff.1 h).1
  simp only [get_confusion_noise, if_true, pure, Except.pure, TimeArg.resolve, get_confusion_noise_robson19]
  generalize nearest_length ([0.5, 1.0, 2.0, 4.0].map (· * yr)) t = k at hs hk
  interval_cases k
  all_goals
    refine ⟨_, _, by simp [robsonTable]; rfl, hs, ?_⟩
    simp only [at', RobsonFit.noise, Except.ok.injEq, List.getD_cons_zero, List.getD_cons_succ]
    norm_num
    left
    ring_nf
    exact Or.inl trivial

/-- **C27** (huang20). The noise is that of the Huang+20 column whose mission length is closest to `t_obs`, the
shorter one on a tie. -/
theorem C27_huang_nearest (f t : ℝ) : ∃ k h, huangTable[k]? = some h ∧
    NearestMission (huangTable.map fun h => h.years * yr) t k ∧
    get_confusion_noise f (some "huang20") (.val t) = .ok (h.noise f) := by
  classical
  have hl : (huangTable.map fun r => r.years * yr) = ([0.5, 1.0, 2.0, 4.0, 5.0].map (· * yr) : List ℝ) := by
    simp [huangTable]; norm_num
  rw [hl]
  have hs := nearest_length_spec ([0.5, 1.0, 2.0, 4.0, 5.0].map (· * yr)) t (by simp)
  have hk : nearest_length ([0.5, 1.0, 2.0, 4.0, 5.0].map (· * yr)) t < 5 := by
    obtain ⟨l, h, -⟩ := hs
    simpa using (List.getElem?_eq_some_iff.1 h).1
  have hm : ("huang20" = "robson19") = False := by decide
  simp only [get_confusion_noise, hm, if_false, if_true, pure, Except.pure, TimeArg.resolve, get_confusion_noise_huang20]
  generalize nearest_length ([0.5, 1.0, 2.0, 4.0, 5.0].map (· * yr)) t = k at hs hk
  interval_cases k
  all_goals
    refine ⟨_, _, by simp [huangTable]; rfl, hs, ?_⟩
    simp only [at', HuangFit.noise, Except.ok.injEq, huang_coefficients, List.zipIdx_cons, List.zipIdx_nil,
      List.foldl_cons, List.foldl_nil, List.getD_cons_zero, List.getD_cons_succ, logb]
    by_cases hc : 1e-4 ≤ f ∧ f ≤ 1
    · have hc' : ¬ (f < 1e-4 ∨ f > 1e0) := by
        rintro (h | h)
        · linarith [hc.1]
        · norm_num at h; linarith [hc.2]
      rw [if_neg hc', if_pos hc]
      norm_num
    · have hc' : f < 1e-4 ∨ f > 1e0 := by
        by_contra h
        rw [not_or, not_lt, not_lt] at h
        exact hc ⟨h.1, by norm_num at h; exact h.2⟩
      rw [if_pos hc', if_neg hc]
      norm_num

/-! ## C28 -/

/-- `r` is the time used for the argument `t` when `d` is the default for `auto`. -/
def AutoTime (t : TimeArg) (d r : ℝ) : Prop := (t = .auto ∧ r = d) ∨ t = .val r

/-- `r` is the length used for the argument `l` when `d` is the default for `auto`. -/
def AutoLen (l : LenArg) (d r : ℝ) : Prop := (l = .auto ∧ r = d) ∨ l = .val r

/-- `r` is the confusion noise used for the argument `n` when `d` is the default for `auto`. -/
def AutoNoise (n : NoiseArg) (d : String) (r : NoiseArg) : Prop :=
  (n = .name "auto" ∧ r = .name d) ∨ (n ≠ .name "auto" ∧ r = n)

/-- **C28** (dispatch). Every instrument evaluates its own function with the documented default for each `auto`
argument and the caller's value for every other; `custom` receives the raw arguments. -/
theorem C28_dispatch (K : Consts) (env : Env) (f : ℝ) (custom : Option CustomPsd) (t : TimeArg) (L : LenArg)
    (approx : Bool) (n : NoiseArg) (t' L' : ℝ) (n' : NoiseArg) :
    (AutoTime t (4 * yr) t' → AutoLen L 2500000000 L' → AutoNoise n "karnesis21" n' →
      power_spectral_density K env f "LISA" custom t L approx n = lisa_psd K env f (.val t') L' approx n') ∧
    (AutoTime t (5 * yr) t' → AutoLen L (√3 * 100000000) L' → AutoNoise n "huang20" n' →
      power_spectral_density K env f "TianQin" custom t L approx n = tianqin_psd K f L' (.val t') n') ∧
    (AutoTime t (4 * yr) t' → AutoNoise n "karnesis21" n' →
      power_spectral_density K env f "DECIGO" custom t L approx n = decigo_psd f (.val t') n' 1e-3 1e2) ∧
    (∀ p, custom = some p →
      power_spectral_density K env f "custom" custom t L approx n = p f L t approx n) := by
  have hN : ∀ d, AutoNoise n d n' → n.resolve d = n' := by
    rintro d (⟨rfl, rfl⟩ | ⟨h, rfl⟩)
    · simp [NoiseArg.resolve]
    · rcases n' with _ | s | g
      · rfl
      · have : s ≠ "auto" := by rintro rfl; exact h rfl
        simp [NoiseArg.resolve, this]
      · rfl
  have hT : ∀ d, AutoTime t d t' → t.resolve d = t' := by
    rintro d (⟨rfl, rfl⟩ | rfl) <;> rfl
  have hL : ∀ d, AutoLen L d L' → L.resolve d = L' := by
    rintro d (⟨rfl, rfl⟩ | rfl) <;> rfl
  refine ⟨fun h1 h2 h3 => ?_, fun h1 h2 h3 => ?_, fun h1 h3 => ?_, ?_⟩
  · rw [show (2500000000 : ℝ) = 2.5e9 by norm_num] at h2
    simp [power_spectral_density, hN _ h3, hT _ h1, hL _ h2]
  · rw [show √3 * 100000000 = √3 * 1e5 * 1000 by ring] at h2
    simp only [power_spectral_density, hN _ h3, hT _ h1, hL _ h2]
    rw [if_neg (by decide), if_pos trivial]
  · simp only [power_spectral_density, hN _ h3, hT _ h1]
    rw [if_neg (by decide), if_neg (by decide), if_pos trivial]
  · rintro p rfl
    simp [power_spectral_density]

/-- **C28** (unknown instruments). Exactly the names `LISA`, `TianQin`, `DECIGO` and `custom` are understood; any
other raises `ValueError` without looking at the other arguments. -/
theorem C28_unknown (K : Consts) (env : Env) (f : ℝ) (custom : Option CustomPsd) (t : TimeArg) (L : LenArg)
    (approx : Bool) (n : NoiseArg) (s : String) (h : s ∉ ["LISA", "TianQin", "DECIGO", "custom"]) :
    power_spectral_density K env f s custom t L approx n = .error .ValueError := by
  simp only [List.mem_cons, List.not_mem_nil, or_false, not_or] at h
  simp [power_spectral_density, h.1, h.2.1, h.2.2.1, h.2.2.2]
  rfl

/-! ## C60 -/

/-- **C60** (approximation). The approximate response lies in (0, 3/10] and strictly decreases with |f|. -/
theorem C60_approximation {fstar : ℝ} (hs : 0 < fstar) (f g : ℝ) :
    0 < approximate_response_function f fstar ∧ approximate_response_function f fstar ≤ 3 / 10 ∧
    (approximate_response_function g fstar < approximate_response_function f fstar ↔ |f| < |g|) := by
  refine ⟨approx_pos f fstar, ?_, ?_⟩
  · unfold approximate_response_function
    apply div_le_self (by norm_num)
    have : 0 ≤ (f / fstar) ^ 2 := sq_nonneg _
    linarith
  · unfold approximate_response_function
    rw [div_lt_div_iff_of_pos_left (by norm_num) (by positivity) (by positivity)]
    rw [add_lt_add_iff_left, mul_lt_mul_iff_right₀ (by norm_num), sq_lt_sq, abs_div, abs_div, abs_of_pos hs,
      div_lt_div_iff_of_pos_right hs]

/-- **C60** (missing file). The documented fallback never triggers: a missing response file propagates its
`FileNotFoundError` out of `lisa_psd`, because only `FileExistsError` is caught. -/
theorem C60_missing_file_raises (K : Consts) (spline : List ℝ → List ℝ → ℝ → ℝ) (f L : ℝ) (t : TimeArg)
    (n : NoiseArg) :
    lisa_psd K ⟨.error .FileNotFoundError, spline⟩ f t L false n = .error .FileNotFoundError := rfl

/-- **C60** (what the handler does catch). Only a `FileExistsError` from loading leads to the approximation. -/
theorem C60_fallback_iff (spline : List ℝ → List ℝ → ℝ → ℝ) (f fstar : ℝ) (e : PyErr) :
    load_response_function (.error e) spline f fstar = .ok (approximate_response_function f fstar) ↔
      e = .FileExistsError := by
  cases e <;> simp [load_response_function, pure, Except.pure, throw, throwThe, MonadExceptOf.throw]

/-! ## C64 -/

/-- A user noise function that, like the functions of `psd.py` themselves, starts with `f.to(u.Hz)`: it works for
frequencies with units and raises `AttributeError` for bare numbers. -/
def needsUnits (noise : ℝ → TimeArg → ℝ) : NoiseArg :=
  .fn fun f t => match f with
    | .quantity f => .ok (noise f t)
    | .bare _ => .error .AttributeError

/-- **C64** (negation). A user confusion noise function that takes a frequency with units works for TianQin and fails
for LISA (once the response is loaded) and DECIGO, which strip the units first. -/
theorem C64_user_noise_units (K : Consts) (env : Env) (f L f_low f_high : ℝ) (t : TimeArg)
    (noise : ℝ → TimeArg → ℝ) :
    (∃ x, tianqin_psd K f L t (needsUnits noise) = .ok x) ∧
    lisa_psd K env f t L true (needsUnits noise) = .error .AttributeError ∧
    decigo_psd f t (needsUnits noise) f_low f_high = .error .AttributeError :=
  ⟨⟨_, rfl⟩, rfl, rfl⟩

/-- **C64** (what is passed). User functions are evaluated at the frequency asked for when it is in band, and at
1e-8 Hz otherwise (LISA, DECIGO); TianQin always passes the frequency asked for. -/
theorem C64_user_noise_argument (K : Consts) (env : Env) (f L f_low f_high : ℝ) (t : TimeArg)
    (g h : FreqArg → TimeArg → Except PyErr ℝ) :
    ((∀ x, (x = f ∧ 1e-7 ≤ x ∧ x ≤ 2) ∨ (x = 1e-8 ∧ ¬ (1e-7 ≤ f ∧ f ≤ 2)) → g (.bare x) t = h (.bare x) t) →
      lisa_psd K env f t L true (.fn g) = lisa_psd K env f t L true (.fn h)) ∧
    ((∀ x, (x = f ∧ f_low ≤ x ∧ x ≤ f_high) ∨ (x = 1e-8 ∧ ¬ (f_low ≤ f ∧ f ≤ f_high)) →
        g (.bare x) t = h (.bare x) t) →
      decigo_psd f t (.fn g) f_low f_high = decigo_psd f t (.fn h) f_low f_high) ∧
    (g (.quantity f) t = h (.quantity f) t → tianqin_psd K f L t (.fn g) = tianqin_psd K f L t (.fn h)) := by
  classical
  refine ⟨fun hx => ?_, fun hx => ?_, fun hx => ?_⟩
  · unfold lisa_psd
    simp only [bind, Except.bind, pure, Except.pure, ge_iff_le, noise_bare]
    rw [hx]
    by_cases hc : 1e-7 ≤ f ∧ f ≤ 2
    · left
      rw [if_pos ⟨hc.1, by norm_num; exact hc.2⟩]; exact ⟨rfl, hc⟩
    · right
      refine ⟨?_, hc⟩
      rw [if_neg]
      intro h; apply hc; exact ⟨h.1, by have := h.2; norm_num at this; exact this⟩
  · unfold decigo_psd
    simp only [bind, Except.bind, pure, Except.pure, ge_iff_le, noise_bare]
    rw [hx]
    by_cases hc : f_low ≤ f ∧ f ≤ f_high
    · left
      rw [if_pos hc]; exact ⟨rfl, hc⟩
    · right
      rw [if_neg hc]; exact ⟨rfl, hc⟩
  · unfold tianqin_psd
    simp only [noise_quantity, hx]

end Legwork.Props
