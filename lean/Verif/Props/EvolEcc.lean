import Verif.Lemmas.MergeTime

/-!
# Eccentric evolution and merger times: C15-C18
-/

namespace Legwork.Props

open Real Legwork.utils Legwork.evol Legwork.Spec

variable {ι : Type*}

/-! ## C15 -/

/-- **C15** (equation). Solving `de/dt = evol.de_dt` is solving Peters' equation (5.13). -/
theorem C15_de_dt_is_peters {β c t₀ t₁ : ℝ} {e : ℝ → ℝ} (hb : ∀ t ∈ Set.Icc t₀ t₁, 0 < e t ∧ e t < 1) :
    (∀ t ∈ Set.Icc t₀ t₁, HasDerivAt e (de_dt (e t) β c) t) ↔ EccentricInspiral β c t₀ t₁ e := by
  constructor
  · intro h
    exact ⟨hb, fun t ht => by rw [← de_dt_eq_spec]; exact h t ht⟩
  · intro h t ht
    exact h.deriv ht

/-- **C15** (separation). Along every solution, `a(t) = get_a_from_ecc (e t) c` obeys
`da/dt = -β/a³ · peters_f(e)`. -/
theorem C15_separation_rate {β c t₀ t₁ : ℝ} {e : ℝ → ℝ} (hβ : 0 < β) (hc : 0 < c)
    (h : EccentricInspiral β c t₀ t₁ e) {t : ℝ} (ht : t ∈ Set.Icc t₀ t₁) :
    HasDerivAt (fun s => get_a_from_ecc (e s) c)
      (-β / get_a_from_ecc (e t) c ^ 3 * peters_f (e t)) t :=
  hasDerivAt_a_of_solution (h.bound t ht).1 (h.bound t ht).2 hβ hc (h.deriv ht)

/-- **C15** (frequency). Along every solution, each harmonic `n f_orb` of the orbital frequency changes at the rate
`utils.fn_dot`. -/
theorem C15_frequency_rate (K : Consts) {m₁ m₂ c t₀ t₁ : ℝ} {e : ℝ → ℝ} (h₁ : 0 < m₁) (h₂ : 0 < m₂) (hc : 0 < c)
    (h : EccentricInspiral (utils.beta K m₁ m₂) c t₀ t₁ e) {t : ℝ} (ht : t ∈ Set.Icc t₀ t₁) (n : ℤ) (hn : 1 ≤ n) :
    ∃ v, fn_dot K (chirp_mass m₁ m₂) (get_f_orb_from_a K (get_a_from_ecc (e t) c) m₁ m₂) (e t) [n] = .ok [v] ∧
      HasDerivAt (fun s => n * get_f_orb_from_a K (get_a_from_ecc (e s) c) m₁ m₂) v t := by
  obtain ⟨h0, h1⟩ := h.bound t ht
  have ha := get_a_from_ecc_pos h0 h1 hc
  have hb := beta_pos K h₁ h₂
  refine ⟨fn_dot_val K (chirp_mass m₁ m₂) (get_f_orb_from_a K (get_a_from_ecc (e t) c) m₁ m₂) (e t) n,
    by simp [fn_dot, not_lt.2 hn], ?_⟩
  have d := (hasDerivAt_f K (a := fun s => get_a_from_ecc (e s) c) ha h₁ h₂ (C15_separation_rate hb hc h ht)).const_mul (n : ℝ)
  refine d.congr_deriv ?_
  have hf := get_f_orb_from_a_pos K ha h₁ h₂
  rw [fn_dot_val_eq K n hf ha h₁ h₂ ((C01_get_f_iff_kepler K hf ha h₁ h₂).1 rfl)]
  field_simp

/-- Non-vacuity of C15-C16: from every eccentricity in `(0, 1)` a solution exists, up to the exact merger time. -/
theorem C15_solutions_exist {β c e₀ : ℝ} (hβ : 0 < β) (hc : 0 < c) (h0 : 0 < e₀) (h1 : e₀ < 1) :
    ∃ (e : ℝ → ℝ) (T : ℝ), 0 < T ∧ e 0 = e₀ ∧ ∀ t < T, EccentricInspiral β c 0 t e := by
  obtain ⟨e, he, h⟩ := exists_solution hβ hc h0 h1
  exact ⟨e, _, t_exact_pos hβ hc h0 h1, he, h⟩

/-! ## C16 -/

/-- **C16.** Let every source of the array follow an exact solution of the eccentricity equation from `t₀` to `t₁`.
The exact merger times computed by `get_t_merge_ecc` from the state at `t₁` are those computed at `t₀` minus
`t₁ - t₀` (for eccentricities inside the range treated by quadrature). -/
theorem C16_merger_time_counts_down (K : Consts) {β c : ι → ℝ} {e : ι → ℝ → ℝ} {t₀ t₁ s l : ℝ}
    (hβ : ∀ i, 0 < β i) (hc : ∀ i, 0 < c i) (hle : t₀ ≤ t₁) (hs : 0 < s)
    (h : ∀ i, EccentricInspiral (β i) (c i) t₀ t₁ (e i)) (hlow : ∀ i, s ≤ e i t₁) (hhigh : ∀ i, e i t₀ ≤ l)
    (hsl : s ≤ l) :
    ∃ T₀ T₁ : ι → ℝ,
      get_t_merge_ecc K (fun i => e i t₀) (some fun i => get_a_from_ecc (e i t₀) (c i)) none (some β) none none
        s l true = .ok T₀ ∧
      get_t_merge_ecc K (fun i => e i t₁) (some fun i => get_a_from_ecc (e i t₁) (c i)) none (some β) none none
        s l true = .ok T₁ ∧
      ∀ i, T₁ i = T₀ i - (t₁ - t₀) := by
  have m0 : t₀ ∈ Set.Icc t₀ t₁ := ⟨le_rfl, hle⟩
  have m1 : t₁ ∈ Set.Icc t₀ t₁ := ⟨hle, le_rfl⟩
  refine ⟨_, _, get_t_merge_ecc_a K _ _ _ true hs hsl (fun i => ((h i).bound t₀ m0).1.le),
    get_t_merge_ecc_a K _ _ _ true hs hsl (fun i => ((h i).bound t₁ m1).1.le), fun i => ?_⟩
  have hanti := (h i).antitone (hβ i) (hc i)
  have hmono : e i t₁ ≤ e i t₀ := hanti.antitoneOn m0 m1 hle
  obtain ⟨p0, q0⟩ := (h i).bound t₀ m0
  obtain ⟨p1, q1⟩ := (h i).bound t₁ m1
  have a1 := hlow i
  have a2 := hhigh i
  simp only [t_val]
  rw [if_neg p1.ne', if_neg (not_lt.2 a1), if_neg (not_lt.2 (hmono.trans a2)), if_neg p0.ne',
    if_neg (not_lt.2 (a1.trans hmono)), if_neg (not_lt.2 a2)]
  simp only [if_true]
  rw [c_0_of_get_a p1 q1, c_0_of_get_a p0 q0]
  exact t_exact_countdown (h i) (hβ i) (hc i) hle

/-- **C16** (end point). No solution reaches the exact merger time of its initial state. -/
theorem C16_solutions_end_before_merger (K : Consts) {β c t₀ t₁ : ℝ} {e : ℝ → ℝ} (hβ : 0 < β) (hc : 0 < c)
    (hle : t₀ ≤ t₁) (h : EccentricInspiral β c t₀ t₁ e) {s l : ℝ} (hs : 0 < s) (hlow : s ≤ e t₀) (hhigh : e t₀ ≤ l)
    {T : Unit → ℝ}
    (hT : get_t_merge_ecc K (fun _ => e t₀) (some fun _ => get_a_from_ecc (e t₀) c) none (some fun _ => β) none none
      s l true = .ok T) : t₁ < t₀ + T () := by
  have m0 : t₀ ∈ Set.Icc t₀ t₁ := ⟨le_rfl, hle⟩
  have m1 : t₁ ∈ Set.Icc t₀ t₁ := ⟨hle, le_rfl⟩
  obtain ⟨p0, q0⟩ := h.bound t₀ m0
  obtain ⟨p1, q1⟩ := h.bound t₁ m1
  rw [get_t_merge_ecc_a K _ _ _ true hs (hlow.trans hhigh) (fun _ => p0.le)] at hT
  simp only [Except.ok.injEq] at hT
  subst hT
  simp only [t_val]
  rw [if_neg p0.ne', if_neg (not_lt.2 hlow), if_neg (not_lt.2 hhigh)]
  simp only [if_true]
  rw [c_0_of_get_a p0 q0]
  have := t_exact_countdown h hβ hc hle
  have := t_exact_pos hβ hc p1 q1
  linarith

/-- Non-vacuity of C16: there is a solution from `e = 1/2` that is still above `s = 1/4` a little later. -/
example : ∃ (e : ℝ → ℝ) (t : ℝ), 0 < t ∧ EccentricInspiral 1 1 0 t e ∧ 1 / 4 ≤ e t ∧ e 0 = 1 / 2 := by
  obtain ⟨e, T, hT, he, h⟩ := C15_solutions_exist (β := 1) (c := 1) (e₀ := 1 / 2) one_pos one_pos
    (by norm_num) (by norm_num)
  have hcont : ContinuousAt e 0 := ((h 0 hT).deriv ⟨le_rfl, le_rfl⟩).continuousAt
  have hev : ∀ᶠ t in nhds (0 : ℝ), 1 / 4 < e t := hcont.eventually (lt_mem_nhds (by rw [he]; norm_num))
  obtain ⟨δ, hδ, hball⟩ := Metric.eventually_nhds_iff.1 hev
  refine ⟨e, min (δ / 2) (T / 2), by positivity, h _ ?_, (hball ?_).le, he⟩
  · exact lt_of_le_of_lt (min_le_right _ _) (by linarith)
  · rw [Real.dist_eq, sub_zero, abs_of_pos (by positivity)]
    exact lt_of_le_of_lt (min_le_left _ _) (by linarith)

/-! ## C17 -/

/-- **C17.** With the default tolerances, and both with the exact integral and with the fit, the merger time of a
binary of eccentricity `0 ≤ e < 1` is positive, at most the merger time of the circular binary with the same
separation and masses, and at least that time divided by the enhancement factor. The bounds hold for every way
of supplying masses/beta and separation/frequency. -/
theorem C17_circular_bounds (K : Consts) {ecc : ι → ℝ} {a f b m₁ m₂ : Option (ι → ℝ)} {b' a' : ι → ℝ} (ex : Bool)
    (hin : check_mass_freq_input K b m₁ m₂ a f = .ok (b', a')) (hb : ∀ i, 0 < b' i) (ha : ∀ i, 0 < a' i)
    (h0 : ∀ i, 0 ≤ ecc i) (h1 : ∀ i, ecc i < 1) :
    ∃ T Tc : ι → ℝ, get_t_merge_ecc K ecc a f b m₁ m₂ 0.15 (1 - 1e-4) ex = .ok T ∧
      get_t_merge_circ K b m₁ m₂ a f = .ok Tc ∧
      ∀ i, 0 < T i ∧ T i ≤ Tc i ∧ Tc i / peters_f (ecc i) ≤ T i := by
  refine ⟨_, fun i => a' i ^ 4 / (4 * b' i),
    get_t_merge_ecc_of_check K ex hin (by norm_num) (by norm_num) h0,
    by simp [get_t_merge_circ, hin, bind, Except.bind, pure, Except.pure], fun i => ?_⟩
  obtain ⟨q1, q2, q3⟩ := t_val_bounds (hb i) (ha i) (h0 i) (h1 i) ex
  exact ⟨q1, q2, (div_le_iff₀ (peters_f_pos' (h0 i) (h1 i))).2 q3⟩

/-- **C17** (negative part). The bound needs the default tolerance: if the high-eccentricity formula is used for
nearly circular binaries (`large_e_tol` too small) the merger time exceeds the circular one. -/
theorem C17_large_branch_needs_tolerance (K : Consts) : ∃ T : Unit → ℝ,
    get_t_merge_ecc K (fun _ => 0.2) (some fun _ => 1) none (some fun _ => 1) none none 0.05 0.1 true = .ok T ∧
    get_t_merge_circ K (some fun _ : Unit => 1) none none (some fun _ => 1) none = .ok (fun _ => 1 / 4) ∧
    1 / 4 < T () := by
  refine ⟨_, get_t_merge_ecc_a K _ _ _ true (by norm_num) (by norm_num) (fun _ => by norm_num), ?_, ?_⟩
  · rw [get_t_merge_circ_some]; norm_num
  · have : t_val 1 1 0.2 0.05 0.1 true = t_large (c_0 1 0.2) 1 0.2 := by
      simp only [t_val]
      rw [if_neg (by norm_num), if_neg (by norm_num), if_pos (by norm_num)]
    rw [this, t_large_eq (by norm_num) (by norm_num)]
    have h := rpow_le_rpow_of_exponent_ge (x := 1 - (0.2 : ℝ) ^ 2) (by norm_num) (by norm_num)
      (show (7 / 2 : ℝ) ≤ 4 by norm_num)
    rw [rpow_ofNat] at h
    norm_num at h ⊢
    linarith

/-- Non-vacuity of C17. -/
example (K : Consts) : ∃ b' a' : Unit → ℝ, check_mass_freq_input K none (some fun _ => 1) (some fun _ => 2) none
    (some fun _ => 3) = .ok (b', a') ∧ 0 < b' () ∧ 0 < a' () :=
  ⟨_, _, by simp [check_mass_freq_input, pure, Except.pure, bind, Except.bind]; exact ⟨rfl, rfl⟩,
    beta_pos K one_pos two_pos, get_a_from_f_orb_pos K three_pos one_pos two_pos⟩

/-! ## C18 -/

/-- **C18.** For `0 < small_e_tol ≤ large_e_tol` the array call returns, at every position, what the call with that
source's scalars returns, and fails exactly when that fails. -/
theorem C18_array_eq_scalar (K : Consts) (ecc : ι → ℝ) (a f b m₁ m₂ : Option (ι → ℝ)) {s l : ℝ} (ex : Bool)
    (hs : 0 < s) (hsl : s ≤ l) (h0 : ∀ i, 0 ≤ ecc i) (i : ι) :
    (get_t_merge_ecc K ecc a f b m₁ m₂ s l ex).map (fun T => T i)
      = get_t_merge_ecc_scalar K (ecc i) (a.map (· i)) (f.map (· i)) (b.map (· i)) (m₁.map (· i)) (m₂.map (· i))
          s l ex := by
  have key : (check_mass_freq_input K b m₁ m₂ a f).map (fun p => (p.1 i, p.2 i))
      = (check_mass_freq_input (ι := Unit) K ((b.map (· i)).map fun x _ => x) ((m₁.map (· i)).map fun x _ => x)
          ((m₂.map (· i)).map fun x _ => x) ((a.map (· i)).map fun x _ => x)
          ((f.map (· i)).map fun x _ => x)).map (fun p => (p.1 (), p.2 ())) := by
    rcases a with _ | a <;> rcases f with _ | f <;> rcases b with _ | b <;> rcases m₁ with _ | m₁ <;>
      rcases m₂ with _ | m₂ <;> rfl
  unfold get_t_merge_ecc_scalar
  rcases hA : check_mass_freq_input K b m₁ m₂ a f with er | ⟨b', a'⟩
  · rw [hA] at key
    rcases hB : check_mass_freq_input (ι := Unit) K ((b.map (· i)).map fun x _ => x)
      ((m₁.map (· i)).map fun x _ => x) ((m₂.map (· i)).map fun x _ => x) ((a.map (· i)).map fun x _ => x)
      ((f.map (· i)).map fun x _ => x) with er' | ⟨b'', a''⟩
    · rw [hB] at key
      simp only [Except.map, Except.error.injEq] at key
      simp only [get_t_merge_ecc, hA, hB, bind, Except.bind, Except.map, key]
    · rw [hB] at key
      simp [Except.map] at key
  · rw [hA] at key
    rcases hB : check_mass_freq_input (ι := Unit) K ((b.map (· i)).map fun x _ => x)
      ((m₁.map (· i)).map fun x _ => x) ((m₂.map (· i)).map fun x _ => x) ((a.map (· i)).map fun x _ => x)
      ((f.map (· i)).map fun x _ => x) with er' | ⟨b'', a''⟩
    · rw [hB] at key
      simp [Except.map] at key
    · rw [hB] at key
      simp only [Except.map, Except.ok.injEq, Prod.mk.injEq] at key
      obtain ⟨k1, k2⟩ := key
      rw [get_t_merge_ecc_of_check K ex hA hs hsl h0]
      simp only [hB, bind, Except.bind, Except.map, pure, Except.pure, t_val, ← k1, ← k2]
      split_ifs <;> rfl

/-- **C18** (values). Exactly one of the four branches applies to each eccentricity, and the reported merger time is
that branch's formula. The formulae are written out from Peters (1964) and Mandel (2021). -/
theorem C18_one_branch (K : Consts) (ecc a β T : ι → ℝ) {s l : ℝ} (ex : Bool) (hs : 0 < s) (hsl : s ≤ l)
    (h0 : ∀ i, 0 ≤ ecc i)
    (hT : get_t_merge_ecc K ecc (some a) none (some β) none none s l ex = .ok T) (i : ι) :
    (ecc i = 0 ∧ T i = a i ^ 4 / (4 * β i)) ∨
    ((0 < ecc i ∧ ecc i < s) ∧ T i = c_0 (a i) (ecc i) ^ 4 * ecc i ^ (48 / 19 : ℝ) / (4 * β i)) ∨
    ((s ≤ ecc i ∧ ecc i ≤ l) ∧ T i = if ex then
        12 / 19 * c_0 (a i) (ecc i) ^ 4 / β i * ∫ x in (0 : ℝ)..ecc i,
          x ^ (29 / 19 : ℝ) * (1 + 121 / 304 * x ^ 2) ^ (1181 / 2299 : ℝ) / (1 - x ^ 2) ^ (3 / 2 : ℝ)
        else a i ^ 4 / (4 * β i) * t_merge_mandel_fit (ecc i)) ∨
    (l < ecc i ∧ T i = 768 / 425 * (c_0 (a i) (ecc i) ^ 4 / (4 * β i)) * ecc i ^ (48 / 19 : ℝ)
        * (1 + 121 / 304 * ecc i ^ 2) ^ (3480 / 2299 : ℝ) * (1 - ecc i ^ 2) ^ (-1 / 2 : ℝ)) := by
  rw [get_t_merge_ecc_a K _ _ _ ex hs hsl h0] at hT
  simp only [Except.ok.injEq] at hT
  subst hT
  simp only [t_val]
  by_cases c1 : ecc i = 0
  · exact Or.inl ⟨c1, if_pos c1⟩
  rw [if_neg c1]
  by_cases c2 : ecc i < s
  · rw [if_pos c2]
    exact Or.inr (Or.inl ⟨⟨lt_of_le_of_ne (h0 i) (Ne.symm c1), c2⟩, by unfold t_small; ring⟩)
  rw [if_neg c2]
  by_cases c3 : ecc i > l
  · rw [if_pos c3]
    exact Or.inr (Or.inr (Or.inr ⟨c3, by unfold t_large; ring⟩))
  rw [if_neg c3]
  refine Or.inr (Or.inr (Or.inl ⟨⟨not_lt.1 c2, not_lt.1 c3⟩, ?_⟩))
  rcases ex with _ | _ <;> rfl

/-- **C18** (negative part). If `small_e_tol > large_e_tol`, the two call styles disagree for every eccentricity in
between: the array call uses the high-eccentricity formula, the single-source call the low-eccentricity one, which
is always smaller. -/
theorem C18_crossed_tolerances_disagree (K : Consts) {e a β s l : ℝ} (ex : Bool) (ha : 0 < a) (hβ : 0 < β)
    (h0 : 0 < e) (h1 : e < 1) (hl : l < e) (hs : e < s) :
    ∃ (x : ℝ) (T : Unit → ℝ),
      get_t_merge_ecc_scalar K e (some a) none (some β) none none s l ex = .ok x ∧
      get_t_merge_ecc K (fun _ => e) (some fun _ => a) none (some fun _ => β) none none s l ex = .ok T ∧
      x < T () := by
  refine ⟨t_small (c_0 a e) β e, fun _ => t_large (c_0 a e) β e, ?_, ?_, ?_⟩
  · simp [get_t_merge_ecc_scalar, check_mass_freq_input, bind, Except.bind, pure, Except.pure, h0.ne', hs]
  · rcases ex with _ | _ <;>
    · simp only [get_t_merge_ecc, check_mass_freq_input, bind, Except.bind, pure, Except.pure]
      rw [if_neg (by intro h; exact h0.ne' (h ()))]
      congr 1
      funext i
      simp [np.maskAssign, h0.ne', hl, not_le.2 hs]
  · have hc := c_0_pos h0 h1 ha
    have hsq := one_sub_sq_pos' h0.le h1
    unfold t_large t_small
    have p1 : 1 ≤ (1 - e ^ 2) ^ (-1 / 2 : ℝ) :=
      one_le_rpow_of_pos_of_le_one_of_nonpos hsq (by nlinarith) (by norm_num)
    have p2 : 1 ≤ (1 + 121 / 304 * e ^ 2) ^ (3480 / 2299 : ℝ) :=
      one_le_rpow (by nlinarith [sq_nonneg e]) (by norm_num)
    have hX : 0 < c_0 a e ^ 4 / (4 * β) * e ^ (48 / 19 : ℝ) := by positivity
    have p3 : 1 ≤ (1 - e ^ 2) ^ (-1 / 2 : ℝ) * (1 + 121 / 304 * e ^ 2) ^ (3480 / 2299 : ℝ) :=
      one_le_mul_of_one_le_of_one_le p1 p2
    nlinarith

/-- **C18** (negative part). With `small_e_tol = 0`, meant to integrate every eccentric source, a circular source
that shares the array with an eccentric one is reported with merger time 0, although alone it gets the circular
merger time: the mask of the quadrature branch includes eccentricity 0 and `c_0` is left at 0 for it. -/
theorem C18_zero_tolerance_breaks_circular (K : Consts) {e a β l : ℝ} (h0 : 0 < e) (hl : e ≤ l) :
    ∃ T : Bool → ℝ,
      get_t_merge_ecc K (fun i => bif i then e else 0) (some fun _ => a) none (some fun _ => β) none none 0 l true
        = .ok T ∧ T false = 0 ∧
      get_t_merge_ecc_scalar K 0 (some a) none (some β) none none 0 l true = .ok (a ^ 4 / (4 * β)) := by
  have hne : ¬ ∀ i : Bool, (bif i then e else 0) = 0 := fun h => h0.ne' (h true)
  simp only [get_t_merge_ecc, check_mass_freq_input, bind, Except.bind, pure, Except.pure]
  rw [if_neg hne]
  refine ⟨_, rfl, ?_, ?_⟩
  · simp [np.maskAssign, (h0.le.trans hl), t_exact]
  · simp [get_t_merge_ecc_scalar, check_mass_freq_input, bind, Except.bind, pure, Except.pure]

end Legwork.Props
