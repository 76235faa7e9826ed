import Mathlib.Topology.Order.Basic
import Verif.Lemmas.BranchAccuracy
import Verif.Props.EvolEcc
import Verif.Props.EvolInput
import Verif.Props.SourceMasks

/-!
# C86, C87: accuracy of the merger times, and what `avoid_merger` avoids
-/

namespace Legwork.Props

open Real Filter Topology Legwork.utils Legwork.evol Legwork.PolyCheck Legwork.Spec

variable {ι : Type*}

theorem within_of {r x y : ℝ} (h1 : (1 - r) * y ≤ x) (h2 : x ≤ (1 + r) * y) : Within r x y := by
  unfold Within; rw [abs_le]; constructor <;> linarith

theorem petersTime_pos {a β e : ℝ} (ha : 0 < a) (hβ : 0 < β) (h0 : 0 ≤ e) (h1 : e < 1) : 0 < petersTime a β e := by
  rcases h0.eq_or_lt with rfl | h
  · unfold petersTime; rw [if_pos rfl]; positivity
  · rw [petersTime_eq h, t_exact_eq]
    have := c_0_pos h h1 ha
    have := I514_pos h h1
    positivity

/-- The accuracy of one merger time, branch by branch. -/
def Accurate (ex : Bool) (e T P : ℝ) : Prop :=
  (e = 0 → T = P) ∧
  (0 < e → e < 0.15 → T ≤ P ∧ P ≤ 1.022 * T) ∧
  (0.15 ≤ e → e ≤ 0.9999 → ex = true → T = P) ∧
  (0.15 ≤ e → e ≤ 0.97 → ex = false → Within 0.005 T P) ∧
  (0.97 ≤ e → e ≤ 0.9999 → ex = false → Within 0.03 T P) ∧
  (0.9999 < e → P ≤ T ∧ T ≤ 1.021 * P)

theorem t_val_accurate {a β e : ℝ} (hβ : 0 < β) (h0 : 0 ≤ e) (h1 : e < 1) (ex : Bool) :
    Accurate ex e (t_val a β e 0.15 (1 - 1e-4) ex) (petersTime a β e) := by
  refine ⟨?_, ?_, ?_, ?_, ?_, ?_⟩
  · rintro rfl
    simp [t_val, petersTime]
  · intro hp hs
    have : t_val a β e 0.15 (1 - 1e-4) ex = t_small (c_0 a e) β e := by
      unfold t_val; rw [if_neg hp.ne', if_pos hs]
    rw [this, petersTime_eq hp]
    exact ⟨t_small_le_exact hβ hp h1, t_exact_le_small hβ hp hs⟩
  · rintro hs hl rfl
    have hp : 0 < e := by linarith
    unfold t_val
    rw [if_neg hp.ne', if_neg (by linarith), if_neg (by norm_num at hl ⊢; linarith), if_pos rfl, petersTime_eq hp]
  · rintro hs hl rfl
    have hp : 0 < e := by linarith
    have : t_val a β e 0.15 (1 - 1e-4) false = t_fit a β e := by
      unfold t_val
      rw [if_neg hp.ne', if_neg (by linarith), if_neg (by norm_num at hl ⊢; linarith), if_neg (by simp)]
    rw [this, petersTime_eq hp]
    obtain ⟨q1, q2⟩ := fitNum_mid hs hl
    apply within_of
    · have := (t_fit_of_num (a := a) (k := 0.995) hβ hs h1).1 q1 (by norm_num)
      norm_num at this ⊢; exact this
    · have := (t_fit_of_num (a := a) (k := 1.005) hβ hs h1).2 q2 (by norm_num)
      norm_num at this ⊢; exact this
  · rintro hs hl rfl
    have hp : 0 < e := by linarith
    have : t_val a β e 0.15 (1 - 1e-4) false = t_fit a β e := by
      unfold t_val
      rw [if_neg hp.ne', if_neg (by linarith), if_neg (by norm_num at hl ⊢; linarith), if_neg (by simp)]
    rw [this, petersTime_eq hp]
    obtain ⟨q1, q2⟩ := fitNum_high hs hl
    apply within_of
    · have := (t_fit_of_num (a := a) (k := 0.97) hβ (by linarith) h1).1 q1 (by norm_num)
      norm_num at this ⊢; exact this
    · have := (t_fit_of_num (a := a) (k := 1.03) hβ (by linarith) h1).2 q2 (by norm_num)
      norm_num at this ⊢; exact this
  · intro hl
    have hp : 0 < e := by linarith
    have : t_val a β e 0.15 (1 - 1e-4) ex = t_large (c_0 a e) β e := by
      unfold t_val
      rw [if_neg hp.ne', if_neg (by linarith), if_pos (by norm_num at hl ⊢; linarith)]
    rw [this, petersTime_eq hp]
    exact ⟨t_exact_le_large hβ hp h1, t_large_le hβ (by norm_num at hl ⊢; linarith) h1⟩

/-- **C86** (branch by branch). With the default tolerances: circular binaries get Peters' time exactly; below 0.15
the time is never too long and short by at most 2.2%; from 0.15 to 0.9999 it is Peters' time when `exact`, and
otherwise within 0.5% up to 0.97 and within 3% beyond; above 0.9999 it is never too short and long by at most 2.1%. -/
theorem C86_branches (K : Consts) {ecc : ι → ℝ} {a f b m₁ m₂ : Option (ι → ℝ)} {b' a' : ι → ℝ} (ex : Bool)
    (hin : check_mass_freq_input K b m₁ m₂ a f = .ok (b', a')) (hb : ∀ i, 0 < b' i)
    (h0 : ∀ i, 0 ≤ ecc i) (h1 : ∀ i, ecc i < 1) :
    ∃ T : ι → ℝ, get_t_merge_ecc K ecc a f b m₁ m₂ 0.15 (1 - 1e-4) ex = .ok T ∧
      ∀ i, (ecc i = 0 → T i = petersTime (a' i) (b' i) (ecc i)) ∧
        (0 < ecc i → ecc i < 0.15 →
          T i ≤ petersTime (a' i) (b' i) (ecc i) ∧ petersTime (a' i) (b' i) (ecc i) ≤ 1.022 * T i) ∧
        (0.15 ≤ ecc i → ecc i ≤ 0.9999 → ex = true → T i = petersTime (a' i) (b' i) (ecc i)) ∧
        (0.15 ≤ ecc i → ecc i ≤ 0.97 → ex = false → Within 0.005 (T i) (petersTime (a' i) (b' i) (ecc i))) ∧
        (0.97 ≤ ecc i → ecc i ≤ 0.9999 → ex = false → Within 0.03 (T i) (petersTime (a' i) (b' i) (ecc i))) ∧
        (0.9999 < ecc i →
          petersTime (a' i) (b' i) (ecc i) ≤ T i ∧ T i ≤ 1.021 * petersTime (a' i) (b' i) (ecc i)) :=
  ⟨_, get_t_merge_ecc_of_check K ex hin (by norm_num) (by norm_num) h0,
    fun i => t_val_accurate (hb i) (h0 i) (h1 i) ex⟩

theorem Accurate.within {ex : Bool} {e T P : ℝ} (h : Accurate ex e T P) (hP : 0 < P) (h0 : 0 ≤ e) :
    Within (if ex then 0.022 else 0.03) T P := by
  obtain ⟨q0, q1, q2, q3, q4, q5⟩ := h
  have weaken : ∀ {r r' : ℝ}, Within r T P → r ≤ r' → Within r' T P := fun {r r'} hw hr =>
    hw.trans (mul_le_mul_of_nonneg_right hr hP.le)
  have h022 : ∀ {r : ℝ}, r ≤ 0.022 → Within r T P → Within (if ex then 0.022 else 0.03) T P := by
    intro r hr hw
    refine weaken hw (hr.trans ?_)
    cases ex <;> norm_num
  rcases h0.eq_or_lt with h | hp
  · exact h022 (r := 0) (by norm_num) (by rw [q0 h.symm]; unfold Within; simp)
  by_cases hs : e < 0.15
  · obtain ⟨p1, p2⟩ := q1 hp hs
    exact h022 le_rfl (within_of (by norm_num at p2 ⊢; linarith) (by norm_num at p2 ⊢; linarith))
  push Not at hs
  by_cases hl : e ≤ 0.9999
  · cases ex
    · by_cases hm : e ≤ 0.97
      · exact weaken (q3 hs hm rfl) (by norm_num)
      · exact q4 (le_of_not_ge hm) hl rfl
    · exact h022 (r := 0) (by norm_num) (by rw [q2 hs hl rfl]; unfold Within; simp)
  · obtain ⟨p1, p2⟩ := q5 (lt_of_not_ge hl)
    exact h022 (r := 0.021) (by norm_num) (within_of (by norm_num at p2 ⊢; linarith) (by norm_num at p2 ⊢; linarith))

/-- **C86.** With the default tolerances every merger time is within 2.2% of Peters' when `exact`, and within 3%
otherwise, whatever the masses, separations and eccentricities. -/
theorem C86_within (K : Consts) {ecc : ι → ℝ} {a f b m₁ m₂ : Option (ι → ℝ)} {b' a' : ι → ℝ} (ex : Bool)
    (hin : check_mass_freq_input K b m₁ m₂ a f = .ok (b', a')) (hb : ∀ i, 0 < b' i) (ha : ∀ i, 0 < a' i)
    (h0 : ∀ i, 0 ≤ ecc i) (h1 : ∀ i, ecc i < 1) :
    ∃ T : ι → ℝ, get_t_merge_ecc K ecc a f b m₁ m₂ 0.15 (1 - 1e-4) ex = .ok T ∧
      ∀ i, Within (if ex then 0.022 else 0.03) (T i) (petersTime (a' i) (b' i) (ecc i)) :=
  ⟨_, get_t_merge_ecc_of_check K ex hin (by norm_num) (by norm_num) h0, fun i =>
    (t_val_accurate (hb i) (h0 i) (h1 i) ex).within (petersTime_pos (ha i) (hb i) (h0 i) (h1 i)) (h0 i)⟩

/-- **C86** (collections). The same for `Source.get_merger_time`: each time returned is 0 for a merged source and
otherwise within the tolerance of Peters' time for that source's masses, orbital frequency and eccentricity. -/
theorem C86_sources (K : Consts) {r : One} {t : ℝ} (ex : Bool) (ht : MergerTimeOf K ex r t) (h₁ : 0 < r.m_1)
    (h₂ : 0 < r.m_2) (hf : 0 < r.f_orb) (h0 : 0 ≤ r.ecc) (h1 : r.ecc < 1) :
    if r.merged then t = 0 else Within (if ex then 0.022 else 0.03) t
      (petersTime (get_a_from_f_orb K r.f_orb r.m_1 r.m_2) (utils.beta K r.m_1 r.m_2) r.ecc) := by
  unfold MergerTimeOf at ht
  split
  · rename_i hm; simpa [hm] using ht
  · rename_i hm
    rw [if_neg hm] at ht
    obtain ⟨T, hT, hw⟩ := C86_within (ι := Unit) K (ecc := fun _ => r.ecc) (a := none) (f := some fun _ => r.f_orb)
      (b := none) (m₁ := some fun _ => r.m_1) (m₂ := some fun _ => r.m_2)
      (b' := fun _ => utils.beta K r.m_1 r.m_2) (a' := fun _ => get_a_from_f_orb K r.f_orb r.m_1 r.m_2) ex
      rfl (fun _ => beta_pos K h₁ h₂)
      (fun _ => get_a_from_f_orb_pos K hf h₁ h₂) (fun _ => h0) (fun _ => h1)
    rw [ht] at hT
    injection hT with hT
    have := hw ()
    rwa [← hT] at this

/-- **C86** (negative part). The documentation of the fit promises errors within 0.5%. At eccentricity 480/481 the
fitted merger time is more than 2.8% too short, for every separation and every pair of masses. -/
theorem C86_documented_fit_error (K : Consts) {a β : ℝ} (ha : 0 < a) (hβ : 0 < β) : ∃ T : Unit → ℝ,
    get_t_merge_ecc K (fun _ => 480 / 481) (some fun _ => a) none (some fun _ => β) none none 0.15 (1 - 1e-4) false
      = .ok T ∧ T () < 0.972 * petersTime a β (480 / 481) := by
  refine ⟨_, get_t_merge_ecc_a K _ _ _ false (by norm_num) (by norm_num) (fun _ => by norm_num), ?_⟩
  have hp := petersTime_pos (e := 480 / 481) ha hβ (by norm_num) (by norm_num)
  have hv : t_val a β (480 / 481) 0.15 (1 - 1e-4) false = t_fit a β (480 / 481) := by
    unfold t_val
    rw [if_neg (by norm_num), if_neg (by norm_num), if_neg (by norm_num), if_neg (by simp)]
  have hs : √(1 - (480 / 481 : ℝ) ^ 2) = 31 / 481 := by
    rw [show (1 - (480 / 481 : ℝ) ^ 2) = (31 / 481) ^ 2 by norm_num, sqrt_sq (by norm_num)]
  have hpow : ((480 / 481 : ℚ) : ℝ) ^ 1000 ≤ ((0.1252 : ℚ) : ℝ) := by
    have : (480 / 481 : ℚ) ^ 1000 ≤ 0.1252 := by decide +kernel
    exact_mod_cast this
  have hnum : fitNum (480 / 481) ≤ 0.9715 * corr (480 / 481) * ev lower √(1 - (480 / 481 : ℝ) ^ 2) := by
    rw [hs]
    unfold fitNum
    rw [corr_eq]
    simp only [lower, ev_cons, ev_nil]
    push_cast at hpow ⊢
    have h2 : 0.20 * ((480 / 481 : ℝ) ^ 1000) ≤ 0.20 * 0.1252 :=
      mul_le_mul_of_nonneg_left hpow (by norm_num)
    refine (add_le_add_right h2 _).trans ?_
    norm_num
  have := (t_fit_of_num (a := a) (k := 0.9715) hβ (by norm_num) (by norm_num)).2 hnum (by norm_num)
  show t_val a β (480 / 481) 0.15 (1 - 1e-4) false < _
  rw [hv, petersTime_eq (by norm_num)]
  rw [petersTime_eq (by norm_num)] at hp
  norm_num at this ⊢
  linarith

/-- **C86** (circular limit). Peters' time tends to the circular one as the eccentricity tends to 0, so the branch for
eccentricity 0 is its continuous extension. -/
theorem C86_circular_limit {a β : ℝ} (hβ : 0 < β) :
    Tendsto (fun e => petersTime a β e) (𝓝[>] 0) (𝓝 (petersTime a β 0)) := by
  have h0 : petersTime a β 0 = a ^ 4 / (4 * β) := by unfold petersTime; rw [if_pos rfl]
  rw [h0]
  have hev : ∀ᶠ e : ℝ in 𝓝[>] 0, 0 < e ∧ e < 1 :=
    (Ioo_mem_nhdsGT (show (0 : ℝ) < 1 by norm_num))
  have hlow : Tendsto (fun e : ℝ => a ^ 4 * (1 - e ^ 2) ^ 4 / (1 + 121 / 304 * e ^ 2) ^ (3480 / 2299 : ℝ) / (4 * β))
      (𝓝[>] 0) (𝓝 (a ^ 4 / (4 * β))) := by
    have hc : ContinuousAt (fun e : ℝ => a ^ 4 * (1 - e ^ 2) ^ 4 / (1 + 121 / 304 * e ^ 2) ^ (3480 / 2299 : ℝ)
        / (4 * β)) 0 := by
      apply ContinuousAt.div_const
      apply ContinuousAt.div (by fun_prop)
      · exact ContinuousAt.rpow_const (by fun_prop) (Or.inr (by norm_num))
      · norm_num
    have := hc.tendsto.mono_left (nhdsWithin_le_nhds (s := Set.Ioi 0))
    simpa using this
  refine tendsto_of_tendsto_of_tendsto_of_le_of_le' hlow tendsto_const_nhds ?_ ?_
  · filter_upwards [hev] with e he
    rw [petersTime_eq he.1]
    refine le_trans (le_of_eq ?_) (t_small_le_exact hβ he.1 he.2)
    unfold t_small
    have hk : 0 < 1 + 121 / 304 * e ^ 2 := by positivity
    rw [← c_0_pow_four he.1 he.2]
    field_simp
  · filter_upwards [hev] with e he
    rw [petersTime_eq he.1, t_exact_eq]
    have := I514_le (c := c_0 a e) he.1.le he.2
    rw [Props.C02_a_roundtrip he.1 he.2] at this
    exact div_le_div_of_nonneg_right this (by positivity)

/-- The hypotheses of C86 are met by sources given through masses and frequencies, at every eccentricity. -/
example (K : Consts) (ecc : Fin 4 → ℝ) (h0 : ∀ i, 0 ≤ ecc i) (h1 : ∀ i, ecc i < 1) :=
  C86_within K (ecc := ecc) (a := none) (f := some fun _ => 1e-3) (b := none) (m₁ := some fun _ => 2e30)
    (m₂ := some fun _ => 1e30) false rfl (fun _ => beta_pos K (by norm_num) (by norm_num))
    (fun _ => get_a_from_f_orb_pos K (by norm_num) (by norm_num) (by norm_num)) h0 h1

/-! ## C87 -/

/-- How far beyond Peters' time the calculated one may lie, as a fraction. -/
noncomputable def overshoot (ex : Bool) (e : ℝ) : ℝ :=
  if e < 0.15 then 0 else if 0.9999 < e then 0.021 else if ex then 0 else if e ≤ 0.97 then 0.005 else 0.03

theorem Accurate.le {ex : Bool} {e T P : ℝ} (h : Accurate ex e T P) (h0 : 0 ≤ e) :
    T ≤ P + overshoot ex e * P := by
  obtain ⟨q0, q1, q2, q3, q4, q5⟩ := h
  unfold overshoot
  split
  · rename_i hs
    rcases h0.eq_or_lt with h | hp
    · rw [q0 h.symm]; linarith
    · have := (q1 hp hs).1; linarith
  · rename_i hs
    push Not at hs
    split
    · rename_i hl
      have := (q5 hl).2; linarith
    · rename_i hl
      push Not at hl
      cases ex
      · simp only [Bool.false_eq_true, if_false]
        split
        · rename_i hm
          have := (abs_le.1 (q3 hs hm rfl)).2; linarith
        · rename_i hm
          have := (abs_le.1 (q4 (le_of_not_ge hm) hl rfl)).2; linarith
      · rw [q2 hs hl rfl]; simp

/-- **C87.** With `avoid_merger=True` and merger times calculated by the code, every time integrated to lies strictly
before the source's merger according to Peters, provided `t_before` covers the error of the merger time: nothing for
eccentricities below 0.15, nor up to 0.9999 with `exact_t_merge`; with the fit 0.5% of the merger time up to 0.97 and 3%
beyond; 2.1% above 0.9999. -/
theorem C87_stops_before_merger {n : ℕ} (K : Consts) (odeint : Odeint) (ecc : Fin n → ℝ)
    (te : Option (TEvol (Fin n))) (ns : ℕ) (steps : Option (Steps (Fin n))) (β m₁ m₂ a f : Option (Fin n → ℝ))
    (np : ℕ) (order : List ℕ) (hall : np > 1 → ∀ i < n, i ∈ order) (ex : Bool) (tb : ℝ) {b' a' : Fin n → ℝ}
    {ts : Fin n → List ℝ}
    (hin : check_mass_freq_input K β m₁ m₂ a f = .ok (b', a')) (hb : ∀ i, 0 < b' i) (ha : ∀ i, 0 < a' i)
    (h0 : ∀ i, 0 ≤ ecc i) (h1 : ∀ i, ecc i < 1)
    (hts : create_timesteps_array K a' b' (some ecc) te ns steps = .ok ts)
    (hstart : ∀ i, (ts i)[0]? = some 0)
    (hcover : ∀ i, (if ecc i < 0.15 then 0 else if 0.9999 < ecc i then 0.021 else if ex then 0 else
      if ecc i ≤ 0.97 then 0.005 else 0.03) * petersTime (a' i) (b' i) (ecc i) ≤ tb) :
    ∃ R E, evol_ecc K odeint ecc te ns steps β m₁ m₂ a f ["timesteps", "ecc"] np order true ex tb none
        = .ok (.many [R, E]) ∧
      (∀ i, (R i).length = (ts i).length) ∧
      (∀ i, ∀ t ∈ R i, t < petersTime (a' i) (b' i) (ecc i)) ∧
      ∀ i, E i = (odeint (fun e => de_dt e (b' i) (c_0 (a' i) (ecc i))) (ecc i) (R i)).map fun x => x.getD 0 := by
  obtain ⟨R, E, hR, hclamp, -, hE⟩ := C23_avoid_merger K odeint ecc _ te ns steps β m₁ m₂ a f none np order hall ex tb
    hin hts (Or.inr ⟨rfl, get_t_merge_ecc_a K ecc a' b' ex (by norm_num) (by norm_num) h0⟩)
    (fun i h => by have := hstart i; rw [h] at this; simp at this)
    (fun i t ht => by rw [hstart i] at ht; injection ht with ht; rw [← ht]; unfold Gyr; norm_num)
  refine ⟨R, E, hR, fun i => (hclamp i).length, fun i t ht => ?_, hE⟩
  have hP := petersTime_pos (ha i) (hb i) (h0 i) (h1 i)
  have hlim : t_val (a' i) (b' i) (ecc i) 0.15 (1 - 1e-4) ex - tb ≤ petersTime (a' i) (b' i) (ecc i) := by
    have q1 := (t_val_accurate (a := a' i) (hb i) (h0 i) (h1 i) ex).le (h0 i)
    have q2 := hcover i
    unfold overshoot at q1
    linarith
  obtain ⟨k, hk⟩ := List.mem_iff_getElem?.1 ht
  rcases k with _ | k
  · rw [(hclamp i).first, hstart i] at hk
    injection hk with hk
    rw [← hk]; exact hP
  · have hkr : k + 1 < (ts i).length := by
      rw [← (hclamp i).length]; exact (List.getElem?_eq_some_iff.1 hk).1
    have hr : (ts i)[k + 1]? = some (ts i)[k + 1] := List.getElem?_eq_getElem hkr
    by_cases hl : (ts i)[k + 1] < t_val (a' i) (b' i) (ecc i) 0.15 (1 - 1e-4) ex - tb
    · rw [(hclamp i).safe k _ hr hl] at hk
      injection hk with hk
      rw [← hk]; linarith
    · obtain ⟨y, hy, hg⟩ := (hclamp i).replaced k _ hr (not_lt.1 hl)
      rw [hy] at hk
      injection hk with hk
      rcases hg.1 with h' | ⟨j, _, h'⟩
      · rw [hstart i] at h'
        injection h' with h'
        rw [← hk, ← h']; exact hP
      · rw [← hk]; linarith

theorem fit_at_three_fifths {a β : ℝ} (hβ : 0 < β) : 1.0009 * petersTime a β 0.6 ≤ t_fit a β 0.6 := by
  have hs : √(1 - (0.6 : ℝ) ^ 2) = 0.8 := by
    rw [show (1 - (0.6 : ℝ) ^ 2) = 0.8 ^ 2 by norm_num, sqrt_sq (by norm_num)]
  have hnum : 1.0009 * corr 0.6 * ev upper √(1 - (0.6 : ℝ) ^ 2) ≤ fitNum 0.6 := by
    rw [hs]
    unfold fitNum
    rw [corr_eq]
    simp only [upper, ev_cons, ev_nil]
    have h2 : (0 : ℝ) ≤ 0.20 * 0.6 ^ 1000 := by positivity
    refine le_trans ?_ (le_add_of_nonneg_right h2)
    push_cast
    norm_num
  rw [petersTime_eq (by norm_num)]
  exact (t_fit_of_num (a := a) hβ (by norm_num) (by norm_num)).1 hnum (by norm_num)

/-- **C87** (negative part). The default settings (the fit, 1 Myr) do not avoid the merger: for a source of
eccentricity 0.6 with a merger time of 1.2 Gyr or more, the default evolution, for any number of steps from 2, is
integrated right up to the moment of merger, up to which no solution of Peters' equation exists. -/
theorem C87_default_reaches_merger (K : Consts) (odeint : Odeint) {a β : ℝ} (ha : 0 < a) (hβ : 0 < β)
    (hlong : 1.2 * Gyr ≤ petersTime a β 0.6) (k : ℕ) :
    ∃ (R E : Fin 1 → List ℝ) (t : ℝ),
      evol_ecc K odeint (fun _ => 0.6) none (k + 2) none (some fun _ => β) none none (some fun _ => a) none
        ["timesteps", "ecc"] 1 [] true false (Gyr / 1000) none = .ok (.many [R, E]) ∧
      (R 0)[k + 1]? = some t ∧ t = petersTime a β 0.6 ∧
      ¬ ∃ e : ℝ → ℝ, e 0 = 0.6 ∧ EccentricInspiral β (c_0 a 0.6) 0 t e := by
  have h15 : (0.15 : ℝ) ≤ 1 - 1e-4 := by norm_num
  have hex : t_val a β 0.6 0.15 (1 - 1e-4) true = petersTime a β 0.6 :=
    (t_val_accurate (a := a) hβ (by norm_num) (by norm_num) true).2.2.1 (by norm_num) (by norm_num) rfl
  have hfit : t_val a β 0.6 0.15 (1 - 1e-4) false = t_fit a β 0.6 := by
    unfold t_val
    rw [if_neg (by norm_num), if_neg (by norm_num), if_neg (by norm_num), if_neg (by simp)]
  have hT := get_t_merge_ecc_a K (fun _ : Fin 1 => (0.6 : ℝ)) (fun _ => a) (fun _ => β) true (by norm_num) h15
    (fun _ => by norm_num)
  have hF := get_t_merge_ecc_a K (fun _ : Fin 1 => (0.6 : ℝ)) (fun _ => a) (fun _ => β) false (by norm_num) h15
    (fun _ => by norm_num)
  obtain ⟨ts, hts, hgrid, -⟩ := C22_default_grid K _ _ _ _ (k + 2) hT
  have hfirst : ∀ i, (ts i)[0]? = some 0 := fun i => (hgrid i).first (by omega)
  have hlast : (ts 0)[k + 1]? = some (petersTime a β 0.6) := by
    rw [← hex]; exact (hgrid 0).last (by omega)
  obtain ⟨R, E, hR, hclamp, -, -⟩ := C23_avoid_merger K odeint (fun _ : Fin 1 => (0.6 : ℝ)) _ none (k + 2) none
    (some fun _ => β) none none (some fun _ => a) none none 1 [] (by simp) false (Gyr / 1000)
    (b' := fun _ => β) (a' := fun _ => a) rfl hts (Or.inr ⟨rfl, hF⟩)
    (fun i h => by have := hfirst i; rw [h] at this; simp at this)
    (fun i t ht => by rw [hfirst i] at ht; injection ht with ht; rw [← ht]; unfold Gyr; norm_num)
  refine ⟨R, E, petersTime a β 0.6, hR, (hclamp 0).safe k _ hlast ?_, rfl, ?_⟩
  · show petersTime a β 0.6 < t_val a β 0.6 0.15 (1 - 1e-4) false - Gyr / 1000
    rw [hfit]
    have := fit_at_three_fifths (a := a) hβ
    have hG : 0 < Gyr := by unfold Gyr; norm_num
    norm_num at this hlong ⊢
    linarith
  · rintro ⟨e, he, hsol⟩
    have hP := petersTime_pos (e := 0.6) ha hβ (by norm_num) (by norm_num)
    have hc := c_0_pos (e := 0.6) (by norm_num) (by norm_num) ha
    have hT1 := get_t_merge_ecc_a K (fun _ : Unit => (0.6 : ℝ)) (fun _ => a) (fun _ => β) true (by norm_num) h15
      (fun _ => by norm_num)
    have ha' : get_a_from_ecc (e 0) (c_0 a 0.6) = a := by rw [he]; exact C02_a_roundtrip (by norm_num) (by norm_num)
    have := C16_solutions_end_before_merger K hβ hc hP.le hsol (s := 0.15) (l := 1 - 1e-4) (by norm_num)
      (by rw [he]; norm_num) (by rw [he]; norm_num) (by rw [ha', he]; exact hT1)
    rw [hex] at this
    linarith

/-- Both parts of C87 apply: eccentricity 0.1 needs no margin, and long merger times exist. -/
example : ∃ a β : ℝ, 0 < a ∧ 0 < β ∧ 1.2 * Gyr ≤ petersTime a β 0.6 := by
  have hP := petersTime_pos (a := 1) (β := 1) (e := 0.6) one_pos one_pos (by norm_num) (by norm_num)
  have hG : 0 < Gyr := by unfold Gyr; norm_num
  refine ⟨1, petersTime 1 1 0.6 / (1.2 * Gyr), one_pos, by positivity, ?_⟩
  have hs : ∀ β : ℝ, petersTime 1 β 0.6 = petersTime 1 1 0.6 / β := fun β => by
    rw [petersTime_eq (by norm_num), petersTime_eq (by norm_num)]; unfold t_exact; ring
  rw [hs]
  exact le_of_eq (by field_simp)

example (P tb : ℝ) (h : 0 ≤ tb) : (if (0.1 : ℝ) < 0.15 then 0 else if 0.9999 < (0.1 : ℝ) then 0.021 else if false then 0
    else if (0.1 : ℝ) ≤ 0.97 then 0.005 else 0.03) * P ≤ tb := by
  rw [if_pos (by norm_num)]; simpa using h

end Legwork.Props
