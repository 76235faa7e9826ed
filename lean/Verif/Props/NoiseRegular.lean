import Verif.Props.Psd
import Verif.Props.SnrStationary
import Verif.Spec.Convergence
import Mathlib.Topology.Order.Compact
import Mathlib.Analysis.SpecialFunctions.Pow.Continuity
import Mathlib.Analysis.SpecialFunctions.Log.Base

/-!
# C85: the built-in noise curves are tame
-/

namespace Legwork.Props

open Real Filter Topology Set Legwork.psd Legwork.Spec Legwork.snr

private lemma tame_of {N : ℝ → WithTop ℝ} {P b : ℝ → ℝ} {band : ℝ → Prop} {D : Set ℝ} (hD : D.Countable)
    (hb : ContinuousOn b (Ioi 0)) (hb0 : ∀ f, 0 < f → 0 < b f) (hbP : ∀ f, 0 < f → b f ≤ P f)
    (hP : ∀ f, 0 < f → f ∉ D → ContinuousAt P f) (hband : ∀ f, 0 < f → f ∉ D → ∀ᶠ g in 𝓝 f, (band g ↔ band f))
    (h1 : ∀ f, 0 < f → band f → N f = P f) (h2 : ∀ f, 0 < f → ¬ band f → N f = ⊤) : Tame N := by
  constructor
  · intro lo hi hlo
    by_cases hle : lo ≤ hi
    swap
    · exact ⟨1, one_pos, fun f hf => absurd (hf.1.trans hf.2) hle⟩
    obtain ⟨x, hx, hmin⟩ := isCompact_Icc.exists_isMinOn (nonempty_Icc.2 hle)
      (hb.mono fun f (hf : f ∈ Icc lo hi) => hlo.trans_le hf.1)
    refine ⟨b x, hb0 x (hlo.trans_le hx.1), fun f hf => ?_⟩
    have hf0 : 0 < f := hlo.trans_le hf.1
    by_cases hc : band f
    · rw [h1 f hf0 hc]
      exact_mod_cast (hmin hf).trans (hbP f hf0)
    · rw [h2 f hf0 hc]
      exact le_top
  · refine hD.mono ?_
    rintro f ⟨hf0, hnc⟩
    by_contra hfD
    apply hnc
    have hpos : ∀ᶠ g : ℝ in 𝓝 f, 0 < g := eventually_gt_nhds hf0
    by_cases hc : band f
    · have hPf : P f ≠ 0 := ((hb0 f hf0).trans_le (hbP f hf0)).ne'
      refine (((hP f hf0 hfD).inv₀ hPf)).congr ?_
      filter_upwards [hpos, hband f hf0 hfD] with g hg hbg
      rw [h1 g hg (hbg.2 hc)]
      simp [sensitivity]
    · refine (continuousAt_const (y := (0 : ℝ))).congr ?_
      filter_upwards [hpos, hband f hf0 hfD] with g hg hbg
      rw [h2 g hg (fun h => hc (hbg.1 h))]
      rfl

private lemma eventually_band {lo hi f : ℝ} (h1 : f ≠ lo) (h2 : f ≠ hi) :
    ∀ᶠ g in 𝓝 f, ((g ≥ lo ∧ g ≤ hi) ↔ (f ≥ lo ∧ f ≤ hi)) := by
  rcases lt_or_gt_of_ne h1 with h1 | h1
  · filter_upwards [eventually_lt_nhds h1] with g hg
    exact ⟨fun h => absurd h.1 (not_le.2 hg), fun h => absurd h.1 (not_le.2 h1)⟩
  · rcases lt_or_gt_of_ne h2 with h2 | h2
    · filter_upwards [eventually_gt_nhds h1, eventually_lt_nhds h2] with g hg hg'
      exact ⟨fun _ => ⟨h1.le, h2.le⟩, fun _ => ⟨hg.le, hg'.le⟩⟩
    · filter_upwards [eventually_gt_nhds h2] with g hg
      exact ⟨fun h => absurd h.2 (not_le.2 hg), fun h => absurd h.2 (not_le.2 h2)⟩

private lemma continuous_tanh' : Continuous tanh := by
  have : tanh = fun x => sinh x / cosh x := by funext x; exact tanh_eq_sinh_div_cosh x
  rw [this]
  exact continuous_sinh.div continuous_cosh fun x => (cosh_pos x).ne'

private lemma cont_robson {f : ℝ} (hf : 0 < f) (t : ℝ) : ContinuousAt (fun f => get_confusion_noise_robson19 f t) f := by
  unfold get_confusion_noise_robson19
  simp only
  generalize nearest_length _ _ = k
  have ht := continuous_tanh'
  have h1 : ∀ p : ℝ, ContinuousAt (fun f : ℝ => f ^ p) f := fun p => continuousAt_rpow_const _ _ (Or.inl hf.ne')
  have h2 := h1 (-7 / 3)
  have h3 := h1 (at' [0.133, 0.171, 0.165, 0.138] k)
  fun_prop

private lemma cont_karnesis {f : ℝ} (hf : 0 < f) (t : ℝ) :
    ContinuousAt (fun f => get_confusion_noise_karnesis21 f t) f := by
  unfold get_confusion_noise_karnesis21
  simp only
  generalize (t / yr) ^ (-0.15 : ℝ) * (10 : ℝ) ^ (-2.72 : ℝ) = f1
  have ht := continuous_tanh'
  have h1 : ∀ p : ℝ, ContinuousAt (fun f : ℝ => f ^ p) f := fun p => continuousAt_rpow_const _ _ (Or.inl hf.ne')
  have h2 := h1 (-7 / 3)
  have h3 : ContinuousAt (fun f : ℝ => (f / f1) ^ (1.56 : ℝ)) f :=
    (continuousAt_id.div_const f1).rpow_const (Or.inr (by norm_num))
  fun_prop

private lemma cont_thiele {f : ℝ} (hf : 0 < f) : ContinuousAt get_confusion_noise_thiele21 f := by
  unfold get_confusion_noise_thiele21
  simp only [poly1d, List.reverse_cons, List.reverse_nil, List.nil_append, List.cons_append, List.foldl_cons,
    List.foldl_nil]
  have h1 : ContinuousAt (fun f : ℝ => logb 10 f) f := by
    unfold logb
    exact (continuousAt_log hf.ne').div_const _
  refine ContinuousAt.mul ?_ continuousAt_const
  refine ContinuousAt.rpow continuousAt_const ?_ (Or.inl (by norm_num))
  fun_prop

private lemma cont_huang {f : ℝ} (hf : 0 < f) (h1 : f ≠ 1e-4) (h2 : f ≠ 1) (t : ℝ) :
    ContinuousAt (fun f => get_confusion_noise_huang20 f t) f := by
  have hb := eventually_band (f := f) (lo := 1e-4) (hi := 1e0) h1 (by norm_num; exact h2)
  have hl : ContinuousAt (fun f : ℝ => logb 10 (f / 1e-3)) f := by
    unfold logb
    apply ContinuousAt.div_const
    exact ContinuousAt.log (by fun_prop) (by positivity)
  unfold get_confusion_noise_huang20
  simp only
  generalize nearest_length _ _ = k
  apply ContinuousAt.pow
  by_cases hc : f ≥ 1e-4 ∧ f ≤ 1e0
  · have : ContinuousAt (fun f : ℝ => (10 : ℝ) ^ huang_coefficients.zipIdx.foldl
        (fun acc (row, i) => acc + at' row k * logb 10 (f / 1e-3) ^ i) 0) f := by
      refine ContinuousAt.rpow continuousAt_const ?_ (Or.inl (by norm_num))
      simp only [huang_coefficients, List.zipIdx_cons, List.zipIdx_nil, List.foldl_cons, List.foldl_nil]
      fun_prop
    refine this.congr ?_
    filter_upwards [hb] with g hg
    have := hg.2 hc
    rw [if_neg]
    rintro (h | h)
    · exact absurd this.1 (not_le.2 h)
    · exact absurd this.2 (not_le.2 h)
  · refine (continuousAt_const (y := (0.0 : ℝ))).congr ?_
    filter_upwards [hb] with g hg
    have : ¬ (g ≥ 1e-4 ∧ g ≤ 1e0) := fun h => hc (hg.1 h)
    rw [if_pos]
    by_contra hcon
    push Not at hcon
    exact this hcon

/-- Supported confusion noises are continuous at positive frequencies, except where `huang20` is cut off. -/
theorem noise_continuous {noise : NoiseArg} {t : TimeArg} (h : Recognised noise t) :
    ∃ cn : ℝ → ℝ, (∀ f, noise_bare f t noise = .ok (cn f) ∧ noise_quantity f t noise = .ok (cn f)) ∧
      (∀ f, 0 < f → 0 ≤ cn f) ∧ ∀ f, 0 < f → f ≠ 1e-4 → f ≠ 1 → ContinuousAt cn f := by
  rcases h with rfl | rfl | rfl | rfl | ⟨rfl, h⟩
  · exact ⟨fun _ => 0, fun f => ⟨rfl, rfl⟩, fun _ _ => le_rfl, fun _ _ _ _ => continuousAt_const⟩
  · exact ⟨fun f => get_confusion_noise_robson19 f (t.resolve (4 * yr)), fun f => ⟨by simp [noise_bare, get_confusion_noise]; rfl,
      by simp [noise_quantity, get_confusion_noise]; rfl⟩, fun f hf => (robson_pos hf _).le,
      fun f hf _ _ => cont_robson hf _⟩
  · exact ⟨fun f => get_confusion_noise_huang20 f (t.resolve (5 * yr)), fun f => ⟨by simp [noise_bare, get_confusion_noise]; rfl,
      by simp [noise_quantity, get_confusion_noise]; rfl⟩, fun f hf => huang_nonneg _ _,
      fun f hf h1 h2 => cont_huang hf h1 h2 _⟩
  · exact ⟨fun f => get_confusion_noise_karnesis21 f (t.resolve (4 * yr)), fun f => ⟨by simp [noise_bare, get_confusion_noise]; rfl,
      by simp [noise_quantity, get_confusion_noise]; rfl⟩, fun f hf => (karnesis_pos hf _).le,
      fun f hf _ _ => cont_karnesis hf _⟩
  · have ht : t.resolve (4 * yr) = 4 * yr := by rcases h with rfl | rfl <;> rfl
    exact ⟨get_confusion_noise_thiele21, fun f => ⟨by simp [noise_bare, get_confusion_noise, ht]; rfl,
      by simp [noise_quantity, get_confusion_noise, ht]; rfl⟩, fun f hf => (thiele_pos f).le,
      fun f hf _ _ => cont_thiele hf⟩

/-- The LISA response is available, positive and continuous at positive frequencies. -/
def ResponseContinuous (K : Consts) (env : Env) (L : ℝ) (approx : Bool) : Prop :=
  approx = true ∨ ∃ R : ℝ → ℝ, ContinuousOn R (Ioi 0) ∧ ∀ f, 0 < f →
    0 < R f ∧ load_response_function env.file env.spline f (K.c / (2 * π * L)) = .ok (R f)

private lemma countable4 (a b c d : ℝ) : ({a, b, c, d} : Set ℝ).Countable := by
  simp only [Set.countable_insert, Set.countable_singleton]

private lemma regular_lisa (K : Consts) (env : Env) (t : TimeArg) {L : ℝ} (hL : 0 < L) (approx : Bool)
    {noise : NoiseArg} (hn : Recognised noise t) (hR : ResponseContinuous K env L approx) :
    ∃ N : ℝ → WithTop ℝ, (∀ f, lisa_psd K env f t L approx noise = .ok (N f)) ∧ (∀ f, 0 < f → 0 < N f) ∧ Tame N := by
  classical
  obtain ⟨cn, hcn, hcn0, hcnc⟩ := noise_continuous hn
  have hK := K.c_pos
  obtain ⟨R, hRc, hR0⟩ : ∃ R : ℝ → ℝ, ContinuousOn R (Ioi 0) ∧ ∀ f, 0 < f →
      0 < R f ∧ lisa_response env approx f (K.c / (2 * π * L)) = .ok (R f) := by
    cases approx with
    | true =>
      refine ⟨fun f => approximate_response_function f (K.c / (2 * π * L)), ?_, fun f _ => ⟨approx_pos _ _, rfl⟩⟩
      unfold approximate_response_function
      apply Continuous.continuousOn
      apply Continuous.div continuous_const (by fun_prop)
      intro f
      positivity
    | false =>
      obtain ⟨R, h1, h2⟩ := hR.resolve_left (by simp)
      exact ⟨R, h1, fun f hf => ⟨(h2 f hf).1, by rw [lisa_response, if_neg (by simp)]; exact (h2 f hf).2⟩⟩
  set b : ℝ → ℝ := fun f => (1 / L ^ 2 * (lisa_Poms f + 2 * (1 + cos (f / (K.c / (2 * π * L))) ^ 2) * lisa_Pacc f
    / (2 * π * f) ^ 4)) / R f with hbdef
  set N : ℝ → WithTop ℝ := fun f => if f ≥ 1e-7 ∧ f ≤ 2e0 then ((b f + cn f : ℝ) : WithTop ℝ) else ⊤ with hN
  have hb0 : ∀ f, 0 < f → 0 < b f := by
    intro f hf
    have := (hR0 f hf).1
    have h1 : 0 < lisa_Poms f := by unfold lisa_Poms; positivity
    have h2 : 0 < lisa_Pacc f := by unfold lisa_Pacc; positivity
    simp only [hbdef]
    positivity
  have hb : ContinuousOn b (Ioi 0) := by
    have h1 : ContinuousOn lisa_Poms (Ioi 0) := by
      unfold lisa_Poms
      have : ContinuousOn (fun f : ℝ => (2e-3 : ℝ) / f) (Ioi 0) :=
        continuousOn_const.div continuousOn_id fun f hf => ne_of_gt hf
      fun_prop
    have h2 : ContinuousOn lisa_Pacc (Ioi 0) := by
      unfold lisa_Pacc
      have : ContinuousOn (fun f : ℝ => (0.4e-3 : ℝ) / f) (Ioi 0) :=
        continuousOn_const.div continuousOn_id fun f hf => ne_of_gt hf
      fun_prop
    refine ContinuousOn.div (continuousOn_const.mul (h1.add (ContinuousOn.div ?_ ?_ ?_))) hRc
      fun f hf => (hR0 f hf).1.ne'
    · exact ContinuousOn.mul (by fun_prop) h2
    · fun_prop
    · intro f hf
      have : (0 : ℝ) < f := hf
      positivity
  refine ⟨N, ?_, ?_, ?_⟩
  · intro f
    unfold lisa_psd
    simp only
    by_cases hc : f ≥ 1e-7 ∧ f ≤ 2e0
    · have hf : 0 < f := lt_of_lt_of_le (by norm_num) hc.1
      rw [if_pos hc, (hR0 f hf).2]
      simp only [Bind.bind, Except.bind, (hcn f).1, Pure.pure, Except.pure, hN, if_pos hc]
      rfl
    · rw [if_neg hc, (hR0 1e-8 (by norm_num)).2]
      simp only [Bind.bind, Except.bind, (hcn 1e-8).1, Pure.pure, Except.pure, hN, if_neg hc]
      rw [if_neg (by norm_num)]
  · intro f hf
    simp only [hN]
    split_ifs
    · have := hb0 f hf
      have := hcn0 f hf
      exact_mod_cast (by positivity : 0 < b f + cn f)
    · exact WithTop.coe_lt_top _
  · refine tame_of (P := fun f => b f + cn f) (b := b) (band := fun f => f ≥ 1e-7 ∧ f ≤ 2e0) (countable4 1e-7 2e0 1e-4 1) hb
      hb0 (fun f hf => by have := hcn0 f hf; linarith) ?_ ?_ (fun f _ h => if_pos h) (fun f _ h => if_neg h)
    · intro f hf hD
      simp only [mem_insert_iff, mem_singleton_iff, not_or] at hD
      exact ((hb.continuousAt (Ioi_mem_nhds hf))).add (hcnc f hf hD.2.2.1 hD.2.2.2)
    · intro f hf hD
      simp only [mem_insert_iff, mem_singleton_iff, not_or] at hD
      exact eventually_band hD.1 hD.2.1

private lemma regular_tianqin (K : Consts) (t : TimeArg) {L : ℝ} (hL : 0 < L) {noise : NoiseArg}
    (hn : Recognised noise t) :
    ∃ N : ℝ → WithTop ℝ, (∀ f, tianqin_psd K f L t noise = .ok (N f)) ∧ (∀ f, 0 < f → 0 < N f) ∧ Tame N := by
  obtain ⟨cn, hcn, hcn0, hcnc⟩ := noise_continuous hn
  have hK := K.c_pos
  set b : ℝ → ℝ := fun f => 10 / (3 * L ^ 2) * (4 * 1e-30 / (2 * π * f) ^ 4 * (1 + 1e-4 / f) + 1e-24)
    * (1 + 0.6 * (f / (K.c / (2 * π * L))) ^ 2) with hbdef
  have hb0 : ∀ f, 0 < f → 0 < b f := by
    intro f hf
    simp only [hbdef]
    positivity
  have hb : ContinuousOn b (Ioi 0) := by
    have h1 : ContinuousOn (fun f : ℝ => (4 * 1e-30 : ℝ) / (2 * π * f) ^ 4) (Ioi 0) := by
      refine continuousOn_const.div (by fun_prop) fun f hf => ?_
      have : (0 : ℝ) < f := hf
      positivity
    have h2 : ContinuousOn (fun f : ℝ => (1e-4 : ℝ) / f) (Ioi 0) :=
      continuousOn_const.div continuousOn_id fun f hf => ne_of_gt hf
    simp only [hbdef]
    fun_prop
  refine ⟨fun f => ((b f + cn f : ℝ) : WithTop ℝ), ?_, ?_, ?_⟩
  · intro f
    unfold tianqin_psd
    simp only [Bind.bind, Except.bind, (hcn f).2, Pure.pure, Except.pure]
    rfl
  · intro f hf
    have := hb0 f hf
    have := hcn0 f hf
    show ((0 : ℝ) : WithTop ℝ) < ((b f + cn f : ℝ) : WithTop ℝ)
    exact_mod_cast (by positivity : 0 < b f + cn f)
  · refine tame_of (P := fun f => b f + cn f) (b := b) (band := fun _ => True) (countable4 1 1 1e-4 1) hb
      hb0 (fun f hf => by have := hcn0 f hf; linarith) ?_ (fun _ _ _ => by simp) (fun f _ _ => rfl)
      (fun f _ h => absurd trivial h)
    intro f hf hD
    simp only [mem_insert_iff, mem_singleton_iff, not_or] at hD
    exact ((hb.continuousAt (Ioi_mem_nhds hf))).add (hcnc f hf hD.2.2.1 hD.2.2.2)

private lemma regular_decigo (t : TimeArg) {noise : NoiseArg} (hn : Recognised noise t) :
    ∃ N : ℝ → WithTop ℝ, (∀ f, decigo_psd f t noise 1e-3 1e2 = .ok (N f)) ∧ (∀ f, 0 < f → 0 < N f) ∧ Tame N := by
  classical
  obtain ⟨cn, hcn, hcn0, hcnc⟩ := noise_continuous hn
  set b : ℝ → ℝ := fun f => 6.53e-48 * (1 + (f / decigo_fp) ^ 2)
    + 4.8e-51 * f ^ (-4 : ℤ) * (1 + (f / decigo_fp) ^ 2) ^ (-1 : ℤ) + 5.33e-52 * f ^ (-4 : ℤ) with hbdef
  have hb0 : ∀ f, 0 < f → 0 < b f := by
    intro f hf
    simp only [hbdef]
    positivity
  have hb : ContinuousOn b (Ioi 0) := by
    have h1 : ContinuousOn (fun f : ℝ => f ^ (-4 : ℤ)) (Ioi 0) := fun f hf =>
      (continuousAt_zpow₀ f (-4) (Or.inl (ne_of_gt hf))).continuousWithinAt
    have h2 : ContinuousOn (fun f : ℝ => (1 + (f / decigo_fp) ^ 2) ^ (-1 : ℤ)) (Ioi 0) := by
      apply Continuous.continuousOn
      refine Continuous.zpow₀ (by fun_prop) _ fun f => Or.inl (by positivity)
    simp only [hbdef]
    fun_prop
  set N : ℝ → WithTop ℝ := fun f => if f ≥ 1e-3 ∧ f ≤ 1e2 then ((b f + cn f : ℝ) : WithTop ℝ) else ⊤ with hN
  refine ⟨N, ?_, ?_, ?_⟩
  · intro f
    unfold decigo_psd
    simp only
    by_cases hc : f ≥ 1e-3 ∧ f ≤ 1e2
    · rw [if_pos hc]
      simp only [Bind.bind, Except.bind, (hcn f).1, Pure.pure, Except.pure, hN, if_pos hc]
      rfl
    · rw [if_neg hc]
      simp only [Bind.bind, Except.bind, (hcn 1e-8).1, Pure.pure, Except.pure, hN, if_neg hc]
      rw [if_neg (by norm_num)]
  · intro f hf
    simp only [hN]
    split_ifs
    · have := hb0 f hf
      have := hcn0 f hf
      exact_mod_cast (by positivity : 0 < b f + cn f)
    · exact WithTop.coe_lt_top _
  · refine tame_of (P := fun f => b f + cn f) (b := b) (band := fun f => f ≥ 1e-3 ∧ f ≤ 1e2) (countable4 1e-3 1e2 1e-4 1) hb
      hb0 (fun f hf => by have := hcn0 f hf; linarith) ?_ ?_ (fun f _ h => if_pos h) (fun f _ h => if_neg h)
    · intro f hf hD
      simp only [mem_insert_iff, mem_singleton_iff, not_or] at hD
      exact ((hb.continuousAt (Ioi_mem_nhds hf))).add (hcnc f hf hD.2.2.1 hD.2.2.2)
    · intro f hf hD
      simp only [mem_insert_iff, mem_singleton_iff, not_or] at hD
      exact eventually_band hD.1 hD.2.1

/-- **C85** (noise curves). The hypotheses on the noise hold for every instrument of the package, with any supported
confusion noise, observation time and positive arm length, on the exact curve. LISA's response must be the analytic
approximation or continuous and positive. -/
theorem C85_builtin_noise (C : Ctx) (hsc : C.interpolated_sc = none) (hL : ∀ L, C.kw.L = .val L → 0 < L)
    (hcase : (C.kw.instrument = "LISA" ∧ Recognised (C.kw.confusion_noise.resolve "karnesis21") (.val C.t_obs) ∧
        ∀ L, (C.kw.L = .auto ∧ L = 2.5e9 ∨ C.kw.L = .val L) → ResponseContinuous C.K C.env L C.kw.approximate_R) ∨
      (C.kw.instrument = "TianQin" ∧ Recognised (C.kw.confusion_noise.resolve "huang20") (.val C.t_obs)) ∨
      (C.kw.instrument = "DECIGO" ∧ Recognised (C.kw.confusion_noise.resolve "karnesis21") (.val C.t_obs))) :
    ∃ N, Curve C N ∧ Tame N := by
  have hLpos : ∀ d : ℝ, 0 < d → 0 < C.kw.L.resolve d := by
    intro d hd
    cases h : C.kw.L with
    | auto => exact hd
    | val l => exact hL l h
  rcases hcase with ⟨hi, hn, hR⟩ | ⟨hi, hn⟩ | ⟨hi, hn⟩
  · obtain ⟨N, h1, h2, h3⟩ := regular_lisa C.K C.env (.val C.t_obs) (hLpos 2.5e9 (by norm_num)) C.kw.approximate_R hn
      (hR _ (by
        cases h : C.kw.L with
        | auto => exact Or.inl ⟨rfl, rfl⟩
        | val l => exact Or.inr rfl))
    refine ⟨N, ⟨fun f => ?_, h2⟩, h3⟩
    unfold noise
    rw [hsc]
    simp only
    unfold power_spectral_density
    rw [if_pos hi]
    exact h1 f
  · obtain ⟨N, h1, h2, h3⟩ := regular_tianqin C.K (.val C.t_obs) (hLpos (sqrt 3 * 1e5 * 1000) (by positivity)) hn
    refine ⟨N, ⟨fun f => ?_, h2⟩, h3⟩
    unfold noise
    rw [hsc]
    simp only
    unfold power_spectral_density
    rw [if_neg (by rw [hi]; decide), if_pos hi]
    exact h1 f
  · obtain ⟨N, h1, h2, h3⟩ := regular_decigo (.val C.t_obs) hn
    refine ⟨N, ⟨fun f => ?_, h2⟩, h3⟩
    unfold noise
    rw [hsc]
    simp only
    unfold power_spectral_density
    rw [if_neg (by rw [hi]; decide), if_neg (by rw [hi]; decide), if_pos hi]
    exact h1 f

end Legwork.Props
