import Verif.Lemmas.Snr
import Verif.Lemmas.Psd
import Verif.Spec.Snr
import Verif.Props.Response
import Verif.Props.Psd

/-!
# Properties of the stationary signal-to-noise ratios: C09 (SNR part), C29, C30, C31
-/

namespace Legwork.Props

open Real Legwork.utils Legwork.strain Legwork.snr Legwork.Spec

private lemma sum_map_eq_single {l : List ℤ} (hl : l.Nodup) {g : ℤ → ℝ} {a : ℤ} (ha : a ∈ l)
    (h : ∀ n ∈ l, n ≠ a → g n = 0) : (l.map g).sum = g a := by
  induction l with
  | nil => cases ha
  | cons x xs ih =>
    rw [List.map_cons, List.sum_cons]
    rcases List.mem_cons.1 ha with rfl | ha'
    · have : (xs.map g).sum = 0 := by
        apply List.sum_eq_zero
        intro y hy
        obtain ⟨n, hn, rfl⟩ := List.mem_map.1 hy
        exact h n (by simp [hn]) fun e => (List.nodup_cons.1 hl).1 (e ▸ hn)
      rw [this, add_zero]
    · rw [h x (by simp) fun e => (List.nodup_cons.1 hl).1 (e ▸ ha'), zero_add]
      exact ih (List.nodup_cons.1 hl).2 ha' fun n hn => h n (by simp [hn])

private lemma harmonics_nodup (H : ℕ) : (harmonics H).Nodup := by
  unfold harmonics
  exact List.Nodup.map (fun a b h => by simpa using h) List.nodup_range

private lemma g_vals_circ {ig : Option (ℤ → ℝ → ℝ)} (hg : CircularG ig) {n : ℤ} (hn : 1 ≤ n) (h2 : n ≠ 2) :
    g_vals ig n 0 = 0 := by
  cases ig with
  | none => simp [g_vals, C05_circular hn, h2]
  | some g =>
    have := hg g rfl n h2
    show (if g n 0 < 0 then 0 else g n 0) = 0
    split_ifs with h
    · rfl
    · exact le_antisymm this (not_lt.1 h)

/-- **C29** (circular limit). For sources without orientation, at least two harmonics and any noise curve, the
eccentric stationary SNR at zero eccentricity is exactly the circular one. -/
theorem C29_circular_limit (C : Ctx) (srcs : List CircSrc) (H : ℕ) (hH : 2 ≤ H)
    {N : ℝ → WithTop ℝ} (hN : ∀ f, noise C f = .ok (N f)) (hg : CircularG C.interpolated_g)
    (ho : ∀ s ∈ srcs, s.orient = {}) :
    ∃ snr, snr_circ_stationary C srcs = .ok snr ∧
      snr_ecc_stationary C (srcs.map asEcc) H false false = .ok (.total snr) := by
  refine ⟨_, snr_circ_stationary_eq C srcs (N := N) (μ := fun _ => 1) (fun s _ => hN _)
    (fun s hs => by rw [ho s hs]; exact modulation_none), ?_⟩
  rw [snr_ecc_stationary_eq C _ H false false hN]
  simp only [finish, Bool.false_eq_true, if_false, List.map_map, pure, Except.pure, Except.ok.injEq,
    SnrOut.total.injEq]
  apply List.map_congr_left
  intro s _
  simp only [Function.comp]
  congr 1
  rw [sum_map_eq_single (harmonics_nodup H) (a := 2) (mem_harmonics.2 ⟨by norm_num, by exact_mod_cast hH⟩)]
  · simp [ecc2, circ2, asEcc]
  · intro n hn h2
    have h1 := (mem_harmonics.1 hn).1
    have : h_0_val C.K C.interpolated_g s.m_c s.dist s.f_orb 0 n = 0 := by
      simp [h_0_val, g_vals_circ hg h1 h2, Real.zero_rpow]
    simp [ecc2, asEcc, this, divNoise_zero]

/-- The hypotheses of `C29_circular_limit` are met, e.g., by exact `g` and a constant noise curve. -/
example : CircularG none := fun _ h => by cases h

/-- **C29** (total). The total SNR returned is the square root of the sum of the values returned by
`ret_snr2_by_harmonic` (NaN if that sum is negative). -/
theorem C29_total_is_sum (C : Ctx) (srcs : List EccSrc) (H : ℕ) {rows : List (List ℝ)}
    (h : snr_ecc_stationary C srcs H false true = .ok (.byHarmonic rows)) :
    ∃ snr, snr_ecc_stationary C srcs H false false = .ok (.total snr) ∧
      Pointwise (fun x row => (0 ≤ row.sum → ∃ v, x = some v ∧ 0 ≤ v ∧ v ^ 2 = row.sum) ∧
        (row.sum < 0 → x = none)) snr rows := by
  unfold snr_ecc_stationary at h ⊢
  simp only [bind, Except.bind] at h ⊢
  split at h
  · cases h
  · rename_i hs heq
    split at h
    · cases h
    · rename_i ns heq2
      simp only [finish, if_true, pure, Except.pure, Except.ok.injEq, SnrOut.byHarmonic.injEq] at h
      refine ⟨rows.map fun row => sqrt? row.sum, ?_, ?_⟩
      · rw [← h]; rfl
      · unfold Pointwise
        rw [List.forall₂_map_left_iff, List.forall₂_same]
        intro row _
        refine ⟨fun h0 => ⟨√row.sum, sqrt?_nonneg h0, sqrt_nonneg _, sq_sqrt h0⟩, fun h0 => sqrt?_neg h0⟩

/-- `C29_total_is_sum` applies: with any noise curve the call succeeds. -/
example (C : Ctx) (srcs : List EccSrc) (H : ℕ) {N : ℝ → WithTop ℝ} (hN : ∀ f, noise C f = .ok (N f)) :
    ∃ rows, snr_ecc_stationary C srcs H false true = .ok (.byHarmonic rows) :=
  ⟨_, by rw [snr_ecc_stationary_eq C _ H false true hN]; rfl⟩

/-- **C30** (stationary). The harmonic reported with `ret_max_snr_harmonic` is between 1 and
`harmonics_required`, none has larger SNR², and every lower harmonic has strictly smaller SNR². -/
theorem C30_stationary (C : Ctx) (srcs : List EccSrc) (H : ℕ) {snr : List (Option ℝ)} {ks : List ℕ}
    (h : snr_ecc_stationary C srcs H true false = .ok (.withMax snr ks)) :
    ∃ rows, snr_ecc_stationary C srcs H false true = .ok (.byHarmonic rows) ∧ ks.length = srcs.length ∧
      Pointwise (fun k row => 1 ≤ k ∧ k ≤ H ∧ row.length = H ∧ ∃ v, row[k - 1]? = some v ∧
        ∀ j w, row[j - 1]? = some w → 1 ≤ j → w ≤ v ∧ (j < k → w < v)) ks rows := by
  unfold snr_ecc_stationary at h ⊢
  simp only [bind, Except.bind] at h ⊢
  split at h
  · cases h
  · rename_i hs heq
    split at h
    · cases h
    · rename_i ns heq2
      simp only [finish, Bool.false_eq_true, if_false, if_true] at h
      split at h
      · cases h
      · rename_i hne
        simp only [pure, Except.pure, Except.ok.injEq, SnrOut.withMax.injEq] at h
        refine ⟨_, by simp only [finish, if_true]; rfl, ?_⟩
        rw [← h.2]
        have hlen1 : hs.length = srcs.length := by
          rw [h_0_n_ok (μ := fun _ => 1) C.K C.interpolated_g (harmonics_any H)
            (by intro r hr; obtain ⟨s, -, rfl⟩ := List.mem_map.1 hr; rfl)] at heq
          cases heq; simp
        have hlen2 := mapM_length heq2
        have hrow : ∀ row ∈ ((hs.map fun row => row.flatten.map fun x => x ^ 2).map fun row =>
            row.map fun x => x * C.t_obs).zipWith (fun hs ns => hs.zipWith divNoise ns) ns, row.length = H := by
          intro row hr
          rw [h_0_n_ok (μ := fun _ => 1) C.K C.interpolated_g (harmonics_any H)
            (by intro r hr; obtain ⟨s, -, rfl⟩ := List.mem_map.1 hr; rfl)] at heq
          cases heq
          obtain ⟨i, hi, rfl⟩ := List.getElem_of_mem hr
          have hin : i < ns.length := by simp at hi; omega
          have hns : (ns[i]'hin).length = H := by
            obtain ⟨s, -, hs⟩ := mapM_mem heq2 _ (List.getElem_mem hin)
            rw [mapM_length hs, harmonics_length]
          simp [hns, harmonics_length]
        refine ⟨by simp [hlen1, hlen2], ?_⟩
        unfold Pointwise
        rw [List.forall₂_map_left_iff, List.forall₂_same]
        intro row hr
        have hH : row ≠ [] := by
          intro e
          have hz := hrow row hr
          rw [e] at hz
          exact hne ⟨hz.symm, List.ne_nil_of_mem hr⟩
        obtain ⟨v, hv, hmax⟩ := argmax_spec row hH
        have hlt : argmax row < row.length := by
          by_contra hge
          rw [List.getElem?_eq_none (by omega)] at hv; cases hv
        have hl := hrow row hr
        refine ⟨by omega, by omega, hl, v, by simpa using hv, ?_⟩
        intro j w hw hj
        exact ⟨(hmax _ w hw).1, fun hlt => (hmax _ w hw).2 (by omega)⟩

/-- **C31** (non-negative). Circular stationary SNRs are defined and non-negative on every positive noise curve, for
every complete or absent orientation. -/
theorem C31_circ_nonneg (C : Ctx) (srcs : List CircSrc) (ht : 0 ≤ C.t_obs) {N : ℝ → WithTop ℝ} (hN : Curve C N)
    (hs : ∀ s ∈ srcs, CircPhys s) (ho : ∀ s ∈ srcs, OrientOK s.orient) :
    ∃ snr, snr_circ_stationary C srcs = .ok snr ∧
      Pointwise (fun (_ : CircSrc) x => ∃ v, x = some v ∧ 0 ≤ v) srcs snr := by
  have hμ : ∀ s : CircSrc, OrientOK s.orient → ∃ a, modulation s.orient = .ok a := by
    intro s h
    rcases h with h | ⟨p, q, i, h⟩
    · exact ⟨1, by rw [h]; exact modulation_none⟩
    · rw [h]; exact ⟨_, rfl⟩
  choose! μ hμ using hμ
  refine ⟨_, snr_circ_stationary_eq C srcs (N := N) (μ := μ) (fun s _ => hN.ok _)
    (fun s h => hμ s (ho s h)), ?_⟩
  unfold Pointwise
  rw [List.forall₂_map_right_iff, List.forall₂_same]
  intro s h
  refine ⟨_, sqrt?_nonneg (divNoise_nonneg (by positivity) (hN.pos _ ?_).le), sqrt_nonneg _⟩
  have := (hs s h).2.1
  linarith

private lemma ecc2_nonneg {C : Ctx} {s : EccSrc} (ht : 0 ≤ C.t_obs) {N : ℝ → WithTop ℝ} (hN : Curve C N)
    (hs : 0 < s.f_orb) {n : ℤ} (hn : 1 ≤ n) : 0 ≤ ecc2 C N s n := by
  have : (0 : ℝ) < n := by exact_mod_cast (by omega : 0 < n)
  exact divNoise_nonneg (by positivity) (hN.pos _ (by positivity)).le

private lemma ecc2_sum_nonneg {C : Ctx} {s : EccSrc} (ht : 0 ≤ C.t_obs) {N : ℝ → WithTop ℝ} (hN : Curve C N)
    (hs : 0 < s.f_orb) (H : ℕ) : 0 ≤ ((harmonics H).map fun n => ecc2 C N s n).sum := by
  apply List.sum_nonneg
  intro x hx
  obtain ⟨n, hn, rfl⟩ := List.mem_map.1 hx
  exact ecc2_nonneg ht hN hs (mem_harmonics.1 hn).1

private lemma harmonics_prefix {H H' : ℕ} (h : H ≤ H') : ∃ l, harmonics H' = harmonics H ++ l := by
  unfold harmonics
  obtain ⟨k, rfl⟩ := Nat.exists_eq_add_of_le h
  rw [List.range_add, List.map_append]
  exact ⟨_, rfl⟩

/-- **C31** (non-negative and monotone in harmonics). Eccentric stationary SNRs are defined and non-negative, and
including more harmonics never lowers any of them. -/
theorem C31_ecc_nonneg_mono (C : Ctx) (srcs : List EccSrc) (ht : 0 ≤ C.t_obs) {N : ℝ → WithTop ℝ} (hN : Curve C N)
    (hs : ∀ s ∈ srcs, 0 < s.f_orb) {H H' : ℕ} (hHH : H ≤ H') :
    ∃ snr snr', snr_ecc_stationary C srcs H false false = .ok (.total snr) ∧
      snr_ecc_stationary C srcs H' false false = .ok (.total snr') ∧ snr.length = srcs.length ∧
      Pointwise (fun x y => ∃ v w, x = some v ∧ y = some w ∧ 0 ≤ v ∧ v ≤ w) snr snr' := by
  refine ⟨_, _, by rw [snr_ecc_stationary_eq C _ H false false hN.ok]; rfl,
    by rw [snr_ecc_stationary_eq C _ H' false false hN.ok]; rfl, by simp, ?_⟩
  unfold Pointwise
  rw [List.map_map, List.map_map, List.forall₂_map_left_iff, List.forall₂_map_right_iff, List.forall₂_same]
  intro s h
  refine ⟨_, _, sqrt?_nonneg (ecc2_sum_nonneg ht hN (hs s h) H), sqrt?_nonneg (ecc2_sum_nonneg ht hN (hs s h) H'),
    sqrt_nonneg _, sqrt_le_sqrt ?_⟩
  obtain ⟨l, hl⟩ := harmonics_prefix hHH
  simp only
  rw [hl, List.map_append, List.sum_append]
  have : 0 ≤ (l.map fun n => ecc2 C N s n).sum := by
    apply List.sum_nonneg
    intro x hx
    obtain ⟨n, hn, rfl⟩ := List.mem_map.1 hx
    have : n ∈ harmonics H' := by rw [hl]; simp [hn]
    exact ecc2_nonneg ht hN (hs s h) (mem_harmonics.1 this).1
  linarith

theorem h_0_val_dist (K : Consts) (ig : Option (ℤ → ℝ → ℝ)) (m d f e : ℝ) (n : ℤ) (κ : ℝ) :
    h_0_val K ig m (κ * d) f e n = h_0_val K ig m d f e n / κ := by
  unfold h_0_val
  simp only
  rw [div_mul_eq_div_div_swap]
  ring

theorem sqrt?_scale {κ x : ℝ} (hκ : 0 < κ) : sqrt? (κ ^ 2 * x) = (sqrt? x).map (κ * ·) := by
  by_cases hx : x < 0
  · rw [sqrt?_neg hx, sqrt?_neg (by nlinarith [sq_pos_of_pos hκ])]; rfl
  · have hx := not_lt.1 hx
    rw [sqrt?_nonneg hx, sqrt?_nonneg (by positivity), sqrt_mul (by positivity), sqrt_sq hκ.le]; rfl

private lemma modulation_of_snr {srcs : List CircSrc} (ho : ∀ s ∈ srcs, OrientOK s.orient) :
    ∃ μ : CircSrc → ℝ, ∀ s ∈ srcs, modulation s.orient = .ok (μ s) := by
  classical
  have hμ : ∀ s : CircSrc, OrientOK s.orient → ∃ a, modulation s.orient = .ok a := by
    intro s h
    rcases h with h | ⟨p, q, i, h⟩
    · exact ⟨1, by rw [h]; exact modulation_none⟩
    · rw [h]; exact ⟨_, rfl⟩
  choose! μ hμ using hμ
  exact ⟨μ, fun s h => hμ s (ho s h)⟩

/-- **C31** (distance). Moving every source `κ` times further away divides every stationary SNR by `κ`. -/
theorem C31_distance (C : Ctx) {N : ℝ → WithTop ℝ} (hN : ∀ f, noise C f = .ok (N f)) {κ : ℝ} (hκ : 0 < κ) :
    (∀ srcs : List CircSrc, (∀ s ∈ srcs, OrientOK s.orient) → ∃ snr, snr_circ_stationary C srcs = .ok snr ∧
      snr_circ_stationary C (srcs.map fun s => { s with dist := κ * s.dist })
        = .ok (snr.map (Option.map (· / κ)))) ∧
    (∀ (srcs : List EccSrc) (H : ℕ), ∃ snr, snr_ecc_stationary C srcs H false false = .ok (.total snr) ∧
      snr_ecc_stationary C (srcs.map fun s => { s with dist := κ * s.dist }) H false false
        = .ok (.total (snr.map (Option.map (· / κ))))) := by
  have hdiv : (fun x : ℝ => x / κ) = fun x => κ⁻¹ * x := by funext x; rw [div_eq_inv_mul]
  rw [hdiv]
  constructor
  · intro srcs ho
    obtain ⟨μ, hμ⟩ := modulation_of_snr ho
    refine ⟨_, snr_circ_stationary_eq C srcs (N := N) (μ := μ) (fun s _ => hN _) hμ, ?_⟩
    have hμ' : ∀ s ∈ srcs.map (fun s : CircSrc => { s with dist := κ * s.dist }),
        modulation s.orient = .ok ((fun t : CircSrc => μ { t with dist := κ⁻¹ * t.dist }) s) := by
      intro s hs
      obtain ⟨t, ht, rfl⟩ := List.mem_map.1 hs
      simp only [hμ t ht, inv_mul_cancel_left₀ hκ.ne']
    rw [snr_circ_stationary_eq C _ (N := N) (fun s _ => hN _) hμ', List.map_map, List.map_map]
    congr 1
    apply List.map_congr_left
    intro s _
    simp only [Function.comp, inv_mul_cancel_left₀ hκ.ne', circ2, h_0_val_dist _ _ _ _ _ _ _ κ]
    rw [← sqrt?_scale (inv_pos.2 hκ), ← divNoise_mul]
    congr 2
    field_simp
  · intro srcs H
    refine ⟨_, by rw [snr_ecc_stationary_eq C _ H false false hN]; rfl, ?_⟩
    rw [snr_ecc_stationary_eq C _ H false false hN]
    simp only [finish, Bool.false_eq_true, if_false, pure, Except.pure, List.map_map, Except.ok.injEq,
      SnrOut.total.injEq]
    apply List.map_congr_left
    intro s _
    simp only [Function.comp]
    rw [← sqrt?_scale (inv_pos.2 hκ), ← List.sum_map_mul_left]
    congr 2
    apply List.map_congr_left
    intro n _
    simp only [ecc2, h_0_val_dist _ _ _ _ _ _ _ κ, ← divNoise_mul]
    congr 1
    field_simp

/-- **C31** (observation time). On a fixed noise curve, `κ²` times the observation time multiplies every stationary
SNR by `κ`. -/
theorem C31_t_obs (C : Ctx) {sc : ℝ → WithTop ℝ} (hsc : C.interpolated_sc = some sc) {κ : ℝ} (hκ : 0 < κ) :
    (∀ srcs : List CircSrc, (∀ s ∈ srcs, OrientOK s.orient) → ∃ snr, snr_circ_stationary C srcs = .ok snr ∧
      snr_circ_stationary { C with t_obs := κ ^ 2 * C.t_obs } srcs = .ok (snr.map (Option.map (κ * ·)))) ∧
    (∀ (srcs : List EccSrc) (H : ℕ), ∃ snr, snr_ecc_stationary C srcs H false false = .ok (.total snr) ∧
      snr_ecc_stationary { C with t_obs := κ ^ 2 * C.t_obs } srcs H false false
        = .ok (.total (snr.map (Option.map (κ * ·))))) := by
  have hN : ∀ f, noise C f = .ok (sc f) := fun f => by unfold noise; rw [hsc]; rfl
  have hN' : ∀ f, noise { C with t_obs := κ ^ 2 * C.t_obs } f = .ok (sc f) := fun f => by
    unfold noise; rw [hsc]; rfl
  constructor
  · intro srcs ho
    obtain ⟨μ, hμ⟩ := modulation_of_snr ho
    refine ⟨_, snr_circ_stationary_eq C srcs (N := sc) (μ := μ) (fun s _ => hN _) hμ, ?_⟩
    rw [snr_circ_stationary_eq _ _ (N := sc) (fun s _ => hN' _) hμ, List.map_map]
    congr 1
    apply List.map_congr_left
    intro s _
    simp only [Function.comp, circ2]
    rw [← sqrt?_scale hκ, ← divNoise_mul]
    congr 2
    ring
  · intro srcs H
    refine ⟨_, by rw [snr_ecc_stationary_eq C _ H false false hN]; rfl, ?_⟩
    rw [snr_ecc_stationary_eq _ _ H false false hN']
    simp only [finish, Bool.false_eq_true, if_false, pure, Except.pure, List.map_map, Except.ok.injEq,
      SnrOut.total.injEq]
    apply List.map_congr_left
    intro s _
    simp only [Function.comp]
    rw [← sqrt?_scale hκ, ← List.sum_map_mul_left]
    congr 2
    apply List.map_congr_left
    intro n _
    simp only [ecc2, ← divNoise_mul]
    congr 1
    ring

/-- **C31** (out of band). A circular stationary source emitting where the noise is infinite has SNR 0; so has an
eccentric one all of whose harmonics lie there. -/
theorem C31_infinite_noise (C : Ctx) {N : ℝ → WithTop ℝ} (hN : ∀ f, noise C f = .ok (N f)) :
    (∀ srcs : List CircSrc, (∀ s ∈ srcs, OrientOK s.orient) → ∃ snr, snr_circ_stationary C srcs = .ok snr ∧
      Pointwise (fun s x => N (2 * s.f_orb) = ⊤ → x = some 0) srcs snr) ∧
    (∀ (srcs : List EccSrc) (H : ℕ), ∃ snr, snr_ecc_stationary C srcs H false false = .ok (.total snr) ∧
      Pointwise (fun s x => (∀ n : ℕ, 1 ≤ n → n ≤ H → N (n * s.f_orb) = ⊤) → x = some 0) srcs snr) := by
  constructor
  · intro srcs ho
    obtain ⟨μ, hμ⟩ := modulation_of_snr ho
    refine ⟨_, snr_circ_stationary_eq C srcs (N := N) (μ := μ) (fun s _ => hN _) hμ, ?_⟩
    unfold Pointwise
    rw [List.forall₂_map_right_iff, List.forall₂_same]
    intro s _ h
    simp [circ2, h, divNoise, sqrt?_nonneg]
  · intro srcs H
    refine ⟨_, by rw [snr_ecc_stationary_eq C _ H false false hN]; rfl, ?_⟩
    unfold Pointwise
    rw [List.map_map, List.forall₂_map_right_iff, List.forall₂_same]
    intro s _ h
    have : ((harmonics H).map fun n => ecc2 C N s n).sum = 0 := by
      apply List.sum_eq_zero
      intro x hx
      obtain ⟨n, hn, rfl⟩ := List.mem_map.1 hx
      obtain ⟨h1, h2⟩ := mem_harmonics.1 hn
      have := h n.toNat (by omega) (by omega)
      have hc : ((n.toNat : ℕ) : ℝ) = (n : ℝ) := by
        have : ((n.toNat : ℤ) : ℝ) = (n : ℝ) := by rw [Int.toNat_of_nonneg (by omega)]
        exact_mod_cast this
      rw [hc] at this
      simp [ecc2, this, divNoise]
    simp only [Function.comp]
    rw [this, sqrt?_nonneg le_rfl, sqrt_zero]

/-- The default LISA curve with the analytic response is a noise curve for every observation time. -/
theorem curve_lisa_default (K : Consts) (env : psd.Env) (t : ℝ) :
    ∃ N, Curve { K := K, env := env, kw := { approximate_R := true }, t_obs := t } N := by
  have h := fun f => C24_lisa K env f (.val t) (L := 2.5e9) (by norm_num) true (noise := .name "karnesis21")
    (by simp [Recognised]) (fun g _ => by simp [ResponseOk])
  choose N hN using h
  refine ⟨N, ⟨fun f => ?_, fun f _ => ?_⟩⟩
  · rw [← (hN f).1]
    rfl
  · by_cases hb : 1e-7 ≤ f ∧ f ≤ 2
    · obtain ⟨y, hy, e⟩ := (hN f).2.2 hb.1 hb.2
      rw [e]; exact_mod_cast hy
    · rw [(hN f).2.1 (by
        by_contra hc
        rw [not_or, not_lt, not_lt] at hc
        exact hb hc)]
      exact WithTop.coe_lt_top 0

/-- **C09** (SNR). Giving positions, polarisations and inclinations never raises a circular stationary SNR above its
averaged value. -/
theorem C09_snr_le_averaged (C : Ctx) (srcs : List CircSrc) (ht : 0 ≤ C.t_obs) {N : ℝ → WithTop ℝ} (hN : Curve C N)
    (hs : ∀ s ∈ srcs, CircPhys s) (ho : ∀ s ∈ srcs, OrientOK s.orient) :
    ∃ snr avg, snr_circ_stationary C srcs = .ok snr ∧
      snr_circ_stationary C (srcs.map fun s => { s with orient := {} }) = .ok avg ∧
      Pointwise (fun x y => ∃ v w, x = some v ∧ y = some w ∧ 0 ≤ v ∧ v ≤ w) snr avg := by
  obtain ⟨μ, hμ⟩ := modulation_of_snr ho
  refine ⟨_, _, snr_circ_stationary_eq C srcs (N := N) (μ := μ) (fun s _ => hN.ok _) hμ,
    snr_circ_stationary_eq C _ (N := N) (μ := fun _ => 1) (fun s _ => hN.ok _) ?_, ?_⟩
  · intro s h
    obtain ⟨t, -, rfl⟩ := List.mem_map.1 h
    exact modulation_none
  · unfold Pointwise
    rw [List.map_map, List.forall₂_map_left_iff, List.forall₂_map_right_iff, List.forall₂_same]
    intro s h
    have hp := hN.pos (2 * s.f_orb) (by have := (hs s h).2.1; linarith)
    have h0 := modulation_nonneg (hμ s h)
    have h1 := modulation_le_one (hμ s h)
    refine ⟨_, _, sqrt?_nonneg (divNoise_nonneg (by positivity) hp.le),
      sqrt?_nonneg (divNoise_nonneg (by positivity) hp.le), sqrt_nonneg _, sqrt_le_sqrt ?_⟩
    apply divNoise_le _ hp.le
    apply mul_le_mul_of_nonneg_right _ ht
    rw [mul_pow, mul_pow]
    apply mul_le_mul_of_nonneg_right _ (sq_nonneg _)
    nlinarith

end Legwork.Props
