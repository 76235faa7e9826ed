import Verif.Lemmas.Messages
import Verif.Lemmas.Grid
import Verif.Props.SnrEccEvolving
import Verif.Props.SnrStationary
import Verif.Props.Construct
import Verif.Spec.Messages

/-!
# Properties of the log messages
-/

namespace Legwork.Props

open Legwork.Spec Legwork.source Legwork.evol Legwork.snr
open PyM hiding bind

/-! ## C105 -/

/-- **C105** (nothing else depends on them). What `evol_ecc`, `snr_ecc_evolving` and the constructor return, raise and
leave behind is the same as without messages. -/
theorem C105_same_results :
    (∀ {n : ℕ} (K : Consts) (odeint : Odeint) (ecc : Fin n → ℝ) (te : Option (TEvol (Fin n))) (ns : ℕ)
      (steps : Option (Steps (Fin n))) (β m₁ m₂ a f : Option (Fin n → ℝ)) (vars : List String) (np : ℕ)
      (order : List ℕ) (avoid ex : Bool) (tb : ℝ) (tm : Option (Fin n → ℝ)) (ms : List Message),
      (evol_ecc_m K odeint ecc te ns steps β m₁ m₂ a f vars np order avoid ex tb tm ms).1 =
        evol_ecc K odeint ecc te ns steps β m₁ m₂ a f vars np order avoid ex tb tm) ∧
    (∀ (C : Ctx) (odeint : Odeint) (srcs : List EvolSrc) (H n : ℕ) (t_merge : Option (List ℝ)) (np : ℕ)
      (order : List ℕ) (rm rb : Bool) (ms : List Message),
      (snr_ecc_evolving_m C odeint srcs H n t_merge np order rm rb ms).1 =
        snr_ecc_evolving C odeint srcs H n t_merge np order rm rb) ∧
    ∀ (W : World) (cls : Cls) (a : InitArgs) (k : Session),
      ((init_m W cls a k).1, (init_m W cls a k).2.heap) = init W cls a k.heap := by
  refine ⟨fun K o e te ns st b m₁ m₂ a f vars np ord am ex tb tm ms => evol_ecc_says K o e te ns st b m₁ m₂ a f vars np
    ord am ex tb tm ms, fun C o s H n tm np ord rm rb ms => snr_ecc_evolving_says C o s H n tm np ord rm rb ms,
    fun W cls a k => ?_⟩
  obtain ⟨h1, h2⟩ := init_notes W cls a k
  rw [h1, h2]

private lemma text_past : past_merger = pastMerger := by simp [past_merger, pastMerger]

private lemma text_close : all_too_close = tooClose := by simp [all_too_close, tooClose]

private lemma text_inclinations : random_inclinations = randomInclinations := by
  simp [random_inclinations, randomInclinations]

private lemma text_polarisations : random_polarisations = randomPolarisations := by
  simp [random_polarisations, randomPolarisations]

private lemma text_few : few_sources = fewSources := by simp [few_sources, fewSources]

private lemma texts_differ : pastMerger ≠ tooClose := by simp [pastMerger, tooClose]

private lemma asked_times {n : ℕ} {K : Consts} {odeint : Odeint} {ecc : Fin n → ℝ} {te : Option (TEvol (Fin n))} {ns : ℕ}
    {steps : Option (Steps (Fin n))} {β m₁ m₂ a f : Option (Fin n → ℝ)} (np : ℕ) (order : List ℕ)
    {avoid ex : Bool} {tb : ℝ} {tm : Option (Fin n → ℝ)} {b' a' : Fin n → ℝ} {ts R : Fin n → List ℝ}
    (hin : check_mass_freq_input K β m₁ m₂ a f = .ok (b', a'))
    (hts : create_timesteps_array K a' b' (some ecc) te ns steps = .ok ts)
    (hR : (if avoid = true then avoid_merger_times K ecc b' a' ex tb tm ts else pure ts) = .ok R) :
    evol_ecc K odeint ecc te ns steps β m₁ m₂ a f ["timesteps"] np order avoid ex tb tm = .ok (.one R) := by
  rw [evol_ecc_eq K odeint ecc te ns steps β m₁ m₂ a f _ np order avoid ex tb tm hin (by simp [wantsFreq]) hts hR]
  simp [isKnown, unwrap, eccVal]

/-- **C105** (`evol_ecc`). A call that succeeds logs nothing if `avoid_merger=False`. Otherwise let `R` be the times the
same call without `avoid_merger` returns and `T` the merger times, supplied or computed: the first warning is logged
exactly if some time of some source is past its merger, the second exactly if all times of all sources but the first are
within `t_before` of the merger or later, in this order, and nothing else is logged. -/
theorem C105_evol_ecc {n : ℕ} {K : Consts} {odeint : Odeint} {ecc : Fin n → ℝ} {te : Option (TEvol (Fin n))} {ns : ℕ}
    {steps : Option (Steps (Fin n))} {β m₁ m₂ a f : Option (Fin n → ℝ)} {vars : List String} {np : ℕ}
    {order : List ℕ} {avoid ex : Bool} {tb : ℝ} {tm : Option (Fin n → ℝ)} {ms ms' : List Message} {out : EvolOut (Fin n)}
    (h : evol_ecc_m K odeint ecc te ns steps β m₁ m₂ a f vars np order avoid ex tb tm ms = (.ok out, ms')) :
    (avoid = false → ms' = ms) ∧
    (avoid = true → ∃ R T,
      evol_ecc K odeint ecc te ns steps β m₁ m₂ a f ["timesteps"] np order false ex tb tm = .ok (.one R) ∧
      MergersOf K ecc β m₁ m₂ a f ex tm T ∧ (∀ i, R i ≠ []) ∧
      ms' = ms ++ because (∃ i, ∃ t ∈ R i, T i < t) pastMerger ++
        because (∀ i, ∀ t ∈ (R i).tail, T i - tb ≤ t) tooClose) := by
  obtain ⟨b', a', ts, hin, hts, hoff, hon⟩ := evol_ecc_m_ok h
  refine ⟨hoff, fun hav => ?_⟩
  obtain ⟨R, hR⟩ := hon hav
  obtain ⟨T, hT, hne, -, hms⟩ := avoid_merger_times_ok hR
  refine ⟨ts, T, asked_times np order hin hts (by simp [pure, Except.pure]), ?_, hne, ?_⟩
  · rcases hT with hT | ⟨h1, h2⟩
    · exact Or.inl hT
    · exact Or.inr ⟨h1, by rw [get_t_merge_ecc_checked hin]; exact h2⟩
  · rw [hms, text_past, text_close]
    unfold because
    simp only [gt_iff_lt, ge_iff_le]
    congr

/-- **C105** (what the second warning means). If the times asked for increase from 0 or later, the warning that evolution
is not possible is logged exactly if the times of no source move: all times returned for a source are the same. -/
theorem C105_stuck {n : ℕ} {K : Consts} {odeint : Odeint} {ecc : Fin n → ℝ} {te : Option (TEvol (Fin n))} {ns : ℕ}
    {steps : Option (Steps (Fin n))} {β m₁ m₂ a f : Option (Fin n → ℝ)} {vars : List String} {np : ℕ}
    {order : List ℕ} {ex : Bool} {tb : ℝ} {tm : Option (Fin n → ℝ)} {ms' : List Message} {out : EvolOut (Fin n)}
    (h : evol_ecc_m K odeint ecc te ns steps β m₁ m₂ a f vars np order true ex tb tm [] = (.ok out, ms'))
    {R : Fin n → List ℝ}
    (hR : evol_ecc K odeint ecc te ns steps β m₁ m₂ a f ["timesteps"] np order false ex tb tm = .ok (.one R))
    (hinc : ∀ i, (R i).Pairwise (· < ·)) (h0 : ∀ i, ∀ t ∈ R i, 0 ≤ t) :
    ∃ S, evol_ecc K odeint ecc te ns steps β m₁ m₂ a f ["timesteps"] np order true ex tb tm = .ok (.one S) ∧
      (tooClose ∈ ms' ↔ ∀ i, ∀ t ∈ S i, ∀ u ∈ S i, t = u) := by
  obtain ⟨b', a', ts, hin, hts, -, hon⟩ := evol_ecc_m_ok h
  obtain ⟨S, hS⟩ := hon rfl
  obtain ⟨T, hT, hne, hclamp, hms⟩ := avoid_merger_times_ok hS
  rw [asked_times (R := ts) np order hin hts (by simp [pure, Except.pure])] at hR
  simp only [Except.ok.injEq, EvolOut.one.injEq] at hR
  subst hR
  have hSS : avoid_merger_times K ecc b' a' ex tb tm ts = .ok S := by
    rw [← avoid_merger_times_says K ecc b' a' ex tb tm ts [], hS]
  refine ⟨S, asked_times np order hin hts (by simpa using hSS), ?_⟩
  have hmem : tooClose ∈ ms' ↔ ∀ i, ∀ t ∈ (ts i).tail, t ≥ T i - tb := by
    rw [hms, text_past, text_close]
    have hd := texts_differ.symm
    constructor
    · intro hm
      by_contra hc
      rw [if_neg hc] at hm
      split_ifs at hm
      · simp [hd] at hm
      · simp at hm
    · intro hc
      rw [if_pos hc]
      simp
  rw [hmem]
  have hsp : ∀ i, MergerClamp (T i - tb) (ts i) (S i) := fun i => by
    rw [hclamp i]
    refine clamp_row_spec fun z hz => ?_
    have := h0 i z (List.mem_of_getElem? hz)
    have hg : (0 : ℝ) < Gyr := by unfold Gyr; norm_num
    linarith
  constructor
  · intro hall i
    have key : ∀ t ∈ S i, (ts i)[0]? = some t := by
      intro t ht
      obtain ⟨k, hk⟩ := List.getElem?_of_mem ht
      cases k with
      | zero => rw [← (hsp i).first]; exact hk
      | succ k =>
        have hlt : k + 1 < (ts i).length := by
          rw [← (hsp i).length]
          exact (List.getElem?_eq_some_iff.1 hk).1
        have hx : (ts i)[k + 1]? = some (ts i)[k + 1] := List.getElem?_eq_getElem hlt
        have hclose : ∀ (j : ℕ) (x : ℝ), (ts i)[j + 1]? = some x → T i - tb ≤ x := fun j x hj =>
          hall i x (List.mem_of_getElem? (i := j) (by rw [List.getElem?_tail]; exact hj))
        obtain ⟨y, hy, hgr⟩ := (hsp i).replaced k _ hx (hclose k _ hx)
        rw [hk] at hy
        obtain rfl : t = y := by simpa using hy
        rcases hgr.1 with hz | ⟨j, hj, hlt'⟩
        · exact hz
        · exact absurd (hclose j _ hj) (not_le.2 hlt')
    intro t ht u hu
    have := (key t ht).symm.trans (key u hu)
    simpa using this
  · intro hconst i t ht
    by_contra hlt
    push Not at hlt
    obtain ⟨k, hk⟩ := List.getElem?_of_mem ht
    rw [List.getElem?_tail] at hk
    have hS1 := (hsp i).safe k t hk hlt
    obtain ⟨t0, rest, he⟩ := List.exists_cons_of_ne_nil (hne i)
    have hS0 : (S i)[0]? = some t0 := by rw [(hsp i).first, he]; rfl
    have heq := hconst i t (List.mem_of_getElem? hS1) t0 (List.mem_of_getElem? hS0)
    have hp := hinc i
    rw [he] at hp ht
    have := (List.pairwise_cons.1 hp).1 t ht
    linarith

private lemma linspace_share {t x : ℝ} {n : ℕ} (h : x ∈ np.linspace t n) : ∃ s : ℝ, 0 ≤ s ∧ s ≤ 1 ∧ x = s * t := by
  unfold np.linspace at h
  obtain ⟨k, hk, rfl⟩ := List.mem_map.1 h
  rw [List.mem_range] at hk
  rcases Nat.lt_or_ge n 2 with h2 | h2
  · have : k = 0 := by omega
    exact ⟨0, le_rfl, zero_le_one, by simp [this]⟩
  · have hn : (1 : ℝ) < n := by exact_mod_cast h2
    have hk' : (k : ℝ) + 1 ≤ n := by exact_mod_cast hk
    refine ⟨(k : ℝ) / ((n : ℝ) - 1), by apply div_nonneg <;> [positivity; linarith], ?_, by ring⟩
    rw [div_le_one (by linarith)]
    linarith

/-- **C105** (default times). When neither times nor a length of the evolution are given and merger times are computed
exactly, nothing is said to be past the merger. -/
theorem C105_default_times {n : ℕ} {K : Consts} {odeint : Odeint} {ecc : Fin n → ℝ} {ns : ℕ}
    {β m₁ m₂ a f : Option (Fin n → ℝ)} {vars : List String} {np : ℕ} {order : List ℕ} {tb : ℝ}
    {ms' : List Message} {out : EvolOut (Fin n)}
    (h : evol_ecc_m K odeint ecc none ns none β m₁ m₂ a f vars np order true true tb none [] = (.ok out, ms'))
    {T : Fin n → ℝ} (hT : get_t_merge_ecc K ecc a f β m₁ m₂ 0.15 (1 - 1e-4) true = .ok T) (hpos : ∀ i, 0 ≤ T i) :
    pastMerger ∉ ms' := by
  obtain ⟨b', a', ts, hin, hts, -, hon⟩ := evol_ecc_m_ok h
  obtain ⟨S, hS⟩ := hon rfl
  obtain ⟨T', hT', -, -, hms⟩ := avoid_merger_times_ok hS
  rw [get_t_merge_ecc_checked hin] at hT
  rcases hT' with hT' | ⟨-, hT'⟩
  · cases hT'
  rw [hT] at hT'
  simp only [Except.ok.injEq] at hT'
  subst hT'
  have hrow : ∀ i, ts i = Legwork.np.linspace (T i) ns := by
    unfold create_timesteps_array at hts
    simp only [hT, bind, Except.bind, pure, Except.pure, Except.ok.injEq] at hts
    intro i
    rw [← hts]
  rw [if_neg] at hms
  · rw [hms, text_close]
    have hd := texts_differ
    split_ifs <;> simp [hd]
  · rintro ⟨i, t, ht, hlt⟩
    rw [hrow] at ht
    obtain ⟨s, h0, h1, rfl⟩ := linspace_share ht
    nlinarith [hpos i]

/-- **C105** (`snr_ecc_evolving`). With at least three steps and positive merger times, a call that succeeds logs the
second warning if every source is within 0.1 yr of its merger, and nothing otherwise. -/
theorem C105_snr {C : Ctx} {odeint : Odeint} {srcs : List EvolSrc} {H n : ℕ} {t_merge : Option (List ℝ)} {np : ℕ}
    {order : List ℕ} {rm rb : Bool} {ms ms' : List Message} {out : SnrOut}
    (h : snr_ecc_evolving_m C odeint srcs H n t_merge np order rm rb ms = (.ok out, ms')) (hn : 3 ≤ n)
    (ht : 0 < C.t_obs) {T : Fin srcs.length → ℝ}
    (hT : t_merge = some (List.ofFn T) ∨ t_merge = none ∧ get_t_merge_ecc C.K (fun i => srcs[i].ecc) none
      (some fun i => srcs[i].f_orb_i) none (some fun i => srcs[i].m_1) (some fun i => srcs[i].m_2) 0.15 (1 - 1e-4) true
      = .ok T) (hpos : ∀ i, 0 < T i) :
    ms' = ms ++ because (∀ i, T i ≤ 0.1 * psd.yr) tooClose := by
  have hTT : merge_times_ecc C srcs t_merge = .ok T := by
    rcases hT with rfl | ⟨rfl, hm⟩
    · simp [merge_times_ecc, pure, Except.pure]
    · exact hm
  unfold snr_ecc_evolving_m at h
  obtain ⟨T', k1, h1, g1⟩ := bind_eq_ok h
  obtain ⟨r1, e1⟩ := lift_ok h1
  rw [hTT] at r1
  simp only [Except.ok.injEq] at r1
  subst r1
  obtain ⟨o, k2, h2, g2⟩ := bind_eq_ok g1
  have e2 := (lift_ok g2).2
  obtain ⟨b', a', ts, -, hts, -, hon⟩ := evol_ecc_m_ok h2
  obtain ⟨S, hS⟩ := hon rfl
  obtain ⟨T', hT', hne, -, hms⟩ := avoid_merger_times_ok hS
  rcases hT' with hT' | ⟨hT', -⟩
  swap
  · cases hT'
  simp only [Option.some.injEq] at hT'
  subst hT'
  have hrow : ∀ i, ts i = Legwork.np.linspace (min (T i - 0.1 * psd.yr) C.t_obs) n := by
    unfold create_timesteps_array at hts
    simp only [bind, Except.bind, pure, Except.pure, Except.ok.injEq] at hts
    intro i
    rw [← hts]
  have hyr : (0 : ℝ) < 0.1 * psd.yr := by unfold psd.yr; norm_num
  rw [e2, hms, e1, if_neg]
  · have hiff : (∀ i, ∀ t ∈ (ts i).tail, t ≥ T i - 0.1 * psd.yr) ↔ ∀ i, T i ≤ 0.1 * psd.yr := by
      constructor
      · intro hall i
        by_contra hgt
        push Not at hgt
        have hmem : 1 * (min (T i - 0.1 * psd.yr) C.t_obs / ((n : ℝ) - 1)) ∈ (ts i).tail := by
          rw [hrow]
          refine List.mem_of_getElem? (i := 0) ?_
          rw [List.getElem?_tail]
          unfold Legwork.np.linspace
          rw [List.getElem?_map, List.getElem?_range (by omega)]
          simp
        have h3 : (3 : ℝ) ≤ n := by exact_mod_cast hn
        have hle := hall i _ hmem
        have hm : min (T i - 0.1 * psd.yr) C.t_obs ≤ T i - 0.1 * psd.yr := min_le_left _ _
        have hm0 : 0 < min (T i - 0.1 * psd.yr) C.t_obs := lt_min (by linarith) ht
        rw [one_mul, ge_iff_le, le_div_iff₀ (by linarith)] at hle
        nlinarith
      · intro hall i t htm
        have hmin : min (T i - 0.1 * psd.yr) C.t_obs = T i - 0.1 * psd.yr := min_eq_left (by linarith [hall i])
        have := List.mem_of_mem_tail htm
        rw [hrow, hmin] at this
        obtain ⟨s, h0, h1, rfl⟩ := linspace_share this
        nlinarith [hall i]
    unfold because
    rw [List.append_nil]
    by_cases hc : ∀ i, T i ≤ 0.1 * psd.yr
    · rw [if_pos (hiff.2 hc), if_pos hc]
      rw [text_close]
    · rw [if_neg (mt hiff.1 hc), if_neg hc]
  · rintro ⟨i, t, htm, hlt⟩
    rw [hrow] at htm
    obtain ⟨s, h0, h1, rfl⟩ := linspace_share htm
    have hm : min (T i - 0.1 * psd.yr) C.t_obs ≤ T i - 0.1 * psd.yr := min_le_left _ _
    have := hpos i
    rcases le_or_gt (min (T i - 0.1 * psd.yr) C.t_obs) 0 with hneg | hp
    · nlinarith
    · nlinarith

/-- **C105** (unnoticed zeros). In the setting of C65, a source within 0.1 yr of its merger beside another that is not has
the SNR 0 and no message is logged. -/
theorem C105_unnoticed (C : Ctx) {odeint : Odeint} (ho : DecreasingIntegrator odeint) (srcs : List EvolSrc) (H : ℕ)
    {n : ℕ} (hn : 3 ≤ n) (ht : 0 < C.t_obs) {N : ℝ → WithTop ℝ} (hN : Curve C N) (hs : ∀ s ∈ srcs, EvolPhys s)
    (he : ∀ s ∈ srcs, 0 < s.ecc ∧ s.ecc < 1) (np : ℕ) (order : List ℕ)
    (hall : np > 1 → ∀ i < srcs.length, i ∈ order) {T : Fin srcs.length → ℝ} {t_merge : Option (List ℝ)}
    (hT : t_merge = some (List.ofFn T) ∨ t_merge = none ∧ get_t_merge_ecc C.K (fun i => srcs[i].ecc) none
      (some fun i => srcs[i].f_orb_i) none (some fun i => srcs[i].m_1) (some fun i => srcs[i].m_2) 0.15 (1 - 1e-4) true
      = .ok T) (hpos : ∀ i, 0 < T i) (h100 : Avoids100 C odeint srcs T n) {i j : Fin srcs.length}
    (hi : T i ≤ 0.1 * psd.yr) (hj : 0.1 * psd.yr < T j) (ms : List Message) :
    ∃ snr, snr_ecc_evolving_m C odeint srcs H n t_merge np order false false ms = (.ok (.total snr), ms) ∧
      snr[i]? = some (some 0) := by
  obtain ⟨snr, rows, h1, -, h3, h4, h5⟩ := C65_well_defined C ho srcs H (by omega) ht.le hN hs he np order hall hT h100
  have hr := snr_ecc_evolving_says C odeint srcs H n t_merge np order false false ms
  rw [h1] at hr
  have hrun : snr_ecc_evolving_m C odeint srcs H n t_merge np order false false ms = (.ok (.total snr),
    (snr_ecc_evolving_m C odeint srcs H n t_merge np order false false ms).2) := by rw [← hr]
  have hms := C105_snr hrun hn ht hT hpos
  rw [because, if_neg (fun h => absurd (h j) (not_le.2 hj)), List.append_nil] at hms
  rw [hms] at hrun
  refine ⟨snr, hrun, ?_⟩
  have hx : snr[i]? = some snr[i] := by
    rw [Fin.getElem?_fin, List.getElem?_eq_getElem (by rw [h3]; exact i.2)]
    rfl
  have hy : rows[i]? = some rows[i] := by
    rw [Fin.getElem?_fin, List.getElem?_eq_getElem (by rw [h4]; exact i.2)]
    rfl
  rw [hx, (h5 i _ _ hx hy).2.2.2 hi]

/-- **C105** (constructor). A `Source` that is built logs, in this order: that inclinations are random, if a position is
given without them; that polarisations are random, if a position is given without them; and the warning on interpolation,
if `interpolate_g` is set (the default) and there are at most 1000 sources. -/
theorem C105_init {W : World} {cls : Cls} {a : InitArgs} {k k' : Session} {s : ℕ}
    (h : init_m W cls a k = (.ok s, k')) :
    k'.messages = k.messages ++
      because (a.position.isSome = true ∧ a.inclination = none) randomInclinations ++
      because (a.position.isSome = true ∧ a.polarisation = none) randomPolarisations ++
      because (a.interpolate_g = true ∧ described a.m_1 ≤ 1000) fewSources := by
  unfold init_m at h
  obtain ⟨_u, k0, h0, g0⟩ := bind_eq_ok h
  have e0 := (lift_ok h0).2
  obtain ⟨⟨pos, pol, inc⟩, k1, h1, g1⟩ := bind_eq_ok g0
  have e1 := init_orientation_logs h1
  dsimp only at g1
  obtain ⟨cols, k2, h2, g2⟩ := bind_eq_ok g1
  obtain ⟨hcols, e2⟩ := lift_ok h2
  obtain ⟨s', k3, h3, g3⟩ := bind_eq_ok g2
  have e3 := unlogged_ok h3
  obtain ⟨_v, k4, h4, g4⟩ := bind_eq_ok g3
  have e4 := unlogged_ok h4
  obtain ⟨_w, k5, h5, g5⟩ := bind_eq_ok g4
  have e5 := unlogged_ok h5
  obtain ⟨_x, k6, h6, g6⟩ := bind_eq_ok g5
  have e6 := note_ok h6
  obtain ⟨_y, k7, h7, g7⟩ := bind_eq_ok g6
  have e7 := unlogged_ok h7
  simp only [pure_run, Prod.mk.injEq] at g7
  have hn : cols.n_sources = described a.m_1 := by
    obtain ⟨f, -, hcols⟩ := except_bind_ok.1 hcols
    split_ifs at hcols
    all_goals
      cases hcols
      try cases a.m_1 <;> rfl
  rw [← g7.2, e7, e6, e5, e4, e3, e2, e1, e0, hn]
  rw [text_inclinations, text_polarisations, text_few]
  unfold because
  congr 1
  · congr 1
    · congr 1
      split_ifs <;> rfl
    · split_ifs <;> rfl
  · split_ifs <;> rfl

/-! ### Examples -/

/-- A binary that merges after 5 Gyr, evolved to 6 Gyr in one step: both warnings. In two steps of which the first is
allowed only the first warning, and none for shorter times. -/
example (K : Consts) (odeint : Odeint) (grid : List ℝ) (msgs : List Message)
    (h : (grid, msgs) ∈ [([0, 6 * Gyr], [pastMerger, tooClose]), ([0, Gyr, 6 * Gyr], [pastMerger]), ([0, Gyr], [])]) :
    ∃ out, evol_ecc_m K odeint (fun _ : Fin 1 => 0.5) none 100 (some (.grid grid)) (some fun _ => 1) none none
      (some fun _ => 1) none ["timesteps", "ecc"] 1 [] true false (1e-3 * Gyr) (some fun _ => 5 * Gyr) [] =
        (.ok out, msgs) := by
  have hg : (0 : ℝ) < Gyr := by unfold Gyr; norm_num
  have hne : grid ≠ [] := by
    simp only [List.mem_cons, Prod.mk.injEq, List.not_mem_nil, or_false] at h
    rcases h with h | h | h <;> simp [h.1]
  have hok : ∃ out, evol_ecc K odeint (fun _ : Fin 1 => (0.5 : ℝ)) none 100 (some (.grid grid)) (some fun _ => 1) none none
      (some fun _ => 1) none ["timesteps", "ecc"] 1 [] true false (1e-3 * Gyr) (some fun _ => 5 * Gyr) = .ok out := by
    rw [evol_ecc_eq K odeint _ _ _ _ _ _ _ _ _ _ _ _ _ _ _ _ (b' := fun _ => 1) (a' := fun _ => 1) (ts := fun _ => grid)
      (R := fun _ => clamp_row Gyr (5 * Gyr) (1e-3 * Gyr) grid) rfl (by simp [wantsFreq]) rfl]
    · exact ⟨_, rfl⟩
    · simp [avoid_merger_times, hne, bind, Except.bind, pure, Except.pure]
  obtain ⟨out, hout⟩ := hok
  have hs := C105_same_results.1 K odeint (fun _ : Fin 1 => (0.5 : ℝ)) none 100 (some (.grid grid)) (some fun _ => 1) none
    none (some fun _ => 1) none ["timesteps", "ecc"] 1 [] true false (1e-3 * Gyr) (some fun _ => 5 * Gyr) []
  rw [hout] at hs
  refine ⟨out, Prod.ext hs ?_⟩
  obtain ⟨R, T, hR, hT, -, hms⟩ := (C105_evol_ecc (Prod.ext hs rfl)).2 rfl
  rw [asked_times (b' := fun _ => 1) (a' := fun _ => 1) (R := fun _ => grid) (ts := fun _ => grid) 1 [] rfl rfl
    (by simp [pure, Except.pure])] at hR
  simp only [Except.ok.injEq, EvolOut.one.injEq] at hR
  subst hR
  rcases hT with hT | ⟨hT, -⟩
  swap
  · cases hT
  simp only [Option.some.injEq] at hT
  subst hT
  refine Eq.trans hms ?_
  simp only [List.mem_cons, Prod.mk.injEq, List.not_mem_nil, or_false] at h
  rcases h with ⟨rfl, rfl⟩ | ⟨rfl, rfl⟩ | ⟨rfl, rfl⟩
  · rw [because, because, if_pos, if_pos]
    · rfl
    · intro i t ht
      simp at ht
      subst ht
      linarith
    · exact ⟨0, 6 * Gyr, by simp, by linarith⟩
  · rw [because, because, if_pos, if_neg]
    · rfl
    · intro hc
      have := hc 0 Gyr (by simp)
      linarith
    · exact ⟨0, 6 * Gyr, by simp, by linarith⟩
  · rw [because, because, if_neg, if_neg]
    · rfl
    · intro hc
      have := hc 0 Gyr (by simp)
      linarith
    · rintro ⟨i, t, ht, hlt⟩
      simp at ht
      rcases ht with rfl | rfl <;> linarith

/-- An integrator that sees no change. -/
theorem constant_integrates : DecreasingIntegrator fun _ e₀ ts => ts.map fun _ => some e₀ := by
  refine ⟨?_, ?_, ?_, ?_, ?_⟩
  · intros; simp
  · intro rhs e₀ ts _ h0 h1 hts x hx
    obtain ⟨t, ht, e⟩ := List.mem_map.1 hx
    injection e with e
    rw [← e]
    exact ⟨h0, h1⟩
  · intro rhs e₀ ts _ h0 h1 hts i j x y hij hx hy
    rw [List.getElem?_map, Option.map_eq_some_iff] at hx hy
    obtain ⟨-, -, ea⟩ := hx
    obtain ⟨-, -, eb⟩ := hy
    injection ea with ea
    injection eb with eb
    rw [← ea, ← eb]
  · intro rhs e₀ ts _ h0 h1 hts i j x hij hx hy
    rw [List.getElem?_map, Option.map_eq_some_iff] at hx
    obtain ⟨-, -, ea⟩ := hx
    cases ea
  · intro rhs e₀ ts _ h0 h1 _ i t ht hi
    rw [List.getElem?_map, hi]
    rfl

/-- Two binaries, one two weeks and one five years before its merger, observed for four years: the SNR of the first is 0
and nothing is logged. -/
example (env : psd.Env) : ∃ snr, snr_ecc_evolving_m
      { K := Consts.codata2018, env := env, kw := { approximate_R := true }, t_obs := 4 * psd.yr }
      (fun _ e₀ ts => ts.map fun _ => some e₀) [⟨2e30, 1e30, 1e-3, 0.3, 1e20⟩, ⟨2e30, 1e30, 2e-3, 0.2, 1e20⟩] 3 100
      (some [0.04 * psd.yr, 5 * psd.yr]) 1 [] false false [] = (.ok (.total snr), []) ∧ snr[0]? = some (some 0) := by
  have hyr : (0 : ℝ) < psd.yr := by unfold psd.yr; norm_num
  obtain ⟨N, hN⟩ := curve_lisa_default Consts.codata2018 env (4 * psd.yr)
  have hs : ∀ s ∈ ([⟨2e30, 1e30, 1e-3, 0.3, 1e20⟩, ⟨2e30, 1e30, 2e-3, 0.2, 1e20⟩] : List EvolSrc), EvolPhys s := by
    intro s hs
    simp only [List.mem_cons, List.not_mem_nil, or_false] at hs
    rcases hs with rfl | rfl <;> refine ⟨?_, ?_, ?_, ?_⟩ <;> norm_num
  have he : ∀ s ∈ ([⟨2e30, 1e30, 1e-3, 0.3, 1e20⟩, ⟨2e30, 1e30, 2e-3, 0.2, 1e20⟩] : List EvolSrc), 0 < s.ecc ∧ s.ecc < 1 := by
    intro s hs
    simp only [List.mem_cons, List.not_mem_nil, or_false] at hs
    rcases hs with rfl | rfl <;> norm_num
  have ha : ∀ s ∈ ([⟨2e30, 1e30, 1e-3, 0.3, 1e20⟩, ⟨2e30, 1e30, 2e-3, 0.2, 1e20⟩] : List EvolSrc),
      utils.get_a_from_f_orb Consts.codata2018 s.f_orb_i s.m_1 s.m_2 ≠ 1e-30 * AU := by
    intro s hs
    have hle : 1 ≤ utils.get_a_from_f_orb Consts.codata2018 s.f_orb_i s.m_1 s.m_2 := by
      have hpi := Real.pi_lt_four
      have hpi0 := Real.pi_pos
      unfold utils.get_a_from_f_orb
      apply Real.one_le_rpow _ (by norm_num)
      simp only [List.mem_cons, List.not_mem_nil, or_false] at hs
      rcases hs with rfl | rfl <;> simp only [Consts.codata2018] <;> rw [le_div_iff₀ (by positivity)] <;> nlinarith
    have : (1e-30 : ℝ) * AU < 1 := by unfold AU; norm_num
    linarith
  have h100 := constant_avoids { K := Consts.codata2018, env := env, kw := { approximate_R := true }, t_obs := 4 * psd.yr }
    [⟨2e30, 1e30, 1e-3, 0.3, 1e20⟩, ⟨2e30, 1e30, 2e-3, 0.2, 1e20⟩] ![0.04 * psd.yr, 5 * psd.yr] (n := 100) (by norm_num)
    hs he (by
      intro s hs
      simp only [List.mem_cons, List.not_mem_nil, or_false] at hs
      rcases hs with rfl | rfl <;> norm_num) ha
  exact C105_unnoticed _ constant_integrates _ 3 (n := 100) (by norm_num) (by positivity) hN hs he 1 [] (by simp)
    (T := ![0.04 * psd.yr, 5 * psd.yr]) (Or.inl (by simp [List.ofFn_succ])) (fun i => by
      fin_cases i <;> simp <;> positivity) h100 (i := (0 : Fin 2)) (j := (1 : Fin 2)) (by simp; linarith)
    (by simp; linarith) []

/-- Two circular binaries with positions and no angles, given to the constructor with its defaults: all three messages. -/
example : ∃ s k', init_m Example.world .Source
      { Example.args with ecc := .array [0, 0] false, position := some (.array [(1, 0.5), (2, 0.1)]) }
      ⟨Example.start, []⟩ = (.ok s, k') ∧ k'.messages = [randomInclinations, randomPolarisations, fewSources] := by
  obtain ⟨s, h', hr⟩ := C50_accepts (h := Example.start)
    (a := { Example.args with ecc := .array [0, 0] false, position := some (.array [(1, 0.5), (2, 0.1)]) })
    Example.init_start ⟨rfl, rfl, rfl⟩ ⟨example_usable.orbit, example_usable.units, ⟨rfl, rfl, rfl⟩, by simp [Example.args],
      by simp [valuesOf], by intro p hp; exact Or.inl (by cases hp; rfl), by simp [Example.args, IsArray]⟩
  have hs := C105_same_results.2.2 Example.world .Source
    { Example.args with ecc := .array [0, 0] false, position := some (.array [(1, 0.5), (2, 0.1)]) } ⟨Example.start, []⟩
  rw [hr] at hs
  have hs1 := (Prod.mk.injEq _ _ _ _ ▸ hs).1
  have hrun : init_m Example.world .Source
      { Example.args with ecc := .array [0, 0] false, position := some (.array [(1, 0.5), (2, 0.1)]) }
      ⟨Example.start, []⟩ = (.ok s, (init_m Example.world .Source
      { Example.args with ecc := .array [0, 0] false, position := some (.array [(1, 0.5), (2, 0.1)]) }
      ⟨Example.start, []⟩).2) := Prod.ext hs1 rfl
  refine ⟨s, _, hrun, ?_⟩
  rw [C105_init hrun]
  simp [because, described, Example.args]

end Legwork.Props
