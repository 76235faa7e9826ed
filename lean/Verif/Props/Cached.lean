import Verif.Props.Rescaled
import Verif.Props.SourceMasks
import Verif.Props.VisSource
import Verif.Lemmas.MergeTime
import Verif.Lemmas.EarlyStop
import Verif.Spec.Cached

/-!
# What stored merger times change in SNRs (C100)
-/

namespace Legwork.Props

open Real Legwork.source Legwork.Spec Legwork.snr Legwork.strain Legwork.utils
open PyM hiding bind

variable {W : World} {ok : Heap → Op → Prop} {s n : ℕ} {h h' : Heap} {a : SnrArgs} {ws : Option (List Bool)}

theorem stat1_times {x y : One} (hxy : TimesOnly x y) (K : Consts) (T tol : ℝ) : stat1 K T tol y = stat1 K T tol x := by
  unfold TimesOnly at hxy
  rw [hxy]
  rfl

/-- Stationary sources and eccentric ones do not look at the stored merger time. -/
theorem full_times {C : Ctx} {S : Settings} {tol : ℝ} {x y : One} (hxy : TimesOnly x y)
    (hcase : x.StationaryOver W.K C.t_obs tol ∨ S.ecc_tol < x.ecc) :
    fullOne W C S tol n y = fullOne W C S tol n x := by
  unfold fullOne
  rw [stat1_times hxy]
  unfold TimesOnly at hxy
  rcases hcase with hst | he
  · have : stat1 W.K C.t_obs tol x = true := by unfold stat1; simpa using hst
    rw [if_pos this, if_pos this, hxy]
    rfl
  · split_ifs
    · rw [hxy]; rfl
    · unfold evolOne one1
      have he' : S.ecc_tol < y.ecc := by rw [hxy]; exact he
      rw [if_neg (not_le.2 he), if_neg (not_le.2 he'), hxy]
      rfl

/-- Circular evolving sources only use the smaller of the observation time and the merger time less a second. -/
theorem full_same_end {C : Ctx} {S : Settings} {tol : ℝ} {x y : One} (hxy : TimesOnly x y)
    (hcase : min (circTime C.K y - 1) C.t_obs = min (circTime C.K x - 1) C.t_obs) :
    fullOne W C S tol n y = fullOne W C S tol n x := by
  unfold fullOne
  rw [stat1_times hxy]
  have hc : circE1 C n y.evolvingCirc (circTime C.K y) = circE1 C n x.evolvingCirc (circTime C.K x) := by
    unfold circE1
    rw [hcase]
    unfold TimesOnly at hxy
    rw [hxy]
    rfl
  split_ifs
  · unfold TimesOnly at hxy
    rw [hxy]; rfl
  · unfold evolOne one1
    simp only
    rw [hc]
    unfold TimesOnly at hxy
    rw [hxy]
    rfl

theorem Source_snr_tols {r : ℕ} (hn : n ≠ 0) (hs : CompleteSchedule W (h.src s)) (hr : Rect (h.src s).cols)
    (hw : FitsMask (h.src s).cols ws) (hrun : Source_get_snr W s a n ws h = (.ok r, h')) :
    (h'.src s).stat_tol = (h.src s).stat_tol ∧ (h'.src s).ecc_tol = (h.src s).ecc_tol := by
  obtain ⟨f, h₁, T, S, hR, -, hcase⟩ := Source_get_snr_values hn hs hr hw hrun _ rfl
  obtain ⟨sc, p, e1⟩ := (match_params_scOnly hR.matched).src s
  rcases hcase with ⟨-, ho, -⟩ | ⟨-, f', h₂, C, ps, hcalc, ho, -⟩
  · obtain ⟨q, q', e2⟩ := ho.src s
    rw [e2, e1]
    exact ⟨rfl, rfl⟩
  · obtain ⟨sc', p', e2⟩ := (match_params_scOnly hcalc.matched).src s
    obtain ⟨q, q', e3⟩ := ho.src s
    rw [e3, e2, e1]
    exact ⟨rfl, rfl⟩

/-- **C100** (assigned). Assign other merger times to the attribute `t_merge` of a plain `Source`, or remove them. If
`get_snr` succeeds before and after, the SNR and the strongest harmonic of every source that is merged, or not selected, or
stationary, or eccentric are the same: for eccentric evolving sources too, stored merger times are ignored. -/
theorem C100_assigned (hreach : Reachable W ok h) (hcls : (h.src s).cls = .Source ∨ (h.src s).cls = .VerificationBinaries)
    (hn : n ≠ 0) (hs : CompleteSchedule W (h.src s)) (hr : Rect (h.src s).cols) (hw : FitsMask (h.src s).cols ws) {c : Cols}
    (hc : Rect c) (hrows : List.Forall₂ TimesOnly (rows (h.src s).cols) (rows c)) {r r' : ℕ} {k' : Heap}
    (hrun : get_snr W s a n ws h = (.ok r, h')) (hrun' : get_snr W s a n ws (withCols h s c) = (.ok r', k')) {tol : ℝ}
    (htol : (h.src s).ecc_tol = some tol) {i : ℕ} {x : One} (hx : (rows (h.src s).cols)[i]? = some x)
    (hcase : x.merged = true ∨ ¬ Chosen ws i ∨ StationaryIn W h' s x ∨ tol < x.ecc) :
    (∃ v, (h'.snrs r)[i]? = some v ∧ (k'.snrs r')[i]? = some v) ∧ (storedHarm k' s)[i]? = (storedHarm h' s)[i]? := by
  have hP := changed_of_cols (Reachable.inv hreach) hrows
  have hk : (withCols h s c).src s = { h.src s with cols := c } := by simp [withCols]
  have e1 : Source_get_snr W s a n ws h = (.ok r, h') := by
    rw [get_snr_run] at hrun
    rcases hcls with hc | hc <;> · rw [hc] at hrun; exact hrun
  have e2 : Source_get_snr W s a n ws (withCols h s c) = (.ok r', k') := by
    rw [get_snr_run, hk] at hrun'
    rcases hcls with hc | hc <;> · simp only [hc] at hrun'; exact hrun'
  obtain ⟨t1, t2⟩ := Source_snr_tols hn hs hr hw e1
  obtain ⟨y, hy, hxy, v, u, hv, hu, hdead, hlive⟩ := hP.both (W := W)
    (R := fun C S x y v u => x.StationaryOver W.K C.t_obs (h.src s).stat_tol ∨ S.ecc_tol < x.ecc → v = u)
    (fun x y hxy => by rw [hxy]) hn hs hr (by show Rect ((withCols h s c).src s).cols; rw [hk]; exact hc)
    hw (fun C S x y v u hxy hv hu hst => by rw [full_times hxy hst, hv] at hu; exact Except.ok.inj hu) e1 e2 i x hx
  by_cases hd : x.merged = true ∨ ¬ Chosen ws i
  · obtain ⟨rfl, rfl, e⟩ := hdead hd
    exact ⟨⟨_, hv, hu⟩, e⟩
  · push Not at hd
    obtain ⟨m, l, C, S, hm, hl, hC, -, hS, hR⟩ := hlive (by simpa using hd.1) hd.2
    have hst : x.StationaryOver W.K C.t_obs (h.src s).stat_tol ∨ S.ecc_tol < x.ecc := by
      rcases hcase with h1 | h1 | h1 | h1
      · exact absurd h1 hd.1
      · exact absurd hd.2 h1
      · left
        have := h1 C hC
        rwa [t1] at this
      · right
        have := hS.1
        rw [t2, htol] at this
        cases this
        exact h1
    obtain ⟨rfl, rfl⟩ := Prod.mk.inj (hR hst)
    refine ⟨⟨_, hv, hu⟩, ?_⟩
    change (harmNow k' s)[i]? = (harmNow h' s)[i]?
    rw [hm, hl]

theorem callCtx_K {C : Ctx} (hC : CallCtx W h s C) : C.K = W.K := by
  obtain ⟨p, i, cp, L, aR, cn, kw, T, -, -, -, -, -, -, -, -, rfl⟩ := hC
  rfl

theorem rows_stored {c : Cols} {ts : List ℝ} {P : One → ℝ → Prop} (hts : List.Forall₂ P (rows c) ts) :
    List.Forall₂ (fun x y => x ∈ rows c ∧ ∃ t, P x t ∧ y = { x with t_merge := some t }) (rows c)
      (rows { c with t_merge := some ts }) := by
  have hlen := hts.length_eq
  rw [rows_length] at hlen
  refine List.forall₂_iff_get.2 ⟨by rw [rows_length, rows_length]; rfl, fun i h1 h2 => ⟨List.get_mem _ _, ?_⟩⟩
  rw [rows_length] at h1
  have hi : i < ts.length := by omega
  refine ⟨ts[i], (List.forall₂_iff_get.1 hts).2 i (by rw [rows_length]; exact h1) hi, ?_⟩
  simp only [List.get_eq_getElem]
  rw [rows_getElem, rows_getElem]
  unfold rowAt
  simp [List.getD_eq_getElem?_getD, List.getElem?_eq_getElem hi]

/-- **C100** (saved). Call `get_snr` on a plain `Source` without stored merger times; or call
`get_merger_time(save_in_class=True)` first, exact or not. The second call succeeds too, and all SNRs and strongest
harmonics are the same, if every source that is treated as circular and evolving has eccentricity 0 or takes at least
a second longer than the observation to merge. -/
theorem C100_saved (hreach : Reachable W ok h) (hcls : (h.src s).cls = .Source ∨ (h.src s).cls = .VerificationBinaries)
    (hn : n ≠ 0) (hs : CompleteSchedule W (h.src s)) (hr : Rect (h.src s).cols) (hw : FitsMask (h.src s).cols ws)
    (hnone : (h.src s).cols.t_merge = none) {r : ℕ} (hrun : get_snr W s a n ws h = (.ok r, h')) {tol : ℝ}
    (htol : (h.src s).ecc_tol = some tol) {w' : Option (List Bool)} {ex : Bool} {ts : List ℝ} {k : Heap}
    (hsave : get_merger_time W s true w' ex h = (.ok ts, k))
    (hlong : ∀ x ∈ rows (h.src s).cols, x.merged = false → x.ecc ≤ tol → x.ecc = 0 ∨ StationaryIn W h' s x ∨
      PhysicalOne x ∧ ∀ T, MergerTimeOf W.K ex x T → OutlivesIn W h' s T) :
    ∃ r' k', get_snr W s a n ws k = (.ok r', k') ∧ k'.snrs r' = h'.snrs r ∧
      ∀ i < (h.src s).cols.n_sources, (storedHarm k' s)[i]? = (storedHarm h' s)[i]? := by
  obtain ⟨ts', hk, hts⟩ := C58_saved (W := W) (s := s) hr w' ex
  rw [hsave] at hk
  obtain ⟨e, rfl⟩ := Prod.mk.inj hk
  cases e
  have hrows := rows_stored hts
  have hP := changed_of_cols (Reachable.inv hreach) hrows
  set c : Cols := { (h.src s).cols with t_merge := some ts } with hcdef
  have hlen : ts.length = (h.src s).cols.n_sources := by rw [← hts.length_eq, rows_length]
  have hc : Rect c := ⟨hr.m_2, hr.dist, hr.f_orb, hr.ecc, hr.merged, hr.weights, hr.position, hr.inclination, hr.polarisation,
    fun x hx => by cases hx; exact hlen, hr.angles⟩
  have hk : (withCols h s c).src s = { h.src s with cols := c } := by simp [withCols]
  have e1 : Source_get_snr W s a n ws h = (.ok r, h') := by
    rw [get_snr_run] at hrun
    rcases hcls with hc | hc <;> · rw [hc] at hrun; exact hrun
  obtain ⟨t1, t2⟩ := Source_snr_tols hn hs hr hw e1
  obtain ⟨r', k', hkrun, hrel⟩ := hP.full_ctx (W := W) (R := fun _ _ x y v u => u = v)
    (fun x y hxy => by obtain ⟨-, t, -, rfl⟩ := hxy; rfl) hn hs hr
    (by show Rect ((withCols h s c).src s).cols; rw [hk]; exact hc) hw e1 (by
      rintro C S x y v hC hS hm ⟨hmem, t, ht, rfl⟩ hv
      refine ⟨v, ?_, rfl⟩
      rw [← hv]
      have hx0 : x.t_merge = none := by
        obtain ⟨i, -, rfl⟩ := List.mem_map.1 hmem
        simp [rowAt, hnone]
      have hStol : S.ecc_tol = tol := by
        have := hS.1
        rw [t2, htol] at this
        exact (Option.some.inj this).symm
      have hK := callCtx_K hC
      have htm : t = tMerge1 W.K ex x := by
        rw [mergerTimeOf_iff, hm] at ht
        simpa using ht
      by_cases he : tol < x.ecc
      · exact full_times rfl (Or.inr (by rw [hStol]; exact he))
      rcases hlong x hmem hm (not_lt.1 he) with h0 | hst | ⟨hphys, hout⟩
      · refine full_same_end rfl ?_
        have : tMerge1 W.K ex x = tCirc W.K x.evolvingCirc := by
          unfold tMerge1 tEcc tCirc evol.t_val One.evolvingCirc
          simp [h0]
        simp only [circTime, hx0, htm, hK, this]
      · refine full_times rfl (Or.inl ?_)
        have := hst C hC
        rwa [t1] at this
      · refine full_same_end rfl ?_
        have h1 : C.t_obs + 1 ≤ tMerge1 W.K ex x := hout _ (by rw [← htm]; exact ht) C hC
        obtain ⟨p1, p2, p3, p4, p5⟩ := hphys
        have h2 : tMerge1 W.K ex x ≤ tCirc W.K x.evolvingCirc := by
          unfold tMerge1 tEcc tCirc
          rw [if_neg (not_lt.2 p4)]
          exact (evol.t_val_bounds (evol.beta_pos W.K p1 p2) (get_a_from_f_orb_pos W.K p3 p1 p2) p4 p5 ex).2.1
        simp only [circTime, hx0, htm, hK]
        rw [min_eq_right (by linarith), min_eq_right]
        change C.t_obs ≤ tCirc W.K x.evolvingCirc - 1
        linarith)
  have e2 : get_snr W s a n ws (withCols h s c) = (.ok r', k') := by
    rw [get_snr_run, hk]
    rcases hcls with hc | hc <;> · rw [hc]; exact hkrun
  have hall : ∀ i < (h.src s).cols.n_sources, (k'.snrs r')[i]? = (h'.snrs r)[i]? ∧
      (storedHarm k' s)[i]? = (storedHarm h' s)[i]? := by
    intro i hi
    obtain ⟨y, -, -, v, u, hv, hu, hdead, hlive⟩ := hrel i (rowAt (h.src s).cols i) (by rw [rows_get?, if_pos hi])
    by_cases hd : (rowAt (h.src s).cols i).merged = true ∨ ¬ Chosen ws i
    · obtain ⟨rfl, rfl, e⟩ := hdead hd
      exact ⟨by rw [hv, hu], e⟩
    · push Not at hd
      obtain ⟨m, l, C, S, hm, hl, -, -, -, hR⟩ := hlive (by simpa using hd.1) hd.2
      obtain ⟨rfl, rfl⟩ := Prod.mk.inj hR
      refine ⟨by rw [hv, hu], ?_⟩
      change (harmNow k' s)[i]? = (harmNow h' s)[i]?
      rw [hm, hl]
  refine ⟨r', k', e2, ?_, fun i hi => (hall i hi).2⟩
  have l1 := (C36_get_snr hcls hn hs hr hw hrun).2.2.1
  have l2 := (C36_get_snr (by rw [hk]; exact hcls) hn (by rw [hk]; exact hs) (by rw [hk]; exact hc) (by rw [hk]; exact hw) e2).2.2.1
  rw [hk] at l2
  exact list_eq_of_get l2 l1 fun i hi => (hall i hi).1

theorem callCtx_unique {C C' : Ctx} (hC : CallCtx W h s C) (hC' : CallCtx W h s C') : C = C' := by
  obtain ⟨p, i, cp, L, aR, cn, kw, T, h1, h2, h3, h4, h5, h6, h7, h8, rfl⟩ := hC
  obtain ⟨p', i', cp', L', aR', cn', kw', T', k1, k2, k3, k4, k5, k6, k7, k8, rfl⟩ := hC'
  rw [h1] at k1
  cases k1
  rw [h2] at k2
  cases k2
  rw [h3] at k3
  cases k3
  rw [h4] at k4
  cases k4
  rw [h5] at k5
  cases k5
  rw [h6] at k6
  cases k6
  rw [h7] at k7
  cases k7
  rw [h8] at k8
  cases k8
  rfl

/-- Slightly eccentric binaries merge sooner than circular ones. -/
theorem t_small_lt {a b e : ℝ} (hb : 0 < b) (ha : 0 < a) (h0 : 0 < e) (h1 : e < 1) :
    evol.t_small (c_0 a e) b e < a ^ 4 / (4 * b) := by
  have hs := evol.one_sub_sq_pos' h0.le h1
  have hk : 1 ≤ 1 + 121 / 304 * e ^ 2 := by nlinarith [sq_nonneg e]
  have hc := evol.c_0_pos h0 h1 ha
  have hq : 1 ≤ (1 + 121 / 304 * e ^ 2) ^ (3480 / 2299 : ℝ) := one_le_rpow hk (by norm_num)
  have h := evol.c_0_pow_four (a := a) h0 h1
  unfold evol.t_small
  rw [div_mul_eq_mul_div]
  apply div_lt_div_of_pos_right _ (by positivity)
  have hX : 0 ≤ c_0 a e ^ 4 * e ^ (48 / 19 : ℝ) := by positivity
  have h4 : (1 - e ^ 2) ^ 4 < 1 := pow_lt_one₀ hs.le (by have := pow_pos h0 2; linarith) (by norm_num)
  have ha4 : 0 < a ^ 4 := by positivity
  nlinarith

theorem not_100 {K : Consts} (hc1 : 1 ≤ K.c) {x : EvolSrc} (hx : EvolPhys x)
    (hm : 3.375e-6 * K.c ^ 3 ≤ K.G * chirp_mass x.m_1 x.m_2) {T t_obs : ℝ} (h1 : 1 ≤ T) (hobs : 0 ≤ t_obs)
    (hle : T ≤ tCirc K x) (m : ℕ) : (100 : ℝ) ∉ circRow K x (min (T - 1) t_obs) m := by
  have hi : ∀ i : Fin [x].length, [x][i] = x := fun i => by simp
  obtain ⟨fs, hfs, hlt⟩ := C62_below_100Hz K hc1 [x] m (min (T - 1) t_obs) (by simpa using hx) (T := fun _ => tCirc K x)
    (by simp only [hi]; rw [evol.get_t_merge_circ_masses]; rfl) (by simpa using hm)
    (fun _ => le_min (by linarith) (le_min (by linarith) hobs))
  have e := hfs.symm.trans (evol_circ_snr K [x] (fun _ => min (tCirc K x - 1) (min (T - 1) t_obs)) m)
  rw [min_eq_right (by have := min_le_left (T - 1) t_obs; linarith)] at e
  have hfs0 : fs ⟨0, by simp⟩ = circRow K x (min (T - 1) t_obs) m := by
    have : fs = fun i => circRow K [x][i] (min (T - 1) t_obs) m := by simpa using e
    rw [this]
    rfl
  intro hmem
  rw [← hfs0] at hmem
  exact lt_irrefl _ (hlt _ _ hmem)

/-- The number of steps does not change the parameters of the calls. -/
theorem steps_callCtx {n n' r r' : ℕ} {h' h'' : Heap} (hn : n ≠ 0) (hn' : n' ≠ 0) (hs : CompleteSchedule W (h.src s))
    (hr : Rect (h.src s).cols) (hw : FitsMask (h.src s).cols ws) {i : ℕ} {x : One} (hx : (rows (h.src s).cols)[i]? = some x)
    (hmer : x.merged = false) (hch : Chosen ws i) (hrun : Source_get_snr W s a n ws h = (.ok r, h'))
    (hrun' : Source_get_snr W s a n' ws h = (.ok r', h'')) : ∃ C, CallCtx W h' s C ∧ CallCtx W h'' s C := by
  obtain ⟨f, h₁, T, S, hR, -, hcase⟩ := Source_get_snr_values hn hs hr hw hrun _ rfl
  obtain ⟨f₂, h₂, T₂, S₂, hR₂, -, hcase₂⟩ := Source_get_snr_values hn' hs hr hw hrun' _ rfl
  have e := hR₂.matched
  rw [hR.matched] at e
  obtain ⟨e1, rfl⟩ := Prod.mk.inj e
  cases e1
  obtain ⟨b, hb, hbc⟩ := item_at hw hx
  have hany : (items (h.src s).cols (which (h.src s).cols.n_sources ws)).any live = true :=
    List.any_eq_true.2 ⟨_, List.mem_of_getElem? hb, live_iff.2 ⟨hbc.2 hch, hmer⟩⟩
  rcases hcase with ⟨h0, -⟩ | ⟨-, f', h₃, C, ps, hcalc, ho, -⟩
  · rw [hany] at h0; cases h0
  rcases hcase₂ with ⟨h0, -⟩ | ⟨-, g', h₄, C', ps', hcalc', ho', -⟩
  · rw [hany] at h0; cases h0
  have e := hcalc'.matched
  rw [hcalc.matched] at e
  obtain ⟨e1, rfl⟩ := Prod.mk.inj e
  cases e1
  have e := hcalc'.ctx
  rw [hcalc.ctx] at e
  cases e
  exact ⟨C, callCtx hcalc.matched hcalc.ctx ho, callCtx hcalc'.matched hcalc'.ctx ho'⟩

/-- **C100** (where they change SNRs). Take a source of a plain `Source` without stored merger times that is slightly
eccentric, yet circular within the tolerance, evolving, and merges during the observation. On every finite regular noise
curve and with enough steps, `get_snr` gives it a smaller SNR after `get_merger_time(save_in_class=True)` than before. -/
theorem C100_differs (hreach : Reachable W ok h) (hcls : (h.src s).cls = .Source ∨ (h.src s).cls = .VerificationBinaries)
    (hs : CompleteSchedule W (h.src s)) (hr : Rect (h.src s).cols) (hw : FitsMask (h.src s).cols ws)
    (hnone : (h.src s).cols.t_merge = none) {tol : ℝ} (htol : (h.src s).ecc_tol = some tol) {i : ℕ} {x : One}
    (hx : (rows (h.src s).cols)[i]? = some x) (hmer : x.merged = false) (hch : Chosen ws i) (hphys : EvolPhys x.evolvingCirc)
    (he0 : 0 < x.ecc) (he1 : x.ecc ≤ tol) (he2 : x.ecc < 0.15) {n₁ r₁ : ℕ} {h₁ : Heap} (hn₁ : n₁ ≠ 0)
    (hrun₁ : get_snr W s a n₁ ws h = (.ok r₁, h₁)) {C : Ctx} (hC : CallCtx W h₁ s C) {N : ℝ → WithTop ℝ} 
    (hN : Curve C N) (hreg : Tame N) (hfin : ∀ f, 0 < f → N f ≠ ⊤) (hg : ∀ g, C.interpolated_g = some g → 0 < g 2 0)
    (hev : ¬ x.StationaryOver W.K C.t_obs (h.src s).stat_tol) (hc1 : 1 ≤ W.K.c)
    (hmass : 3.375e-6 * W.K.c ^ 3 ≤ W.K.G * x.m_c) {ex : Bool} {T : ℝ} (hT : MergerTimeOf W.K ex x T) (hT1 : 1 ≤ T)
    (hend : T - 1 < C.t_obs) {w' : Option (List Bool)} {ts : List ℝ} {k : Heap}
    (hsave : get_merger_time W s true w' ex h = (.ok ts, k)) :
    ∃ n₀, ∀ n ≥ n₀, ∀ r r' h' k', get_snr W s a n ws h = (.ok r, h') → get_snr W s a n ws k = (.ok r', k') →
      ∃ v v', (h'.snrs r)[i]? = some (some v) ∧ (k'.snrs r')[i]? = some (some v') ∧ v' < v := by
  have hK : C.K = W.K := callCtx_K hC
  have hx0 : x.t_merge = none := by
    obtain ⟨j, -, rfl⟩ := List.mem_map.1 (List.mem_of_getElem? hx)
    simp [rowAt, hnone]
  have hTe : T = tMerge1 W.K ex x := by
    rw [mergerTimeOf_iff, hmer] at hT
    simpa using hT
  obtain ⟨p1, p2, p3, p4⟩ := hphys
  have hlt : T < tCirc W.K x.evolvingCirc := by
    have := t_small_lt (evol.beta_pos W.K p1 p2) (get_a_from_f_orb_pos W.K p3 p1 p2) he0 (by norm_num at he2 ⊢; linarith)
    rw [hTe]
    unfold tMerge1 tEcc tCirc
    rw [if_neg (not_lt.2 he0.le)]
    unfold evol.t_val
    rw [if_neg he0.ne', if_pos he2]
    exact this
  have hobs : 0 ≤ C.t_obs := by linarith
  obtain ⟨n₀, hn₀⟩ := early_less (C := C) (s := x.evolvingCirc) (N := N) (T := T) (T' := tCirc C.K x.evolvingCirc)
    (T₀ := tCirc C.K x.evolvingCirc) ⟨p1, p2, p3, p4⟩ hobs hg hN hreg hfin rfl hT1 (by rw [hK]; exact hlt) le_rfl hend
    (by rw [hK]; exact not_100 hc1 ⟨p1, p2, p3, p4⟩ hmass hT1 hobs hlt.le)
    (by rw [hK]; exact not_100 hc1 ⟨p1, p2, p3, p4⟩ hmass (hT1.trans hlt.le) hobs le_rfl)
  refine ⟨max n₀ 1, fun n hn r r' h' k' hrun hrun' => ?_⟩
  have hn1 : n ≠ 0 := by have := le_of_max_le_right hn; omega
  obtain ⟨v', v, hv', hv, hvv⟩ := hn₀ n (le_of_max_le_left hn)
  obtain ⟨ts', hk, hts⟩ := C58_saved (W := W) (s := s) hr w' ex
  rw [hsave] at hk
  obtain ⟨e, rfl⟩ := Prod.mk.inj hk
  cases e
  have hP := changed_of_cols (Reachable.inv hreach) (rows_stored hts)
  set c : Cols := { (h.src s).cols with t_merge := some ts } with hcdef
  have hlen : ts.length = (h.src s).cols.n_sources := by rw [← hts.length_eq, rows_length]
  have hc : Rect c := ⟨hr.m_2, hr.dist, hr.f_orb, hr.ecc, hr.merged, hr.weights, hr.position, hr.inclination, hr.polarisation,
    fun x hx => by cases hx; exact hlen, hr.angles⟩
  have hk : (withCols h s c).src s = { h.src s with cols := c } := by simp [withCols]
  have e1 : Source_get_snr W s a n ws h = (.ok r, h') := by
    rw [get_snr_run] at hrun
    rcases hcls with hc | hc <;> · rw [hc] at hrun; exact hrun
  have e2 : Source_get_snr W s a n ws (withCols h s c) = (.ok r', k') := by
    change get_snr W s a n ws (withCols h s c) = (.ok r', k') at hrun'
    rw [get_snr_run, hk] at hrun'
    rcases hcls with hc | hc <;> · simp only [hc] at hrun'; exact hrun'
  obtain ⟨t1, t2⟩ := Source_snr_tols hn1 hs hr hw e1
  obtain ⟨y, hy, ⟨-, t, ht, rfl⟩, q, u, hq, hu, -, hlive⟩ := hP.both (W := W)
    (R := fun C S x y v u => fullOne W C S (h.src s).stat_tol n x = .ok v ∧ fullOne W C S (h.src s).stat_tol n y = .ok u)
    (fun x y hxy => by obtain ⟨-, t, -, rfl⟩ := hxy; rfl) hn1 hs hr
    (by show Rect ((withCols h s c).src s).cols; rw [hk]; exact hc) hw (fun _ _ _ _ _ _ _ h1 h2 => ⟨h1, h2⟩) e1 e2 i x hx
  obtain ⟨m, l, C', S, -, -, hC', -, hS, f1, f2⟩ := hlive hmer hch
  have e0 : Source_get_snr W s a n₁ ws h = (.ok r₁, h₁) := by
    rw [get_snr_run] at hrun₁
    rcases hcls with hc | hc <;> · rw [hc] at hrun₁; exact hrun₁
  obtain ⟨C'', hC1, hC2⟩ := steps_callCtx hn₁ hn1 hs hr hw hx hmer hch e0 e1
  obtain rfl := callCtx_unique hC hC1
  obtain rfl := callCtx_unique hC2 hC'
  have hStol : S.ecc_tol = tol := by
    have := hS.1
    rw [t2, htol] at this
    exact (Option.some.inj this).symm
  have htT : t = T := by
    rw [mergerTimeOf_iff] at ht hT
    rw [ht, hT]
  unfold fullOne at f1 f2
  have st1 : ¬ stat1 W.K C.t_obs (h.src s).stat_tol x = true := by unfold stat1; simpa using hev
  rw [if_neg st1] at f1
  rw [if_neg (by rw [stat1_times (show TimesOnly x { x with t_merge := some t } from rfl)]; exact st1)] at f2
  have g1 := ((evolOne_iff hn1).1 f1).1 (by rw [hStol]; exact he1)
  have g2 := ((evolOne_iff hn1).1 f2).1 (by rw [hStol]; exact he1)
  rw [hx0] at g1
  simp only [Option.map_none, Option.map_some, htT] at g1 g2
  have g1' := (snr_circ_evolving_some (C := C) (srcs := [x.evolvingCirc]) hn1 (ts := [tCirc C.K x.evolvingCirc]) rfl).2
    ((snr_circ_evolving_none hn1).1 g1.1)
  rw [hv] at g1'
  have g2' : snr_circ_evolving C [x.evolvingCirc] n (some [T]) = .ok [u] := g2.1
  rw [hv'] at g2'
  cases g1'
  cases g2'
  exact ⟨v, v', hq, hu, hvv⟩

/-! ### Concrete cases -/

/-- The calls made with parameters that need no change. -/
theorem ready_callCtx (hh : Ready W h s) (hn : n ≠ 0) (hs : CompleteSchedule W (h.src s)) (hw : FitsMask (h.src s).cols ws)
    {i : ℕ} {x : One} (hx : (rows (h.src s).cols)[i]? = some x) (hmer : x.merged = false) (hch : Chosen ws i) {r p : ℕ}
    (hrun : Source_get_snr W s {} n ws h = (.ok r, h')) (hp : (h.src s).sc_params = some p) {T : ℝ}
    (hT : (h.par p).dict.get? "t_obs" = some (.time T)) :
    ∃ C, CallCtx W h' s C ∧ C.interpolated_g = (h.src s).g ∧ C.interpolated_sc = (h.src s).sc ∧ C.t_obs = T := by
  obtain ⟨f, C, S, p', T', c, hm1, -, hm3, hctx, -, hp', hft, hCT, -⟩ := ready hh
  obtain ⟨f₁, h₁, T₁, S₁, hR, -, hcase⟩ := Source_get_snr_values hn hs hh.rect hw hrun _ rfl
  have e := hR.matched
  rw [hm1] at e
  obtain ⟨e1, rfl⟩ := Prod.mk.inj e
  cases e1
  obtain ⟨b, hb, hbc⟩ := item_at hw hx
  have hany : (items (h.src s).cols (which (h.src s).cols.n_sources ws)).any live = true :=
    List.any_eq_true.2 ⟨_, List.mem_of_getElem? hb, live_iff.2 ⟨hbc.2 hch, hmer⟩⟩
  rcases hcase with ⟨h0, -⟩ | ⟨-, f', h₃, C', ps, hcalc, ho, -⟩
  · rw [hany] at h0; cases h0
  have e := hcalc.matched
  rw [hm3] at e
  obtain ⟨e1, rfl⟩ := Prod.mk.inj e
  cases e1
  have e := hcalc.ctx
  rw [hctx] at e
  cases e
  have hC := callCtx hm3 hctx ho
  refine ⟨C, hC, ?_⟩
  obtain ⟨x', y', he⟩ := ho.src s
  obtain ⟨q, i', cp, L, aR, cn, kw, T'', g1, g2, g3, g4, g5, g6, g7, g8, rfl⟩ := hC
  rw [he] at g1
  simp only at g1
  rw [hp] at g1
  cases g1
  rw [ho.par, hT] at g8
  cases g8
  rw [he]
  exact ⟨rfl, rfl, rfl⟩

theorem cached_example_ctx {r : ℕ} (hrun : get_snr Example.world 0 {} 100 none Example.heap = (.ok r, h')) {C : Ctx}
    (hC : CallCtx Example.world h' 0 C) : C.t_obs = 1e8 := by
  have hcls : (Example.heap.src 0).cls = .Source := by rw [Example.heap_src]; rfl
  rw [get_snr_run, hcls] at hrun
  have hcols : (Example.heap.src 0).cols = Example.cols := by rw [Example.heap_src]; rfl
  obtain ⟨C', hC', -, -, ht⟩ := ready_callCtx example_ready (by norm_num) example_schedule (fun m hm => by cases hm) (i := 0)
    (x := rowAt Example.cols 0) (by rw [hcols]; rfl) rfl (fun m hm => by cases hm) hrun (p := 1) (by rw [Example.heap_src]; rfl)
    (T := 1e8) (by rw [Example.heap_par]; rfl)
  rw [callCtx_unique hC hC', ht]

theorem peters_f_le_ten {e : ℝ} (h0 : 0 ≤ e) (h1 : e ≤ 0.3) : peters_f e ≤ 10 := by
  have he : e ^ 2 ≤ 0.09 := by nlinarith
  have he' : 0 ≤ e ^ 2 := sq_nonneg e
  unfold peters_f
  simp only
  have hd : (0.5 : ℝ) ≤ (1 - e ^ 2) ^ (7 / 2 : ℝ) := by
    calc (0.5 : ℝ) ≤ (1 - e ^ 2) ^ 4 := by
          have : (0.91 : ℝ) ≤ 1 - e ^ 2 := by norm_num at he ⊢; linarith
          calc (0.5 : ℝ) ≤ 0.91 ^ 4 := by norm_num
            _ ≤ _ := by gcongr
      _ = (1 - e ^ 2) ^ (4 : ℝ) := by rw [← rpow_natCast]; norm_num
      _ ≤ _ := rpow_le_rpow_of_exponent_ge (by linarith) (by linarith) (by norm_num)
  rw [div_le_iff₀ (by linarith)]
  have : e ^ 4 ≤ 1 := by
    have : e ^ 4 = e ^ 2 * e ^ 2 := by ring
    norm_num at he
    nlinarith
  norm_num at he hd ⊢
  nlinarith

/-- The merger time of a binary with an eccentricity of at most 0.3 is between a tenth of that of a circular binary and
that. -/
theorem tMerge1_bounds {K : Consts} {x : One} (hx : PhysicalOne x) (he : x.ecc ≤ 0.3) (ex : Bool) :
    get_a_from_f_orb K x.f_orb x.m_1 x.m_2 ^ 4 / (4 * utils.beta K x.m_1 x.m_2) ≤ 10 * tMerge1 K ex x ∧
      tMerge1 K ex x ≤ get_a_from_f_orb K x.f_orb x.m_1 x.m_2 ^ 4 / (4 * utils.beta K x.m_1 x.m_2) := by
  obtain ⟨h1, h2, h3, h4, h5⟩ := hx
  obtain ⟨b1, b2, b3⟩ := evol.t_val_bounds (evol.beta_pos K h1 h2) (get_a_from_f_orb_pos K h3 h1 h2) h4 h5 ex
  have hF := peters_f_le_ten h4 he
  unfold tMerge1 tEcc
  rw [if_neg (not_lt.2 h4)]
  refine ⟨b3.trans ?_, b2⟩
  rw [mul_comm]
  exact mul_le_mul_of_nonneg_right hF b1.le

/-- Non-vacuity of `C100_saved`: the example object, observed for 1e8 s. -/
example : ∃ (h h' k k' : Heap) (r r' : ℕ) (ts : List ℝ), Reachable Example.world AnyCall h ∧
    get_snr Example.world 0 {} 100 none h = (.ok r, h') ∧
    get_merger_time Example.world 0 true none false h = (.ok ts, k) ∧
    get_snr Example.world 0 {} 100 none k = (.ok r', k') ∧ k'.snrs r' = h'.snrs r := by
  have hno : FitsMask (Example.heap.src 0).cols none := fun m hm => by cases hm
  obtain ⟨r, h', hrun⟩ := example_get_snr none hno
  have hcols : (Example.heap.src 0).cols = Example.cols := by rw [Example.heap_src]; rfl
  obtain ⟨ts, hk, -⟩ := C58_saved (W := Example.world) (s := 0) example_rect none false
  obtain ⟨r', k', h1, h2, -⟩ := C100_saved (Example.reachable (ok := AnyCall) trivial)
    (Or.inl (by rw [Example.heap_src]; rfl)) (by norm_num) example_schedule example_rect hno (by rw [hcols]; rfl) hrun
    (tol := Example.eccTol) (by rw [Example.heap_src]; rfl) hk (by
      rw [hcols]
      intro x hx _ _
      have : x = rowAt Example.cols 0 ∨ x = rowAt Example.cols 1 := by
        simpa [rows, Example.cols, Cols.n_sources, List.range_succ] using hx
      rcases this with rfl | rfl
      · exact Or.inl rfl
      · right
        right
        have hphys : PhysicalOne (rowAt Example.cols 1) := ⟨by show (0 : ℝ) < 3e30; norm_num, by show (0 : ℝ) < 2e30; norm_num,
          by show (0 : ℝ) < 1e-4; norm_num, by show (0 : ℝ) ≤ 0.3; norm_num, by show (0.3 : ℝ) < 1; norm_num⟩
        refine ⟨hphys, fun T hT C hC => ?_⟩
        rw [cached_example_ctx hrun hC]
        rw [mergerTimeOf_iff] at hT
        have hb := (tMerge1_bounds (K := Example.world.K) hphys (by show (0.3 : ℝ) ≤ 0.3; norm_num) false).1
        have hT' : T = tMerge1 Example.world.K false (rowAt Example.cols 1) := hT
        rw [← hT'] at hb
        change get_a_from_f_orb Consts.codata2018 1e-4 3e30 2e30 ^ 4 / (4 * utils.beta Consts.codata2018 3e30 2e30) ≤ _ at hb
        have ha := get_a_from_f_orb_pos Consts.codata2018 (f := 1e-4) (m₁ := 3e30) (m₂ := 2e30) (by norm_num) (by norm_num)
          (by norm_num)
        have hc := a_cube (f := 1e-4) (m₁ := 3e30) (m₂ := 2e30) (by norm_num) (by norm_num) (by norm_num)
        have hβ : utils.beta Consts.codata2018 3e30 2e30 ≤ 1e20 := by
          unfold utils.beta Consts.codata2018
          norm_num
        have hβ0 := evol.beta_pos Consts.codata2018 (m₁ := 3e30) (m₂ := 2e30) (by norm_num) (by norm_num)
        set a := get_a_from_f_orb Consts.codata2018 1e-4 3e30 2e30
        have h3 : (1e24 : ℝ) ≤ a ^ 3 := by
          rw [hc, le_div_iff₀ (by positivity)]
          have := Real.pi_le_four
          have := Real.pi_pos
          nlinarith
        have h1 : (1e8 : ℝ) ≤ a := by
          by_contra hlt
          push Not at hlt
          have : a ^ 3 < 1e8 ^ 3 := by gcongr
          norm_num at this h3
          linarith
        have h4 : (1e32 : ℝ) ≤ a ^ 4 := by
          have : (1e8 : ℝ) ^ 4 ≤ a ^ 4 := by gcongr
          norm_num at this ⊢
          exact this
        have hT0 : (1e11 : ℝ) ≤ a ^ 4 / (4 * utils.beta Consts.codata2018 3e30 2e30) := by
          rw [le_div_iff₀ (by positivity)]
          nlinarith
        linarith)
  exact ⟨_, _, _, _, _, _, _, Example.reachable (ok := AnyCall) trivial, hrun, hk, h1, h2⟩

theorem ready_withCols (hh : Ready W h s) {c : Cols} (hc : Rect c) (hn : c.n_sources = (h.src s).cols.n_sources) :
    Ready W (withCols h s c) s := by
  obtain ⟨h1, ⟨h2, h3, h4⟩, h5, h6, h7⟩ := hh
  have e : (withCols h s c).src s = { h.src s with cols := c } := by simp [withCols]
  refine ⟨by rw [e]; exact hc, by rw [e]; exact ⟨h2, h3, h4⟩, by rw [e]; exact h5, ?_, ?_⟩
  · unfold storedSnr at h6 ⊢
    rw [e]
    simp only
    rw [hn]
    exact h6
  · unfold storedHarm at h7 ⊢
    rw [e]
    simp only
    rw [hn]
    exact h7

/-- Non-vacuity of `C100_assigned`: the example object, with merger times of 5 s and 7 s assigned. -/
example : ∃ (h h' k' : Heap) (r r' : ℕ), Reachable Example.world AnyCall h ∧
    get_snr Example.world 0 {} 100 none h = (.ok r, h') ∧
    get_snr Example.world 0 {} 100 none (withCols h 0 { (h.src 0).cols with t_merge := some [5, 7] }) = (.ok r', k') ∧
    (k'.snrs r')[0]? = (h'.snrs r)[0]? := by
  have hno : FitsMask (Example.heap.src 0).cols none := fun m hm => by cases hm
  have hcols : (Example.heap.src 0).cols = Example.cols := by rw [Example.heap_src]; rfl
  obtain ⟨r, h', hrun⟩ := example_get_snr none hno
  set c : Cols := { Example.cols with t_merge := some [5, 7] } with hcdef
  have hc : Rect c := by
    constructor <;> simp [hcdef, Example.cols, Cols.n_sources]
  have e : (withCols Example.heap 0 c).src 0 = { Example.heap.src 0 with cols := c } := by simp [withCols]
  obtain ⟨r', k', hrun'⟩ := C36_succeeds (W := Example.world) (n := 100) (ws := none) (by norm_num)
    (by unfold CompleteSchedule; rw [e]; exact example_schedule) (fun m hm => by cases hm) (ready_withCols example_ready hc (by rw [hcols]; rfl))
  refine ⟨Example.heap, h', k', r, r', Example.reachable (ok := AnyCall) trivial, hrun, by rw [hcols]; exact hrun', ?_⟩
  obtain ⟨_, _, _, hsrc'⟩ := (get_snr_snrCall Example.world 0 {} 100 none Example.heap).src 0
  rw [hrun] at hsrc'
  simp only at hsrc'
  obtain ⟨⟨v, h1, h2⟩, -⟩ := C100_assigned (Example.reachable (ok := AnyCall) trivial) (Or.inl (by rw [Example.heap_src]; rfl)) (by norm_num)
    example_schedule example_rect hno hc (by rw [hcols]; exact List.Forall₂.cons rfl (List.Forall₂.cons rfl List.Forall₂.nil))
    hrun hrun' (tol := Example.eccTol) (by rw [Example.heap_src]; rfl) (i := 0) (x := rowAt Example.cols 0) (by rw [hcols]; rfl)
    (Or.inr (Or.inr (Or.inl fun C hC => by
      rw [cached_example_ctx hrun hC, hsrc']
      have : (Example.heap.src 0).stat_tol = 0.01 := by rw [Example.heap_src]; show (1e-2 : ℝ) = 0.01; norm_num
      simp only [this]
      exact example_stationary)))
  rw [h1, h2]

/-- The eccentricity of the next example, within the tolerance. -/
noncomputable def mergingEcc : ℝ := min Example.eccTol 0.1

/-- A slightly eccentric binary about to merge. -/
noncomputable def mergingArgs : InitArgs where
  m_1 := .array [4e30] true
  m_2 := .array [4e30] true
  ecc := .array [mergingEcc] false
  dist := .array [1e20] true
  f_orb := some (.array [0.1] true)
  sc_params := some (Example.custom 0)

/-- Its columns. -/
noncomputable def mergingCols : Cols where
  m_1 := [4e30]
  m_2 := [4e30]
  dist := [1e20]
  f_orb := [0.1]
  ecc := [mergingEcc]
  merged := [false]

theorem merging_init_cols : init_cols Example.world mergingArgs = .ok mergingCols := by
  unfold init_cols init_orientation init_f_orb mergingArgs
  simp [bind, Except.bind, pure, Except.pure, Raw.hasUnits, Raw.toList, mergingCols]

/-- The heap with this binary. -/
noncomputable def mergingHeap : Heap :=
  heapAfterInit Example.world .Source mergingArgs mergingCols Example.eccTol (Example.params 0) (some (Example.sc 0)) Example.start

theorem merging_init : init Example.world .Source mergingArgs Example.start = (.ok 0, mergingHeap) := by
  have e1 := merging_init_cols
  have e2 : find_eccentric_transition mergingArgs.gw_lum_tol = .ok Example.eccTol := Example.find_eccTol
  have e3 : filled_params mergingArgs.sc_params = .ok (Example.params 0) := Example.filled_custom 0
  rcases init_run Example.world .Source mergingArgs Example.start with ⟨c, t, d, s, h1, h2, h3, h4, h5⟩ | ⟨-, h⟩
  · rw [e1] at h1
    rw [e2] at h2
    rw [e3] at h3
    cases h1
    cases h2
    cases h3
    rcases h4 with ⟨-, c, hc, hs⟩ | ⟨h4, -⟩
    · rw [Example.curve_params] at hc
      cases hc
      rw [h5, hs]
      rfl
    · cases h4
  · exfalso
    rcases h with ⟨e, he⟩ | ⟨e, he⟩ | ⟨e, he⟩ | ⟨-, d, e, hd, he⟩
    · rw [e1] at he
      cases he
    · rw [e2] at he
      cases he
    · rw [e3] at he
      cases he
    · rw [e3] at hd
      cases hd
      rw [Example.curve_params] at he
      cases he

theorem merging_reachable : Reachable Example.world AnyCall mergingHeap := by
  have h1 := Reachable.call (.init .Source mergingArgs) (Reachable.start (W := Example.world) (ok := AnyCall)
    (h := Example.start) fun _ => rfl) trivial
  have h2 : (Op.run Example.world (.init .Source mergingArgs) Example.start).2 = mergingHeap := by
    change ((init Example.world .Source mergingArgs >>= fun _ => pure ()) Example.start).2 = mergingHeap
    rw [PyM.bind_run, merging_init]
    rfl
  rwa [h2] at h1

theorem merging_src : mergingHeap.src 0 =
    newObject Example.world .Source mergingArgs mergingCols Example.eccTol (some (Example.sc 0)) 1 := by
  change Function.update Example.start.src 0 _ 0 = _
  rw [Function.update_self]
  rfl

theorem merging_par : mergingHeap.par 1 = ⟨Example.params 0, some 0⟩ := by
  change Function.update Example.start.par 1 _ 1 = _
  rw [Function.update_self]
  rfl

theorem merging_rect : Rect (mergingHeap.src 0).cols := by
  rw [merging_src]
  constructor <;> simp [newObject, mergingCols, Cols.n_sources]

theorem merging_ready : Ready Example.world mergingHeap 0 := by
  have hsrc := merging_src
  have hp : (mergingHeap.src 0).sc_params = some 1 := by rw [hsrc]; rfl
  refine ⟨merging_rect, by rw [hsrc]; constructor <;> rfl,
    ⟨1, 1e8, Example.sc 0, hp, ?_, ?_, curve_ok_iff.1 ?_, by rw [hsrc]; rfl⟩, ?_, ?_⟩
  · exact C41_six_keys merging_reachable hp
  · rw [merging_par]; rfl
  · rw [merging_par]; exact Example.curve_params 0
  · unfold storedSnr; rw [hsrc]; simp [newObject]
  · unfold storedHarm; rw [hsrc]; simp [newObject]

theorem merging_schedule : CompleteSchedule Example.world (mergingHeap.src 0) := by
  rw [merging_src]
  intro hn
  simp [newObject, mergingArgs] at hn

/-- The interpolated curve of the example is white noise on its range. -/
theorem white_sc (f : ℝ) : Example.sc 0 f = if 1e-7 ≤ f ∧ f ≤ 2 then ((1e-40 : ℝ) : WithTop ℝ) else ((1e30 : ℝ) : WithTop ℝ) := by
  have hcurve := curve_ok (Example.curve_params 0)
  split_ifs with hf
  · have hgrid : ∀ {i : ℕ}, i < 10000 → Example.sc 0 (scGrid i) = ((1e-40 : ℝ) : WithTop ℝ) := fun hi => by
      rw [Example.sc_grid 0 hi]
      norm_num
    rcases scGrid_locate (x := f) (by rw [scGrid_zero]; exact hf.1) (by rw [scGrid_last]; exact hf.2) with ⟨i, hi, rfl⟩ | ⟨i, hi, h1, h2⟩
    · exact hgrid hi
    · rw [hcurve.chord i hi f h1 h2 _ _ (hgrid (by omega)) (hgrid (by omega))]
      simp
  · refine hcurve.outside f ?_
    by_contra hc
    push Not at hc
    exact hf hc

theorem white_tame : Tame (Example.sc 0) := by
  constructor
  · intro lo hi _
    refine ⟨1e-40, by norm_num, fun f _ => ?_⟩
    rw [white_sc]
    split_ifs
    · exact le_rfl
    · rw [WithTop.coe_le_coe]; norm_num
  · apply Set.Countable.mono _ ((Set.countable_singleton (1e-7 : ℝ)).insert 2)
    rintro f ⟨-, hf⟩
    by_contra hne
    simp only [Set.mem_insert_iff, Set.mem_singleton_iff, not_or] at hne
    apply hf
    have key : ∀ y : ℝ, (∀ᶠ g in nhds f, sensitivity (Example.sc 0 g) = y) →
        ContinuousAt (fun f => sensitivity (Example.sc 0 f)) f := fun y hy =>
      (continuousAt_const (y := y)).congr (hy.mono fun g hg => hg.symm)
    rcases lt_or_gt_of_ne hne.2 with h | h
    · apply key (1 / 1e30)
      filter_upwards [Iio_mem_nhds h] with g hg
      rw [white_sc, if_neg (fun h' => absurd h'.1 (not_le.2 hg))]
      rfl
    rcases lt_or_gt_of_ne hne.1 with h' | h'
    · apply key (1 / 1e-40)
      filter_upwards [Ioo_mem_nhds h h'] with g hg
      rw [white_sc, if_pos ⟨hg.1.le, hg.2.le⟩]
      rfl
    · apply key (1 / 1e30)
      filter_upwards [Ioi_mem_nhds h'] with g hg
      rw [white_sc, if_neg (fun h' => absurd h'.2 (not_le.2 hg))]
      rfl

theorem merging_time : get_a_from_f_orb Consts.codata2018 0.1 4e30 4e30 ^ 4 / (4 * utils.beta Consts.codata2018 4e30 4e30) ≤ 9e7 ∧
    1e6 ≤ get_a_from_f_orb Consts.codata2018 0.1 4e30 4e30 ^ 4 / (4 * utils.beta Consts.codata2018 4e30 4e30) := by
  have ha := get_a_from_f_orb_pos Consts.codata2018 (f := 0.1) (m₁ := 4e30) (m₂ := 4e30) (by norm_num) (by norm_num) (by norm_num)
  have hc := a_cube (f := 0.1) (m₁ := 4e30) (m₂ := 4e30) (by norm_num) (by norm_num) (by norm_num)
  have hβ0 := evol.beta_pos Consts.codata2018 (m₁ := 4e30) (m₂ := 4e30) (by norm_num) (by norm_num)
  have hβ : utils.beta Consts.codata2018 4e30 4e30 ≤ 3e20 := by
    unfold utils.beta Consts.codata2018
    norm_num
  have hβ' : 1.5e20 ≤ utils.beta Consts.codata2018 4e30 4e30 := by
    unfold utils.beta Consts.codata2018
    norm_num
  have hpi := Real.pi_gt_three
  have hpi' := Real.pi_le_four
  set a := get_a_from_f_orb Consts.codata2018 0.1 4e30 4e30
  have h3 : (5e20 : ℝ) ≤ a ^ 3 := by
    rw [hc, le_div_iff₀ (by positivity)]
    nlinarith
  have h3' : a ^ 3 ≤ (1.5e21 : ℝ) := by
    rw [hc, div_le_iff₀ (by positivity)]
    nlinarith
  have h1 : (7e6 : ℝ) ≤ a := by
    by_contra hlt
    push Not at hlt
    have : a ^ 3 < 7e6 ^ 3 := by gcongr
    norm_num at this h3
    linarith
  have h1' : a ≤ (1.2e7 : ℝ) := by
    by_contra hlt
    push Not at hlt
    have : (1.2e7 : ℝ) ^ 3 < a ^ 3 := by gcongr
    norm_num at this h3'
    linarith
  have h4 : (7e6 : ℝ) ^ 4 ≤ a ^ 4 := by gcongr
  have h4' : a ^ 4 ≤ (1.2e7 : ℝ) ^ 4 := by gcongr
  norm_num at h4 h4'
  constructor
  · rw [div_le_iff₀ (by positivity)]
    nlinarith
  · rw [le_div_iff₀ (by positivity)]
    nlinarith

/-- Non-vacuity of `C100_differs`. -/
example : ∃ (h h' k k' : Heap) (n r r' : ℕ) (ts : List ℝ) (v v' : ℝ), Reachable Example.world AnyCall h ∧
    get_snr Example.world 0 {} n none h = (.ok r, h') ∧
    get_merger_time Example.world 0 true none false h = (.ok ts, k) ∧
    get_snr Example.world 0 {} n none k = (.ok r', k') ∧
    (h'.snrs r)[0]? = some (some v) ∧ (k'.snrs r')[0]? = some (some v') ∧ v' < v := by
  have hsrc := merging_src
  have hno : FitsMask (mergingHeap.src 0).cols none := fun m hm => by cases hm
  have hch : Chosen none 0 := fun m hm => by cases hm
  have hcls : (mergingHeap.src 0).cls = .Source := by rw [hsrc]; rfl
  have hcols : (mergingHeap.src 0).cols = mergingCols := by rw [hsrc]; rfl
  have hx : (rows (mergingHeap.src 0).cols)[0]? = some (rowAt mergingCols 0) := by rw [hcols]; rfl
  have hstat : (mergingHeap.src 0).stat_tol = 0.01 := by rw [hsrc]; show (1e-2 : ℝ) = 0.01; norm_num
  have hruns : ∀ n ≠ 0, ∃ r h', get_snr Example.world 0 {} n none mergingHeap = (.ok r, h') := fun n hn =>
    C36_succeeds hn merging_schedule hno merging_ready
  have htol0 : 0 < Example.eccTol := C33_pos (by norm_num) Example.find_eccTol
  have he0 : 0 < mergingEcc := lt_min htol0 (by norm_num)
  have he1 : mergingEcc ≤ 0.1 := min_le_right _ _
  obtain ⟨r₁, h₁, hrun₁⟩ := hruns 1 (by norm_num)
  obtain ⟨C, hC, hCg, hCsc, hCt⟩ := ready_callCtx merging_ready (n := 1) (by norm_num) merging_schedule hno hx rfl hch
    (by rw [get_snr_run, hcls] at hrun₁; exact hrun₁) (p := 1) (by rw [hsrc]; rfl) (T := 1e8) (by rw [merging_par]; rfl)
  have hCK := callCtx_K hC
  have hsc : C.interpolated_sc = some (Example.sc 0) := by rw [hCsc, hsrc]; rfl
  obtain ⟨ts, hk, hts⟩ := C58_saved (W := Example.world) (s := 0) merging_rect none false
  have hphys : PhysicalOne (rowAt mergingCols 0) := ⟨by show (0 : ℝ) < 4e30; norm_num, by show (0 : ℝ) < 4e30; norm_num,
    by show (0 : ℝ) < 0.1; norm_num, he0.le, by show mergingEcc < 1; norm_num at he1; linarith⟩
  obtain ⟨b1, b2⟩ := tMerge1_bounds (K := Example.world.K) hphys (by show mergingEcc ≤ 0.3; norm_num at he1 ⊢; linarith) false
  obtain ⟨m1, m2⟩ := merging_time
  have q1 : (1e6 : ℝ) ≤ 10 * tMerge1 Example.world.K false (rowAt mergingCols 0) := m2.trans b1
  have q2 : tMerge1 Example.world.K false (rowAt mergingCols 0) ≤ 9e7 := b2.trans m1
  norm_num at q1 q2
  obtain ⟨n₀, hn₀⟩ := C100_differs (W := Example.world) (a := {}) (ws := none) merging_reachable (Or.inl hcls) merging_schedule merging_rect hno
    (by rw [hcols]; rfl) (tol := Example.eccTol) (by rw [hsrc]; rfl) hx rfl hch
    ⟨hphys.1, hphys.2.1, hphys.2.2.1, by show (0 : ℝ) < 1e20; norm_num⟩ he0 (min_le_left _ _)
    (by show mergingEcc < 0.15; norm_num at he1 ⊢; linarith) (n₁ := 1) (by norm_num) hrun₁ hC (N := Example.sc 0)
    ⟨fun f => by unfold noise; rw [hsc]; rfl, fun f _ => by
      rw [white_sc]
      split_ifs <;> · rw [WithTop.coe_pos]; norm_num⟩ white_tame
    (fun f _ => by rw [white_sc]; split_ifs <;> exact WithTop.coe_ne_top)
    (fun g hg => by
      have : C.interpolated_g = some Example.world.gSpline := by rw [hCg, hsrc]; rfl
      rw [this] at hg
      cases hg
      show 0 < utils.peters_g 2 0
      rw [C05_circular (by norm_num)]
      simp)
    (by
      rw [hCt, hstat, stationaryOver_iff]
      change ¬ evol.change_le (evol.evolve_f_orb_circ Consts.codata2018 0.1 (utils.chirp_mass 4e30 4e30) 1e8 mergingEcc 1e9) 0.1 0.01
      rw [stationarity_iff _ (by norm_num) (by norm_num) (by norm_num) (by norm_num) (by norm_num), not_le]
      have hF : 1 ≤ utils.peters_f mergingEcc := C04_one_le he0.le hphys.2.2.2.2
      have hp : (0 : ℝ) < ((1 : ℝ) + 0.01) ^ (-8 / 3 : ℝ) := by positivity
      nlinarith)
    (by show (1 : ℝ) ≤ 299792458; norm_num)
    (by
      show 3.375e-6 * (299792458 : ℝ) ^ 3 ≤ 6.67430e-11 * chirp_mass 4e30 4e30
      have hm := C03_pos (m₁ := 4e30) (m₂ := 4e30) (by norm_num) (by norm_num)
      have h5 := (C03_iff (m₁ := 4e30) (m₂ := 4e30) (by norm_num) (by norm_num) hm).1 rfl
      have : (2e30 : ℝ) ≤ chirp_mass 4e30 4e30 := by
        by_contra hlt
        push Not at hlt
        have : chirp_mass 4e30 4e30 ^ 5 < (2e30 : ℝ) ^ 5 := by gcongr
        norm_num at this h5
        linarith
      norm_num at this ⊢
      linarith)
    (ex := false) (mergerTimeOf_iff.2 rfl) (by
      show 1 ≤ tMerge1 Example.world.K false (rowAt mergingCols 0)
      linarith) (by
      show tMerge1 Example.world.K false (rowAt mergingCols 0) - 1 < C.t_obs
      rw [hCt]
      norm_num
      linarith) hk
  obtain ⟨r, h', hrun⟩ := hruns (n₀ + 1) (by omega)
  have hlen : ts.length = (mergingHeap.src 0).cols.n_sources := by rw [← hts.length_eq, rows_length]
  have hr := merging_rect
  set c : Cols := { (mergingHeap.src 0).cols with t_merge := some ts } with hcdef
  have hc : Rect c := ⟨hr.m_2, hr.dist, hr.f_orb, hr.ecc, hr.merged, hr.weights, hr.position, hr.inclination, hr.polarisation,
    fun x hx => by cases hx; exact hlen, hr.angles⟩
  have e : (withCols mergingHeap 0 c).src 0 = { mergingHeap.src 0 with cols := c } := by simp [withCols]
  obtain ⟨r', k', hrun'⟩ := C36_succeeds (W := Example.world) (n := n₀ + 1) (ws := none) (by omega)
    (by unfold CompleteSchedule; rw [e]; exact merging_schedule) (fun m hm => by cases hm) (ready_withCols merging_ready hc rfl)
  obtain ⟨v, v', h1, h2, h3⟩ := hn₀ (n₀ + 1) (by omega) r r' h' k' hrun hrun'
  exact ⟨_, _, _, _, _, _, _, _, v, v', merging_reachable, hrun, hk, hrun', h1, h2, h3⟩

end Legwork.Props
