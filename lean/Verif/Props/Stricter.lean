import Verif.Lemmas.Stricter
import Verif.Props.Cached
import Verif.Props.Harmonics
import Verif.Props.SnrEccEvolving
import Verif.Props.Longer
import Verif.Lemmas.BesselTwo
import Verif.Lemmas.Truncation

/-!
# A stricter luminosity tolerance: C110
-/

namespace Legwork.Props

open Real Legwork.source Legwork.Spec Legwork.snr Legwork.strain Legwork.utils Legwork.evol
open PyM hiding bind

/-- **C110** (harmonics). For a stricter luminosity tolerance `harmonics_required` asks for at least as many harmonics, at
every real eccentricity, tabulated or not. Nothing is assumed about the luminosities in the table. -/
theorem C110_harmonics {T : LumTable} (hT : ValidTable T) (he : ∀ e ∈ T.e_range, 0 ≤ e ∧ e < 1) {tol tol' : ℝ}
    (htol : tol' ≤ tol) (e : ℝ) : harmonics_required T tol e ≤ harmonics_required T tol' e := by
  have h := needed_stricter hT he htol
  unfold harmonics_required
  simp only
  apply Int.ceil_le_ceil
  refine np.interp1d_le hT.increasing ?_ (by exact_mod_cast maxNat_le h) e
  rw [List.forall₂_map_left_iff, List.forall₂_map_right_iff]
  exact h.imp fun _ _ hab => by exact_mod_cast hab

private lemma more_harmonics {H H' : ℕ} (hHH : H ≤ H') {F : ℤ → ℝ} (hF : ∀ k ∈ harmonics H', 0 ≤ F k) :
    0 ≤ ((harmonics H).map F).sum ∧ ((harmonics H).map F).sum ≤ ((harmonics H').map F).sum := by
  obtain ⟨l, hl⟩ : ∃ l, harmonics H' = harmonics H ++ l := by
    unfold harmonics
    refine ⟨(List.range (H' - H)).map fun k : ℕ => ((H + k : ℕ) : ℤ) + 1, ?_⟩
    rw [show H' = H + (H' - H) by omega, List.range_add, List.map_append, List.map_map]
    congr 1
    simp
  rw [hl] at hF ⊢
  rw [List.map_append, List.sum_append]
  have h1 : 0 ≤ ((harmonics H).map F).sum := by
    apply List.sum_nonneg
    intro x hx
    obtain ⟨k, hk, rfl⟩ := List.mem_map.1 hx
    exact hF k (by simp [hk])
  have h2 : 0 ≤ (l.map F).sum := by
    apply List.sum_nonneg
    intro x hx
    obtain ⟨k, hk, rfl⟩ := List.mem_map.1 hx
    exact hF k (by simp [hk])
  exact ⟨h1, by linarith⟩

/-- **C110** (evolving sources). Summing more harmonics never lowers the SNR of an evolving eccentric source: under the
conditions of C65, `snr_ecc_evolving` returns for every source a number that is no smaller with more harmonics. For
stationary sources see C31. -/
theorem C110_more_harmonics (C : Ctx) {odeint : Odeint} (ho : DecreasingIntegrator odeint) (srcs : List EvolSrc) {H H' : ℕ}
    (hHH : H ≤ H') {n : ℕ} (hn : 1 ≤ n) (ht : 0 ≤ C.t_obs) {N : ℝ → WithTop ℝ} (hN : Curve C N)
    (hs : ∀ s ∈ srcs, EvolPhys s) (he : ∀ s ∈ srcs, 0 < s.ecc ∧ s.ecc < 1) (nproc : ℕ) (order : List ℕ)
    (hall : nproc > 1 → ∀ i < srcs.length, i ∈ order) {T : Fin srcs.length → ℝ} {t_merge : Option (List ℝ)}
    (hT : t_merge = some (List.ofFn T) ∨ t_merge = none ∧ get_t_merge_ecc C.K (fun i => srcs[i].ecc) none
      (some fun i => srcs[i].f_orb_i) none (some fun i => srcs[i].m_1) (some fun i => srcs[i].m_2) 0.15 (1 - 1e-4) true
      = .ok T) (h100 : Avoids100 C odeint srcs T n) :
    ∃ snr snr', snr_ecc_evolving C odeint srcs H n t_merge nproc order false false = .ok (.total snr) ∧
      snr_ecc_evolving C odeint srcs H' n t_merge nproc order false false = .ok (.total snr') ∧ snr.length = srcs.length ∧
      Pointwise (fun x y => ∃ v w, x = some v ∧ y = some w ∧ 0 ≤ v ∧ v ≤ w) snr snr' := by
  have hTT : merge_times_ecc C srcs t_merge = .ok T := by
    rcases hT with rfl | ⟨rfl, h⟩
    · simp [merge_times_ecc, pure, Except.pure]
    · exact h
  have hn' : n ≠ 0 := by omega
  obtain ⟨snr, rows, -, hrows, hlen, -, hrow⟩ := C65_well_defined C ho srcs H' hn ht hN hs he nproc order hall hT h100
  rw [snr_ecc_evolving_eq C odeint srcs H' hn' t_merge nproc order hall false true hN.ok hTT] at hrows
  cases hrows
  have hval : ∀ (i : Fin srcs.length), ∀ k ∈ harmonics H', 0 ≤ eccSnr2 C odeint N srcs[i] (T i) n k := by
    intro i k hk
    exact (hrow i _ _ (List.getElem?_eq_getElem (by rw [hlen]; exact i.2))
      (by simp only [Fin.getElem?_fin, List.getElem?_ofFn, Fin.is_lt, dif_pos, Fin.eta])).2.1 _ (List.mem_map_of_mem hk)
  refine ⟨_, _, by rw [snr_ecc_evolving_eq C odeint srcs H hn' t_merge nproc order hall false false hN.ok hTT]; rfl,
    by rw [snr_ecc_evolving_eq C odeint srcs H' hn' t_merge nproc order hall false false hN.ok hTT]; rfl, by simp, ?_⟩
  unfold Pointwise
  rw [List.map_ofFn, List.map_ofFn, List.forall₂_iff_get]
  refine ⟨by simp, fun i h1 h2 => ?_⟩
  simp only [List.get_eq_getElem, List.getElem_ofFn, Function.comp]
  obtain ⟨a, b⟩ := more_harmonics hHH (hval ⟨i, by simpa using h1⟩)
  exact ⟨_, _, sqrt?_nonneg a, sqrt?_nonneg (a.trans b), sqrt_nonneg _, sqrt_le_sqrt b⟩

private lemma finish_total {H : ℕ} {rows : List (List ℝ)} {vs : List (Option ℝ)} {ks : List ℕ}
    (h : snr.finish true false H rows = .ok (.withMax vs ks)) : snr.finish false false H rows = .ok (.total vs) := by
  unfold snr.finish at h ⊢
  simp only [Bool.false_eq_true, if_false, if_true] at h ⊢
  split_ifs at h
  cases h
  rfl

private lemma limit_mono {need need' : ℤ} (hle : need ≤ need') {H H' : ℕ} (h : HarmonicLimit need H) (h' : HarmonicLimit need' H') :
    H ≤ H' := by
  unfold HarmonicLimit at h h'
  omega

private lemma limit_exists {need : ℤ} (h2 : 2 ≤ need) (h : need ≤ 10000) : ∃ H, HarmonicLimit need H := by
  unfold HarmonicLimit
  by_cases h1 : need ≤ 10
  · exact ⟨10, by omega⟩
  by_cases h1 : need ≤ 100
  · exact ⟨100, by omega⟩
  by_cases h1 : need ≤ 1000
  · exact ⟨1000, by omega⟩
  · exact ⟨10000, by omega⟩

variable {W : World} {ok : Heap → Op → Prop} {s n : ℕ} {h h' k k' : Heap} {a : SnrArgs} {ws : Option (List Bool)}

private lemma match_inv {f : SnrArgs} {res : Bool} (hi : Inv W false h) (hm : match_params W s a res h = (.ok f, h')) :
    Inv W false h' := by
  obtain ⟨p, f₁, -, -, -, hu⟩ := match_params_ok hm
  have := (inv_atoms W false).update p f.toDict h hi
  rwa [hu] at this

/-- What the calls before and after have in common. -/
private lemma retol_calls {r r' : ℕ} (hi : Inv W false h) (ht : OtherTol h k s) (hik : Inv W false k)
    (hn : n ≠ 0) (hs : CompleteSchedule W (h.src s))
    (hr : Rect (h.src s).cols) (hw : FitsMask (h.src s).cols ws) {i : ℕ} {x : One} (hx : (rows (h.src s).cols)[i]? = some x)
    (hmer : x.merged = false) (hch : Chosen ws i) (hrun : Source_get_snr W s a n ws h = (.ok r, h'))
    (hrun' : Source_get_snr W s a n ws k = (.ok r', k')) :
    (∃ C, CallCtx W h' s C ∧ CallCtx W k' s C) ∧ (h'.src s).stat_tol = (h.src s).stat_tol ∧
      (k'.src s).stat_tol = (h.src s).stat_tol ∧ (h'.src s).ecc_tol = (h.src s).ecc_tol ∧
      (k'.src s).ecc_tol = (k.src s).ecc_tol ∧ (h'.src s).harmonics_required = (h.src s).harmonics_required ∧
      (k'.src s).harmonics_required = (k.src s).harmonics_required := by
  have hcols : (k.src s).cols = (h.src s).cols := by obtain ⟨-, t, q, m, e', e⟩ := ht; rw [e]
  have hsk : CompleteSchedule W (k.src s) := by
    obtain ⟨-, t, q, m, e', e⟩ := ht
    unfold CompleteSchedule
    rw [e]
    exact hs
  obtain ⟨f, h₁, T, S, hR, -, hcase⟩ := Source_get_snr_values hn hs hr hw hrun _ rfl
  obtain ⟨f₂, k₁, T₂, S₂, hR₂, -, hcase₂⟩ := Source_get_snr_values hn hsk (by rw [hcols]; exact hr) (by rw [hcols]; exact hw)
    hrun' _ rfl
  obtain ⟨k₁', e1, ht₁⟩ := match_otherTol ht (hi.sc s).1 (hik.sc s).1 hR.matched
  rw [hR₂.matched] at e1
  obtain ⟨e1, rfl⟩ := Prod.mk.inj e1
  cases e1
  rw [hcols] at hcase₂
  obtain ⟨b, hb, hbc⟩ := item_at hw hx
  have hany : (items (h.src s).cols (which (h.src s).cols.n_sources ws)).any live = true :=
    List.any_eq_true.2 ⟨_, List.mem_of_getElem? hb, live_iff.2 ⟨hbc.2 hch, hmer⟩⟩
  rcases hcase with ⟨h0, -⟩ | ⟨-, f', h₃, C, ps, hcalc, ho, -⟩
  · rw [hany] at h0; cases h0
  rcases hcase₂ with ⟨h0, -⟩ | ⟨-, g', k₃, C', ps', hcalc', ho', -⟩
  · rw [hany] at h0; cases h0
  obtain ⟨k₃', e1, ht₃⟩ := match_otherTol ht₁ ((match_inv hi hR.matched).sc s).1 ((match_inv hik hR₂.matched).sc s).1 hcalc.matched
  rw [hcalc'.matched] at e1
  obtain ⟨e1, rfl⟩ := Prod.mk.inj e1
  cases e1
  have hCC : C' = C := by
    have e := hcalc'.ctx
    have e' := hcalc.ctx
    obtain ⟨-, t, q, m, e'', hsrc⟩ := ht₃
    unfold ctxOf at e e'
    rw [hsrc] at e
    rw [e'] at e
    exact (Except.ok.inj e).symm
  subst hCC
  obtain ⟨u1, u2, eh⟩ := ho.src s
  obtain ⟨u3, u4, ek⟩ := ho'.src s
  obtain ⟨u5, u6, eh₃⟩ := (match_params_scOnly hcalc.matched).src s
  obtain ⟨u7, u8, ek₃⟩ := (match_params_scOnly hcalc'.matched).src s
  obtain ⟨u9, u10, eh₁⟩ := (match_params_scOnly hR.matched).src s
  obtain ⟨u11, u12, ek₁⟩ := (match_params_scOnly hR₂.matched).src s
  have hst : (k.src s).stat_tol = (h.src s).stat_tol := by obtain ⟨-, t, q, m, e', e⟩ := ht; rw [e]
  refine ⟨⟨_, callCtx hcalc.matched hcalc.ctx ho, callCtx hcalc'.matched hcalc'.ctx ho'⟩, ?_, ?_, ?_, ?_, ?_, ?_⟩
  · rw [eh, eh₃, eh₁]
  · rw [ek, ek₃, ek₁]; exact hst
  · rw [eh, eh₃, eh₁]
  · rw [ek, ek₃, ek₁]
  · rw [eh, eh₃, eh₁]
  · rw [ek, ek₃, ek₁]

/-- **C110** (`get_snr`). Set a stricter luminosity tolerance on an object, and call `get_snr` with the same arguments as
before. The transition between circular and eccentric is no higher than before. A source that is circular under both
tolerances keeps its SNR exactly. One that was eccentric already has an SNR no smaller than before: in any positive noise
if it is stationary; if it is evolving, under the conditions of C65. The table has at most 10000 harmonics; `tol` is a
tolerance that the object was given without error. -/
theorem C110_get_snr (hreach : Reachable W ok h) (hcls : (h.src s).cls = .Source ∨ (h.src s).cls = .VerificationBinaries)
    (hn : n ≠ 0) (hs : CompleteSchedule W (h.src s)) (hr : Rect (h.src s).cols) (hw : FitsMask (h.src s).cols ws)
    (hT : ValidTable W.table) (hTe : ∀ e ∈ W.table.e_range, 0 ≤ e ∧ e < 1) (hTn : W.table.n_max ≤ 10000) {tol tol' e₀ : ℝ}
    (htol : (h.src s).gw_lum_tol = some tol) (he₀ : find_eccentric_transition tol = .ok e₀) (hlt : tol' ≤ tol)
    (hset : set_gw_lum_tol W s tol' h = (.ok (), k)) {r r' : ℕ} (hrun : get_snr W s a n ws h = (.ok r, h'))
    (hrun' : get_snr W s a n ws k = (.ok r', k')) {i : ℕ} {x : One} (hx : (rows (h.src s).cols)[i]? = some x)
    (hmer : x.merged = false) (hch : Chosen ws i) :
    ∃ e₁, (h.src s).ecc_tol = some e₀ ∧ (k.src s).ecc_tol = some e₁ ∧ e₁ ≤ e₀ ∧
      (x.ecc ≤ e₁ → (k'.snrs r')[i]? = (h'.snrs r)[i]?) ∧
      (e₀ < x.ecc → ∀ C, CallCtx W h' s C → 0 ≤ C.t_obs → ∀ N, Curve C N → 0 < x.f_orb →
        (x.StationaryOver W.K C.t_obs (h.src s).stat_tol ∨
          (DecreasingIntegrator W.odeint ∧ EvolPhys x.evolving ∧ x.ecc < 1 ∧ ∃ T, get_t_merge_ecc W.K (fun _ : Fin 1 => x.ecc) none
            (some fun _ => x.f_orb) none (some fun _ => x.m_1) (some fun _ => x.m_2) 0.15 (1 - 1e-4) true = .ok T ∧
            Avoids100 C W.odeint [x.evolving] T n)) →
        ∃ v v', (h'.snrs r)[i]? = some (some v) ∧ (k'.snrs r')[i]? = some (some v') ∧ 0 ≤ v ∧ v ≤ v') := by
  have hot := otherTol_of_set hset
  have hi : Inv W false h := Reachable.inv hreach
  have hik : Inv W false k := by
    have := (inv_atoms W false).setTol s tol' h hi
    rwa [hset] at this
  obtain ⟨hq, -, hE⟩ := hi.tol s tol htol
  have hE := hE _ he₀
  obtain ⟨e₁, hktol, he₁⟩ : ∃ e₁, (k.src s).gw_lum_tol = some tol' ∧ find_eccentric_transition tol' = .ok e₁ := by
    rcases set_gw_lum_tol_run W s tol' h with ⟨ht, hr⟩ | ⟨-, ⟨e, -, hr⟩ | ⟨e, he, hr⟩⟩
    · rw [hr] at hset
      obtain ⟨-, rfl⟩ := Prod.mk.inj hset
      rw [htol] at ht
      cases ht
      exact ⟨e₀, htol, he₀⟩
    · rw [hr] at hset
      cases (Prod.mk.inj hset).1
    · rw [hr] at hset
      obtain ⟨-, rfl⟩ := Prod.mk.inj hset
      exact ⟨e, by simp, he⟩
  obtain ⟨hqk, -, hEk⟩ := hik.tol s tol' hktol
  have hEk := hEk _ he₁
  have hmono := C33_mono hlt he₁ he₀
  have hcols : (k.src s).cols = (h.src s).cols := by obtain ⟨-, t, q, m, e', e⟩ := hot; rw [e]
  have hclsk : (k.src s).cls = (h.src s).cls := by obtain ⟨-, t, q, m, e', e⟩ := hot; rw [e]
  have hsk : CompleteSchedule W (k.src s) := by
    obtain ⟨-, t, q, m, e', e⟩ := hot
    unfold CompleteSchedule
    rw [e]
    exact hs
  have hS : Source_get_snr W s a n ws h = (.ok r, h') := by
    rw [get_snr_run] at hrun
    rcases hcls with hc | hc <;> · rw [hc] at hrun; exact hrun
  have hS' : Source_get_snr W s a n ws k = (.ok r', k') := by
    rw [get_snr_run, hclsk] at hrun'
    rcases hcls with hc | hc <;> · rw [hc] at hrun'; exact hrun'
  obtain ⟨⟨C, hC, hCk⟩, a1, a2, a3, a4, a5, a6⟩ := retol_calls hi hot hik hn hs hr hw hx hmer hch hS hS'
  obtain ⟨-, -, -, hrow⟩ := C36_get_snr hcls hn hs hr hw hrun
  obtain ⟨-, -, -, hrowk⟩ := C36_get_snr (by rw [hclsk]; exact hcls) hn hsk (by rw [hcols]; exact hr) (by rw [hcols]; exact hw) hrun'
  obtain ⟨v, harm, -, hv, -, -, C₁, t, q, hC₁, ht, hqq, hst, hev⟩ := (hrow i x hx).2 hmer hch
  obtain ⟨v', harm', -, hv', -, -, C₂, t', q', hC₂, ht', hqq', hst', hev'⟩ := (hrowk i x (by rw [hcols]; exact hx)).2 hmer hch
  cases callCtx_unique hC hC₁
  cases callCtx_unique hCk hC₂
  rw [a1] at hst hev
  rw [a2] at hst' hev'
  rw [a3, hE] at ht
  cases ht
  rw [a4, hEk] at ht'
  cases ht'
  rw [a5, hq] at hqq
  cases hqq
  rw [a6, hqk] at hqq'
  cases hqq'
  refine ⟨_, hE, hEk, hmono, fun hle => ?_, fun hgt C' hC' ht0 N hN hf hcase => ?_⟩
  · rw [hv, hv']
    by_cases hsta : x.StationaryOver W.K C.t_obs (h.src s).stat_tol
    · have e1 := ((hst hsta).1 (hle.trans hmono)).1
      have e2 := ((hst' hsta).1 hle).1
      rw [e1] at e2
      cases e2
      rfl
    · have e1 := ((hev hsta).1 (hle.trans hmono)).1
      have e2 := ((hev' hsta).1 hle).1
      rw [e1] at e2
      cases e2
      rfl
  · cases callCtx_unique hC hC'
    obtain ⟨b1, b2⟩ := C32_range hT tol x.ecc
    obtain ⟨b3, b4⟩ := C32_range hT tol' x.ecc
    obtain ⟨H, hH⟩ := limit_exists b1 (b2.trans (by exact_mod_cast hTn))
    obtain ⟨H', hH'⟩ := limit_exists b3 (b4.trans (by exact_mod_cast hTn))
    have hHH := limit_mono (C110_harmonics hT hTe hlt x.ecc) hH hH'
    by_cases hsta : x.StationaryOver W.K C.t_obs (h.src s).stat_tol
    · have e1 := ((hst hsta).2 hgt).1 H hH
      have e2 := ((hst' hsta).2 (hmono.trans_lt hgt)).1 H' hH'
      rw [snr_ecc_stationary_eq C _ _ _ _ hN.ok] at e1 e2
      obtain ⟨u, u', d1, d2, -, hp⟩ := C31_ecc_nonneg_mono C [x.eccentric] ht0 hN
        (by intro s hs; rw [List.mem_singleton] at hs; subst hs; exact hf) hHH
      rw [snr_ecc_stationary_eq C _ _ _ _ hN.ok] at d1 d2
      rw [finish_total e1] at d1
      rw [finish_total e2] at d2
      cases d1
      cases d2
      cases hp with
      | cons hp _ =>
        obtain ⟨y, z, rfl, rfl, c1, c2⟩ := hp
        exact ⟨y, z, hv, hv', c1, c2⟩
    · obtain ⟨ho, hph, hlt1, T, hTm, h100⟩ := hcase.resolve_left hsta
      have hK : C.K = W.K := callCtx_K hC
      rw [← hK] at hTm
      have hpos : 0 < x.ecc := by
        refine lt_of_le_of_lt ?_ hgt
        obtain ⟨hm, -⟩ := C33_first he₀
        unfold np.linspace at hm
        obtain ⟨j, -, rfl⟩ := List.mem_map.1 hm
        positivity
      have e1 := ((hev hsta).2 hgt).1 H hH
      have e2 := ((hev' hsta).2 (hmono.trans_lt hgt)).1 H' hH'
      have hone : ∀ i : Fin [x.evolving].length, [x.evolving][i] = x.evolving := fun i => by simp
      have hTm : get_t_merge_ecc C.K (fun i : Fin [x.evolving].length => [x.evolving][i].ecc) none
          (some fun i => [x.evolving][i].f_orb_i) none (some fun i => [x.evolving][i].m_1) (some fun i => [x.evolving][i].m_2)
          0.15 (1 - 1e-4) true = .ok T := by
        simp only [hone]
        exact hTm
      have hTT : merge_times_ecc C [x.evolving] none = .ok T := hTm
      obtain ⟨u, u', d1, d2, -, hp⟩ := C110_more_harmonics C ho [x.evolving] hHH (by omega : 1 ≤ n) ht0 hN
        (by intro s hs; rw [List.mem_singleton] at hs; subst hs; exact hph)
        (by intro s hs; rw [List.mem_singleton] at hs; subst hs; exact ⟨hpos, hlt1⟩) 1 [] (by simp) (T := T) (Or.inr ⟨rfl, hTm⟩) h100
      rw [snr_ecc_evolving_eq C W.odeint _ _ hn none 1 [] (by simp) _ _ hN.ok hTT] at e1 e2 d1 d2
      rw [finish_total e1] at d1
      rw [finish_total e2] at d2
      cases d1
      cases d2
      cases hp with
      | cons hp _ =>
        obtain ⟨y, z, rfl, rfl, c1, c2⟩ := hp
        exact ⟨y, z, hv, hv', c1, c2⟩

/-- **C110** (limit of the claim). The SNR may fall where a source changes from circular to eccentric: if the detector hears
only the second harmonic of a stationary source, then for every eccentricity up to 0.2, where all transitions lie, the SNR of
the source as an eccentric one, with any number of harmonics, is below its SNR as a circular one. -/
theorem C110_turns_eccentric (C : Ctx) (ht : 0 < C.t_obs) (hig : C.interpolated_g = none) {m f d e S₂ : ℝ} (hm : 0 < m)
    (hf : 0 < f) (hd : 0 < d) (he0 : 0 < e) (he1 : e ≤ 0.2) (hS : 0 < S₂) (h2 : noise C (2 * f) = .ok (S₂ : ℝ))
    (hdeaf : ∀ n : ℕ, 1 ≤ n → n ≠ 2 → noise C (n * f) = .ok ⊤) (H : ℕ) :
    ∃ v v', snr_circ_stationary C [⟨m, f, d, {}⟩] = .ok [some v] ∧
      snr_ecc_stationary C [⟨m, f, e, d⟩] H false false = .ok (.total [some v']) ∧ v' < v := by
  set h := h_0_val C.K none m d f 0 2 with hh
  have hpos : 0 < h := by
    rw [hh]
    unfold h_0_val
    simp only [g_vals]
    rw [C05_circular (by norm_num : (1 : ℤ) ≤ 2), if_pos rfl]
    have := C.K.G_pos
    have := C.K.c_pos
    positivity
  have hc0 : 0 < h ^ 2 * C.t_obs / S₂ := by positivity
  have he1' : e ≤ 1 := he1.trans (by norm_num)
  have hup := snr_upTo C ht.le hig (s := ⟨m, f, e, d⟩) he0.le he1' (N := fun n => if n = 2 then (S₂ : WithTop ℝ) else ⊤)
    (fun n hn => by
      by_cases h2' : n = 2
      · subst h2'; rw [if_pos rfl]; exact_mod_cast h2
      · rw [if_neg h2']; exact hdeaf n hn h2')
    (fun n _ => by
      split_ifs
      · exact_mod_cast hS
      · exact WithTop.coe_lt_top (0 : ℝ)) H
  refine ⟨√(h ^ 2 * C.t_obs / S₂), _, ?_, hup, ?_⟩
  · rw [snr_circ_stationary_iff]
    refine mapM_ok (g := fun _ => some √(h ^ 2 * C.t_obs / S₂)) fun x hx => ?_
    rw [List.mem_singleton] at hx
    subst hx
    unfold circ1
    rw [modulation_none, ok_bind]
    simp only
    rw [h2, ok_bind, hig, one_mul, ← hh]
    simp only [divNoise]
    rw [sqrt?_nonneg hc0.le]
    rfl
  · apply sqrt_lt_sqrt_iff_of_pos hc0 |>.2
    have hg := C05_nonneg 2 he0.le he1'
    have hle : ∑ k ∈ Finset.range H, peters_g ((k : ℤ) + 1) e * weight (fun n => if n = 2 then (S₂ : WithTop ℝ) else ⊤) k ≤
        peters_g 2 e * (1 / (4 * S₂)) := by
      have hterm : ∀ k : ℕ, peters_g ((k : ℤ) + 1) e * weight (fun n => if n = 2 then (S₂ : WithTop ℝ) else ⊤) k =
          if k = 1 then peters_g 2 e * (1 / (4 * S₂)) else 0 := by
        intro k
        by_cases hk : k = 1
        · subst hk
          unfold weight
          simp [divNoise]
          left
          ring
        · unfold weight
          simp [hk, divNoise]
      simp only [hterm]
      rw [Finset.sum_ite_eq']
      split_ifs
      · exact le_rfl
      · positivity
    have hlt := peters_g_two_lt_one he0 he1
    have hA : 0 < 4 * h ^ 2 * C.t_obs := by positivity
    calc _ ≤ 4 * h ^ 2 * C.t_obs * (peters_g 2 e * (1 / (4 * S₂))) := mul_le_mul_of_nonneg_left hle hA.le
      _ = peters_g 2 e * (h ^ 2 * C.t_obs / S₂) := by field_simp
      _ < 1 * (h ^ 2 * C.t_obs / S₂) := mul_lt_mul_of_pos_right hlt hc0
      _ = _ := one_mul _

/-! ### Examples -/

/-- Non-vacuity of `C110_turns_eccentric`: a detector that hears only 2 mHz, and a binary with an orbital frequency of 1 mHz
and an eccentricity of 0.05. -/
example : ∃ (C : Ctx) (v v' : ℝ), snr_circ_stationary C [⟨1e30, 1e-3, 1e20, {}⟩] = .ok [some v] ∧
    snr_ecc_stationary C [⟨1e30, 1e-3, 0.05, 1e20⟩] 10 false false = .ok (.total [some v']) ∧ v' < v := by
  refine ⟨⟨Example.world.K, Example.world.env, {}, none, some fun f => if f = 2e-3 then ((1 : ℝ) : WithTop ℝ) else ⊤, 1e8⟩, ?_⟩
  refine C110_turns_eccentric _ (by norm_num) rfl (by norm_num) (by norm_num) (by norm_num) (by norm_num) (by norm_num)
    (S₂ := 1) one_pos ?_ ?_ 10
  · unfold noise
    norm_num
    rfl
  · intro n _ h2
    unfold noise
    have : ¬ ((n : ℝ) * 1e-3 = 2e-3) := by
      intro h
      apply h2
      have : (n : ℝ) = 2 := by norm_num at h ⊢; linarith
      exact_mod_cast this
    simp only [if_neg this]
    rfl

/-- Non-vacuity of `C110_harmonics`, with a strict inequality: at the eccentricity 0.5 two harmonics are enough for a
tolerance of 1, but not without tolerance. -/
example : ∃ T : LumTable, ValidTable T ∧ (∀ e ∈ T.e_range, 0 ≤ e ∧ e < 1) ∧
    harmonics_required T 1 0.5 = 2 ∧ harmonics_required T 0 0.5 = 3 := by
  have hv : ValidTable ⟨[0, 0.5], 3, [[0, 1, 0], [0, 1, 0]]⟩ :=
    ⟨by norm_num, by norm_num, by norm_num, by simp, by norm_num⟩
  have hF : (1 : ℝ) < peters_f 0.5 := by
    have h1 : (1 - (0.5 : ℝ) ^ 2) ^ (7 / 2 : ℝ) ≤ 1 := rpow_le_one (by norm_num) (by norm_num) (by norm_num)
    have h2 : 0 < (1 - (0.5 : ℝ) ^ 2) ^ (7 / 2 : ℝ) := rpow_pos_of_pos (by norm_num) _
    unfold peters_f
    simp only
    rw [lt_div_iff₀ h2]
    norm_num at h1 ⊢
    linarith
  refine ⟨_, hv, by intro e he; simp at he; rcases he with rfl | rfl <;> norm_num, ?_, ?_⟩
  · have hn : harmonics_needed ⟨[0, 0.5], 3, [[0, 1, 0], [0, 1, 0]]⟩ 1 = [2, 2] := by
      norm_num [harmonics_needed, harmonics_loop, harmonics_step, extend_harmonics]
    unfold harmonics_required
    rw [hn]
    have := np.interp1d_point (pts := [((0 : ℝ), (2 : ℝ)), (0.5, 2)]) (by norm_num [np.Increasing]) (p := (0.5, 2)) (by simp) 2 2
    simp [maxNat] at this ⊢
    rw [this]
    norm_num
  · have hn : harmonics_needed ⟨[0, 0.5], 3, [[0, 1, 0], [0, 1, 0]]⟩ 0 = [2, 3] := by
      simp [harmonics_needed, harmonics_loop, harmonics_step, extend_harmonics]
      exact hF
    unfold harmonics_required
    rw [hn]
    have := np.interp1d_point (pts := [((0 : ℝ), (2 : ℝ)), (0.5, 3)]) (by norm_num [np.Increasing]) (p := (0.5, 3)) (by simp) 2 3
    simp [maxNat] at this ⊢
    rw [this]
    norm_num

theorem example_wide : (rowAt Example.cols 1).StationaryOver Example.world.K 1e8 0.01 := by
  rw [stationaryOver_iff]
  change evol.change_le (evol.evolve_f_orb_circ Consts.codata2018 1e-4 (utils.chirp_mass 3e30 2e30) 1e8 0.3 1e9) 1e-4 0.01
  rw [stationarity_iff _ (by norm_num) (by norm_num) (by norm_num) (by norm_num) (by norm_num)]
  have ha := get_a_from_f_orb_pos Consts.codata2018 (f := 1e-4) (m₁ := 3e30) (m₂ := 2e30) (by norm_num) (by norm_num) (by norm_num)
  have hc := a_cube (f := 1e-4) (m₁ := 3e30) (m₂ := 2e30) (by norm_num) (by norm_num) (by norm_num)
  set a := utils.get_a_from_f_orb Consts.codata2018 1e-4 3e30 2e30
  have h3 : (1.25e26 : ℝ) ≤ a ^ 3 := by
    rw [hc, le_div_iff₀ (by positivity)]
    have := Real.pi_le_four
    have := Real.pi_pos
    nlinarith
  have h1 : (5e8 : ℝ) ≤ a := by
    by_contra hlt
    push Not at hlt
    have : a ^ 3 < 5e8 ^ 3 := by gcongr
    norm_num at this h3
    linarith
  have h4 : (6.25e34 : ℝ) ≤ a ^ 4 := by
    have : (5e8 : ℝ) ^ 4 ≤ a ^ 4 := by gcongr
    norm_num at this ⊢
    exact this
  have hb : utils.beta Consts.codata2018 3e30 2e30 ≤ 1e20 := by
    unfold utils.beta Consts.codata2018
    norm_num
  have hb0 := Legwork.evol.beta_pos Consts.codata2018 (m₁ := 3e30) (m₂ := 2e30) (by norm_num) (by norm_num)
  have hp : ((1 : ℝ) + 0.01) ^ (-8 / 3 : ℝ) ≤ 1 / 1.01 := by
    have : ((1 : ℝ) + 0.01) ^ (-8 / 3 : ℝ) ≤ ((1 : ℝ) + 0.01) ^ (-1 : ℝ) :=
      Real.rpow_le_rpow_of_exponent_le (by norm_num) (by norm_num)
    rw [Real.rpow_neg_one] at this
    norm_num at this ⊢
    exact this
  have hq : (1e-3 : ℝ) ≤ 1 - ((1 : ℝ) + 0.01) ^ (-8 / 3 : ℝ) := by
    norm_num at hp ⊢
    linarith
  have hF := peters_f_le_ten (e := 0.3) (by norm_num) le_rfl
  have hd : (1e14 : ℝ) ≤ a ^ 4 / (4 * utils.beta Consts.codata2018 3e30 2e30) := by
    rw [le_div_iff₀ (by positivity)]
    norm_num at hb h4 ⊢
    linarith
  calc (1e8 : ℝ) * peters_f 0.3 ≤ 1e14 * 1e-3 := by norm_num at hF ⊢; linarith
    _ ≤ _ := mul_le_mul hd hq (by norm_num) (by positivity)

private lemma ready_otherTol (hh : Ready W h s) (ht : OtherTol h k s) (hb : Built (k.src s)) (hn : k.snrs = h.snrs)
    (hm : k.harms = h.harms) : Ready W k s := by
  obtain ⟨h1, -, h5, h6, h7⟩ := hh
  obtain ⟨hp, t, q, m, e', e⟩ := ht
  unfold storedSnr at h6
  unfold storedHarm at h7
  refine ⟨by rw [e]; exact h1, hb, by rw [hp, e]; exact h5, ?_, ?_⟩
  · unfold storedSnr
    rw [e, hn]
    exact h6
  · unfold storedHarm
    rw [e, hm]
    exact h7

/-- Non-vacuity of `C110_get_snr`: the example object, first with the tolerance 0.05 and then with 0.01. The first binary is
circular, the second has an eccentricity of 0.3. -/
example : ∃ (h h' k k' : Heap) (r r' : ℕ) (v v' : ℝ), Reachable Example.world AnyCall h ∧
    (h.src 0).gw_lum_tol = some 0.05 ∧ set_gw_lum_tol Example.world 0 0.01 h = (.ok (), k) ∧
    get_snr Example.world 0 {} 100 none h = (.ok r, h') ∧ get_snr Example.world 0 {} 100 none k = (.ok r', k') ∧
    (k'.snrs r')[0]? = (h'.snrs r)[0]? ∧ (h'.snrs r)[1]? = some (some v) ∧ (k'.snrs r')[1]? = some (some v') ∧
    0 ≤ v ∧ v ≤ v' := by
  have hno : FitsMask (Example.heap.src 0).cols none := fun m hm => by cases hm
  have hcols : (Example.heap.src 0).cols = Example.cols := by rw [Example.heap_src]; rfl
  have hch : ∀ i, Chosen none i := fun i m hm => by cases hm
  obtain ⟨r, h', hrun⟩ := example_get_snr none hno
  have htol : (Example.heap.src 0).gw_lum_tol = some 0.05 := by rw [Example.heap_src]; rfl
  obtain ⟨e₁, he₁⟩ : ∃ e, find_eccentric_transition 0.01 = .ok e := by
    obtain ⟨e, he, hlt⟩ := (C33_found_iff 0.05).1.1 ⟨_, Example.find_eccTol⟩
    refine (C33_found_iff 0.01).1.2 ⟨e, he, hlt.trans_le ?_⟩
    have hm : (0 : ℝ) ≤ e ∧ e < 1 := by
      unfold np.linspace at he
      obtain ⟨k, hk, rfl⟩ := List.mem_map.1 he
      rw [List.mem_range] at hk
      have hk' : (k : ℝ) ≤ 9999 := by exact_mod_cast (by omega : k ≤ 9999)
      constructor
      · positivity
      · norm_num
        linarith
    exact mul_le_mul_of_nonneg_right (by norm_num) (peters_f_pos hm.1 hm.2).le
  obtain ⟨k, hset, hb, h1, h2⟩ : ∃ k, set_gw_lum_tol Example.world 0 0.01 Example.heap = (.ok (), k) ∧ Built (k.src 0) ∧
      k.snrs = Example.heap.snrs ∧ k.harms = Example.heap.harms := by
    rcases set_gw_lum_tol_run Example.world 0 0.01 Example.heap with ⟨h0, -⟩ | ⟨-, ⟨e, he, -⟩ | ⟨e, -, hr⟩⟩
    · rw [htol] at h0
      norm_num at h0
    · rw [he₁] at he
      cases he
    · exact ⟨_, hr, by obtain ⟨b1, b2, b3⟩ := example_built; constructor <;> simp [b1, b2, b3], rfl, rfl⟩
  have hot := otherTol_of_set hset
  obtain ⟨r', k', hrun'⟩ := C36_succeeds (W := Example.world) (n := 100) (ws := none) (by norm_num)
    (by obtain ⟨-, t, q, m, e', e⟩ := hot; unfold CompleteSchedule; rw [e]; exact example_schedule) (fun m hm => by cases hm)
    (ready_otherTol example_ready hot hb h1 h2)
  have key := fun {i x} => C110_get_snr (i := i) (x := x) (Example.reachable (ok := AnyCall) trivial) (Or.inl (by rw [Example.heap_src]; rfl)) (by norm_num)
    example_schedule example_rect hno (W := Example.world)
    ⟨by show List.Pairwise _ [(0 : ℝ), 0.5, 0.9]; norm_num, by simp [Example.world], by simp [Example.world], by simp [Example.world], by simp [Example.world]⟩
    (by intro e he; simp [Example.world] at he; rcases he with rfl | rfl | rfl <;> norm_num) (by norm_num [Example.world]) htol Example.find_eccTol
    (by norm_num : (0.01 : ℝ) ≤ 0.05) hset hrun hrun'
  obtain ⟨e, -, hE, -, hcirc, -⟩ := key (i := 0) (x := rowAt Example.cols 0) (by rw [hcols]; rfl) rfl (hch 0)
  obtain ⟨-, -, -, -, -, hecc⟩ := key (i := 1) (x := rowAt Example.cols 1) (by rw [hcols]; rfl) rfl (hch 1)
  have hcls : (Example.heap.src 0).cls = .Source := by rw [Example.heap_src]; rfl
  obtain ⟨C, hC, hCg, hCsc, hCt⟩ := ready_callCtx example_ready (n := 100) (by norm_num) example_schedule hno (i := 0)
    (x := rowAt Example.cols 0) (by rw [hcols]; rfl) rfl (hch 0)
    (by rw [get_snr_run, hcls] at hrun; exact hrun) (p := 1) (by rw [Example.heap_src]; rfl) (T := 1e8) (by rw [Example.heap_par]; rfl)
  have hsc : C.interpolated_sc = some (Example.sc 0) := by rw [hCsc, Example.heap_src]; rfl
  obtain ⟨v, v', e1, e2, e3, e4⟩ := hecc
    (by
      obtain ⟨hm, -⟩ := C33_first Example.find_eccTol
      unfold np.linspace at hm
      obtain ⟨j, hj, hj'⟩ := List.mem_map.1 hm
      rw [List.mem_range] at hj
      have hk' : (j : ℝ) ≤ 9999 := by exact_mod_cast (by omega : j ≤ 9999)
      rw [← hj']
      show _ < (0.3 : ℝ)
      norm_num
      linarith)
    C hC (by rw [hCt]; norm_num) (Example.sc 0)
    ⟨fun f => by unfold noise; rw [hsc]; rfl, fun f _ => by
      rw [white_sc]
      split_ifs <;> · rw [WithTop.coe_pos]; norm_num⟩ (by show (0 : ℝ) < 1e-4; norm_num)
    (Or.inl (by
      have : (Example.heap.src 0).stat_tol = 0.01 := by rw [Example.heap_src]; show (1e-2 : ℝ) = 0.01; norm_num
      rw [hCt, this]
      exact example_wide))
  have hpos : 0 ≤ e := by
    have hk : TolInv Example.world k := by
      have := (inv_atoms Example.world false).setTol 0 0.01 Example.heap (Reachable.inv (Example.reachable (ok := AnyCall) trivial))
      rw [hset] at this
      exact this.tol
    have hkt : (k.src 0).gw_lum_tol = some 0.01 := by
      rcases set_gw_lum_tol_run Example.world 0 0.01 Example.heap with ⟨h0, hr⟩ | ⟨-, ⟨e, he, hr⟩ | ⟨e, -, hr⟩⟩
      · rw [htol] at h0
        norm_num at h0
      · rw [he₁] at he
        cases he
      · rw [hr] at hset
        obtain ⟨-, rfl⟩ := Prod.mk.inj hset
        simp
    have := (hk 0 0.01 hkt).2.2 _ he₁
    rw [hE] at this
    cases this
    exact (C33_pos (by norm_num) he₁).le
  exact ⟨Example.heap, h', k, k', r, r', v, v', Example.reachable (ok := AnyCall) trivial, htol, hset, hrun, hrun',
    hcirc (by show (0 : ℝ) ≤ e; exact hpos), e1, e2, e3, e4⟩

end Legwork.Props
