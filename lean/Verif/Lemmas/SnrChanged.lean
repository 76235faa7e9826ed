import Verif.Lemmas.SnrTwin
import Verif.Props.SourceSnr

/-!
# SNRs of two collections whose sources correspond

Two objects with the same settings whose sources correspond one by one: when the SNRs of corresponding sources are
related, so are the arrays that `get_snr` returns.
-/

namespace Legwork.source

open Legwork.Spec Legwork.snr Legwork.Props
open PyM hiding bind

variable {W : World} {s t n : ℕ} {h k : Heap} {ws : Option (List Bool)} {ρ : One → One → Prop}

/-- The object `t` has the settings of `s` and the same stored SNRs and harmonics, and its sources correspond to those of
`s` by `ρ`. -/
structure Changed (ρ : One → One → Prop) (h : Heap) (s : ℕ) (k : Heap) (t : ℕ) : Prop where
  twin : Twin h s k t
  rows : List.Forall₂ ρ (rows (h.src s).cols) (rows (k.src t).cols)
  snr : snrNow k t = snrNow h s
  harm : harmNow k t = harmNow h s

theorem Changed.n_sources (hP : Changed ρ h s k t) : (k.src t).cols.n_sources = (h.src s).cols.n_sources := by
  have := hP.rows.length_eq
  rwa [rows_length, rows_length, eq_comm] at this

theorem Changed.match_params (hP : Changed ρ h s k t) {a f : SnrArgs} {b : Bool} {h₁ : Heap}
    (hm : match_params W s a b h = (.ok f, h₁)) :
    ∃ k₁, match_params W t a b k = (.ok f, k₁) ∧ Changed ρ h₁ s k₁ t := by
  obtain ⟨k₁, hk, hT⟩ := hP.twin.match_params hm
  have h1 := match_params_scOnly hm
  have h2 := match_params_scOnly hk
  refine ⟨k₁, hk, hT, ?_, ?_, ?_⟩
  · rw [match_params_cols hm, match_params_cols hk]; exact hP.rows
  · rw [h1.snrNow, h2.snrNow, hP.snr]
  · rw [h1.harmNow, h2.harmNow, hP.harm]

theorem Changed.schedule (hP : Changed ρ h s k t) (hs : CompleteSchedule W (h.src s)) : CompleteSchedule W (k.src t) := by
  unfold CompleteSchedule at hs ⊢
  rw [hP.twin.settings.n_proc]
  exact hs

theorem Changed.fits (hP : Changed ρ h s k t) (hw : FitsMask (h.src s).cols ws) : FitsMask (k.src t).cols ws := by
  unfold FitsMask at hw ⊢
  rw [hP.n_sources]
  exact hw

theorem forall₂_at {α β : Type} {R : α → β → Prop} {l : List α} {l' : List β} (hl : List.Forall₂ R l l') {i : ℕ} {x : α}
    (hi : l[i]? = some x) : ∃ y, l'[i]? = some y ∧ R x y := by
  induction hl generalizing i with
  | nil => simp at hi
  | cons hab _ ih =>
    rcases i with _ | i
    · simp only [List.getElem?_cons_zero, Option.some.injEq] at hi ⊢
      exact ⟨_, rfl, hi ▸ hab⟩
    · simp only [List.getElem?_cons_succ] at hi ⊢
      exact ih hi

theorem forall₂_zip {α β γ : Type} {R : α → β → Prop} {l : List α} {l' : List β} (hl : List.Forall₂ R l l') (w : List γ) :
    List.Forall₂ (fun x y => R x.1 y.1 ∧ x.2 = y.2) (l.zip w) (l'.zip w) := by
  induction hl generalizing w with
  | nil => simp
  | cons hab _ ih =>
    rcases w with _ | ⟨c, w⟩
    · simp
    · exact List.Forall₂.cons ⟨hab, rfl⟩ (ih w)

/-- The sources with their selection. -/
theorem Changed.items (hP : Changed ρ h s k t) :
    List.Forall₂ (fun x y => ρ x.1 y.1 ∧ x.2 = y.2) (items (h.src s).cols (which (h.src s).cols.n_sources ws))
      (items (k.src t).cols (which (k.src t).cols.n_sources ws)) := by
  rw [hP.n_sources]
  exact forall₂_zip hP.rows _

theorem mapM_related {α β γ δ : Type} {P : α → β → Prop} {Q : α → β → γ → δ → Prop} {f : α → Except PyErr γ}
    {g : β → Except PyErr δ} (hfg : ∀ x y v, P x y → f x = .ok v → ∃ v', g y = .ok v' ∧ Q x y v v') {l : List α}
    {l' : List β} (hl : List.Forall₂ P l l') {ps : List γ} (hps : l.mapM f = .ok ps) :
    ∃ ps', l'.mapM g = .ok ps' ∧ ∀ (i : ℕ) x, l[i]? = some x → ∃ y v v', l'[i]? = some y ∧ ps[i]? = some v ∧
      ps'[i]? = some v' ∧ P x y ∧ Q x y v v' := by
  induction hl generalizing ps with
  | nil => exact ⟨[], rfl, by simp⟩
  | @cons x y l l' hxy _ ih =>
    obtain ⟨v, vs, hv, hvs, rfl⟩ := mapM_cons_ok.1 hps
    obtain ⟨v', hv', hQ⟩ := hfg _ _ _ hxy hv
    obtain ⟨ps', hps', hi⟩ := ih hvs
    refine ⟨v' :: ps', mapM_cons_ok.2 ⟨v', ps', hv', hps', rfl⟩, fun i z hz => ?_⟩
    rcases i with _ | i
    · simp only [List.getElem?_cons_zero, Option.some.injEq] at hz ⊢
      subst hz
      exact ⟨y, v, v', rfl, rfl, rfl, hxy, hQ⟩
    · simp only [List.getElem?_cons_succ] at hz ⊢
      exact hi i z hz

theorem any_congr {its its' : List (One × Bool)} (hm : ∀ x y, ρ x y → y.merged = x.merged)
    (hl : List.Forall₂ (fun x y => ρ x.1 y.1 ∧ x.2 = y.2) its its') : its'.map live = its.map live := by
  induction hl with
  | nil => rfl
  | cons hab _ ih =>
    rw [List.map_cons, List.map_cons, ih]
    congr 1
    unfold live
    rw [hm _ _ hab.1, hab.2]

/-- What two calls of `get_snr` returned and stored for source number `i`. -/
def RelatedAt (W : World) (ws : Option (List Bool)) (R : Ctx → Settings → One → One → Option ℝ × ℕ → Option ℝ × ℕ → Prop)
    (h' : Heap) (s : ℕ) (vs : List (Option ℝ)) (k' : Heap) (t : ℕ) (us : List (Option ℝ)) (i : ℕ) (x y : One) : Prop :=
  ∃ v u, vs[i]? = some v ∧ us[i]? = some u ∧
    (x.merged = true ∨ ¬ Chosen ws i → v = some 0 ∧ u = some 0 ∧ (harmNow k' t)[i]? = (harmNow h' s)[i]?) ∧
    (x.merged = false → Chosen ws i → ∃ m l C S, (harmNow h' s)[i]? = some m ∧ (harmNow k' t)[i]? = some l ∧
      CallCtx W h' s C ∧ CallCtx W k' t C ∧ HasSettings (h'.src s) S ∧ R C S x y (v, m) (u, l))

/-- `get_snr` of a plain `Source` on collections whose sources correspond, if both calls succeed. -/
theorem Changed.both (hP : Changed ρ h s k t) (hmer : ∀ x y, ρ x y → y.merged = x.merged) (hn : n ≠ 0)
    (hs : CompleteSchedule W (h.src s)) (hr : Rect (h.src s).cols) (hr' : Rect (k.src t).cols)
    (hw : FitsMask (h.src s).cols ws) {R : Ctx → Settings → One → One → Option ℝ × ℕ → Option ℝ × ℕ → Prop}
    (hstep : ∀ C S x y v v', ρ x y → fullOne W C S (h.src s).stat_tol n x = .ok v →
      fullOne W C S (h.src s).stat_tol n y = .ok v' → R C S x y v v')
    {a : SnrArgs} {r r' : ℕ} {h' k' : Heap} (hrun : Source_get_snr W s a n ws h = (.ok r, h'))
    (hrun' : Source_get_snr W t a n ws k = (.ok r', k')) :
    ∀ i x, (Spec.rows (h.src s).cols)[i]? = some x → ∃ y, (Spec.rows (k.src t).cols)[i]? = some y ∧ ρ x y ∧
      RelatedAt W ws R h' s (h'.snrs r) k' t (k'.snrs r') i x y := by
  obtain ⟨f, h₁, T, S, hR, hsnr, hcase⟩ := Source_get_snr_values hn hs hr hw hrun _ rfl
  obtain ⟨k₁, hkm, hP₁⟩ := hP.match_params hR.matched
  obtain ⟨p, hp, hT⟩ := hR.time
  obtain ⟨q, hq, hd⟩ := hP₁.twin.params hp
  have hs' := hP.schedule hs
  have hw' := hP.fits hw
  have hits2 := hP.items (ws := ws)
  have hlive := any_congr hmer hits2
  set its := source.items (h.src s).cols (which (h.src s).cols.n_sources ws) with hits
  set its' := source.items (k.src t).cols (which (k.src t).cols.n_sources ws) with hits'
  have hany' : its'.any live = its.any live := by
    have e1 : its'.any live = (its'.map live).any id := by simp [List.any_map]
    have e2 : its.any live = (its.map live).any id := by simp [List.any_map]
    rw [e1, e2, hlive]
  have hil : its.length = (h.src s).cols.n_sources := items_length (which_length hw)
  have hil' : its'.length = its.length := hits2.length_eq.symm
  have hstol : (k.src t).stat_tol = (h.src s).stat_tol := hP.twin.settings.stat_tol
  intro i x hx
  obtain ⟨y, hy, hxy⟩ := forall₂_at hP.rows hx
  refine ⟨y, hy, hxy, ?_⟩
  obtain ⟨b, hb, hbc⟩ := item_at hw hx
  rw [← hits] at hb
  obtain ⟨g, k₁', T', S', hR'', -, hcase'⟩ := Source_get_snr_values hn hs' hr' hw' hrun' its' rfl
  have hu := hR''.matched
  rw [hkm] at hu
  obtain ⟨e1, rfl⟩ := Prod.mk.inj hu
  cases e1
  have hSS := HasSettings.unique hR''.settings (hP₁.twin.hasSettings hR.settings)
  subst hSS
  have hTT : T' = T := by
    obtain ⟨q', hq', hT'⟩ := hR''.time
    rw [hq] at hq'
    cases hq'
    exact maskTime_unique hT' (maskTime_congr hd hT)
  subst hTT
  obtain ⟨⟨y', b'⟩, hb', hyy⟩ := forall₂_at hits2 hb
  have hlx : live (x, b) = true ↔ x.merged = false ∧ Chosen ws i := by rw [live_iff, hbc]; tauto
  rcases hcase with ⟨hany, -, hv, hh, -⟩ | ⟨hany, f', h₂, C, ps, hcalc, ho, hv, -, hh, -⟩
  · rcases hcase' with ⟨-, -, hv', hh', -⟩ | ⟨hany'', -⟩
    · refine ⟨some 0, some 0, by rw [hv, List.getElem?_map, hb]; rfl, by rw [hv', List.getElem?_map, hb']; rfl,
        fun _ => ⟨rfl, rfl, by rw [hh, hh', hP.harm]⟩, fun h1 h2 => ?_⟩
      rw [List.any_eq_false] at hany
      exact absurd (hlx.2 ⟨h1, h2⟩) (hany _ (List.mem_of_getElem? hb))
    · rw [hany', hany] at hany''
      cases hany''
  · rcases hcase' with ⟨hany'', -⟩ | ⟨-, f'', k₂', C', ps', hcalc', ho', hv', -, hh', -⟩
    · rw [hany', hany] at hany''
      cases hany''
    obtain ⟨k₂, hkm₂, hP₂⟩ := hP₁.match_params hcalc.matched
    have hu := hcalc'.matched
    rw [hkm₂] at hu
    obtain ⟨e1, rfl⟩ := Prod.mk.inj hu
    cases e1
    have hC := hcalc'.ctx
    rw [hP₂.twin.ctxOf, hcalc.ctx] at hC
    cases hC
    have hpl := mapM_length hcalc.values
    have hpl' := mapM_length hcalc'.values
    obtain ⟨v, hvi, hv1⟩ := mapM_at hcalc.values hb
    obtain ⟨v', hvi', hv1'⟩ := mapM_at hcalc'.values hb'
    have hyy' : y' = y := by
      have := hb'
      rw [hits'] at this
      unfold source.items at this
      rw [List.getElem?_zip_eq_some] at this
      rw [hy] at this
      exact (Option.some.inj this.1).symm
    subst hyy'
    have hly : live (y', b') = live (x, b) := by unfold live; rw [hmer _ _ hyy.1, ← hyy.2]
    rw [hstol] at hv1'
    unfold orZero at hv1 hv1'
    rw [hly] at hv1'
    have hharm : (harmNow h' s)[i]? = if live (x, b) = true then some v.2 else (harmNow h s)[i]? := by
      have hlen : its.length = (harmNow h s).length := by
        rw [hcalc.harm_length, (match_params_scOnly hR.matched).harmNow]
      rw [hh, assign_select (by simp [hlen]) (by simp [hpl])]
      simp [hb, hvi]
    have hharm' : (harmNow k' t)[i]? = if live (x, b) = true then some v'.2 else (harmNow h s)[i]? := by
      have hlen : its'.length = (harmNow k t).length := by
        rw [hil', hP.harm, hcalc.harm_length, (match_params_scOnly hR.matched).harmNow]
      rw [hh', assign_select (by simp [hlen]) (by simp [hpl']), hlive, hP.harm]
      simp [hb, hvi']
    refine ⟨v.1, v'.1, by rw [hv, List.getElem?_map, hvi]; rfl, by rw [hv', List.getElem?_map, hvi']; rfl,
      fun hdead => ?_, fun h1 h2 => ?_⟩
    · have hl : ¬ live (x, b) = true := fun hl => by
        obtain ⟨h1, h2⟩ := hlx.1 hl
        rcases hdead with h | h
        · rw [h1] at h; cases h
        · exact h h2
      rw [if_neg hl] at hharm hharm' hv1 hv1'
      cases hv1
      cases hv1'
      exact ⟨rfl, rfl, hharm'.trans hharm.symm⟩
    · have hl := hlx.2 ⟨h1, h2⟩
      rw [if_pos hl] at hharm hharm' hv1 hv1'
      have hS : HasSettings (h'.src s) S' :=
        ho.hasSettings.2 ((match_params_scOnly hcalc.matched).hasSettings.2 hR.settings)
      exact ⟨v.2, v'.2, C, S', hharm, hharm', callCtx hcalc.matched hcalc.ctx ho,
        callCtx hcalc'.matched hcalc'.ctx ho', hS, hstep _ _ _ _ _ _ hxy hv1 hv1'⟩

/-- `get_snr` of a plain `Source` on collections whose sources correspond. -/
theorem Changed.full_ctx (hP : Changed ρ h s k t) (hmer : ∀ x y, ρ x y → y.merged = x.merged) (hn : n ≠ 0)
    (hs : CompleteSchedule W (h.src s)) (hr : Rect (h.src s).cols) (hr' : Rect (k.src t).cols)
    (hw : FitsMask (h.src s).cols ws) {R : Ctx → Settings → One → One → Option ℝ × ℕ → Option ℝ × ℕ → Prop}
    {a : SnrArgs} {r : ℕ} {h' : Heap} (hrun : Source_get_snr W s a n ws h = (.ok r, h'))
    (hstep : ∀ C S x y v, CallCtx W h' s C → HasSettings (h'.src s) S → x.merged = false → ρ x y →
      fullOne W C S (h.src s).stat_tol n x = .ok v → ∃ v', fullOne W C S (h.src s).stat_tol n y = .ok v' ∧ R C S x y v v') :
    ∃ r' k', Source_get_snr W t a n ws k = (.ok r', k') ∧
      ∀ i x, (Spec.rows (h.src s).cols)[i]? = some x → ∃ y, (Spec.rows (k.src t).cols)[i]? = some y ∧ ρ x y ∧
        RelatedAt W ws R h' s (h'.snrs r) k' t (k'.snrs r') i x y := by
  obtain ⟨f, h₁, T, S, hR, hsnr, hcase⟩ := Source_get_snr_values hn hs hr hw hrun _ rfl
  obtain ⟨k₁, hkm, hP₁⟩ := hP.match_params hR.matched
  obtain ⟨p, hp, hT⟩ := hR.time
  obtain ⟨q, hq, hd⟩ := hP₁.twin.params hp
  have hs' := hP.schedule hs
  have hw' := hP.fits hw
  have hits2 := hP.items (ws := ws)
  have hlive := any_congr hmer hits2
  set its := source.items (h.src s).cols (which (h.src s).cols.n_sources ws) with hits
  set its' := source.items (k.src t).cols (which (k.src t).cols.n_sources ws) with hits'
  have hany' : its'.any live = its.any live := by
    have e1 : its'.any live = (its'.map live).any id := by simp [List.any_map]
    have e2 : its.any live = (its.map live).any id := by simp [List.any_map]
    rw [e1, e2, hlive]
  have hil : its.length = (h.src s).cols.n_sources := items_length (which_length hw)
  have hil' : its'.length = its.length := hits2.length_eq.symm
  have hstol : (k.src t).stat_tol = (h.src s).stat_tol := hP.twin.settings.stat_tol
  have hR' : SnrRun W t a n its' k f k₁ T S := ⟨hkm, hP₁.twin.hasSettings hR.settings, q, hq, maskTime_congr hd hT⟩
  have hstep' : ∀ C, CallCtx W h' s C → HasSettings (h'.src s) S → ∀ x y v, (ρ x.1 y.1 ∧ x.2 = y.2) →
      orZero (fullOne W C S (h.src s).stat_tol n) x = .ok v →
      ∃ v', orZero (fullOne W C S (h.src s).stat_tol n) y = .ok v' ∧
        ((live x = true → R C S x.1 y.1 v v') ∧ (live x = false → v.1 = some 0 ∧ v'.1 = some 0)) := by
    intro C hC hS x y v hxy hv
    have hl : live y = live x := by unfold live; rw [hmer _ _ hxy.1, hxy.2]
    unfold orZero at hv ⊢
    rw [hl]
    by_cases hx : live x = true
    · rw [if_pos hx] at hv ⊢
      obtain ⟨v', hv', hR⟩ := hstep C S _ _ _ hC hS (live_iff.1 hx).2 hxy.1 hv
      exact ⟨v', hv', fun _ => hR, fun h => by rw [hx] at h; cases h⟩
    · rw [if_neg hx] at hv ⊢
      cases hv
      exact ⟨_, rfl, fun h => absurd h hx, fun _ => ⟨rfl, rfl⟩⟩
  have hc : its'.any live = false ∨ ∃ f' h₂ C ps, SnrCalc W t n (k.src t).stat_tol its' f k₁ T S f' h₂ C ps := by
    rcases hcase with ⟨hany, -, -⟩ | ⟨-, f', h₂, C, ps, hcalc, ho, -⟩
    · exact Or.inl (hany'.trans hany)
    · right
      obtain ⟨k₂, hkm₂, hP₂⟩ := hP₁.match_params hcalc.matched
      obtain ⟨ps', hps', -⟩ := mapM_related (hstep' C (callCtx hcalc.matched hcalc.ctx ho)
        (ho.hasSettings.2 ((match_params_scOnly hcalc.matched).hasSettings.2 hR.settings))) hits2 hcalc.values
      refine ⟨f', k₂, C, ps', hkm₂, by rw [hP₂.twin.ctxOf]; exact hcalc.ctx, hcalc.time, ?_,
        by rw [hil', hP₁.harm]; exact hcalc.harm_length, by rw [hil', hP₁.snr]; exact hcalc.snr_length⟩
      rw [hstol]
      exact hps'
  obtain ⟨r', k', hrun'⟩ := Source_get_snr_exists hn hs' hr' hw' its' rfl hR' hc
  have hall := hP.both (R := fun C S x y v v' => fullOne W C S (h.src s).stat_tol n x = .ok v ∧
    fullOne W C S (h.src s).stat_tol n y = .ok v') hmer hn hs hr hr' hw (fun C S x y v v' _ hv hv' => ⟨hv, hv'⟩) hrun hrun'
  refine ⟨r', k', hrun', fun i x hx => ?_⟩
  obtain ⟨y, hy, hxy, v, u, hv, hu, hdead, hlive'⟩ := hall i x hx
  refine ⟨y, hy, hxy, v, u, hv, hu, hdead, fun h1 h2 => ?_⟩
  obtain ⟨m, l, C, S, hm, hl, hC, hC', hS, hv1, hv2⟩ := hlive' h1 h2
  obtain ⟨w, hw1, hR⟩ := hstep C S x y _ hC hS h1 hxy hv1
  rw [hv2] at hw1
  cases hw1
  exact ⟨m, l, C, S, hm, hl, hC, hC', hS, hR⟩

/-- The same where the context does not matter. -/
theorem Changed.full (hP : Changed ρ h s k t) (hmer : ∀ x y, ρ x y → y.merged = x.merged) (hn : n ≠ 0)
    (hs : CompleteSchedule W (h.src s)) (hr : Rect (h.src s).cols) (hr' : Rect (k.src t).cols)
    (hw : FitsMask (h.src s).cols ws) {R : Ctx → Settings → One → One → Option ℝ × ℕ → Option ℝ × ℕ → Prop}
    (hstep : ∀ C S x y v, ρ x y → fullOne W C S (h.src s).stat_tol n x = .ok v →
      ∃ v', fullOne W C S (h.src s).stat_tol n y = .ok v' ∧ R C S x y v v')
    {a : SnrArgs} {r : ℕ} {h' : Heap} (hrun : Source_get_snr W s a n ws h = (.ok r, h')) :
    ∃ r' k', Source_get_snr W t a n ws k = (.ok r', k') ∧
      ∀ i x, (Spec.rows (h.src s).cols)[i]? = some x → ∃ y, (Spec.rows (k.src t).cols)[i]? = some y ∧ ρ x y ∧
        RelatedAt W ws R h' s (h'.snrs r) k' t (k'.snrs r') i x y :=
  hP.full_ctx hmer hn hs hr hr' hw hrun fun C S x y v _ _ _ => hstep C S x y v

/-- Assigning to the attributes of sources. -/
theorem changed_of_cols {b : Bool} (hi : Inv W b h) {c : Cols} (hc : List.Forall₂ ρ (rows (h.src s).cols) (rows c)) :
    Changed ρ h s (h.setSrc s { h.src s with cols := c }) s := by
  have hlen : c.n_sources = (h.src s).cols.n_sources := by
    have := hc.length_eq
    rwa [rows_length, rows_length, eq_comm] at this
  have hk : (h.setSrc s { h.src s with cols := c }).src s = { h.src s with cols := c } := by simp
  have hown := (hi.sc s).1
  refine ⟨⟨?_, hown, ?_⟩, by rw [hk]; exact hc, ?_, ?_⟩
  · constructor <;> first | (rw [hk]) | skip
    unfold paramValues
    rw [hk]
    rfl
  · intro p hp
    rw [hk] at hp
    exact hown p hp
  · unfold snrNow
    rw [hk]
    simp only
    rw [hlen]
    rfl
  · unfold harmNow
    rw [hk]
    simp only
    rw [hlen]
    rfl

end Legwork.source
