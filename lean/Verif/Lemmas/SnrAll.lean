import Verif.Lemmas.SnrOf

/-!
# `Source.get_snr`, source by source
-/

namespace Legwork.source

open Legwork.Spec Legwork.snr
open PyM hiding bind

section

variable {α β : Type}

/-- Writing selected entries of one array into another. -/
theorem assign_select {m : List Bool} {xs ys : List α} (hx : m.length = xs.length) (hy : m.length = ys.length) (i : ℕ) :
    (np.assign m xs (np.select m ys))[i]? = if m[i]? = some true then ys[i]? else xs[i]? := by
  induction m generalizing xs ys i with
  | nil =>
    rw [List.length_nil] at hx
    rw [List.length_eq_zero_iff.1 hx.symm]
    simp [np.assign]
  | cons b m ih =>
    rcases xs with _ | ⟨x, xs⟩
    · cases hx
    rcases ys with _ | ⟨y, ys⟩
    · cases hy
    have hx' : m.length = xs.length := by simpa using hx
    have hy' : m.length = ys.length := by simpa using hy
    rcases b with _ | _
    · have : np.assign (false :: m) (x :: xs) (np.select (false :: m) (y :: ys)) = x :: np.assign m xs (np.select m ys) := by
        simp [np.assign, np.select]
      rw [this]
      rcases i with _ | i
      · simp
      · simpa using ih hx' hy' i
    · have : np.assign (true :: m) (x :: xs) (np.select (true :: m) (y :: ys)) = y :: np.assign m xs (np.select m ys) := by
        simp [np.assign, np.select]
      rw [this]
      rcases i with _ | i
      · simp
      · simpa using ih hx' hy' i

theorem mapM_exists {f : α → Except PyErr β} {l : List α} (h : ∀ a ∈ l, ∃ b, f a = .ok b) : ∃ bs, l.mapM f = .ok bs := by
  induction l with
  | nil => exact ⟨[], mapM_nil_ok.2 rfl⟩
  | cons a l ih =>
    obtain ⟨b, hb⟩ := h a (by simp)
    obtain ⟨bs, hbs⟩ := ih fun a ha => h a (by simp [ha])
    exact ⟨b :: bs, mapM_cons_ok.2 ⟨b, bs, hb, hbs, rfl⟩⟩

theorem mapM_at {f : α → Except PyErr β} {l : List α} {bs : List β} (h : l.mapM f = .ok bs) {i : ℕ} {a : α}
    (hi : l[i]? = some a) : ∃ b, bs[i]? = some b ∧ f a = .ok b := by
  obtain ⟨h1, h2⟩ := mapM_get?.1 h
  obtain ⟨hl, -⟩ := List.getElem?_eq_some_iff.1 hi
  have hl' : i < bs.length := by rw [h1]; exact hl
  exact ⟨bs[i], List.getElem?_eq_getElem hl', h2 i a _ hi (List.getElem?_eq_getElem hl')⟩

end

variable {c : Cols} {w : List Bool}

/-- Selecting among the selected sources. -/
theorem items_map {q : One × Bool → Bool} (hw : w.length = c.n_sources) :
    items c ((items c w).map q) = (items c w).map fun x => (x.1, q x) := by
  unfold items
  have hl : (rows c).length = w.length := by rw [rows_length, hw]
  generalize rows c = l at hl
  clear hw
  induction l generalizing w with
  | nil => simp
  | cons r l ih =>
    rcases w with _ | ⟨b, w⟩
    · cases hl
    · simp [ih (by simpa using hl)]

theorem reduce3_ok (h : Rect c) (hw : w.length = c.n_sources) (g : One → Bool) :
    reduce3 ((rows c).map g) c.merged w = .ok ((items c w).map fun x => g x.1 && live x) := by
  unfold reduce3 logical_not
  rw [h.col_merged, List.map_map, logical_and_map, ok_bind, ← items_fst hw]
  have := logical_and_map (items c w) (fun x => g x.1 && (not ∘ One.merged) x.1) Prod.snd
  rw [items_snd hw] at this
  rw [this]
  refine congrArg Except.ok (List.map_congr_left fun x _ => ?_)
  simp only [live, Function.comp, Bool.and_assoc, Bool.and_comm x.2]

theorem maskOf_built {W : World} {x : Src} {par : ℕ → Params} {a b : Tri} {t : PVal} {m : List Bool}
    (h : maskOf W x par a b t = .ok m) : ∃ e q p, x.ecc_tol = some e ∧ x.harmonics_required = some q ∧ x.sc_params = some p := by
  unfold maskOf at h
  rcases he : x.ecc_tol with _ | e
  · rw [he] at h; cases h
  rcases hq : x.harmonics_required with _ | q
  · rw [he, hq] at h; cases h
  rcases hp : x.sc_params with _ | p
  · rw [he, hq, hp] at h; cases h
  exact ⟨e, q, p, rfl, rfl, rfl⟩

open Classical in
theorem maskOf_stationary {W : World} {x : Src} {par : ℕ → Params} {p : ℕ} (h : Rect x.cols) (htol : x.ecc_tol.isSome)
    (hh : x.harmonics_required.isSome) (hp : x.sc_params = some p) {b : Bool} {t : PVal} {m : List Bool} :
    maskOf W x par .none (.bool b) t = .ok m ↔ ∃ T, MaskTime (par p).dict t T ∧
      m = (rows x.cols).map fun r => stat1 W.K T x.stat_tol r == b := by
  obtain ⟨tol, htol⟩ := Option.isSome_iff_exists.1 htol
  rw [maskOf_iff W h htol hh hp]
  simp only [ne_eq, reduceCtorEq, not_false_eq_true, true_imp_iff, true_and]
  refine exists_congr fun T => and_congr_right fun _ => ?_
  have : (fun r => decide (CircularIs tol r .none ∧ StationaryIs W.K T x.stat_tol r (.bool b))) =
      fun r => stat1 W.K T x.stat_tol r == b := by
    funext r
    rcases b with _ | _
    · by_cases hr : r.StationaryOver W.K T x.stat_tol <;> simp [CircularIs, StationaryIs, stat1, hr]
    · by_cases hr : r.StationaryOver W.K T x.stat_tol <;> simp [CircularIs, StationaryIs, stat1, hr]
  rw [← this]

theorem maskTime_unique {d : Dict} {t : PVal} {T T' : ℝ} (h : MaskTime d t T) (h' : MaskTime d t T') : T = T' := by
  have h1 := mask_t_obs_iff.2 h
  have h2 := mask_t_obs_iff.2 h'
  rw [h1] at h2
  cases h2
  rfl

/-! ### Matching parameters -/

theorem match_params_scOnly {W : World} {s : ℕ} {a f : SnrArgs} {r : Bool} {h h₁ : Heap}
    (hm : match_params W s a r h = (.ok f, h₁)) : ScOnly h h₁ := by
  obtain ⟨p, f', -, -, -, hu⟩ := match_params_ok hm
  have := params_update_scOnly W p f.toDict h
  rwa [hu] at this

theorem ScOnly.harmNow {h h' : Heap} (hh : ScOnly h h') (s : ℕ) : harmNow h' s = harmNow h s := by
  obtain ⟨sc, p, he⟩ := hh.src s
  unfold source.harmNow
  rw [he, hh.harms]

theorem ScOnly.snrNow {h h' : Heap} (hh : ScOnly h h') (s : ℕ) : snrNow h' s = snrNow h s := by
  obtain ⟨sc, p, he⟩ := hh.src s
  unfold source.snrNow
  rw [he, hh.snrs]

theorem ScOnly.hasSettings {h h' : Heap} (hh : ScOnly h h') {s : ℕ} {S : Settings} :
    HasSettings (h'.src s) S ↔ HasSettings (h.src s) S := by
  obtain ⟨sc, p, he⟩ := hh.src s
  rw [he]
  rfl

theorem SnrOnly.hasSettings {h h' : Heap} (hh : SnrOnly h h') {s : ℕ} {S : Settings} :
    HasSettings (h'.src s) S ↔ HasSettings (h.src s) S := by
  obtain ⟨r, r', he⟩ := hh.src s
  rw [he]
  rfl

theorem SnrOnly.ctxOf {W : World} {h h' : Heap} (hh : SnrOnly h h') (s : ℕ) (a : SnrArgs) :
    ctxOf W (h'.src s) a = ctxOf W (h.src s) a := by
  obtain ⟨r, r', he⟩ := hh.src s
  rw [he]
  rfl

theorem HasSettings.unique {x : Src} {S S' : Settings} (h : HasSettings x S) (h' : HasSettings x S') : S = S' := by
  obtain ⟨h1, h2, h3⟩ := h
  obtain ⟨h1', h2', h3'⟩ := h'
  rw [h1] at h1'
  rw [h2] at h2'
  rw [h3] at h3'
  rcases S with ⟨a, b, n⟩
  rcases S' with ⟨a', b', n'⟩
  simp only [Option.some.injEq] at h1' h2' h3'
  rw [h1', h2', h3']

/-- The time of the SNR functions is the time of the masks. -/
theorem ctx_time {W : World} {x : Src} {d : Dict} {f f' : SnrArgs} {T : ℝ} {C : Ctx} (hag : Agrees d f)
    (hT : MaskTime d f.t_obs T) (hf : f' = resolve_auto f) (hC : ctxOf W x f' = .ok C) : C.t_obs = T := by
  obtain ⟨h1, h2, -⟩ := agrees_iff.1 hag
  unfold ctxOf at hC
  obtain ⟨kw, -, hC⟩ := except_bind_ok.1 hC
  obtain ⟨t, ht, hC⟩ := except_bind_ok.1 hC
  cases hC
  change t = T
  have hmeant : ∀ v, (v = PVal.time T ∨ v = .str "auto" ∧ ∃ i, d.get? "instrument" = some i ∧
      (i = .str "LISA" ∧ T = 4 * psd.yr ∨ i ≠ .str "LISA" ∧ T = 5 * psd.yr)) → f.t_obs = v → t = T := by
    intro v hv hfv
    rcases hv with rfl | ⟨rfl, i, hi, hT⟩
    · rw [hf, resolve_auto_of_ne (by rw [hfv]; simp), hfv] at ht
      cases ht
      rfl
    · rw [hf] at ht
      unfold resolve_auto at ht
      rw [if_pos hfv] at ht
      cases ht
      rw [h2] at hi
      cases hi
      exact auto_t_obs_iff.2 hT
  rcases hT with ⟨-, hT⟩ | ⟨hn, v, hv, hT⟩
  · exact hmeant _ hT rfl
  · rw [h1] at hv
    cases hv
    exact hmeant _ hT rfl

/-! ### One half -/

section

variable {W : World} {s : ℕ} {f : SnrArgs}

/-- What is known of a run over the sources selected by `m`. -/
def RunOk (W : World) (s : ℕ) (f : SnrArgs) (c : Cols) (m : List Bool) (one : Ctx → Settings → One → Except PyErr (Option ℝ × ℕ))
    (h h'' : Heap) (v : List (Option ℝ)) : Prop :=
  ∃ f' hm S C ps, match_params W s f true h = (.ok f', hm) ∧ HasSettings (hm.src s) S ∧ ctxOf W (hm.src s) f' = .ok C ∧
    (items c m).mapM (orZero (one C S)) = .ok ps ∧
    record_snr s ((items c m).map live) (unzipPairs ps) hm = (.ok (), h'') ∧ v = np.select m (ps.map Prod.fst)

/-- One half of `get_snr`: what it computes and records. -/
def HalfOk (W : World) (s : ℕ) (f : SnrArgs) (its : List (One × Bool)) (q : One × Bool → Bool)
    (one : Ctx → Settings → One → Except PyErr (Option ℝ × ℕ)) (x₀ : List (Option ℝ)) (h h'' : Heap) (x₁ : List (Option ℝ)) :
    Prop :=
  (its.any q = false ∧ x₁ = x₀ ∧ h'' = h) ∨
  (its.any q = true ∧ ∃ f' hm S C ps, match_params W s f true h = (.ok f', hm) ∧ HasSettings (hm.src s) S ∧
    ctxOf W (hm.src s) f' = .ok C ∧ ps.length = its.length ∧
    (∀ (i : ℕ) x, its[i]? = some x → q x = true → ∃ v, ps[i]? = some v ∧ one C S x.1 = .ok v) ∧
    record_snr s (its.map q) (unzipPairs ps) hm = (.ok (), h'') ∧
    x₁ = np.assign (its.map q) x₀ (np.select (its.map q) (ps.map Prod.fst)))

theorem live_map {q : One × Bool → Bool} (hq : ∀ x, q x = true → live x = true) :
    ((items c w).map fun x => (x.1, q x)).map live = (items c w).map q := by
  rw [List.map_map]
  refine List.map_congr_left fun x _ => ?_
  simp only [Function.comp, live]
  rcases hx : q x with _ | _
  · rfl
  · have := hq x hx
    unfold live at this
    simpa using (Bool.and_eq_true_iff.1 this).2

theorem half_ok {run : M (List (Option ℝ))} {one : Ctx → Settings → One → Except PyErr (Option ℝ × ℕ)}
    {q : One × Bool → Bool} (hw : w.length = c.n_sources) (hq : ∀ x, q x = true → live x = true) {h h'' : Heap}
    {x₀ x₁ : List (Option ℝ)}
    (hrun : ∀ v, run h = (.ok v, h'') → RunOk W s f c ((items c w).map q) one h h'' v)
    (hx : snr_part ((items c w).map q) run x₀ h = (.ok x₁, h'')) : HalfOk W s f (items c w) q one x₀ h h'' x₁ := by
  rcases snr_part_cases ((items c w).map q) run x₀ h with ⟨h1, h2⟩ | ⟨h1, -, h3⟩
  · rw [hx] at h2
    cases h2
    rw [any_map_id] at h1
    exact Or.inl ⟨h1, rfl, rfl⟩
  · obtain ⟨v, hv, rfl⟩ := h3 x₁ h'' hx
    obtain ⟨f', hm, S, C, ps, hmp, hS, hC, hps, hrec, rfl⟩ := hrun v hv
    rw [items_map hw, live_map hq] at hrec
    rw [items_map hw] at hps
    rw [any_map_id] at h1
    refine Or.inr ⟨h1, f', hm, S, C, ps, hmp, hS, hC, ?_, ?_, hrec, rfl⟩
    · rw [mapM_length hps, List.length_map]
    · intro i x hi hqx
      obtain ⟨b, hb, hb'⟩ := mapM_at hps (i := i) (a := (x.1, q x)) (by rw [List.getElem?_map, hi]; rfl)
      refine ⟨b, hb, ?_⟩
      unfold orZero at hb'
      have hl : live (x.1, q x) = true := by
        have := hq x hqx
        unfold live at this ⊢
        simp only [hqx, Bool.true_and]
        exact (Bool.and_eq_true_iff.1 this).2
      rw [if_pos hl] at hb'
      exact hb'

end

/-! ### Both halves -/

/-- The SNR of one source. -/
noncomputable def fullOne (W : World) (C : Ctx) (S : Settings) (stat_tol : ℝ) (n : ℕ) (r : One) :
    Except PyErr (Option ℝ × ℕ) :=
  if stat1 W.K C.t_obs stat_tol r then statOne C S r else evolOne W C S n r

/-- What a successful `Source.get_snr` found and did. -/
structure SnrRun (W : World) (s : ℕ) (a : SnrArgs) (n : ℕ) (its : List (One × Bool)) (h : Heap) (f : SnrArgs) (h₁ : Heap)
    (T : ℝ) (S : Settings) : Prop where
  matched : match_params W s a false h = (.ok f, h₁)
  settings : HasSettings (h₁.src s) S
  time : ∃ p, (h₁.src s).sc_params = some p ∧ MaskTime (h₁.par p).dict f.t_obs T

/-- What a successful calculation found. -/
structure SnrCalc (W : World) (s : ℕ) (n : ℕ) (stat_tol : ℝ) (its : List (One × Bool)) (f : SnrArgs) (h₁ : Heap) (T : ℝ) (S : Settings)
    (f' : SnrArgs) (h₂ : Heap) (C : Ctx) (ps : List (Option ℝ × ℕ)) : Prop where
  matched : match_params W s f true h₁ = (.ok f', h₂)
  ctx : ctxOf W (h₂.src s) f' = .ok C
  time : C.t_obs = T
  values : its.mapM (orZero (fullOne W C S stat_tol n)) = .ok ps
  harm_length : its.length = (harmNow h₁ s).length
  snr_length : its.length = (snrNow h₁ s).length

theorem list_eq_of_get {α : Type} {n : ℕ} {xs ys : List α} (hx : xs.length = n) (hy : ys.length = n)
    (h : ∀ i < n, xs[i]? = ys[i]?) : xs = ys := by
  apply List.ext_getElem?
  intro i
  by_cases hi : i < n
  · exact h i hi
  · rw [List.getElem?_eq_none (by omega), List.getElem?_eq_none (by omega)]

theorem harmNow_store {s : ℕ} {x : List (Option ℝ)} {h h' : Heap} {r : ℕ} (hst : store_snr s x h = (.ok r, h')) :
    harmNow h' s = harmNow h s ∧ (h'.src s).max_snr_harmonic = (h.src s).max_snr_harmonic ∧ (h'.src s).snr = some r ∧
      h'.snrs r = x := by
  rw [store_snr_run] at hst
  cases hst
  unfold harmNow
  simp [Heap.setSrc, Heap.bump, Heap.setSnr]

theorem assign_none {α β : Type} {its : List α} {q : α → Bool} (hq : its.any q = false) (xs ys : List β) :
    np.assign (its.map q) xs ys = xs := by
  induction its generalizing xs ys with
  | nil => rcases xs with _ | ⟨_, _⟩ <;> rfl
  | cons a l ih =>
    rw [List.any_cons, Bool.or_eq_false_iff] at hq
    rcases xs with _ | ⟨x, xs⟩
    · rw [List.map_cons]
      rcases q a with _ | _ <;> rfl
    · rw [List.map_cons, hq.1]
      simp [np.assign, ih hq.2]

/-- Putting both halves together. -/
theorem combine {its : List (One × Bool)} {pS pE : One × Bool → Bool} {g : One → Except PyErr (Option ℝ × ℕ)}
    {psA psB : List (Option ℝ × ℕ)} (hlA : psA.length = its.length) (hlB : psB.length = its.length)
    (hA : ∀ (i : ℕ) x, its[i]? = some x → pS x = true → ∃ v, psA[i]? = some v ∧ g x.1 = .ok v)
    (hB : ∀ (i : ℕ) x, its[i]? = some x → pE x = true → ∃ v, psB[i]? = some v ∧ g x.1 = .ok v)
    (hlive : ∀ x, live x = true ↔ pS x = true ∨ pE x = true) :
    ∃ ps, its.mapM (orZero g) = .ok ps ∧
      np.assign (its.map pE) (np.assign (its.map pS) (its.map fun _ => some 0) (np.select (its.map pS) (psA.map Prod.fst)))
        (np.select (its.map pE) (psB.map Prod.fst)) = ps.map Prod.fst ∧
      ∀ {β : Type} (π : Option ℝ × ℕ → β) (old : List β), old.length = its.length →
        np.assign (its.map pE) (np.assign (its.map pS) old (np.select (its.map pS) (psA.map π)))
          (np.select (its.map pE) (psB.map π)) =
        np.assign (its.map live) old (np.select (its.map live) (ps.map π)) := by
  obtain ⟨ps, hps⟩ : ∃ ps, its.mapM (orZero g) = .ok ps := by
    refine mapM_exists fun x hx => ?_
    unfold orZero
    split_ifs with hl
    · obtain ⟨i, hi, rfl⟩ := List.getElem_of_mem hx
      rcases (hlive _).1 hl with h | h
      · obtain ⟨v, -, hv⟩ := hA i _ (List.getElem?_eq_getElem hi) h
        exact ⟨v, hv⟩
      · obtain ⟨v, -, hv⟩ := hB i _ (List.getElem?_eq_getElem hi) h
        exact ⟨v, hv⟩
    · exact ⟨_, rfl⟩
  have hlp : ps.length = its.length := mapM_length hps
  refine ⟨ps, hps, ?_, ?_⟩
  · refine list_eq_of_get (n := its.length) (by simp [np.assign_length]) (by simp [hlp]) fun i hi => ?_
    have hix := List.getElem?_eq_getElem hi
    obtain ⟨v, hv, hv'⟩ := mapM_at hps hix
    rw [assign_select (by simp [np.assign_length]) (by simp [hlB]), assign_select (by simp) (by simp [hlA])]
    simp only [List.getElem?_map, hix, Option.map_some, Option.some.injEq, hv]
    unfold orZero at hv'
    split_ifs with h1 h2
    · obtain ⟨u, hu, hu'⟩ := hB i _ hix h1
      rw [if_pos ((hlive _).2 (Or.inr h1)), hu'] at hv'
      cases hv'
      rw [hu]
      rfl
    · obtain ⟨u, hu, hu'⟩ := hA i _ hix h2
      rw [if_pos ((hlive _).2 (Or.inl h2)), hu'] at hv'
      cases hv'
      rw [hu]
      rfl
    · rw [if_neg (fun h => by rcases (hlive _).1 h with h | h <;> contradiction)] at hv'
      cases hv'
      rfl
  · intro β π old hold
    refine list_eq_of_get (n := its.length) (by simp [np.assign_length, hold]) (by simp [np.assign_length, hold]) fun i hi => ?_
    have hix := List.getElem?_eq_getElem hi
    obtain ⟨v, hv, hv'⟩ := mapM_at hps hix
    rw [assign_select (by simp [np.assign_length, hold]) (by simp [hlB]), assign_select (by simp [hold]) (by simp [hlA]),
      assign_select (by simp [hold]) (by simp [hlp])]
    simp only [List.getElem?_map, hix, Option.map_some, Option.some.injEq, hv]
    unfold orZero at hv'
    by_cases h1 : pE its[i] = true
    · obtain ⟨u, hu, hu'⟩ := hB i _ hix h1
      rw [if_pos ((hlive _).2 (Or.inr h1)), hu'] at hv'
      cases hv'
      rw [if_pos h1, if_pos ((hlive _).2 (Or.inr h1)), hu]
      rfl
    · by_cases h2 : pS its[i] = true
      · obtain ⟨u, hu, hu'⟩ := hA i _ hix h2
        rw [if_pos ((hlive _).2 (Or.inl h2)), hu'] at hv'
        cases hv'
        rw [if_neg h1, if_pos h2, if_pos ((hlive _).2 (Or.inl h2)), hu]
        rfl
      · rw [if_neg h1, if_neg h2, if_neg (fun h => by rcases (hlive _).1 h with h | h <;> contradiction)]

theorem any_live {its : List (One × Bool)} {pS pE : One × Bool → Bool}
    (hlive : ∀ x, live x = true ↔ pS x = true ∨ pE x = true) : its.any live = (its.any pS || its.any pE) := by
  rw [Bool.eq_iff_iff, Bool.or_eq_true, List.any_eq_true, List.any_eq_true, List.any_eq_true]
  constructor
  · rintro ⟨x, hx, hl⟩
    rcases (hlive x).1 hl with h | h
    · exact Or.inl ⟨x, hx, h⟩
    · exact Or.inr ⟨x, hx, h⟩
  · rintro (⟨x, hx, h⟩ | ⟨x, hx, h⟩)
    · exact ⟨x, hx, (hlive x).2 (Or.inl h)⟩
    · exact ⟨x, hx, (hlive x).2 (Or.inr h)⟩

theorem record_ok {s : ℕ} {insp : List Bool} {res : SnrState} {h h' : Heap} (hr : record_snr s insp res h = (.ok (), h')) :
    (h'.src s).max_snr_harmonic.isSome ∧
      harmNow h' s = np.assign insp (harmNow h s) (np.select insp res.2) ∧
      snrNow h' s = np.assign insp (snrNow h s) (np.select insp res.1) ∧
      insp.length = (harmNow h s).length ∧ insp.length = (snrNow h s).length ∧ SnrOnly h h' := by
  rcases record_snr_cases (s := s) (insp := insp) (res := res) (h := h) with
    ⟨h₁, hr', h1, h2, h3, h4, h5, h6, h7, h8⟩ | ⟨⟨e, h₁, hr'⟩, -⟩
  · have := record_snr_snrOnly h s insp res h (SnrOnly.refl h)
    rw [hr] at hr' this
    cases hr'
    exact ⟨h1, h3, h4, h6, h8, this⟩
  · rw [hr] at hr'
    cases hr'

/-- Recording results keeps the array. -/
theorem record_snr_address {s : ℕ} {insp : List Bool} {res : SnrState} {h h' : Heap} {r : ℕ}
    (hr : record_snr s insp res h = (.ok (), h')) (hs : (h.src s).snr = some r) : (h'.src s).snr = some r := by
  obtain ⟨q, h₁, he, -, -, hs₁, -, -⟩ := ensure_harm_run s h
  unfold record_snr at hr
  rw [bind_ok he, bind_run] at hr
  simp only [get_run] at hr
  obtain ⟨zs, h₂, h2, hr2⟩ := bind_eq_ok hr
  obtain ⟨-, rfl⟩ := lift_ok_iff.1 h2
  rw [bind_ok (modify_run _ _)] at hr2
  have hs₂ : ((h₂.setHarm q zs).src s).snr = some r := hs₁.trans hs
  have he' : ensure_snr s (h₂.setHarm q zs) = (.ok r, h₂.setHarm q zs) := by
    unfold ensure_snr
    rw [bind_run]
    simp only [getSrc]
    rw [hs₂]
    rfl
  rw [bind_ok he', bind_run] at hr2
  simp only [get_run] at hr2
  obtain ⟨ys, h₃, h3, hr3⟩ := bind_eq_ok hr2
  obtain ⟨-, rfl⟩ := lift_ok_iff.1 h3
  cases hr3
  exact hs₂

/-- A new array is no old one. -/
theorem store_snr_old {s : ℕ} {x : List (Option ℝ)} {h h' : Heap} {r q : ℕ} (hst : store_snr s x h = (.ok r, h'))
    (hq : q < h.next) : h'.snrs q = h.snrs q := by
  rw [store_snr_run] at hst
  cases hst
  simp [Heap.setSrc, Heap.bump, Heap.setSnr, Nat.ne_of_lt hq]

theorem snrNow_of {s r : ℕ} {h : Heap} (hs : (h.src s).snr = some r) : snrNow h s = h.snrs r := by
  unfold snrNow
  rw [hs]

theorem ScOnly.snr {h h' : Heap} (hh : ScOnly h h') (s : ℕ) : (h'.src s).snr = (h.src s).snr := by
  obtain ⟨sc, p, he⟩ := hh.src s
  rw [he]

theorem Source_get_snr_values {W : World} {s : ℕ} {a : SnrArgs} {n : ℕ} {ws : Option (List Bool)} {h h' : Heap} {r : ℕ}
    (hn : n ≠ 0) (hs : CompleteSchedule W (h.src s)) (hr : Rect (h.src s).cols) (hw : FitsMask (h.src s).cols ws)
    (hrun : Source_get_snr W s a n ws h = (.ok r, h')) (its : List (One × Bool))
    (hits : its = items (h.src s).cols (which (h.src s).cols.n_sources ws)) :
    ∃ f h₁ T S, SnrRun W s a n its h f h₁ T S ∧ (h'.src s).snr = some r ∧
      ((its.any live = false ∧ SnrOnly h₁ h' ∧ (h'.snrs r = its.map fun _ => some 0) ∧ harmNow h' s = harmNow h s ∧
        ∀ r₀ < h.next, h'.snrs r₀ = h.snrs r₀) ∨
      (its.any live = true ∧ ∃ f' h₂ C ps, SnrCalc W s n (h.src s).stat_tol its f h₁ T S f' h₂ C ps ∧
        SnrOnly h₂ h' ∧ h'.snrs r = ps.map Prod.fst ∧ (h'.src s).max_snr_harmonic.isSome ∧
        harmNow h' s = np.assign (its.map live) (harmNow h s) (np.select (its.map live) (ps.map Prod.snd)) ∧
        ∀ r₀, (h.src s).snr = some r₀ → r₀ < h.next →
          h'.snrs r₀ = np.assign (its.map live) (h.snrs r₀) (np.select (its.map live) (ps.map Prod.fst)))) := by
  obtain ⟨f, h₁, stat, sm, evo, em, x, h₂, y, h₃, hm, hstat, hsm, hevo, hem, hx, hy, hst⟩ := Source_get_snr_ok hrun
  have hsc1 := match_params_scOnly hm
  have hc1 : (h₁.src s).cols = (h.src s).cols := match_params_cols hm
  have hnp1 := match_params_n_proc hm
  have hstol : (h₁.src s).stat_tol = (h.src s).stat_tol := by
    obtain ⟨sc, p, he⟩ := hsc1.src s
    rw [he]
  obtain ⟨p, f₀, -, hp, hf₀, hff, hag⟩ := match_params_agrees hm
  simp only [Bool.false_eq_true, if_false] at hff
  subst hff
  have hwl := which_length hw
  set c := (h.src s).cols with hc
  set w := which c.n_sources ws with hwdef
  -- the masks
  rw [get_source_mask_run] at hstat hevo
  simp only at hstat hevo
  obtain ⟨tol, q, p', htol, hq, hp'⟩ := maskOf_built hstat
  rw [hp] at hp'
  cases hp'
  have hr1 : Rect (h₁.src s).cols := by rw [hc1]; exact hr
  obtain ⟨T, hT, rfl⟩ := (maskOf_stationary hr1 (by rw [htol]; rfl) (by rw [hq]; rfl) hp).1 hstat
  obtain ⟨T', hT', rfl⟩ := (maskOf_stationary hr1 (by rw [htol]; rfl) (by rw [hq]; rfl) hp).1 hevo
  cases maskTime_unique hT hT'
  rw [hc1, reduce3_ok hr hwl] at hsm hem
  cases hsm
  cases hem
  rw [hstol] at hx hy
  set pS : One × Bool → Bool := fun x => (stat1 W.K T (h.src s).stat_tol x.1 == true) && live x with hpSdef
  set pE : One × Bool → Bool := fun x => (stat1 W.K T (h.src s).stat_tol x.1 == false) && live x with hpEdef
  have hpS : ∀ x, pS x = true → live x = true := fun x hx => (Bool.and_eq_true_iff.1 hx).2
  have hpE : ∀ x, pE x = true → live x = true := fun x hx => (Bool.and_eq_true_iff.1 hx).2
  have hlen : (items c w).length = c.n_sources := items_length hwl
  have hA : HalfOk W s f (items c w) pS (fun C S => statOne C S) (List.replicate (h₁.src s).cols.n_sources (some 0)) h₁ h₂ x := by
    refine half_ok hwl hpS (fun v hv => ?_) hx
    have hfit : FitsMask (h₁.src s).cols (some ((items c w).map pS)) := by
      intro m hm'
      cases hm'
      rw [List.length_map, hlen, hc1]
    have := (get_snr_stationary_iff hr1 hfit).1 hv
    rw [hc1] at this
    exact this
  have hc2 : (h₂.src s).cols = c := by
    rcases hA with ⟨-, -, rfl⟩ | ⟨-, f', hm', S, C, ps, hmp, -, -, -, -, hrec, -⟩
    · exact hc1
    · have h1 := match_params_cols hmp
      have h2 := record_snr_snrOnly hm' s ((items c w).map pS) (unzipPairs ps) hm' (SnrOnly.refl _)
      rw [hrec] at h2
      rw [h2.snrCall.cols, h1, hc1]
  have hnp2 : (h₂.src s).n_proc = (h.src s).n_proc := by
    rcases hA with ⟨-, -, rfl⟩ | ⟨-, f', hm', S, C, ps, hmp, -, -, -, -, hrec, -⟩
    · exact hnp1
    · have h1 := match_params_n_proc hmp
      have h2 := record_snr_snrOnly hm' s ((items c w).map pS) (unzipPairs ps) hm' (SnrOnly.refl _)
      rw [hrec] at h2
      obtain ⟨r, r', he⟩ := h2.src s
      simp only at he
      rw [he]
      exact h1.trans hnp1
  have hr2 : Rect (h₂.src s).cols := by rw [hc2]; exact hr
  have hB : HalfOk W s f (items c w) pE (fun C S => evolOne W C S n) x h₂ h₃ y := by
    refine half_ok hwl hpE (fun v hv => ?_) hy
    have hfit : FitsMask (h₂.src s).cols (some ((items c w).map pE)) := by
      intro m hm'
      cases hm'
      rw [List.length_map, hlen, hc2]
    have hs2 : CompleteSchedule W (h₂.src s) := by
      unfold CompleteSchedule
      rw [hnp2]
      exact hs
    have := (get_snr_evolving_iff hn hs2 hr2 hfit).1 hv
    rw [hc2] at this
    exact this
  obtain ⟨hst1, hst2, hst3, hst4⟩ := harmNow_store hst
  have hst5 : SnrOnly h₃ h' := by
    have := store_snr_snrOnly h₃ s y h₃ (SnrOnly.refl h₃)
    rwa [hst] at this
  have hS₀ : HasSettings (h₁.src s) ⟨tol, q, (h₁.src s).n_proc⟩ := ⟨htol, hq, rfl⟩
  have hrun' : SnrRun W s a n its h f h₁ T ⟨tol, q, (h₁.src s).n_proc⟩ := ⟨hm, hS₀, p, hp, hT⟩
  refine ⟨f, h₁, T, _, hrun', hst3, ?_⟩
  subst hits
  set its := items c w with hits
  have hz : List.replicate (h₁.src s).cols.n_sources (some (0 : ℝ)) = its.map fun _ => some 0 := by
    rw [hc1, ← hlen, replicate_filter]
  rw [hz] at hA
  have hlive : ∀ x, live x = true ↔ pS x = true ∨ pE x = true := by
    intro x
    simp only [hpSdef, hpEdef]
    rcases stat1 W.K T (h.src s).stat_tol x.1 with _ | _ <;> simp
  rw [any_live hlive]
  have hfS : ∀ (C : Ctx) (x : One × Bool), C.t_obs = T → pS x = true →
      fullOne W C ⟨tol, q, (h₁.src s).n_proc⟩ (h.src s).stat_tol n x.1 = statOne C ⟨tol, q, (h₁.src s).n_proc⟩ x.1 := by
    intro C x hC hx
    unfold fullOne
    rw [hC]
    have := (Bool.and_eq_true_iff.1 hx).1
    rw [if_pos (by simpa using this)]
  have hfE : ∀ (C : Ctx) (x : One × Bool), C.t_obs = T → pE x = true →
      fullOne W C ⟨tol, q, (h₁.src s).n_proc⟩ (h.src s).stat_tol n x.1 = evolOne W C ⟨tol, q, (h₁.src s).n_proc⟩ n x.1 := by
    intro C x hC hx
    unfold fullOne
    rw [hC]
    have := (Bool.and_eq_true_iff.1 hx).1
    rw [if_neg (by simpa using this)]
  have hctx : ∀ {f' h₂ C}, match_params W s f true h₁ = (.ok f', h₂) → ctxOf W (h₂.src s) f' = .ok C → C.t_obs = T := by
    intro f' h₂ C hm' hC
    obtain ⟨p', f₁, hp', -, hf₁, hf', -⟩ := match_params_agrees hm'
    rw [hp] at hp'
    cases hp'
    rw [fill_args_within hag (Within.refl f)] at hf₁
    cases hf₁
    exact ctx_time hag hT hf' hC
  rcases hA with ⟨nA, rfl, rfl⟩ | ⟨yA, fA, hmA, SA, CA, psA, mA, sA, cA, lA, vA, rA, rfl⟩
  · rcases hB with ⟨nB, rfl, rfl⟩ | ⟨yB, fB, hmB, SB, CB, psB, mB, sB, cB, lB, vB, rB, rfl⟩
    · left
      rw [nA, nB]
      exact ⟨rfl, hst5, hst4, by rw [hst1, hsc1.harmNow], fun r₀ hr₀ => by
        rw [store_snr_old hst (lt_of_lt_of_le hr₀ hsc1.next), hsc1.snrs]⟩
    · right
      rw [nA, yB]
      have hSB := HasSettings.unique ((match_params_scOnly mB).hasSettings.1 sB) hS₀
      subst hSB
      have hCT := hctx mB cB
      obtain ⟨ps, hps, h1, h2⟩ := combine (its := its) (pS := pS) (pE := pE)
        (g := fullOne W CB ⟨tol, q, (h₂.src s).n_proc⟩ (h.src s).stat_tol n) (psA := its.map fun _ => (some 0, 2)) (psB := psB)
        (by simp) lB (fun i x hi hx => by
          rw [List.any_eq_false] at nA
          exact absurd hx (nA x (List.mem_of_getElem? hi)))
        (fun i x hi hx => by rw [hfE CB x hCT hx]; exact vB i x hi hx) hlive
      obtain ⟨r1, r2, r3, r4, r5, r6⟩ := record_ok rB
      have hsc := match_params_scOnly mB
      rw [List.length_map, hsc.harmNow] at r4
      rw [List.length_map, hsc.snrNow] at r5
      refine ⟨rfl, fB, hmB, CB, ps, ⟨mB, cB, hCT, hps, r4, r5⟩, r6.trans hst5, ?_, ?_, ?_, fun r₀ hr₀ hlt => ?_⟩
      · rw [hst4, ← h1, assign_none nA]
      · rw [hst2]; exact r1
      · rw [hst1, r2, ← h2 Prod.snd _ (by rw [r4, hsc1.harmNow]), assign_none nA, hsc.harmNow, hsc1.harmNow]
        rfl
      · have hr₁ : (hmB.src s).snr = some r₀ := by rw [hsc.snr, hsc1.snr, hr₀]
        have e : h.snrs r₀ = snrNow h₂ s := by rw [hsc1.snrNow, snrNow_of hr₀]
        rw [store_snr_old hst (lt_of_lt_of_le hlt (hsc1.next.trans (hsc.next.trans r6.next))),
          ← snrNow_of (record_snr_address rB hr₁), r3, e, ← h2 Prod.fst _ r5.symm, assign_none nA, hsc.snrNow]
        rfl
  · have hSA := HasSettings.unique ((match_params_scOnly mA).hasSettings.1 sA) hS₀
    subst hSA
    have hCT := hctx mA cA
    obtain ⟨r1, r2, r3, r4, r5, r6⟩ := record_ok rA
    have hsc := match_params_scOnly mA
    rw [List.length_map, hsc.harmNow] at r4
    rw [List.length_map, hsc.snrNow] at r5
    rcases hB with ⟨nB, rfl, rfl⟩ | ⟨yB, fB, hmB, SB, CB, psB, mB, sB, cB, lB, vB, rB, rfl⟩
    · right
      rw [yA, nB]
      obtain ⟨ps, hps, h1, h2⟩ := combine (its := its) (pS := pS) (pE := pE)
        (g := fullOne W CA ⟨tol, q, (h₁.src s).n_proc⟩ (h.src s).stat_tol n) (psA := psA) (psB := its.map fun _ => (some 0, 2))
        lA (by simp) (fun i x hi hx => by rw [hfS CA x hCT hx]; exact vA i x hi hx)
        (fun i x hi hx => by
          rw [List.any_eq_false] at nB
          exact absurd hx (nB x (List.mem_of_getElem? hi))) hlive
      refine ⟨rfl, fA, hmA, CA, ps, ⟨mA, cA, hCT, hps, r4, r5⟩, r6.trans hst5, ?_, ?_, ?_, fun r₀ hr₀ hlt => ?_⟩
      · rw [hst4, ← h1, assign_none nB]
      · rw [hst2]; exact r1
      · rw [hst1, r2, ← h2 Prod.snd _ (by rw [r4, hsc1.harmNow]), assign_none nB, hsc.harmNow, hsc1.harmNow]
        rfl
      · have hr₁ : (hmA.src s).snr = some r₀ := by rw [hsc.snr, hsc1.snr, hr₀]
        have e : h.snrs r₀ = snrNow h₁ s := by rw [hsc1.snrNow, snrNow_of hr₀]
        rw [store_snr_old hst (lt_of_lt_of_le hlt (hsc1.next.trans (hsc.next.trans r6.next))),
          ← snrNow_of (record_snr_address rA hr₁), r3, e, ← h2 Prod.fst _ r5.symm, assign_none nB, hsc.snrNow]
        rfl
    · right
      rw [yA, yB]
      have hset := (settle_auto (a := {}) (by simp) hp hag
        ⟨Or.inl rfl, Or.inl rfl, Or.inl rfl, Or.inl rfl, Or.inl rfl, Or.inl rfl⟩ mA).2 h₂ r6
      rw [hset] at mB
      cases mB
      rw [r6.ctxOf, cA] at cB
      cases cB
      have hSB := HasSettings.unique ((match_params_scOnly mA).hasSettings.1 (r6.hasSettings.1 sB)) hS₀
      subst hSB
      obtain ⟨ps, hps, h1, h2⟩ := combine (its := its) (pS := pS) (pE := pE)
        (g := fullOne W CA ⟨tol, q, (h₁.src s).n_proc⟩ (h.src s).stat_tol n) (psA := psA) (psB := psB)
        lA lB (fun i x hi hx => by rw [hfS CA x hCT hx]; exact vA i x hi hx)
        (fun i x hi hx => by rw [hfE CA x hCT hx]; exact vB i x hi hx) hlive
      obtain ⟨q1, q2, q3, q4, q5, q6⟩ := record_ok rB
      refine ⟨rfl, fA, hmA, CA, ps, ⟨mA, cA, hCT, hps, r4, r5⟩, (r6.trans q6).trans hst5, ?_, ?_, ?_,
        fun r₀ hr₀ hlt => ?_⟩
      · rw [hst4, ← h1]
      · rw [hst2]; exact q1
      · rw [hst1, q2, r2, ← h2 Prod.snd _ (by rw [r4, hsc1.harmNow]), hsc.harmNow, hsc1.harmNow]
        rfl
      · have hr₁ : (hmA.src s).snr = some r₀ := by rw [hsc.snr, hsc1.snr, hr₀]
        have e : h.snrs r₀ = snrNow h₁ s := by rw [hsc1.snrNow, snrNow_of hr₀]
        rw [store_snr_old hst (lt_of_lt_of_le hlt (hsc1.next.trans (hsc.next.trans (r6.next.trans q6.next)))),
          ← snrNow_of (record_snr_address rB (record_snr_address rA hr₁)), q3, r3, e, ← h2 Prod.fst _ r5.symm, hsc.snrNow]
        rfl

end Legwork.source
