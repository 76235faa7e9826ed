import Verif.Lemmas.SourceCalc

/-!
# Masks, strains and merger times of a collection, source by source
-/

namespace Legwork.source

open Legwork.Spec Legwork.utils Legwork.snr

variable {c : Cols} {w : List Bool}

/-! ### Stationarity -/

open Classical in
/-- Whether a source is stationary. -/
noncomputable def stat1 (K : Consts) (t_obs stat_tol : ℝ) (r : One) : Bool := decide (r.StationaryOver K t_obs stat_tol)

theorem stationaryOver_iff {K : Consts} {t_obs stat_tol : ℝ} {r : One} : r.StationaryOver K t_obs stat_tol ↔
    evol.change_le (evol.evolve_f_orb_circ K r.f_orb r.m_c t_obs r.ecc 1e9) r.f_orb stat_tol := by
  constructor
  · rintro ⟨S, h, hS⟩
    cases h
    exact hS
  · intro h
    exact ⟨_, rfl, h⟩

theorem stationary_flags_ok (W : World) (h : Rect c) (stat_tol t_obs : ℝ) :
    stationary_flags W c stat_tol t_obs = .ok ((rows c).map (stat1 W.K t_obs stat_tol)) := by
  unfold stationary_flags evol.determine_stationarity
  refine congrArg Except.ok ?_
  apply List.ext_getElem
  · simp [rows_length]
  · intro i h1 h2
    have hi : i < c.n_sources := by simpa using h1
    have hm : c.m_c.getD i 0 = (rowAt c i).m_c := by
      rw [h.col_m_c, List.getD_eq_getElem?_getD, List.getElem?_map, rows_get?, if_pos hi]
      rfl
    rw [List.getElem_ofFn, List.getElem_map, rows_getElem]
    unfold stat1
    rw [decide_eq_decide, stationaryOver_iff]
    unfold colFn
    simp only [hm]
    rfl

/-! ### Merger times -/

theorem ofFn_zip4 {as : List One} {F : ℝ → ℝ → ℝ → ℝ → ℝ} {p q r s : One → ℝ} {k : ℕ} (hk : k = as.length) :
    List.ofFn (fun i : Fin k => F (colFn (as.map p) k i) (colFn (as.map q) k i) (colFn (as.map r) k i)
      (colFn (as.map s) k i)) = as.map fun a => F (p a) (q a) (r a) (s a) := by
  subst hk
  apply List.ext_getElem
  · simp
  · intro i h1 h2
    have hi : i < as.length := by simpa using h1
    simp [colFn, List.getD_eq_getElem?_getD, hi]

/-- The merger time of a source. -/
noncomputable def tMerge1 (K : Consts) (ex : Bool) (r : One) : ℝ := tEcc K r.m_1 r.m_2 r.f_orb r.ecc ex

theorem assign_map_map {α β : Type} (l : List α) (p : α → Bool) (f g : α → β) :
    np.assign (l.map p) (l.map f) ((l.filter p).map g) = l.map fun x => if p x then g x else f x := by
  induction l with
  | nil => rfl
  | cons x l ih =>
    rw [List.filter_cons]
    rcases hp : p x with _ | _
    · simp [np.assign, hp, ih]
    · simp [np.assign, hp, ih]

theorem calc_merger_time_ok (W : World) (h : Rect c) (hw : w.length = c.n_sources) (ex : Bool) :
    calc_merger_time W c w ex = .ok ((items c w).map fun x => if live x then tMerge1 W.K ex x.1 else 0) := by
  unfold calc_merger_time
  have hi := inspiralling_ok h hw
  unfold inspiralling at hi
  rw [hi, ok_bind, h.col_ecc, index_col hw, ok_bind, h.col_f_orb, index_col hw, ok_bind, col_m_1 c, index_col hw, ok_bind,
    h.col_m_2, index_col hw, ok_bind]
  simp only
  rw [get_t_merge_ecc_each, ok_bind]
  refine congrArg Except.ok ?_
  have hmm : ∀ {α : Type} (f : One → α), (List.filter live (items c w)).map (fun x => f x.1) =
      (((items c w).filter live).map Prod.fst).map f := by
    intro α f
    rw [List.map_map]
    rfl
  rw [hmm One.ecc, hmm One.f_orb, hmm One.m_1, hmm One.m_2]
  rw [ofFn_zip4 (F := fun m₁ m₂ f e => tEcc W.K m₁ m₂ f e ex) (by simp), List.map_map, hw, ← items_length hw,
    replicate_filter, assign_map_map]
  rfl

/-! ### Strains -/

theorem strain_rows_ok (h : Rect c) (hw : w.length = c.n_sources) (p : One × Bool → Bool) :
    strain_rows c ((items c w).map p) = .ok (((items c w).filter p).map fun x => x.1.strainRow) := by
  unfold strain_rows
  rw [h.col_m_c, h.col_f_orb, h.col_ecc, h.col_dist, index_col hw, ok_bind, index_col hw, ok_bind, index_col hw, ok_bind,
    index_col hw, ok_bind, List.length_map, orientations_ok h hw, ok_bind]
  refine congrArg Except.ok ?_
  rw [List.zip_map', List.zip_map', List.zip_map', List.zip_map', List.map_map]
  rfl

/-- Computing all and then selecting is computing the selected ones, if the others can be computed. -/
theorem mapM_select {α β : Type} {f : α → Except PyErr β} (p : α → Bool) {l : List α}
    (hf : ∀ x ∈ l, p x = false → ∃ v, f x = .ok v) {out : List β} :
    (∃ vs, l.mapM f = .ok vs ∧ np.select (l.map p) vs = out) ↔ (l.filter p).mapM f = .ok out := by
  induction l generalizing out with
  | nil =>
    rw [List.filter_nil, mapM_nil_ok]
    constructor
    · rintro ⟨vs, -, rfl⟩; rfl
    · rintro rfl; exact ⟨[], by simp [pure, Except.pure], rfl⟩
  | cons a l ih =>
    have ih' := fun out => ih (fun x hx => hf x (by simp [hx])) (out := out)
    rw [List.filter_cons]
    rcases hp : p a with _ | _
    · simp only [Bool.false_eq_true, if_false, List.map_cons, hp]
      rw [← ih']
      constructor
      · rintro ⟨vs, h1, rfl⟩
        obtain ⟨b, bs, h2, h3, rfl⟩ := mapM_cons_ok.1 h1
        exact ⟨bs, h3, rfl⟩
      · rintro ⟨vs, h1, rfl⟩
        obtain ⟨v, hv⟩ := hf a (by simp) hp
        exact ⟨v :: vs, mapM_cons_ok.2 ⟨v, vs, hv, h1, rfl⟩, rfl⟩
    · simp only [if_true, List.map_cons, hp]
      constructor
      · rintro ⟨vs, h1, rfl⟩
        obtain ⟨b, bs, h2, h3, rfl⟩ := mapM_cons_ok.1 h1
        exact mapM_cons_ok.2 ⟨b, _, h2, (ih' _).1 ⟨bs, h3, rfl⟩, rfl⟩
      · intro h1
        obtain ⟨b, bs, h2, h3, rfl⟩ := mapM_cons_ok.1 h1
        obtain ⟨vs, h4, rfl⟩ := (ih' _).2 h3
        exact ⟨b :: vs, mapM_cons_ok.2 ⟨b, vs, h2, h4, rfl⟩, rfl⟩

/-- The selected sources. -/
def chosen (c : Cols) (w : List Bool) : List One := ((items c w).filter Prod.snd).map Prod.fst

theorem which_length {ws : Option (List Bool)} (hw : ∀ m, ws = some m → m.length = c.n_sources) :
    (which c.n_sources ws).length = c.n_sources := by
  unfold which
  rcases ws with _ | m
  · simp
  · exact hw m rfl

/-- The strain of a source at its only time step. -/
noncomputable def head1 (one : strain.Row → Except PyErr (List (List ℝ))) (r : One) : Except PyErr (List ℝ) := do
  let steps ← one r.strainRow
  pure (steps.headD [])

/-- The strain of one source, given the strain function for a row. -/
noncomputable def strain1 (one : strain.Row → Except PyErr (List (List ℝ))) (k : ℕ) (r : One) : Except PyErr (List ℝ) :=
  if r.merged then pure (List.replicate k 0) else head1 one r

theorem get_strain_iff (h : Rect c) {ws : Option (List Bool)} (hw : ∀ m, ws = some m → m.length = c.n_sources)
    {fn : List ℤ → List strain.Row → Except PyErr (List (List (List ℝ)))} {ns : List ℤ} {bad : Bool}
    {one : strain.Row → Except PyErr (List (List ℝ))}
    (hs : ∀ rows, fn ns rows = if bad then .error .ValueError else rows.mapM one) {out : List (List ℝ)} :
    get_strain fn c ns ws = .ok out ↔
      bad = false ∧ (chosen c (which c.n_sources ws)).mapM (strain1 one ns.length) = .ok out := by
  unfold get_strain
  have hwl := which_length hw
  simp only
  set w := which c.n_sources ws with hwdef
  rw [inspiralling_ok h hwl, ok_bind, strain_rows_ok h hwl, ok_bind, hs]
  rcases bad with _ | _
  swap
  · simp only [if_true, error_bind]
    constructor
    · intro h; cases h
    · rintro ⟨h, -⟩; cases h
  simp only [Bool.false_eq_true, if_false, true_and]
  unfold chosen
  rw [mapM_map', except_bind_ok]
  have hz : List.replicate c.n_sources (List.replicate ns.length (0 : ℝ)) =
      (items c w).map fun _ => List.replicate ns.length (0 : ℝ) := by
    rw [← replicate_filter, items_length hwl]
  have key : ∀ hs out, (((items c w).filter live).map fun x => x.1.strainRow).mapM one = .ok hs →
      (index w (np.assign ((items c w).map live) (List.replicate c.n_sources (List.replicate ns.length (0 : ℝ)))
        (hs.map fun steps => steps.headD [])) = .ok out ↔
      np.select ((items c w).map Prod.snd) (np.assign ((items c w).map live)
        ((items c w).map fun _ => List.replicate ns.length (0 : ℝ)) (hs.map fun steps => steps.headD [])) = out) := by
    intro hs out hh
    rw [hz, items_snd hwl]
    unfold index
    rw [if_pos (by rw [np.assign_length, List.length_map, items_length hwl, hwl]), pure_ok]
  have step : ∀ vs, (∃ hs, ((items c w).filter live).mapM (fun x => one x.1.strainRow) = .ok hs ∧
        np.assign ((items c w).map live) ((items c w).map fun _ => List.replicate ns.length (0 : ℝ))
          (hs.map fun steps => steps.headD []) = vs) ↔
      (items c w).mapM (fun x => if live x then head1 one x.1 else
        pure (List.replicate ns.length (0 : ℝ))) = .ok vs := by
    intro vs
    have := mapM_assign (p := live) (f := fun x : One × Bool => head1 one x.1)
      (as := items c w) (olds := (items c w).map fun _ => List.replicate ns.length (0 : ℝ)) (news := vs) (by simp)
    rw [zip_map_right_self, mapM_map'] at this
    rw [← this]
    constructor
    · rintro ⟨hs, h1, rfl⟩
      exact ⟨_, (mapM_map_ok _).1 ⟨hs, h1, rfl⟩, rfl⟩
    · rintro ⟨vs, h1, rfl⟩
      obtain ⟨hs, h2, rfl⟩ := (mapM_map_ok _).2 h1
      exact ⟨hs, h2, rfl⟩
  have last := mapM_select (f := fun x : One × Bool => if live x then head1 one x.1 else pure (List.replicate ns.length (0 : ℝ))) Prod.snd (l := items c w) (out := out) (by
    intro x _ hx
    simp only [live, hx, Bool.false_and, Bool.false_eq_true, if_false]
    exact ⟨_, rfl⟩)
  have fin : ((items c w).filter Prod.snd).mapM (fun x : One × Bool => if live x then head1 one x.1 else pure (List.replicate ns.length (0 : ℝ))) = .ok out ↔
      ((items c w).filter Prod.snd).mapM (fun x => strain1 one ns.length x.1) = .ok out := by
    refine mapM_congr_ok fun x hx b => ?_
    have hx' : x.2 = true := (List.mem_filter.1 hx).2
    unfold strain1 live
    rw [hx']
    rcases x.1.merged with _ | _ <;> simp
  rw [mapM_map', ← fin, ← last]
  constructor
  · rintro ⟨hs, h1, h2⟩
    rw [mapM_map'] at key
    exact ⟨_, (step _).1 ⟨hs, h1, rfl⟩, (key hs out h1).1 h2⟩
  · rintro ⟨vs, h1, h2⟩
    obtain ⟨hs, h3, rfl⟩ := (step _).2 h1
    rw [mapM_map'] at key
    exact ⟨hs, h3, (key hs out h3).2 h2⟩

end Legwork.source
