import Verif.Lemmas.SourceRows

/-!
# The SNR calculations of a collection, source by source
-/

namespace Legwork.source

open Legwork.Spec Legwork.utils Legwork.snr

section

variable {α : Type}

/-- SNRs and harmonics of all sources from those of each. -/
def unzipPairs (ps : List (Option ℝ × ℕ)) : SnrState := (ps.map Prod.fst, ps.map Prod.snd)

theorem unzipPairs_inj {ps qs : List (Option ℝ × ℕ)} (h : unzipPairs ps = unzipPairs qs) : ps = qs := by
  have h1 : ps.map Prod.fst = qs.map Prod.fst := congrArg Prod.fst h
  have h2 : ps.map Prod.snd = qs.map Prod.snd := congrArg Prod.snd h
  rw [← List.zip_unzip ps, ← List.zip_unzip qs, List.unzip_eq_map, List.unzip_eq_map]
  simp only
  rw [h1, h2]

theorem any_map_id {p : α → Bool} {l : List α} : (l.map p).any id = l.any p := by
  rw [List.any_map]
  rfl

theorem filter_of_not_any {p : α → Bool} {l : List α} (h : l.any p = false) : l.filter p = [] := by
  rw [List.filter_eq_nil_iff]
  rw [List.any_eq_false] at h
  exact h

theorem assign_nil {β : Type} (mask : List Bool) (xs : List β) : np.assign mask xs [] = xs := by
  induction mask generalizing xs with
  | nil => cases xs <;> rfl
  | cons b m ih =>
    cases xs with
    | nil => cases b <;> rfl
    | cons x xs =>
      cases b <;> simp [np.assign, ih]

/-- Computing SNRs of the selected sources and writing them back, keeping their harmonics. -/
theorem mapM_assign_fst {p : α → Bool} {f : α → Except PyErr (Option ℝ)} {as : List α} {accs : List (Option ℝ × ℕ)}
    (hl : accs.length = as.length) {st : SnrState} :
    (∃ vs, (as.filter p).mapM f = .ok vs ∧ (np.assign (as.map p) (unzipPairs accs).1 vs, (unzipPairs accs).2) = st) ↔
      ∃ news, (as.zip accs).mapM (fun x => if p x.1 then (do let v ← f x.1; pure (v, x.2.2)) else pure x.2) = .ok news ∧
        unzipPairs news = st := by
  induction as generalizing accs st with
  | nil =>
    have : accs = [] := List.length_eq_zero_iff.1 hl
    subst this
    constructor
    · rintro ⟨vs, -, rfl⟩
      exact ⟨[], by simp [pure, Except.pure], rfl⟩
    · rintro ⟨news, h, rfl⟩
      cases mapM_nil_ok.1 h
      exact ⟨[], by simp [pure, Except.pure], rfl⟩
  | cons a as ih =>
    cases accs with
    | nil => cases hl
    | cons o accs =>
      have hl' : accs.length = as.length := by simpa using hl
      rw [List.filter_cons, List.map_cons]
      rcases hp : p a with _ | _
      · simp only [Bool.false_eq_true, if_false]
        constructor
        · rintro ⟨vs, h1, rfl⟩
          obtain ⟨news, h2, h3⟩ := (ih hl').1 ⟨vs, h1, rfl⟩
          refine ⟨o :: news, ?_, ?_⟩
          · rw [List.zip_cons_cons]
            refine mapM_cons_ok.2 ⟨o, news, ?_, h2, rfl⟩
            simp only [hp, Bool.false_eq_true, if_false]
            rfl
          · have e1 := congrArg Prod.fst h3
            have e2 := congrArg Prod.snd h3
            simp only [unzipPairs] at e1 e2 ⊢
            rw [List.map_cons, List.map_cons, List.map_cons, List.map_cons, e1, e2]
            rfl
        · rintro ⟨news, h1, rfl⟩
          rw [List.zip_cons_cons] at h1
          obtain ⟨n, news, h2, h3, rfl⟩ := mapM_cons_ok.1 h1
          simp only [hp, Bool.false_eq_true, if_false] at h2
          cases pure_ok.1 h2
          obtain ⟨vs, h4, h5⟩ := (ih hl').2 ⟨news, h3, rfl⟩
          refine ⟨vs, h4, ?_⟩
          have e1 := congrArg Prod.fst h5
          have e2 := congrArg Prod.snd h5
          simp only [unzipPairs] at e1 e2 ⊢
          rw [List.map_cons, List.map_cons, List.map_cons, List.map_cons, ← e1, ← e2]
          rfl
      · simp only [if_true]
        constructor
        · rintro ⟨vs, h1, rfl⟩
          obtain ⟨v, vs, hv, hvs, rfl⟩ := mapM_cons_ok.1 h1
          obtain ⟨news, h2, h3⟩ := (ih hl').1 ⟨vs, hvs, rfl⟩
          refine ⟨(v, o.2) :: news, ?_, ?_⟩
          · rw [List.zip_cons_cons]
            refine mapM_cons_ok.2 ⟨(v, o.2), news, ?_, h2, rfl⟩
            simp only [hp, if_true]
            rw [hv]
            rfl
          · have e1 := congrArg Prod.fst h3
            have e2 := congrArg Prod.snd h3
            simp only [unzipPairs] at e1 e2 ⊢
            rw [List.map_cons, List.map_cons, List.map_cons, List.map_cons, e1, e2]
            rfl
        · rintro ⟨news, h1, rfl⟩
          rw [List.zip_cons_cons] at h1
          obtain ⟨n, news, h2, h3, rfl⟩ := mapM_cons_ok.1 h1
          simp only [hp, if_true] at h2
          obtain ⟨v, hv, h2⟩ := except_bind_ok.1 h2
          cases pure_ok.1 h2
          obtain ⟨vs, h4, h5⟩ := (ih hl').2 ⟨news, h3, rfl⟩
          refine ⟨v :: vs, mapM_cons_ok.2 ⟨v, vs, hv, h4, rfl⟩, ?_⟩
          have e1 := congrArg Prod.fst h5
          have e2 := congrArg Prod.snd h5
          simp only [unzipPairs] at e1 e2 ⊢
          rw [List.map_cons, List.map_cons, List.map_cons, List.map_cons, ← e1, ← e2]
          rfl

/-- Computing both for the selected sources and writing them back. -/
theorem mapM_assign_pair {p : α → Bool} {f : α → Except PyErr (Option ℝ × ℕ)} {as : List α}
    {accs : List (Option ℝ × ℕ)} (hl : accs.length = as.length) {st : SnrState} :
    (∃ ps, (as.filter p).mapM f = .ok ps ∧
      (np.assign (as.map p) (unzipPairs accs).1 (ps.map Prod.fst), np.assign (as.map p) (unzipPairs accs).2 (ps.map Prod.snd))
        = st) ↔
      ∃ news, (as.zip accs).mapM (fun x => if p x.1 then f x.1 else pure x.2) = .ok news ∧ unzipPairs news = st := by
  unfold unzipPairs
  simp only [np.assign_map]
  constructor
  · rintro ⟨ps, h1, rfl⟩
    exact ⟨_, (mapM_assign hl).1 ⟨ps, h1, rfl⟩, rfl⟩
  · rintro ⟨news, h1, rfl⟩
    obtain ⟨ps, h2, rfl⟩ := (mapM_assign hl).2 h1
    exact ⟨ps, h2, rfl⟩

end

/-! ### Harmonic groups -/

variable {c : Cols} {w : List Bool}

/-- The harmonic groups for one source. -/
def groups1 (hreq : ℤ) (run : ℕ → Except PyErr (Option ℝ × ℕ)) (gs : List (ℕ × ℕ)) (v : Option ℝ × ℕ) :
    Except PyErr (Option ℝ × ℕ) :=
  gs.foldlM (fun v g => if in_group hreq g then run g.2 else pure v) v

theorem snr_group_iff (h : Rect c) (hw : w.length = c.n_sources) {S : Settings} {q : One × Bool → Bool}
    {run : List Bool → ℕ → Except PyErr SnrOut} {run1 : ℕ → One × Bool → Except PyErr (Option ℝ × ℕ)}
    (hrun : ∀ (p : One × Bool → Bool) (H : ℕ) out, 0 < H → (run ((items c w).map p) H = .ok out ↔
      ∃ ps, ((items c w).filter p).mapM (run1 H) = .ok ps ∧ pairOut ps = out))
    {accs : List (Option ℝ × ℕ)} (hl : accs.length = (items c w).length) {g : ℕ × ℕ} (hg : 0 < g.2) {st : SnrState} :
    snr_group c S ((items c w).map q) run (unzipPairs accs) g = .ok st ↔
      ∃ news, ((items c w).zip accs).mapM (fun x => if q x.1 then
          (if in_group (S.harmonics_required x.1.1.ecc) g then run1 g.2 x.1 else pure x.2) else pure x.2) = .ok news ∧
        unzipPairs news = st := by
  unfold snr_group
  rw [h.col_ecc, List.map_map, ← items_fst hw]
  simp only [Function.comp]
  rw [logical_and_map, ok_bind]
  have hcongr : ∀ news, ((items c w).zip accs).mapM (fun x => if q x.1 then
          (if in_group (S.harmonics_required x.1.1.ecc) g then run1 g.2 x.1 else pure x.2) else pure x.2) = .ok news ↔
      ((items c w).zip accs).mapM (fun x => if in_group (S.harmonics_required x.1.1.ecc) g && q x.1 then run1 g.2 x.1
        else pure x.2) = .ok news := by
    intro news
    refine mapM_congr_ok fun x _ b => ?_
    rcases q x.1 with _ | _ <;> rcases in_group (S.harmonics_required x.1.1.ecc) g with _ | _ <;> simp
  simp only [hcongr]
  rw [← mapM_assign_pair (p := fun x : One × Bool => in_group (S.harmonics_required x.1.ecc) g && q x) (f := run1 g.2) hl,
    any_map_id]
  split_ifs with hany
  · rw [except_bind_ok]
    constructor
    · rintro ⟨out, ho, hs⟩
      obtain ⟨ps, h1, rfl⟩ := (hrun _ _ _ hg).1 ho
      refine ⟨ps, h1, ?_⟩
      simp only [pairOut, snr_and_max, pure_bind] at hs
      exact pure_ok.1 hs
    · rintro ⟨ps, h1, rfl⟩
      refine ⟨_, (hrun _ _ _ hg).2 ⟨ps, h1, rfl⟩, ?_⟩
      simp only [pairOut, snr_and_max, pure_bind]
      rfl
  · rw [filter_of_not_any (by simpa using hany), pure_ok]
    constructor
    · rintro rfl
      exact ⟨[], by simp [pure, Except.pure], by simp [assign_nil]⟩
    · rintro ⟨ps, h1, rfl⟩
      cases mapM_nil_ok.1 h1
      simp [assign_nil]

theorem snr_fold_iff (h : Rect c) (hw : w.length = c.n_sources) {S : Settings} {q : One × Bool → Bool}
    {run : List Bool → ℕ → Except PyErr SnrOut} {run1 : ℕ → One × Bool → Except PyErr (Option ℝ × ℕ)}
    (hrun : ∀ (p : One × Bool → Bool) (H : ℕ) out, 0 < H → (run ((items c w).map p) H = .ok out ↔
      ∃ ps, ((items c w).filter p).mapM (run1 H) = .ok ps ∧ pairOut ps = out))
    {gs : List (ℕ × ℕ)} (hgs : ∀ g ∈ gs, 0 < g.2) {accs : List (Option ℝ × ℕ)} (hl : accs.length = (items c w).length)
    {st : SnrState} :
    gs.foldlM (snr_group c S ((items c w).map q) run) (unzipPairs accs) = .ok st ↔
      ∃ news, ((items c w).zip accs).mapM (fun x => if q x.1 then
          groups1 (S.harmonics_required x.1.1.ecc) (fun H => run1 H x.1) gs x.2 else pure x.2) = .ok news ∧
        unzipPairs news = st := by
  induction gs generalizing accs with
  | nil =>
    simp only [List.foldlM_nil, groups1, ite_self]
    rw [pure_ok]
    have : ((items c w).zip accs).mapM (fun x => (pure x.2 : Except PyErr _)) = .ok accs := by
      refine (mapM_ok (g := Prod.snd) fun _ _ => rfl).trans ?_
      rw [List.map_snd_zip]
      omega
    rw [this]
    constructor
    · rintro rfl; exact ⟨accs, rfl, rfl⟩
    · rintro ⟨news, h1, rfl⟩; cases h1; rfl
  | cons g gs ih =>
    have hcomp : ∀ news, ((items c w).zip accs).mapM (fun x => if q x.1 then
          groups1 (S.harmonics_required x.1.1.ecc) (fun H => run1 H x.1) (g :: gs) x.2 else pure x.2) = .ok news ↔
        ∃ ys, ((items c w).zip accs).mapM (fun x => if q x.1 then
          (if in_group (S.harmonics_required x.1.1.ecc) g then run1 g.2 x.1 else pure x.2) else pure x.2) = .ok ys ∧
          ((items c w).zip ys).mapM (fun x => if q x.1 then
          groups1 (S.harmonics_required x.1.1.ecc) (fun H => run1 H x.1) gs x.2 else pure x.2) = .ok news := by
      intro news
      rw [mapM_comp hl]
      refine mapM_congr_ok fun x _ b => ?_
      unfold groups1
      rcases hq : q x.1 with _ | _
      · simp only [hq, Bool.false_eq_true, if_false, pure_bind]
      · simp only [hq, if_true, List.foldlM_cons]
    simp only [hcomp]
    rw [List.foldlM_cons, except_bind_ok]
    constructor
    · rintro ⟨st', h1, h2⟩
      obtain ⟨ys, h3, rfl⟩ := (snr_group_iff h hw hrun hl (hgs g (by simp))).1 h1
      have hl' : ys.length = (items c w).length := by
        rw [mapM_length h3, List.length_zip, hl, min_self]
      obtain ⟨news, h4, h5⟩ := (ih (fun g hg => hgs g (by simp [hg])) hl').1 h2
      exact ⟨news, ⟨ys, h3, h4⟩, h5⟩
    · rintro ⟨news, ⟨ys, h3, h4⟩, h5⟩
      have hl' : ys.length = (items c w).length := by
        rw [mapM_length h3, List.length_zip, hl, min_self]
      exact ⟨_, (snr_group_iff h hw hrun hl (hgs g (by simp))).2 ⟨ys, h3, rfl⟩,
        (ih (fun g hg => hgs g (by simp [hg])) hl').2 ⟨news, h4, h5⟩⟩

theorem snr_groups_iff (h : Rect c) (hw : w.length = c.n_sources) {S : Settings} {q : One × Bool → Bool}
    {run : List Bool → ℕ → Except PyErr SnrOut} {run1 : ℕ → One × Bool → Except PyErr (Option ℝ × ℕ)}
    (hrun : ∀ (p : One × Bool → Bool) (H : ℕ) out, 0 < H → (run ((items c w).map p) H = .ok out ↔
      ∃ ps, ((items c w).filter p).mapM (run1 H) = .ok ps ∧ pairOut ps = out))
    {accs : List (Option ℝ × ℕ)} (hl : accs.length = (items c w).length) {st : SnrState} :
    snr_groups c S ((items c w).map q) run (unzipPairs accs) = .ok st ↔
      ∃ news, ((items c w).zip accs).mapM (fun x => if q x.1 then
          groups1 (S.harmonics_required x.1.1.ecc) (fun H => run1 H x.1) harmonic_groups x.2 else pure x.2) = .ok news ∧
        unzipPairs news = st := by
  unfold snr_groups
  rw [any_map_id]
  split_ifs with hany
  · exact snr_fold_iff h hw hrun (by decide) hl
  · have hq : ∀ x ∈ items c w, q x = false := by
      have : (items c w).any q = false := by simpa using hany
      rw [List.any_eq_false] at this
      intro x hx
      simpa using this x hx
    have : ((items c w).zip accs).mapM (fun x => if q x.1 then
          groups1 (S.harmonics_required x.1.1.ecc) (fun H => run1 H x.1) harmonic_groups x.2 else pure x.2) = .ok accs := by
      refine (mapM_ok (g := Prod.snd) fun x hx => ?_).trans ?_
      · rw [hq x.1 (List.of_mem_zip hx).1]
        rfl
      · rw [List.map_snd_zip]
        omega
    rw [this, pure_ok]
    constructor
    · rintro rfl; exact ⟨accs, rfl, rfl⟩
    · rintro ⟨news, h1, rfl⟩; cases h1; rfl

/-! ### The two calculations -/

/-- What `get_snr_stationary` computes for one source: circular sources by their tolerance, eccentric ones by the
harmonic groups, sources not selected or merged are left out. -/
noncomputable def dispatch1 (S : Settings) (circ : One → Except PyErr (Option ℝ))
    (ecc : ℕ → One → Except PyErr (Option ℝ × ℕ)) (x : One × Bool) : Except PyErr (Option ℝ × ℕ) :=
  open Classical in
  if live x then
    if x.1.ecc ≤ S.ecc_tol then do
      let v ← circ x.1
      pure (v, 2)
    else groups1 (S.harmonics_required x.1.ecc) (fun H => ecc H x.1) harmonic_groups (some 0, 2)
  else pure (some 0, 2)

/-- One calculation, given how its two parts act. -/
theorem dispatch_iff (h : Rect c) (hw : w.length = c.n_sources) {S : Settings}
    {circ : One → Except PyErr (Option ℝ)} {ecc : ℕ → One → Except PyErr (Option ℝ × ℕ)}
    {run : List Bool → ℕ → Except PyErr SnrOut} {part : List Bool → SnrState → Except PyErr SnrState}
    (hrun : ∀ (p : One × Bool → Bool) (H : ℕ) out, 0 < H → (run ((items c w).map p) H = .ok out ↔
      ∃ ps, ((items c w).filter p).mapM (fun x => ecc H x.1) = .ok ps ∧ pairOut ps = out))
    (hpart : ∀ (p : One × Bool → Bool) acc st, part ((items c w).map p) acc = .ok st ↔
      ∃ vs, ((items c w).filter p).mapM (fun x => circ x.1) = .ok vs ∧ (np.assign ((items c w).map p) acc.1 vs, acc.2) = st)
    {res : List Bool × SnrState} :
    (do
      let insp ← inspiralling c w
      let e_mask ← logical_and (ecc_above c.ecc S.ecc_tol) insp
      let c_mask ← logical_and (ecc_below c.ecc S.ecc_tol) insp
      let acc : SnrState := (List.replicate c.n_sources (some 0), List.replicate c.n_sources 2)
      let acc ← part c_mask acc
      let acc ← snr_groups c S e_mask run acc
      pure (insp, acc)) = .ok res ↔
      ∃ ps, (items c w).mapM (dispatch1 S circ ecc) = .ok ps ∧ ((items c w).map live, unzipPairs ps) = res := by
  rw [inspiralling_ok h hw, ok_bind, ecc_above_eq h hw, ecc_below_eq h hw, logical_and_map, ok_bind, logical_and_map,
    ok_bind]
  have hn : c.n_sources = (items c w).length := (items_length hw).symm
  have hinit : ((List.replicate c.n_sources (some 0), List.replicate c.n_sources 2) : SnrState) =
      unzipPairs ((items c w).map fun _ => ((some 0, 2) : Option ℝ × ℕ)) := by
    unfold unzipPairs
    rw [List.map_map, List.map_map, hn, replicate_filter, replicate_filter]
    rfl
  rw [hinit]
  have hzip : (items c w).zip ((items c w).map fun _ => ((some 0, 2) : Option ℝ × ℕ)) =
      (items c w).map fun x => (x, ((some 0, 2) : Option ℝ × ℕ)) := zip_map_right_self _ _
  have hlen : ((items c w).map fun _ => ((some 0, 2) : Option ℝ × ℕ)).length = (items c w).length := by simp
  have hstep : ∀ ps, (items c w).mapM (dispatch1 S circ ecc) = .ok ps ↔
      ∃ ys, ((items c w).zip ((items c w).map fun _ => ((some 0, 2) : Option ℝ × ℕ))).mapM (fun x =>
          if @decide (x.1.1.ecc ≤ S.ecc_tol) (Classical.propDecidable _) && live x.1 then
            (do let v ← circ x.1.1; pure (v, x.2.2)) else pure x.2) = .ok ys ∧
        ((items c w).zip ys).mapM (fun x => if @decide (S.ecc_tol < x.1.1.ecc) (Classical.propDecidable _) && live x.1 then
          groups1 (S.harmonics_required x.1.1.ecc) (fun H => ecc H x.1.1) harmonic_groups x.2 else pure x.2) = .ok ps := by
    intro ps
    rw [mapM_comp hlen, hzip, mapM_map']
    refine mapM_congr_ok fun x _ b => ?_
    unfold dispatch1
    rcases hlive : live x with _ | _
    · simp only [hlive, Bool.false_eq_true, if_false, Bool.and_false, pure_bind]
    · by_cases he : x.1.ecc ≤ S.ecc_tol
      · simp only [hlive, if_true, if_pos he, decide_eq_true he, Bool.and_true, decide_eq_false (not_lt.2 he), Bool.false_eq_true,
          if_false, bind_pure]
      · simp only [hlive, if_true, if_neg he, decide_eq_false he, Bool.and_true, decide_eq_true (not_le.1 he), Bool.false_eq_true,
          if_false, pure_bind]
  simp only [hstep]
  have hpart' : ∀ st, part ((items c w).map fun x => @decide (x.1.ecc ≤ S.ecc_tol) (Classical.propDecidable _) && live x)
        (unzipPairs ((items c w).map fun _ => ((some 0, 2) : Option ℝ × ℕ))) = .ok st ↔
      ∃ ys, ((items c w).zip ((items c w).map fun _ => ((some 0, 2) : Option ℝ × ℕ))).mapM (fun x =>
          if @decide (x.1.1.ecc ≤ S.ecc_tol) (Classical.propDecidable _) && live x.1 then
            (do let v ← circ x.1.1; pure (v, x.2.2)) else pure x.2) = .ok ys ∧ unzipPairs ys = st := by
    intro st
    rw [hpart]
    exact mapM_assign_fst (f := fun x : One × Bool => circ x.1) hlen
  rw [except_bind_ok]
  constructor
  · rintro ⟨st, h1, h2⟩
    obtain ⟨ys, h3, rfl⟩ := (hpart' st).1 h1
    obtain ⟨st', h4, h5⟩ := except_bind_ok.1 h2
    have hl' : ys.length = (items c w).length := by
      rw [mapM_length h3, List.length_zip, hlen, min_self]
    obtain ⟨news, h6, rfl⟩ := (snr_groups_iff (run1 := fun H x => ecc H x.1) h hw hrun hl').1 h4
    exact ⟨news, ⟨ys, h3, h6⟩, pure_ok.1 h5⟩
  · rintro ⟨news, ⟨ys, h3, h6⟩, rfl⟩
    have hl' : ys.length = (items c w).length := by
      rw [mapM_length h3, List.length_zip, hlen, min_self]
    refine ⟨_, (hpart' _).2 ⟨ys, h3, rfl⟩, except_bind_ok.2 ⟨_, (snr_groups_iff (run1 := fun H x => ecc H x.1) h hw hrun
      hl').2 ⟨news, h6, rfl⟩, rfl⟩⟩

/-- `get_snr_stationary` computes source by source. -/
theorem calc_stationary_iff (h : Rect c) (hw : w.length = c.n_sources) {C : Ctx} {S : Settings}
    {res : List Bool × SnrState} : calc_stationary C c S w = .ok res ↔
      ∃ ps, (items c w).mapM (dispatch1 S (fun r => circ1 C r.circ) fun H r => ecc1 C H r.eccentric) = .ok ps ∧
        ((items c w).map live, unzipPairs ps) = res := by
  unfold calc_stationary
  refine dispatch_iff h hw ?_ ?_
  · intro p H out hH
    unfold run_ecc_stationary
    rw [ecc_srcs_ok h hw, ok_bind, snr_ecc_stationary_iff hH, mapM_map']
  · intro p acc st
    unfold snr_stationary_circ
    have hlen : (np.select ((items c w).map p) c.m_c).length = ((items c w).filter p).length := by
      rw [h.col_m_c, ← items_fst hw, np.select_map, np.select_filter, List.length_map]
    rw [hlen, orientations_ok h hw, ok_bind, any_map_id]
    split_ifs with hany
    · rw [circ_srcs_ok h hw, ok_bind, except_bind_ok]
      simp only [snr_circ_stationary_iff, mapM_map', pure_ok]
    · rw [filter_of_not_any (by simpa using hany), pure_ok]
      constructor
      · rintro rfl
        exact ⟨[], by simp [pure, Except.pure], by simp [assign_nil]⟩
      · rintro ⟨ps, h1, rfl⟩
        cases mapM_nil_ok.1 h1
        simp [assign_nil]

/-- The merger time used for a circular evolving source. -/
noncomputable def circTime (K : Consts) (r : One) : ℝ :=
  match r.t_merge with
  | some t => t
  | none => tCirc K r.evolvingCirc

theorem mem_items {x : One × Bool} (hx : x ∈ items c w) : ∃ i, x.1 = rowAt c i := by
  have := List.of_mem_zip hx
  obtain ⟨i, -, hi⟩ := List.mem_map.1 this.1
  exact ⟨i, hi.symm⟩

/-- `get_snr_evolving` computes source by source. -/
theorem calc_evolving_iff (h : Rect c) (hw : w.length = c.n_sources) {W : World} {C : Ctx} {S : Settings} {n : ℕ}
    (hn : n ≠ 0) (hs : S.n_proc > 1 → ∀ m, ∀ i < m, i ∈ W.schedule m)
    {res : List Bool × SnrState} : calc_evolving W C c S n w = .ok res ↔
      ∃ ps, (items c w).mapM (dispatch1 S (fun r => circE1 C n r.evolvingCirc (circTime C.K r))
          fun H r => eccE1 C W.odeint H n r.evolving (tEcc C.K r.m_1 r.m_2 r.f_orb r.ecc true)) = .ok ps ∧
        ((items c w).map live, unzipPairs ps) = res := by
  unfold calc_evolving
  refine dispatch_iff h hw ?_ ?_
  · intro p H out hH
    unfold run_ecc_evolving
    rw [merge_times_ok h hw, ok_bind, evol_srcs_ok h hw, ok_bind, snr_ecc_evolving_none hH hn fun h1 => hs h1 _, mapM_map']
    rfl
  · intro p acc st
    unfold snr_evolving_circ
    rw [any_map_id]
    split_ifs with hany
    · rw [merge_times_ok h hw, ok_bind, evol_srcs_ok h hw, ok_bind, except_bind_ok]
      simp only [pure_ok, if_true]
      have key : ∀ vs, snr_circ_evolving C (((items c w).filter p).map fun x => x.1.evolvingCirc) n
            (c.t_merge.map fun _ => ((items c w).filter p).map fun x => x.1.t_merge.getD 0) = .ok vs ↔
          ((items c w).filter p).mapM (fun x => circE1 C n x.1.evolvingCirc (circTime C.K x.1)) = .ok vs := by
        intro vs
        rcases ht : c.t_merge with _ | t
        · rw [Option.map_none, snr_circ_evolving_none hn, mapM_map']
          refine mapM_congr_ok fun x hx b => ?_
          obtain ⟨i, hi⟩ := mem_items (List.mem_of_mem_filter hx)
          have : x.1.t_merge = none := by rw [hi]; simp [rowAt, ht]
          unfold circTime
          rw [this]
        · rw [Option.map_some, snr_circ_evolving_some hn (by simp), List.zip_map', mapM_map']
          refine mapM_congr_ok fun x hx b => ?_
          obtain ⟨i, hi⟩ := mem_items (List.mem_of_mem_filter hx)
          have : x.1.t_merge = some (t.getD i 0) := by rw [hi]; simp [rowAt, ht]
          unfold circTime
          rw [this]
          rfl
      simp only [key]
    · rw [filter_of_not_any (by simpa using hany), pure_ok]
      constructor
      · rintro rfl
        exact ⟨[], by simp [pure, Except.pure], by simp [assign_nil]⟩
      · rintro ⟨ps, h1, rfl⟩
        cases mapM_nil_ok.1 h1
        simp [assign_nil]

end Legwork.source
