import Verif.Lemmas.SourceState

/-!
# Invariants are kept by all calls
-/

namespace Legwork.source

open Legwork.Spec
open PyM hiding bind

/-- What an invariant must survive to survive all calls that do not assign to attributes of sources. -/
structure CalmAtoms (W : World) (I : Heap → Prop) : Prop where
  store_snr : ∀ s x, Preserves I (store_snr s x)
  store_harm : ∀ s x, Preserves I (store_harm s x)
  setSnr : ∀ r x, Preserves I (PyM.modify fun h : Heap => h.setSnr r x)
  setHarm : ∀ r x, Preserves I (PyM.modify fun h : Heap => h.setHarm r x)
  set_g : ∀ s b, Preserves I (set_g W s b)
  setitem : ∀ p k v, Preserves I (params_setitem W p k v)
  update : ∀ p kvs, Preserves I (params_update W p kvs)
  assign : ∀ s d, Preserves I (set_sc_params W s d)
  set_sc : ∀ s, Preserves I (set_sc W s)
  new_params : ∀ d s, Preserves I (new_params d s)
  setTol : ∀ s tol, Preserves I (set_gw_lum_tol W s tol)
  newSrc : ∀ x : Src, x.sc_params = none → x.gw_lum_tol = none → x.snr = none → x.max_snr_harmonic = none →
    x.g = none → x.ecc_tol = none → Preserves I (newSrc x)
  getitem : ∀ s m, Preserves I (getitem_mask s m)

/-- What an invariant must survive to survive all calls other than `evolve_sources(create_new_class=True)`. -/
structure Atoms (W : World) (I : Heap → Prop) : Prop extends CalmAtoms W I where
  cols : ∀ s (f : Cols → Cols), Preserves I (modSrc s fun x => { x with cols := f x.cols })

namespace CalmAtoms

variable {W : World} {I : Heap → Prop}

theorem getSrcPar (_A : CalmAtoms W I) (s : ℕ) : Preserves I (getSrcPar s) :=
  (preserves_getSrc I s).bind fun _ => preserves_attr I _

theorem getSettings (_A : CalmAtoms W I) (s : ℕ) : Preserves I (getSettings s) :=
  (preserves_getSrc I s).bind fun _ => (preserves_attr I _).bind fun _ => (preserves_attr I _).bind fun _ =>
    Preserves.pure _ _

theorem match_params (A : CalmAtoms W I) (s : ℕ) (a : SnrArgs) (b : Bool) : Preserves I (match_params W s a b) :=
  (A.getSrcPar s).bind fun p => (preserves_getPar I p).bind fun _ => (Preserves.lift _ _).bind fun _ =>
    (A.update p _).bind fun _ => Preserves.pure _ _

theorem ensure_harm (A : CalmAtoms W I) (s : ℕ) : Preserves I (ensure_harm s) := by
  refine (preserves_getSrc I s).bind fun src => ?_
  rcases src.max_snr_harmonic with _ | r
  · exact A.store_harm s _
  · exact Preserves.pure _ _

theorem ensure_snr (A : CalmAtoms W I) (s : ℕ) : Preserves I (ensure_snr s) := by
  refine (preserves_getSrc I s).bind fun src => ?_
  rcases src.snr with _ | r
  · exact A.store_snr s _
  · exact Preserves.pure _ _

theorem record_snr (A : CalmAtoms W I) (s : ℕ) (insp : List Bool) (res : SnrState) : Preserves I (record_snr s insp res) :=
  (A.ensure_harm s).bind fun r => (Preserves.get _).bind fun _ => (Preserves.lift _ _).bind fun _ =>
    (A.setHarm r _).bind fun _ => (A.ensure_snr s).bind fun r => (Preserves.get _).bind fun _ =>
      (Preserves.lift _ _).bind fun _ => A.setSnr r _

theorem get_snr_stationary (A : CalmAtoms W I) (s : ℕ) (a : SnrArgs) (w : Option (List Bool)) :
    Preserves I (get_snr_stationary W s a w) :=
  (A.match_params s a true).bind fun _ => (preserves_getSrc I s).bind fun _ => (A.getSettings s).bind fun _ =>
    (Preserves.lift _ _).bind fun _ => (Preserves.lift _ _).bind fun _ => (A.record_snr s _ _).bind fun _ =>
      Preserves.lift _ _

theorem get_snr_evolving (A : CalmAtoms W I) (s : ℕ) (a : SnrArgs) (n : ℕ) (w : Option (List Bool)) :
    Preserves I (get_snr_evolving W s a n w) :=
  (A.match_params s a true).bind fun _ => (preserves_getSrc I s).bind fun _ => (A.getSettings s).bind fun _ =>
    (Preserves.lift _ _).bind fun _ => (Preserves.lift _ _).bind fun _ => (A.record_snr s _ _).bind fun _ =>
      Preserves.lift _ _

theorem get_source_mask (A : CalmAtoms W I) (s : ℕ) (c st : Tri) (t : PVal) : Preserves I (get_source_mask W s c st t) :=
  (preserves_getSrc I s).bind fun _ => (A.getSettings s).bind fun _ => (A.getSrcPar s).bind fun p =>
    (preserves_getPar I p).bind fun _ => (Preserves.lift _ _).bind fun _ => (Preserves.lift _ _).bind fun _ =>
      Preserves.lift _ _

theorem snr_part {mask : List Bool} {run : M (List (Option ℝ))} (hr : Preserves I run) (snr : List (Option ℝ)) :
    Preserves I (snr_part mask run snr) := by
  unfold source.snr_part
  split_ifs
  · exact hr.bind fun _ => Preserves.pure _ _
  · exact Preserves.pure _ _

theorem Source_get_snr (A : CalmAtoms W I) (s : ℕ) (a : SnrArgs) (n : ℕ) (w : Option (List Bool)) :
    Preserves I (Source_get_snr W s a n w) :=
  (A.match_params s a false).bind fun _ => (preserves_getSrc I s).bind fun _ =>
    (A.get_source_mask s _ _ _).bind fun _ => (Preserves.lift _ _).bind fun _ =>
    (A.get_source_mask s _ _ _).bind fun _ => (Preserves.lift _ _).bind fun _ =>
    (snr_part (A.get_snr_stationary s _ _) _).bind fun _ => (snr_part (A.get_snr_evolving s _ _ _) _).bind fun _ =>
      A.store_snr s _

theorem get_snr (A : CalmAtoms W I) (s : ℕ) (a : SnrArgs) (n : ℕ) (w : Option (List Bool)) :
    Preserves I (get_snr W s a n w) := by
  refine (preserves_getSrc I s).bind fun src => ?_
  rcases src.cls with _ | _ | _ | _
  · exact A.Source_get_snr s a n w
  · exact (A.get_snr_stationary s _ _).bind fun _ => A.store_snr s _
  · exact (A.get_snr_evolving s _ _ _).bind fun _ => A.store_snr s _
  · exact A.Source_get_snr s a n w

theorem init (A : CalmAtoms W I) (cls : Cls) (a : InitArgs) : Preserves I (init W cls a) :=
  (Preserves.lift _ _).bind fun _ => (A.newSrc _ rfl rfl rfl rfl rfl rfl).bind fun s => (A.setTol s _).bind fun _ =>
    (A.assign s _).bind fun _ => (A.set_g s _).bind fun _ => Preserves.pure _ _

theorem getitem' (A : CalmAtoms W I) (s : ℕ) (ind : Index) : Preserves I (source.getitem s ind) := by
  refine (preserves_getSrc I s).bind fun src => ?_
  rcases src.cls with _ | _ | _ | _
  · exact (Preserves.lift _ _).bind fun _ => A.getitem s _
  · exact (Preserves.lift _ _).bind fun _ => A.getitem s _
  · exact (Preserves.lift _ _).bind fun _ => A.getitem s _
  · exact Preserves.lift _ _

theorem params_copy (A : CalmAtoms W I) (p : ℕ) : Preserves I (params_copy p) :=
  (preserves_getPar I p).bind fun _ => A.new_params _ _

theorem verification (A : CalmAtoms W I) (vbs : Table) (rand : ℕ → ℝ) : Preserves I (verification_binaries W vbs rand) :=
  (A.init _ _).bind fun s => (preserves_getSrc I s).bind fun _ => (A.store_harm s _).bind fun _ => Preserves.pure _ _

end CalmAtoms

namespace Atoms

variable {W : World} {I : Heap → Prop}

theorem save_merger_time (A : Atoms W I) (s : ℕ) (save : Bool) (t : List ℝ) :
    Preserves I (save_merger_time s save t) := by
  unfold source.save_merger_time
  split_ifs
  · exact A.cols s fun c => { c with t_merge := some t }
  · exact Preserves.pure _ _

theorem get_merger_time (A : Atoms W I) (s : ℕ) (save : Bool) (w : Option (List Bool)) (exact : Bool) :
    Preserves I (get_merger_time W s save w exact) :=
  (preserves_getSrc I s).bind fun _ => (Preserves.lift _ _).bind fun _ => (A.save_merger_time s save _).bind fun _ =>
    Preserves.lift _ _

theorem ensure_t_merge (A : Atoms W I) (s : ℕ) : Preserves I (ensure_t_merge W s) := by
  refine (preserves_getSrc I s).bind fun src => ?_
  rcases src.cols.t_merge with _ | t
  · exact (A.get_merger_time s _ _ _).bind fun _ => Preserves.pure _ _
  · exact Preserves.pure _ _

theorem evolve_common (A : Atoms W I) (s : ℕ) (t : EvolTime) : Preserves I (evolve_common W s t) :=
  (A.ensure_t_merge s).bind fun _ => (preserves_getSrc I s).bind fun _ => (preserves_attr I _).bind fun _ =>
    Preserves.lift _ _

theorem evolve_sources (A : Atoms W I) (s : ℕ) (t : EvolTime) : Preserves I (evolve_sources W s t) :=
  (A.evolve_common s t).bind fun e => A.cols s fun c => c.evolved e

theorem from_file (A : Atoms W I) (Φ : Files) (st : Store) (cls : Cls) (name : String)
    (ig isc : Option Bool) (np : Option ℕ) : Preserves I (from_file W Φ st cls name ig isc np) := by
  unfold source.from_file
  simp only
  split_ifs
  · rcases st (Φ.locate (normalise name)) with _ | _ | _ | f
    · exact Preserves.lift _ _
    · exact Preserves.lift _ _
    · exact Preserves.lift _ _
    · refine (Preserves.lift _ _).bind fun a => ?_
      split_ifs
      · exact Preserves.lift _ _
      · refine (A.init _ a).bind fun s => ?_
        have h1 : Preserves I (restore_t_merge f s) := by
          unfold restore_t_merge
          split
          · rename_i xs _ _
            exact A.cols s fun c => { c with t_merge := some xs }
          · exact Preserves.pure _ _
        have h2 : Preserves I (restore_snr f s) := by
          unfold restore_snr
          split
          · exact (A.store_snr s _).bind fun _ => Preserves.pure _ _
          · exact Preserves.pure _ _
        have h3 : Preserves I (restore_harm f s) := by
          unfold restore_harm
          split
          · exact (A.store_harm s _).bind fun _ => Preserves.pure _ _
          · exact Preserves.pure _ _
        have h4 : Preserves I (restore_merged f s) := by
          unfold restore_merged
          split
          · rename_i xs _ _
            exact A.cols s fun c => { c with merged := xs }
          · exact Preserves.pure _ _
        exact (h1.bind fun _ => h2.bind fun _ => h3.bind fun _ => h4).bind fun _ => Preserves.pure _ _
  · exact Preserves.lift _ _

/-- Every call other than `evolve_sources(create_new_class=True)` and assignments to plain settings keeps the
invariant. -/
theorem run (A : Atoms W I) (op : Op) (hop : ∀ s t, op ≠ .evolveNew s t) (hop' : ∀ s t n b, op ≠ .setPlain s t n b) :
    Preserves I (op.run W) := by
  cases op with
  | setitem p key value => exact A.setitem p key value
  | update p kvs => exact A.update p kvs
  | remove p => exact Preserves.lift _ _
  | copyParams p => exact (A.params_copy p).bind fun _ => Preserves.pure _ _
  | assign s params => exact A.assign s params
  | setSc s => exact A.set_sc s
  | setTol s tol => exact A.setTol s tol
  | setG s b => exact A.set_g s b
  | setA s a =>
    exact (preserves_getSrc I s).bind fun _ => (Preserves.lift _ _).bind fun f =>
      A.cols s fun c => { c with f_orb := f }
  | setCols s c => exact A.cols s fun _ => c
  | setPlain s t n b => exact absurd rfl (hop' s t n b)
  | getSnr s a n w => exact (A.get_snr s a n w).bind fun _ => Preserves.pure _ _
  | getSnrStationary s a w => exact (A.get_snr_stationary s a w).bind fun _ => Preserves.pure _ _
  | getSnrEvolving s a n w => exact (A.get_snr_evolving s a n w).bind fun _ => Preserves.pure _ _
  | getMask s c st t => exact (A.get_source_mask s c st t).bind fun _ => Preserves.pure _ _
  | mergerTime s save w ex => exact (A.get_merger_time s save w ex).bind fun _ => Preserves.pure _ _
  | evolve s t => exact A.evolve_sources s t
  | evolveNew s t => exact absurd rfl (hop s t)
  | getitem s ind => exact (A.getitem' s ind).bind fun _ => Preserves.pure _ _
  | copy s => exact (A.getitem' s _).bind fun _ => Preserves.pure _ _
  | init cls args => exact (A.init cls args).bind fun _ => Preserves.pure _ _
  | verification vbs rand => exact (A.verification vbs rand).bind fun _ => Preserves.pure _ _
  | load Φ st cls name ig isc np => exact (A.from_file Φ st cls name ig isc np).bind fun _ => Preserves.pure _ _

end Atoms

/-! ### The outcome of indexing -/

theorem pick_snr_run (m : Sel) (r? : Option ℕ) (h : Heap) :
    (∃ e, pick_snr m r? h = (.error e, h)) ∨
    ∃ r' h', pick_snr m r? h = (.ok r', h') ∧ ((r? = none ∧ r' = none ∧ h' = h) ∨
      ∃ r xs, r? = some r ∧ r' = some h.next ∧ pick m (h.snrs r) = .ok xs ∧ h' = (h.setSnr h.next xs).bump) := by
  rcases r? with _ | r
  · exact Or.inr ⟨none, h, rfl, Or.inl ⟨rfl, rfl, rfl⟩⟩
  · rcases hp : pick m (h.snrs r) with e | xs
    · left
      refine ⟨e, ?_⟩
      simp only [pick_snr, bind_run, get_run, lift_run, hp]
      try rfl
    · right
      refine ⟨some h.next, _, ?_, Or.inr ⟨r, xs, rfl, rfl, hp, rfl⟩⟩
      simp only [pick_snr, bind_run, get_run, lift_run, hp]
      try rfl

theorem pick_harm_run (m : Sel) (r? : Option ℕ) (h : Heap) :
    (∃ e, pick_harm m r? h = (.error e, h)) ∨
    ∃ r' h', pick_harm m r? h = (.ok r', h') ∧ ((r? = none ∧ r' = none ∧ h' = h) ∨
      ∃ r xs, r? = some r ∧ r' = some h.next ∧ pick m (h.harms r) = .ok xs ∧ h' = (h.setHarm h.next xs).bump) := by
  rcases r? with _ | r
  · exact Or.inr ⟨none, h, rfl, Or.inl ⟨rfl, rfl, rfl⟩⟩
  · rcases hp : pick m (h.harms r) with e | xs
    · left
      refine ⟨e, ?_⟩
      simp only [pick_harm, bind_run, get_run, lift_run, hp]
      try rfl
    · right
      refine ⟨some h.next, _, ?_, Or.inr ⟨r, xs, rfl, rfl, hp, rfl⟩⟩
      simp only [pick_harm, bind_run, get_run, lift_run, hp]
      try rfl

/-- What picking an SNR or harmonics array can do to the heap: new arrays only. -/
structure Grown (h h' : Heap) : Prop where
  src : h'.src = h.src
  par : h'.par = h.par
  trace : h'.trace = h.trace
  next : h.next ≤ h'.next
  snrs : ∀ r < h.next, h'.snrs r = h.snrs r
  harms : ∀ r < h.next, h'.harms r = h.harms r

theorem Grown.refl (h : Heap) : Grown h h := ⟨rfl, rfl, rfl, le_rfl, fun _ _ => rfl, fun _ _ => rfl⟩

theorem Grown.trans {h h' h'' : Heap} (a : Grown h h') (b : Grown h' h'') : Grown h h'' :=
  ⟨b.src.trans a.src, b.par.trans a.par, b.trace.trans a.trace, a.next.trans b.next,
    fun r hr => (b.snrs r (hr.trans_le a.next)).trans (a.snrs r hr),
    fun r hr => (b.harms r (hr.trans_le a.next)).trans (a.harms r hr)⟩

/-- A new array of picked values. -/
structure Picked {α : Type} (m : Sel) (next next' : ℕ) (old new : ℕ → List α) (r? r'? : Option ℕ) : Prop where
  none_iff : r? = none ↔ r'? = none
  some_of : ∀ r r', r? = some r → r'? = some r' → next ≤ r' ∧ r' < next' ∧ pick m (old r) = .ok (new r')

/-- The outcome of indexing: an exception leaves all objects alone, success creates a source and its parameters. -/
theorem getitem_mask_run (s : ℕ) (m : Sel) (h : Heap) :
    (∃ e h', getitem_mask s m h = (.error e, h') ∧ Grown h h') ∨
    ∃ cols snr harm p h₁, pick_cols m (h.src s).cols = .ok cols ∧ (h.src s).sc_params = some p ∧ Grown h h₁ ∧
      Picked m h.next h₁.next h.snrs h₁.snrs (h.src s).snr snr ∧
      Picked m h.next h₁.next h.harms h₁.harms (h.src s).max_snr_harmonic harm ∧
      (∀ r r', snr = some r → harm = some r' → r ≠ r') ∧
      ((∃ e, filled_params (some (h.par p).dict) = .error e) ∨
      ∃ d, filled_params (some (h.par p).dict) = .ok d ∧
        getitem_mask s m h = (.ok h₁.next,
          { next := h₁.next + 2,
            src := Function.update h.src h₁.next { h.src s with
              cols := cols, snr := snr, max_snr_harmonic := harm, sc_params := some (h₁.next + 1) },
            par := Function.update h.par (h₁.next + 1) ⟨d, some h₁.next⟩,
            snrs := h₁.snrs, harms := h₁.harms, trace := h.trace })) := by
  unfold getitem_mask
  rw [bind_run]
  simp only [getSrc]
  rw [bind_run]
  simp only [lift_run]
  rcases hc : pick_cols m (h.src s).cols with e | cols
  · exact Or.inl ⟨e, h, rfl, Grown.refl h⟩
  simp only
  rw [bind_run]
  rcases pick_snr_run m (h.src s).snr h with ⟨e, he⟩ | ⟨snr, h₀, he, hs⟩
  · rw [he]
    exact Or.inl ⟨e, h, rfl, Grown.refl h⟩
  have hg₀ : Grown h h₀ := by
    rcases hs with ⟨-, -, rfl⟩ | ⟨r, xs, -, -, -, rfl⟩
    · exact Grown.refl _
    · refine ⟨rfl, rfl, rfl, Nat.le_succ _, ?_, fun _ _ => rfl⟩
      intro r hr
      simp only [bump_snrs, setSnr_snrs]
      rw [Function.update_of_ne (by omega)]
  rw [he]
  simp only
  rw [bind_run]
  rcases pick_harm_run m (h.src s).max_snr_harmonic h₀ with ⟨e, he'⟩ | ⟨harm, h₁, he', hs'⟩
  · rw [he']
    exact Or.inl ⟨e, h₀, rfl, hg₀⟩
  have hg₁ : Grown h₀ h₁ := by
    rcases hs' with ⟨-, -, rfl⟩ | ⟨r, xs, -, -, -, rfl⟩
    · exact Grown.refl _
    · refine ⟨rfl, rfl, rfl, Nat.le_succ _, fun _ _ => rfl, ?_⟩
      intro r hr
      simp only [bump_harms, setHarm_harms]
      rw [Function.update_of_ne (by omega)]
  rw [he']
  simp only
  rw [bind_run]
  rcases hp : (h.src s).sc_params with _ | p
  · exact Or.inl ⟨_, h₁, rfl, hg₀.trans hg₁⟩
  right
  have hg := hg₀.trans hg₁
  refine ⟨cols, snr, harm, p, h₁, rfl, rfl, hg, ?_, ?_, ?_, ?_⟩
  · rcases hs with ⟨h1, h2, -⟩ | ⟨r, xs, h1, h2, h3, h4⟩
    · rw [h1, h2]; exact ⟨by simp, by simp⟩
    · rw [h1, h2]
      refine ⟨by simp, ?_⟩
      rintro r₁ r₂ ⟨⟩ ⟨⟩
      have : h.next < h₀.next := by rw [h4]; exact Nat.lt_succ_self _
      refine ⟨le_rfl, this.trans_le hg₁.next, ?_⟩
      rw [hg₁.snrs _ this, h3, h4]
      simp
  · rcases hs' with ⟨h1, h2, -⟩ | ⟨r, xs, h1, h2, h3, h4⟩
    · rw [h1, h2]; exact ⟨by simp, by simp⟩
    · rw [h1, h2]
      refine ⟨by simp, ?_⟩
      rintro r₁ r₂ ⟨⟩ ⟨⟩
      have : h₀.next < h₁.next := by rw [h4]; exact Nat.lt_succ_self _
      refine ⟨hg₀.next, this, ?_⟩
      have hh : h₀.harms = h.harms := by
        rcases hs with ⟨-, -, rfl⟩ | ⟨_, _, -, -, -, rfl⟩ <;> rfl
      rw [← hh, h3, h4]
      simp
  · intro r r' hr hr'
    rcases hs with ⟨h1, h2, -⟩ | ⟨_, xs, h1, h2, h3, h4⟩
    · rw [h2] at hr; cases hr
    · rcases hs' with ⟨h1', h2', -⟩ | ⟨_, xs', h1', h2', h3', h4'⟩
      · rw [h2'] at hr'; cases hr'
      · rw [h2] at hr
        rw [h2'] at hr'
        cases hr
        cases hr'
        rw [h4]
        simp
  · rcases hf : filled_params (some (h.par p).dict) with e | d
    · exact Or.inl ⟨e, rfl⟩
    right
    refine ⟨d, rfl, ?_⟩
    simp only [attr, pure_run]
    rw [bind_run]
    simp only [getPar]
    rw [bind_run]
    simp only [newSrc]
    rw [bind_run, new_params_run, hg.par, hf]
    simp only
    rw [bind_run]
    simp only [modSrc, modify_run, pure_run]
    simp [Heap.setSrc, Heap.setPar, Heap.bump, hg.src, hg.par, hg.trace]

end Legwork.source
