import Verif.Spec.Source

/-!
# No call frees an address
-/

namespace Legwork.source

open Legwork.Spec
open PyM hiding bind

/-- Addresses stay taken. -/
def Grows {α : Type} (m : M α) : Prop := ∀ h, h.next ≤ (m h).2.next

theorem Grows.bind {α β : Type} {m : M α} {f : α → M β} (hm : Grows m) (hf : ∀ a, Grows (f a)) : Grows (m >>= f) := by
  intro h
  have h1 := hm h
  rw [bind_run]
  rcases h2 : m h with ⟨_ | a, h'⟩ <;> rw [h2] at h1
  · exact h1
  · exact h1.trans (hf a h')

theorem Grows.lift {α : Type} (e : Except PyErr α) : Grows (PyM.lift e : M α) := fun _ => le_rfl

theorem Grows.modSrc (s : ℕ) (f : Src → Src) : Grows (modSrc s f) := fun _ => le_rfl

theorem Grows.logEvent (e : Event) : Grows (logEvent e) := fun _ => le_rfl

/-- Try the atoms, then take the code apart. -/
macro "grows" : tactic => `(tactic|
  repeat' first
    | with_reducible exact Grows.lift _
    | with_reducible exact Grows.modSrc _ _
    | with_reducible exact Grows.logEvent _
    | with_reducible assumption
    | with_reducible refine Grows.bind ?_ (fun _ => ?_)
    | split
    | exact fun _ => le_rfl
    | exact fun _ => Nat.le_succ _)

theorem grows_attr {α : Type} (o : Option α) : Grows (attr o) := by
  cases o <;> exact fun _ => le_rfl

theorem grows_set_sc (W : World) (s : ℕ) : Grows (set_sc W s) := by
  have h1 : ∀ {α : Type} (o : Option α), Grows (attr o) := grows_attr
  unfold set_sc
  refine Grows.bind (fun _ => le_rfl) fun src => ?_
  split
  · refine Grows.bind (grows_attr _) fun p => ?_
    grows
  · exact fun _ => le_rfl

theorem grows_re_interpolate (W : World) (p : ℕ) : Grows (re_interpolate W p) := by
  unfold re_interpolate
  refine Grows.bind (fun _ => le_rfl) fun x => ?_
  split
  · exact grows_set_sc W _
  · exact fun _ => le_rfl

theorem grows_re_interpolate_if (W : World) (p : ℕ) (c : Prop) : Grows (re_interpolate_if W p c) := by
  unfold re_interpolate_if
  split
  · exact grows_re_interpolate W p
  · exact fun _ => le_rfl

theorem grows_setitem (W : World) (p : ℕ) (k : String) (v : PVal) : Grows (params_setitem W p k v) := by
  unfold params_setitem
  have := grows_re_interpolate_if W p
  refine Grows.bind (fun _ => le_rfl) fun _ => Grows.bind (fun _ => le_rfl) fun _ => Grows.bind (fun _ => le_rfl) fun _ => ?_
  exact this _

theorem grows_update (W : World) (p : ℕ) (kvs : Dict) : Grows (params_update W p kvs) := by
  unfold params_update
  have := grows_re_interpolate_if W p
  refine Grows.bind (fun _ => le_rfl) fun _ => Grows.bind (fun _ => le_rfl) fun _ => Grows.bind (fun _ => le_rfl) fun _ => ?_
  exact this _

theorem grows_new_params (d : Option Dict) (o : Option ℕ) : Grows (new_params d o) := by
  unfold new_params
  grows

theorem grows_set_sc_params (W : World) (s : ℕ) (d : Option Dict) : Grows (set_sc_params W s d) := by
  unfold set_sc_params params_changed
  have h1 := grows_new_params d (some s)
  have h2 := grows_set_sc W s
  grows

theorem grows_set_gw_lum_tol (W : World) (s : ℕ) (tol : ℝ) : Grows (set_gw_lum_tol W s tol) := by
  unfold set_gw_lum_tol derive_tolerances
  grows

theorem grows_getSrcPar (s : ℕ) : Grows (getSrcPar s) := by
  unfold getSrcPar
  exact Grows.bind (fun _ => le_rfl) fun _ => grows_attr _

theorem grows_getSettings (s : ℕ) : Grows (getSettings s) := by
  unfold getSettings
  refine Grows.bind (fun _ => le_rfl) fun _ => ?_
  refine Grows.bind (grows_attr _) fun _ => ?_
  refine Grows.bind (grows_attr _) fun _ => ?_
  exact fun _ => le_rfl

theorem grows_match_params (W : World) (s : ℕ) (a : SnrArgs) (b : Bool) : Grows (match_params W s a b) := by
  unfold match_params
  refine Grows.bind (grows_getSrcPar s) fun p => Grows.bind (fun _ => le_rfl) fun _ => Grows.bind (fun _ => le_rfl) fun _ => ?_
  exact Grows.bind (grows_update W p _) fun _ => fun _ => le_rfl

theorem grows_store_snr (s : ℕ) (xs : List (Option ℝ)) : Grows (store_snr s xs) := by
  unfold store_snr
  grows

theorem grows_record_snr (s : ℕ) (m : List Bool) (res : SnrState) : Grows (record_snr s m res) := by
  unfold record_snr ensure_harm ensure_snr store_harm store_snr
  grows

theorem grows_get_snr_stationary (W : World) (s : ℕ) (a : SnrArgs) (w : Option (List Bool)) :
    Grows (get_snr_stationary W s a w) := by
  unfold get_snr_stationary
  refine Grows.bind (grows_match_params W s a true) fun a => Grows.bind (fun _ => le_rfl) fun _ =>
    Grows.bind (grows_getSettings s) fun _ => Grows.bind (fun _ => le_rfl) fun _ => Grows.bind (fun _ => le_rfl) fun _ => ?_
  exact Grows.bind (grows_record_snr s _ _) fun _ => fun _ => le_rfl

theorem grows_get_snr_evolving (W : World) (s : ℕ) (a : SnrArgs) (n : ℕ) (w : Option (List Bool)) :
    Grows (get_snr_evolving W s a n w) := by
  unfold get_snr_evolving
  refine Grows.bind (grows_match_params W s a true) fun a => Grows.bind (fun _ => le_rfl) fun _ =>
    Grows.bind (grows_getSettings s) fun _ => Grows.bind (fun _ => le_rfl) fun _ => Grows.bind (fun _ => le_rfl) fun _ => ?_
  exact Grows.bind (grows_record_snr s _ _) fun _ => fun _ => le_rfl

theorem grows_get_source_mask (W : World) (s : ℕ) (c st : Tri) (t : PVal) : Grows (get_source_mask W s c st t) := by
  unfold get_source_mask
  have h1 := grows_getSettings s
  have h2 := grows_getSrcPar s
  grows

theorem grows_snr_part {m : List Bool} {run : M (List (Option ℝ))} {x : List (Option ℝ)} (hr : Grows run) :
    Grows (snr_part m run x) := by
  unfold snr_part
  grows

theorem grows_get_snr (W : World) (s : ℕ) (a : SnrArgs) (n : ℕ) (w : Option (List Bool)) :
    Grows (get_snr W s a n w) := by
  unfold get_snr
  refine Grows.bind (fun _ => le_rfl) fun src => ?_
  split
  · exact Grows.bind (grows_get_snr_stationary W s _ _) fun _ => grows_store_snr s _
  · exact Grows.bind (grows_get_snr_evolving W s _ _ _) fun _ => grows_store_snr s _
  · unfold Source_get_snr
    refine Grows.bind (grows_match_params W s a false) fun a => Grows.bind (fun _ => le_rfl) fun _ =>
      Grows.bind (grows_get_source_mask W s _ _ _) fun _ => Grows.bind (fun _ => le_rfl) fun _ =>
      Grows.bind (grows_get_source_mask W s _ _ _) fun _ => Grows.bind (fun _ => le_rfl) fun _ => ?_
    exact Grows.bind (grows_snr_part (grows_get_snr_stationary W s _ _)) fun _ =>
      Grows.bind (grows_snr_part (grows_get_snr_evolving W s _ _ _)) fun _ => grows_store_snr s _

theorem grows_get_merger_time (W : World) (s : ℕ) (b : Bool) (w : Option (List Bool)) (ex : Bool) :
    Grows (get_merger_time W s b w ex) := by
  unfold get_merger_time save_merger_time
  grows

theorem grows_evolve_common (W : World) (s : ℕ) (t : EvolTime) : Grows (evolve_common W s t) := by
  unfold evolve_common ensure_t_merge
  refine Grows.bind (Grows.bind (fun _ => le_rfl) fun src => ?_) fun _ => Grows.bind (fun _ => le_rfl) fun _ =>
    Grows.bind (grows_attr _) fun _ => fun _ => le_rfl
  split
  · exact fun _ => le_rfl
  · exact Grows.bind (grows_get_merger_time W s _ _ _) fun _ => fun _ => le_rfl

theorem grows_init (W : World) (c : Cls) (a : InitArgs) : Grows (init W c a) := by
  unfold init
  refine Grows.bind (fun _ => le_rfl) fun _ => Grows.bind (fun _ => Nat.le_succ _) fun s => ?_
  refine Grows.bind (grows_set_gw_lum_tol W s _) fun _ => Grows.bind (grows_set_sc_params W s _) fun _ =>
    Grows.bind (fun _ => le_rfl) fun _ => fun _ => le_rfl

theorem grows_getitem (s : ℕ) (ind : Index) : Grows (getitem s ind) := by
  have h1 : ∀ m o, Grows (pick_snr m o) := by
    intro m o
    cases o
    · exact fun _ => le_rfl
    · unfold pick_snr
      grows
  have h2 : ∀ m o, Grows (pick_harm m o) := by
    intro m o
    cases o
    · exact fun _ => le_rfl
    · unfold pick_harm
      grows
  have h3 : ∀ m, Grows (getitem_mask s m) := by
    intro m
    unfold getitem_mask
    refine Grows.bind (fun _ => le_rfl) fun _ => Grows.bind (fun _ => le_rfl) fun _ => Grows.bind (h1 _ _) fun _ =>
      Grows.bind (h2 _ _) fun _ => Grows.bind (grows_attr _) fun _ => Grows.bind (fun _ => le_rfl) fun _ =>
      Grows.bind (fun _ => Nat.le_succ _) fun _ => Grows.bind (grows_new_params _ _) fun _ =>
      Grows.bind (fun _ => le_rfl) fun _ => fun _ => le_rfl
  unfold getitem
  refine Grows.bind (fun _ => le_rfl) fun _ => ?_
  split
  · exact fun _ => le_rfl
  · exact Grows.bind (fun _ => le_rfl) fun _ => h3 _

theorem grows_from_file (W : World) (Φ : Files) (st : Store) (cls : Cls) (name : String) (ig isc : Option Bool)
    (np : Option ℕ) : Grows (from_file W Φ st cls name ig isc np) := by
  have h : ∀ f s, Grows (restore f s) := by
    intro f s
    unfold restore restore_t_merge restore_snr restore_harm restore_merged store_snr store_harm
    refine Grows.bind ?_ fun _ => Grows.bind ?_ fun _ => Grows.bind ?_ fun _ => ?_
    all_goals
      split
      · grows
      · exact fun _ => le_rfl
  unfold from_file
  simp only
  split_ifs
  · rcases st (Φ.locate (normalise name)) with _ | _ | _ | f
    · exact fun _ => le_rfl
    · exact fun _ => le_rfl
    · exact fun _ => le_rfl
    · refine Grows.bind (fun _ => le_rfl) fun _ => ?_
      split_ifs
      · exact fun _ => le_rfl
      · exact Grows.bind (grows_init W _ _) fun s => Grows.bind (h f s) fun _ => fun _ => le_rfl
  · exact fun _ => le_rfl

theorem grows_verification (W : World) (vbs : Table) (rand : ℕ → ℝ) : Grows (verification_binaries W vbs rand) := by
  unfold verification_binaries store_harm
  refine Grows.bind (grows_init W _ _) fun _ => ?_
  grows

/-- No call frees an address. -/
theorem run_grows (W : World) (op : Op) (h : Heap) : h.next ≤ (op.run W h).2.next := by
  have hu : ∀ {α : Type} {m : M α}, Grows m → Grows (do let _ ← m; pure ()) :=
    fun hm => Grows.bind hm fun _ => fun _ => le_rfl
  suffices Grows (op.run W) from this h
  cases op with
  | setitem p key value => exact grows_setitem W p key value
  | update p kvs => exact grows_update W p kvs
  | remove _ => exact fun _ => le_rfl
  | copyParams p => exact hu (Grows.bind (fun _ => le_rfl) fun _ => grows_new_params _ _)
  | assign s params => exact grows_set_sc_params W s params
  | setSc s => exact grows_set_sc W s
  | setTol s tol => exact grows_set_gw_lum_tol W s tol
  | setG s b => exact fun _ => le_rfl
  | setA s a => exact Grows.bind (fun _ => le_rfl) fun _ => Grows.bind (fun _ => le_rfl) fun _ => fun _ => le_rfl
  | setCols s c => exact fun _ => le_rfl
  | setPlain s t n b => exact fun _ => le_rfl
  | getSnr s a n w => exact hu (grows_get_snr W s a n w)
  | getSnrStationary s a w => exact hu (grows_get_snr_stationary W s a w)
  | getSnrEvolving s a n w => exact hu (grows_get_snr_evolving W s a n w)
  | getMask s c st t => exact hu (grows_get_source_mask W s c st t)
  | mergerTime s save w ex => exact hu (grows_get_merger_time W s save w ex)
  | evolve s t => exact Grows.bind (grows_evolve_common W s t) fun _ => fun _ => le_rfl
  | evolveNew s t =>
    refine hu (Grows.bind (grows_evolve_common W s t) fun _ => Grows.bind (fun _ => le_rfl) fun _ =>
      Grows.bind (grows_attr _) fun _ => Grows.bind (grows_getSrcPar s) fun _ => Grows.bind (fun _ => le_rfl) fun _ =>
      Grows.bind (grows_init W _ _) fun _ => Grows.bind (fun _ => le_rfl) fun _ => fun _ => le_rfl)
  | getitem s ind => exact hu (grows_getitem s ind)
  | copy s => exact hu (grows_getitem s _)
  | init cls args => exact hu (grows_init W cls args)
  | verification vbs rand => exact hu (grows_verification W vbs rand)
  | load Φ st cls name ig isc np => exact hu (grows_from_file W Φ st cls name ig isc np)

end Legwork.source
