import Verif.Lemmas.SourceOps
import Verif.Spec.Arrays

/-!
# Which calls write SNR arrays
-/

namespace Legwork.source

open Legwork.Spec
open PyM hiding bind

/-- The array `r` has the values `v` (if `P`), and is not the current one of a source in `q`. -/
def Keep (P : Prop) (v : List (Option ℝ)) (r : ℕ) (q : ℕ → Prop) (h : Heap) : Prop :=
  r < h.next ∧ (P → h.snrs r = v) ∧ ∀ s, q s → (h.src s).snr ≠ some r

variable {P : Prop} {v : List (Option ℝ)} {r : ℕ} {q : ℕ → Prop} {W : World}

/-- Code that writes no existing SNR array but those of sources in `q`. -/
abbrev Keeps (P : Prop) (v : List (Option ℝ)) (r : ℕ) (q : ℕ → Prop) {α : Type} (m : M α) : Prop := Preserves (Keep P v r q) m

theorem keeps_modSrc {s : ℕ} {f : Src → Src} (hf : ∀ x, (f x).snr = x.snr) : Keeps P v r q (modSrc s f) := by
  intro h ⟨h1, h2, h3⟩
  refine ⟨h1, h2, fun s' hs' => ?_⟩
  change (Function.update h.src s (f (h.src s)) s').snr ≠ some r
  by_cases he : s' = s
  · subst he
    rw [Function.update_self, hf]
    exact h3 _ hs'
  · rw [Function.update_of_ne he]
    exact h3 _ hs'

theorem keeps_modPar {p : ℕ} {f : Params → Params} : Keeps P v r q (modPar p f) := fun _ h => h

theorem keeps_log {e : Event} : Keeps P v r q (logEvent e) := fun _ h => h

theorem keeps_newPar {x : Params} : Keeps P v r q (newPar x) := fun _ ⟨h1, h2, h3⟩ => ⟨Nat.lt_succ_of_lt h1, h2, h3⟩

theorem keeps_newHarm {x : List ℕ} : Keeps P v r q (newHarm x) := fun _ ⟨h1, h2, h3⟩ => ⟨Nat.lt_succ_of_lt h1, h2, h3⟩

theorem keeps_newSrc {x : Src} (hx : x.snr ≠ some r) : Keeps P v r q (newSrc x) := by
  intro h ⟨h1, h2, h3⟩
  refine ⟨Nat.lt_succ_of_lt h1, h2, fun s' hs' => ?_⟩
  change (Function.update h.src h.next x s').snr ≠ some r
  by_cases he : s' = h.next
  · subst he
    rw [Function.update_self]
    exact hx
  · rw [Function.update_of_ne he]
    exact h3 _ hs'

theorem keeps_newSnr {x : List (Option ℝ)} : Keeps P v r q (newSnr x) := by
  intro h ⟨h1, h2, h3⟩
  refine ⟨Nat.lt_succ_of_lt h1, fun hP => ?_, h3⟩
  change Function.update h.snrs h.next x r = v
  rw [Function.update_of_ne (Nat.ne_of_lt h1)]
  exact h2 hP

/-- Try the atoms, then take the code apart. -/
macro "keeps" : tactic => `(tactic|
  repeat' first
    | with_reducible exact Preserves.lift _ _
    | with_reducible exact Preserves.pure _ _
    | with_reducible exact Preserves.get _
    | with_reducible exact preserves_getSrc _ _
    | with_reducible exact preserves_getPar _ _
    | with_reducible exact preserves_attr _ _
    | with_reducible exact keeps_modPar
    | with_reducible exact keeps_log
    | with_reducible exact keeps_newPar
    | with_reducible exact keeps_newHarm
    | with_reducible exact keeps_newSnr
    | with_reducible assumption
    | with_reducible exact keeps_modSrc (fun _ => rfl)
    | with_reducible refine Preserves.bind ?_ (fun _ => ?_)
    | split)

theorem keeps_set_sc (s : ℕ) : Keeps P v r q (set_sc W s) := by
  unfold set_sc
  keeps

theorem keeps_re_interpolate_if (p : ℕ) (c : Prop) : Keeps P v r q (re_interpolate_if W p c) := by
  have h1 : ∀ s, Keeps P v r q (set_sc W s) := keeps_set_sc
  unfold re_interpolate_if re_interpolate
  split
  · refine Preserves.bind (preserves_getPar _ _) fun x => ?_
    split
    · exact keeps_set_sc _
    · exact Preserves.pure _ _
  · exact Preserves.pure _ _

theorem keeps_setitem (p : ℕ) (k : String) (x : PVal) : Keeps P v r q (params_setitem W p k x) := by
  unfold params_setitem
  refine Preserves.bind (Preserves.lift _ _) fun _ => Preserves.bind (preserves_getPar _ _) fun _ =>
    Preserves.bind keeps_modPar fun _ => keeps_re_interpolate_if p _

theorem keeps_update (p : ℕ) (kvs : Dict) : Keeps P v r q (params_update W p kvs) := by
  unfold params_update
  refine Preserves.bind (Preserves.lift _ _) fun _ => Preserves.bind (preserves_getPar _ _) fun _ =>
    Preserves.bind keeps_modPar fun _ => keeps_re_interpolate_if p _

theorem keeps_new_params (d : Option Dict) (o : Option ℕ) : Keeps P v r q (new_params d o) := by
  unfold new_params
  keeps

theorem keeps_set_sc_params (s : ℕ) (d : Option Dict) : Keeps P v r q (set_sc_params W s d) := by
  unfold set_sc_params params_changed
  have h1 : Keeps P v r q (new_params d (some s)) := keeps_new_params d (some s)
  have h2 : Keeps P v r q (set_sc W s) := keeps_set_sc s
  keeps

theorem keeps_set_gw_lum_tol (s : ℕ) (tol : ℝ) : Keeps P v r q (set_gw_lum_tol W s tol) := by
  unfold set_gw_lum_tol derive_tolerances
  keeps

theorem keeps_getSrcPar (s : ℕ) : Keeps P v r q (getSrcPar s) := by
  unfold getSrcPar
  keeps

theorem keeps_getSettings (s : ℕ) : Keeps P v r q (getSettings s) := by
  unfold getSettings
  keeps

theorem keeps_match_params (s : ℕ) (a : SnrArgs) (b : Bool) : Keeps P v r q (match_params W s a b) := by
  unfold match_params
  exact Preserves.bind (keeps_getSrcPar s) fun p => Preserves.bind (preserves_getPar _ _) fun _ =>
    Preserves.bind (Preserves.lift _ _) fun _ => Preserves.bind (keeps_update p _) fun _ => Preserves.pure _ _

theorem keeps_store_snr {s : ℕ} {x : List (Option ℝ)} : Keeps P v r q (store_snr s x) := by
  intro h ⟨h1, h2, h3⟩
  refine ⟨Nat.lt_succ_of_lt h1, fun hP => ?_, fun s' hs' => ?_⟩
  · change Function.update h.snrs h.next x r = v
    rw [Function.update_of_ne (Nat.ne_of_lt h1)]
    exact h2 hP
  · change (Function.update h.src s { h.src s with snr := some h.next } s').snr ≠ some r
    by_cases he : s' = s
    · subst he
      rw [Function.update_self]
      simpa using (Nat.ne_of_lt h1).symm
    · rw [Function.update_of_ne he]
      exact h3 _ hs'

theorem keeps_ensure_harm (s : ℕ) : Keeps P v r q (ensure_harm s) := by
  unfold ensure_harm store_harm
  keeps

theorem keeps_ensure_snr (s : ℕ) : Keeps P v r q (ensure_snr s) := by
  have : ∀ x, Keeps P v r q (store_snr s x) := fun _ => keeps_store_snr
  unfold ensure_snr
  refine Preserves.bind (preserves_getSrc _ _) fun src => ?_
  split
  · exact Preserves.pure _ _
  · exact keeps_store_snr

theorem keeps_record_snr {s : ℕ} (hq : P → q s) (m : List Bool) (res : SnrState) : Keeps P v r q (record_snr s m res) := by
  unfold record_snr
  refine Preserves.bind (keeps_ensure_harm s) fun r' => Preserves.bind (Preserves.get _) fun _ =>
    Preserves.bind (Preserves.lift _ _) fun _ => Preserves.bind (fun _ h => h) fun _ => ?_
  refine Preserves.bind_of (fun r' _ => P → r' ≠ r) (keeps_ensure_snr s) ?_ ?_
  · intro h r' h' ⟨h1, h2, h3⟩ he hP
    have h3 := h3 s (hq hP)
    unfold ensure_snr at he
    rw [bind_run] at he
    simp only [getSrc] at he
    rcases hr : (h.src s).snr with _ | r₀
    · rw [hr] at he
      have : h.next = r' := by
        simpa [store_snr, newSnr, modSrc, bind_run] using congrArg Prod.fst he
      exact fun h4 => absurd h1 (by omega)
    · rw [hr] at he h3
      cases he
      exact fun h4 => h3 (by rw [h4])
  · intro r' h hk hne
    rw [bind_run]
    simp only [get_run]
    rw [bind_run]
    simp only [lift_run]
    rcases overwrite m (h.snrs r') res.1 with _ | x
    · exact hk
    · obtain ⟨h1, h2, h3⟩ := hk
      refine ⟨h1, fun hP => ?_, h3⟩
      change Function.update h.snrs r' x r = v
      rw [Function.update_of_ne (hne hP).symm]
      exact h2 hP

theorem keeps_get_snr_stationary {s : ℕ} (hq : P → q s) (a : SnrArgs) (w : Option (List Bool)) :
    Keeps P v r q (get_snr_stationary W s a w) := by
  unfold get_snr_stationary
  exact Preserves.bind (keeps_match_params s a true) fun a => Preserves.bind (preserves_getSrc _ _) fun _ =>
    Preserves.bind (keeps_getSettings s) fun _ => Preserves.bind (Preserves.lift _ _) fun _ =>
    Preserves.bind (Preserves.lift _ _) fun _ => Preserves.bind (keeps_record_snr hq _ _) fun _ => Preserves.lift _ _

theorem keeps_get_snr_evolving {s : ℕ} (hq : P → q s) (a : SnrArgs) (n : ℕ) (w : Option (List Bool)) :
    Keeps P v r q (get_snr_evolving W s a n w) := by
  unfold get_snr_evolving
  exact Preserves.bind (keeps_match_params s a true) fun a => Preserves.bind (preserves_getSrc _ _) fun _ =>
    Preserves.bind (keeps_getSettings s) fun _ => Preserves.bind (Preserves.lift _ _) fun _ =>
    Preserves.bind (Preserves.lift _ _) fun _ => Preserves.bind (keeps_record_snr hq _ _) fun _ => Preserves.lift _ _

theorem keeps_get_source_mask (s : ℕ) (c st : Tri) (t : PVal) : Keeps P v r q (get_source_mask W s c st t) := by
  unfold get_source_mask
  have h1 : Keeps P v r q (getSettings s) := keeps_getSettings s
  have h2 : Keeps P v r q (getSrcPar s) := keeps_getSrcPar s
  keeps

theorem keeps_snr_part {m : List Bool} {run : M (List (Option ℝ))} {x : List (Option ℝ)} (hr : Keeps P v r q run) :
    Keeps P v r q (snr_part m run x) := by
  unfold snr_part
  keeps

theorem keeps_get_snr {s : ℕ} (hq : P → q s) (a : SnrArgs) (n : ℕ) (w : Option (List Bool)) :
    Keeps P v r q (get_snr W s a n w) := by
  unfold get_snr
  refine Preserves.bind (preserves_getSrc _ _) fun src => ?_
  split
  · exact Preserves.bind (keeps_get_snr_stationary hq _ _) fun _ => keeps_store_snr
  · exact Preserves.bind (keeps_get_snr_evolving hq _ _ _) fun _ => keeps_store_snr
  · unfold Source_get_snr
    refine Preserves.bind (keeps_match_params s a false) fun a => Preserves.bind (preserves_getSrc _ _) fun _ =>
      Preserves.bind (keeps_get_source_mask s _ _ _) fun _ => Preserves.bind (Preserves.lift _ _) fun _ =>
      Preserves.bind (keeps_get_source_mask s _ _ _) fun _ => Preserves.bind (Preserves.lift _ _) fun _ => ?_
    exact Preserves.bind (keeps_snr_part (keeps_get_snr_stationary hq _ _)) fun _ =>
      Preserves.bind (keeps_snr_part (keeps_get_snr_evolving hq _ _ _)) fun _ => keeps_store_snr

theorem keeps_get_merger_time (s : ℕ) (b : Bool) (w : Option (List Bool)) (ex : Bool) :
    Keeps P v r q (get_merger_time W s b w ex) := by
  unfold get_merger_time save_merger_time
  keeps

theorem keeps_evolve_common (s : ℕ) (t : EvolTime) : Keeps P v r q (evolve_common W s t) := by
  unfold evolve_common ensure_t_merge
  refine Preserves.bind (Preserves.bind (preserves_getSrc _ _) fun src => ?_) fun _ =>
    Preserves.bind (preserves_getSrc _ _) fun _ => Preserves.bind (preserves_attr _ _) fun _ => Preserves.lift _ _
  split
  · exact Preserves.pure _ _
  · exact Preserves.bind (keeps_get_merger_time s _ _ _) fun _ => Preserves.pure _ _

theorem keeps_init (c : Cls) (a : InitArgs) : Keeps P v r q (init W c a) := by
  unfold init
  refine Preserves.bind (Preserves.lift _ _) fun _ => Preserves.bind (keeps_newSrc (by simp)) fun s => ?_
  exact Preserves.bind (keeps_set_gw_lum_tol s _) fun _ => Preserves.bind (keeps_set_sc_params s _) fun _ =>
    Preserves.bind (keeps_modSrc (fun _ => rfl)) fun _ => Preserves.pure _ _

theorem keeps_getitem (s : ℕ) (ind : Index) : Keeps P v r q (getitem s ind) := by
  have h1 : ∀ m o, Keeps P v r q (pick_snr m o) := by
    intro m o
    cases o
    · exact Preserves.pure _ _
    · unfold pick_snr
      keeps
  have h2 : ∀ m o, Keeps P v r q (pick_harm m o) := by
    intro m o
    cases o
    · exact Preserves.pure _ _
    · unfold pick_harm
      keeps
  have h3 : ∀ m, Keeps P v r q (getitem_mask s m) := by
    intro m
    unfold getitem_mask
    refine Preserves.bind (preserves_getSrc _ _) fun _ => Preserves.bind (Preserves.lift _ _) fun _ => ?_
    refine Preserves.bind_of (fun r' _ => r' ≠ some r) (h1 _ _) (fun h r' h' hk hp => ?_) fun r' h hk hne => ?_
    · rename_i src _
      rcases pick_snr_run m src.snr h with ⟨e, he⟩ | ⟨r'', h'', he, hc⟩
      · rw [he] at hp
        cases hp
      · rw [he] at hp
        cases hp
        rcases hc with ⟨-, rfl, -⟩ | ⟨_, _, -, rfl, -⟩
        · simp
        · simpa using (Nat.ne_of_lt hk.1).symm
    · refine (show Preserves (Keep P v r q) _ from ?_) h hk
      refine Preserves.bind (h2 _ _) fun _ => ?_
      refine Preserves.bind (preserves_attr _ _) fun _ => ?_
      refine Preserves.bind (preserves_getPar _ _) fun _ => ?_
      refine Preserves.bind (keeps_newSrc hne) fun _ => ?_
      refine Preserves.bind (keeps_new_params _ _) fun _ => ?_
      refine Preserves.bind (keeps_modSrc fun _ => rfl) fun _ => ?_
      exact Preserves.pure _ _
  unfold getitem
  refine Preserves.bind (preserves_getSrc _ _) fun _ => ?_
  split
  · exact Preserves.lift _ _
  · exact Preserves.bind (Preserves.lift _ _) fun _ => h3 _

theorem keeps_from_file (Φ : Files) (st : Store) (cls : Cls) (name : String) (ig isc : Option Bool) (np : Option ℕ) :
    Keeps P v r q (from_file W Φ st cls name ig isc np) := by
  have hr : ∀ f s, Keeps P v r q (restore f s) := by
    intro f s
    unfold restore restore_t_merge restore_snr restore_harm restore_merged
    refine Preserves.bind ?_ fun _ => Preserves.bind ?_ fun _ => Preserves.bind ?_ fun _ => ?_
    · split
      · exact keeps_modSrc fun _ => rfl
      · exact Preserves.pure _ _
    · split
      · exact Preserves.bind keeps_store_snr fun _ => Preserves.pure _ _
      · exact Preserves.pure _ _
    · split
      · unfold store_harm
        keeps
      · exact Preserves.pure _ _
    · split
      · exact keeps_modSrc fun _ => rfl
      · exact Preserves.pure _ _
  unfold from_file
  simp only
  split_ifs
  · rcases st (Φ.locate (normalise name)) with _ | _ | _ | f
    · exact Preserves.lift _ _
    · exact Preserves.lift _ _
    · exact Preserves.lift _ _
    · refine Preserves.bind (Preserves.lift _ _) fun _ => ?_
      split_ifs
      · exact Preserves.lift _ _
      · exact Preserves.bind (keeps_init _ _) fun s => Preserves.bind (hr f s) fun _ => Preserves.pure _ _
  · exact Preserves.lift _ _

theorem keeps_verification (vbs : Table) (rand : ℕ → ℝ) : Keeps P v r q (verification_binaries W vbs rand) := by
  unfold verification_binaries store_harm
  refine Preserves.bind (keeps_init _ _) fun _ => ?_
  keeps

/-- A call on an SNR method writes the SNR array of its source, no other call writes any. -/
theorem keeps_run (op : Op) (hq : ∀ s, op.snrOf = some s → P → q s) : Keeps P v r q (op.run W) := by
  have hu : ∀ {α : Type} {m : M α}, Keeps P v r q m → Keeps P v r q (do let _ ← m; pure ()) :=
    fun hm => Preserves.bind hm fun _ => Preserves.pure _ _
  cases op with
  | setitem p key value => exact keeps_setitem p key value
  | update p kvs => exact keeps_update p kvs
  | remove _ => exact Preserves.lift _ _
  | copyParams p => exact hu (Preserves.bind (preserves_getPar _ _) fun _ => keeps_new_params _ _)
  | assign s params => exact keeps_set_sc_params s params
  | setSc s => exact keeps_set_sc s
  | setTol s tol => exact keeps_set_gw_lum_tol s tol
  | setG s b => exact keeps_modSrc (fun _ => rfl)
  | setA s a =>
    exact Preserves.bind (preserves_getSrc _ _) fun _ => Preserves.bind (Preserves.lift _ _) fun _ => keeps_modSrc (fun _ => rfl)
  | setCols s c => exact keeps_modSrc (fun _ => rfl)
  | setPlain s t n b => exact keeps_modSrc (fun _ => rfl)
  | getSnr s a n w => exact hu (keeps_get_snr (hq s rfl) a n w)
  | getSnrStationary s a w => exact hu (keeps_get_snr_stationary (hq s rfl) a w)
  | getSnrEvolving s a n w => exact hu (keeps_get_snr_evolving (hq s rfl) a n w)
  | getMask s c st t => exact hu (keeps_get_source_mask s c st t)
  | mergerTime s save w ex => exact hu (keeps_get_merger_time s save w ex)
  | evolve s t => exact Preserves.bind (keeps_evolve_common s t) fun _ => keeps_modSrc (fun _ => rfl)
  | evolveNew s t =>
    exact hu (Preserves.bind (keeps_evolve_common s t) fun _ => Preserves.bind (preserves_getSrc _ _) fun _ =>
      Preserves.bind (preserves_attr _ _) fun _ => Preserves.bind (keeps_getSrcPar s) fun _ =>
      Preserves.bind (preserves_getPar _ _) fun _ => Preserves.bind (keeps_init _ _) fun _ =>
      Preserves.bind (keeps_modSrc (fun _ => rfl)) fun _ => Preserves.pure _ _)
  | getitem s ind => exact hu (keeps_getitem s ind)
  | copy s => exact hu (keeps_getitem s _)
  | init cls args => exact hu (keeps_init cls args)
  | verification vbs rand => exact hu (keeps_verification vbs rand)
  | load Φ st cls name ig isc np => exact hu (keeps_from_file Φ st cls name ig isc np)

end Legwork.source
