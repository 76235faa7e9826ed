import Verif.Spec.Independent
import Verif.Lemmas.SourceSnr

/-!
# Calls on other sources
-/

namespace Legwork.source

open Legwork.Spec
open PyM hiding bind

variable {W : World} {s₀ s : ℕ} {h₀ h h' : Heap}

theorem Untouched.refl (h : Heap) (s : ℕ) : Untouched h h s := ⟨rfl, fun _ _ => rfl, fun _ _ => rfl, fun _ _ => rfl⟩

theorem Untouched.trans {h h' h'' : Heap} (a : Untouched h h' s) (b : Untouched h' h'' s) : Untouched h h'' s where
  src := b.src.trans a.src
  params p hp := (b.params p (by rw [a.src]; exact hp)).trans (a.params p hp)
  snr p hp := (b.snr p (by rw [a.src]; exact hp)).trans (a.snr p hp)
  harm p hp := (b.harm p (by rw [a.src]; exact hp)).trans (a.harm p hp)

/-- The existing source `s₀` has not been touched since `h₀`. -/
structure Away (W : World) (h₀ : Heap) (s₀ : ℕ) (h : Heap) : Prop where
  inv : Inv W false h
  lt : s₀ < h.next
  same : Untouched h₀ h s₀

theorem Away.step (ha : Away W h₀ s₀ h) (hi : Inv W false h') (hn : h.next ≤ h'.next) (hu : Untouched h h' s₀) :
    Away W h₀ s₀ h' := ⟨hi, ha.lt.trans_le hn, Untouched.trans ha.same hu⟩

theorem Away.param_lt (ha : Away W h₀ s₀ h) {p : ℕ} (hp : (h.src s₀).sc_params = some p) :
    p < h.next ∧ (h.par p).source = some s₀ := ⟨((ha.inv.sc s₀).1 p hp).1, ((ha.inv.sc s₀).1 p hp).2.1⟩

/-- A step that replaces another source and possibly adds new objects. -/
theorem Away.of_setSrc (ha : Away W h₀ s₀ h) (hi : Inv W false h') (hn : h.next ≤ h'.next)
    (hs : h'.src s₀ = h.src s₀) (hp : ∀ p < h.next, h'.par p = h.par p) (hr : ∀ r < h.next, h'.snrs r = h.snrs r)
    (hm : ∀ r < h.next, h'.harms r = h.harms r) : Away W h₀ s₀ h' :=
  ha.step hi hn ⟨hs, fun p hq => hp p (ha.param_lt hq).1, fun r hq => hr r ((ha.inv.addr s₀).1 r hq).1,
    fun r hq => hm r ((ha.inv.addr s₀).2 r hq).1⟩

variable (W) in
/-- `m` leaves `s₀` alone. -/
def Leaves (s₀ : ℕ) {α : Type} (m : M α) : Prop := ∀ h₀, Preserves (Away W h₀ s₀) m

theorem Leaves.bind {α β : Type} {m : M α} {f : α → M β} (hm : Leaves W s₀ m) (hf : ∀ a, Leaves W s₀ (f a)) :
    Leaves W s₀ (m >>= f) := fun h₀ => (hm h₀).bind fun a => hf a h₀

theorem Leaves.pure {α : Type} (a : α) : Leaves W s₀ (Pure.pure a : M α) := fun _ => Preserves.pure _ _

theorem Leaves.lift {α : Type} (a : Except PyErr α) : Leaves W s₀ (PyM.lift a : M α) := fun _ => Preserves.lift _ _

theorem leaves_getSrc (s : ℕ) : Leaves W s₀ (getSrc s) := fun _ => preserves_getSrc _ s

theorem leaves_getPar (p : ℕ) : Leaves W s₀ (getPar p) := fun _ => preserves_getPar _ p

theorem leaves_attr {α : Type} (x : Option α) : Leaves W s₀ (attr x) := fun _ => preserves_attr _ x

theorem leaves_getSettings (s : ℕ) : Leaves W s₀ (getSettings s) :=
  (leaves_getSrc s).bind fun _ => (leaves_attr _).bind fun _ => (leaves_attr _).bind fun _ => Leaves.pure _

theorem leaves_modSrc (hs : s ≠ s₀) {f : Src → Src} (hf : Preserves (Inv W false) (modSrc s f)) :
    Leaves W s₀ (modSrc s f) := fun h₀ h ha =>
  ha.of_setSrc (hf h ha.inv) le_rfl (by
    change Function.update h.src s _ s₀ = _
    rw [Function.update_of_ne (Ne.symm hs)]) (fun _ _ => rfl) (fun _ _ => rfl) fun _ _ => rfl

theorem leaves_store_snr (hs : s ≠ s₀) (x : List (Option ℝ)) : Leaves W s₀ (store_snr s x) := fun h₀ h ha =>
  ha.of_setSrc ((inv_atoms W false).store_snr s x h ha.inv) (Nat.le_succ _) (by
    rw [store_snr_run]
    simp [Ne.symm hs]) (fun _ _ => rfl) (fun r hr => by
      rw [store_snr_run]
      simp [Nat.ne_of_lt hr]) fun _ _ => rfl

theorem leaves_store_harm (hs : s ≠ s₀) (x : List ℕ) : Leaves W s₀ (store_harm s x) := fun h₀ h ha =>
  ha.of_setSrc ((inv_atoms W false).store_harm s x h ha.inv) (Nat.le_succ _) (by
    rw [store_harm_run]
    simp [Ne.symm hs]) (fun _ _ => rfl) (fun _ _ => rfl) fun r hr => by
      rw [store_harm_run]
      simp [Nat.ne_of_lt hr]

theorem leaves_ensure_harm (hs : s ≠ s₀) : Leaves W s₀ (ensure_harm s) := by
  refine (leaves_getSrc s).bind fun src => ?_
  rcases src.max_snr_harmonic with _ | r
  · exact leaves_store_harm hs _
  · exact Leaves.pure _

theorem leaves_ensure_snr (hs : s ≠ s₀) : Leaves W s₀ (ensure_snr s) := by
  refine (leaves_getSrc s).bind fun src => ?_
  rcases src.snr with _ | r
  · exact leaves_store_snr hs _
  · exact Leaves.pure _

theorem ensure_harm_own {r : ℕ} (hr : ensure_harm s h = (.ok r, h')) : (h'.src s).max_snr_harmonic = some r := by
  unfold ensure_harm at hr
  rw [bind_run] at hr
  simp only [getSrc] at hr
  rcases hm : (h.src s).max_snr_harmonic with _ | q
  · rw [hm] at hr
    simp only [store_harm_run] at hr
    obtain ⟨e1, rfl⟩ := Prod.mk.inj hr
    cases e1
    simp
  · rw [hm] at hr
    obtain ⟨e1, rfl⟩ := Prod.mk.inj hr
    cases e1
    exact hm

theorem ensure_snr_own {r : ℕ} (hr : ensure_snr s h = (.ok r, h')) : (h'.src s).snr = some r := by
  unfold ensure_snr at hr
  rw [bind_run] at hr
  simp only [getSrc] at hr
  rcases hm : (h.src s).snr with _ | q
  · rw [hm] at hr
    simp only [store_snr_run] at hr
    obtain ⟨e1, rfl⟩ := Prod.mk.inj hr
    cases e1
    simp
  · rw [hm] at hr
    obtain ⟨e1, rfl⟩ := Prod.mk.inj hr
    cases e1
    exact hm

theorem away_setSnr (hs : s ≠ s₀) {r : ℕ} (x : List (Option ℝ)) (ha : Away W h₀ s₀ h) (hr : (h.src s).snr = some r) :
    Away W h₀ s₀ (h.setSnr r x) := by
  refine ha.step ((inv_atoms W false).setSnr r x h ha.inv) le_rfl ⟨rfl, fun _ _ => rfl, fun q hq => ?_, fun _ _ => rfl⟩
  rw [setSnr_snrs, Function.update_of_ne]
  rintro rfl
  exact hs (((ha.inv.addr s₀).1 q hq).2 s hr)

theorem away_setHarm (hs : s ≠ s₀) {r : ℕ} (x : List ℕ) (ha : Away W h₀ s₀ h)
    (hr : (h.src s).max_snr_harmonic = some r) : Away W h₀ s₀ (h.setHarm r x) := by
  refine ha.step ((inv_atoms W false).setHarm r x h ha.inv) le_rfl ⟨rfl, fun _ _ => rfl, fun _ _ => rfl, fun q hq => ?_⟩
  rw [setHarm_harms, Function.update_of_ne]
  rintro rfl
  exact hs (((ha.inv.addr s₀).2 q hq).2 s hr)

theorem leaves_record_snr (hs : s ≠ s₀) (insp : List Bool) (res : SnrState) :
    Leaves W s₀ (record_snr s insp res) := by
  intro h₀
  refine Preserves.bind_of (fun r h => (h.src s).max_snr_harmonic = some r) (leaves_ensure_harm hs h₀)
    (fun _ _ _ _ hr => ensure_harm_own hr) fun r h ha hr => ?_
  rw [bind_run, get_run]
  simp only
  rw [bind_run, lift_run]
  rcases overwrite insp (h.harms r) res.2 with e | x
  · exact ha
  simp only
  rw [bind_run, modify_run]
  simp only
  refine (Preserves.bind_of (fun r h => (h.src s).snr = some r) (leaves_ensure_snr hs h₀)
    (fun _ _ _ _ hr => ensure_snr_own hr) fun r h ha hr => ?_) _ (away_setHarm hs x ha hr)
  rw [bind_run, get_run]
  simp only
  rw [bind_run, lift_run]
  rcases overwrite insp (h.snrs r) res.1 with e | x
  · exact ha
  simp only
  rw [modify_run]
  exact away_setSnr hs x ha hr

/-! ### Parameters -/

theorem set_sc_away (hs : s ≠ s₀) (h : Heap) : (set_sc W s h).2.src s₀ = h.src s₀ ∧ (set_sc W s h).2.par = h.par ∧
    (set_sc W s h).2.snrs = h.snrs ∧ (set_sc W s h).2.harms = h.harms ∧ h.next ≤ (set_sc W s h).2.next := by
  have h1 := set_sc_scOnly W s h
  refine ⟨?_, set_sc_par W s h, h1.snrs, h1.harms, h1.next⟩
  rw [set_sc_run]
  split_ifs
  · rcases (h.src s).sc_params with _ | p
    · rfl
    · simp only
      rcases curve W (h.par p).dict with e | c
      · rfl
      · simp [Ne.symm hs]
  · simp [Ne.symm hs]

theorem re_interpolate_away {p : ℕ} {h : Heap} (hp : (h.par p).source ≠ some s₀) :
    (re_interpolate W p h).2.src s₀ = h.src s₀ ∧ (re_interpolate W p h).2.par = h.par ∧
    (re_interpolate W p h).2.snrs = h.snrs ∧ (re_interpolate W p h).2.harms = h.harms ∧
    h.next ≤ (re_interpolate W p h).2.next := by
  rw [re_interpolate_run]
  rcases hc : (h.par p).source with _ | s
  · exact ⟨rfl, rfl, rfl, rfl, le_rfl⟩
  · exact set_sc_away (fun hh => hp (by rw [hc, hh])) h

theorem away_changed {p : ℕ} {d : Dict} (ha : Away W h₀ s₀ h) (hp : (h.par p).source ≠ some s₀)
    (hh : ∃ k : Heap, h' = k ∧ (k = h.setPar p { h.par p with dict := d } ∨
      k = (re_interpolate W p (h.setPar p { h.par p with dict := d })).2)) (hi : Inv W false h') : Away W h₀ s₀ h' := by
  obtain ⟨k, rfl, hk⟩ := hh
  have hne : ∀ q, (h.src s₀).sc_params = some q → q ≠ p := by
    rintro q hq rfl
    exact hp (ha.param_lt hq).2
  rcases hk with rfl | rfl
  · refine ha.step hi le_rfl ⟨rfl, fun q hq => ?_, fun _ _ => rfl, fun _ _ => rfl⟩
    rw [setPar_par, Function.update_of_ne (hne q hq)]
  · obtain ⟨h1, h2, h3, h4, h5⟩ := re_interpolate_away (W := W) (s₀ := s₀)
      (h := h.setPar p { h.par p with dict := d }) (p := p) (by simpa using hp)
    refine ha.step hi h5 ⟨h1, fun q hq => ?_, fun r _ => by rw [h3]; rfl, fun r _ => by rw [h4]; rfl⟩
    rw [h2, setPar_par, Function.update_of_ne (hne q hq)]

theorem away_setitem {p : ℕ} (key : String) (v : PVal) (ha : Away W h₀ s₀ h) (hp : (h.par p).source ≠ some s₀) :
    Away W h₀ s₀ (params_setitem W p key v h).2 := by
  have hi := (inv_atoms W false).setitem p key v h ha.inv
  rcases params_setitem_run W p key v h with ⟨-, hr⟩ | ⟨-, -, hr⟩ | ⟨-, -, hr⟩ <;> rw [hr] at hi ⊢
  · exact ha
  · exact away_changed ha hp ⟨_, rfl, Or.inl rfl⟩ hi
  · exact away_changed ha hp ⟨_, rfl, Or.inr rfl⟩ hi

theorem away_update {p : ℕ} (kvs : Dict) (ha : Away W h₀ s₀ h) (hp : (h.par p).source ≠ some s₀) :
    Away W h₀ s₀ (params_update W p kvs h).2 := by
  have hi := (inv_atoms W false).update p kvs h ha.inv
  rcases params_update_run W p kvs h with ⟨-, hr⟩ | ⟨-, -, hr⟩ | ⟨-, -, hr⟩ <;> rw [hr] at hi ⊢
  · exact ha
  · exact away_changed ha hp ⟨_, rfl, Or.inl rfl⟩ hi
  · exact away_changed ha hp ⟨_, rfl, Or.inr rfl⟩ hi

theorem leaves_match_params (hs : s ≠ s₀) (a : SnrArgs) (b : Bool) : Leaves W s₀ (match_params W s a b) := by
  intro h₀ h ha
  unfold match_params getSrcPar
  rw [bind_run, bind_run]
  simp only [getSrc]
  rcases hp : (h.src s).sc_params with _ | p
  · exact ha
  simp only [attr, pure_run]
  rw [bind_run]
  simp only [getPar]
  rw [bind_run, lift_run]
  rcases fill_args (h.par p).dict a with e | d
  · exact ha
  simp only
  rw [bind_run]
  have hne : (h.par p).source ≠ some s₀ := by
    rw [((ha.inv.sc s).1 p hp).2.1]
    simpa using hs
  have hu := away_update (if b then resolve_auto d else d).toDict ha hne
  rcases hr : params_update W p (if b then resolve_auto d else d).toDict h with ⟨e | u, h'⟩ <;> rw [hr] at hu <;>
    exact hu

theorem leaves_assign (hs : s ≠ s₀) (d : Option Dict) : Leaves W s₀ (set_sc_params W s d) := by
  intro h₀ h ha
  have hi := (inv_atoms W false).assign s d h ha.inv
  rcases set_sc_params_run W s d h with ⟨e, -, hr⟩ | ⟨d, h₁, hd, hh, hr⟩
  · rw [hr]; exact ha
  · have h0 : h₁.src s₀ = h.src s₀ ∧ (∀ p < h.next, h₁.par p = h.par p) ∧ h₁.snrs = h.snrs ∧ h₁.harms = h.harms ∧
        h₁.next = h.next + 1 := by
      rw [hh]
      refine ⟨by simp [Ne.symm hs], fun p hp => ?_, rfl, rfl, rfl⟩
      simp [Nat.ne_of_lt hp]
    obtain ⟨a1, a2, a3, a4, a5⟩ := h0
    rcases hr with hr | ⟨hr, -⟩
    · rw [hr] at hi ⊢
      obtain ⟨h1, h2, h3, h4, h5⟩ := set_sc_away (W := W) hs h₁
      refine ha.of_setSrc hi (by omega) (h1.trans a1) (fun p hp => ?_) (fun r _ => ?_) fun r _ => ?_
      · rw [h2]; exact a2 p hp
      · rw [h3, a3]
      · rw [h4, a4]
    · rw [hr] at hi ⊢
      exact ha.of_setSrc hi (by simp only; omega) a1 a2 (fun r _ => by simp only; rw [a3]) fun r _ => by simp only; rw [a4]

theorem leaves_new_params (d : Option Dict) (s : Option ℕ) : Leaves W s₀ (new_params d s) := by
  intro h₀ h ha
  have hi := (inv_atoms W false).new_params d s h ha.inv
  rw [new_params_run] at hi ⊢
  rcases hd : filled_params d with e | d <;> rw [hd] at hi
  · exact ha
  · refine ha.of_setSrc hi (Nat.le_succ _) rfl (fun p hp => ?_) (fun _ _ => rfl) fun _ _ => rfl
    simp [Nat.ne_of_lt hp]

theorem leaves_setTol (hs : s ≠ s₀) (tol : ℝ) : Leaves W s₀ (set_gw_lum_tol W s tol) := by
  intro h₀ h ha
  have hi := (inv_atoms W false).setTol s tol h ha.inv
  rcases set_gw_lum_tol_run W s tol h with ⟨-, hr⟩ | ⟨-, ⟨e, he, hr⟩ | ⟨e, he, hr⟩⟩ <;> rw [hr] at hi ⊢
  · exact ha
  · exact ha.of_setSrc hi le_rfl (by simp [Ne.symm hs]) (fun _ _ => rfl) (fun _ _ => rfl) fun _ _ => rfl
  · exact ha.of_setSrc hi le_rfl (by simp [Ne.symm hs]) (fun _ _ => rfl) (fun _ _ => rfl) fun _ _ => rfl

theorem leaves_set_g (hs : s ≠ s₀) (b : Bool) : Leaves W s₀ (set_g W s b) :=
  leaves_modSrc hs ((inv_atoms W false).set_g s b)

theorem leaves_cols (hs : s ≠ s₀) (f : Cols → Cols) : Leaves W s₀ (modSrc s fun x => { x with cols := f x.cols }) :=
  leaves_modSrc hs ((inv_atoms W false).cols s f)

/-! ### Calculations -/

theorem leaves_getSrcPar (s : ℕ) : Leaves W s₀ (getSrcPar s) := (leaves_getSrc s).bind fun _ => leaves_attr _

theorem leaves_get_snr_stationary (hs : s ≠ s₀) (a : SnrArgs) (w : Option (List Bool)) :
    Leaves W s₀ (get_snr_stationary W s a w) :=
  (leaves_match_params hs a true).bind fun _ => (leaves_getSrc s).bind fun _ => (leaves_getSettings s).bind fun _ =>
    (Leaves.lift _).bind fun _ => (Leaves.lift _).bind fun _ => (leaves_record_snr hs _ _).bind fun _ =>
      Leaves.lift _

theorem leaves_get_snr_evolving (hs : s ≠ s₀) (a : SnrArgs) (n : ℕ) (w : Option (List Bool)) :
    Leaves W s₀ (get_snr_evolving W s a n w) :=
  (leaves_match_params hs a true).bind fun _ => (leaves_getSrc s).bind fun _ => (leaves_getSettings s).bind fun _ =>
    (Leaves.lift _).bind fun _ => (Leaves.lift _).bind fun _ => (leaves_record_snr hs _ _).bind fun _ =>
      Leaves.lift _

theorem leaves_get_source_mask (s : ℕ) (c st : Tri) (t : PVal) : Leaves W s₀ (get_source_mask W s c st t) :=
  (leaves_getSrc s).bind fun _ => (leaves_getSettings s).bind fun _ => (leaves_getSrcPar s).bind fun p =>
    (leaves_getPar p).bind fun _ => (Leaves.lift _).bind fun _ => (Leaves.lift _).bind fun _ => Leaves.lift _

theorem leaves_snr_part {mask : List Bool} {run : M (List (Option ℝ))} (hr : Leaves W s₀ run)
    (snr : List (Option ℝ)) : Leaves W s₀ (snr_part mask run snr) := by
  unfold snr_part
  split_ifs
  · exact hr.bind fun _ => Leaves.pure _
  · exact Leaves.pure _

theorem leaves_Source_get_snr (hs : s ≠ s₀) (a : SnrArgs) (n : ℕ) (w : Option (List Bool)) :
    Leaves W s₀ (Source_get_snr W s a n w) :=
  (leaves_match_params hs a false).bind fun _ => (leaves_getSrc s).bind fun _ =>
    (leaves_get_source_mask s _ _ _).bind fun _ => (Leaves.lift _).bind fun _ =>
    (leaves_get_source_mask s _ _ _).bind fun _ => (Leaves.lift _).bind fun _ =>
    (leaves_snr_part (leaves_get_snr_stationary hs _ _) _).bind fun _ =>
    (leaves_snr_part (leaves_get_snr_evolving hs _ _ _) _).bind fun _ => leaves_store_snr hs _

theorem leaves_get_snr (hs : s ≠ s₀) (a : SnrArgs) (n : ℕ) (w : Option (List Bool)) :
    Leaves W s₀ (get_snr W s a n w) := by
  refine (leaves_getSrc s).bind fun src => ?_
  rcases src.cls with _ | _ | _ | _
  · exact leaves_Source_get_snr hs a n w
  · exact (leaves_get_snr_stationary hs _ _).bind fun _ => leaves_store_snr hs _
  · exact (leaves_get_snr_evolving hs _ _ _).bind fun _ => leaves_store_snr hs _
  · exact leaves_Source_get_snr hs a n w

theorem leaves_get_merger_time (hs : s ≠ s₀) (save : Bool) (w : Option (List Bool)) (exact : Bool) :
    Leaves W s₀ (get_merger_time W s save w exact) := by
  refine (leaves_getSrc s).bind fun _ => (Leaves.lift _).bind fun t => Leaves.bind ?_ fun _ => Leaves.lift _
  unfold save_merger_time
  split_ifs
  · exact leaves_cols hs fun c => { c with t_merge := some t }
  · exact Leaves.pure _

theorem leaves_evolve_common (hs : s ≠ s₀) (t : EvolTime) : Leaves W s₀ (evolve_common W s t) := by
  refine Leaves.bind ?_ fun _ => (leaves_getSrc s).bind fun _ => (leaves_attr _).bind fun _ => Leaves.lift _
  refine (leaves_getSrc s).bind fun src => ?_
  rcases src.cols.t_merge with _ | t
  · exact (leaves_get_merger_time hs _ _ _).bind fun _ => Leaves.pure _
  · exact Leaves.pure _

theorem leaves_evolve_sources (hs : s ≠ s₀) (t : EvolTime) : Leaves W s₀ (evolve_sources W s t) :=
  (leaves_evolve_common hs t).bind fun e => leaves_cols hs fun c => c.evolved e

/-! ### New objects -/

theorem leaves_init (cls : Cls) (a : InitArgs) : Leaves W s₀ (init W cls a) := by
  refine (Leaves.lift _).bind fun cols h₀ => ?_
  refine Preserves.bind_of (fun s _ => s ≠ s₀) ?_ ?_ ?_
  · intro h ha
    have hi := (inv_atoms W false).newSrc { cls := cls, cols := cols, stat_tol := a.stat_tol, n_proc := a.n_proc,
                                            interpolate_sc := a.interpolate_sc } rfl rfl rfl rfl rfl rfl h ha.inv
    refine ha.of_setSrc hi (Nat.le_succ _) ?_ (fun _ _ => rfl) (fun _ _ => rfl) fun _ _ => rfl
    change Function.update h.src h.next _ s₀ = _
    rw [Function.update_of_ne (Nat.ne_of_lt ha.lt)]
  · intro h s h' ha hr
    obtain ⟨e, -⟩ := Prod.mk.inj hr
    cases e
    exact (Nat.ne_of_lt ha.lt).symm
  · intro s h ha hs
    exact ((leaves_setTol hs _).bind fun _ => (leaves_assign hs _).bind fun _ => (leaves_set_g hs _).bind fun _ =>
      Leaves.pure _) h₀ h ha

theorem leaves_getitem (s : ℕ) (ind : Index) : Leaves W s₀ (getitem s ind) := by
  have hmask : ∀ m, Leaves W s₀ (getitem_mask s m) := by
    intro m h₀ h ha
    have hi := (inv_atoms W false).getitem s m h ha.inv
    rcases getitem_mask_run s m h with ⟨e, h', hr, hg⟩ | ⟨cols, snr, harm, p, h₁, -, hp, hg, -, -, -, hr⟩
    · rw [hr] at hi ⊢
      exact ha.of_setSrc hi hg.next (by rw [hg.src]) (fun _ _ => by rw [hg.par]) hg.snrs hg.harms
    · obtain ⟨d', hd', heq⟩ := filled_params_of_keysOk ((ha.inv.sc s).1 p hp).2.2
      rcases hr with ⟨e, he⟩ | ⟨d, hd, hr⟩
      · rw [he] at hd'; cases hd'
      · rw [hr] at hi ⊢
        have hn := hg.next
        have hlt := ha.lt
        refine ha.of_setSrc hi (by simp only; omega) ?_ (fun p hp => ?_) hg.snrs hg.harms
        · simp only
          rw [Function.update_of_ne (by omega)]
        · simp only
          rw [Function.update_of_ne (by omega)]
  refine (leaves_getSrc s).bind fun src => ?_
  rcases src.cls with _ | _ | _ | _
  · exact (Leaves.lift _).bind fun _ => hmask _
  · exact (Leaves.lift _).bind fun _ => hmask _
  · exact (Leaves.lift _).bind fun _ => hmask _
  · exact Leaves.lift _

theorem leaves_evolve_sources_new (hs : s ≠ s₀) (t : EvolTime) : Leaves W s₀ (evolve_sources_new W s t) := by
  intro h₀ h ha
  have hi := evolve_sources_new_inv (s := s) (t := t) ha.inv (by simp)
  have hc := leaves_evolve_common (W := W) hs t h₀ h ha
  rcases evolve_sources_new_run W s t h with ⟨e, hr⟩ | ⟨e, h₁, tol, p, he, htol, hp, hr⟩
  · rw [hr]; exact hc
  · rw [he] at hc
    have hinit := leaves_init (W := W) (s₀ := s₀) .Source (evolved_args (h₁.src s) tol (h₁.par p).dict e) h₀ h₁ hc
    rcases hr with ⟨err, h₂, h1, h2⟩ | ⟨s', h₂, h1, h2⟩ <;> rw [h1] at hinit <;> rw [h2] at hi ⊢
    · exact hinit
    · obtain ⟨-, -, -, -, -, -, -, -, hs', -⟩ := init_ok h1
      have hne : s₀ ≠ s' := by rw [hs']; exact Nat.ne_of_lt hc.lt
      exact hinit.of_setSrc hi le_rfl (by simp [hne]) (fun _ _ => rfl) (fun _ _ => rfl) fun _ _ => rfl

theorem leaves_restore (hs : s ≠ s₀) (f : H5) : Leaves W s₀ (restore f s) := by
  unfold restore restore_t_merge restore_snr restore_harm restore_merged
  refine Leaves.bind ?_ fun _ => Leaves.bind ?_ fun _ => Leaves.bind ?_ fun _ => ?_
  · split
    · rename_i xs _ _
      exact leaves_cols hs fun c => { c with t_merge := some xs }
    · exact Leaves.pure _
  · split
    · exact (leaves_store_snr hs _).bind fun _ => Leaves.pure _
    · exact Leaves.pure _
  · split
    · exact (leaves_store_harm hs _).bind fun _ => Leaves.pure _
    · exact Leaves.pure _
  · split
    · rename_i xs _ _
      exact leaves_cols hs fun c => { c with merged := xs }
    · exact Leaves.pure _

theorem leaves_from_file (Φ : Files) (st : Store) (cls : Cls) (name : String) (ig isc : Option Bool) (np : Option ℕ) :
    Leaves W s₀ (from_file W Φ st cls name ig isc np) := by
  unfold from_file
  simp only
  split_ifs
  · rcases st (Φ.locate (normalise name)) with _ | _ | _ | f
    · exact Leaves.lift _
    · exact Leaves.lift _
    · exact Leaves.lift _
    · refine (Leaves.lift _).bind fun a => ?_
      split_ifs
      · exact Leaves.lift _
      · intro h₀
        refine Preserves.bind_of (fun s _ => s ≠ s₀) (leaves_init _ a h₀) (fun h s h' ha hr => ?_) fun s h ha hs => ?_
        · obtain ⟨-, -, -, -, -, -, -, -, hs', -⟩ := init_ok hr
          rw [hs']
          exact (Nat.ne_of_lt ha.lt).symm
        · exact ((leaves_restore hs f).bind fun _ => Leaves.pure _) h₀ h ha
  · exact Leaves.lift _

theorem leaves_verification (vbs : Table) (rand : ℕ → ℝ) : Leaves W s₀ (verification_binaries W vbs rand) := by
  unfold verification_binaries
  intro h₀
  refine Preserves.bind_of (fun s _ => s ≠ s₀) (leaves_init _ _ h₀) (fun h s h' ha hr => ?_) fun s h ha hs => ?_
  · obtain ⟨-, -, -, -, -, -, -, -, hs', -⟩ := init_ok hr
    rw [hs']
    exact (Nat.ne_of_lt ha.lt).symm
  · exact ((leaves_getSrc s).bind fun _ => (leaves_store_harm hs _).bind fun _ => Leaves.pure _) h₀ h ha

/-! ### All calls -/

/-- A call that is not made on `s₀` leaves it alone. -/
theorem away_run {op : Op} (ha : Away W h₀ s₀ h) (hop : op.on h ≠ some s₀) : Away W h₀ s₀ (op.run W h).2 := by
  have pack : ∀ {α : Type} {m : M α}, Leaves W s₀ m → Away W h₀ s₀ ((m >>= fun _ => (pure () : M Unit)) h).2 :=
    fun hm => (hm.bind fun _ => Leaves.pure _) h₀ h ha
  cases op with
  | setitem p key value => exact away_setitem key value ha hop
  | update p kvs => exact away_update kvs ha hop
  | remove p => exact ha
  | copyParams p => exact pack ((leaves_getPar p).bind fun _ => leaves_new_params _ _)
  | assign s params => exact leaves_assign (by simpa [Op.on] using hop) params h₀ h ha
  | setSc s =>
    have hs : s ≠ s₀ := by simpa [Op.on] using hop
    obtain ⟨h1, h2, h3, h4, h5⟩ := set_sc_away (W := W) hs h
    exact ha.of_setSrc ((inv_atoms W false).set_sc s h ha.inv) h5 h1 (fun p _ => congrFun h2 p)
      (fun r _ => congrFun h3 r) fun r _ => congrFun h4 r
  | setTol s tol => exact leaves_setTol (by simpa [Op.on] using hop) tol h₀ h ha
  | setG s b => exact leaves_set_g (by simpa [Op.on] using hop) b h₀ h ha
  | setA s a =>
    exact ((leaves_getSrc s).bind fun _ => (Leaves.lift _).bind fun f =>
      leaves_cols (by simpa [Op.on] using hop) fun c => { c with f_orb := f }) h₀ h ha
  | setCols s c => exact leaves_cols (by simpa [Op.on] using hop) (fun _ => c) h₀ h ha
  | setPlain s t n b =>
    refine ha.of_setSrc (plain_inv ha.inv (by simp)) le_rfl ?_ (fun _ _ => rfl) (fun _ _ => rfl) fun _ _ => rfl
    change Function.update h.src s _ s₀ = _
    rw [Function.update_of_ne (fun he => hop (by rw [he]; rfl))]
  | getSnr s a n w => exact pack (leaves_get_snr (by simpa [Op.on] using hop) a n w)
  | getSnrStationary s a w => exact pack (leaves_get_snr_stationary (by simpa [Op.on] using hop) a w)
  | getSnrEvolving s a n w => exact pack (leaves_get_snr_evolving (by simpa [Op.on] using hop) a n w)
  | getMask s c st t => exact pack (leaves_get_source_mask s c st t)
  | mergerTime s save w ex => exact pack (leaves_get_merger_time (by simpa [Op.on] using hop) save w ex)
  | evolve s t => exact leaves_evolve_sources (by simpa [Op.on] using hop) t h₀ h ha
  | evolveNew s t => exact pack (leaves_evolve_sources_new (by simpa [Op.on] using hop) t)
  | getitem s ind => exact pack (leaves_getitem s ind)
  | copy s => exact pack (leaves_getitem s _)
  | init cls args => exact pack (leaves_init cls args)
  | verification vbs rand => exact pack (leaves_verification vbs rand)
  | load Φ st cls name ig isc np => exact pack (leaves_from_file Φ st cls name ig isc np)

theorem away_calls (hi : Inv W false h) (hs : s₀ < h.next) (hc : Calls W (NotOn s₀) h h') : Away W h s₀ h' := by
  induction hc with
  | none => exact ⟨hi, hs, Untouched.refl _ _⟩
  | call op _ hok ih => exact away_run ih hok

theorem calls_inv {ok : Heap → Op → Prop} (hi : Inv W false h) (hc : Calls W ok h h') : Inv W false h' := by
  induction hc with
  | none => exact hi
  | call op _ _ ih => exact run_inv ih (by simp)

end Legwork.source
