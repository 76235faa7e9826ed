import Verif.Lemmas.SizesRun
import Verif.Model.Shared

/-!
# Which attributes a call assigns to
-/

namespace Legwork.source

open Legwork.Spec
open PyM hiding bind

variable {W : World} {s₀ : ℕ} {a : Attr} {v : Option (List ℝ)}

/-- An object exists and has a value in an attribute. -/
def Has (s₀ : ℕ) (a : Attr) (v : Option (List ℝ)) (h : Heap) : Prop := s₀ < h.next ∧ (h.src s₀).cols.get a = v

/-- The same in a heap a program can have. -/
structure Holds (W : World) (s₀ : ℕ) (a : Attr) (v : Option (List ℝ)) (h : Heap) : Prop where
  inv : Inv W false h
  has : Has s₀ a v h

theorem Has.scOnly {h h' : Heap} (hh : Has s₀ a v h) (hs : ScOnly h h') : Has s₀ a v h' := by
  refine ⟨lt_of_lt_of_le hh.1 hs.next, ?_⟩
  obtain ⟨sc, p, he⟩ := hs.src s₀
  rw [he]
  exact hh.2

theorem Has.setSrc {h : Heap} {s : ℕ} {x : Src} (hh : Has s₀ a v h) (hx : x.cols = (h.src s).cols) :
    Has s₀ a v (h.setSrc s x) := by
  refine ⟨hh.1, ?_⟩
  simp only [setSrc_src]
  by_cases he : s₀ = s
  · subst he
    rw [Function.update_self, hx]
    exact hh.2
  · rw [Function.update_of_ne he]
    exact hh.2

theorem Has.setSrc_ne {h : Heap} {s : ℕ} {x : Src} (hh : Has s₀ a v h) (hs : s₀ ≠ s) : Has s₀ a v (h.setSrc s x) := by
  refine ⟨hh.1, ?_⟩
  simp only [setSrc_src]
  rw [Function.update_of_ne hs]
  exact hh.2

theorem holds_atoms (W : World) (s₀ : ℕ) (a : Attr) (v : Option (List ℝ)) : CalmAtoms W (Holds W s₀ a v) where
  store_snr s x h hh := ⟨(inv_atoms W false).store_snr s x h hh.inv, by
    rw [store_snr_run]
    have h1 : Has s₀ a v (h.setSnr h.next x).bump := ⟨Nat.lt_succ_of_lt hh.has.1, hh.has.2⟩
    exact h1.setSrc rfl⟩
  store_harm s x h hh := ⟨(inv_atoms W false).store_harm s x h hh.inv, by
    rw [store_harm_run]
    have h1 : Has s₀ a v (h.setHarm h.next x).bump := ⟨Nat.lt_succ_of_lt hh.has.1, hh.has.2⟩
    exact h1.setSrc rfl⟩
  setSnr r x h hh := ⟨(inv_atoms W false).setSnr r x h hh.inv, hh.has⟩
  setHarm r x h hh := ⟨(inv_atoms W false).setHarm r x h hh.inv, hh.has⟩
  set_g s b h hh := ⟨(inv_atoms W false).set_g s b h hh.inv, hh.has.setSrc rfl⟩
  setitem p k v h hh := ⟨(inv_atoms W false).setitem p k v h hh.inv, hh.has.scOnly (params_setitem_scOnly W p k v h)⟩
  update p kvs h hh := ⟨(inv_atoms W false).update p kvs h hh.inv, hh.has.scOnly (params_update_scOnly W p kvs h)⟩
  assign s d h hh := ⟨(inv_atoms W false).assign s d h hh.inv, hh.has.scOnly (set_sc_params_scOnly W s d h)⟩
  set_sc s h hh := ⟨(inv_atoms W false).set_sc s h hh.inv, hh.has.scOnly (set_sc_scOnly W s h)⟩
  new_params d s h hh := ⟨(inv_atoms W false).new_params d s h hh.inv, hh.has.scOnly (new_params_scOnly d s h)⟩
  setTol s tol h hh := ⟨(inv_atoms W false).setTol s tol h hh.inv, by
    rcases set_gw_lum_tol_run W s tol h with ⟨-, hr⟩ | ⟨-, ⟨e, he, hr⟩ | ⟨e, he, hr⟩⟩ <;> rw [hr]
    · exact hh.has
    · exact Has.setSrc (h := h.log (.harmonics s)) hh.has rfl
    · exact Has.setSrc (h := h.log (.harmonics s)) hh.has rfl⟩
  newSrc x h1 h2 h3 h4 h5 h6 h hh := ⟨(inv_atoms W false).newSrc x h1 h2 h3 h4 h5 h6 h hh.inv, by
    have h7 : Has s₀ a v (h.setSrc h.next x) := hh.has.setSrc_ne hh.has.1.ne
    exact ⟨Nat.lt_succ_of_lt h7.1, h7.2⟩⟩
  getitem s m h hh := ⟨(inv_atoms W false).getitem s m h hh.inv, by
    rcases getitem_mask_run s m h with ⟨e, h', hr, hg⟩ | ⟨cols, snr, harm, p, h₁, -, hp, hg, -, -, -, hr⟩
    · rw [hr]
      exact ⟨lt_of_lt_of_le hh.has.1 hg.next, by rw [hg.src]; exact hh.has.2⟩
    · obtain ⟨d', hd', heq⟩ := filled_params_of_keysOk ((hh.inv.sc s).1 p hp).2.2
      rcases hr with ⟨e, he⟩ | ⟨d, hd, hr⟩
      · rw [he] at hd'; cases hd'
      · rw [hr]
        have hn := hg.next
        have hlt := hh.has.1
        refine ⟨by simp only; omega, ?_⟩
        simp only
        rw [Function.update_of_ne (by omega)]
        exact hh.has.2⟩

/-- Assigning merger times to another attribute's object or to another attribute. -/
theorem Has.timed {h : Heap} {s : ℕ} {t : Option (List ℝ)} (hh : Has s₀ a v h) (hn : s₀ = s → a ≠ .t_merge) :
    Has s₀ a v (h.setSrc s { h.src s with cols := { (h.src s).cols with t_merge := t } }) := by
  by_cases he : s₀ = s
  · subst he
    refine ⟨hh.1, ?_⟩
    simp only [setSrc_src]
    rw [Function.update_self]
    rw [← hh.2]
    cases a <;> first | rfl | exact absurd rfl (hn rfl)
  · exact hh.setSrc_ne he

/-- The common part of evolutions assigns to nothing but merger times that are missing. -/
theorem evolve_common_frame (W : World) (s : ℕ) (t : EvolTime) (h : Heap) :
    (evolve_common W s t h).2 = h ∨ (h.src s).cols.t_merge = none ∧
    ∃ tm, (evolve_common W s t h).2 = h.setSrc s { h.src s with cols := { (h.src s).cols with t_merge := some tm } } := by
  rcases hm : (h.src s).cols.t_merge with _ | tm
  · rcases evolve_common_heap W s t h with h1 | h1
    · exact Or.inl h1
    · exact Or.inr ⟨rfl, h1⟩
  · left
    unfold evolve_common
    rw [bind_run]
    rcases ensure_t_merge_run W s h with ⟨tm', -, hr⟩ | ⟨hn, -⟩
    · rw [hr]
      simp only
      rw [bind_run]
      simp only [getSrc]
      rw [bind_run]
      rw [hm]
      rfl
    · rw [hm] at hn
      cases hn

theorem has_store_snr (s : ℕ) (x : List (Option ℝ)) : Preserves (Has s₀ a v) (store_snr s x) := by
  intro h hh
  rw [store_snr_run]
  have h1 : Has s₀ a v (h.setSnr h.next x).bump := ⟨Nat.lt_succ_of_lt hh.1, hh.2⟩
  exact h1.setSrc rfl

theorem has_store_harm (s : ℕ) (x : List ℕ) : Preserves (Has s₀ a v) (store_harm s x) := by
  intro h hh
  rw [store_harm_run]
  have h1 : Has s₀ a v (h.setHarm h.next x).bump := ⟨Nat.lt_succ_of_lt hh.1, hh.2⟩
  exact h1.setSrc rfl

/-- From one to the other. -/
def Leads {α : Type} (W : World) (s₀ : ℕ) (a : Attr) (v : Option (List ℝ)) (m : M α) : Prop :=
  ∀ h, Holds W s₀ a v h → Has s₀ a v (m h).2

theorem has_from_file {Φ : Files} {st : Store} {cls : Cls} {name : String} {ig isc : Option Bool} {np : Option ℕ}
    {h : Heap} : Holds W s₀ a v h → Has s₀ a v (from_file W Φ st cls name ig isc np h).2 := by
  have hsrc : ∀ (s : ℕ) (f : Src → Src), s₀ ≠ s → Preserves (Has s₀ a v) (modSrc s f) := fun s f hs h hh =>
    hh.setSrc_ne hs
  have hrest : ∀ (f : H5) (s : ℕ), s₀ ≠ s → Preserves (Has s₀ a v) (restore f s) := by
    intro f s hs
    have h1 : Preserves (Has s₀ a v) (restore_t_merge f s) := by
      unfold restore_t_merge
      split
      · exact hsrc s _ hs
      · exact Preserves.pure _ _
    have h2 : Preserves (Has s₀ a v) (restore_snr f s) := by
      unfold restore_snr
      split
      · exact (has_store_snr s _).bind fun _ => Preserves.pure _ _
      · exact Preserves.pure _ _
    have h3 : Preserves (Has s₀ a v) (restore_harm f s) := by
      unfold restore_harm
      split
      · exact (has_store_harm s _).bind fun _ => Preserves.pure _ _
      · exact Preserves.pure _ _
    have h4 : Preserves (Has s₀ a v) (restore_merged f s) := by
      unfold restore_merged
      split
      · exact hsrc s _ hs
      · exact Preserves.pure _ _
    exact h1.bind fun _ => h2.bind fun _ => h3.bind fun _ => h4
  suffices hgoal : Leads W s₀ a v (from_file W Φ st cls name ig isc np) from hgoal h
  have hthrow : ∀ {α : Type} (e : Except PyErr α), Leads W s₀ a v (PyM.lift e : M α) := fun _ _ hh => hh.has
  unfold from_file
  simp only
  split_ifs
  · rcases st (Φ.locate (normalise name)) with _ | _ | _ | f
    · exact hthrow _
    · exact hthrow _
    · exact hthrow _
    · intro h hh
      simp only
      rw [bind_run]
      simp only [lift_run]
      rcases load_args Φ f ig isc np with e | args
      · exact hh.has
      simp only
      suffices hg : Leads W s₀ a v (if klass cls f = Cls.VerificationBinaries then PyM.lift (throw PyErr.TypeError)
          else do
            let s ← init W (klass cls f) args
            restore f s
            pure (⟨s, other_version Φ f, no_psd (args.sc_params.getD [])⟩ : Loaded)) from hg h hh
      clear hh h
      split_ifs
      · exact hthrow _
      · intro h hh
        have h1 := (holds_atoms W s₀ a v).init (klass cls f) args h hh
        rw [bind_run]
        rcases hi : init W (klass cls f) args h with ⟨e | s, h₁⟩
        · rw [hi] at h1
          exact h1.has
        · rw [hi] at h1
          obtain ⟨cols, ecc_tol, d, sc, -, -, -, -, hs, -⟩ := init_ok hi
          simp only
          rw [bind_run]
          have h2 := hrest f s (by rw [hs]; exact hh.has.1.ne) h₁ h1.has
          rcases hrr : restore f s h₁ with ⟨e | u, h₂⟩
          · rw [hrr] at h2
            exact h2
          · rw [hrr] at h2
            exact h2
  · exact hthrow _

theorem has_evolve_common {s : ℕ} {t : EvolTime} {h : Heap} (hh : Has s₀ a v h)
    (hn : s₀ = s → a = .t_merge → (h.src s).cols.t_merge ≠ none) : Has s₀ a v (evolve_common W s t h).2 := by
  rcases evolve_common_frame W s t h with h1 | ⟨h1, tm, h2⟩
  · rw [h1]
    exact hh
  · rw [h2]
    exact hh.timed fun hs ha => hn hs ha h1

/-- **An attribute that a call does not assign to keeps its value.** -/
theorem cols_frame {op : Op} {h : Heap} (hi : Inv W false h) (hs : s₀ < h.next)
    (ha : ¬ Rebinds W h ((op.run W h).1 = .ok ()) op s₀ a) :
    ((op.run W h).2.src s₀).cols.get a = (h.src s₀).cols.get a := by
  have A := holds_atoms W s₀ a ((h.src s₀).cols.get a)
  have hh : Holds W s₀ a ((h.src s₀).cols.get a) h := ⟨hi, hs, rfl⟩
  have calm : ∀ {α : Type} {m : M α}, Preserves (Holds W s₀ a ((h.src s₀).cols.get a)) m →
      ((m h).2.src s₀).cols.get a = (h.src s₀).cols.get a := fun hm => (hm h hh).has.2
  cases op with
  | setitem p key value => exact calm (A.setitem p key value)
  | update p kvs => exact calm (A.update p kvs)
  | remove p => exact calm (Preserves.lift _ _)
  | copyParams p => exact calm ((A.params_copy p).bind fun _ => Preserves.pure _ _)
  | assign s params => exact calm (A.assign s params)
  | setSc s => exact calm (A.set_sc s)
  | setTol s tol => exact calm (A.setTol s tol)
  | setG s b => exact calm (A.set_g s b)
  | setA s x =>
    simp only [Op.run] at ha ⊢
    unfold set_a at ha ⊢
    rw [bind_run] at ha ⊢
    simp only [getSrc] at ha ⊢
    rw [bind_run] at ha ⊢
    simp only [lift_run] at ha ⊢
    generalize broadcast2 _ x _ = r at ha ⊢
    rcases r with e | f
    · rfl
    · simp only [modSrc, modify_run, setSrc_src] at ha ⊢
      by_cases he : s₀ = s
      · subst he
        rw [Function.update_self]
        cases a <;> first | rfl | exact absurd ⟨rfl, trivial⟩ ha
      · rw [Function.update_of_ne he]
  | setCols s c => exact (hh.has.setSrc_ne fun he => ha he).2
  | setPlain s t n b => 
    exact (Has.setSrc (x := { h.src s with stat_tol := t, n_proc := n, interpolate_sc := b }) hh.has rfl).2
  | getSnr s a n w => exact calm ((A.get_snr s a n w).bind fun _ => Preserves.pure _ _)
  | getSnrStationary s a w => exact calm ((A.get_snr_stationary s a w).bind fun _ => Preserves.pure _ _)
  | getSnrEvolving s a n w => exact calm ((A.get_snr_evolving s a n w).bind fun _ => Preserves.pure _ _)
  | getMask s c st t => exact calm ((A.get_source_mask s c st t).bind fun _ => Preserves.pure _ _)
  | mergerTime s save w ex =>
    have h1 : ((get_merger_time W s save w ex h).2.src s₀).cols.get a = (h.src s₀).cols.get a := by
      unfold get_merger_time
      rw [bind_run]
      simp only [getSrc]
      rw [bind_run]
      simp only [lift_run]
      rcases hc : calc_merger_time W (h.src s).cols (which (h.src s).cols.n_sources (if save = true then none else w)) ex
        with e | t
      · rfl
      · simp only
        rw [bind_run]
        unfold save_merger_time
        split_ifs with hsave
        · simp only [modSrc, modify_run, lift_run]
          refine (hh.has.timed ?_).2
          rintro rfl rfl
          rw [if_pos hsave] at hc
          exact ha ⟨rfl, hsave, t, hc⟩
        · rfl
    simp only [Op.run]
    rw [bind_run]
    rcases hm : get_merger_time W s save w ex h with ⟨e | t, h'⟩ <;> rw [hm] at h1 <;> exact h1
  | evolve s t =>
    simp only [Op.run] at ha ⊢
    unfold evolve_sources at ha ⊢
    rw [bind_run] at ha ⊢
    have h1 : Has s₀ a ((h.src s₀).cols.get a) (evolve_common W s t h).2 := by
      refine has_evolve_common hh.has ?_
      rintro rfl rfl hn
      exact ha ⟨rfl, Or.inr hn⟩
    rcases hc : evolve_common W s t h with ⟨err | e, h₁⟩
    · rw [hc] at h1
      exact h1.2
    · rw [hc] at ha h1
      simp only [modSrc, modify_run, setSrc_src] at ha ⊢
      by_cases he : s₀ = s
      · subst he
        rw [Function.update_self, ← h1.2]
        cases a
        case t_merge => exact absurd ⟨rfl, Or.inl trivial⟩ ha
        all_goals first | rfl | exact absurd ⟨rfl, trivial⟩ ha
      · rw [Function.update_of_ne he]
        exact h1.2
  | evolveNew s t =>
    have h1 : Has s₀ a ((h.src s₀).cols.get a) (evolve_common W s t h).2 := by
      refine has_evolve_common hh.has ?_
      rintro rfl rfl hn
      exact ha ⟨rfl, hn⟩
    have hi1 := (inv_atoms W false).evolve_common s t h hi
    have h2 : ((evolve_sources_new W s t h).2.src s₀).cols.get a = (h.src s₀).cols.get a := by
      rcases evolve_sources_new_run W s t h with ⟨e, hr⟩ | ⟨e, h₁, tol, p, he, htol, hp, hr⟩
      · rw [hr]
        exact h1.2
      · rw [he] at h1 hi1
        have h3 := A.init .Source (evolved_args (h₁.src s) tol (h₁.par p).dict e) h₁ ⟨hi1, h1⟩
        rcases hr with ⟨err, h₂, hin, hr⟩ | ⟨s', h₂, hin, hr⟩ <;> rw [hin] at h3 <;> rw [hr]
        · exact h3.has.2
        · obtain ⟨cols, ecc_tol, d, sc, -, -, -, -, hs', -⟩ := init_ok hin
          refine (h3.has.setSrc_ne ?_).2
          rw [hs']
          exact h1.1.ne
    simp only [Op.run]
    rw [bind_run]
    rcases hm : evolve_sources_new W s t h with ⟨e | t, h'⟩ <;> rw [hm] at h2 <;> exact h2
  | getitem s ind => exact calm ((A.getitem' s ind).bind fun _ => Preserves.pure _ _)
  | copy s => exact calm ((A.getitem' s _).bind fun _ => Preserves.pure _ _)
  | init cls args => exact calm ((A.init cls args).bind fun _ => Preserves.pure _ _)
  | verification vbs rand => exact calm ((A.verification vbs rand).bind fun _ => Preserves.pure _ _)
  | load Φ st cls name ig isc np =>
    have h1 := has_from_file (Φ := Φ) (st := st) (cls := cls) (name := name) (ig := ig) (isc := isc) (np := np) hh
    simp only [Op.run]
    rw [bind_run]
    rcases hm : from_file W Φ st cls name ig isc np h with ⟨e | t, h'⟩ <;> rw [hm] at h1 <;> exact h1.2

end Legwork.source
