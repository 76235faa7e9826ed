import Verif.Lemmas.SourceReach

/-!
# The interpolated g(n,e)
-/

namespace Legwork.source

open Legwork.Spec
open PyM hiding bind

/-- Sources either have no interpolated function or the one built from the data file. -/
def GInv (W : World) (h : Heap) : Prop := ∀ s f, (h.src s).g = some f → f = W.gSpline

theorem GInv.frame {W : World} {h h' : Heap} (hi : GInv W h) (hg : ∀ s, (h'.src s).g = (h.src s).g) : GInv W h' := by
  intro s f hf
  rw [hg] at hf
  exact hi s f hf

theorem GInv.setSrc {W : World} {h h' : Heap} (hi : GInv W h) {a : ℕ} {x : Src}
    (hh : h'.src = Function.update h.src a x) (hx : ∀ f, x.g = some f → f = W.gSpline) : GInv W h' := by
  intro s f hf
  rw [hh] at hf
  by_cases he : s = a
  · subst he
    rw [Function.update_self] at hf
    exact hx f hf
  · rw [Function.update_of_ne he] at hf
    exact hi s f hf

theorem GInv.scOnly {W : World} {h h' : Heap} (hi : GInv W h) (ho : ScOnly h h') : GInv W h' := by
  refine hi.frame fun s => ?_
  obtain ⟨sc, p, he⟩ := ho.src s
  rw [he]

theorem g_atoms (W : World) : Atoms W (fun h => Inv W false h ∧ GInv W h) where
  store_snr s x h hi := by
    refine ⟨(inv_atoms W false).store_snr s x h hi.1, ?_⟩
    rw [store_snr_run]
    exact hi.2.setSrc (x := { h.src s with snr := some h.next }) rfl fun f hf => hi.2 s f hf
  store_harm s x h hi := by
    refine ⟨(inv_atoms W false).store_harm s x h hi.1, ?_⟩
    rw [store_harm_run]
    exact hi.2.setSrc (x := { h.src s with max_snr_harmonic := some h.next }) rfl fun f hf => hi.2 s f hf
  setSnr r x h hi := ⟨(inv_atoms W false).setSnr r x h hi.1, hi.2.frame fun _ => rfl⟩
  setHarm r x h hi := ⟨(inv_atoms W false).setHarm r x h hi.1, hi.2.frame fun _ => rfl⟩
  cols s f h hi := ⟨(inv_atoms W false).cols s f h hi.1,
    hi.2.setSrc (x := { h.src s with cols := f (h.src s).cols }) rfl fun f hf => hi.2 s f hf⟩
  set_g s b h hi := by
    refine ⟨(inv_atoms W false).set_g s b h hi.1, ?_⟩
    refine hi.2.setSrc (x := { h.src s with g := if b then some W.gSpline else none }) rfl fun f hf => ?_
    simp only at hf
    split_ifs at hf
    exact (Option.some.inj hf).symm
  setitem p k v h hi := ⟨(inv_atoms W false).setitem p k v h hi.1, hi.2.scOnly (params_setitem_scOnly W p k v h)⟩
  update p kvs h hi := ⟨(inv_atoms W false).update p kvs h hi.1, hi.2.scOnly (params_update_scOnly W p kvs h)⟩
  assign s d h hi := ⟨(inv_atoms W false).assign s d h hi.1, hi.2.scOnly (set_sc_params_scOnly W s d h)⟩
  set_sc s h hi := ⟨(inv_atoms W false).set_sc s h hi.1, hi.2.scOnly (set_sc_scOnly W s h)⟩
  new_params d s h hi := ⟨(inv_atoms W false).new_params d s h hi.1, hi.2.scOnly (new_params_scOnly d s h)⟩
  setTol s tol h hi := by
    refine ⟨(inv_atoms W false).setTol s tol h hi.1, ?_⟩
    rcases set_gw_lum_tol_run W s tol h with ⟨-, hr⟩ | ⟨-, ⟨e, -, hr⟩ | ⟨e, -, hr⟩⟩ <;> rw [hr]
    · exact hi.2
    · exact GInv.setSrc hi.2 (a := s) (hh := rfl) (hx := fun f hf => hi.2 s f hf)
    · exact GInv.setSrc hi.2 (a := s) (hh := rfl) (hx := fun f hf => hi.2 s f hf)
  newSrc x h1 h2 h3 h4 h5 h6 h hi := by
    refine ⟨(inv_atoms W false).newSrc x h1 h2 h3 h4 h5 h6 h hi.1, ?_⟩
    refine hi.2.setSrc (x := x) rfl fun f hf => ?_
    rw [h5] at hf
    cases hf
  getitem s m h hi := by
    refine ⟨(inv_atoms W false).getitem s m h hi.1, ?_⟩
    rcases getitem_mask_run s m h with ⟨e, h', hr, hg⟩ | ⟨cols, snr, harm, p, h₁, -, hp, hg, -, -, -, hr⟩
    · rw [hr]
      exact hi.2.frame fun s => by rw [hg.src]
    · rcases hr with ⟨e, he⟩ | ⟨d, -, hr⟩
      · obtain ⟨d', hd', -⟩ := filled_params_of_keysOk ((hi.1.sc s).1 p hp).2.2
        rw [he] at hd'; cases hd'
      · rw [hr]
        exact hi.2.setSrc rfl fun f hf => hi.2 s f hf

theorem Reachable.gInv {W : World} {ok : Heap → Op → Prop} {h : Heap} (hr : Reachable W ok h) : GInv W h := by
  suffices Inv W false h ∧ GInv W h from this.2
  induction hr with
  | start he =>
    refine ⟨start_inv he, fun s f hf => ?_⟩
    rw [he s] at hf
    cases hf
  | @call h op hr hok ih =>
    by_cases hop : ∃ s t, op = .evolveNew s t
    · obtain ⟨s, t, rfl⟩ := hop
      refine ⟨run_inv ih.1 (by simp), ?_⟩
      have hh : ∀ m : M ℕ, ((m >>= fun _ => pure ()) h).2 = (m h).2 := by
        intro m
        rw [bind_run]
        rcases m h with ⟨e | s', h'⟩ <;> rfl
      change GInv W ((evolve_sources_new W s t >>= fun _ => pure ()) h).2
      rw [hh]
      have hc := (g_atoms W).evolve_common s t h ih
      rcases evolve_sources_new_run W s t h with ⟨e, h1⟩ | ⟨e, h₁, tol, p, h1, -, -, ⟨err, h₂, h2, h3⟩ | ⟨s₂, h₂, h2, h3⟩⟩
      · rw [h1]; exact hc.2
      · rw [h1] at hc
        have := (g_atoms W).init .Source (evolved_args (h₁.src s) tol (h₁.par p).dict e) h₁ hc
        rw [h2] at this
        rw [h3]; exact this.2
      · rw [h1] at hc
        have := (g_atoms W).init .Source (evolved_args (h₁.src s) tol (h₁.par p).dict e) h₁ hc
        rw [h2] at this
        rw [h3]
        exact this.2.setSrc rfl fun f hf => hc.2 s f hf
    by_cases hop' : ∃ s t n v, op = .setPlain s t n v
    · obtain ⟨s, t, n, v, rfl⟩ := hop'
      refine ⟨run_inv ih.1 (by simp), ?_⟩
      exact ih.2.setSrc (a := s) (x := { h.src s with stat_tol := t, n_proc := n, interpolate_sc := v }) rfl
        fun f hf => ih.2 s f hf
    · push Not at hop hop'
      exact ((g_atoms W).run op hop hop' h ih)

end Legwork.source
