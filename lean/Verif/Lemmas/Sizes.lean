import Verif.Spec.Sizes
import Verif.Lemmas.EvolveRun
import Verif.Lemmas.SnrOf
import Verif.Props.SourceIndex

/-!
# Collections stay consistent
-/

namespace Legwork.source

open Legwork.Spec Legwork.evol Legwork.utils Legwork.Props
open PyM hiding bind

variable {W : World} {c : Cols} {h h' : Heap} {s : ℕ}

/-- All objects are consistent, and `s` has the columns `c`. -/
structure Neat (W : World) (s : ℕ) (c : Cols) (h : Heap) : Prop where
  inv : Inv W false h
  tidy : ∀ x, Tidy h x
  cols : (h.src s).cols = c

theorem _root_.Legwork.Spec.Tidy.frame {x : ℕ} (ht : Tidy h x) (hc : (h'.src x).cols = (h.src x).cols) (hs : (h'.src x).snr = (h.src x).snr)
    (hm : (h'.src x).max_snr_harmonic = (h.src x).max_snr_harmonic)
    (hr : ∀ r, (h.src x).snr = some r → (h'.snrs r).length = (h.snrs r).length)
    (hq : ∀ r, (h.src x).max_snr_harmonic = some r → (h'.harms r).length = (h.harms r).length) : Tidy h' x := by
  refine ⟨⟨?_, ?_, ?_⟩, ?_⟩
  · rw [hc]; exact ht.sized.rect
  · rw [hc, hs]
    intro r h1
    rw [hr r h1]
    exact ht.sized.snr r h1
  · rw [hc, hm]
    intro r h1
    rw [hq r h1]
    exact ht.sized.harm r h1
  · rw [hc]; exact ht.settled

theorem Neat.scOnly (hn : Neat W s c h) (hi : Inv W false h') (ho : ScOnly h h') : Neat W s c h' := by
  have hc : ∀ x, (h'.src x).cols = (h.src x).cols := by
    intro x
    obtain ⟨sc, p, he⟩ := ho.src x
    rw [he]
  refine ⟨hi, fun x => ?_, by rw [hc]; exact hn.cols⟩
  obtain ⟨sc, p, he⟩ := ho.src x
  exact (hn.tidy x).frame (hc x) (by rw [he]) (by rw [he]) (fun r _ => by rw [ho.snrs]) fun r _ => by rw [ho.harms]

/-- Changing settings of a source. -/
theorem Neat.setSrc (hn : Neat W s c h) (hi : Inv W false h') {x : Src} {a : ℕ} (hh : h'.src = Function.update h.src a x)
    (h1 : x.cols = (h.src a).cols) (h2 : x.snr = (h.src a).snr) (h3 : x.max_snr_harmonic = (h.src a).max_snr_harmonic)
    (h4 : h'.snrs = h.snrs) (h5 : h'.harms = h.harms) : Neat W s c h' := by
  have hk : ∀ y, (h'.src y).cols = (h.src y).cols ∧ (h'.src y).snr = (h.src y).snr ∧
      (h'.src y).max_snr_harmonic = (h.src y).max_snr_harmonic := by
    intro y
    rw [hh]
    by_cases he : y = a
    · subst he; rw [Function.update_self]; exact ⟨h1, h2, h3⟩
    · rw [Function.update_of_ne he]; exact ⟨rfl, rfl, rfl⟩
  exact ⟨hi, fun y => (hn.tidy y).frame (hk y).1 (hk y).2.1 (hk y).2.2 (fun r _ => by rw [h4]) fun r _ => by rw [h5],
    by rw [(hk s).1]; exact hn.cols⟩

theorem neat_store_snr {x : List (Option ℝ)} (hx : x.length = c.n_sources) : Preserves (Neat W s c) (store_snr s x) := by
  intro h hn
  have hi := (inv_atoms W false).store_snr s x h hn.inv
  rw [store_snr_run] at hi ⊢
  refine ⟨hi, fun y => ?_, ?_⟩
  · by_cases he : y = s
    · subst he
      obtain ⟨⟨h1, h2, h3⟩, h4⟩ := hn.tidy y
      refine ⟨⟨?_, ?_, ?_⟩, ?_⟩
      · simpa using h1
      · intro r hr
        simp only [setSrc_src, Function.update_self, Option.some.injEq] at hr
        subst hr
        simp [hn.cols, hx]
      · intro r hr
        simp only [setSrc_src, Function.update_self] at hr ⊢
        exact h3 r hr
      · simpa using h4
    · refine (hn.tidy y).frame (by simp [he]) (by simp [he]) (by simp [he]) (fun r hr => ?_) fun r _ => rfl
      have := ((hn.inv.addr y).1 r hr).1
      simp [Nat.ne_of_lt this]
  · simpa using hn.cols

theorem neat_store_harm {x : List ℕ} (hx : x.length = c.n_sources) : Preserves (Neat W s c) (store_harm s x) := by
  intro h hn
  have hi := (inv_atoms W false).store_harm s x h hn.inv
  rw [store_harm_run] at hi ⊢
  refine ⟨hi, fun y => ?_, ?_⟩
  · by_cases he : y = s
    · subst he
      obtain ⟨⟨h1, h2, h3⟩, h4⟩ := hn.tidy y
      refine ⟨⟨?_, ?_, ?_⟩, ?_⟩
      · simpa using h1
      · intro r hr
        simp only [setSrc_src, Function.update_self] at hr ⊢
        exact h2 r hr
      · intro r hr
        simp only [setSrc_src, Function.update_self, Option.some.injEq] at hr
        subst hr
        simp [hn.cols, hx]
      · simpa using h4
    · refine (hn.tidy y).frame (by simp [he]) (by simp [he]) (by simp [he]) (fun r _ => rfl) fun r hr => ?_
      have := ((hn.inv.addr y).2 r hr).1
      simp [Nat.ne_of_lt this]
  · simpa using hn.cols

theorem neat_setSnr {r : ℕ} {x : List (Option ℝ)} (hn : Neat W s c h) (hx : x.length = (h.snrs r).length) :
    Neat W s c (h.setSnr r x) := by
  refine ⟨(inv_atoms W false).setSnr r x h hn.inv, fun y => ?_, hn.cols⟩
  refine (hn.tidy y).frame rfl rfl rfl (fun q _ => ?_) fun _ _ => rfl
  rw [setSnr_snrs]
  by_cases he : q = r
  · subst he; rw [Function.update_self, hx]
  · rw [Function.update_of_ne he]

theorem neat_setHarm {r : ℕ} {x : List ℕ} (hn : Neat W s c h) (hx : x.length = (h.harms r).length) :
    Neat W s c (h.setHarm r x) := by
  refine ⟨(inv_atoms W false).setHarm r x h hn.inv, fun y => ?_, hn.cols⟩
  refine (hn.tidy y).frame rfl rfl rfl (fun _ _ => rfl) fun q _ => ?_
  rw [setHarm_harms]
  by_cases he : q = r
  · subst he; rw [Function.update_self, hx]
  · rw [Function.update_of_ne he]

theorem overwrite_length {α : Type} {mask : List Bool} {xs ys zs : List α} (h : overwrite mask xs ys = .ok zs) :
    zs.length = xs.length := by
  unfold overwrite at h
  obtain ⟨vs, -, h⟩ := except_bind_ok.1 h
  split_ifs at h
  · cases h
    exact np.assign_length ..

theorem neat_getSrc {β : Type} {f : Src → M β} (hf : ∀ src : Src, src.cols = c → Preserves (Neat W s c) (f src)) :
    Preserves (Neat W s c) (getSrc s >>= f) := by
  refine Preserves.bind_of (fun src _ => src.cols = c) (preserves_getSrc _ s) ?_ fun src h hn hq => hf src hq h hn
  intro h src h' hn hr
  obtain ⟨e, -⟩ := Prod.mk.inj hr
  cases e
  exact hn.cols

theorem neat_ensure_harm : Preserves (Neat W s c) (ensure_harm s) := by
  refine neat_getSrc fun src hc => ?_
  rcases src.max_snr_harmonic with _ | r
  · exact neat_store_harm (by rw [List.length_replicate, hc])
  · exact Preserves.pure _ _

theorem neat_ensure_snr : Preserves (Neat W s c) (ensure_snr s) := by
  refine neat_getSrc fun src hc => ?_
  rcases src.snr with _ | r
  · exact neat_store_snr (by rw [List.length_replicate, hc])
  · exact Preserves.pure _ _

theorem neat_record_snr (insp : List Bool) (res : SnrState) : Preserves (Neat W s c) (record_snr s insp res) := by
  refine neat_ensure_harm.bind fun r h hn => ?_
  rw [bind_run, get_run]
  simp only
  rw [bind_run, lift_run]
  rcases ho : overwrite insp (h.harms r) res.2 with e | x
  · exact hn
  simp only
  rw [bind_run, modify_run]
  simp only
  refine (neat_ensure_snr.bind fun r h hn => ?_) _ (neat_setHarm hn (overwrite_length ho))
  rw [bind_run, get_run]
  simp only
  rw [bind_run, lift_run]
  rcases ho : overwrite insp (h.snrs r) res.1 with e | x
  · exact hn
  simp only
  rw [modify_run]
  exact neat_setSnr hn (overwrite_length ho)

theorem neat_getSettings : Preserves (Neat W s c) (getSettings s) :=
  (preserves_getSrc _ s).bind fun _ => (preserves_attr _ _).bind fun _ => (preserves_attr _ _).bind fun _ =>
    Preserves.pure _ _

theorem neat_update (p : ℕ) (kvs : Dict) : Preserves (Neat W s c) (params_update W p kvs) := fun h hn =>
  hn.scOnly ((inv_atoms W false).update p kvs h hn.inv) (params_update_scOnly W p kvs h)

theorem neat_getSrcPar : Preserves (Neat W s c) (getSrcPar s) := (preserves_getSrc _ s).bind fun _ => preserves_attr _ _

theorem neat_match_params (a : SnrArgs) (b : Bool) : Preserves (Neat W s c) (match_params W s a b) :=
  neat_getSrcPar.bind fun p => (preserves_getPar _ p).bind fun _ => (Preserves.lift _ _).bind fun _ =>
    (neat_update p _).bind fun _ => Preserves.pure _ _

theorem neat_get_snr_stationary (a : SnrArgs) (w : Option (List Bool)) :
    Preserves (Neat W s c) (get_snr_stationary W s a w) :=
  (neat_match_params a true).bind fun _ => (preserves_getSrc _ s).bind fun _ => neat_getSettings.bind fun _ =>
    (Preserves.lift _ _).bind fun _ => (Preserves.lift _ _).bind fun _ => (neat_record_snr _ _).bind fun _ =>
      Preserves.lift _ _

theorem neat_get_snr_evolving (a : SnrArgs) (n : ℕ) (w : Option (List Bool)) :
    Preserves (Neat W s c) (get_snr_evolving W s a n w) :=
  (neat_match_params a true).bind fun _ => (preserves_getSrc _ s).bind fun _ => neat_getSettings.bind fun _ =>
    (Preserves.lift _ _).bind fun _ => (Preserves.lift _ _).bind fun _ => (neat_record_snr _ _).bind fun _ =>
      Preserves.lift _ _

theorem index_all {α : Type} {n : ℕ} {xs ys : List α} (h : index (List.replicate n true) xs = .ok ys) : ys.length = n := by
  unfold index at h
  split_ifs at h with hl
  · cases h
    rw [List.length_replicate] at hl
    subst hl
    clear * -
    induction xs with
    | nil => rfl
    | cons x xs ih =>
      rw [List.length_cons, List.replicate_succ]
      simpa [np.select] using ih

theorem get_snr_stationary_length {a : SnrArgs} (hn : Neat W s c h) {ys : List (Option ℝ)}
    (hr : get_snr_stationary W s a none h = (.ok ys, h')) : ys.length = c.n_sources := by
  unfold get_snr_stationary at hr
  simp only [bind_ok_iff, getSrc_ok_iff, getSettings_ok_iff, lift_ok_iff] at hr
  obtain ⟨a', h₁, h1, src, h₂, ⟨rfl, rfl⟩, hr⟩ := hr
  have := neat_match_params (W := W) (c := c) (s := s) a true h hn
  rw [h1] at this
  rw [this.cols] at hr
  obtain ⟨_, _, _, _, _, _, _, _, _, _, _, _, hr, -⟩ := hr
  exact index_all hr

theorem get_snr_evolving_length {a : SnrArgs} {n : ℕ} (hn : Neat W s c h) {ys : List (Option ℝ)}
    (hr : get_snr_evolving W s a n none h = (.ok ys, h')) : ys.length = c.n_sources := by
  unfold get_snr_evolving at hr
  simp only [bind_ok_iff, getSrc_ok_iff, getSettings_ok_iff, lift_ok_iff] at hr
  obtain ⟨a', h₁, h1, src, h₂, ⟨rfl, rfl⟩, hr⟩ := hr
  have := neat_match_params (W := W) (c := c) (s := s) a true h hn
  rw [h1] at this
  rw [this.cols] at hr
  obtain ⟨_, _, _, _, _, _, _, _, _, _, _, _, hr, -⟩ := hr
  exact index_all hr

theorem neat_get_source_mask (a b : Tri) (t : PVal) : Preserves (Neat W s c) (get_source_mask W s a b t) :=
  (preserves_getSrc _ s).bind fun _ => neat_getSettings.bind fun _ => neat_getSrcPar.bind fun p =>
    (preserves_getPar _ p).bind fun _ => (Preserves.lift _ _).bind fun _ => (Preserves.lift _ _).bind fun _ =>
      Preserves.lift _ _

theorem neat_snr_part {mask : List Bool} {run : M (List (Option ℝ))} {snr : List (Option ℝ)} {β : Type}
    {f : List (Option ℝ) → M β} (hr : Preserves (Neat W s c) run)
    (hf : ∀ x : List (Option ℝ), x.length = snr.length → Preserves (Neat W s c) (f x)) :
    Preserves (Neat W s c) (snr_part mask run snr >>= f) := by
  refine Preserves.bind_of (fun x _ => x.length = snr.length) ?_ ?_ fun x h hn hx => hf x hx h hn
  · unfold snr_part
    split_ifs
    · exact hr.bind fun _ => Preserves.pure _ _
    · exact Preserves.pure _ _
  · intro h x h' _ hx
    unfold snr_part at hx
    split_ifs at hx
    · rw [bind_run] at hx
      rcases hy : run h with ⟨e | y, h''⟩
      · rw [hy] at hx
        cases hx
      · rw [hy] at hx
        cases hx
        exact np.assign_length ..
    · cases hx
      rfl

theorem neat_Source_get_snr (a : SnrArgs) (n : ℕ) (w : Option (List Bool)) :
    Preserves (Neat W s c) (Source_get_snr W s a n w) := by
  refine (neat_match_params a false).bind fun _ => neat_getSrc fun src hc => ?_
  refine (neat_get_source_mask _ _ _).bind fun _ => (Preserves.lift _ _).bind fun _ => ?_
  refine (neat_get_source_mask _ _ _).bind fun _ => (Preserves.lift _ _).bind fun _ => ?_
  refine neat_snr_part (neat_get_snr_stationary _ _) fun x hx => ?_
  refine neat_snr_part (neat_get_snr_evolving _ _ _) fun y hy => ?_
  refine neat_store_snr ?_
  rw [hy, hx, List.length_replicate, hc]

theorem neat_get_snr (a : SnrArgs) (n : ℕ) (w : Option (List Bool)) : Preserves (Neat W s c) (get_snr W s a n w) := by
  refine (preserves_getSrc _ s).bind fun src => ?_
  rcases src.cls with _ | _ | _ | _
  · exact neat_Source_get_snr a n w
  · exact Preserves.bind_of (fun x _ => x.length = c.n_sources) (neat_get_snr_stationary _ _)
      (fun h x h' hn hr => get_snr_stationary_length hn hr) fun x h hn hx => neat_store_snr hx h hn
  · exact Preserves.bind_of (fun x _ => x.length = c.n_sources) (neat_get_snr_evolving _ _ _)
      (fun h x h' hn hr => get_snr_evolving_length hn hr) fun x h hn hx => neat_store_snr hx h hn
  · exact neat_Source_get_snr a n w

/-! ### Other calls -/

theorem neat_setTol (a : ℕ) (tol : ℝ) : Preserves (Neat W s c) (set_gw_lum_tol W a tol) := by
  intro h hn
  have hi := (inv_atoms W false).setTol a tol h hn.inv
  rcases set_gw_lum_tol_run W a tol h with ⟨-, hr⟩ | ⟨-, ⟨e, he, hr⟩ | ⟨e, he, hr⟩⟩ <;> rw [hr] at hi ⊢
  · exact hn
  · exact hn.setSrc hi rfl rfl rfl rfl rfl rfl
  · exact hn.setSrc hi rfl rfl rfl rfl rfl rfl

theorem neat_set_g (a : ℕ) (b : Bool) : Preserves (Neat W s c) (set_g W a b) := fun h hn =>
  hn.setSrc ((inv_atoms W false).set_g a b h hn.inv) rfl rfl rfl rfl rfl rfl

theorem neat_assign (a : ℕ) (d : Option Dict) : Preserves (Neat W s c) (set_sc_params W a d) := fun h hn =>
  hn.scOnly ((inv_atoms W false).assign a d h hn.inv) (set_sc_params_scOnly W a d h)

theorem neat_setitem (p : ℕ) (k : String) (v : PVal) : Preserves (Neat W s c) (params_setitem W p k v) := fun h hn =>
  hn.scOnly ((inv_atoms W false).setitem p k v h hn.inv) (params_setitem_scOnly W p k v h)

theorem neat_new_params (d : Option Dict) (a : Option ℕ) : Preserves (Neat W s c) (new_params d a) := fun h hn =>
  hn.scOnly ((inv_atoms W false).new_params d a h hn.inv) (new_params_scOnly d a h)

/-- Calls on a source that leave its sources as they are. -/
def Quiet (s : ℕ) : Op → Prop
  | .setA _ _ => False
  | .setCols _ _ => False
  | .mergerTime _ _ _ _ => False
  | .evolve _ _ => False
  | .evolveNew _ _ => False
  | .getitem _ _ => False
  | .copy _ => False
  | .init _ _ => False
  | .verification _ _ => False
  | .load _ _ _ _ _ _ _ => False
  | .getSnr s' _ _ _ => s' = s
  | .getSnrStationary s' _ _ => s' = s
  | .getSnrEvolving s' _ _ _ => s' = s
  | .getMask s' _ _ _ => s' = s
  | _ => True

theorem neat_quiet {op : Op} (hop : Quiet s op) : Preserves (Neat W s c) (op.run W) := by
  cases op with
  | setitem p key value => exact neat_setitem p key value
  | update p kvs => exact neat_update p kvs
  | remove p => exact Preserves.lift _ _
  | copyParams p =>
    exact ((preserves_getPar _ p).bind fun _ => neat_new_params _ _).bind fun _ => Preserves.pure _ _
  | assign s params => exact neat_assign s params
  | setSc s => exact fun h hn => hn.scOnly ((inv_atoms W false).set_sc s h hn.inv) (set_sc_scOnly W s h)
  | setTol s tol => exact neat_setTol s tol
  | setG s b => exact neat_set_g s b
  | getSnr s a n w => cases hop; exact (neat_get_snr a n w).bind fun _ => Preserves.pure _ _
  | getSnrStationary s a w => cases hop; exact (neat_get_snr_stationary a w).bind fun _ => Preserves.pure _ _
  | getSnrEvolving s a n w => cases hop; exact (neat_get_snr_evolving a n w).bind fun _ => Preserves.pure _ _
  | getMask s c st t => cases hop; exact (neat_get_source_mask c st t).bind fun _ => Preserves.pure _ _
  | setA s a => exact hop.elim
  | setCols s c => exact hop.elim
  | setPlain a t n b => exact fun h hn => hn.setSrc (plain_inv hn.inv (by simp)) rfl rfl rfl rfl rfl rfl
  | mergerTime s save w ex => exact hop.elim
  | evolve s t => exact hop.elim
  | evolveNew s t => exact hop.elim
  | getitem s ind => exact hop.elim
  | copy s => exact hop.elim
  | init cls args => exact hop.elim
  | verification vbs rand => exact hop.elim
  | load Φ st cls name ig isc np => exact hop.elim

/-! ### Calls that change the columns of a source -/

theorem neat_cols (hn : Neat W s c h) {c' : Cols} (hc : c'.n_sources = c.n_sources) (hr : Rect c') (hk : Coherent c') :
    Neat W s c' (h.setSrc s { h.src s with cols := c' }) := by
  refine ⟨(inv_atoms W false).cols s (fun _ => c') h hn.inv, fun x => ?_, by simp⟩
  by_cases he : x = s
  · subst he
    obtain ⟨⟨h1, h2, h3⟩, h4⟩ := hn.tidy x
    rw [hn.cols] at h2 h3
    refine ⟨⟨?_, ?_, ?_⟩, ?_⟩
    · simpa using hr
    · intro r h
      simp only [setSrc_src, Function.update_self] at h ⊢
      rw [hc]
      exact h2 r h
    · intro r h
      simp only [setSrc_src, Function.update_self] at h ⊢
      rw [hc]
      exact h3 r h
    · simpa using hk
  · exact (hn.tidy x).frame (by simp [he]) (by simp [he]) (by simp [he]) (fun _ _ => rfl) fun _ _ => rfl

theorem broadcast2_length {α : Type} {f : ℝ → α → ℝ} {x : List ℝ} {y : List α} {z : List ℝ} (h : broadcast2 f x y = .ok z)
    (hx : x.length = y.length ∨ x.length = 1) : z.length = y.length := by
  unfold broadcast2 at h
  split_ifs at h with hl
  · cases h
    simp [hl]
  · obtain ⟨a, rfl⟩ := List.length_eq_one_iff.1 (hx.resolve_left hl)
    simp only at h
    cases h
    simp

theorem rect_f_orb (hr : Rect c) {f : List ℝ} (hf : f.length = c.n_sources) : Rect { c with f_orb := f } :=
  ⟨hr.m_2, hr.dist, hf, hr.ecc, hr.merged, hr.weights, hr.position, hr.inclination, hr.polarisation, hr.t_merge, hr.angles⟩

theorem set_a_tidy {a : List ℝ} (hn : Neat W s c h) (ha : a.length = c.n_sources ∨ a.length = 1) :
    ∃ f : List ℝ, Neat W s { c with f_orb := f } (set_a W s a h).2 := by
  unfold set_a
  rw [bind_run]
  simp only [getSrc]
  rw [bind_run, lift_run, hn.cols]
  have hr : Rect c := by have := (hn.tidy s).sized.rect; rwa [hn.cols] at this
  have hk : Coherent c := by have := (hn.tidy s).settled; rwa [hn.cols] at this
  have hz : (c.m_1.zip c.m_2).length = c.n_sources := by
    rw [List.length_zip, hr.m_2]
    exact min_self _
  rcases hb : broadcast2 (fun a m => get_f_orb_from_a W.K a m.1 m.2) a (c.m_1.zip c.m_2) with e | f
  · rw [hb]
    exact ⟨c.f_orb, hn⟩
  · rw [hb]
    simp only [modSrc, modify_run]
    refine ⟨f, ?_⟩
    rw [hn.cols]
    refine neat_cols hn (c' := { c with f_orb := f }) rfl (rect_f_orb hr ?_) ⟨hk.merged, hk.circular, hk.angles⟩
    rw [← hz]
    exact broadcast2_length hb (by rwa [hz])

theorem getD_map_range {α : Type} {n : ℕ} (f : ℕ → α) (d : α) (i : ℕ) :
    ((List.range n).map f).getD i d = if i < n then f i else d := by
  split_ifs with h
  · exact getD_range h f d
  · rw [List.getD_eq_getElem?_getD, List.getElem?_eq_none (by simpa using h)]
    rfl

theorem coherent_t_merge {ts : List ℝ} (hk : Coherent c) (ht : ∀ i, (rowAt c i).merged = true → ts.getD i 0 = 0) :
    Coherent { c with t_merge := some ts } := by
  refine ⟨fun i hm t h => ?_, hk.circular, hk.angles⟩
  cases h
  exact ht i hm

theorem coherent_timed (hk : Coherent c) : Coherent (timed W.K c) := by
  refine coherent_t_merge hk fun i hm => ?_
  rw [getD_map_range]
  split_ifs with hi
  · unfold tmOf
    rcases ht : c.t_merge with _ | ts
    · simp [hm]
    · have := hk.merged i hm (ts.getD i 0) (by simp [rowAt, ht])
      simpa using this
  · rfl

theorem rect_evolved (hr : Rect c) (T : ℕ → ℝ) : Rect (c.evolved (evolvedOf W c T)) := by
  refine ⟨hr.m_2, hr.dist, ?_, ?_, ?_, hr.weights, hr.position, hr.inclination, hr.polarisation, ?_, hr.angles⟩
  · simp [Cols.evolved, evolvedOf, Cols.n_sources]
  · simp [Cols.evolved, evolvedOf, Cols.n_sources]
  · simp [Cols.evolved, evolvedOf, Cols.n_sources]
  · intro x hx
    cases hx
    simp [Cols.evolved, evolvedOf, Cols.n_sources]

theorem coherent_evolved (hk : Coherent c) (T : ℕ → ℝ) : Coherent (c.evolved (evolvedOf W c T)) := by
  classical
  refine ⟨fun i hm t h => ?_, fun hp i => ?_, hk.angles⟩
  · change ((List.range c.n_sources).map _).getD i false = true at hm
    rw [getD_map_range] at hm
    split_ifs at hm with hi
    simp only [rowAt, Cols.evolved, evolvedOf, Option.map_some, Option.some.injEq] at h
    rw [getD_range hi] at h
    rw [← h, max_eq_left]
    simpa using hm
  · change ((List.range c.n_sources).map _).getD i 0 = 0
    rw [getD_map_range]
    split_ifs with hi
    · unfold eccAfter
      rw [if_pos (hk.circular hp i)]
      simp
    · rfl

theorem timesOf_exists (n : ℕ) (t : EvolTime) : (∃ T, TimesOf n T t) ∨ ∃ ts, t = .array ts ∧ ts.length ≠ n := by
  rcases t with t | ts
  · exact Or.inl ⟨fun _ => t, fun _ _ => rfl⟩
  · by_cases hl : ts.length = n
    · exact Or.inl ⟨fun i => ts.getD i 0, hl, fun i hi => by simp [List.getD_eq_getElem?_getD, hl, hi]⟩
    · exact Or.inr ⟨ts, rfl, hl⟩

theorem Neat.rect (hn : Neat W s c h) : Rect c := by
  have := (hn.tidy s).sized.rect
  rwa [hn.cols] at this

theorem Neat.coherent (hn : Neat W s c h) : Coherent c := by
  have := (hn.tidy s).settled
  rwa [hn.cols] at this

theorem neat_timed (hn : Neat W s c h) :
    Neat W s (timed W.K c) (h.setSrc s { h.src s with cols := timed W.K (h.src s).cols }) := by
  have := neat_cols hn (c' := timed W.K c) rfl (timed_rect hn.rect) (coherent_timed hn.coherent)
  rwa [hn.cols]

theorem evolve_tidy {t : EvolTime} (hn : Neat W s c h) :
    (∃ T, TimesOf c.n_sources T t ∧ Neat W s (c.evolved (evolvedOf W c T)) (evolve_sources W s t h).2) ∨
    Neat W s (timed W.K c) (evolve_sources W s t h).2 := by
  have hr : Rect (h.src s).cols := (hn.tidy s).sized.rect
  rcases timesOf_exists c.n_sources t with ⟨T, hT⟩ | ⟨ts, rfl, hts⟩
  · left
    refine ⟨T, hT, ?_⟩
    rw [evolve_sources_ok hr (T := T) (by rwa [hn.cols])]
    have := neat_cols hn (c' := c.evolved (evolvedOf W c T)) rfl (rect_evolved hn.rect T) (coherent_evolved hn.coherent T)
    rwa [hn.cols]
  · right
    rw [evolve_sources_error hr (by rwa [hn.cols])]
    exact neat_timed hn

theorem items_all {α : Type} (f : One × Bool → α) :
    (items c (List.replicate c.n_sources true)).map f = (List.range c.n_sources).map fun i => f (rowAt c i, true) := by
  have hz : ∀ l : List ℕ, ((l.map (rowAt c)).zip (List.replicate l.length true)).map f =
      l.map fun i => f (rowAt c i, true) := by
    intro l
    induction l with
    | nil => rfl
    | cons i l ih =>
      rw [List.length_cons, List.replicate_succ, List.map_cons, List.zip_cons_cons, List.map_cons, ih, List.map_cons]
  have := hz (List.range c.n_sources)
  rw [List.length_range] at this
  exact this

theorem merger_tidy {save ex : Bool} {w : Option (List Bool)} (hn : Neat W s c h) :
    ∃ t, Neat W s { c with t_merge := t } (get_merger_time W s save w ex h).2 := by
  rcases save with _ | _
  · refine ⟨c.t_merge, ?_⟩
    exact ((preserves_getSrc _ s).bind fun _ => (Preserves.lift _ _).bind fun _ => (Preserves.pure _ _).bind fun _ =>
      Preserves.lift _ _) h hn
  · unfold get_merger_time
    rw [bind_run]
    simp only [getSrc, if_true, which]
    rw [bind_run, lift_run, hn.cols, calc_merger_time_ok W hn.rect (w := List.replicate c.n_sources true) (by simp) ex]
    simp only
    rw [bind_run]
    simp only [save_merger_time, if_true, modSrc, modify_run, lift_run]
    generalize hx : (items c (List.replicate c.n_sources true)).map
      (fun x => if live x then tMerge1 W.K ex x.1 else 0) = ts
    have hl : ts.length = c.n_sources := by
      rw [← hx, List.length_map, items_length (by simp)]
    refine ⟨some ts, ?_⟩
    have hr := hn.rect
    have := neat_cols hn (c' := { c with t_merge := some ts }) rfl
      ⟨hr.m_2, hr.dist, hr.f_orb, hr.ecc, hr.merged, hr.weights, hr.position, hr.inclination, hr.polarisation,
        (by rintro x ⟨⟩; exact hl), hr.angles⟩ (coherent_t_merge hn.coherent fun i hm => ?_)
    · rwa [hn.cols]
    · rw [← hx, items_all, getD_map_range]
      simp [live, hm]

end Legwork.source
