import Verif.Lemmas.SourceInv

/-!
# The constructor, evolution into a new object, and reachable heaps
-/

namespace Legwork.source

open Legwork.Spec
open PyM hiding bind

/-- The object made by a successful constructor. -/
noncomputable def newObject (W : World) (cls : Cls) (a : InitArgs) (cols : Cols) (ecc_tol : ℝ)
    (sc : Option (ℝ → WithTop ℝ)) (p : ℕ) : Src :=
  { cls := cls, cols := cols, stat_tol := a.stat_tol, n_proc := a.n_proc, gw_lum_tol := some a.gw_lum_tol,
    harmonics_required := some (harmonics_required W.table a.gw_lum_tol),
    max_strain_harmonic := some (max_strain_harmonic W.table a.gw_lum_tol), ecc_tol := some ecc_tol,
    interpolate_sc := a.interpolate_sc, sc := sc, sc_params := some p,
    g := if a.interpolate_g then some W.gSpline else none }

/-- The heap left by a successful constructor. -/
noncomputable def heapAfterInit (W : World) (cls : Cls) (a : InitArgs) (cols : Cols) (ecc_tol : ℝ) (d : Dict)
    (sc : Option (ℝ → WithTop ℝ)) (h : Heap) : Heap :=
  { next := h.next + 2,
    src := Function.update h.src h.next (newObject W cls a cols ecc_tol sc (h.next + 1)),
    par := Function.update h.par (h.next + 1) ⟨d, some h.next⟩,
    snrs := h.snrs, harms := h.harms,
    trace := h.trace ++ [.harmonics h.next] ++ if a.interpolate_sc then [.interpolated h.next] else [] }

/-- The constructor succeeds exactly when its steps do, and what it leaves behind. -/
theorem init_run (W : World) (cls : Cls) (a : InitArgs) (h : Heap) :
    (∃ cols ecc_tol d sc, init_cols W a = .ok cols ∧ find_eccentric_transition a.gw_lum_tol = .ok ecc_tol ∧
      filled_params a.sc_params = .ok d ∧
      (a.interpolate_sc = true ∧ (∃ c, curve W d = .ok c ∧ sc = some c) ∨ a.interpolate_sc = false ∧ sc = none) ∧
      init W cls a h = (.ok h.next, heapAfterInit W cls a cols ecc_tol d sc h)) ∨
    ((∃ e h', init W cls a h = (.error e, h')) ∧
      ((∃ e, init_cols W a = .error e) ∨ (∃ e, find_eccentric_transition a.gw_lum_tol = .error e) ∨
        (∃ e, filled_params a.sc_params = .error e) ∨
        (a.interpolate_sc = true ∧ ∃ d e, filled_params a.sc_params = .ok d ∧ curve W d = .error e))) := by
  unfold init
  rw [bind_run]
  simp only [lift_run]
  rcases hc : init_cols W a with e | cols
  · exact Or.inr ⟨⟨e, h, rfl⟩, Or.inl ⟨e, rfl⟩⟩
  simp only
  rw [bind_run]
  simp only [newSrc]
  rw [bind_run]
  generalize hx : ({ cls := cls, cols := cols, stat_tol := a.stat_tol, n_proc := a.n_proc,
                       interpolate_sc := a.interpolate_sc } : Src) = x
  generalize hh : (h.setSrc h.next x).bump = h₁
  have hs : h₁.src h.next = x := by rw [← hh]; simp
  rcases set_gw_lum_tol_run W h.next a.gw_lum_tol h₁ with ⟨hno, -⟩ | ⟨-, ⟨e, he, hr⟩ | ⟨ecc_tol, he, hr⟩⟩
  · rw [hs, ← hx] at hno
    cases hno
  · rw [hr]
    exact Or.inr ⟨⟨e, _, rfl⟩, Or.inr (Or.inl ⟨e, he⟩)⟩
  rw [hr]
  simp only
  rw [bind_run]
  generalize hh₂ : (h₁.log (Event.harmonics h.next)).setSrc h.next { h₁.src h.next with
        gw_lum_tol := some a.gw_lum_tol, harmonics_required := some (harmonics_required W.table a.gw_lum_tol),
        max_strain_harmonic := some (max_strain_harmonic W.table a.gw_lum_tol), ecc_tol := some ecc_tol } = h₂
  rcases set_sc_params_run W h.next a.sc_params h₂ with ⟨e, hf, hr⟩ | ⟨d, h₃, hf, hh₃, hr⟩
  · rw [hr]
    exact Or.inr ⟨⟨e, _, rfl⟩, Or.inr (Or.inr (Or.inl ⟨e, hf⟩))⟩
  have hsc2 : (h₂.src h.next).sc_params = none := by
    rw [← hh₂]
    simp only [setSrc_src, Function.update_self, hs, ← hx]
  have hn : h₂.next = h.next + 1 := by rw [← hh₂, ← hh]; rfl
  have hi3 : (h₃.src h.next).interpolate_sc = a.interpolate_sc := by
    rw [hh₃, ← hh₂]
    simp [hs, ← hx]
  have hp3 : (h₃.src h.next).sc_params = some (h.next + 1) := by
    rw [hh₃]
    simp [hn]
  have hd3 : (h₃.par (h.next + 1)).dict = d := by
    rw [hh₃]
    simp [hn]
  rcases hr with hr | ⟨-, p₀, hp₀, -⟩
  swap
  · rw [hsc2] at hp₀; cases hp₀
  rw [hr, set_sc_run, hi3]
  by_cases hint : a.interpolate_sc = true
  · rw [if_pos hint, hp3]
    simp only
    rw [hd3]
    rcases hcu : curve W d with e | c
    · exact Or.inr ⟨⟨e, _, rfl⟩, Or.inr (Or.inr (Or.inr ⟨hint, d, e, hf, hcu⟩))⟩
    · left
      refine ⟨cols, ecc_tol, d, some c, rfl, he, hf, Or.inl ⟨hint, c, hcu, rfl⟩, ?_⟩
      simp only
      rw [bind_run]
      simp only [set_g, modSrc, modify_run, pure_run]
      unfold heapAfterInit newObject
      rw [hh₃, ← hh₂, ← hh, ← hx]
      simp [Heap.setSrc, Heap.setPar, Heap.bump, Heap.log, hint]
  · rw [if_neg hint]
    left
    refine ⟨cols, ecc_tol, d, none, rfl, he, hf, Or.inr ⟨by simpa using hint, rfl⟩, ?_⟩
    simp only
    rw [bind_run]
    simp only [set_g, modSrc, modify_run, pure_run]
    unfold heapAfterInit newObject
    rw [hh₃, ← hh₂, ← hh, ← hx]
    simp [Heap.setSrc, Heap.setPar, Heap.bump, Heap.log, hint]

theorem init_ok {W : World} {cls : Cls} {a : InitArgs} {h h' : Heap} {s : ℕ} (hr : init W cls a h = (.ok s, h')) :
    ∃ cols ecc_tol d sc, init_cols W a = .ok cols ∧ find_eccentric_transition a.gw_lum_tol = .ok ecc_tol ∧
      filled_params a.sc_params = .ok d ∧
      (a.interpolate_sc = true ∧ (∃ c, curve W d = .ok c ∧ sc = some c) ∨ a.interpolate_sc = false ∧ sc = none) ∧
      s = h.next ∧ h' = heapAfterInit W cls a cols ecc_tol d sc h := by
  rcases init_run W cls a h with ⟨cols, ecc_tol, d, sc, h1, h2, h3, h4, h5⟩ | ⟨⟨e, h'', he⟩, -⟩
  · rw [hr] at h5
    simp only [Prod.mk.injEq, Except.ok.injEq] at h5
    exact ⟨cols, ecc_tol, d, sc, h1, h2, h3, h4, h5.1, h5.2⟩
  · rw [hr] at he
    cases he

/-! ### Evolution -/

/-- The heap after computing merger times. -/
theorem ensure_t_merge_run (W : World) (s : ℕ) (h : Heap) :
    (∃ t, (h.src s).cols.t_merge = some t ∧ ensure_t_merge W s h = (.ok (), h)) ∨
    ((h.src s).cols.t_merge = none ∧ ((∃ e, calc_merger_time W (h.src s).cols
        (List.replicate (h.src s).cols.n_sources true) true = .error e ∧ ensure_t_merge W s h = (.error e, h)) ∨
      ∃ t, calc_merger_time W (h.src s).cols (List.replicate (h.src s).cols.n_sources true) true = .ok t ∧
        ((ensure_t_merge W s h).1 = .ok () ∨ ∃ e, (ensure_t_merge W s h).1 = .error e) ∧
        (ensure_t_merge W s h).2 = h.setSrc s { h.src s with cols := { (h.src s).cols with t_merge := some t } })) := by
  unfold ensure_t_merge
  rw [bind_run]
  simp only [getSrc]
  rcases ht : (h.src s).cols.t_merge with _ | t
  · right
    refine ⟨rfl, ?_⟩
    simp only
    rw [bind_run]
    unfold get_merger_time
    rw [bind_run]
    simp only [getSrc, if_true, which]
    rw [bind_run]
    simp only [lift_run]
    rcases hc : calc_merger_time W (h.src s).cols (List.replicate (h.src s).cols.n_sources true) true with e | t
    · exact Or.inl ⟨e, rfl, rfl⟩
    · right
      refine ⟨t, rfl, ?_⟩
      simp only
      rw [bind_run]
      simp only [save_merger_time, if_true, modSrc, modify_run, lift_run]
      rcases index (List.replicate (h.src s).cols.n_sources true) t with e | u
      · exact ⟨Or.inr ⟨e, rfl⟩, rfl⟩
      · exact ⟨Or.inl rfl, rfl⟩
  · exact Or.inl ⟨t, rfl, rfl⟩

/-- The common part of evolutions changes nothing but cached merger times. -/
theorem evolve_common_heap (W : World) (s : ℕ) (t : EvolTime) (h : Heap) :
    (evolve_common W s t h).2 = h ∨
    ∃ tm, (evolve_common W s t h).2 = h.setSrc s { h.src s with cols := { (h.src s).cols with t_merge := some tm } } := by
  have hrest : ∀ h₁ : Heap, ((do
      let src ← getSrc s
      let t_merge ← attr src.cols.t_merge
      PyM.lift (calc_evolve W src.cols t_merge t) : M Evolved) h₁).2 = h₁ := by
    intro h₁
    rw [bind_run]
    simp only [getSrc]
    rw [bind_run]
    rcases (h₁.src s).cols.t_merge with _ | tm <;> rfl
  unfold evolve_common
  rw [bind_run]
  rcases ensure_t_merge_run W s h with ⟨tm, -, hr⟩ | ⟨-, ⟨e, -, hr⟩ | ⟨tm, -, -, hr⟩⟩
  · rw [hr]
    left
    exact hrest h
  · rw [hr]
    exact Or.inl rfl
  · right
    refine ⟨tm, ?_⟩
    rcases hm : ensure_t_merge W s h with ⟨e | u, h₁⟩
    · rw [hm] at hr
      exact hr
    · rw [hm] at hr
      simp only at hr ⊢
      rw [hrest h₁, hr]

/-- `evolve_sources(create_new_class=True)`, step by step. -/
theorem evolve_sources_new_run (W : World) (s : ℕ) (t : EvolTime) (h : Heap) :
    (∃ e, evolve_sources_new W s t h = (.error e, (evolve_common W s t h).2)) ∨
    ∃ e h₁ tol p, evolve_common W s t h = (.ok e, h₁) ∧ (h₁.src s).gw_lum_tol = some tol ∧
      (h₁.src s).sc_params = some p ∧
      ((∃ err h₂, init W .Source (evolved_args (h₁.src s) tol (h₁.par p).dict e) h₁ = (.error err, h₂) ∧
        evolve_sources_new W s t h = (.error err, h₂)) ∨
       ∃ s' h₂, init W .Source (evolved_args (h₁.src s) tol (h₁.par p).dict e) h₁ = (.ok s', h₂) ∧
        evolve_sources_new W s t h = (.ok s', h₂.setSrc s' { h₂.src s' with
          g := (h₁.src s).g, interpolate_sc := true, sc := (h₁.src s).sc,
          cols := { (h₂.src s').cols with t_merge := some e.t_merge, merged := e.merged } })) := by
  unfold evolve_sources_new
  rw [bind_run]
  rcases hc : evolve_common W s t h with ⟨err | e, h₁⟩
  · exact Or.inl ⟨err, rfl⟩
  simp only
  rw [bind_run]
  simp only [getSrc]
  rw [bind_run]
  rcases htol : (h₁.src s).gw_lum_tol with _ | tol
  · exact Or.inl ⟨_, rfl⟩
  simp only [attr, pure_run]
  rw [bind_run]
  unfold getSrcPar
  rw [bind_run]
  simp only [getSrc]
  rcases hp : (h₁.src s).sc_params with _ | p
  · exact Or.inl ⟨_, rfl⟩
  right
  refine ⟨e, h₁, tol, p, rfl, htol, hp, ?_⟩
  simp only [attr, pure_run]
  rw [bind_run]
  simp only [getPar]
  rw [bind_run]
  rcases hi : init W .Source (evolved_args (h₁.src s) tol (h₁.par p).dict e) h₁ with ⟨err | s', h₂⟩
  · exact Or.inl ⟨err, h₂, rfl, rfl⟩
  · exact Or.inr ⟨s', h₂, rfl, rfl⟩

theorem evolve_sources_new_inv {W : World} {b : Bool} {s : ℕ} {t : EvolTime} {h : Heap} (hi : Inv W b h)
    (hb : b = true → (h.src s).interpolate_sc = true) : Inv W b (evolve_sources_new W s t h).2 := by
  have hcommon := (inv_atoms W b).evolve_common s t h hi
  rcases evolve_sources_new_run W s t h with ⟨e, hr⟩ | ⟨e, h₁, tol, p, he, htol, hp, hr⟩
  · rw [hr]; exact hcommon
  · have hint : b = true → (h₁.src s).interpolate_sc = true := by
      intro hbt
      have h1 : h₁ = (evolve_common W s t h).2 := by rw [he]
      rcases evolve_common_heap W s t h with h2 | ⟨tm, h2⟩
      · rw [h1, h2]; exact hb hbt
      · rw [h1, h2, setSrc_src, Function.update_self]; exact hb hbt
    rw [he] at hcommon
    have hinit := (inv_atoms W b).init .Source (evolved_args (h₁.src s) tol (h₁.par p).dict e) h₁ hcommon
    rcases hr with ⟨err, h₂, h1, h2⟩ | ⟨s', h₂, h1, h2⟩
    · rw [h2]
      rw [h1] at hinit
      exact hinit
    · rw [h2]
      rw [h1] at hinit
      obtain ⟨cols, ecc_tol, d, sc, -, -, hd, -, hs', hh₂⟩ := init_ok h1
      have hnew : h₂.src s' = newObject W .Source (evolved_args (h₁.src s) tol (h₁.par p).dict e) cols ecc_tol sc
          (h₁.next + 1) := by rw [hh₂, hs']; simp [heapAfterInit]
      have hsc := hcommon.sc s
      obtain ⟨d', hd', heq⟩ := filled_params_of_keysOk (hsc.1 p hp).2.2
      change filled_params (some (h₁.par p).dict) = .ok d at hd
      rw [hd] at hd'
      cases hd'
      refine ⟨?_, ?_, ?_⟩
      · intro s''
        by_cases hss : s'' = s'
        · subst hss
          constructor
          · intro p' hp'
            simp only [setSrc_src, Function.update_self] at hp'
            exact (hinit.sc s'').1 p' hp'
          · intro p' hp'
            simp only [setSrc_src, Function.update_self, setSrc_par] at hp' ⊢
            rw [hnew] at hp'
            simp only [newObject, Option.some.injEq] at hp'
            subst hp'
            refine ⟨?_, by simp⟩
            intro _ c hc
            have hpar : (h₂.par (h₁.next + 1)).dict = d := by rw [hh₂]; simp [heapAfterInit]
            rw [hpar, curve_congr W heq] at hc
            rcases hint' : (h₁.src s).interpolate_sc with _ | _
            · have hbf : b = false := by
                by_contra hbt
                rw [hint (by simpa using hbt)] at hint'
                cases hint'
              rcases (hsc.2 p hp).2 hint' with h3 | ⟨-, h3⟩
              · exact Or.inr ⟨hbf, h3⟩
              · exact Or.inl (h3 c hc)
            · exact (hsc.2 p hp).1 hint' c hc
        · constructor
          · intro p' hp'
            simp only [setSrc_src, Function.update_of_ne hss] at hp'
            exact (hinit.sc s'').1 p' hp'
          · intro p' hp'
            simp only [setSrc_src, Function.update_of_ne hss, setSrc_par] at hp' ⊢
            exact (hinit.sc s'').2 p' hp'
      · refine TolInv.newSrc hinit.tol (a := s') (hh := rfl) ?_
        exact fun tol ht => hinit.tol s' tol ht
      · refine AddrInv.setSrc_frame hinit.addr (s := s') (hs := rfl) (hn := le_rfl) ?_
        exact ⟨rfl, rfl⟩

/-! ### Reachable heaps -/

/-- Assignments to plain settings keep the invariants; the strong ones as long as `interpolate_sc` stays as it is. -/
theorem plain_inv {W : World} {b : Bool} {h : Heap} {s np : ℕ} {tol : ℝ} {v : Bool} (hi : Inv W b h)
    (hb : b = true → v = (h.src s).interpolate_sc) :
    Inv W b (h.setSrc s { h.src s with stat_tol := tol, n_proc := np, interpolate_sc := v }) := by
  refine ⟨?_, ?_, ?_⟩
  · intro s'
    by_cases he : s' = s
    · subst he
      refine ⟨fun p hp => ?_, fun p hp => ?_⟩
      · simp only [setSrc_src, Function.update_self] at hp
        exact (hi.sc s').1 p hp
      · simp only [setSrc_src, Function.update_self, setSrc_par] at hp ⊢
        have := (hi.sc s').2 p hp
        rcases b with _ | _
        · rcases hv : (h.src s').interpolate_sc with _ | _ <;> rw [hv] at this <;>
            rcases hc : (h.src s').sc with _ | c <;> simp_all
        · rw [hb rfl]
          exact this
    · refine ⟨fun p hp => ?_, fun p hp => ?_⟩
      · simp only [setSrc_src, Function.update_of_ne he] at hp
        exact (hi.sc s').1 p hp
      · simp only [setSrc_src, Function.update_of_ne he, setSrc_par] at hp ⊢
        exact (hi.sc s').2 p hp
  · exact TolInv.modSrc (f := fun x => { x with stat_tol := tol, n_proc := np, interpolate_sc := v })
      (fun _ => ⟨rfl, rfl, rfl, rfl⟩) h hi.tol
  · exact hi.addr.setSrc_frame (x := { h.src s with stat_tol := tol, n_proc := np, interpolate_sc := v }) ⟨rfl, rfl⟩ rfl le_rfl

theorem run_inv {W : World} {b : Bool} {h : Heap} {op : Op} (hi : Inv W b h)
    (hb : b = true → Interpolating h op) : Inv W b (op.run W h).2 := by
  by_cases hop : ∃ s t, op = .evolveNew s t
  · obtain ⟨s, t, rfl⟩ := hop
    change Inv W b ((evolve_sources_new W s t >>= fun _ => pure ()) h).2
    have := evolve_sources_new_inv (t := t) hi hb
    rw [bind_run]
    rcases hr : evolve_sources_new W s t h with ⟨e | s', h'⟩ <;> rw [hr] at this
    · exact this
    · exact this
  by_cases hop' : ∃ s t n v, op = .setPlain s t n v
  · obtain ⟨s, t, n, v, rfl⟩ := hop'
    exact plain_inv hi hb
  · push Not at hop hop'
    exact (inv_atoms W b).run op hop hop' h hi

theorem start_inv {W : World} {b : Bool} {h : Heap} (he : ∀ s, h.src s = blank) : Inv W b h := by
  refine ⟨?_, ?_, ?_⟩
  · intro s
    constructor
    · intro p hp
      rw [he s] at hp
      cases hp
    · intro p hp
      rw [he s] at hp
      cases hp
  · intro s tol ht
    rw [he s] at ht
    cases ht
  · intro s
    constructor
    · intro r hr
      rw [he s] at hr
      cases hr
    · intro r hr
      rw [he s] at hr
      cases hr

/-- All reachable heaps satisfy the weak invariants. -/
theorem Reachable.inv {W : World} {ok : Heap → Op → Prop} {h : Heap} (hr : Reachable W ok h) : Inv W false h := by
  induction hr with
  | start he => exact start_inv he
  | call op _ _ ih => exact run_inv ih (by simp)

/-- The strong invariants need interpolation to be on when evolving into a new object. -/
theorem Reachable.inv_true {W : World} {h : Heap} (hr : Reachable W Interpolating h) : Inv W true h := by
  induction hr with
  | start he => exact start_inv he
  | call op _ hok ih => exact run_inv ih fun _ => hok

theorem reachable_mono {W : World} {h : Heap} {ok ok' : Heap → Op → Prop} (hm : ∀ h op, ok h op → ok' h op) (hr : Reachable W ok h) :
    Reachable W ok' h := by
  induction hr with
  | start he => exact .start he
  | call op _ hok ih => exact .call op ih (hm _ _ hok)

end Legwork.source
