import Verif.Lemmas.ColsRun

/-!
# Evolving into a new object
-/

namespace Legwork.source

open Legwork.Spec Legwork.evol Legwork.utils Legwork.Props
open PyM hiding bind

variable {W : World} {c : Cols} {T : ℕ → ℝ} {t : EvolTime} {h : Heap} {s : ℕ}

theorem ecc_zero_of_rows (h : ∀ i, (rowAt c i).ecc = 0) : ∀ e ∈ c.ecc, e = 0 := by
  intro e he
  obtain ⟨i, hi, rfl⟩ := List.mem_iff_getElem.1 he
  have := h i
  simpa [rowAt, List.getD_eq_getElem?_getD, List.getElem?_eq_getElem hi] using this

/-- The columns of the new object, before merged flags and merger times are copied. -/
theorem evolved_cols {src : Src} {tol : ℝ} {d : Dict} (hr : Rect c) (hk : Coherent c) (hc : src.cols = timed W.K c) :
    init_cols W (evolved_args src tol d (evolvedOf W c T)) = .ok { c with
      ecc := (evolvedOf W c T).ecc, f_orb := (evolvedOf W c T).f_orb, weights := none,
      merged := List.replicate c.n_sources false, t_merge := none } := by
  obtain ⟨l1, l2, l3, l4⟩ := evolvedOf_lengths (W := W) c T
  rw [init_cols_iff]
  refine ⟨by simp [evolved_args, hc, timed, Raw.toList], by simp [evolved_args, hc, timed, Raw.toList],
    by simp [evolved_args, hc, timed, Raw.toList], by simp [evolved_args, Raw.toList],
    ⟨.array (evolvedOf W c T).f_orb true, rfl, rfl, rfl⟩, ⟨rfl, rfl, rfl⟩, ⟨hr.m_2, hr.dist, l2, l1⟩, rfl, ?_, rfl, rfl⟩
  unfold init_orientation
  rcases hp : c.position with _ | pos
  · obtain ⟨h1, h2⟩ := hk.angles hp
    simp only [evolved_args, hc, timed, hp, h1, h2]
    rfl
  · have hsome : c.position.isSome := by rw [hp]; rfl
    obtain ⟨h1, h2⟩ := hr.angles hsome
    obtain ⟨x, hx⟩ := Option.isSome_iff_exists.1 h1
    obtain ⟨y, hy⟩ := Option.isSome_iff_exists.1 h2
    have hz := ecc_zero_of_rows ((coherent_evolved (W := W) hk T).circular hsome)
    simp only [evolved_args, hc, timed, hp, hx, hy, Option.map_some, fill_angle]
    rw [pure_bind, pure_bind, if_neg]
    · unfold place
      rw [if_pos (by simp only [RawPos.toList, Raw.toList]; rw [hr.position pos hp, hr.dist])]
      rfl
    · rintro ⟨e, he, hne⟩
      exact hne (hz e he)

/-- The outcome of evolving into a new object. -/
theorem evolve_new_ok {tol etol : ℝ} {p : ℕ} (hi : Inv W false h) (hr : Rect (h.src s).cols) (hk : Coherent (h.src s).cols)
    (hT : TimesOf (h.src s).cols.n_sources T t) (htol : (h.src s).gw_lum_tol = some tol)
    (he : find_eccentric_transition tol = .ok etol) (hp : (h.src s).sc_params = some p) :
    ∃ d, d.eq (h.par p).dict ∧ evolve_sources_new W s t h = (.ok h.next,
      { next := h.next + 2,
        src := Function.update (Function.update h.src s { h.src s with cols := timed W.K (h.src s).cols }) h.next
          { cls := .Source, cols := { (h.src s).cols.evolved (evolvedOf W (h.src s).cols T) with weights := none },
            stat_tol := (h.src s).stat_tol, n_proc := (h.src s).n_proc, gw_lum_tol := some tol,
            harmonics_required := some (harmonics_required W.table tol),
            max_strain_harmonic := some (max_strain_harmonic W.table tol), ecc_tol := some etol,
            interpolate_sc := true, sc := (h.src s).sc, sc_params := some (h.next + 1), g := (h.src s).g },
        par := Function.update h.par (h.next + 1) ⟨d, some h.next⟩, snrs := h.snrs, harms := h.harms,
        trace := h.trace ++ [.harmonics h.next] }) := by
  obtain ⟨d, hd, heq⟩ := filled_params_of_keysOk ((hi.sc s).1 p hp).2.2
  refine ⟨d, heq, ?_⟩
  have hcom := evolve_common_ok (W := W) hr hT
  generalize hsrc : ({ h.src s with cols := timed W.K (h.src s).cols } : Src) = src at hcom ⊢
  have hc : src.cols = timed W.K (h.src s).cols := by rw [← hsrc]
  have htol' : src.gw_lum_tol = some tol := by rw [← hsrc]; exact htol
  have hp' : src.sc_params = some p := by rw [← hsrc]; exact hp
  have hpar : getSrcPar s (h.setSrc s src) = (.ok p, h.setSrc s src) := by
    unfold getSrcPar
    rw [bind_run]
    simp only [getSrc, setSrc_src, Function.update_self]
    rw [hp']
    rfl
  unfold evolve_sources_new
  rw [bind_ok hcom, bind_run]
  simp only [getSrc, setSrc_src, Function.update_self]
  rw [bind_ok (show attr src.gw_lum_tol (h.setSrc s src) = (.ok tol, h.setSrc s src) by rw [htol']; rfl),
    bind_ok hpar, bind_run]
  simp only [getPar, setSrc_par]
  rw [bind_run]
  rcases init_run W .Source (evolved_args src tol (h.par p).dict (evolvedOf W (h.src s).cols T)) (h.setSrc s src) with
    ⟨cols, etol', d', sc, h1, h2, h3, h4, h5⟩ | ⟨-, hbad⟩
  · rw [evolved_cols hr hk hc] at h1
    cases h1
    change find_eccentric_transition tol = _ at h2
    rw [he] at h2
    cases h2
    change filled_params (some (h.par p).dict) = _ at h3
    rw [hd] at h3
    cases h3
    rcases h4 with ⟨h4, -⟩ | ⟨-, rfl⟩
    · cases h4
    rw [h5]
    simp only
    rw [bind_run]
    simp only [modSrc, modify_run, pure_run]
    simp [heapAfterInit, newObject, Heap.setSrc, evolved_args, Cols.evolved]
    rw [← hsrc]
  · exfalso
    rcases hbad with ⟨e, hb⟩ | ⟨e, hb⟩ | ⟨e, hb⟩ | ⟨hb, -⟩
    · rw [evolved_cols hr hk hc] at hb
      cases hb
    · change find_eccentric_transition tol = _ at hb
      rw [he] at hb
      cases hb
    · change filled_params (some (h.par p).dict) = _ at hb
      rw [hd] at hb
      cases hb
    · cases hb

end Legwork.source
