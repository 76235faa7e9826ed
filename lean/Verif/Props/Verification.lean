import Verif.Props.Construct
import Verif.Lemmas.SizesRun
import Verif.Lemmas.Index

/-!
# C84: the verification binaries

`VerificationBinaries()` for an arbitrary table in place of the file shipped with the package.
-/

namespace Legwork.Props

open Legwork.Spec Legwork.source
open PyM hiding bind

variable {W : World} {vbs : Table} {rand : ℕ → ℝ} {h h' : Heap} {v : Verification}

/-- The object holds the table: masses, distances and inclinations as they are, the orbital frequency half the frequency of
the waves, circular orbits, random polarisations, no weights; labels and published SNRs in the same order; nothing
has merged, no SNR and no merger time is known, and the strongest harmonic is 2. -/
theorem C84_table (hl : vbs.position.length = vbs.m_1.length)
    (hr : verification_binaries W vbs rand h = (.ok v, h')) :
    v.labels = vbs.label ∧ v.true_snr = vbs.snr ∧ (h'.src v.source).cls = .VerificationBinaries ∧
    (h'.src v.source).cols = {
      m_1 := vbs.m_1, m_2 := vbs.m_2, dist := vbs.dist, f_orb := vbs.f_GW.map (· / 2),
      ecc := vbs.m_1.map fun _ => 0, weights := none, position := some vbs.position, inclination := some vbs.i,
      polarisation := some ((List.range vbs.m_1.length).map rand), merged := vbs.m_1.map fun _ => false,
      t_merge := none } ∧
    (h'.src v.source).snr = none ∧
    ∃ r, (h'.src v.source).max_snr_harmonic = some r ∧ h'.harms r = vbs.m_1.map fun _ => 2 := by
  unfold verification_binaries at hr
  rw [bind_run] at hr
  rcases hi : init W .VerificationBinaries (vbs.args rand) h with ⟨e | s, k⟩ <;> rw [hi] at hr
  · cases hr
  obtain ⟨cols, et, d, sc, hc, -, -, -, rfl, rfl⟩ := init_ok hi
  have hcols : cols = {
      m_1 := vbs.m_1, m_2 := vbs.m_2, dist := vbs.dist, f_orb := vbs.f_GW.map (· / 2),
      ecc := vbs.m_1.map fun _ => 0, weights := none, position := some vbs.position, inclination := some vbs.i,
      polarisation := some ((List.range vbs.m_1.length).map rand), merged := vbs.m_1.map fun _ => false,
      t_merge := none } := by
    have hb := builtFrom_of_cols (cls := .VerificationBinaries) (e := 0) (sc := none) (p := 0) hc
    have h1 := hb.m_1
    have h2 := hb.m_2
    have h3 := hb.dist
    have h4 := hb.f_orb _ rfl
    have h5 := hb.ecc
    have h6 := hb.weights
    have h7 := hb.position _ rfl hl
    have h8 := hb.inclination _ rfl
    have h9 := hb.drawn_polarisation (by simp [Table.args]) rfl
    obtain ⟨h10, h11, -, -⟩ := hb.fresh
    rcases cols with ⟨c1, c2, c3, c4, c5, c6, c7, c8, c9, c10, c11⟩
    simp only [newObject, Table.args, valuesOf, places, count, Option.map_none] at h1 h2 h3 h4 h5 h6 h7 h8 h9 h10 h11
    simp [h1, h2, h3, h4, h5, h6, h7, h8, h9, h10, h11, List.map_const']
  have hs : (heapAfterInit W .VerificationBinaries (vbs.args rand) cols et d sc h).src h.next =
      newObject W .VerificationBinaries (vbs.args rand) cols et sc (h.next + 1) := by simp [heapAfterInit]
  simp only at hr
  rw [bind_run] at hr
  simp only [getSrc, hs] at hr
  rw [bind_run] at hr
  unfold store_harm at hr
  simp only [bind_run, newHarm, modSrc, PyM.modify, pure_run] at hr
  cases hr
  subst hcols
  refine ⟨rfl, rfl, ?_, ?_, ?_, ?_⟩
  all_goals simp [Heap.setSrc, heapAfterInit, newObject, Cols.n_sources, List.map_const']

theorem default_curve {W : World} {R : psd.RTable} (hR : W.env.file = .ok R) : ∃ c, curve W DEFAULT_SC_PARAMS = .ok c := by
  refine curve_exists_iff.2 fun i _ => ?_
  have hk : (DEFAULT_SC_PARAMS.keys.any fun key => decide (key ∉ DEFAULT_SC_PARAMS.keys)) = false := by decide
  unfold psd_of_dict
  rw [hk]
  show ∃ v, psd.power_spectral_density W.K W.env _ "LISA" none .auto .auto false (.name "auto") = .ok v
  unfold psd.power_spectral_density psd.lisa_psd psd.lisa_response psd.load_response_function
  simp only [if_true, Bool.false_eq_true, if_false, hR]
  exact ⟨_, rfl⟩

theorem init_default {W : World} {R : psd.RTable} (hR : W.env.file = .ok R) {cls : Cls} {a : InitArgs}
    (ht : a.gw_lum_tol = 0.05) (hp : a.sc_params = some []) (hu : Usable a) (h : Heap) :
    ∃ s h', init W cls a h = (.ok s, h') := by
  rcases init_run W cls a h with ⟨_, _, _, _, -, -, -, -, h5⟩ | ⟨-, he⟩
  · exact ⟨_, _, h5⟩
  · exfalso
    obtain ⟨c, hc⟩ := (init_cols_ok_iff (W := W)).2 hu
    rcases he with ⟨e, he⟩ | ⟨e, he⟩ | ⟨e, he⟩ | ⟨-, d, e, hd, he⟩
    · rw [hc] at he
      cases he
    · rw [ht, Example.find_eccTol] at he
      cases he
    · rw [hp] at he
      cases he
    · rw [hp] at hd
      obtain ⟨c, hc⟩ := default_curve hR
      have : d = DEFAULT_SC_PARAMS := (Except.ok.inj hd).symm
      rw [this, hc] at he
      cases he

/-- With the response file in place, a table is accepted exactly if masses, distances and frequencies have the same
length. -/
theorem C84_accepts {R : psd.RTable} (hR : W.env.file = .ok R) (hl : vbs.position.length = vbs.m_1.length) :
    (∃ v h', verification_binaries W vbs rand h = (.ok v, h')) ↔
      vbs.m_2.length = vbs.m_1.length ∧ vbs.dist.length = vbs.m_1.length ∧ vbs.f_GW.length = vbs.m_1.length := by
  constructor
  · rintro ⟨v, h', hv⟩
    unfold verification_binaries at hv
    rw [bind_run] at hv
    rcases hi : init W .VerificationBinaries (vbs.args rand) h with ⟨e | s, k⟩ <;> rw [hi] at hv
    · cases hv
    have hu := (C50_built hi).1
    refine ⟨hu.lengths.1, hu.lengths.2.1, ?_⟩
    rcases hu.orbit with ⟨f, hf, -, hc⟩ | ⟨hf, -⟩
    · cases hf
      simpa [count, valuesOf, Table.args] using hc
    · cases hf
  · rintro ⟨h2, hd, hf⟩
    have hu : Usable (vbs.args rand) :=
      { orbit := Or.inl ⟨_, rfl, rfl, by simpa [count, valuesOf, Table.args] using hf⟩
        units := ⟨rfl, rfl, rfl⟩
        lengths := ⟨h2, hd, by simp [count, valuesOf, Table.args]⟩
        angles := fun hp => by cases hp
        circular := fun _ e he => List.eq_of_mem_replicate he
        positions := fun p hp => by cases hp; exact Or.inl hl
        drawn := fun _ _ => trivial }
    obtain ⟨s, k, hk⟩ := init_default hR (cls := .VerificationBinaries) rfl rfl hu h
    unfold verification_binaries
    rw [bind_ok hk]
    exact ⟨_, _, rfl⟩

/-- They cannot be indexed or copied, whatever has happened to them. -/
theorem C84_not_indexed {s : ℕ} (hc : (h.src s).cls = .VerificationBinaries) (ind : Index) :
    source.getitem s ind h = (.error .NotImplementedError, h) ∧ source.copy s h = (.error .NotImplementedError, h) := by
  constructor
  · rw [getitem_run, if_pos hc]
  · unfold source.copy
    rw [getitem_run, if_pos hc]

/-! ## Non-vacuity -/

/-- The binaries of the example with a response file. -/
noncomputable def responsive : World := { Example.world with env := ⟨.ok ([0], [1]), fun _ _ _ => 1⟩ }

/-- Two verification binaries. -/
noncomputable def twoBinaries : Table where
  m_1 := [1e30, 2e30]
  m_2 := [4e29, 5e29]
  dist := [3e19, 4e19]
  f_GW := [3e-3, 6e-3]
  position := [(0.1, 0.2), (0.3, 0.4)]
  i := [0.5, 1]
  label := ["ZTF J1539", "HM Cancri"]
  snr := [140, 211]

/-- They can be loaded, and the second has half of 6 mHz. -/
example : ∃ v h', verification_binaries responsive twoBinaries (fun _ => 0) Example.start = (.ok v, h') ∧
    (h'.src v.source).cols.f_orb[1]? = some (3e-3 : ℝ) ∧ v.labels[1]? = some "HM Cancri" := by
  obtain ⟨v, h', hr⟩ := (C84_accepts (W := responsive) (vbs := twoBinaries) (rand := fun _ => 0) (h := Example.start)
    (R := ([0], [1])) rfl rfl).2 ⟨rfl, rfl, rfl⟩
  obtain ⟨hl, -, -, hc, -⟩ := C84_table (vbs := twoBinaries) rfl hr
  refine ⟨v, h', hr, ?_, ?_⟩
  · rw [hc]
    show some ((6e-3 : ℝ) / 2) = some 3e-3
    norm_num
  · rw [hl]
    rfl

end Legwork.Props
