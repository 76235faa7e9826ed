import Verif.Lemmas.SourceLoad
import Verif.Lemmas.SourceG
import Verif.Props.SourceEvolve
import Verif.Props.SourceParts
import Verif.Props.SourceRepeat

/-!
# Saving and loading: C48, C49

C48 has exceptions, proved below: functions are replaced by defaults with a warning, so that an object with a custom
instrument cannot be loaded with its own settings (`C48_custom_refused`); a `VerificationBinaries` object comes back as a
`Source` (`C48_verification`); and a parameter that is the string `"__none__"` comes back as `None` (`C48_none_string`).
For C49, `overwrite=True` loses the old contents before the new ones are written (`C49_overwrite_not_atomic`).
-/

namespace Legwork.Props

open Legwork.source Legwork.Spec
open PyM hiding bind

variable {W : World} {ok : Heap → Op → Prop} {h k : Heap} {s p : ℕ} {tol etol : ℝ} {Φ Φ' : Files} {st st' : Store}
  {sts : List Store} {ws : List String} {name name' : String} {ow : Bool} {cls : Cls}

/-! ### C49 -/

/-- The steps of `save`. -/
theorem save_run (Φ : Files) (h : Heap) (s : ℕ) (name : String) (ow : Bool) (st : Store) :
    (∃ e, save Φ h s name ow st = (.error e, [])) ∨
    ((isfile Φ st (normalise name) = true → ow = true) ∧ ∃ tol p, (h.src s).gw_lum_tol = some tol ∧
      (h.src s).sc_params = some p ∧ save Φ h s name ow st = (.ok (unsaved (h.par p).dict),
        Function.update st (Φ.locate (normalise name)) (some (.h5 H5.empty)) ::
        run_writes (Φ.locate (normalise name)) (save_writes Φ h (h.src s) tol (h.par p).dict) H5.empty
          (Function.update st (Φ.locate (normalise name)) (some (.h5 H5.empty))))) := by
  obtain ⟨r, hr⟩ : ∃ r, r = save Φ h s name ow st := ⟨_, rfl⟩
  rw [← hr]
  unfold save at hr
  simp only at hr
  split_ifs at hr with h1
  · exact Or.inl ⟨_, hr⟩
  · split at hr
    · exact Or.inl ⟨_, hr⟩
    · exact Or.inl ⟨_, hr⟩
    · split at hr
      · rename_i tol p h2 h3
        refine Or.inr ⟨fun hf => ?_, tol, p, h2, h3, hr⟩
        rcases ow with _ | _
        · rw [hf] at h1
          exact absurd rfl h1
        · rfl
      · exact Or.inl ⟨_, hr⟩

theorem isfile_iff : isfile Φ st name = true ↔ IsFile (st (Φ.locate name)) := by
  unfold isfile IsFile
  rcases st (Φ.locate name) with _ | _ | _ | f <;> simp

/-- **C49.** With `overwrite=False`, `save` refuses a path at which there is a file, and does nothing. -/
theorem C49_refused (hf : IsFile (st (Φ.locate (normalise name)))) :
    save Φ h s name false st = (.error .FileExistsError, []) := by
  unfold save
  simp only
  rw [isfile_iff.2 hf]
  rfl

/-- **C49.** With `overwrite=False`, no file that existed before is ever changed, wherever `save` stops: every store on
the way has every such file as it was. -/
theorem C49_files_kept {loc : ℕ} (hf : IsFile (st loc)) :
    ∀ st' ∈ (save Φ h s name false st).2, st' loc = st loc := by
  rcases save_run Φ h s name false st with ⟨e, he⟩ | ⟨ho, tol, p, -, -, he⟩ <;> rw [he]
  · simp
  · have hne : loc ≠ Φ.locate (normalise name) := by
      rintro rfl
      exact absurd (ho (isfile_iff.2 hf)) (by simp)
    intro st' hm
    rcases List.mem_cons.1 hm with rfl | hm
    · rw [Function.update_of_ne hne]
    · rw [run_writes_other _ _ _ _ _ hm _ hne, Function.update_of_ne hne]

/-- **C49.** Whatever `overwrite` is, only the (extension-normalised) path is ever written. -/
theorem C49_elsewhere {loc : ℕ} (hne : loc ≠ Φ.locate (normalise name)) :
    ∀ st' ∈ (save Φ h s name ow st).2, st' loc = st loc := by
  rcases save_run Φ h s name ow st with ⟨e, he⟩ | ⟨ho, tol, p, -, -, he⟩ <;> rw [he]
  · simp
  · intro st' hm
    rcases List.mem_cons.1 hm with rfl | hm
    · rw [Function.update_of_ne hne]
    · rw [run_writes_other _ _ _ _ _ hm _ hne, Function.update_of_ne hne]

/-- **C49.** A failing `save` has changed nothing. -/
theorem C49_failed {e : PyErr} (hs : (save Φ h s name ow st).1 = .error e) : (save Φ h s name ow st).2 = [] := by
  rcases save_run Φ h s name ow st with ⟨e', he⟩ | ⟨ho, tol, p, -, -, he⟩ <;> rw [he]
  rw [he] at hs
  cases hs

/-- **C49** (when it works). For an object with a tolerance and parameters, `save` succeeds exactly if the path can be
written, is no folder, and is no file or `overwrite` is true. -/
theorem C49_succeeds_iff (htol : (h.src s).gw_lum_tol = some tol) (hp : (h.src s).sc_params = some p) :
    (∃ ws, (save Φ h s name ow st).1 = .ok ws) ↔
      Φ.writable (Φ.locate (normalise name)) = true ∧ st (Φ.locate (normalise name)) ≠ some .folder ∧
        (IsFile (st (Φ.locate (normalise name))) → ow = true) := by
  rw [← isfile_iff]
  unfold save isfile
  simp only [htol, hp]
  rcases st (Φ.locate (normalise name)) with _ | _ | _ | f <;> rcases Φ.writable (Φ.locate (normalise name)) with _ | _ <;>
    rcases ow with _ | _ <;> simp

/-- **C49** (paths). The extension is added once: names that already have one of the extensions are left alone, and the
result has one. -/
theorem C49_normalise (name : String) :
    normalise (normalise name) = normalise name ∧
    (endswith (normalise name) ".h5" = true ∨ endswith (normalise name) ".hdf5" = true) ∧
    (normalise name = name ↔ (∃ base, name = base ++ ".h5") ∨ ∃ base, name = base ++ ".hdf5") ∧
    (normalise name ≠ name → normalise name = name ++ ".h5") := by
  have hsuf : ∀ suf, endswith name suf = true ↔ ∃ base, name = base ++ suf := by
    intro suf
    constructor
    · intro hx
      obtain ⟨t, ht⟩ := List.isSuffixOf_iff_suffix.1 hx
      refine ⟨String.ofList t, String.toList_inj.1 ?_⟩
      rw [String.toList_append, String.toList_ofList, ht]
    · rintro ⟨b, rfl⟩
      exact endswith_append _ _
  have hends : endswith (normalise name) ".h5" = true ∨ endswith (normalise name) ".hdf5" = true := by
    unfold normalise
    split_ifs with hx
    · simpa using hx
    · exact Or.inl (endswith_append _ _)
  refine ⟨?_, hends, ?_, ?_⟩
  · generalize normalise name = m at hends
    unfold normalise
    rw [if_pos (by simpa using hends)]
  · rw [← hsuf, ← hsuf]
    constructor
    · intro hx
      rw [hx] at hends
      exact hends
    · intro hx
      unfold normalise
      rw [if_pos (by simpa using hx)]
  · unfold normalise
    split_ifs
    · exact fun hx => absurd rfl hx
    · exact fun _ => rfl

/-- **C49** (paths). `save` and `from_file` treat paths alike: both work on the normalised path, so the extension may be
left out in either. -/
theorem C49_same_path (Φ : Files) (h : Heap) (s : ℕ) (name : String) (ow : Bool) (st : Store) (cls : Cls)
    (ig isc : Option Bool) (np : Option ℕ) :
    save Φ h s (normalise name) ow st = save Φ h s name ow st ∧
    from_file W Φ st cls (normalise name) ig isc np = from_file W Φ st cls name ig isc np := by
  unfold save from_file
  rw [(C49_normalise name).1]
  exact ⟨rfl, rfl⟩

/-- **C49** (loading). Without a file at the path, `from_file` fails and makes no object. -/
theorem C49_missing (hf : ¬ IsFile (st (Φ.locate (normalise name)))) (ig isc : Option Bool) (np : Option ℕ) (k : Heap) :
    from_file W Φ st cls name ig isc np k = (.error .FileNotFoundError, k) := by
  unfold from_file
  rw [if_neg (by rw [isfile_iff]; exact hf)]
  rfl

/-- **C49** (what is not claimed, and false). `overwrite=True` is not safe: at the first step the old contents are gone,
and what is there instead cannot be loaded. -/
theorem C49_overwrite_not_atomic (hs : save Φ h s name true st = (.ok ws, sts)) :
    ∃ st₁ rest, sts = st₁ :: rest ∧ rest ≠ [] ∧ st₁ (Φ.locate (normalise name)) = some (.h5 H5.empty) ∧
      ∀ cls ig isc np k, ∃ e, from_file W Φ st₁ cls name ig isc np k = (.error e, k) := by
  rcases save_run Φ h s name true st with ⟨e, he⟩ | ⟨-, tol, p, -, -, he⟩ <;> rw [hs] at he
  · cases (Prod.mk.inj he).1
  · refine ⟨_, _, (Prod.mk.inj he).2, ?_, Function.update_self .., fun cls ig isc np k => ?_⟩
    · intro hx
      have := congrArg List.length hx
      rw [run_writes_length] at this
      simp [save_writes, write_settings] at this
    · obtain ⟨st₁, h₁⟩ : ∃ st₁, st₁ = Function.update st (Φ.locate (normalise name)) (some (.h5 H5.empty)) := ⟨_, rfl⟩
      rw [← h₁]
      have hst : st₁ (Φ.locate (normalise name)) = some (.h5 H5.empty) := by rw [h₁, Function.update_self]
      refine ⟨.TypeError, ?_⟩
      unfold from_file
      rw [if_pos (isfile_iff.2 (Or.inr ⟨_, hst⟩)), hst]
      rfl

/-! ### C48 -/

/-- What `save` leaves at the path. -/
theorem saved_there (hs : save Φ h s name ow st = (.ok ws, sts)) :
    ∃ tol p, (h.src s).gw_lum_tol = some tol ∧ (h.src s).sc_params = some p ∧ ws = unsaved (h.par p).dict ∧
      storeAfter st sts (Φ.locate (normalise name)) = some (.h5 (saved Φ h (h.src s) tol (h.par p).dict)) := by
  rcases save_run Φ h s name ow st with ⟨e, he⟩ | ⟨-, tol, p, h1, h2, he⟩ <;> rw [hs] at he
  · cases (Prod.mk.inj he).1
  · obtain ⟨e1, e2⟩ := Prod.mk.inj he
    refine ⟨tol, p, h1, h2, Except.ok.inj e1, ?_⟩
    rw [e2]
    have := run_writes_last (Φ.locate (normalise name)) (save_writes Φ h (h.src s) tol (h.par p).dict) H5.empty _
      (Function.update_self (f := st) ..)
    unfold storeAfter at this ⊢
    rw [List.getLastD_cons]
    exact this

/-- **C48.** An object that any program has made and changed is saved; later, in the same or another session (heap `k`,
other files, another version), the file is loaded, possibly with other settings. Loading succeeds if the curve is not to be
interpolated, or if there is one for the parameters. The new object has the attributes of the saved one: all values per
source, results included; the tolerances and all that follows from them; the settings unless others are given; and the
parameters as they come back (`comesBack`), with functions replaced by defaults. Nothing else is changed. A warning is printed exactly if the versions
differ, and one exactly if the instrument is custom but its function not known.

Required are lengths the constructor does not check (`SizeOk`), and a tolerance that has a transition (see
`C43_rejected_kept`). -/
theorem C48_restored (hok : ∀ h op, ok h op → SizeOk h op) (hr : Reachable W ok h)
    (hs : save Φ h s name ow st = (.ok ws, sts)) (hp : (h.src s).sc_params = some p)
    (htol : (h.src s).gw_lum_tol = some tol) (he : find_eccentric_transition tol = .ok etol)
    (hkept : st' (Φ'.locate (normalise name')) = storeAfter st sts (Φ.locate (normalise name)))
    (hcls : cls ≠ .VerificationBinaries) (ig isc : Option Bool) (np : Option ℕ) (k : Heap)
    (hcurve : isc.getD (h.src s).interpolate_sc = true → ∃ c, CurveOf W (comesBack (h.par p).dict) c) :
    ∃ x k', from_file W Φ' st' cls name' ig isc np k = (.ok x, k') ∧ x.source = k.next ∧ k.next < k'.next ∧
      LoadedAs W h s (classFor cls (h.src s).cls) (ig.getD (h.src s).g.isSome) (isc.getD (h.src s).interpolate_sc)
        (np.getD (h.src s).n_proc) tol (comesBack (h.par p).dict) k' x.source ∧
      Undisturbed k k' ∧ (x.other_version = true ↔ Φ.version ≠ Φ'.version) ∧
      (x.no_psd = true ↔ (h.par p).dict.get? "instrument" = some (.str "custom") ∧
        ∃ v, (h.par p).dict.get? "custom_psd" = some v ∧ (asRead v = .none ∨ IsFunction v = true)) := by
  obtain ⟨tol', p', h1, h2, -, h3⟩ := saved_there hs
  rw [htol] at h1
  rw [hp] at h2
  cases h1
  cases h2
  rw [h3] at hkept
  have ht := Reachable.tidy hok hr s
  have hd := (((Reachable.inv hr).sc s).1 p hp).2.2
  obtain ⟨x, k', g1, g2, g3, g4, g5, g6, g7⟩ := (from_file_saved (W := W) rfl hkept ht.sized.rect ht.settled hd he
    hcls ig isc np k).1 hcurve
  exact ⟨x, k', g1, g2, g7, g5, g6, by rw [g3, decide_eq_true_iff], g4⟩

/-- **C48** (the other case). If the curve is to be interpolated but the parameters that come back have none, loading
fails. -/
theorem C48_refused (hok : ∀ h op, ok h op → SizeOk h op) (hr : Reachable W ok h)
    (hs : save Φ h s name ow st = (.ok ws, sts)) (hp : (h.src s).sc_params = some p)
    (htol : (h.src s).gw_lum_tol = some tol) (he : find_eccentric_transition tol = .ok etol)
    (hkept : st' (Φ'.locate (normalise name')) = storeAfter st sts (Φ.locate (normalise name)))
    (hcls : cls ≠ .VerificationBinaries) (ig isc : Option Bool) (np : Option ℕ) (k : Heap)
    (hisc : isc.getD (h.src s).interpolate_sc = true) (hno : ¬ ∃ c, CurveOf W (comesBack (h.par p).dict) c) :
    ∃ e k', from_file W Φ' st' cls name' ig isc np k = (.error e, k') := by
  obtain ⟨tol', p', h1, h2, -, h3⟩ := saved_there hs
  rw [htol] at h1
  rw [hp] at h2
  cases h1
  cases h2
  rw [h3] at hkept
  have ht := Reachable.tidy hok hr s
  have hd := (((Reachable.inv hr).sc s).1 p hp).2.2
  exact (from_file_saved (W := W) rfl hkept ht.sized.rect ht.settled hd he hcls ig isc np k).2 hisc hno

/-- **C48** (warnings of `save`). A warning is printed for exactly the parameters that are functions. -/
theorem C48_warned (hr : Reachable W ok h) (hs : save Φ h s name ow st = (.ok ws, sts)) (hp : (h.src s).sc_params = some p)
    (key : String) : key ∈ ws ↔ ∃ v, (h.par p).dict.get? key = some v ∧ IsFunction v = true := by
  obtain ⟨tol', p', h1, h2, rfl, -⟩ := saved_there hs
  rw [hp] at h2
  cases h2
  have hd := (((Reachable.inv hr).sc s).1 p hp).2.2.2
  generalize (h.par p).dict = d at hd
  have : ∀ key, key ∈ unsaved d ↔ ∃ v, (key, v) ∈ d ∧ IsFunction v = true := by
    intro key
    clear hd
    induction d with
    | nil => simp [unsaved]
    | cons x rest ih =>
      obtain ⟨k', v⟩ := x
      have hc : unsaved ((k', v) :: rest) = if IsFunction v then k' :: unsaved rest else unsaved rest := by
        cases v <;> rfl
      rw [hc]
      split_ifs with hv
      · rw [List.mem_cons, ih]
        constructor
        · rintro (rfl | ⟨w, hw, hf⟩)
          · exact ⟨v, List.mem_cons_self, hv⟩
          · exact ⟨w, List.mem_cons_of_mem _ hw, hf⟩
        · rintro ⟨w, hw, hf⟩
          rcases List.mem_cons.1 hw with hw | hw
          · exact Or.inl (Prod.mk.inj hw).1
          · exact Or.inr ⟨w, hw, hf⟩
      · rw [ih]
        constructor
        · rintro ⟨w, hw, hf⟩
          exact ⟨w, List.mem_cons_of_mem _ hw, hf⟩
        · rintro ⟨w, hw, hf⟩
          rcases List.mem_cons.1 hw with hw | hw
          · rw [(Prod.mk.inj hw).2] at hf
            exact absurd hf hv
          · exact ⟨w, hw, hf⟩
  rw [this]
  constructor
  · rintro ⟨v, hv, hf⟩
    exact ⟨v, lookup_of_mem hd hv, hf⟩
  · rintro ⟨v, hv, hf⟩
    exact ⟨v, mem_of_get? hv, hf⟩

/-- Calls within the conditions of C40 and C68. -/
def Careful (h : Heap) (op : Op) : Prop := SizeOk h op ∧ Interpolating h op

private theorem comesBack_same {d : Dict} (hd : SixKeys d) (hf : ∀ key v, d.get? key = some v → IsFunction v = false)
    (hp : Plain d) : (comesBack d).eq d := by
  intro key
  rw [comesBack_get?]
  by_cases hk : key ∈ scKeys
  · obtain ⟨v, hv⟩ := Option.isSome_iff_exists.1 ((hd key).2 hk)
    have hdv : d.get key = v := by simp [Dict.get, hv]
    have hr : asRead v = v := by
      rcases v with _ | t | _ | _ | _ | _ | _
      case str =>
        simp only [asRead]
        rw [if_neg fun he => hp key (by rw [hv, he])]
      all_goals rfl
    rw [if_pos hk, hdv, hf key v hv, hv]
    simp [hr]
  · rw [if_neg hk]
    rcases hv : d.get? key with _ | v
    · rfl
    · exact absurd ((hd key).1 (by rw [hv]; rfl)) hk

/-- **C48** (the same object). If there are no functions among the parameters, the object that `Source.from_file` makes is
the same in all its attributes: class, values, results, settings, tolerances, parameters, and interpolated functions. -/
theorem C48_same (hr : Reachable W Careful h) (hs : save Φ h s name ow st = (.ok ws, sts))
    (hp : (h.src s).sc_params = some p) (htol : (h.src s).gw_lum_tol = some tol)
    (he : find_eccentric_transition tol = .ok etol) (hplain : Plain (h.par p).dict)
    (hf : ∀ key v, (h.par p).dict.get? key = some v → IsFunction v = false)
    (hcurve : (h.src s).interpolate_sc = true → ∃ c, CurveOf W (h.par p).dict c)
    (hv : (h.src s).cls ≠ .VerificationBinaries)
    (hkept : st' (Φ'.locate (normalise name')) = storeAfter st sts (Φ.locate (normalise name))) (k : Heap) :
    ws = [] ∧ ∃ x k', from_file W Φ' st' .Source name' none none none k = (.ok x, k') ∧ x.source = k.next ∧
      k.next < k'.next ∧ SameSources h s k' x.source ∧ Undisturbed k k' := by
  have hri : Reachable W Interpolating h := reachable_mono (fun _ _ h => h.2) hr
  have hd := (((Reachable.inv hr).sc s).1 p hp).2.2
  have hsame := comesBack_same hd.1 hf hplain
  have hsix : SixKeys (comesBack (h.par p).dict) := fun key => by rw [hsame key]; exact hd.1 key
  have hco : ∀ c, CurveOf W (comesBack (h.par p).dict) c ↔ CurveOf W (h.par p).dict c := by
    intro c
    rw [← curve_ok_iff, ← curve_ok_iff, curve_congr W hsame]
  constructor
  · refine List.eq_nil_iff_forall_not_mem.2 fun key hk => ?_
    obtain ⟨v, hv, hv'⟩ := (C48_warned hr hs hp key).1 hk
    rw [hf key v hv] at hv'
    cases hv'
  obtain ⟨x, k', g1, g2, g3, g4, g5, -⟩ := C48_restored (fun _ _ h => h.1) hr hs hp htol he hkept (cls := .Source)
    (by simp) none none none k (fun hi => by obtain ⟨c, hc⟩ := hcurve hi; exact ⟨c, (hco c).2 hc⟩)
  refine ⟨x, k', g1, g2, g3, ?_, g5⟩
  obtain ⟨t1, t2, t3⟩ := (Reachable.inv hr).tol s tol htol
  have hcl : classFor .Source (h.src s).cls = (h.src s).cls := by
    rcases hc : (h.src s).cls with _ | _ | _ | _
    · rfl
    · rfl
    · rfl
    · exact absurd hc hv
  refine ⟨g4.cls.trans hcl, g4.cols, g4.stat_tol, g4.n_proc, g4.gw_lum_tol.trans htol.symm,
    g4.harmonics_required.trans t1.symm, g4.max_strain_harmonic.trans t2.symm, ?_, g4.interpolate_sc, ?_, ?_, g4.snr,
    g4.max_snr_harmonic, ?_⟩
  · obtain ⟨e, e1, e2⟩ := g4.ecc_tol
    rw [e2, t3 e e1]
  · rcases hi : (h.src s).interpolate_sc with _ | _
    · rw [g4.sc_off hi, (C40_current hri hp).2 hi]
    · obtain ⟨c, c1, c2⟩ := g4.sc_on hi
      rw [c2, (C40_current hri hp).1 hi c ((hco c).1 c1)]
  · rw [g4.g]
    rcases hg : (h.src s).g with _ | f
    · rfl
    · rw [Reachable.gInv hr s f hg]
      rfl
  · obtain ⟨p', q1, q2, -⟩ := g4.sc_params
    exact ⟨p, p', hp, q1, fun key => by rw [q2 key, hsame key]⟩

/-- **C48** (the same results). SNRs calculated from the loaded object are those that would have been calculated from the
object that was saved. -/
theorem C48_snr (hr : Reachable W Careful h) (hs : save Φ h s name ow st = (.ok ws, sts))
    (hp : (h.src s).sc_params = some p) (htol : (h.src s).gw_lum_tol = some tol)
    (he : find_eccentric_transition tol = .ok etol) (hplain : Plain (h.par p).dict)
    (hf : ∀ key v, (h.par p).dict.get? key = some v → IsFunction v = false)
    (hcurve : (h.src s).interpolate_sc = true → ∃ c, CurveOf W (h.par p).dict c)
    (hv : (h.src s).cls ≠ .VerificationBinaries)
    (hkept : st' (Φ'.locate (normalise name')) = storeAfter st sts (Φ.locate (normalise name)))
    {ok : Heap → Op → Prop} (hk : Reachable W ok k) {x : Loaded} {k' h' : Heap}
    (hx : from_file W Φ' st' .Source name' none none none k = (.ok x, k')) {n r : ℕ} {a : SnrArgs} {sel : Option (List Bool)}
    (hn : n ≠ 0) (hsch : CompleteSchedule W (h.src s)) (hw : FitsMask (h.src s).cols sel)
    (hrun : get_snr W s a n sel h = (.ok r, h')) :
    ∃ r' k'', get_snr W x.source a n sel k' = (.ok r', k'') ∧ k''.snrs r' = h'.snrs r ∧
      storedHarm k'' x.source = storedHarm h' s := by
  obtain ⟨-, x', k₁, g1, g2, g3, g4, -⟩ := C48_same hr hs hp htol he hplain hf hcurve hv hkept k
  rw [hx] at g1
  obtain ⟨e1, rfl⟩ := Prod.mk.inj g1
  cases e1
  have ht := Reachable.tidy (fun _ _ h => h.1) hr s
  have hki : Inv W false k' := by
    have := (inv_atoms W false).from_file Φ' st' .Source name' none none none k (Reachable.inv hk)
    rwa [hx] at this
  have hsn : snrNow k' x.source = snrNow h s := by
    have := g4.snr
    unfold snrNow
    rcases h1 : (h.src s).snr with _ | r₁ <;> rcases h2 : (k'.src x.source).snr with _ | r₂ <;> rw [h1, h2] at this
    · simp only
      rw [g4.cols]
    · cases this
    · cases this
    · exact Option.some.inj this
  have hhn : harmNow k' x.source = harmNow h s := by
    have := g4.max_snr_harmonic
    unfold harmNow
    rcases h1 : (h.src s).max_snr_harmonic with _ | r₁ <;> rcases h2 : (k'.src x.source).max_snr_harmonic with _ | r₂ <;>
      rw [h1, h2] at this
    · simp only
      rw [g4.cols]
    · cases this
    · cases this
    · exact Option.some.inj this
  have hsnl : (snrNow h s).length = (h.src s).cols.n_sources := by
    unfold snrNow
    rcases hs : (h.src s).snr with _ | r
    · simp
    · exact ht.sized.snr r hs
  have hhnl : (harmNow h s).length = (h.src s).cols.n_sources := by
    unfold harmNow
    rcases hs : (h.src s).max_snr_harmonic with _ | r
    · simp
    · exact ht.sized.harm r hs
  have hset : SameSettings h s k' x.source := by
    obtain ⟨p', p'', q1, q2, q3⟩ := g4.sc_params
    refine ⟨g4.cls, g4.stat_tol, g4.n_proc, g4.gw_lum_tol, g4.harmonics_required, g4.max_strain_harmonic, g4.ecc_tol,
      g4.interpolate_sc, g4.sc, g4.g, ?_⟩
    unfold paramValues
    rw [q1, q2]
    exact congrArg some (funext q3)
  have hP : PartOf h s (List.range (h.src s).cols.n_sources) k' x.source :=
    ⟨⟨hset, ((Reachable.inv hr).sc s).1, (hki.sc x.source).1⟩, by rw [g4.cols, colsAt_range ht.sized.rect],
      fun j hj => List.mem_range.1 hj, by rw [hsn, entries_range _ hsnl], by rw [hhn, entries_range _ hhnl], hsnl, hhnl⟩
  obtain ⟨r', k'', j1, j2, j3⟩ := get_snr_part hP hv ht.sized hn hsch hw hrun
  have hr' : Reachable W Careful h' := by
    have := Reachable.call (.getSnr s a n sel) hr ⟨trivial, trivial⟩
    have he : (Op.run W (.getSnr s a n sel) h).2 = h' := by
      change ((get_snr W s a n sel >>= fun _ => pure ()) h).2 = h'
      rw [bind_run, hrun]
      rfl
    rwa [he] at this
  have ht' := Reachable.tidy (fun _ _ h => h.1) hr' s
  have hc' : (h'.src s).cols = (h.src s).cols := by
    have := get_snr_snrCall W s a n sel h
    rw [hrun] at this
    exact this.cols s
  have hn' := ht'.sized.snr r (get_snr_fresh hrun).2
  rw [hc'] at hn'
  have hm' : (storedHarm h' s).length = (h.src s).cols.n_sources := by
    unfold storedHarm
    rcases hs : (h'.src s).max_snr_harmonic with _ | r
    · simp [hc']
    · rw [← hc']
      exact ht'.sized.harm r hs
  rw [entries_range _ hn'] at j2
  rw [entries_range _ hm'] at j3
  refine ⟨r', k'', ?_, j2, j3⟩
  rcases sel with _ | m
  · exact j1
  · rw [Option.map_some, entries_range _ (hw m rfl)] at j1
    exact j1

/-! ### Exceptions to C48 -/

private theorem no_curve {d : Dict} (h1 : d.get? "instrument" = some (.str "custom")) (h2 : d.get? "custom_psd" = some .none)
    (c : ℝ → WithTop ℝ) : ¬ CurveOf W d c := by
  intro hc
  have := hc.on_grid 0 (by norm_num)
  unfold psd_of_dict at this
  split_ifs at this
  simp only [h1, h2, Option.getD_some] at this
  obtain ⟨kw, hkw, this⟩ := except_bind_ok.1 this
  obtain ⟨t, -, this⟩ := except_bind_ok.1 this
  unfold asKw at hkw
  obtain ⟨i, hi, hkw⟩ := except_bind_ok.1 hkw
  obtain ⟨cp, hcp, hkw⟩ := except_bind_ok.1 hkw
  obtain ⟨L, -, hkw⟩ := except_bind_ok.1 hkw
  obtain ⟨aR, -, hkw⟩ := except_bind_ok.1 hkw
  obtain ⟨cn, -, hkw⟩ := except_bind_ok.1 hkw
  cases hi
  cases hcp
  cases hkw
  cases this

/-- **C48** (fails for custom instruments). An object with a custom instrument, whose curve is interpolated (the default),
is saved with a warning, but cannot be loaded with its own settings. (With `interpolate_sc=False`, `C48_restored` says
that it can.) -/
theorem C48_custom_refused (hok : ∀ h op, ok h op → SizeOk h op) (hr : Reachable W ok h)
    (hs : save Φ h s name ow st = (.ok ws, sts)) (hp : (h.src s).sc_params = some p)
    (htol : (h.src s).gw_lum_tol = some tol) (he : find_eccentric_transition tol = .ok etol)
    (hi : (h.par p).dict.get? "instrument" = some (.str "custom"))
    (hf : ∃ v, (h.par p).dict.get? "custom_psd" = some v ∧ IsFunction v = true)
    (hsc : (h.src s).interpolate_sc = true)
    (hkept : st' (Φ'.locate (normalise name')) = storeAfter st sts (Φ.locate (normalise name)))
    (hcls : cls ≠ .VerificationBinaries) (ig : Option Bool) (np : Option ℕ) (k : Heap) :
    ∃ e k', from_file W Φ' st' cls name' ig none np k = (.error e, k') := by
  obtain ⟨v, hv, hfv⟩ := hf
  refine C48_refused hok hr hs hp htol he hkept hcls ig none np k hsc ?_
  rintro ⟨c, hc⟩
  refine no_curve ?_ ?_ c hc
  · rw [comesBack_get?, if_pos (by decide)]
    simp [Dict.get, hi, IsFunction, asRead]
  · rw [comesBack_get?, if_pos (by decide)]
    have : (h.par p).dict.get "custom_psd" = v := by simp [Dict.get, hv]
    rw [this, hfv]
    rfl

/-- **C48** (fails for `VerificationBinaries`). The class is lost: `Source.from_file` makes a `Source` of a saved
`VerificationBinaries`, and `VerificationBinaries.from_file` fails with every file that `save` has written. -/
theorem C48_verification (hok : ∀ h op, ok h op → SizeOk h op) (hr : Reachable W ok h)
    (hs : save Φ h s name ow st = (.ok ws, sts)) (hp : (h.src s).sc_params = some p)
    (htol : (h.src s).gw_lum_tol = some tol) (he : find_eccentric_transition tol = .ok etol)
    (hkept : st' (Φ'.locate (normalise name')) = storeAfter st sts (Φ.locate (normalise name)))
    (ig isc : Option Bool) (np : Option ℕ) (k : Heap)
    (hcurve : isc.getD (h.src s).interpolate_sc = true → ∃ c, CurveOf W (comesBack (h.par p).dict) c) :
    (∃ e, from_file W Φ' st' .VerificationBinaries name' ig isc np k = (.error e, k)) ∧
    ((h.src s).cls = .VerificationBinaries → ∃ x k', from_file W Φ' st' .Source name' ig isc np k = (.ok x, k') ∧
      (k'.src x.source).cls = .Source) := by
  constructor
  · obtain ⟨tol', p', -, -, -, h3⟩ := saved_there hs
    rw [h3] at hkept
    generalize saved Φ h (h.src s) tol' (h.par p').dict = f at hkept
    have hr : from_file W Φ' st' .VerificationBinaries name' ig isc np k =
        (PyM.lift (load_args Φ' f ig isc np) >>= fun _ => PyM.lift (throw .TypeError) : M Loaded) k := by
      unfold from_file
      rw [if_pos (isfile_iff.2 (Or.inr ⟨_, hkept⟩)), hkept]
      rfl
    rw [hr, bind_run, lift_run]
    rcases load_args Φ' f ig isc np with e | a
    · exact ⟨e, rfl⟩
    · exact ⟨_, rfl⟩
  · intro hv
    obtain ⟨x, k', g1, -, -, g4, -⟩ := C48_restored hok hr hs hp htol he hkept (cls := .Source) (by simp) ig isc np k
      hcurve
    refine ⟨x, k', g1, ?_⟩
    rw [g4.cls, hv]
    rfl

/-- **C48** (fails for one string). A parameter that is the string `"__none__"` comes back as `None`. -/
theorem C48_none_string (hok : ∀ h op, ok h op → SizeOk h op) (hr : Reachable W ok h)
    (hs : save Φ h s name ow st = (.ok ws, sts)) (hp : (h.src s).sc_params = some p)
    (htol : (h.src s).gw_lum_tol = some tol) (he : find_eccentric_transition tol = .ok etol)
    (hkept : st' (Φ'.locate (normalise name')) = storeAfter st sts (Φ.locate (normalise name)))
    {key : String} (hkey : (h.par p).dict.get? key = some (.str "__none__")) (k : Heap) :
    ∃ x k' p', from_file W Φ' st' .Source name' none (some false) none k = (.ok x, k') ∧
      (k'.src x.source).sc_params = some p' ∧ (k'.par p').dict.get? key = some .none := by
  obtain ⟨x, k', g1, -, -, g4, -⟩ := C48_restored hok hr hs hp htol he hkept (cls := .Source) (by simp) none (some false)
    none k (fun hi => by cases hi)
  obtain ⟨p', q1, q2, -⟩ := g4.sc_params
  refine ⟨x, k', p', g1, q1, ?_⟩
  have hd := (((Reachable.inv hr).sc s).1 p hp).2.2
  rw [q2, comesBack_get?, if_pos ((hd.1 key).1 (by rw [hkey]; rfl))]
  simp [Dict.get, hkey, IsFunction, asRead]

/-! ### Examples -/

/-- The current folder holds nothing and anything can be written. -/
noncomputable def somewhere : Files where
  locate name := name.length
  writable _ := true
  version := "0.5.0"
  order := id
  order_perm _ := List.Perm.refl _

/-- Two binaries and the curve of LISA, in a program that has just started. -/
theorem lisa_heap : ∃ h, (Op.run Example.world (.init .Source lisaArgs) Example.start).2 = h ∧
    (h.src 0).cls = .Source ∧ (h.src 0).cols = Example.cols ∧ (h.src 0).gw_lum_tol = some 0.05 ∧
    (h.src 0).sc_params = some 1 ∧ (h.par 1).dict = plain "LISA" (.str "auto") := by
  obtain ⟨c, hc⟩ := lisa_init .Source
  obtain ⟨k, hk⟩ : ∃ k, k = heapAfterInit Example.world .Source lisaArgs Example.cols Example.eccTol
    (plain "LISA" (.str "auto")) (some c) Example.start := ⟨_, rfl⟩
  have hsrc : k.src 0 = newObject Example.world .Source lisaArgs Example.cols Example.eccTol (some c) 1 := by
    rw [hk]
    change Function.update Example.start.src 0 _ 0 = _
    rw [Function.update_self]
    rfl
  have hpar : k.par 1 = ⟨plain "LISA" (.str "auto"), some 0⟩ := by
    rw [hk]
    change Function.update Example.start.par 1 _ 1 = _
    rw [Function.update_self]
    rfl
  rw [← hk] at hc
  refine ⟨k, ?_, by rw [hsrc]; rfl, by rw [hsrc]; rfl, by rw [hsrc]; rfl, by rw [hsrc]; rfl, by rw [hpar]⟩
  change ((init Example.world .Source lisaArgs >>= fun _ => pure ()) Example.start).2 = k
  rw [PyM.bind_run, hc]
  rfl

theorem lisa_call : Careful Example.start (.init .Source lisaArgs) := ⟨by simp [SizeOk, lisaArgs, Example.args], trivial⟩

/-- Its parameters are no functions and have a curve. -/
theorem lisa_params {d : Dict} (hd : d = plain "LISA" (.str "auto")) : Plain d ∧
    (∀ key v, d.get? key = some v → IsFunction v = false) ∧ ∃ c, CurveOf Example.world d c := by
  have hget : ∀ key v, d.get? key = some v → v = .str "LISA" ∨ v = .none ∨ v = .str "auto" ∨ v = .bool true := by
    intro key v hv
    rw [hd] at hv
    have := mem_of_get? hv
    simp only [plain, List.mem_cons, Prod.mk.injEq, List.not_mem_nil, or_false] at this
    tauto
  refine ⟨fun key hk => by rcases hget key _ hk with h | h | h | h <;> simp at h,
    fun key v hv => by rcases hget key v hv with rfl | rfl | rfl | rfl <;> rfl, ?_⟩
  obtain ⟨c, hc⟩ := plain_curve (inst := "LISA") (t := .str "auto") (Or.inl rfl) (Or.inl rfl)
  exact ⟨c, by rw [hd]; exact curve_ok_iff.1 hc⟩

/-- Two binaries and the curve of LISA, saved to an empty folder and loaded in a new session: the conditions of `C48_same`
can be met. -/
example : ∃ h ws sts, Reachable Example.world Careful h ∧ (h.src 0).cols = Example.cols ∧
    save somewhere h 0 "binaries" false (fun _ => none) = (.ok ws, sts) ∧
    ∃ x k', from_file Example.world somewhere (storeAfter (fun _ => none) sts) .Source "binaries.h5" none none none
      Example.start = (.ok x, k') ∧ SameSources h 0 k' x.source := by
  obtain ⟨h, h1, h2, h3, h4, h5, h6⟩ := lisa_heap
  obtain ⟨d1, d2, d3⟩ := lisa_params h6
  have hr : Reachable Example.world Careful h := h1 ▸ Reachable.call _ (.start fun _ => rfl) lisa_call
  obtain ⟨ws, hws⟩ := (C49_succeeds_iff (Φ := somewhere) (st := fun _ => none) (name := "binaries") (ow := false) h4 h5).2
    ⟨rfl, by simp, by simp [IsFile]⟩
  obtain ⟨sts, hsts⟩ : ∃ sts, save somewhere h 0 "binaries" false (fun _ => none) = (.ok ws, sts) :=
    ⟨_, Prod.ext hws rfl⟩
  refine ⟨h, ws, sts, hr, h3, hsts, ?_⟩
  obtain ⟨-, x, k', g1, -, -, g4, -⟩ := C48_same (name' := "binaries.h5") (Φ' := somewhere) (st' := storeAfter (fun _ => none) sts)
    hr hsts h5 h4 Example.find_eccTol d1 d2 (fun _ => d3)
    (by rw [h2]; simp) (by rw [show normalise "binaries" = "binaries.h5" by decide]; rfl) Example.start
  exact ⟨x, k', g1, g4⟩

/-- The example with a custom instrument can be saved but not loaded, unless the curve is not to be interpolated. -/
example : ∃ ws sts, save somewhere Example.heap 0 "custom" false (fun _ => none) = (.ok ws, sts) ∧ ws = ["custom_psd"] ∧
    (∃ e k', from_file Example.world somewhere (storeAfter (fun _ => none) sts) .Source "custom" none none none
      Example.start = (.error e, k')) ∧
    ∃ x k', from_file Example.world somewhere (storeAfter (fun _ => none) sts) .Source "custom" none (some false) none
      Example.start = (.ok x, k') ∧ (k'.src x.source).cols = Example.cols ∧ x.no_psd = true := by
  have hp : (Example.heap.src 0).sc_params = some 1 := by rw [Example.heap_src]; rfl
  have ht : (Example.heap.src 0).gw_lum_tol = some 0.05 := by rw [Example.heap_src]; rfl
  have hr : Reachable Example.world Careful Example.heap :=
    Example.reachable ⟨by simp [SizeOk, Example.args], trivial⟩
  have hd : (Example.heap.par 1).dict = Example.params 0 := by rw [Example.heap_par]
  obtain ⟨ws, hws⟩ := (C49_succeeds_iff (Φ := somewhere) (st := fun _ => none) (name := "custom") (ow := false) ht hp).2
    ⟨rfl, by simp, by simp [IsFile]⟩
  obtain ⟨sts, hsts⟩ : ∃ sts, save somewhere Example.heap 0 "custom" false (fun _ => none) = (.ok ws, sts) :=
    ⟨_, Prod.ext hws rfl⟩
  refine ⟨ws, sts, hsts, ?_, ?_, ?_⟩
  · obtain ⟨_, p', -, h2, h3, -⟩ := saved_there hsts
    rw [hp] at h2
    cases h2
    rw [h3, hd]
    rfl
  · exact C48_custom_refused (fun _ _ h => h.1) hr hsts hp ht Example.find_eccTol (by rw [hd]; rfl)
      ⟨.psdFn 0, by rw [hd]; rfl, rfl⟩ (by rw [Example.heap_src]; rfl) rfl (by simp) none none _
  · obtain ⟨x, k', g1, -, -, g4, -, -, g6⟩ := C48_restored (fun _ _ h => h.1) hr hsts hp ht Example.find_eccTol
      (st' := storeAfter (fun _ => none) sts) (Φ' := somewhere) (name' := "custom") rfl (cls := .Source) (by simp) none
      (some false) none Example.start (fun hi => by cases hi)
    exact ⟨x, k', g1, by rw [g4.cols, Example.heap_src]; rfl, g6.2 ⟨by rw [hd]; rfl, .psdFn 0, by rw [hd]; rfl, Or.inr rfl⟩⟩

/-- A second `save` to the same name is refused. -/
example : ∃ st, save somewhere Example.heap 0 "custom.h5" false st = (.error .FileExistsError, []) ∧
    IsFile (st (somewhere.locate "custom.h5")) :=
  ⟨fun _ => some .other, C49_refused (Or.inl rfl), Or.inl rfl⟩

end Legwork.Props
