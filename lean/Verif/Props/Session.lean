import Verif.Lemmas.Interrupted
import Verif.Props.SourceFile

/-!
# Programs that keep sources in files: C80, C81

C80: saving, loading, new processes and saves that were cut short do not change anything about what the other properties
say. C81: what a `save` leaves behind when it is cut short; the claim that it cannot be mistaken for a complete file is
false (`C81_silent_defaults`).
-/

namespace Legwork.Props

open Legwork.source Legwork.Spec
open PyM hiding bind

variable {W : World} {ok : Heap → Op → Prop} {h k : Heap} {s p : ℕ} {tol etol : ℝ} {Φ Φ' : Files} {st st' st'' : Store}
  {sts : List Store} {ws : List String} {name name' : String} {ow : Bool} {cls : Cls} {f : H5}

/-! ### C80 -/

/-- **C80.** Whatever has been saved, loaded, cut short, moved or copied before, by this process or earlier ones: the
objects are such as a single program without files can have, so everything proved for `Reachable` holds for them, and the
datasets of every file fit together. -/
theorem C80_as_without_files (hok : ∀ h op, ok h op → SizeOk h op)
    (hload : ∀ h Φ st cls name ig isc np, SizeOk h (.load Φ st cls name ig isc np) → ok h (.load Φ st cls name ig isc np))
    (hs : Session W ok h st) : Reachable W ok h ∧ ∀ l f, st l = some (.h5 f) → FileFits f := by
  induction hs with
  | start he hst => exact ⟨.start he, fun l f hf => absurd hf (hst l f)⟩
  | call op hs hn ho ih => exact ⟨.call op ih.1 ho, ih.2⟩
  | @load h st Φ cls name ig isc np hs ih =>
    refine ⟨?_, ih.2⟩
    have := Reachable.call (.load Φ st cls name ig isc np) ih.1 (hload _ _ _ _ _ _ _ _ fun f hf => ih.2 _ f hf)
    have he : (Op.run W (.load Φ st cls name ig isc np) h).2 = (from_file W Φ st cls name ig isc np h).2 := by
      change ((from_file W Φ st cls name ig isc np >>= fun _ => pure ()) h).2 = _
      rw [bind_run]
      rcases from_file W Φ st cls name ig isc np h with ⟨_ | _, _⟩ <;> rfl
    rwa [he] at this
  | save Φ s name ow hs hm ih =>
    refine ⟨ih.1, fun l f hf => ?_⟩
    rcases save_fits (Reachable.tidy hok ih.1 s) _ hm l f hf with h1 | h1
    · exact ih.2 l f h1
    · exact h1
  | process hs he ih => exact ⟨.start he, ih.2⟩
  | rearrange hs hr ih =>
    refine ⟨ih.1, fun l f hf => ?_⟩
    obtain ⟨l', hl⟩ := hr l f hf
    exact ih.2 l' f hl

/-- **C80** (consistent objects). Every object has one entry per source in each of its attributes and results, sources
marked as merged have no time left, and sources with positions are circular. -/
theorem C80_tidy (hs : Session W SizeOk h st) (s : ℕ) : Tidy h s :=
  Reachable.tidy (fun _ _ h => h) (C80_as_without_files (fun _ _ h => h) (fun _ _ _ _ _ _ _ _ h => h) hs).1 s

/-- **C80** (current curves). The curve of every object is that of its parameters. -/
theorem C80_current (hs : Session W Careful h st) (hp : (h.src s).sc_params = some p) :
    ((h.src s).interpolate_sc = true → ∀ c, CurveOf W (h.par p).dict c → (h.src s).sc = some c) ∧
    ((h.src s).interpolate_sc = false → (h.src s).sc = none) :=
  C40_current (reachable_mono (fun _ _ h => h.2)
    (C80_as_without_files (fun _ _ h => h.1) (fun _ _ _ _ _ _ _ _ h => ⟨h, trivial⟩) hs).1) hp

private theorem same_trans {h₁ h₂ h₃ : Heap} {s₁ s₂ s₃ : ℕ} (a : SameSources h₁ s₁ h₂ s₂) (b : SameSources h₂ s₂ h₃ s₃) :
    SameSources h₁ s₁ h₃ s₃ := by
  refine ⟨b.cls.trans a.cls, b.cols.trans a.cols, b.stat_tol.trans a.stat_tol, b.n_proc.trans a.n_proc,
    b.gw_lum_tol.trans a.gw_lum_tol, b.harmonics_required.trans a.harmonics_required,
    b.max_strain_harmonic.trans a.max_strain_harmonic, b.ecc_tol.trans a.ecc_tol, b.interpolate_sc.trans a.interpolate_sc,
    b.sc.trans a.sc, b.g.trans a.g, b.snr.trans a.snr, b.max_snr_harmonic.trans a.max_snr_harmonic, ?_⟩
  obtain ⟨p, p', h1, h2, h3⟩ := a.sc_params
  obtain ⟨q, q', g1, g2, g3⟩ := b.sc_params
  rw [h2] at g1
  cases g1
  exact ⟨p, q', h1, g2, fun key => (g3 key).trans (h3 key)⟩

/-- One generation more. -/
private theorem pass_on (hp : (h.src s).sc_params = some p)
    (htol : (h.src s).gw_lum_tol = some tol) (he : find_eccentric_transition tol = .ok etol)
    (hplain : Plain (h.par p).dict) (hf : ∀ key v, (h.par p).dict.get? key = some v → IsFunction v = false)
    (hcurve : (h.src s).interpolate_sc = true → ∃ c, CurveOf W (h.par p).dict c)
    (hv : (h.src s).cls ≠ .VerificationBinaries) {r : ℕ} (hk : Reachable W Careful k) (hsame : SameSources h s k r)
    (hs : save Φ k r name ow st = (.ok ws, sts))
    (hkept : st' (Φ'.locate (normalise name')) = storeAfter st sts (Φ.locate (normalise name))) (m : Heap) :
    ws = [] ∧ ∃ x m', from_file W Φ' st' .Source name' none none none m = (.ok x, m') ∧
        SameSources h s m' x.source ∧ Undisturbed m m' := by
  obtain ⟨p₁, p', h1, h2, h3⟩ := hsame.sc_params
  rw [hp] at h1
  cases h1
  have hco : ∀ c, CurveOf W (k.par p').dict c ↔ CurveOf W (h.par p).dict c := fun c => by
    rw [← curve_ok_iff, ← curve_ok_iff, curve_congr W h3]
  obtain ⟨g1, x, m', g2, -, -, g3, g4⟩ := C48_same hk hs h2 (hsame.gw_lum_tol.trans htol) he
    (fun key => by rw [h3 key]; exact hplain key) (fun key v hkv => hf key v (by rw [← h3 key]; exact hkv))
    (fun hi => by
      obtain ⟨c, hc⟩ := hcurve (hsame.interpolate_sc ▸ hi)
      exact ⟨c, (hco c).2 hc⟩) (by rw [hsame.cls]; exact hv) hkept m
  exact ⟨g1, x, m', g2, same_trans hsame g3, g4⟩

/-- **C80** (generations). Sources that are saved and loaded any number of times, without custom functions, are always the
same sources, and can be passed on once more. -/
theorem C80_generations (hr : Reachable W Careful h) (hp : (h.src s).sc_params = some p)
    (htol : (h.src s).gw_lum_tol = some tol) (he : find_eccentric_transition tol = .ok etol)
    (hplain : Plain (h.par p).dict) (hf : ∀ key v, (h.par p).dict.get? key = some v → IsFunction v = false)
    (hcurve : (h.src s).interpolate_sc = true → ∃ c, CurveOf W (h.par p).dict c)
    (hv : (h.src s).cls ≠ .VerificationBinaries) {r : ℕ} (ho : HandedOn W Careful h s k r) :
    SameSources h s k r ∧
    ∀ Φ Φ' name name' ow st st' ws sts, save Φ k r name ow st = (.ok ws, sts) →
      st' (Φ'.locate (normalise name')) = storeAfter st sts (Φ.locate (normalise name)) →
      ∀ m, ws = [] ∧ ∃ x m', from_file W Φ' st' .Source name' none none none m = (.ok x, m') ∧
        SameSources h s m' x.source ∧ Undisturbed m m' := by
  have hinv : Reachable W Careful k ∧ SameSources h s k r := by
    induction ho with
    | here =>
      exact ⟨hr, rfl, rfl, rfl, rfl, rfl, rfl, rfl, rfl, rfl, rfl, rfl, rfl, rfl, p, p, hp, hp, fun _ => rfl⟩
    | @on k m m' r Φ Φ' st st' sts ws name name' ow x hb hs hkept hm hl ih =>
      obtain ⟨-, x', m₁, h1, h2, -⟩ := pass_on hp htol he hplain hf hcurve hv ih.1 ih.2 hs hkept m
      rw [hl] at h1
      obtain ⟨e1, rfl⟩ := Prod.mk.inj h1
      cases e1
      refine ⟨?_, h2⟩
      have hfit : SizeOk m (.load Φ' st' .Source name' none none none) := by
        intro f hf
        obtain ⟨tol', p', -, -, -, h3⟩ := saved_there hs
        rw [hkept, h3] at hf
        cases hf
        have := written_fits (Φ := Φ) (tol := tol') (d := (k.par p').dict) (Reachable.tidy (fun _ _ h => h.1) ih.1 r)
          (save_writes Φ k (k.src r) tol' (k.par p').dict).length
        rwa [List.take_length] at this
      have := Reachable.call (.load Φ' st' .Source name' none none none) hm ⟨hfit, trivial⟩
      have he : (Op.run W (.load Φ' st' .Source name' none none none) m).2 = m' := by
        change ((from_file W Φ' st' .Source name' none none none >>= fun _ => pure ()) m).2 = _
        rw [bind_run, hl]
        rfl
      rwa [he] at this
  exact ⟨hinv.2, fun Φ Φ' name name' ow st st' ws sts hs hkept m =>
    pass_on hp htol he hplain hf hcurve hv hinv.1 hinv.2 hs hkept m⟩

/-! ### C81 -/

/-- **C81** (refused). A file to which the parameters have not been written yet cannot be loaded, and no object is made. -/
theorem C81_refused (hf : st (Φ.locate (normalise name)) = some (.h5 f)) (hg : f.sc = none) (cls : Cls)
    (ig isc : Option Bool) (np : Option ℕ) (k : Heap) : ∃ e, from_file W Φ st cls name ig isc np k = (.error e, k) := by
  unfold from_file
  rw [if_pos (isfile_h5 hf), hf]
  simp only
  rw [bind_run, lift_run]
  rcases hl : load_args Φ f ig isc np with e | a
  · exact ⟨e, rfl⟩
  · exfalso
    unfold load_args at hl
    obtain ⟨_, -, hl⟩ := except_bind_ok.1 hl
    obtain ⟨_, -, hl⟩ := except_bind_ok.1 hl
    obtain ⟨_, -, hl⟩ := except_bind_ok.1 hl
    obtain ⟨_, -, hl⟩ := except_bind_ok.1 hl
    obtain ⟨_, -, hl⟩ := except_bind_ok.1 hl
    obtain ⟨_, -, hl⟩ := except_bind_ok.1 hl
    obtain ⟨_, -, hl⟩ := except_bind_ok.1 hl
    obtain ⟨_, -, hl⟩ := except_bind_ok.1 hl
    obtain ⟨_, -, hl⟩ := except_bind_ok.1 hl
    rw [hg] at hl
    cases hl

/-- **C81** (sources are complete). Wherever a `save` is cut short: what it has left behind cannot be loaded, or the
sources are complete: all columns, results and settings are those that were to be saved, and only parameters of the
sensitivity curve can be missing, for which the defaults are used, or have lost their unit. -/
theorem C81_sources_complete (hok : ∀ h op, ok h op → SizeOk h op) (hr : Reachable W ok h)
    (hs : save Φ h s name ow st = (.ok ws, sts)) (hp : (h.src s).sc_params = some p)
    (htol : (h.src s).gw_lum_tol = some tol) (he : find_eccentric_transition tol = .ok etol) (hm : st' ∈ sts)
    (hf : st' (Φ.locate (normalise name)) = some (.h5 f))
    (hkept : st'' (Φ'.locate (normalise name')) = some (.h5 f)) (hcls : cls ≠ .VerificationBinaries)
    (ig isc : Option Bool) (np : Option ℕ) (k : Heap) :
    (∃ e k', from_file W Φ' st'' cls name' ig isc np k = (.error e, k')) ∨
    ∃ d x k', from_file W Φ' st'' cls name' ig isc np k = (.ok x, k') ∧
      (∀ key ∈ scKeys, d.get? key = (comesBack (h.par p).dict).get? key ∨ d.get? key = DEFAULT_SC_PARAMS.get? key ∨
        ∃ x, ((h.par p).dict.get? key = some (.time x) ∨ (h.par p).dict.get? key = some (.length x)) ∧
          d.get? key = some (.num x)) ∧
      LoadedAs W h s (classFor cls (h.src s).cls) (ig.getD (h.src s).g.isSome) (isc.getD (h.src s).interpolate_sc)
        (np.getD (h.src s).n_proc) tol d k' x.source ∧ Undisturbed k k' := by
  have ht := Reachable.tidy hok hr s
  have hd := (((Reachable.inv hr).sc s).1 p hp).2.2
  obtain ⟨n, hn⟩ : ∃ n, f = written H5.empty ((save_writes Φ h (h.src s) tol (h.par p).dict).take n) := by
    rcases save_run Φ h s name ow st with ⟨e, he⟩ | ⟨-, tol', p', h1, h2, he⟩ <;> rw [hs] at he
    · cases (Prod.mk.inj he).1
    · rw [htol] at h1
      rw [hp] at h2
      cases h1
      cases h2
      rw [(Prod.mk.inj he).2] at hm
      rcases List.mem_cons.1 hm with rfl | hm
      · rw [Function.update_self] at hf
        cases hf
        exact ⟨0, rfl⟩
      · obtain ⟨n, hn⟩ := run_writes_mem _ _ _ _ st' hm
        rw [hn] at hf
        cases hf
        exact ⟨n, rfl⟩
  have hpart : ∀ d', KeysOk d' → f = saved Φ h (h.src s) tol d' →
      (∀ key v, (key, v) ∈ d' → (key, v) ∈ (h.par p).dict ∨ v = .psdFn 0 ∨
        ∃ x, ((key, .time x) ∈ (h.par p).dict ∨ (key, .length x) ∈ (h.par p).dict) ∧ v = .num x) →
      (∃ e k', from_file W Φ' st'' cls name' ig isc np k = (.error e, k')) ∨
      ∃ d x k', from_file W Φ' st'' cls name' ig isc np k = (.ok x, k') ∧
        (∀ key ∈ scKeys, d.get? key = (comesBack (h.par p).dict).get? key ∨ d.get? key = DEFAULT_SC_PARAMS.get? key ∨
          ∃ x, ((h.par p).dict.get? key = some (.time x) ∨ (h.par p).dict.get? key = some (.length x)) ∧
            d.get? key = some (.num x)) ∧
        LoadedAs W h s (classFor cls (h.src s).cls) (ig.getD (h.src s).g.isSome) (isc.getD (h.src s).interpolate_sc)
          (np.getD (h.src s).n_proc) tol d k' x.source ∧ Undisturbed k k' := by
    intro d' hd' hf' hmem
    rw [hf'] at hkept
    have hload := from_file_saved (W := W) rfl hkept ht.sized.rect ht.settled hd' he hcls ig isc np k
    by_cases hc : (isc.getD (h.src s).interpolate_sc) = true → ∃ c, CurveOf W (comesBack d') c
    · right
      obtain ⟨x, k', g1, -, -, -, g2, g3, -⟩ := hload.1 hc
      refine ⟨_, x, k', g1, fun key hk => ?_, g2, g3⟩
      rw [comesBack_get?, comesBack_get?, if_pos hk, if_pos hk]
      obtain ⟨v, hv⟩ := Option.isSome_iff_exists.1 ((hd'.1 key).2 hk)
      obtain ⟨v₀, hv₀⟩ := Option.isSome_iff_exists.1 ((KeysOk.default.1 key).2 hk)
      rcases hmem key v (mem_of_get? hv) with hm | rfl | ⟨x, hm, rfl⟩
      · left
        have : (h.par p).dict.get? key = some v := get?_of_mem' hd.2 hm
        simp [Dict.get, hv, this]
      · right; left
        simp [Dict.get, hv, hv₀, IsFunction]
      · right; right
        refine ⟨x, hm.imp (get?_of_mem' hd.2) (get?_of_mem' hd.2), ?_⟩
        simp [Dict.get, hv, IsFunction, asRead]
    · push Not at hc
      obtain ⟨e, k', g1⟩ := hload.2 hc.1 (by rintro ⟨c, hcc⟩; exact hc.2 c hcc)
      exact Or.inl ⟨e, k', g1⟩
  obtain ⟨f', hf', h1 | ⟨d₁, d₂, h1, h2 | ⟨key, x, d₃, v, h2, hv, h3⟩⟩⟩ := written_take (Φ := Φ) (h := h) (src := h.src s)
    (tol := tol) (d := (h.par p).dict) n <;> rw [← hn] at hf' <;> subst hf'
  · obtain ⟨e, he⟩ := C81_refused (W := W) hkept h1 cls ig isc np k
    exact Or.inl ⟨e, k, he⟩
  · refine hpart _ (keysOk_cut (h1 ▸ hd)) h2 fun key v hm => ?_
    rcases List.mem_append.1 hm with hm | hm
    · exact Or.inl (by rw [h1]; exact List.mem_append_left _ hm)
    · obtain ⟨y, -, hy⟩ := List.mem_map.1 hm
      exact Or.inr (Or.inl (Prod.mk.inj hy).2.symm)
  · rw [h2] at h1
    refine hpart _ (keysOk_half (h1 ▸ hd)) h3 fun key' v' hm => ?_
    rcases List.mem_append.1 hm with hm | hm
    · exact Or.inl (by rw [h1]; exact List.mem_append_left _ hm)
    · rcases List.mem_cons.1 hm with hm | hm
      · cases hm
        refine Or.inr (Or.inr ⟨x, ?_, rfl⟩)
        rw [h1]
        rcases hv with rfl | rfl
        · exact Or.inl (by simp)
        · exact Or.inr (by simp)
      · obtain ⟨y, -, hy⟩ := List.mem_map.1 hm
        exact Or.inr (Or.inl (Prod.mk.inj hy).2.symm)

/-- **C81** (fails). A file left by a `save` that was cut short can be loaded without any warning about it: once the group
for the parameters has been made, and before the first is written, loading succeeds with the default parameters in
place of those that were to be saved. -/
theorem C81_silent_defaults (hok : ∀ h op, ok h op → SizeOk h op) (hr : Reachable W ok h)
    (hs : save Φ h s name ow st = (.ok ws, sts)) (hp : (h.src s).sc_params = some p)
    (htol : (h.src s).gw_lum_tol = some tol) (he : find_eccentric_transition tol = .ok etol) :
    ∃ st' ∈ sts, ∀ Φ' st'' name' cls ig isc np k, st'' (Φ'.locate (normalise name')) = st' (Φ.locate (normalise name)) →
      cls ≠ .VerificationBinaries →
      (isc.getD (h.src s).interpolate_sc = true → ∃ c, CurveOf W DEFAULT_SC_PARAMS c) →
      ∃ x k', from_file W Φ' st'' cls name' ig isc np k = (.ok x, k') ∧
        LoadedAs W h s (classFor cls (h.src s).cls) (ig.getD (h.src s).g.isSome) (isc.getD (h.src s).interpolate_sc)
          (np.getD (h.src s).n_proc) tol DEFAULT_SC_PARAMS k' x.source ∧
        x.no_psd = false ∧ (x.other_version = true ↔ Φ.version ≠ Φ'.version) := by
  have ht := Reachable.tidy hok hr s
  have hd := (((Reachable.inv hr).sc s).1 p hp).2.2
  obtain ⟨st', hm, hst'⟩ : ∃ st' ∈ sts,
      st' (Φ.locate (normalise name)) = some (.h5 (saved Φ h (h.src s) tol ([] ++ forget (h.par p).dict))) := by
    rcases save_run Φ h s name ow st with ⟨e, he⟩ | ⟨-, tol', p', h1, h2, he⟩ <;> rw [hs] at he
    · cases (Prod.mk.inj he).1
    · rw [htol] at h1
      rw [hp] at h2
      cases h1
      cases h2
      obtain ⟨n, hn⟩ : ∃ n, n = (write_settings Φ (h.src s) tol ++ (columns h (h.src s)).flatMap write_dataset).length :=
        ⟨_, rfl⟩
      obtain ⟨st', g1, g2⟩ := run_writes_at (Φ.locate (normalise name)) (save_writes Φ h (h.src s) tol (h.par p).dict)
        H5.empty (Function.update st (Φ.locate (normalise name)) (some (.h5 H5.empty))) n
        (by unfold save_writes; rw [List.length_append, ← hn]; simp)
      refine ⟨st', by rw [(Prod.mk.inj he).2]; exact List.mem_cons_of_mem _ g1, ?_⟩
      rw [g2, saved_cut]
      unfold save_writes saved
      rw [List.take_append, ← hn, List.take_of_length_le (by omega)]
      simp [save_writes]
  refine ⟨st', hm, fun Φ' st'' name' cls ig isc np k hkept hcls hcurve => ?_⟩
  rw [hst'] at hkept
  have hd' : KeysOk ([] ++ forget (h.par p).dict) := keysOk_cut (d₁ := []) hd
  have hget : ∀ key v, Dict.get? ([] ++ forget (h.par p).dict) key = some v → v = .psdFn 0 := by
    intro key v hv
    have := mem_of_get? hv
    rw [List.nil_append] at this
    obtain ⟨y, -, hy⟩ := List.mem_map.1 this
    exact (Prod.mk.inj hy).2.symm
  have hdef : comesBack ([] ++ forget (h.par p).dict) = DEFAULT_SC_PARAMS := by
    have : ∀ key ∈ scKeys, Dict.get ([] ++ forget (h.par p).dict) key = .psdFn 0 := by
      intro key hk
      obtain ⟨v, hv⟩ := Option.isSome_iff_exists.1 ((hd'.1 key).2 hk)
      rw [hget key v hv] at hv
      unfold Dict.get
      rw [hv]
      rfl
    unfold comesBack
    rw [List.map_congr_left (g := fun key => (key, DEFAULT_SC_PARAMS.get key)) fun key hk => by
      simp only [this key hk, IsFunction, if_true]]
    rfl
  obtain ⟨x, k', g1, -, g2, g3, g4, -⟩ := (from_file_saved (W := W) rfl hkept ht.sized.rect ht.settled hd' he hcls
    ig isc np k).1 (by rw [hdef]; exact hcurve)
  refine ⟨x, k', g1, hdef ▸ g4, ?_, by rw [g2, decide_eq_true_iff]⟩
  rcases hx : x.no_psd with _ | _
  · rfl
  · obtain ⟨h1, -⟩ := g3.1 hx
    cases hget _ _ h1

/-! ### Examples -/

/-- Two binaries are made and saved, and loaded by another process, which saves them again and is cut short: they are
still the same, but the file is lost. -/
example : ∃ h st, Session Example.world Careful h st ∧ (∃ s, (h.src s).cols = Example.cols ∧ ∃ p, (h.src s).sc_params = some p) ∧
    st (somewhere.locate "binaries.h5") = some (.h5 H5.empty) := by
  obtain ⟨h, h1, h2, h3, h4, h5, h6⟩ := lisa_heap
  obtain ⟨d1, d2, d3⟩ := lisa_params h6
  have hn : normalise "binaries" = "binaries.h5" := by decide
  have s1 : Session Example.world Careful h (fun _ => none) :=
    h1 ▸ Session.call _ (.start (fun _ => rfl) (by simp)) trivial lisa_call
  have hr := (C80_as_without_files (fun _ _ h => h.1) (fun _ _ _ _ _ _ _ _ h => ⟨h, trivial⟩) s1).1
  obtain ⟨ws, hws⟩ := (C49_succeeds_iff (Φ := somewhere) (st := fun _ => none) (name := "binaries") (ow := false) h4 h5).2
    ⟨rfl, by simp, by simp [IsFile]⟩
  obtain ⟨sts, hsts⟩ : ∃ sts, save somewhere h 0 "binaries" false (fun _ => none) = (.ok ws, sts) :=
    ⟨_, Prod.ext hws rfl⟩
  have hlast : storeAfter (fun _ => none) sts ∈ sts := by
    have hne : sts ≠ [] := by
      rcases save_run somewhere h 0 "binaries" false (fun _ => none) with ⟨e, he⟩ | ⟨-, tol, p, -, -, he⟩ <;>
        rw [hsts] at he
      · cases (Prod.mk.inj he).1
      · rw [(Prod.mk.inj he).2]
        simp
    unfold storeAfter
    rw [List.getLastD_eq_getLast?, List.getLast?_eq_some_getLast hne]
    exact List.getLast_mem hne
  have s2 := (Session.save somewhere 0 "binaries" false s1 (by rw [hsts]; exact hlast)).process (h' := Example.start)
    fun _ => rfl
  obtain ⟨-, x, k', g1, -, -, g4, -⟩ := C48_same (name' := "binaries") (Φ' := somewhere) (st' := storeAfter (fun _ => none) sts)
    hr hsts h5 h4 Example.find_eccTol d1 d2 (fun _ => d3) (by rw [h2]; simp) rfl Example.start
  have s3 := s2.load somewhere .Source "binaries" none none none
  rw [g1] at s3
  obtain ⟨p, p', -, hp', -⟩ := g4.sc_params
  obtain ⟨_, _, -, -, -, hst⟩ := saved_there hsts
  obtain ⟨ws', hws'⟩ := (C49_succeeds_iff (Φ := somewhere) (st := storeAfter (fun _ => none) sts) (name := "binaries")
    (ow := true) (g4.gw_lum_tol.trans h4) hp').2 ⟨rfl, by rw [hst]; simp, fun _ => rfl⟩
  obtain ⟨sts', hsts'⟩ : ∃ sts', save somewhere k' x.source "binaries" true (storeAfter (fun _ => none) sts) =
      (.ok ws', sts') := ⟨_, Prod.ext hws' rfl⟩
  obtain ⟨st₁, rest, e1, -, e2, -⟩ := C49_overwrite_not_atomic (W := Example.world) hsts'
  refine ⟨k', st₁, s3.save somewhere x.source "binaries" true (by rw [hsts', e1]; exact List.mem_cons_self), ⟨x.source, ?_, p', hp'⟩, ?_⟩
  · rw [g4.cols, h3]
  · rw [← hn]
    exact e2

/-- Two binaries are saved and loaded twice. -/
example : ∃ h k k₂ r r₂, Reachable Example.world Careful h ∧ HandedOn Example.world Careful h 0 k r ∧
    HandedOn Example.world Careful k r k₂ r₂ ∧ SameSources h 0 k₂ r₂ ∧ (k₂.src r₂).cols = Example.cols := by
  obtain ⟨h, h1, h2, h3, h4, h5, h6⟩ := lisa_heap
  obtain ⟨d1, d2, d3⟩ := lisa_params h6
  have hr : Reachable Example.world Careful h := h1 ▸ Reachable.call _ (.start fun _ => rfl) lisa_call
  obtain ⟨ws, hws⟩ := (C49_succeeds_iff (Φ := somewhere) (st := fun _ => none) (name := "binaries") (ow := false) h4 h5).2
    ⟨rfl, by simp, by simp [IsFile]⟩
  obtain ⟨sts, hsts⟩ : ∃ sts, save somewhere h 0 "binaries" false (fun _ => none) = (.ok ws, sts) :=
    ⟨_, Prod.ext hws rfl⟩
  have hgen := fun {k r} => C80_generations (k := k) (r := r) hr h5 h4 Example.find_eccTol d1 d2 (fun _ => d3)
    (by rw [h2]; simp)
  obtain ⟨-, x, k, g1, g4, -⟩ := (hgen .here).2 somewhere somewhere "binaries" "binaries" false (fun _ => none)
    (storeAfter (fun _ => none) sts) ws sts hsts rfl Example.start
  have o1 : HandedOn Example.world Careful h 0 k x.source := HandedOn.here.on hsts rfl (.start fun _ => rfl) g1
  obtain ⟨p, p', -, hp', -⟩ := g4.sc_params
  obtain ⟨ws', hws'⟩ := (C49_succeeds_iff (Φ := somewhere) (st := fun _ => none) (name := "binaries") (ow := false)
    (g4.gw_lum_tol.trans h4) hp').2 ⟨rfl, by simp, by simp [IsFile]⟩
  obtain ⟨sts', hsts'⟩ : ∃ sts', save somewhere k x.source "binaries" false (fun _ => none) = (.ok ws', sts') :=
    ⟨_, Prod.ext hws' rfl⟩
  obtain ⟨-, x₂, k₂, g1', g4', -⟩ := (hgen o1).2 somewhere somewhere "binaries" "binaries" false (fun _ => none)
    (storeAfter (fun _ => none) sts') ws' sts' hsts' rfl Example.start
  exact ⟨h, k, k₂, x.source, x₂.source, hr, o1, HandedOn.here.on hsts' rfl (.start fun _ => rfl) g1', g4',
    by rw [g4'.cols, h3]⟩

/-- Two binaries whose curve is to use the approximate response are saved, and the process is cut short: the file is
loaded without a warning, with all sources, but the parameter has become the default. -/
example : ∃ h ws sts, Reachable Example.world Careful h ∧ (h.src 0).sc_params = some 1 ∧
    (h.par 1).dict.get? "approximate_R" = some (.bool true) ∧
    save somewhere h 0 "binaries" false (fun _ => none) = (.ok ws, sts) ∧ ∃ st ∈ sts, ∃ x k p,
      from_file Example.world somewhere st .Source "binaries" none (some false) none Example.start = (.ok x, k) ∧
      (k.src x.source).cols = Example.cols ∧ x.no_psd = false ∧ x.other_version = false ∧
      (k.src x.source).sc_params = some p ∧ (k.par p).dict.get? "approximate_R" = some (.bool false) := by
  obtain ⟨h, h1, h2, h3, h4, h5, h6⟩ := lisa_heap
  have hr : Reachable Example.world Careful h := h1 ▸ Reachable.call _ (.start fun _ => rfl) lisa_call
  obtain ⟨ws, hws⟩ := (C49_succeeds_iff (Φ := somewhere) (st := fun _ => none) (name := "binaries") (ow := false) h4 h5).2
    ⟨rfl, by simp, by simp [IsFile]⟩
  obtain ⟨sts, hsts⟩ : ∃ sts, save somewhere h 0 "binaries" false (fun _ => none) = (.ok ws, sts) :=
    ⟨_, Prod.ext hws rfl⟩
  obtain ⟨st, hm, hl⟩ := C81_silent_defaults (fun _ _ h => h.1) hr hsts h5 h4 Example.find_eccTol
  obtain ⟨x, k, g1, g2, g3, g4⟩ := hl somewhere st "binaries" .Source none (some false) none Example.start rfl (by simp)
    (by simp)
  obtain ⟨p, q1, q2, -⟩ := g2.sc_params
  refine ⟨h, ws, sts, hr, h5, by rw [h6]; rfl, hsts, st, hm, x, k, p, g1, by rw [g2.cols, h3], g3, ?_, q1, ?_⟩
  · rcases hv : x.other_version with _ | _
    · rfl
    · exact absurd rfl (g4.1 hv)
  · rw [q2]
    rfl

end Legwork.Props
