import Verif.Lemmas.Example
import Verif.Lemmas.SourceSnr
import Verif.Props.Harmonics

/-!
# Sensitivity curve parameters and tolerances of a source: C40, C41, C42, C43, C61

All theorems are about heaps reached by any sequence of calls on any number of sources, with exceptions caught or not.
-/

namespace Legwork.Props

open Legwork.source Legwork.Spec
open PyM hiding bind

/-! ### C40 -/

private theorem mem_set {d : Dict} {k : String} {v : PVal} {kv : String × PVal} (h : kv ∈ d.set k v) :
    kv ∈ d ∨ kv = (k, v) := by
  induction d with
  | nil => exact Or.inr (List.mem_singleton.1 h)
  | cons x rest ih =>
    obtain ⟨k', w⟩ := x
    unfold Dict.set at h
    split_ifs at h with h1
    · rcases List.mem_cons.1 h with h2 | h2
      · subst h1; exact Or.inr h2
      · exact Or.inl (List.mem_cons_of_mem _ h2)
    · rcases List.mem_cons.1 h with h2 | h2
      · exact Or.inl (h2 ▸ List.mem_cons_self)
      · exact (ih h2).imp (List.mem_cons_of_mem _) id

private theorem mem_update {d kvs : Dict} {kv : String × PVal} (h : kv ∈ d.update kvs) : kv ∈ d ∨ kv ∈ kvs := by
  unfold Dict.update at h
  induction kvs generalizing d with
  | nil => exact Or.inl h
  | cons x rest ih =>
    rcases ih h with h1 | h1
    · rcases mem_set h1 with h2 | h2
      · exact Or.inl h2
      · exact Or.inr (h2 ▸ List.mem_cons_self)
    · exact Or.inr (List.mem_cons_of_mem _ h1)

private theorem get?_of_mem {d : Dict} (hn : d.keys.Nodup) {kv : String × PVal} (h : kv ∈ d) :
    d.get? kv.1 = some kv.2 := by
  induction d with
  | nil => cases h
  | cons x rest ih =>
    obtain ⟨k', w⟩ := x
    have hn' : (k' :: Dict.keys rest).Nodup := hn
    unfold Dict.get? at ih ⊢
    rw [List.lookup_cons]
    rcases List.mem_cons.1 h with rfl | h
    · simp
    · have : kv.1 ≠ k' := fun he => (List.nodup_cons.1 hn').1 (List.mem_map.2 ⟨kv, by assumption, he⟩)
      rw [beq_false_of_ne this]
      exact ih (List.nodup_cons.1 hn').2 h

private theorem set_append (d : Dict) {k : String} (v : PVal) (h : k ∉ d.keys) : d.set k v = d ++ [(k, v)] := by
  induction d with
  | nil => rfl
  | cons x rest ih =>
    obtain ⟨k', w⟩ := x
    have h' : ¬ (k = k' ∨ k ∈ Dict.keys rest) := by
      intro hh
      exact h (List.mem_cons.2 hh)
    unfold Dict.set
    rw [if_neg (fun hh => h' (Or.inl hh.symm)), ih fun hh => h' (Or.inr hh)]
    rfl

private theorem ofPairs_of_nodup {kvs : Dict} (hn : kvs.keys.Nodup) : kvs.ofPairs = kvs := by
  have key : ∀ (kvs d : Dict), (d.keys ++ kvs.keys).Nodup → d.update kvs = d ++ kvs := by
    intro kvs
    induction kvs with
    | nil => intro d _; exact (List.append_nil d).symm
    | cons x rest ih =>
      intro d hd
      obtain ⟨k, v⟩ := x
      have hd' : (d.keys ++ k :: Dict.keys rest).Nodup := hd
      change Dict.update (d.set k v) rest = _
      have hk : k ∉ d.keys := by
        rw [List.nodup_append] at hd'
        exact fun hh => hd'.2.2 _ hh _ List.mem_cons_self rfl
      rw [set_append d v hk, ih]
      · rw [List.append_assoc]; rfl
      · have : Dict.keys (d ++ [(k, v)]) = d.keys ++ [k] := List.map_append
        rw [this, List.append_assoc]
        exact hd'
  exact key kvs [] hn

/-- **C40.** However a program got there, a source with interpolation switched on has the curve of its current
parameters (if they have one: an unknown instrument, say, has none), and one with interpolation switched off has no
curve. -/
theorem C40_current {W : World} {h : Heap} (hr : Reachable W Interpolating h) {s p : ℕ}
    (hp : (h.src s).sc_params = some p) :
    ((h.src s).interpolate_sc = true → ∀ c, CurveOf W (h.par p).dict c → (h.src s).sc = some c) ∧
    ((h.src s).interpolate_sc = false → (h.src s).sc = none) := by
  have := ((Reachable.inv_true hr).sc s).2 p hp
  refine ⟨fun hi c hc => ?_, fun hi => (this.2 hi).resolve_right (by simp)⟩
  rcases this.1 hi c (curve_ok_iff.2 hc) with h1 | ⟨h1, -⟩
  · exact h1
  · cases h1

/-- **C40** (any calls). Without the conditions on `evolve_sources(create_new_class=True)` and on assignments to
`interpolate_sc` the curve is that of the
current parameters or missing, never that of older ones. -/
theorem C40_never_stale {W : World} {ok : Heap → Op → Prop} {h : Heap} (hr : Reachable W ok h) {s p : ℕ}
    (hp : (h.src s).sc_params = some p) {c c' : ℝ → WithTop ℝ} (hc : CurveOf W (h.par p).dict c)
    (hs : (h.src s).sc = some c') : c' = c := by
  have := ((Reachable.inv hr).sc s).2 p hp
  rcases hi : (h.src s).interpolate_sc with _ | _
  · rcases this.2 hi with h1 | ⟨-, h1⟩
    · rw [h1] at hs
      cases hs
    · rw [h1 c (curve_ok_iff.2 hc)] at hs
      exact (Option.some.inj hs).symm
  · rcases this.1 hi c (curve_ok_iff.2 hc) with h1 | ⟨-, h1⟩
    · rw [h1] at hs
      exact (Option.some.inj hs).symm
    · rw [h1] at hs
      cases hs

/-- The exception to C40: evolving a source without interpolation into a new object claims interpolation but has no
curve. -/
theorem C40_evolved_without_curve {W : World} {h h' : Heap} (hr : Reachable W Interpolating h) {s s' : ℕ}
    {t : EvolTime} (hi : (h.src s).interpolate_sc = false) (he : evolve_sources_new W s t h = (.ok s', h')) :
    (h'.src s').interpolate_sc = true ∧ (h'.src s').sc = none := by
  rcases evolve_sources_new_run W s t h with ⟨e, h1⟩ | ⟨e, h₁, tol, p, h1, htol, hp, ⟨err, h₂, -, h3⟩ | ⟨s₂, h₂, -, h3⟩⟩
  · rw [he] at h1; cases h1
  · rw [he] at h3; cases h3
  · rw [he] at h3
    simp only [Prod.mk.injEq, Except.ok.injEq] at h3
    obtain ⟨rfl, rfl⟩ := h3
    simp only [setSrc_src, Function.update_self, true_and]
    have hinv := (inv_atoms W true).evolve_common s t h (Reachable.inv_true hr)
    rw [h1] at hinv
    refine (((hinv.sc s).2 p hp).2 ?_).resolve_right (by simp)
    have hh := evolve_common_heap W s t h
    rw [h1] at hh
    rcases hh with hh | ⟨tm, hh⟩
    · simp only at hh; rw [hh]; exact hi
    · simp only at hh
      rw [hh]
      simp only [setSrc_src, Function.update_self]
      exact hi

/-- Outside the supported calls: in-place union `sc_params |= {...}` changes the parameters but not the curve. -/
theorem C40_union_breaks : ∃ (W : World) (h : Heap) (p : ℕ) (kvs : Dict), Reachable W Interpolating h ∧
    (h.src 0).sc_params = some p ∧ (h.src 0).interpolate_sc = true ∧
    ∃ c, CurveOf W ((params_ior p kvs h).2.par p).dict c ∧ ((params_ior p kvs h).2.src 0).sc ≠ some c := by
  refine ⟨Example.world, Example.heap, 1, Example.custom 1, Example.reachable trivial, ?_, ?_, Example.sc 1, ?_, ?_⟩
  · rw [Example.heap_src]; rfl
  · rw [Example.heap_src]; rfl
  · have : ((params_ior 1 (Example.custom 1) Example.heap).2.par 1).dict = Example.params 1 := by
      have h0 : ((params_ior 1 (Example.custom 1) Example.heap).2.par 1).dict =
          (Example.heap.par 1).dict.update (Dict.ofPairs (Example.custom 1)) := by
        unfold params_ior modPar
        rw [modify_run]
        simp
      rw [h0, Example.heap_par]
      rfl
    rw [this]
    exact curve_ok (Example.curve_params 1)
  · change (Example.heap.src 0).sc ≠ _
    rw [Example.heap_src]
    intro h
    exact Example.sc_ne (Option.some.inj h)

/-- A rejected change is kept: if the new parameters have no curve, `update` raises an exception but leaves the new
values with the old curve, and the same update made again is silently accepted. -/
theorem C40_failed_update {W : World} {ok : Heap → Op → Prop} {h : Heap} (hr : Reachable W ok h) {s p : ℕ}
    (hp : (h.src s).sc_params = some p) (hi : (h.src s).interpolate_sc = true) {kvs : Dict} (hk : kvs.keys.Nodup)
    (hkeys : ∀ key ∈ kvs.keys, key ∈ scKeys) (hne : ∃ kv ∈ kvs, (h.par p).dict.get? kv.1 ≠ some kv.2)
    (hbad : ¬ ∃ c, CurveOf W ((h.par p).dict.update kvs) c) :
    ∃ e h', params_update W p kvs h = (.error e, h') ∧ (h'.src s).sc = (h.src s).sc ∧
      (∀ kv ∈ kvs, (h'.par p).dict.get? kv.1 = some kv.2) ∧ params_update W p kvs h' = (.ok (), h') := by
  obtain ⟨hlt, hsrc, hko⟩ := ((Reachable.inv hr).sc s).1 p hp
  have hof : Dict.ofPairs kvs = kvs := ofPairs_of_nodup hk
  have hmem : ∀ kv ∈ kvs, kv.1 ∈ Dict.keys kvs := fun kv h => List.mem_map.2 ⟨kv, h, rfl⟩
  have hget : ∀ kv ∈ kvs, ((h.par p).dict.update kvs).get? kv.1 = some kv.2 := by
    intro kv hkv
    rw [Dict.get?_update_of_nodup _ hk, get?_of_mem hk hkv]
  rcases params_update_run W p kvs h with ⟨⟨k, hk1, hk2⟩, -⟩ | ⟨-, hall, -⟩ | ⟨-, -, hrun⟩
  · rw [hof] at hk1
    exact absurd (hkeys k hk1) hk2
  · exfalso
    obtain ⟨kv, hkv, hne⟩ := hne
    rw [hof] at hall
    exact hne (hko.get_eq (hkeys _ (hmem kv hkv)) (hall kv hkv))
  · rw [hof] at hrun
    rw [re_interpolate_run] at hrun
    simp only [setPar_par, Function.update_self, hsrc] at hrun
    rw [set_sc_run] at hrun
    simp only [setPar_src, hi, if_true, hp, setPar_par, Function.update_self] at hrun
    rcases hcv : curve W ((h.par p).dict.update kvs) with e | c
    swap
    · exact absurd ⟨c, curve_ok hcv⟩ hbad
    rw [hcv] at hrun
    simp only at hrun
    refine ⟨e, _, hrun, rfl, ?_, ?_⟩
    · intro kv hkv
      simp only [log_par, setPar_par, Function.update_self]
      exact hget kv hkv
    · generalize hh : ((h.setPar p { dict := (h.par p).dict.update kvs, source := some s }).log
        (Event.interpolated s)) = h'
      have hd : (h'.par p).dict = (h.par p).dict.update kvs := by
        rw [← hh]; simp
      rcases params_update_run W p kvs h' with ⟨⟨k, hk1, hk2⟩, -⟩ | ⟨-, -, hr2⟩ | ⟨-, ⟨kv, hkv, hne⟩, -⟩
      · rw [hof] at hk1
        exact absurd (hkeys k hk1) hk2
      · rw [hr2, hof, Dict.update_same (by rw [hd]; exact hget)]
        exact congrArg _ (setPar_self h' p)
      · exfalso
        rw [hof] at hkv
        apply hne
        unfold Dict.get
        rw [hd, hget kv hkv]
        rfl

/-- C40 is not empty: the example source has parameters with a curve, and a failing update exists. -/
example : Reachable Example.world Interpolating Example.heap ∧ (Example.heap.src 0).sc_params = some 1 ∧
    (Example.heap.src 0).interpolate_sc = true ∧ CurveOf Example.world (Example.heap.par 1).dict (Example.sc 0) := by
  refine ⟨Example.reachable trivial, ?_, ?_, ?_⟩
  · rw [Example.heap_src]; rfl
  · rw [Example.heap_src]; rfl
  · rw [Example.heap_par]; exact curve_ok (Example.curve_params 0)

example : ∃ kv ∈ [("instrument", PVal.str "nonsense")], (Example.heap.par 1).dict.get? kv.1 ≠ some kv.2 := by
  rw [Example.heap_par]
  exact ⟨_, List.mem_singleton_self _, by simp [Example.params, Dict.get?]⟩

example : ¬ ∃ c, CurveOf Example.world ((Example.heap.par 1).dict.update [("instrument", PVal.str "nonsense")]) c := by
  rw [Example.heap_par]
  rintro ⟨c, hc⟩
  have := hc.on_grid 0 (by norm_num)
  cases this

/-! ### C41 -/

/-- The documented default of each parameter. -/
def documentedDefault : String → Option PVal
  | "instrument" => some (.str "LISA")
  | "custom_psd" => some .none
  | "t_obs" => some (.str "auto")
  | "L" => some (.str "auto")
  | "approximate_R" => some (.bool false)
  | "confusion_noise" => some (.str "auto")
  | _ => none

/-- **C41.** The parameters of a source always have exactly the six documented keys. -/
theorem C41_six_keys {W : World} {ok : Heap → Op → Prop} {h : Heap} (hr : Reachable W ok h) {s p : ℕ}
    (hp : (h.src s).sc_params = some p) : SixKeys (h.par p).dict :=
  (((Reachable.inv hr).sc s).1 p hp).2.2.1

/-- **C41** (rejected item). Assigning an unknown key is a `KeyError` and changes nothing. -/
theorem C41_setitem_rejected (W : World) (p : ℕ) {key : String} (hk : key ∉ scKeys) (v : PVal) (h : Heap) :
    params_setitem W p key v h = (.error .KeyError, h) := by
  rcases params_setitem_run W p key v h with ⟨-, hr⟩ | ⟨h1, -, -⟩ | ⟨h1, -, -⟩
  · exact hr
  · exact absurd h1 hk
  · exact absurd h1 hk

/-- **C41** (rejected update). An update with any unknown key is a `KeyError` and changes nothing, not even the known
keys. -/
theorem C41_update_rejected (W : World) (p : ℕ) {kvs : Dict} (hk : ∃ key ∈ kvs.keys, key ∉ scKeys) (h : Heap) :
    params_update W p kvs h = (.error .KeyError, h) := by
  obtain ⟨key, hkey, hno⟩ := hk
  have hmem : key ∈ kvs.ofPairs.keys := by
    rw [Dict.mem_keys]
    unfold Dict.ofPairs
    rw [Dict.get?_update]
    exact Or.inr hkey
  rcases params_update_run W p kvs h with ⟨-, hr⟩ | ⟨h1, -, -⟩ | ⟨h1, -, -⟩
  · exact hr
  · exact absurd (h1 key hmem) hno
  · exact absurd (h1 key hmem) hno

/-- **C41** (rejected assignment). Assigning a dictionary with an unknown key is a `KeyError` and changes nothing. -/
theorem C41_assign_rejected (W : World) (s : ℕ) {d : Dict} (hk : ∃ key ∈ d.keys, key ∉ scKeys) (h : Heap) :
    set_sc_params W s (some d) h = (.error .KeyError, h) := by
  obtain ⟨key, hkey, hno⟩ := hk
  have hf : filled_params (some d) = .error .KeyError := by
    unfold filled_params
    rcases check_keys_cases d.keys with hc | hc
    · exact absurd ((check_keys_ok_iff _).1 hc key hkey) hno
    · simp only [hc, bind, Except.bind]
  rcases set_sc_params_run W s (some d) h with ⟨e, he, hr⟩ | ⟨d', h₁, hd, -, -⟩
  · rw [hf] at he
    cases he
    exact hr
  · rw [hf] at hd
    cases hd

/-- **C41** (removal). `del`, `pop`, `popitem` and `clear` are a `TypeError` and change nothing. -/
theorem C41_remove_rejected (W : World) (p : ℕ) (h : Heap) : (Op.remove p).run W h = (.error .TypeError, h) := rfl

/-- **C41** (whole assignment). After assigning a dictionary of known keys the source has a new parameter object with
the given values, and the documented defaults elsewhere; values set before are gone. This also holds when the
assignment raises an exception because the parameters have no curve. -/
theorem C41_assign (W : World) (s : ℕ) {d : Dict} (hn : d.keys.Nodup) (hk : ∀ key ∈ d.keys, key ∈ scKeys) (h : Heap) :
    ((set_sc_params W s (some d) h).2.src s).sc_params = some h.next ∧
    ∀ key, ((set_sc_params W s (some d) h).2.par h.next).dict.get? key =
      if key ∈ d.keys then d.get? key else documentedDefault key := by
  have hf : filled_params (some d) = .ok (DEFAULT_SC_PARAMS.update d) := by
    unfold filled_params
    have : check_keys d.keys = .ok () := (check_keys_ok_iff _).2 hk
    simp only [this, bind, Except.bind, pure, Except.pure]
  have hdef : ∀ key, DEFAULT_SC_PARAMS.get? key = documentedDefault key := by
    intro key
    unfold documentedDefault DEFAULT_SC_PARAMS Dict.get?
    split
    all_goals first | rfl | skip
    rename_i h1 h2 h3 h4 h5 h6
    simp [List.lookup_cons, beq_false_of_ne h1, beq_false_of_ne h2, beq_false_of_ne h3, beq_false_of_ne h4,
      beq_false_of_ne h5, beq_false_of_ne h6]
  have hget : ∀ key, (DEFAULT_SC_PARAMS.update d).get? key =
      if key ∈ d.keys then d.get? key else documentedDefault key := by
    intro key
    rw [Dict.get?_update_of_nodup _ hn, hdef]
    split_ifs with hm
    · rw [Dict.mem_keys] at hm
      rcases hg : d.get? key with _ | v
      · rw [hg] at hm; cases hm
      · rfl
    · rw [Dict.mem_keys] at hm
      rcases hg : d.get? key with _ | v
      · rfl
      · rw [hg] at hm; simp at hm
  rcases set_sc_params_run W s (some d) h with ⟨e, he, hr⟩ | ⟨d', h₁, hd, hh, hr⟩
  · rw [hf] at he
    cases he
  · rw [hf] at hd
    cases hd
    rcases hr with hr | ⟨hr, -⟩
    · rw [hr, set_sc_par]
      obtain ⟨sc, hsc⟩ := set_sc_src W s h₁
      rw [hsc, Function.update_self, hh]
      simp [hget]
    · rw [hr, hh]
      simp [hget]

/-- Outside the supported calls: `sc_params.setdefault` accepts unknown keys. -/
theorem C41_setdefault_breaks {W : World} {ok : Heap → Op → Prop} {h : Heap} (hr : Reachable W ok h) {s p : ℕ}
    (hp : (h.src s).sc_params = some p) {key : String} (hk : key ∉ scKeys) (v : PVal) :
    ¬ SixKeys ((params_setdefault p key v h).2.par p).dict := by
  intro hs
  have h6 := C41_six_keys hr hp
  have hno : ((h.par p).dict.get? key).isSome = false := by
    rcases hg : (h.par p).dict.get? key with _ | v
    · rfl
    · exact absurd ((h6 key).1 (by rw [hg]; rfl)) hk
  have hd : ((params_setdefault p key v h).2.par p).dict = (h.par p).dict.set key v := by
    change (Function.update h.par p _ p).dict = _
    rw [Function.update_self]
    simp [hno]
  rw [hd] at hs
  refine hk ((hs key).1 ?_)
  rw [Dict.get?_set, if_pos rfl]
  rfl

example : Reachable Example.world AnyCall Example.heap ∧ (Example.heap.src 0).sc_params = some 1 :=
  ⟨Example.reachable trivial, by rw [Example.heap_src]; rfl⟩

/-! ### C42 -/

/-- **C42** (item). Assigning the value a parameter already has does nothing at all. -/
theorem C42_setitem_same (W : World) {p : ℕ} {key : String} {v : PVal} {h : Heap} (hk : key ∈ scKeys)
    (hv : (h.par p).dict.get? key = some v) : params_setitem W p key v h = (.ok (), h) := by
  rcases params_setitem_run W p key v h with ⟨h1, -⟩ | ⟨-, -, hr⟩ | ⟨-, hne, -⟩
  · exact absurd hk h1
  · rw [hr, Dict.set_same hv]
    exact congrArg _ (setPar_self h p)
  · exfalso
    apply hne
    unfold Dict.get
    rw [hv]
    rfl

/-- **C42** (update). An update with values that are already there does nothing at all. -/
theorem C42_update_same (W : World) {p : ℕ} {kvs : Dict} {h : Heap} (hk : ∀ key ∈ kvs.keys, key ∈ scKeys)
    (hv : ∀ kv ∈ kvs, (h.par p).dict.get? kv.1 = some kv.2) : params_update W p kvs h = (.ok (), h) := by
  have hmem : ∀ kv ∈ kvs.ofPairs, kv ∈ kvs := by
    unfold Dict.ofPairs
    intro kv hkv
    rcases mem_update hkv with h1 | h1
    · cases h1
    · exact h1
  have hkey : ∀ key ∈ kvs.ofPairs.keys, key ∈ scKeys := by
    intro key hkey
    obtain ⟨kv, hkv, rfl⟩ := List.mem_map.1 hkey
    exact hk _ (List.mem_map.2 ⟨kv, hmem kv hkv, rfl⟩)
  rcases params_update_run W p kvs h with ⟨⟨k, h1, h2⟩, -⟩ | ⟨-, -, hr⟩ | ⟨-, ⟨kv, hkv, hne⟩, -⟩
  · exact absurd (hkey k h1) h2
  · rw [hr, Dict.update_same fun kv hkv => hv kv (hmem kv hkv)]
    exact congrArg _ (setPar_self h p)
  · exfalso
    apply hne
    unfold Dict.get
    rw [hv kv (hmem kv hkv)]
    rfl

/-- **C42** (assignment). Assigning a dictionary that, filled up with defaults, equals the current one does not
recompute the curve. -/
theorem C42_assign_same {W : World} {ok : Heap → Op → Prop} {h : Heap} (hr : Reachable W ok h) {s p : ℕ}
    (hp : (h.src s).sc_params = some p) {d : Dict} (hn : d.keys.Nodup) (hk : ∀ key ∈ d.keys, key ∈ scKeys)
    (heq : ∀ key ∈ scKeys, (h.par p).dict.get? key = if key ∈ d.keys then d.get? key else documentedDefault key) :
    (set_sc_params W s (some d) h).1 = .ok () ∧ (set_sc_params W s (some d) h).2.trace = h.trace ∧
    ((set_sc_params W s (some d) h).2.src s).sc = (h.src s).sc := by
  obtain ⟨hlt, -, hko⟩ := ((Reachable.inv hr).sc s).1 p hp
  have hA := (C41_assign W s hn hk h).2
  unfold set_sc_params at hA ⊢
  rw [bind_run, new_params_run] at hA ⊢
  rcases hf : filled_params (some d) with e | d'
  · exfalso
    unfold filled_params at hf
    have : check_keys d.keys = .ok () := (check_keys_ok_iff _).2 hk
    simp only [this, bind, Except.bind, pure, Except.pure] at hf
    cases hf
  rw [hf] at hA
  simp only at hA ⊢
  have hd' : ∀ key, d'.get? key = if key ∈ d.keys then d.get? key else documentedDefault key := by
    have := (C41_assign W s hn hk h).2
    rcases set_sc_params_run W s (some d) h with ⟨e, he, -⟩ | ⟨d₂, h₁, hd₂, hh, hr⟩
    · rw [hf] at he; cases he
    · rw [hf] at hd₂
      cases hd₂
      have hpar : ((set_sc_params W s (some d) h).2.par h.next).dict = d' := by
        rcases hr with hr | ⟨hr, -⟩
        · rw [hr, set_sc_par, hh]; simp
        · rw [hr, hh]; simp
      rw [hpar] at this
      exact this
  have he : d'.eq (h.par p).dict := by
    intro key
    by_cases hkey : key ∈ scKeys
    · rw [heq key hkey, hd']
    · have h1 : d'.get? key = none := by
        have := (filled_params_ok hf).1 key
        rcases hg : d'.get? key with _ | v
        · rfl
        · rw [hg] at this; exact absurd (this.1 rfl) hkey
      have h2 : (h.par p).dict.get? key = none := by
        have := hko.1 key
        rcases hg : (h.par p).dict.get? key with _ | v
        · rfl
        · rw [hg] at this; exact absurd (this.1 rfl) hkey
      rw [h1, h2]
  rw [bind_run]
  simp only [getSrc, bump_src, setPar_src, hp]
  rw [bind_run]
  have hch : params_changed (some p) h.next (h.setPar h.next ⟨d', some s⟩).bump =
      (.ok false, (h.setPar h.next ⟨d', some s⟩).bump) := by
    unfold params_changed
    rw [bind_run]
    simp only [getPar]
    rw [bind_run]
    have e1 : ((h.setPar h.next ⟨d', some s⟩).bump.par h.next).dict = d' := by simp
    have e2 : ((h.setPar h.next ⟨d', some s⟩).bump.par p).dict = (h.par p).dict := by
      rw [bump_par, setPar_par, Function.update_of_ne (by omega)]
    have e3 : ((h.setPar h.next ⟨d', some s⟩).bump.par h.next).dict.eq
        ((h.setPar h.next ⟨d', some s⟩).bump.par p).dict := by rw [e1, e2]; exact he
    simp only [getPar, pure_run]
    exact Prod.ext (congrArg Except.ok (decide_eq_false_iff_not.2 (not_not.2 e3))) rfl
  rw [hch]
  simp only
  rw [bind_run]
  simp [modSrc, modify_run]

/-- **C40** (the switch itself). `interpolate_sc` is a plain attribute: setting it changes no curve, and neither does
assigning the same parameters again. It takes effect with the next call of `set_sc`, which leaves the curve of the
current parameters if interpolation is now on, and none if it is off. -/
theorem C40_switched {W : World} {ok : Heap → Op → Prop} {h h₁ : Heap} (hr : Reachable W ok h) {s p n : ℕ} {tol : ℝ}
    {b : Bool} (hp : (h.src s).sc_params = some p) (hh : h₁ = ((Op.setPlain s tol n b).run W h).2) :
    (h₁.src s).interpolate_sc = b ∧ (h₁.src s).sc = (h.src s).sc ∧ h₁.trace = h.trace ∧
    (∀ d : Dict, d.keys.Nodup → (∀ key ∈ d.keys, key ∈ scKeys) →
      (∀ key ∈ scKeys, (h.par p).dict.get? key = if key ∈ d.keys then d.get? key else documentedDefault key) →
      ((set_sc_params W s (some d) h₁).2.src s).sc = (h.src s).sc) ∧
    ∀ h₂, set_sc W s h₁ = (.ok (), h₂) →
      (b = true → ∃ c, CurveOf W (h.par p).dict c ∧ (h₂.src s).sc = some c) ∧ (b = false → (h₂.src s).sc = none) := by
  have hsrc : h₁.src s = { h.src s with stat_tol := tol, n_proc := n, interpolate_sc := b } := by
    rw [hh]
    simp [Op.run, modSrc, modify_run]
  have hpar : h₁.par = h.par := by rw [hh]; rfl
  refine ⟨by rw [hsrc], by rw [hsrc], by rw [hh]; rfl, fun d hn hk heq => ?_, fun h₂ h2 => ?_⟩
  · have hr₁ : Reachable W (fun _ _ => True) h₁ := by
      rw [hh]
      exact .call _ (reachable_mono (fun _ _ _ => trivial) hr) trivial
    rw [(C42_assign_same hr₁ (p := p) (by rw [hsrc]; exact hp) hn hk (by rw [hpar]; exact heq)).2.2, hsrc]
  · rw [set_sc_run, hsrc] at h2
    simp only [hp, hpar] at h2
    rcases b with _ | _
    · simp only [Bool.false_eq_true, if_false, Prod.mk.injEq] at h2
      rw [← h2.2]
      simp
    · simp only [if_true] at h2
      rcases hc : curve W (h.par p).dict with e | c
      · rw [hc] at h2
        cases h2
      · rw [hc] at h2
        simp only [Prod.mk.injEq] at h2
        rw [← h2.2]
        exact ⟨fun _ => ⟨c, curve_ok_iff.1 hc, by simp⟩, by simp⟩

/-- Switching interpolation off for the example source, which keeps its curve. -/
noncomputable example := C40_switched (W := Example.world) (s := 0) (p := 1) (tol := 0.01) (n := 1) (b := false)
  (Example.reachable (ok := AnyCall) trivial) (by rw [Example.heap_src]; rfl) rfl

/-- **C42** (once). However many keys it changes, an update computes at most one curve, and an item assignment
likewise. -/
theorem C42_at_most_once (W : World) (p : ℕ) (h : Heap) :
    (∀ kvs, (params_update W p kvs h).2.trace = h.trace ∨
      ∃ s, (params_update W p kvs h).2.trace = h.trace ++ [.interpolated s]) ∧
    ∀ key v, (params_setitem W p key v h).2.trace = h.trace ∨
      ∃ s, (params_setitem W p key v h).2.trace = h.trace ++ [.interpolated s] := by
  have key : ∀ h' : Heap, h'.trace = h.trace → (re_interpolate W p h').2.trace = h.trace ∨
      ∃ s, (re_interpolate W p h').2.trace = h.trace ++ [.interpolated s] := by
    intro h' hh
    rw [re_interpolate_run]
    rcases (h'.par p).source with _ | s
    · exact Or.inl hh
    · simp only
      rw [set_sc_run]
      split_ifs
      · rcases (h'.src s).sc_params with _ | q
        · exact Or.inl hh
        · simp only
          rcases curve W (h'.par q).dict with e | c
          · exact Or.inr ⟨s, by simp [hh]⟩
          · exact Or.inr ⟨s, by simp [hh]⟩
      · exact Or.inl hh
  constructor
  · intro kvs
    rcases params_update_run W p kvs h with ⟨-, hr⟩ | ⟨-, -, hr⟩ | ⟨-, -, hr⟩ <;> rw [hr]
    · exact Or.inl rfl
    · exact Or.inl rfl
    · exact key _ rfl
  · intro k v
    rcases params_setitem_run W p k v h with ⟨-, hr⟩ | ⟨-, -, hr⟩ | ⟨-, -, hr⟩ <;> rw [hr]
    · exact Or.inl rfl
    · exact Or.inl rfl
    · exact key _ rfl

/-- **C42** (repeated SNR call). Making the same `get_snr` call again computes no curve, changes no parameter and no
curve, unless `t_obs="auto"` is given explicitly (then it does, see `C42_explicit_auto`). -/
theorem C42_repeat {W : World} {s : ℕ} {a : SnrArgs} {n : ℕ} {w : Option (List Bool)} {h h' : Heap} {r : ℕ}
    (ha : a.t_obs ≠ .str "auto") (hr : get_snr W s a n w h = (.ok r, h')) :
    (get_snr W s a n w h').2.trace = h'.trace ∧ (get_snr W s a n w h').2.par = h'.par ∧
    ∀ s', ((get_snr W s a n w h').2.src s').sc = (h'.src s').sc := by
  have := get_snr_repeat ha hr
  refine ⟨this.trace, this.par, fun s' => ?_⟩
  obtain ⟨q, q', hs⟩ := this.src s'
  rw [hs]

/-- **C42** (repeated partial SNR calls). Likewise for `get_snr_stationary` and `get_snr_evolving`. -/
theorem C42_repeat_partial_calls {W : World} {s : ℕ} {a : SnrArgs} {n : ℕ} {w : Option (List Bool)} {h h' : Heap}
    {v : List (Option ℝ)} (ha : a.t_obs ≠ .str "auto")
    (hr : get_snr_stationary W s a w h = (.ok v, h') ∨ get_snr_evolving W s a n w h = (.ok v, h')) :
    (get_snr_stationary W s a w h').2.trace = h'.trace ∧ (get_snr_evolving W s a n w h').2.trace = h'.trace := by
  have hs : Settled h' s a := by
    rcases hr with hr | hr
    · exact settled_of_stationary ha hr
    · exact settled_of_evolving ha hr
  exact ⟨(hs.stationary w).trace, (hs.evolving n w).trace⟩

/-! ### C43 -/

/-- **C43.** However a program got there, the tolerances of a source are those of its `gw_lum_tol`: the function
giving the number of harmonics, and the transition eccentricity, which is the first point of the grid
`linspace(0, 0.2, 10000)` where the `n = 2` harmonic carries less than a fraction `1 - tol` of the power. -/
theorem C43_tolerances {W : World} {ok : Heap → Op → Prop} {h : Heap} (hr : Reachable W ok h) {s : ℕ} {tol : ℝ}
    (ht : (h.src s).gw_lum_tol = some tol) :
    (h.src s).harmonics_required = some (harmonics_required W.table tol) ∧
    (h.src s).max_strain_harmonic = some (max_strain_harmonic W.table tol) ∧
    ∀ e ∈ np.linspace 0.2 10000, utils.peters_g 2 e < (1 - tol) * utils.peters_f e →
      (∀ e' ∈ np.linspace 0.2 10000, e' < e → (1 - tol) * utils.peters_f e' ≤ utils.peters_g 2 e') →
      (h.src s).ecc_tol = some e := by
  obtain ⟨h1, h2, h3⟩ := (Reachable.inv hr).tol s tol ht
  refine ⟨h1, h2, fun e he hlt hfirst => ?_⟩
  obtain ⟨e', he'⟩ := (C33_found_iff tol).1.2 ⟨e, he, hlt⟩
  obtain ⟨hm, hg, hf⟩ := C33_first he'
  have : e = e' := by
    rcases lt_trichotomy e e' with hh | hh | hh
    · exact absurd (hf e he hh) (not_le.2 hlt)
    · exact hh
    · exact absurd (hfirst e' hm hh) (not_le.2 hg)
  rw [this]
  exact h3 e' he'

/-- **C43** (same tolerance). Assigning the tolerance a source already has does nothing at all. -/
theorem C43_same (W : World) {s : ℕ} {tol : ℝ} {h : Heap} (ht : (h.src s).gw_lum_tol = some tol) :
    set_gw_lum_tol W s tol h = (.ok (), h) := by
  rcases set_gw_lum_tol_run W s tol h with ⟨-, hr⟩ | ⟨hne, -⟩
  · exact hr
  · exact absurd ht hne

/-- The exception to C43: a tolerance of 1 or more has no transition. Assigning it raises an exception but keeps the
new tolerance with the old transition, and the same assignment made again is silently accepted. -/
theorem C43_rejected_kept (W : World) {s : ℕ} {tol : ℝ} {h : Heap} (h1 : 1 ≤ tol)
    (hne : (h.src s).gw_lum_tol ≠ some tol) :
    ∃ e h', set_gw_lum_tol W s tol h = (.error e, h') ∧ (h'.src s).gw_lum_tol = some tol ∧
      (h'.src s).ecc_tol = (h.src s).ecc_tol ∧ set_gw_lum_tol W s tol h' = (.ok (), h') := by
  rcases set_gw_lum_tol_run W s tol h with ⟨heq, -⟩ | ⟨-, ⟨e, he, hr⟩ | ⟨e, he, hr⟩⟩
  · exact absurd heq hne
  · refine ⟨e, _, hr, ?_, ?_, C43_same W ?_⟩ <;> simp
  · exfalso
    obtain ⟨hm, hg, -⟩ := C33_first he
    have hr : (0 : ℝ) ≤ e ∧ e < 1 := by
      unfold np.linspace at hm
      obtain ⟨k, hk, rfl⟩ := List.mem_map.1 hm
      rw [List.mem_range] at hk
      have hk' : (k : ℝ) ≤ 9999 := by exact_mod_cast (by omega : k ≤ 9999)
      constructor
      · norm_num
      · norm_num
        linarith
    have hf := C04_one_le hr.1 hr.2
    have hn : 0 ≤ utils.peters_g 2 e := C05_nonneg 2 hr.1 hr.2.le
    nlinarith

/-! ### C61 -/

/-- **C61.** The curve of a source, on and between the 10000 frequencies from 1e-7 Hz to 2 Hz, and outside. -/
theorem C61_curve {W : World} {h : Heap} (hr : Reachable W Interpolating h) {s p : ℕ}
    (hp : (h.src s).sc_params = some p) (hi : (h.src s).interpolate_sc = true)
    (htot : ∀ i < 10000, ∃ y, psd_of_dict W (h.par p).dict (scGrid i) = .ok y) :
    ∃ c, (h.src s).sc = some c ∧
      (∀ i < 10000, psd_of_dict W (h.par p).dict (scGrid i) = .ok (c (scGrid i))) ∧
      (∀ f, 1e-7 ≤ f → f ≤ 2 → ∃ i < 9999, scGrid i ≤ f ∧ f ≤ scGrid (i + 1) ∧
        min (c (scGrid i)) (c (scGrid (i + 1))) ≤ c f ∧ c f ≤ max (c (scGrid i)) (c (scGrid (i + 1)))) ∧
      ∀ f, f < 1e-7 ∨ 2 < f → c f = ((1e30 : ℝ) : WithTop ℝ) := by
  obtain ⟨c, hc⟩ := curve_exists_iff.2 htot
  have hco := curve_ok hc
  refine ⟨c, (C40_current hr hp).1 hi c hco, hco.on_grid, ?_, hco.outside⟩
  intro f h1 h2
  rw [← scGrid_zero] at h1
  rw [← scGrid_last] at h2
  rcases scGrid_locate h1 h2 with ⟨i, hi, rfl⟩ | ⟨i, hi, ha, hb⟩
  · rcases Nat.lt_or_ge i 9999 with h3 | h3
    · exact ⟨i, h3, le_rfl, scGrid_le (by omega), min_le_left _ _, le_max_left _ _⟩
    · have : i = 9998 + 1 := by omega
      subst this
      exact ⟨9998, by norm_num, scGrid_le (by omega), le_rfl, min_le_right _ _, le_max_right _ _⟩
  · refine ⟨i, hi, ha.le, hb.le, ?_⟩
    rcases hx : c (scGrid i) with _ | a
    · rw [hco.infinite i hi f ha hb (Or.inl hx)]
      exact ⟨le_top, le_max_left _ _⟩
    rcases hy : c (scGrid (i + 1)) with _ | b
    · rw [hco.infinite i hi f ha hb (Or.inr hy)]
      exact ⟨le_top, le_max_right _ _⟩
    rw [hco.chord i hi f ha hb a b hx hy]
    have hd : 0 < scGrid (i + 1) - scGrid i := by linarith
    have ht0 : 0 ≤ (f - scGrid i) / (scGrid (i + 1) - scGrid i) := div_nonneg (by linarith) hd.le
    have ht1 : (f - scGrid i) / (scGrid (i + 1) - scGrid i) ≤ 1 := by
      rw [div_le_one hd]; linarith
    generalize (f - scGrid i) / (scGrid (i + 1) - scGrid i) = t at *
    rcases le_total a b with hab | hab
    · constructor
      · refine (min_le_left _ _).trans ?_
        refine WithTop.coe_le_coe.2 ?_
        nlinarith
      · refine le_trans ?_ (le_max_right _ _)
        refine WithTop.coe_le_coe.2 ?_
        nlinarith
    · constructor
      · refine (min_le_right _ _).trans ?_
        refine WithTop.coe_le_coe.2 ?_
        nlinarith
      · refine le_trans ?_ (le_max_left _ _)
        refine WithTop.coe_le_coe.2 ?_
        nlinarith

/-- C61 is not empty: the example source has such parameters. -/
example : ∀ i < 10000, ∃ y, psd_of_dict Example.world (Example.heap.par 1).dict (scGrid i) = .ok y := by
  rw [Example.heap_par]
  exact curve_exists_iff.1 ⟨_, Example.curve_params 0⟩

end Legwork.Props
