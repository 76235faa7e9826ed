import Verif.Spec.Source

/-!
# Invariants of the heap of sources
-/

namespace Legwork.source

open Legwork.Spec
open PyM hiding bind

/-! ### Dictionaries -/

namespace Dict

theorem get?_set (d : Dict) (k : String) (v : PVal) (key : String) :
    (d.set k v).get? key = if key = k then some v else d.get? key := by
  induction d with
  | nil =>
    unfold set get?
    rw [List.lookup_cons]
    by_cases h : key = k
    · simp [h]
    · simp [h, beq_false_of_ne h]
  | cons kv rest ih =>
    obtain ⟨k', w⟩ := kv
    unfold set
    unfold get? at ih ⊢
    split_ifs with h1 h2 h2
    · subst h1 h2; simp [List.lookup_cons]
    · subst h1
      have : (key == k') = false := beq_false_of_ne h2
      simp [List.lookup_cons, this]
    · subst h2
      have : (key == k') = false := beq_false_of_ne (fun h => h1 h.symm)
      rw [List.lookup_cons, this]
      simp only
      rw [ih, if_pos rfl]
    · rw [List.lookup_cons, List.lookup_cons, ih, if_neg h2]

theorem set_same {d : Dict} {k : String} {v : PVal} (h : d.get? k = some v) : d.set k v = d := by
  induction d with
  | nil => simp [get?] at h
  | cons kv rest ih =>
    obtain ⟨k', w⟩ := kv
    unfold set
    unfold get? at h
    rw [List.lookup_cons] at h
    split_ifs with h1
    · subst h1
      simp at h
      rw [h]
    · have : (k == k') = false := beq_false_of_ne (fun h => h1 h.symm)
      rw [this] at h
      rw [ih h]

theorem get?_update (d kvs : Dict) (key : String) :
    ((d.update kvs).get? key).isSome ↔ (d.get? key).isSome ∨ key ∈ kvs.keys := by
  unfold update keys
  induction kvs generalizing d with
  | nil => simp
  | cons kv rest ih =>
    rw [List.foldl_cons, ih, get?_set, List.map_cons, List.mem_cons]
    split_ifs with h
    · simp [h]
    · simp [h]

theorem update_same {d : Dict} {kvs : Dict} (h : ∀ kv ∈ kvs, d.get? kv.1 = some kv.2) : d.update kvs = d := by
  unfold update
  induction kvs with
  | nil => rfl
  | cons kv rest ih =>
    rw [List.foldl_cons, set_same (h kv (by simp))]
    exact ih fun kv hkv => h kv (by simp [hkv])

theorem mem_keys (d : Dict) (key : String) : key ∈ d.keys ↔ (d.get? key).isSome := by
  unfold keys get?
  induction d with
  | nil => simp
  | cons kv rest ih =>
    rw [List.map_cons, List.mem_cons, ih, List.lookup_cons]
    by_cases h : key = kv.1
    · simp [h]
    · simp [h, beq_false_of_ne h]

end Dict

theorem check_keys_ok_iff (keys : List String) : check_keys keys = .ok () ↔ ∀ key ∈ keys, key ∈ scKeys := by
  unfold check_keys
  simp only
  have he : DEFAULT_SC_PARAMS.keys = scKeys := rfl
  rw [he]
  split_ifs with h
  · simp only [throw, throwThe, MonadExceptOf.throw, reduceCtorEq, false_iff]
    rw [gt_iff_lt, List.length_pos_iff_exists_mem] at h
    obtain ⟨k, hk⟩ := h
    rw [List.mem_filter] at hk
    intro hall
    exact absurd (hall k hk.1) (by simpa using hk.2)
  · simp only [pure, Except.pure, true_iff]
    intro key hkey
    by_contra hc
    apply h
    rw [gt_iff_lt, List.length_pos_iff_exists_mem]
    exact ⟨key, by rw [List.mem_filter]; exact ⟨hkey, by simpa using hc⟩⟩

theorem check_keys_cases (keys : List String) : check_keys keys = .ok () ∨ check_keys keys = .error .KeyError := by
  unfold check_keys
  simp only
  split_ifs
  · exact Or.inr rfl
  · exact Or.inl rfl

/-- The documented keys, each once. -/
def KeysOk (d : Dict) : Prop := SixKeys d ∧ d.keys.Nodup

theorem KeysOk.default : KeysOk DEFAULT_SC_PARAMS := by
  refine ⟨?_, by decide⟩
  intro key
  rw [← Dict.mem_keys]
  rfl

theorem Dict.set_keys (d : Dict) (k : String) (v : PVal) :
    (d.set k v).keys = if k ∈ d.keys then d.keys else d.keys ++ [k] := by
  unfold keys
  induction d with
  | nil => rfl
  | cons kv rest ih =>
    obtain ⟨k', w⟩ := kv
    unfold set
    by_cases h1 : k' = k
    · subst h1; simp
    · rw [if_neg h1, List.map_cons, ih, List.map_cons]
      simp only [List.mem_cons]
      have : k ≠ k' := fun h => h1 h.symm
      split_ifs with h2 h3 h3
      · rfl
      · exact absurd (Or.inr h2) h3
      · rcases h3 with h3 | h3
        · exact absurd h3 this
        · exact absurd h3 h2
      · rfl

theorem Dict.set_nodup {d : Dict} (h : d.keys.Nodup) (k : String) (v : PVal) : (d.set k v).keys.Nodup := by
  rw [set_keys]
  split_ifs with hk
  · exact h
  · rw [List.nodup_append]
    refine ⟨h, by simp, ?_⟩
    intro a ha b hb
    rw [List.mem_singleton] at hb
    subst hb
    rintro rfl
    exact hk ha

theorem Dict.update_nodup {d : Dict} (h : d.keys.Nodup) (kvs : Dict) : (d.update kvs).keys.Nodup := by
  unfold update
  induction kvs generalizing d with
  | nil => exact h
  | cons kv rest ih => exact ih (set_nodup h _ _)

theorem KeysOk.update {d kvs : Dict} (h : KeysOk d) (hk : ∀ key ∈ kvs.keys, key ∈ scKeys) : KeysOk (d.update kvs) := by
  refine ⟨?_, Dict.update_nodup h.2 _⟩
  intro key
  rw [Dict.get?_update, h.1 key]
  exact ⟨fun hh => hh.elim id (hk key), Or.inl⟩

theorem KeysOk.set {d : Dict} (h : KeysOk d) {k : String} (hk : k ∈ scKeys) (v : PVal) : KeysOk (d.set k v) := by
  refine ⟨?_, Dict.set_nodup h.2 _ _⟩
  intro key
  rw [Dict.get?_set]
  split_ifs with he
  · subst he; simpa using hk
  · exact h.1 key

theorem filled_params_ok {params : Option Dict} {d : Dict} (h : filled_params params = .ok d) : KeysOk d := by
  unfold filled_params at h
  rcases params with _ | params
  · simp only [pure, Except.pure, Except.ok.injEq] at h
    subst h
    exact KeysOk.default
  · simp only [bind, Except.bind] at h
    rcases hc : check_keys params.keys with e | u
    · rw [hc] at h; cases h
    · rw [hc] at h
      simp only [pure, Except.pure, Except.ok.injEq] at h
      subst h
      exact KeysOk.default.update ((check_keys_ok_iff _).1 hc)

/-- With all documented keys present, an unchanged `get` means the entry is already there. -/
theorem KeysOk.get_eq {d : Dict} (h : KeysOk d) {k : String} (hk : k ∈ scKeys) {v : PVal} (hv : d.get k = v) :
    d.get? k = some v := by
  have := (h.1 k).2 hk
  unfold Dict.get at hv
  rcases hg : d.get? k with _ | w
  · rw [hg] at this; simp at this
  · rw [hg] at hv; simp at hv; rw [hv]

/-- The effect of an update without repeated keys. -/
theorem Dict.get?_update_of_nodup (d : Dict) {kvs : Dict} (h : kvs.keys.Nodup) (key : String) :
    (d.update kvs).get? key = match kvs.get? key with
      | some v => some v
      | none => d.get? key := by
  unfold update
  induction kvs generalizing d with
  | nil => rfl
  | cons kv rest ih =>
    obtain ⟨k, v⟩ := kv
    have hn : k ∉ Dict.keys rest := (List.nodup_cons.1 h).1
    rw [List.foldl_cons, ih _ (List.nodup_cons.1 h).2, get?_set]
    rw [mem_keys] at hn
    change _ = match List.lookup key ((k, v) :: rest) with
      | some v => some v
      | none => d.get? key
    rw [List.lookup_cons]
    by_cases hk : key = k
    · subst hk
      rcases hg : get? rest key with _ | w
      · simp
      · rw [hg] at hn; simp at hn
    · rw [beq_false_of_ne hk, if_neg hk]
      rfl

/-- Filling in a complete dictionary keeps it. -/
theorem filled_params_of_keysOk {d : Dict} (h : KeysOk d) :
    ∃ d', filled_params (some d) = .ok d' ∧ d'.eq d := by
  refine ⟨DEFAULT_SC_PARAMS.update d, ?_, ?_⟩
  · unfold filled_params
    have : check_keys d.keys = .ok () := (check_keys_ok_iff _).2 fun key hk => (h.1 key).1 ((Dict.mem_keys _ _).1 hk)
    simp only [this, bind, Except.bind, pure, Except.pure]
  · intro key
    rw [Dict.get?_update_of_nodup _ h.2]
    rcases hg : d.get? key with _ | v
    · have h1 : key ∉ scKeys := by rw [← h.1 key, hg]; simp
      have h2 := KeysOk.default.1 key
      rcases hd : DEFAULT_SC_PARAMS.get? key with _ | v
      · rfl
      · rw [hd] at h2; simp at h2; exact absurd h2 h1
    · rfl

theorem psd_of_dict_congr (W : World) {d d' : Dict} (h : d.eq d') : psd_of_dict W d = psd_of_dict W d' := by
  funext f
  unfold psd_of_dict
  have hk : (d.keys.any fun key => decide (key ∉ DEFAULT_SC_PARAMS.keys)) =
      d'.keys.any fun key => decide (key ∉ DEFAULT_SC_PARAMS.keys) := by
    rw [Bool.eq_iff_iff, List.any_eq_true, List.any_eq_true]
    constructor
    · rintro ⟨k, hk, hk'⟩
      refine ⟨k, ?_, hk'⟩
      rw [Dict.mem_keys] at hk ⊢
      rwa [← h k]
    · rintro ⟨k, hk, hk'⟩
      refine ⟨k, ?_, hk'⟩
      rw [Dict.mem_keys] at hk ⊢
      rwa [h k]
  rw [hk]
  simp only [h _]

theorem curve_congr (W : World) {d d' : Dict} (h : d.eq d') : curve W d = curve W d' := by
  unfold curve
  rw [psd_of_dict_congr W h]

/-! ### The sensitivity curve invariant -/

/-- The parameters of a source are allocated, belong to it, and have the documented keys. -/
def Owned (h : Heap) (s : ℕ) : Prop :=
  ∀ p, (h.src s).sc_params = some p → p < h.next ∧ (h.par p).source = some s ∧ KeysOk (h.par p).dict

/-- The curve of a source is that of its parameters, or (without `b`) missing. -/
def Current (W : World) (b : Bool) (h : Heap) (s : ℕ) : Prop :=
  ∀ p, (h.src s).sc_params = some p →
    ((h.src s).interpolate_sc = true → ∀ c, curve W (h.par p).dict = .ok c →
      (h.src s).sc = some c ∨ (b = false ∧ (h.src s).sc = none)) ∧
    ((h.src s).interpolate_sc = false →
      (h.src s).sc = none ∨ (b = false ∧ ∀ c, curve W (h.par p).dict = .ok c → (h.src s).sc = some c))

/-- The curve invariant, except possibly for the curve of the sources in `E`. -/
def ScInvE (W : World) (b : Bool) (E : ℕ → Prop) (h : Heap) : Prop := ∀ s, Owned h s ∧ (¬ E s → Current W b h s)

/-- The curve invariant. -/
def ScInv (W : World) (b : Bool) (h : Heap) : Prop := ∀ s, Owned h s ∧ Current W b h s

theorem ScInv.toE {W : World} {b : Bool} {h : Heap} (hi : ScInv W b h) (E : ℕ → Prop) : ScInvE W b E h :=
  fun s => ⟨(hi s).1, fun _ => (hi s).2⟩

@[simp] theorem setSrc_src (h : Heap) (s : ℕ) (x : Src) : (h.setSrc s x).src = Function.update h.src s x := rfl
@[simp] theorem setSrc_par (h : Heap) (s : ℕ) (x : Src) : (h.setSrc s x).par = h.par := rfl
@[simp] theorem setSrc_next (h : Heap) (s : ℕ) (x : Src) : (h.setSrc s x).next = h.next := rfl
@[simp] theorem setSrc_trace (h : Heap) (s : ℕ) (x : Src) : (h.setSrc s x).trace = h.trace := rfl
@[simp] theorem setSrc_snrs (h : Heap) (s : ℕ) (x : Src) : (h.setSrc s x).snrs = h.snrs := rfl
@[simp] theorem setSrc_harms (h : Heap) (s : ℕ) (x : Src) : (h.setSrc s x).harms = h.harms := rfl
@[simp] theorem setPar_src (h : Heap) (p : ℕ) (x : Params) : (h.setPar p x).src = h.src := rfl
@[simp] theorem setPar_par (h : Heap) (p : ℕ) (x : Params) : (h.setPar p x).par = Function.update h.par p x := rfl
@[simp] theorem setPar_next (h : Heap) (p : ℕ) (x : Params) : (h.setPar p x).next = h.next := rfl
@[simp] theorem setPar_trace (h : Heap) (p : ℕ) (x : Params) : (h.setPar p x).trace = h.trace := rfl
@[simp] theorem setPar_snrs (h : Heap) (p : ℕ) (x : Params) : (h.setPar p x).snrs = h.snrs := rfl
@[simp] theorem setPar_harms (h : Heap) (p : ℕ) (x : Params) : (h.setPar p x).harms = h.harms := rfl
@[simp] theorem setSnr_src (h : Heap) (r : ℕ) (x) : (h.setSnr r x).src = h.src := rfl
@[simp] theorem setSnr_par (h : Heap) (r : ℕ) (x) : (h.setSnr r x).par = h.par := rfl
@[simp] theorem setSnr_next (h : Heap) (r : ℕ) (x) : (h.setSnr r x).next = h.next := rfl
@[simp] theorem setSnr_trace (h : Heap) (r : ℕ) (x) : (h.setSnr r x).trace = h.trace := rfl
@[simp] theorem setSnr_snrs (h : Heap) (r : ℕ) (x) : (h.setSnr r x).snrs = Function.update h.snrs r x := rfl
@[simp] theorem setSnr_harms (h : Heap) (r : ℕ) (x) : (h.setSnr r x).harms = h.harms := rfl
@[simp] theorem setHarm_src (h : Heap) (r : ℕ) (x) : (h.setHarm r x).src = h.src := rfl
@[simp] theorem setHarm_par (h : Heap) (r : ℕ) (x) : (h.setHarm r x).par = h.par := rfl
@[simp] theorem setHarm_next (h : Heap) (r : ℕ) (x) : (h.setHarm r x).next = h.next := rfl
@[simp] theorem setHarm_trace (h : Heap) (r : ℕ) (x) : (h.setHarm r x).trace = h.trace := rfl
@[simp] theorem setHarm_snrs (h : Heap) (r : ℕ) (x) : (h.setHarm r x).snrs = h.snrs := rfl
@[simp] theorem setHarm_harms (h : Heap) (r : ℕ) (x) : (h.setHarm r x).harms = Function.update h.harms r x := rfl
@[simp] theorem bump_src (h : Heap) : h.bump.src = h.src := rfl
@[simp] theorem bump_par (h : Heap) : h.bump.par = h.par := rfl
@[simp] theorem bump_next (h : Heap) : h.bump.next = h.next + 1 := rfl
@[simp] theorem bump_trace (h : Heap) : h.bump.trace = h.trace := rfl
@[simp] theorem bump_snrs (h : Heap) : h.bump.snrs = h.snrs := rfl
@[simp] theorem bump_harms (h : Heap) : h.bump.harms = h.harms := rfl
@[simp] theorem log_src (h : Heap) (e : Event) : (h.log e).src = h.src := rfl
@[simp] theorem log_par (h : Heap) (e : Event) : (h.log e).par = h.par := rfl
@[simp] theorem log_next (h : Heap) (e : Event) : (h.log e).next = h.next := rfl
@[simp] theorem log_snrs (h : Heap) (e : Event) : (h.log e).snrs = h.snrs := rfl
@[simp] theorem log_harms (h : Heap) (e : Event) : (h.log e).harms = h.harms := rfl
@[simp] theorem log_trace (h : Heap) (e : Event) : (h.log e).trace = h.trace ++ [e] := rfl

/-- What the curve invariant looks at in a source. -/
def SameSc (x y : Src) : Prop :=
  x.sc_params = y.sc_params ∧ x.interpolate_sc = y.interpolate_sc ∧ x.sc = y.sc

/-- The curve invariant only looks at these parts of the heap. -/
theorem ScInvE.frame {W : World} {b : Bool} {E : ℕ → Prop} {h h' : Heap} (hi : ScInvE W b E h)
    (hs : ∀ s, SameSc (h'.src s) (h.src s)) (hp : ∀ p < h.next, h'.par p = h.par p) (hn : h.next ≤ h'.next) :
    ScInvE W b E h' := by
  intro s
  obtain ⟨h1, h2⟩ := hi s
  obtain ⟨e1, e2, e3⟩ := hs s
  constructor
  · intro p hpp
    rw [e1] at hpp
    obtain ⟨a, b, c⟩ := h1 p hpp
    rw [hp p a]
    exact ⟨a.trans_le hn, b, c⟩
  · intro hE p hpp
    rw [e1] at hpp
    have := h2 hE p hpp
    rw [e2, e3, hp p (h1 p hpp).1]
    exact this

theorem scInv_iff {W : World} {b : Bool} {h : Heap} : ScInv W b h ↔ ScInvE W b (fun _ => False) h :=
  ⟨fun hi => hi.toE _, fun hi s => ⟨(hi s).1, (hi s).2 id⟩⟩

theorem ScInv.frame {W : World} {b : Bool} {h h' : Heap} (hi : ScInv W b h)
    (hs : ∀ s, SameSc (h'.src s) (h.src s)) (hp : ∀ p < h.next, h'.par p = h.par p) (hn : h.next ≤ h'.next) :
    ScInv W b h' := scInv_iff.2 (ScInvE.frame (scInv_iff.1 hi) hs hp hn)

theorem SameSc.refl (x : Src) : SameSc x x := ⟨rfl, rfl, rfl⟩

theorem sameSc_update {h : Heap} {s : ℕ} {x : Src} (hx : SameSc x (h.src s)) :
    ∀ s', SameSc (Function.update h.src s x s') (h.src s') := by
  intro s'
  by_cases he : s' = s
  · subst he; rw [Function.update_self]; exact hx
  · rw [Function.update_of_ne he]; exact SameSc.refl _

theorem preserves_modSrc (W : World) (b : Bool) {s : ℕ} {f : Src → Src} (hf : ∀ x, SameSc (f x) x) :
    Preserves (ScInv W b) (modSrc s f) := by
  intro h hi
  exact hi.frame (sameSc_update (hf _)) (fun _ _ => rfl) le_rfl

theorem preserves_newSnr (W : World) (b : Bool) (x) : Preserves (ScInv W b) (newSnr x) := fun h hi =>
  hi.frame (h' := (h.setSnr h.next x).bump) (fun _ => SameSc.refl _) (fun _ _ => rfl) (Nat.le_succ _)

theorem preserves_newHarm (W : World) (b : Bool) (x) : Preserves (ScInv W b) (newHarm x) := fun h hi =>
  hi.frame (h' := (h.setHarm h.next x).bump) (fun _ => SameSc.refl _) (fun _ _ => rfl) (Nat.le_succ _)

theorem preserves_setSnr (W : World) (b : Bool) (r x) : Preserves (ScInv W b) (PyM.modify fun h : Heap => h.setSnr r x) := fun h hi =>
  hi.frame (h' := h.setSnr r x) (fun _ => SameSc.refl _) (fun _ _ => rfl) le_rfl

theorem preserves_setHarm (W : World) (b : Bool) (r x) : Preserves (ScInv W b) (PyM.modify fun h : Heap => h.setHarm r x) := fun h hi =>
  hi.frame (h' := h.setHarm r x) (fun _ => SameSc.refl _) (fun _ _ => rfl) le_rfl

theorem preserves_log (W : World) (b : Bool) (e) : Preserves (ScInv W b) (logEvent e) := fun h hi =>
  hi.frame (h' := h.log e) (fun _ => SameSc.refl _) (fun _ _ => rfl) le_rfl

theorem preserves_getSrc (I : Heap → Prop) (s) : Preserves I (getSrc s) := fun _ h => h
theorem preserves_getPar (I : Heap → Prop) (s) : Preserves I (getPar s) := fun _ h => h

theorem preserves_attr (I : Heap → Prop) {α : Type} (x : Option α) : Preserves I (attr x) := by
  cases x
  · exact Preserves.lift _ _
  · exact Preserves.pure _ _

/-- The three outcomes of `set_sc`. -/
theorem set_sc_run (W : World) (s : ℕ) (h : Heap) :
    set_sc W s h = if (h.src s).interpolate_sc then
        match (h.src s).sc_params with
        | none => (.error .AttributeError, h)
        | some p => match curve W (h.par p).dict with
          | .error e => (.error e, h.log (.interpolated s))
          | .ok c => (.ok (), (h.log (.interpolated s)).setSrc s { h.src s with sc := some c })
      else (.ok (), h.setSrc s { h.src s with sc := none }) := by
  unfold set_sc
  rw [bind_run]
  simp only [getSrc]
  split_ifs with hi
  · rw [bind_run]
    rcases hp : (h.src s).sc_params with _ | p
    · rfl
    · simp only [attr, pure_run]
      rw [bind_run]
      simp only [getPar]
      rw [bind_run]
      simp only [logEvent, modify_run]
      rw [bind_run]
      simp only [lift_run]
      rcases curve W (h.par p).dict with e | c
      · rfl
      · simp only [modSrc, modify_run, log_src, hp]
  · rfl

/-- `set_sc` restores the invariant of its source. -/
theorem set_sc_inv {W : World} {b : Bool} {s : ℕ} {h : Heap} (hi : ScInvE W b (· = s) h) : ScInv W b (set_sc W s h).2 := by
  rw [set_sc_run]
  split_ifs with hint
  · rcases hp : (h.src s).sc_params with _ | p
    · simp only
      intro s'
      refine ⟨(hi s').1, ?_⟩
      by_cases he : s' = s
      · subst he
        intro p hpp
        rw [hp] at hpp
        cases hpp
      · exact (hi s').2 he
    · simp only
      rcases hc : curve W (h.par p).dict with e | c
      · simp only
        intro s'
        refine ⟨(hi s').1, ?_⟩
        by_cases he : s' = s
        · subst he
          intro p' hpp
          change (h.src s').sc_params = some p' at hpp
          rw [hp] at hpp
          cases hpp
          change _ ∧ ((h.src s').interpolate_sc = false → _)
          rw [hint]
          refine ⟨?_, by simp⟩
          intro _ c hc'
          change curve W (h.par p).dict = .ok c at hc'
          rw [hc] at hc'
          cases hc'
        · exact (hi s').2 he
      · simp only
        intro s'
        by_cases he : s' = s
        · subst he
          constructor
          · intro p' hpp
            simp only [setSrc_src, Function.update_self] at hpp
            exact (hi s').1 p' hpp
          · intro p' hpp
            simp only [setSrc_src, Function.update_self, hp] at hpp
            cases hpp
            simp only [setSrc_src, Function.update_self, setSrc_par, log_par, hint]
            refine ⟨?_, by simp⟩
            intro _ c' hc'
            rw [hc] at hc'
            cases hc'
            exact Or.inl rfl
        · constructor
          · intro p' hpp
            simp only [setSrc_src, Function.update_of_ne he] at hpp
            exact (hi s').1 p' hpp
          · intro p' hpp
            simp only [setSrc_src, Function.update_of_ne he] at hpp ⊢
            exact (hi s').2 he p' hpp
  · simp only
    intro s'
    by_cases he : s' = s
    · subst he
      constructor
      · intro p' hpp
        simp only [setSrc_src, Function.update_self] at hpp
        exact (hi s').1 p' hpp
      · intro p' hpp
        simp only [setSrc_src, Function.update_self] at hpp ⊢
        exact ⟨fun h1 => absurd h1 hint, fun _ => Or.inl trivial⟩
    · constructor
      · intro p' hpp
        simp only [setSrc_src, Function.update_of_ne he] at hpp
        exact (hi s').1 p' hpp
      · intro p' hpp
        simp only [setSrc_src, Function.update_of_ne he] at hpp ⊢
        exact (hi s').2 he p' hpp

theorem re_interpolate_run (W : World) (p : ℕ) (h : Heap) :
    re_interpolate W p h = match (h.par p).source with
      | some s => set_sc W s h
      | none => (.ok (), h) := by
  unfold re_interpolate
  rw [bind_run]
  simp only [getPar]
  rcases (h.par p).source with _ | s <;> rfl

/-- Changing a dictionary only affects the source it belongs to. -/
theorem setPar_inv {W : World} {b : Bool} {h : Heap} (hi : ScInv W b h) (p : ℕ) {d : Dict}
    (hd : KeysOk (h.par p).dict → KeysOk d) :
    ScInvE W b (fun s => (h.par p).source = some s) (h.setPar p { h.par p with dict := d }) := by
  intro s
  obtain ⟨h1, h2⟩ := hi s
  constructor
  · intro p' hpp
    obtain ⟨a, b, c⟩ := h1 p' hpp
    refine ⟨a, ?_⟩
    by_cases he : p' = p
    · subst he
      rw [setPar_par, Function.update_self]
      exact ⟨b, hd c⟩
    · rw [setPar_par, Function.update_of_ne he]
      exact ⟨b, c⟩
  · intro hE p' hpp
    obtain ⟨a, b, c⟩ := h1 p' hpp
    have he : p' ≠ p := by
      rintro rfl
      exact hE b
    have := h2 p' hpp
    rw [setPar_par, Function.update_of_ne he]
    exact this

theorem re_interpolate_inv {W : World} {b : Bool} {p : ℕ} {h : Heap} (hi : ScInvE W b (fun s => (h.par p).source = some s) h) :
    ScInv W b (re_interpolate W p h).2 := by
  rw [re_interpolate_run]
  rcases hs : (h.par p).source with _ | s
  · exact scInv_iff.2 (by rw [hs] at hi; intro s; exact ⟨(hi s).1, fun _ => (hi s).2 (by simp)⟩)
  · refine set_sc_inv ?_
    intro s'
    refine ⟨(hi s').1, fun hne => (hi s').2 ?_⟩
    rw [hs]
    intro hc
    exact hne (Option.some.inj hc).symm

theorem params_setitem_inv (W : World) (b : Bool) (p : ℕ) (key : String) (v : PVal) :
    Preserves (ScInv W b) (params_setitem W p key v) := by
  intro h hi
  unfold params_setitem
  rw [bind_run]
  simp only [lift_run]
  rcases check_keys_cases [key] with hk | hk
  · rw [hk]
    simp only
    have hk' := (check_keys_ok_iff _).1 hk key (by simp)
    rw [bind_run]
    simp only [getPar]
    rw [bind_run]
    simp only [modPar, modify_run]
    unfold re_interpolate_if
    split_ifs with hc
    · apply re_interpolate_inv
      have := setPar_inv hi p (d := (h.par p).dict.set key v) (fun hd => hd.set hk' v)
      simpa using this
    · rw [not_not] at hc
      simp only [pure_run]
      intro s
      obtain ⟨h1, h2⟩ := setPar_inv hi p (d := (h.par p).dict.set key v) (fun hd => hd.set hk' v) s
      refine ⟨h1, ?_⟩
      by_cases hE : (h.par p).source = some s
      · intro p' hpp
        change (h.src s).sc_params = some p' at hpp
        have hcur := (hi s).2 p' hpp
        rw [setPar_par, setPar_src]
        by_cases he : p' = p
        · subst he
          rw [Function.update_self]
          simp only
          rw [Dict.set_same (((hi s).1 p' hpp).2.2.get_eq hk' hc)]
          exact hcur
        · rw [Function.update_of_ne he]
          exact hcur
      · exact h2 hE
  · rw [hk]
    exact hi

theorem params_update_inv (W : World) (b : Bool) (p : ℕ) (kvs : Dict) :
    Preserves (ScInv W b) (params_update W p kvs) := by
  intro h hi
  unfold params_update
  rw [bind_run]
  simp only [lift_run]
  generalize Dict.ofPairs kvs = new
  rcases check_keys_cases new.keys with hk | hk
  · rw [hk]
    simp only
    have hk' := (check_keys_ok_iff _).1 hk
    rw [bind_run]
    simp only [getPar]
    rw [bind_run]
    simp only [modPar, modify_run]
    unfold re_interpolate_if
    split_ifs with hc
    · apply re_interpolate_inv
      have := setPar_inv hi p (d := (h.par p).dict.update new) (fun hd => hd.update hk')
      simpa using this
    · push Not at hc
      simp only [pure_run]
      intro s
      obtain ⟨h1, h2⟩ := setPar_inv hi p (d := (h.par p).dict.update new) (fun hd => hd.update hk') s
      refine ⟨h1, ?_⟩
      by_cases hE : (h.par p).source = some s
      · intro p' hpp
        change (h.src s).sc_params = some p' at hpp
        have hcur := (hi s).2 p' hpp
        rw [setPar_par, setPar_src]
        by_cases he : p' = p
        · subst he
          rw [Function.update_self]
          simp only
          rw [Dict.update_same fun kv hkv => ((hi s).1 p' hpp).2.2.get_eq
            (hk' kv.1 (List.mem_map.2 ⟨kv, hkv, rfl⟩)) (hc kv hkv)]
          exact hcur
        · rw [Function.update_of_ne he]
          exact hcur
      · exact h2 hE
  · rw [hk]
    exact hi

/-- A new parameter object does not disturb anything. -/
theorem newPar_inv {W : World} {b : Bool} {E : ℕ → Prop} {h : Heap} (hi : ScInvE W b E h) (x : Params) :
    ScInvE W b E (newPar x h).2 := by
  refine hi.frame (fun _ => SameSc.refl _) ?_ (Nat.le_succ _)
  intro p hp
  change Function.update h.par h.next x p = h.par p
  rw [Function.update_of_ne (by omega)]

theorem new_params_run (params : Option Dict) (source : Option ℕ) (h : Heap) :
    new_params params source h = match filled_params params with
      | .ok d => (.ok h.next, (h.setPar h.next ⟨d, source⟩).bump)
      | .error e => (.error e, h) := by
  unfold new_params
  rw [bind_run]
  simp only [lift_run]
  rcases filled_params params with e | d <;> rfl

theorem new_params_inv (W : World) (b : Bool) (params : Option Dict) (source : Option ℕ) :
    Preserves (ScInv W b) (new_params params source) := by
  intro h hi
  rw [new_params_run]
  rcases filled_params params with e | d
  · exact hi
  · exact scInv_iff.2 (newPar_inv (scInv_iff.1 hi) _)

theorem params_changed_run (current : Option ℕ) (p : ℕ) (h : Heap) :
    ∃ b, params_changed current p h = (.ok b, h) ∧
      (b = false → ∃ p₀, current = some p₀ ∧ (h.par p).dict.eq (h.par p₀).dict) := by
  classical
  unfold params_changed
  rw [bind_run]
  simp only [getPar]
  rcases current with _ | p₀
  · exact ⟨true, rfl, by simp⟩
  · refine ⟨decide (¬ (h.par p).dict.eq (h.par p₀).dict), ?_, ?_⟩
    · simp only
      rw [bind_run]
      rfl
    · intro hb
      exact ⟨p₀, rfl, by simpa using hb⟩

/-- The setter of `sc_params`, step by step. -/
theorem set_sc_params_run (W : World) (s : ℕ) (params : Option Dict) (h : Heap) :
    (∃ e, filled_params params = .error e ∧ set_sc_params W s params h = (.error e, h)) ∨
    ∃ d h₁, filled_params params = .ok d ∧
      h₁ = ((h.setPar h.next ⟨d, some s⟩).bump).setSrc s { h.src s with sc_params := some h.next } ∧
      (set_sc_params W s params h = set_sc W s h₁ ∨
        (set_sc_params W s params h = (.ok (), h₁) ∧
          ∃ p₀, (h.src s).sc_params = some p₀ ∧ d.eq ((h.setPar h.next ⟨d, some s⟩).par p₀).dict)) := by
  unfold set_sc_params
  rw [bind_run, new_params_run]
  rcases hf : filled_params params with e | d
  · exact Or.inl ⟨e, rfl, rfl⟩
  · right
    refine ⟨d, _, rfl, rfl, ?_⟩
    simp only
    rw [bind_run]
    simp only [getSrc]
    rw [bind_run]
    obtain ⟨b, hb, hbf⟩ := params_changed_run ((h.setPar h.next ⟨d, some s⟩).bump.src s).sc_params h.next
      (h.setPar h.next ⟨d, some s⟩).bump
    rw [hb]
    simp only
    rw [bind_run]
    simp only [modSrc, modify_run]
    rcases b with _ | _
    · right
      refine ⟨rfl, ?_⟩
      obtain ⟨p₀, h1, h2⟩ := hbf rfl
      refine ⟨p₀, h1, ?_⟩
      simpa using h2
    · left
      rfl

theorem set_sc_params_inv (W : World) (b : Bool) (s : ℕ) (params : Option Dict) :
    Preserves (ScInv W b) (set_sc_params W s params) := by
  intro h hi
  rcases set_sc_params_run W s params h with ⟨e, -, hr⟩ | ⟨d, h₁, hd, hh, hr⟩
  · rw [hr]; exact hi
  · have hown : ∀ s', Owned h₁ s' ∧ (s' ≠ s → Current W b h₁ s') := by
      intro s'
      by_cases he : s' = s
      · subst he
        refine ⟨?_, fun h => absurd rfl h⟩
        intro p hp
        rw [hh] at hp ⊢
        simp only [setSrc_src, Function.update_self, Option.some.injEq] at hp
        subst hp
        simp only [setSrc_next, bump_next, setPar_next, setSrc_par, bump_par, setPar_par, Function.update_self]
        exact ⟨Nat.lt_succ_self _, trivial, filled_params_ok hd⟩
      · have hinv := newPar_inv (scInv_iff.1 hi) ⟨d, some s⟩ s'
        constructor
        · intro p hp
          rw [hh] at hp ⊢
          simp only [setSrc_src, Function.update_of_ne he] at hp
          exact hinv.1 p hp
        · intro _ p hp
          rw [hh] at hp ⊢
          simp only [setSrc_src, Function.update_of_ne he] at hp ⊢
          exact hinv.2 id p hp
    rcases hr with hr | ⟨hr, p₀, hp₀, heq⟩
    · rw [hr]
      exact set_sc_inv hown
    · rw [hr]
      intro s'
      refine ⟨(hown s').1, ?_⟩
      by_cases he : s' = s
      · subst he
        have hlt := ((hi s').1 p₀ hp₀).1
        have hcur := (hi s').2 p₀ hp₀
        simp only [setPar_par] at heq
        rw [Function.update_of_ne (by omega)] at heq
        intro p hp
        rw [hh] at hp ⊢
        simp only [setSrc_src, Function.update_self, Option.some.injEq] at hp ⊢
        subst hp
        simp only [setSrc_par, bump_par, setPar_par, Function.update_self]
        rw [curve_congr W heq]
        exact hcur
      · exact (hown s').2 he

end Legwork.source
