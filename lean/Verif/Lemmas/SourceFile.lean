import Verif.Spec.SourceFile
import Verif.Lemmas.EvolveNew

/-!
# Files written and read back
-/

namespace Legwork.source

open Legwork.Spec Legwork.utils
open PyM hiding bind

/-! ### Association lists -/

theorem lookup_put {α : Type} (l : List (String × α)) (k : String) (v : α) (key : String) :
    (put l k v).lookup key = if key = k then some v else l.lookup key := by
  induction l with
  | nil =>
    by_cases h : key = k
    · simp [put, List.lookup, h]
    · simp [put, List.lookup, h, beq_eq_false_iff_ne.2 h]
  | cons x rest ih =>
    obtain ⟨k', w⟩ := x
    unfold put
    by_cases h' : k' = k
    · rw [if_pos h', List.lookup_cons, List.lookup_cons]
      subst h'
      by_cases h : key = k'
      · simp [h]
      · simp [h, beq_eq_false_iff_ne.2 h]
    · rw [if_neg h', List.lookup_cons, List.lookup_cons, ih]
      by_cases h : key = k'
      · subst h
        simp [h']
      · simp [beq_eq_false_iff_ne.2 h]

theorem put_new {α : Type} {l : List (String × α)} {k : String} (v : α) (hk : k ∉ l.map Prod.fst) :
    put l k v = l ++ [(k, v)] := by
  induction l with
  | nil => rfl
  | cons x rest ih =>
    obtain ⟨k', w⟩ := x
    simp only [List.map_cons, List.mem_cons, not_or] at hk
    unfold put
    rw [if_neg (Ne.symm hk.1), ih hk.2]
    rfl

theorem lookup_of_mem {α : Type} {l : List (String × α)} (hl : (l.map Prod.fst).Nodup) {k : String} {v : α}
    (h : (k, v) ∈ l) : l.lookup k = some v := by
  induction l with
  | nil => cases h
  | cons x rest ih =>
    obtain ⟨k', w⟩ := x
    simp only [List.map_cons, List.nodup_cons] at hl
    rw [List.lookup_cons]
    rcases List.mem_cons.1 h with h | h
    · cases h
      simp
    · have : k ≠ k' := by
        intro he
        rw [he] at h
        exact hl.1 (List.mem_map.2 ⟨(k', v), h, rfl⟩)
      rw [beq_eq_false_iff_ne.2 this]
      exact ih hl.2 h

theorem lookup_none {α : Type} {l : List (String × α)} {k : String} (h : k ∉ l.map Prod.fst) : l.lookup k = none := by
  induction l with
  | nil => rfl
  | cons x rest ih =>
    obtain ⟨k', w⟩ := x
    simp only [List.map_cons, List.mem_cons, not_or] at h
    rw [List.lookup_cons, beq_eq_false_iff_ne.2 h.1]
    exact ih h.2

/-! ### What the writes leave -/

/-- The file after some writes. -/
def written (f : H5) (ws : List Write) : H5 := ws.foldl Write.apply f

theorem written_append (f : H5) (a b : List Write) : written f (a ++ b) = written (written f a) b := by
  simp [written]

theorem run_writes_last (loc : ℕ) (ws : List Write) : ∀ (f : H5) (st : Store), st loc = some (.h5 f) →
    storeAfter st (run_writes loc ws f st) loc = some (.h5 (written f ws)) := by
  induction ws with
  | nil =>
    intro f st h
    exact h
  | cons w ws ih =>
    intro f st h
    have := ih (w.apply f) (Function.update st loc (some (.h5 (w.apply f)))) (by simp)
    unfold storeAfter at this ⊢
    rw [run_writes, List.getLastD_cons]
    exact this

theorem run_writes_other (loc : ℕ) (ws : List Write) : ∀ (f : H5) (st : Store), ∀ st' ∈ run_writes loc ws f st,
    ∀ l, l ≠ loc → st' l = st l := by
  induction ws with
  | nil =>
    intro f st st' h
    cases h
  | cons w ws ih =>
    intro f st st' h l hl
    rw [run_writes] at h
    rcases List.mem_cons.1 h with h | h
    · rw [h, Function.update_of_ne hl]
    · rw [ih _ _ st' h l hl, Function.update_of_ne hl]

theorem run_writes_length (loc : ℕ) (ws : List Write) : ∀ (f : H5) (st : Store),
    (run_writes loc ws f st).length = ws.length := by
  induction ws with
  | nil => intros; rfl
  | cons w ws ih => intro f st; simp [run_writes, ih]

/-- The writes of datasets and parameters leave the attributes alone. -/
theorem written_attrs {ws : List Write} (h : ∀ w ∈ ws, ∀ k v, w ≠ .attr k v) : ∀ f : H5, (written f ws).attrs = f.attrs := by
  induction ws with
  | nil => intro f; rfl
  | cons w ws ih =>
    intro f
    change (written (w.apply f) ws).attrs = _
    rw [ih fun x hx => h x (List.mem_cons_of_mem _ hx)]
    cases w with
    | attr k v => exact absurd rfl (h _ List.mem_cons_self k v)
    | _ => rfl

theorem written_data {ws : List Write} (h : ∀ w ∈ ws, (∀ k v, w ≠ .dataset k v) ∧ ∀ k, w ≠ .unit k) :
    ∀ f : H5, (written f ws).data = f.data := by
  induction ws with
  | nil => intro f; rfl
  | cons w ws ih =>
    intro f
    change (written (w.apply f) ws).data = _
    rw [ih fun x hx => h x (List.mem_cons_of_mem _ hx)]
    cases w with
    | dataset k v => exact absurd rfl ((h _ List.mem_cons_self).1 k v)
    | unit k => exact absurd rfl ((h _ List.mem_cons_self).2 k)
    | _ => rfl

theorem write_dataset_mem {x : String × Option DSet} {w : Write} (h : w ∈ write_dataset x) :
    (∃ k v, w = .dataset k v) ∨ ∃ k, w = .unit k := by
  obtain ⟨name, d⟩ := x
  rcases d with _ | d
  · cases h
  · rcases List.mem_cons.1 h with h | h
    · exact Or.inl ⟨_, _, h⟩
    · split_ifs at h
      · exact Or.inr ⟨_, List.mem_singleton.1 h⟩
      · cases h

theorem write_param_mem {x : String × PVal} {w : Write} (h : w ∈ write_param x) : ∃ k v, w = .scAttr k v := by
  obtain ⟨key, v⟩ := x
  cases v <;> simp only [write_param, List.mem_cons, List.not_mem_nil, or_false] at h
  all_goals first | exact ⟨_, _, h⟩ | (rcases h with h | h <;> exact ⟨_, _, h⟩)

theorem lookup_unit (l : List (String × DSet)) (name key : String) :
    (l.map fun x => if x.1 = name then (x.1, { x.2 with unit := true }) else x).lookup key =
      (l.lookup key).map fun d => if key = name then { d with unit := true } else d := by
  induction l with
  | nil => rfl
  | cons x rest ih =>
    obtain ⟨k, d⟩ := x
    by_cases h : key = k
    · subst h
      by_cases h' : key = name <;> simp [h']
    · by_cases h' : k = name <;> simp [List.lookup_cons, h', beq_eq_false_iff_ne.2 h] <;> first | exact ih | skip
      · rw [h'] at h
        rw [beq_eq_false_iff_ne.2 h]
        exact ih

theorem write_dataset_step (f : H5) (x : String × Option DSet) (key : String) :
    (written f (write_dataset x)).data.lookup key =
      if key = x.1 ∧ x.2.isSome then x.2 else f.data.lookup key := by
  obtain ⟨name, _ | d⟩ := x
  · simp [write_dataset, written]
  · obtain ⟨dd, u⟩ := d
    rcases u with _ | _
    · change (put f.data name ⟨dd, false⟩).lookup key = _
      rw [lookup_put]
      by_cases h : key = name <;> simp [h]
    · change ((put f.data name ⟨dd, false⟩).map fun x => if x.1 = name then (x.1, { x.2 with unit := true }) else x).lookup
        key = _
      rw [lookup_unit, lookup_put]
      by_cases h : key = name
      · simp [h]
      · simp only [h, if_false, false_and]
        cases f.data.lookup key <;> rfl

/-- After the loop over the attributes each has its dataset. -/
theorem written_columns (cs : List (String × Option DSet)) : (cs.map Prod.fst).Nodup → ∀ (f : H5) (key : String),
    (written f (cs.flatMap write_dataset)).data.lookup key =
      match cs.lookup key with
      | some (some d) => some d
      | _ => f.data.lookup key := by
  induction cs with
  | nil => intro _ f key; rfl
  | cons x rest ih =>
    intro hn f key
    simp only [List.map_cons, List.nodup_cons] at hn
    rw [List.flatMap_cons, written_append, ih hn.2, write_dataset_step]
    obtain ⟨name, d⟩ := x
    rw [List.lookup_cons]
    by_cases h : key = name
    · subst h
      rw [lookup_none hn.1]
      rcases d with _ | d <;> simp
    · rw [beq_eq_false_iff_ne.2 h]
      simp [h]

/-! ### Parameters -/

/-- The attributes a parameter is written to. -/
def encode : String × PVal → List (String × AVal)
  | (_, .psdFn _) => []
  | (_, .noiseFn _) => []
  | (key, .none) => [(key, .str "__none__")]
  | (key, .time t) => [(key, .real t), (key ++ "_unit", .str "s")]
  | (key, .length l) => [(key, .real l), (key ++ "_unit", .str "m")]
  | (key, .str s) => [(key, .str s)]
  | (key, .bool b) => [(key, .bool b)]
  | (key, .num x) => [(key, .real x)]

theorem encode_keys {x : String × PVal} {y : String × AVal} (h : y ∈ encode x) : y.1 = x.1 ∨ y.1 = x.1 ++ "_unit" := by
  obtain ⟨key, v⟩ := x
  cases v <;> simp only [encode, List.mem_cons, List.not_mem_nil, or_false] at h
  all_goals first | (rw [h]; exact Or.inl rfl) | (rcases h with h | h <;> rw [h]; exacts [Or.inl rfl, Or.inr rfl])

/-- The keys do not clash with the names of units. -/
def NoUnit (d : Dict) : Prop := ∀ x ∈ d, endswith x.1 "_unit" = false

theorem endswith_append (a b : String) : endswith (a ++ b) b = true := by
  simp [endswith]

theorem append_unit_inj {a b : String} (h : a ++ "_unit" = b ++ "_unit") : a = b := by
  have := congrArg String.toList h
  simp only [String.toList_append] at this
  exact String.toList_inj.1 (List.append_cancel_right this)

theorem encode_nodup {d : Dict} (hd : d.keys.Nodup) (hu : NoUnit d) : ((d.flatMap encode).map Prod.fst).Nodup := by
  induction d with
  | nil => exact List.nodup_nil
  | cons x rest ih =>
    obtain ⟨key, v⟩ := x
    simp only [Dict.keys, List.map_cons, List.nodup_cons] at hd
    have hu' : NoUnit rest := fun y hy => hu y (List.mem_cons_of_mem _ hy)
    have hk : endswith key "_unit" = false := hu _ List.mem_cons_self
    rw [List.flatMap_cons, List.map_append, List.nodup_append]
    refine ⟨?_, ih hd.2 hu', ?_⟩
    · have : key ≠ key ++ "_unit" := by
        intro h
        have h1 := endswith_append key "_unit"
        rw [← h, hk] at h1
        cases h1
      cases v <;> simp [encode, this]
    · intro a ha b hb hab
      subst hab
      obtain ⟨y, hy, rfl⟩ := List.mem_map.1 ha
      obtain ⟨z, hz, hzy⟩ := List.mem_map.1 hb
      obtain ⟨w, hw, hz⟩ := List.mem_flatMap.1 hz
      have hne : w.1 ≠ key := by
        rintro rfl
        exact hd.1 (List.mem_map.2 ⟨w, hw, rfl⟩)
      have hwu := hu' w hw
      rcases encode_keys hy with h1 | h1 <;> rcases encode_keys hz with h2 | h2 <;> rw [hzy, h1] at h2 <;> simp only at h2
      · exact hne h2.symm
      · rw [h2, endswith_append] at hk; cases hk
      · rw [← h2, endswith_append] at hwu; cases hwu
      · exact hne (append_unit_inj h2).symm

theorem written_scAttrs (kvs : List (String × AVal)) : ∀ (f : H5) (l : List (String × AVal)), f.sc = some l →
    ((l ++ kvs).map Prod.fst).Nodup →
    (written f (kvs.map fun x => .scAttr x.1 x.2)).sc = some (l ++ kvs) := by
  induction kvs with
  | nil => intro f l h _; simpa [written] using h
  | cons x rest ih =>
    intro f l h hn
    obtain ⟨k, v⟩ := x
    have hk : k ∉ l.map Prod.fst := by
      intro hm
      rw [List.map_append, List.nodup_append] at hn
      exact hn.2.2 k hm k (by simp) rfl
    change (written (Write.apply f (.scAttr k v)) _).sc = _
    rw [ih _ (l ++ [(k, v)]) (by simp [Write.apply, h, put_new v hk]) (by simpa using hn)]
    simp

theorem write_param_eq (x : String × PVal) : write_param x = (encode x).map fun x => .scAttr x.1 x.2 := by
  obtain ⟨key, v⟩ := x
  cases v <;> rfl

theorem flatMap_write_param (d : Dict) : d.flatMap write_param = (d.flatMap encode).map fun x => .scAttr x.1 x.2 := by
  induction d with
  | nil => rfl
  | cons x rest ih => rw [List.flatMap_cons, List.flatMap_cons, List.map_append, ih, write_param_eq]

/-- The attributes after the loop over the parameters. -/
theorem written_params {d : Dict} (hd : d.keys.Nodup) (hu : NoUnit d) (f : H5) :
    (written f (.group :: d.flatMap write_param)).sc = some (d.flatMap encode) := by
  change (written (Write.apply f .group) _).sc = _
  rw [flatMap_write_param, written_scAttrs (d.flatMap encode) _ [] rfl (by simpa using encode_nodup hd hu)]
  simp

/-! ### The whole file -/

variable {Φ : Files} {h : Heap} {src : Src} {tol : ℝ} {d : Dict}

/-- The file that has been saved. -/
def saved (Φ : Files) (h : Heap) (src : Src) (tol : ℝ) (d : Dict) : H5 := written H5.empty (save_writes Φ h src tol d)

theorem saved_attrs : (saved Φ h src tol d).attrs =
    [("legwork_version", .str Φ.version), ("class_name", .str src.cls.name), ("n_sources", .nat src.cols.n_sources),
     ("gw_lum_tol", .real tol), ("stat_tol", .real src.stat_tol), ("n_proc", .nat src.n_proc),
     ("interpolate_g", .bool src.g.isSome), ("interpolate_sc", .bool src.interpolate_sc)] := by
  unfold saved save_writes
  rw [List.append_assoc, written_append, written_attrs]
  · rfl
  · intro w hw k v
    rcases List.mem_append.1 hw with hw | hw
    · obtain ⟨x, -, hx⟩ := List.mem_flatMap.1 hw
      rcases write_dataset_mem hx with ⟨_, _, rfl⟩ | ⟨_, rfl⟩ <;> simp
    · rcases List.mem_cons.1 hw with rfl | hw
      · simp
      · obtain ⟨x, -, hx⟩ := List.mem_flatMap.1 hw
        obtain ⟨_, _, rfl⟩ := write_param_mem hx
        simp

theorem columns_nodup : ((columns h src).map Prod.fst).Nodup := by
  change (["m_1", "m_2", "dist", "f_orb", "ecc", "weights", "inclination", "polarisation", "position_lon",
    "position_lat", "t_merge", "snr", "max_snr_harmonic", "merged"] : List String).Nodup
  decide

theorem saved_data (key : String) : (saved Φ h src tol d).data.lookup key = ((columns h src).lookup key).join := by
  unfold saved save_writes
  rw [written_append, written_data, written_append, written_columns _ columns_nodup]
  · have h0 : (written H5.empty (write_settings Φ src tol)).data = [] := rfl
    rw [h0]
    rcases (columns h src).lookup key with _ | _ | x <;> rfl
  · intro w hw
    rcases List.mem_cons.1 hw with rfl | hw
    · simp
    · obtain ⟨x, -, hx⟩ := List.mem_flatMap.1 hw
      obtain ⟨_, _, rfl⟩ := write_param_mem hx
      simp

theorem saved_sc (hd : d.keys.Nodup) (hu : NoUnit d) : (saved Φ h src tol d).sc = some (d.flatMap encode) := by
  unfold saved save_writes
  rw [written_append, written_params hd hu]

end Legwork.source
