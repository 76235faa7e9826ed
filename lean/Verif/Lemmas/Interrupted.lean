import Verif.Lemmas.SourceLoad
import Verif.Lemmas.SizesRun
import Verif.Spec.Session

/-!
# What a `save` that was cut short has written
-/

namespace Legwork.source

open Legwork.Spec Legwork.utils
open PyM hiding bind

variable {Φ : Files} {h : Heap} {src : Src} {tol : ℝ} {d : Dict}

/-- Every store on the way contains the file after some of the writes. -/
theorem run_writes_mem (loc : ℕ) (ws : List Write) : ∀ (f : H5) (st : Store), ∀ st' ∈ run_writes loc ws f st,
    ∃ n, st' loc = some (.h5 (written f (ws.take n))) := by
  induction ws with
  | nil => intro f st st' h; cases h
  | cons w ws ih =>
    intro f st st' h
    rw [run_writes] at h
    rcases List.mem_cons.1 h with h | h
    · refine ⟨1, ?_⟩
      rw [h, Function.update_self]
      rfl
    · obtain ⟨n, hn⟩ := ih _ _ st' h
      exact ⟨n + 1, hn⟩

/-- Every number of writes leaves its store. -/
theorem run_writes_at (loc : ℕ) (ws : List Write) : ∀ (f : H5) (st : Store) (n : ℕ), n < ws.length →
    ∃ st' ∈ run_writes loc ws f st, st' loc = some (.h5 (written f (ws.take (n + 1)))) := by
  induction ws with
  | nil => intro f st n h; cases h
  | cons w ws ih =>
    intro f st n h
    rw [run_writes]
    rcases n with _ | n
    · exact ⟨_, List.mem_cons_self, by rw [Function.update_self]; rfl⟩
    · obtain ⟨st', h1, h2⟩ := ih (w.apply f) (Function.update st loc (some (.h5 (w.apply f)))) n (by simpa using h)
      exact ⟨st', List.mem_cons_of_mem _ h1, h2⟩

/-- All datasets come from the writes. -/
theorem written_lookup {P : String → Data → Prop} {ws : List Write} (hw : ∀ k v, Write.dataset k v ∈ ws → P k v) :
    ∀ f : H5, (∀ k x, f.data.lookup k = some x → P k x.data) →
      ∀ k x, (written f ws).data.lookup k = some x → P k x.data := by
  induction ws with
  | nil => intro f h; exact h
  | cons w ws ih =>
    intro f h
    refine ih (fun k v hm => hw k v (List.mem_cons_of_mem _ hm)) (w.apply f) ?_
    intro k x hx
    cases w with
    | attr key v => exact h k x hx
    | group => exact h k x hx
    | scAttr key v => exact h k x hx
    | dataset name v =>
      change (put f.data name ⟨v, false⟩).lookup k = some x at hx
      rw [lookup_put] at hx
      split_ifs at hx with he
      · cases hx
        rw [he]
        exact hw name v List.mem_cons_self
      · exact h k x hx
    | unit name =>
      change (f.data.map fun x => if x.1 = name then (x.1, { x.2 with unit := true }) else x).lookup k = some x at hx
      rw [lookup_unit] at hx
      rcases hl : f.data.lookup k with _ | y
      · rw [hl] at hx; cases hx
      · rw [hl] at hx
        have := h k y hl
        simp only [Option.map_some, Option.some.injEq] at hx
        rw [← hx]
        split_ifs <;> exact this

/-- The datasets that are written. -/
theorem dataset_mem {k : String} {v : Data} (hm : Write.dataset k v ∈ save_writes Φ h src tol d) :
    ∃ u, (columns h src).lookup k = some (some ⟨v, u⟩) := by
  unfold save_writes at hm
  rcases List.mem_append.1 hm with hm | hm
  · rcases List.mem_append.1 hm with hm | hm
    · simp [write_settings] at hm
    · obtain ⟨⟨name, o⟩, hx, hx'⟩ := List.mem_flatMap.1 hm
      rcases o with _ | ⟨dd, u⟩
      · cases hx'
      · have : k = name ∧ v = dd := by
          rcases u with _ | _ <;> simpa [write_dataset] using hx'
        obtain ⟨rfl, rfl⟩ := this
        exact ⟨u, lookup_of_mem columns_nodup hx⟩
  · rcases List.mem_cons.1 hm with hm | hm
    · cases hm
    · obtain ⟨x, -, hx⟩ := List.mem_flatMap.1 hm
      obtain ⟨_, _, hx⟩ := write_param_mem hx
      cases hx

theorem written_take_lookup {n : ℕ} {k : String} {x : DSet}
    (hx : (written H5.empty ((save_writes Φ h src tol d).take n)).data.lookup k = some x) :
    ∃ u, (columns h src).lookup k = some (some ⟨x.data, u⟩) :=
  written_lookup (P := fun k v => ∃ u, (columns h src).lookup k = some (some ⟨v, u⟩))
    (fun _ _ hm => dataset_mem (List.mem_of_mem_take hm)) _ (fun _ _ h => by cases h) k x hx

/-- Whatever has been written of a consistent object fits together. -/
theorem written_fits {s : ℕ} (ht : Tidy h s) (n : ℕ) :
    FileFits (written H5.empty ((save_writes Φ h (h.src s) tol d).take n)) := by
  intro m hm
  obtain ⟨u, hu⟩ := written_take_lookup hm
  have hm1 : m.data = .reals (h.src s).cols.m_1 := by
    simp only [columns, List.lookup_cons, beq_self_eq_true, Option.some.injEq, DSet.mk.injEq] at hu
    exact hu.1.symm
  have hr := ht.sized.rect
  rw [hm1]
  refine ⟨fun name hn x hx => ?_, fun ms ts u v h1 h2 i hi t hti => ?_⟩
  · obtain ⟨u', hu'⟩ := written_take_lookup hx
    simp only [List.mem_cons, List.not_mem_nil, or_false] at hn
    have hl : ∀ {o : Option DSet}, (columns h (h.src s)).lookup name = some o → o = some ⟨x.data, u'⟩ :=
      fun {o} ho => by rw [ho] at hu'; exact Option.some.inj hu'
    change _ = (h.src s).cols.n_sources
    rcases hn with rfl | rfl | rfl | rfl | rfl | rfl | rfl | rfl
    · have := hl (o := (h.src s).cols.weights.map fun x => ⟨.reals x, false⟩) rfl
      obtain ⟨y, h1, h2⟩ := Option.map_eq_some_iff.1 this
      rw [← (DSet.mk.inj h2).1]
      exact hr.weights y h1
    · have := hl (o := (h.src s).cols.inclination.map fun x => ⟨.reals x, true⟩) rfl
      obtain ⟨y, h1, h2⟩ := Option.map_eq_some_iff.1 this
      rw [← (DSet.mk.inj h2).1]
      exact hr.inclination y h1
    · have := hl (o := (h.src s).cols.polarisation.map fun x => ⟨.reals x, true⟩) rfl
      obtain ⟨y, h1, h2⟩ := Option.map_eq_some_iff.1 this
      rw [← (DSet.mk.inj h2).1]
      exact hr.polarisation y h1
    · have := hl (o := (h.src s).cols.position.map fun x => ⟨.reals (x.map Prod.fst), true⟩) rfl
      obtain ⟨y, h1, h2⟩ := Option.map_eq_some_iff.1 this
      rw [← (DSet.mk.inj h2).1]
      simpa [Entries] using hr.position y h1
    · have := hl (o := (h.src s).cols.t_merge.map fun x => ⟨.reals x, true⟩) rfl
      obtain ⟨y, h1, h2⟩ := Option.map_eq_some_iff.1 this
      rw [← (DSet.mk.inj h2).1]
      exact hr.t_merge y h1
    · have := hl (o := (h.src s).snr.map fun r => ⟨.nans (h.snrs r), false⟩) rfl
      obtain ⟨y, h1, h2⟩ := Option.map_eq_some_iff.1 this
      rw [← (DSet.mk.inj h2).1]
      exact ht.sized.snr y h1
    · have := hl (o := (h.src s).max_snr_harmonic.map fun r => ⟨.nats (h.harms r), false⟩) rfl
      obtain ⟨y, h1, h2⟩ := Option.map_eq_some_iff.1 this
      rw [← (DSet.mk.inj h2).1]
      exact ht.sized.harm y h1
    · have := hl (o := some ⟨.bools (h.src s).cols.merged, false⟩) rfl
      rw [← (DSet.mk.inj (Option.some.inj this)).1]
      exact hr.merged
  · obtain ⟨u₁, h1⟩ := written_take_lookup h1
    obtain ⟨u₂, h2⟩ := written_take_lookup h2
    have e1 : some (⟨.bools (h.src s).cols.merged, false⟩ : DSet) = some ⟨.bools ms, u₁⟩ := Option.some.inj h1
    have e2 : ((h.src s).cols.t_merge.map fun x => (⟨.reals x, true⟩ : DSet)) = some ⟨.reals ts, u₂⟩ := Option.some.inj h2
    obtain ⟨y, h3, h4⟩ := Option.map_eq_some_iff.1 e2
    have e3 : (h.src s).cols.merged = ms := Data.bools.inj (DSet.mk.inj (Option.some.inj e1)).1
    have e4 : y = ts := Data.reals.inj (DSet.mk.inj h4).1
    subst e3 e4
    refine ht.settled.merged i ?_ t ?_
    · simp [rowAt, List.getD_eq_getElem?_getD, hi]
    · simp [rowAt, h3, List.getD_eq_getElem?_getD, hti]

/-- Whatever a `save` leaves behind, wherever it stops, fits together. -/
theorem save_fits {s : ℕ} (ht : Tidy h s) {name : String} {ow : Bool} {st : Store} :
    ∀ st' ∈ (save Φ h s name ow st).2, ∀ l f, st' l = some (.h5 f) → st l = some (.h5 f) ∨ FileFits f := by
  intro st' hm l f hf
  unfold save at hm
  simp only at hm
  split_ifs at hm
  · cases hm
  · split at hm
    · cases hm
    · cases hm
    · split at hm
      · rename_i tol p _ _
        by_cases hl : l = Φ.locate (normalise name)
        · right
          subst hl
          rcases List.mem_cons.1 hm with rfl | hm
          · rw [Function.update_self] at hf
            cases hf
            exact written_fits (Φ := Φ) (tol := tol) (d := []) ht 0
          · obtain ⟨n, hn⟩ := run_writes_mem _ _ _ _ st' hm
            rw [hn] at hf
            cases hf
            exact written_fits ht n
        · left
          rcases List.mem_cons.1 hm with rfl | hm
          · rwa [Function.update_of_ne hl] at hf
          · rwa [run_writes_other _ _ _ _ st' hm l hl, Function.update_of_ne hl] at hf
      · cases hm

/-! ### Parameters that have not been written -/

/-- A function is not written, so it stands for a parameter that has not been written yet. -/
def forget (d : Dict) : Dict := d.map fun x => (x.1, .psdFn 0)

theorem forget_writes (d : Dict) : (forget d).flatMap write_param = [] := by
  induction d with
  | nil => rfl
  | cons x rest ih => simpa [forget, write_param] using ih

theorem forget_keys (d : Dict) : (forget d).keys = d.keys := by
  simp [forget, Dict.keys]

theorem cut_writes (d₁ d₂ : Dict) : (d₁ ++ forget d₂).flatMap write_param = d₁.flatMap write_param := by
  rw [List.flatMap_append, forget_writes, List.append_nil]

theorem saved_cut (d₁ d₂ : Dict) : saved Φ h src tol (d₁ ++ forget d₂) = saved Φ h src tol d₁ := by
  unfold saved save_writes
  rw [cut_writes]

theorem keys_append (d₁ d₂ : Dict) : Dict.keys (d₁ ++ d₂) = Dict.keys d₁ ++ Dict.keys d₂ := by
  simp [Dict.keys]

theorem keysOk_cut {d₁ d₂ : Dict} (hd : KeysOk (d₁ ++ d₂)) : KeysOk (d₁ ++ forget d₂) := by
  have hk : Dict.keys (d₁ ++ forget d₂) = Dict.keys (d₁ ++ d₂) := by rw [keys_append, keys_append, forget_keys]
  refine ⟨fun key => ?_, by rw [hk]; exact hd.2⟩
  rw [← hd.1 key, ← Dict.mem_keys, ← Dict.mem_keys, hk]

theorem keysOk_half {d₁ d₃ : Dict} {key : String} {v w : PVal} (hd : KeysOk (d₁ ++ (key, v) :: d₃)) :
    KeysOk (d₁ ++ (key, w) :: forget d₃) := by
  have hk : Dict.keys (d₁ ++ (key, w) :: forget d₃) = Dict.keys (d₁ ++ (key, v) :: d₃) := by
    rw [keys_append, keys_append]
    congr 1
    change key :: Dict.keys (forget d₃) = key :: Dict.keys d₃
    rw [forget_keys]
  refine ⟨fun key => ?_, by rw [hk]; exact hd.2⟩
  rw [← hd.1 key, ← Dict.mem_keys, ← Dict.mem_keys, hk]

/-- The first part of the writes of the parameters. -/
theorem take_params (d : Dict) : ∀ m, ∃ d₁ d₂, d = d₁ ++ d₂ ∧
    ((d.flatMap write_param).take m = d₁.flatMap write_param ∨
      ∃ key x d₃ v, d₂ = (key, v) :: d₃ ∧ (v = .time x ∨ v = .length x) ∧
        (d.flatMap write_param).take m = d₁.flatMap write_param ++ [.scAttr key (.real x)]) := by
  induction d with
  | nil => intro m; exact ⟨[], [], rfl, Or.inl (by simp)⟩
  | cons y rest ih =>
    intro m
    rw [List.flatMap_cons, List.take_append]
    by_cases hm : (write_param y).length ≤ m
    · obtain ⟨d₁, d₂, h1, h2⟩ := ih (m - (write_param y).length)
      refine ⟨y :: d₁, d₂, by rw [h1]; rfl, ?_⟩
      rw [List.take_of_length_le hm, List.flatMap_cons]
      rcases h2 with h2 | ⟨key, x, d₃, v, h2, hv, h3⟩
      · exact Or.inl (by rw [h2])
      · exact Or.inr ⟨key, x, d₃, v, h2, hv, by rw [h3, List.append_assoc]⟩
    · refine ⟨[], y :: rest, rfl, ?_⟩
      have h0 : m - (write_param y).length = 0 := by omega
      rw [h0, List.take_zero, List.append_nil]
      rcases m with _ | m
      · exact Or.inl rfl
      · right
        obtain ⟨key, v⟩ := y
        cases v <;> simp only [write_param, List.length_cons, List.length_nil] at hm <;> try omega
        all_goals
          have : m = 0 := by omega
          subst this
          exact ⟨_, _, _, _, rfl, by simp, rfl⟩

/-- Nothing before the group has made it. -/
theorem written_no_group {ws : List Write} (hw : ∀ w ∈ ws, w ≠ .group) : ∀ f : H5, f.sc = none → (written f ws).sc = none := by
  induction ws with
  | nil => intro f h; exact h
  | cons w ws ih =>
    intro f h
    refine ih (fun x hx => hw x (List.mem_cons_of_mem _ hx)) (w.apply f) ?_
    cases w with
    | group => exact absurd rfl (hw _ List.mem_cons_self)
    | scAttr k v => simp [Write.apply, h]
    | _ => exact h

/-- The file after some of the writes: without the group, or complete but for parameters that have not been written, the
first of which may have been written without its unit. -/
theorem written_take (n : ℕ) : ∃ f, f = written H5.empty ((save_writes Φ h src tol d).take n) ∧
    (f.sc = none ∨ ∃ d₁ d₂, d = d₁ ++ d₂ ∧ (f = saved Φ h src tol (d₁ ++ forget d₂) ∨
      ∃ key x d₃ v, d₂ = (key, v) :: d₃ ∧ (v = .time x ∨ v = .length x) ∧
        f = saved Φ h src tol (d₁ ++ (key, .num x) :: forget d₃))) := by
  refine ⟨_, rfl, ?_⟩
  unfold save_writes
  rw [List.take_append]
  by_cases hn : n ≤ (write_settings Φ src tol ++ (columns h src).flatMap write_dataset).length
  · left
    have : n - (write_settings Φ src tol ++ (columns h src).flatMap write_dataset).length = 0 := by omega
    rw [this, List.take_zero, List.append_nil]
    refine written_no_group (fun w hw => ?_) _ rfl
    rcases List.mem_append.1 (List.mem_of_mem_take hw) with hw | hw
    · rintro rfl
      simp [write_settings] at hw
    · obtain ⟨x, -, hx⟩ := List.mem_flatMap.1 hw
      rcases write_dataset_mem hx with ⟨_, _, rfl⟩ | ⟨_, rfl⟩ <;> simp
  · right
    rw [List.take_of_length_le (by omega)]
    obtain ⟨m, hm⟩ : ∃ m, n - (write_settings Φ src tol ++ (columns h src).flatMap write_dataset).length = m + 1 :=
      ⟨n - (write_settings Φ src tol ++ (columns h src).flatMap write_dataset).length - 1, by omega⟩
    rw [hm, List.take_succ_cons]
    obtain ⟨d₁, d₂, h1, h2 | ⟨key, x, d₃, v, h2, hv, h3⟩⟩ := take_params d m
    · refine ⟨d₁, d₂, h1, Or.inl ?_⟩
      rw [saved_cut, h2]
      rfl
    · refine ⟨d₁, d₂, h1, Or.inr ⟨key, x, d₃, v, h2, hv, ?_⟩⟩
      rw [h3]
      unfold saved save_writes
      rw [List.flatMap_append, List.flatMap_cons, forget_writes]
      rfl

end Legwork.source
