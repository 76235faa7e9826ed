import Verif.Lemmas.Index
import Verif.Lemmas.SnrExists

/-!
# Two source objects with the same settings

A collection and a part of it made by indexing have the same settings, and so their calculations agree source by source.
-/

namespace Legwork.source

open Legwork.Spec Legwork.snr
open PyM hiding bind

variable {W : World} {s t n : ℕ} {h k : Heap} {js : List ℕ}

/-- Objects with the same settings and parameters of their own. -/
structure Twin (h : Heap) (s : ℕ) (k : Heap) (t : ℕ) : Prop where
  settings : SameSettings h s k t
  own : Owned h s
  own' : Owned k t

theorem fill_args_congr {d d' : Dict} (h : d.eq d') (a : SnrArgs) : fill_args d a = fill_args d' a := by
  unfold fill_args orParam Dict.item
  simp only [h _]

theorem update_congr {d d' : Dict} (h : d.eq d') (kvs : Dict) : (d.update kvs).eq (d'.update kvs) := by
  unfold Dict.update
  induction kvs generalizing d d' with
  | nil => exact h
  | cons kv kvs ih =>
    refine ih fun key => ?_
    rw [Dict.get?_set, Dict.get?_set, h key]

theorem Dict.get_congr {d d' : Dict} (h : d.eq d') (key : String) : d.get key = d'.get key := by
  unfold Dict.get
  rw [h key]

/-- The parameters of twins. -/
theorem Twin.params (hT : Twin h s k t) {p : ℕ} (hp : (h.src s).sc_params = some p) :
    ∃ q, (k.src t).sc_params = some q ∧ (k.par q).dict.eq (h.par p).dict := by
  have := hT.settings.params
  unfold paramValues at this
  rw [hp] at this
  rcases hq : (k.src t).sc_params with _ | q
  · rw [hq] at this
    cases this
  · rw [hq] at this
    exact ⟨q, rfl, fun key => congrFun (Option.some.inj this) key⟩

/-- The effect of changing dictionary and curve on twins. -/
theorem Twin.set {h₁ k₁ : Heap} (hT : Twin h s k t) {p q : ℕ} (hp : (h.src s).sc_params = some p)
    (hq : (k.src t).sc_params = some q) {c : Option (ℝ → WithTop ℝ)} {d d' : Dict} (hd : d'.eq d)
    (hk : KeysOk d) (hk' : KeysOk d')
    (hs : h₁.src s = { h.src s with sc := c }) (ht : k₁.src t = { k.src t with sc := c })
    (h1 : h₁.par p = ⟨d, some s⟩) (h2 : k₁.par q = ⟨d', some t⟩) (h3 : h.next ≤ h₁.next) (h4 : k.next ≤ k₁.next) :
    Twin h₁ s k₁ t := by
  have hS := hT.settings
  refine ⟨⟨?_, ?_, ?_, ?_, ?_, ?_, ?_, ?_, ?_, ?_, ?_⟩, ?_, ?_⟩
  all_goals try rw [hs, ht]
  · exact hS.cls
  · exact hS.stat_tol
  · exact hS.n_proc
  · exact hS.gw_lum_tol
  · exact hS.harmonics_required
  · exact hS.max_strain_harmonic
  · exact hS.ecc_tol
  · exact hS.interpolate_sc
  · exact hS.g
  · unfold paramValues
    rw [hs, ht]
    simp only [hp, hq, Option.map_some, h1, h2]
    exact congrArg some (funext hd)
  · intro p' hp'
    rw [hs] at hp'
    rw [hp] at hp'
    cases hp'
    rw [h1]
    exact ⟨(hT.own p hp).1.trans_le h3, rfl, hk⟩
  · intro p' hp'
    rw [ht] at hp'
    rw [hq] at hp'
    cases hp'
    rw [h2]
    exact ⟨(hT.own' q hq).1.trans_le h4, rfl, hk'⟩

/-- Matching parameters on twins. -/
theorem Twin.match_params (hT : Twin h s k t) {a f : SnrArgs} {b : Bool} {h₁ : Heap}
    (hm : match_params W s a b h = (.ok f, h₁)) : ∃ k₁, match_params W t a b k = (.ok f, k₁) ∧ Twin h₁ s k₁ t := by
  obtain ⟨p, f₀, hp, hf, hff, hu⟩ := match_params_ok hm
  obtain ⟨q, hq, hd⟩ := hT.params hp
  obtain ⟨-, hps, hk⟩ := hT.own p hp
  obtain ⟨-, hqs, hk'⟩ := hT.own' q hq
  have hpu : ∃ k₁, params_update W q f.toDict k = (.ok (), k₁) ∧ Twin h₁ s k₁ t := by
    have hK := hk.update (toDict_keys f)
    have hK' := hk'.update (toDict_keys f)
    have hD := update_congr hd f.toDict
    have hpar : h.par p = ⟨(h.par p).dict, some s⟩ := by rw [← hps]
    have hqar : k.par q = ⟨(k.par q).dict, some t⟩ := by rw [← hqs]
    rcases params_update_run W q f.toDict k with ⟨⟨key, hk, hk'⟩, -⟩ | ⟨-, hsame, hr⟩ | ⟨-, ⟨kv, hkv, hne⟩, hr⟩
    · exact absurd (toDict_keys f key hk) hk'
    · rcases params_update_run W p f.toDict h with ⟨⟨key, hk, hk'⟩, -⟩ | ⟨-, -, hr'⟩ | ⟨-, ⟨kv, hkv, hne⟩, -⟩
      · exact absurd (toDict_keys f key hk) hk'
      · rw [hu] at hr'
        obtain ⟨-, rfl⟩ := Prod.mk.inj hr'
        refine ⟨_, hr, hT.set hp hq (c := (h.src s).sc) hD hK hK' rfl ?_ ?_ ?_ le_rfl le_rfl⟩
        · rw [← hT.settings.sc]
          rfl
        · simp only [setPar_par, Function.update_self]
          rw [hps]
          rfl
        · simp only [setPar_par, Function.update_self]
          rw [hqs]
          rfl
      · rw [← Dict.get_congr hd, hsame kv hkv] at hne
        exact absurd rfl hne
    · rcases params_update_run W p f.toDict h with ⟨⟨key, hk, hk'⟩, -⟩ | ⟨-, hsame, -⟩ | ⟨-, -, hr'⟩
      · exact absurd (toDict_keys f key hk) hk'
      · rw [Dict.get_congr hd, hsame kv hkv] at hne
        exact absurd rfl hne
      · rw [hu, re_interpolate_run] at hr'
        rw [hr, re_interpolate_run]
        simp only [setPar_par, Function.update_self, hps, hqs] at hr' ⊢
        rw [set_sc_run] at hr' ⊢
        simp only [setPar_src, hp, hq, setPar_par, Function.update_self] at hr' ⊢
        rw [hT.settings.interpolate_sc]
        split_ifs at hr' ⊢ with hi
        · have hcur : curve W ((k.par q).dict.update f.toDict.ofPairs) = curve W ((h.par p).dict.update f.toDict.ofPairs) :=
            curve_congr W hD
          rw [hcur]
          rcases hc : curve W ((h.par p).dict.update f.toDict.ofPairs) with e | c
          · rw [hc] at hr'
            cases hr'
          · rw [hc] at hr'
            obtain ⟨-, rfl⟩ := Prod.mk.inj hr'
            refine ⟨_, rfl, hT.set hp hq (c := some c) hD hK hK' ?_ ?_ ?_ ?_ le_rfl le_rfl⟩
            · simp [hp]
            · simp [hq, hT.settings.interpolate_sc]
            · exact Function.update_self ..
            · exact Function.update_self ..
        · obtain ⟨-, rfl⟩ := Prod.mk.inj hr'
          refine ⟨_, rfl, hT.set hp hq (c := none) hD hK hK' ?_ ?_ ?_ ?_ le_rfl le_rfl⟩
          · simp [hp]
          · simp [hq, hT.settings.interpolate_sc]
          · exact Function.update_self ..
          · exact Function.update_self ..
  obtain ⟨k₁, hku, hT₁⟩ := hpu
  refine ⟨k₁, ?_, hT₁⟩
  unfold source.match_params getSrcPar
  rw [bind_run, bind_run]
  simp only [getSrc, hq, attr, pure_run]
  rw [bind_run]
  simp only [getPar]
  rw [bind_run, lift_run, fill_args_congr hd, hf]
  simp only
  rw [← hff, bind_run, hku]
  rfl

theorem Twin.hasSettings (hT : Twin h s k t) {S : Settings} (hS : HasSettings (h.src s) S) : HasSettings (k.src t) S :=
  ⟨hT.settings.ecc_tol.trans hS.1, hT.settings.harmonics_required.trans hS.2.1, hT.settings.n_proc.trans hS.2.2⟩

theorem Twin.ctxOf (hT : Twin h s k t) (f : SnrArgs) : ctxOf W (k.src t) f = ctxOf W (h.src s) f := by
  unfold source.ctxOf
  rw [hT.settings.g, hT.settings.sc]

theorem maskTime_congr {d d' : Dict} (hd : d'.eq d) {x : PVal} {T : ℝ} (h : MaskTime d x T) : MaskTime d' x T := by
  unfold MaskTime at h ⊢
  simpa only [hd _] using h

/-! ### Sources of a part -/

theorem getD_entries {α : Type} (d : α) {js : List ℕ} {xs : List α} {i j : ℕ} (h : js[i]? = some j) :
    (entries d js xs).getD i d = xs.getD j d := by
  unfold entries
  rw [List.getD_eq_getElem?_getD, List.getElem?_map, h]
  rfl

theorem rowAt_colsAt {c : Cols} {i j : ℕ} (h : js[i]? = some j) : rowAt (colsAt js c) i = rowAt c j := by
  unfold rowAt colsAt
  simp only [getD_entries _ h, Option.map_map, Function.comp_def]

theorem colsAt_n (c : Cols) (js : List ℕ) : (colsAt js c).n_sources = js.length := by
  simp [Cols.n_sources, colsAt, entries]

theorem rows_colsAt (c : Cols) (js : List ℕ) : rows (colsAt js c) = js.map (rowAt c) := by
  refine List.ext_getElem? fun i => ?_
  rw [rows_get?, colsAt_n, List.getElem?_map]
  by_cases hi : i < js.length
  · rw [if_pos hi, List.getElem?_eq_getElem hi]
    simp only [Option.map_some, Option.some.injEq]
    exact rowAt_colsAt (List.getElem?_eq_getElem hi)
  · rw [if_neg hi, List.getElem?_eq_none (by omega)]
    rfl

theorem items_colsAt (c : Cols) (js : List ℕ) (w : List Bool) :
    items (colsAt js c) (entries false js w) = js.map fun j => (rowAt c j, w.getD j false) := by
  unfold items entries
  rw [rows_colsAt, List.zip_map']

theorem items_at {c : Cols} {w : List Bool} (hw : w.length = c.n_sources) {j : ℕ} (hj : j < c.n_sources) :
    (items c w)[j]? = some (rowAt c j, w.getD j false) := by
  unfold items
  rw [List.getElem?_zip_eq_some, rows_get?, if_pos hj]
  refine ⟨rfl, ?_⟩
  rw [List.getD_eq_getElem?_getD, List.getElem?_eq_getElem (by omega)]
  rfl

/-- Calculations on a part. -/
theorem mapM_entries {α β : Type} {f : α → Except PyErr β} {l : List α} {bs : List β} (h : l.mapM f = .ok bs) (d : β)
    {g : ℕ → α} {js : List ℕ} (hg : ∀ j ∈ js, l[j]? = some (g j)) :
    (js.map g).mapM f = .ok (entries d js bs) := by
  unfold entries
  induction js with
  | nil => rfl
  | cons j js ih =>
    rw [List.map_cons, List.map_cons, mapM_cons_ok]
    obtain ⟨b, hb, hfb⟩ := mapM_at h (hg j (by simp))
    refine ⟨b, _, hfb, ih fun i hi => hg i (by simp [hi]), ?_⟩
    rw [List.getD_eq_getElem?_getD, hb]
    rfl

theorem entries_map {α β : Type} (d : α) (js : List ℕ) (f : α → β) (xs : List α) :
    entries (f d) js (xs.map f) = (entries d js xs).map f := by
  unfold entries
  rw [List.map_map]
  refine List.map_congr_left fun j _ => ?_
  simp [List.getD_eq_getElem?_getD, Option.getD_map]

theorem entries_length {α : Type} (d : α) (js : List ℕ) (xs : List α) : (entries d js xs).length = js.length := by
  simp [entries]

theorem entries_get? {α : Type} (d : α) {js : List ℕ} {xs : List α} (i : ℕ) :
    (entries d js xs)[i]? = js[i]?.map fun j => xs.getD j d := by
  unfold entries
  rw [List.getElem?_map]

theorem selects_lt {n : ℕ} {ind : Index} (h : Selects n ind js) : ∀ j ∈ js, j < n := by
  obtain ⟨m, -, hm⟩ := to_mask_selects h
  exact hm.1

end Legwork.source
