import Verif.Lemmas.SnrAll
import Verif.Model.Verbose
import Verif.Spec.Verbose

/-!
# Printing
-/

namespace Legwork.source

open Legwork.Spec Legwork.snr
open PyM hiding bind

section

variable {H α β γ : Type}

theorem pyLift_bind (e : Except PyErr α) (f : α → Except PyErr β) :
    (PyM.lift (e >>= f) : PyM H β) = PyM.lift e >>= fun a => PyM.lift (f a) := by
  funext h
  rcases e with _ | _ <;> rfl

theorem pyBind_assoc (m : PyM H α) (f : α → PyM H β) (g : β → PyM H γ) :
    (m >>= f) >>= g = m >>= fun a => f a >>= g := by
  funext h
  rw [bind_run, bind_run, bind_run]
  rcases m h with ⟨_ | _, _⟩ <;> rfl

theorem pyLift_ok_bind (a : α) (f : α → PyM H β) : (PyM.lift (.ok a) : PyM H α) >>= f = f a := rfl

end

section

variable {α β : Type}

/-- Up to what it prints `v` is `m`. -/
def Erases (v : V α) (m : M α) : Prop := ∀ k, (v k).1 = (m k.heap).1 ∧ (v k).2.heap = (m k.heap).2

theorem Erases.quiet (m : M α) : Erases (quiet m) m := fun _ => ⟨rfl, rfl⟩

theorem Erases.lift (e : Except PyErr α) : Erases (PyM.lift e) (PyM.lift e) := fun _ => ⟨rfl, rfl⟩

theorem Erases.pure (a : α) : Erases (Pure.pure a) (Pure.pure a) := fun _ => ⟨rfl, rfl⟩

theorem Erases.bind {v : V α} {m : M α} {f : α → V β} {g : α → M β} (hv : Erases v m) (hf : ∀ a, Erases (f a) (g a)) :
    Erases (v >>= f) (m >>= g) := by
  intro k
  obtain ⟨h1, h2⟩ := hv k
  rw [bind_run, bind_run]
  rcases hvk : v k with ⟨e | a, k'⟩
  · rw [hvk] at h1 h2
    rcases hm : m k.heap with ⟨e' | a', h'⟩
    · rw [hm] at h1 h2
      cases h1
      exact ⟨rfl, h2⟩
    · rw [hm] at h1
      cases h1
  · rw [hvk] at h1 h2
    rcases hm : m k.heap with ⟨e' | a', h'⟩
    · rw [hm] at h1
      cases h1
    · rw [hm] at h1 h2
      cases h1
      subst h2
      exact hf a k'

theorem Erases.say {verbose : Bool} {line : String} {v : V α} {m : M α} (h : Erases v m) :
    Erases (source.say verbose line >>= fun _ => v) m := by
  intro k
  have := h (if verbose then { k with printed := k.printed ++ [line] } else k)
  rcases verbose with _ | _
  · exact this
  · exact this

/-- `v` prints nothing. -/
def Silent (v : V α) : Prop := ∀ k, (v k).2.printed = k.printed

theorem Silent.quiet (m : M α) : Silent (quiet m) := fun _ => rfl

theorem Silent.lift (e : Except PyErr α) : Silent (PyM.lift e) := fun _ => rfl

theorem Silent.pure (a : α) : Silent (Pure.pure a) := fun _ => rfl

theorem Silent.say (line : String) : Silent (source.say false line) := fun _ => rfl

theorem Silent.bind {v : V α} {f : α → V β} (hv : Silent v) (hf : ∀ a, Silent (f a)) : Silent (v >>= f) := by
  intro k
  have h1 := hv k
  rw [bind_run]
  rcases hvk : v k with ⟨e | a, k'⟩
  · rw [hvk] at h1
    exact h1
  · rw [hvk] at h1
    exact (hf a k').trans h1

/-- If it succeeds, `v` prints exactly these lines. -/
def Prints (v : V α) (lines : List String) : Prop := ∀ k a k', v k = (.ok a, k') → k'.printed = k.printed ++ lines

theorem Silent.prints {v : V α} (hv : Silent v) : Prints v [] := fun k a k' h => by
  have := hv k
  rw [h] at this
  rw [List.append_nil]
  exact this

theorem Prints.bind {v : V α} {f : α → V β} {l l' : List String} (hv : Prints v l) (hf : ∀ a, Prints (f a) l') :
    Prints (v >>= f) (l ++ l') := by
  intro k b k'' h
  obtain ⟨a, k', h1, h2⟩ := bind_eq_ok h
  rw [hf a k' b k'' h2, hv k a k' h1, List.append_assoc]

theorem Prints.say (line : String) : Prints (source.say true line) [line] := by
  intro k a k' h
  cases h
  rfl

end

/-! ### The same results -/

theorem circ_v_erases (verbose : Bool) (kind : String) (c_mask : List Bool) (run : Except PyErr (List (Option ℝ)))
    (acc : SnrState) : Erases (circ_v verbose kind c_mask run acc)
      (PyM.lift (if c_mask.any id then do
        let s ← run
        pure (np.assign c_mask acc.1 s, acc.2)
      else pure acc)) := by
  unfold circ_v
  split_ifs
  · rw [pyLift_bind]
    exact Erases.say ((Erases.lift _).bind fun a => Erases.pure _)
  · exact Erases.pure _

theorem ecc_v_erases (verbose : Bool) (kind : String) (c : Cols) (S : Settings) (e_mask : List Bool)
    (run : List Bool → ℕ → Except PyErr SnrOut) (acc : SnrState) :
    Erases (ecc_v verbose kind c S e_mask run acc) (PyM.lift (snr_groups c S e_mask run acc)) := by
  unfold ecc_v snr_groups
  split_ifs
  · exact Erases.say (Erases.lift _)
  · exact Erases.pure _

theorem calc_stationary_v_erases (verbose : Bool) (C : Ctx) (c : Cols) (S : Settings) (w : List Bool) :
    Erases (calc_stationary_v verbose C c S w) (PyM.lift (calc_stationary C c S w)) := by
  unfold calc_stationary_v calc_stationary snr_stationary_circ
  simp only [pyLift_bind, pyBind_assoc]
  refine (Erases.lift _).bind fun insp => (Erases.lift _).bind fun e_mask => (Erases.lift _).bind fun c_mask =>
    (Erases.lift _).bind fun os => ?_
  have h := circ_v_erases verbose "stationary" c_mask (do
      let srcs ← circ_srcs c c_mask os
      snr.snr_circ_stationary C srcs) (List.replicate c.n_sources (some 0), List.replicate c.n_sources 2)
  simp only [bind_assoc] at h
  exact h.bind fun acc => (ecc_v_erases _ _ _ _ _ _ _).bind fun _ => Erases.pure _

theorem calc_evolving_v_erases (verbose : Bool) (W : World) (C : Ctx) (c : Cols) (S : Settings) (n : ℕ) (w : List Bool) :
    Erases (calc_evolving_v verbose W C c S n w) (PyM.lift (calc_evolving W C c S n w)) := by
  unfold calc_evolving_v calc_evolving snr_evolving_circ
  simp only [pyLift_bind]
  refine (Erases.lift _).bind fun insp => (Erases.lift _).bind fun e_mask => (Erases.lift _).bind fun c_mask => ?_
  have h := circ_v_erases verbose "evolving" c_mask (do
      let t_merge ← merge_times c c_mask
      let srcs ← evol_srcs c c_mask true
      snr.snr_circ_evolving C srcs n t_merge) (List.replicate c.n_sources (some 0), List.replicate c.n_sources 2)
  simp only [bind_assoc] at h
  exact h.bind fun acc => (ecc_v_erases _ _ _ _ _ _ _).bind fun _ => Erases.pure _

theorem get_snr_stationary_v_erases (W : World) (s : ℕ) (a : SnrArgs) (verbose : Bool) (ws : Which) :
    Erases (get_snr_stationary_v W s a verbose ws) (get_snr_stationary W s a ws.mask) := by
  unfold get_snr_stationary_v get_snr_stationary
  refine (Erases.quiet _).bind fun a => (Erases.quiet _).bind fun src => (Erases.quiet _).bind fun S =>
    (Erases.lift _).bind fun C => (calc_stationary_v_erases _ _ _ _ _).bind fun x => ?_
  exact (Erases.quiet _).bind fun _ => Erases.lift _

theorem get_snr_evolving_v_erases (W : World) (s : ℕ) (a : SnrArgs) (n : ℕ) (verbose : Bool) (ws : Which) :
    Erases (get_snr_evolving_v W s a n verbose ws) (get_snr_evolving W s a n ws.mask) := by
  unfold get_snr_evolving_v get_snr_evolving
  refine (Erases.quiet _).bind fun a => (Erases.quiet _).bind fun src => (Erases.quiet _).bind fun S =>
    (Erases.lift _).bind fun C => (calc_evolving_v_erases _ _ _ _ _ _ _).bind fun x => ?_
  exact (Erases.quiet _).bind fun _ => Erases.lift _

theorem snr_part_v_erases {verbose : Bool} {kind : String} {mask : List Bool} {run : V (List (Option ℝ))}
    {run' : M (List (Option ℝ))} {x : List (Option ℝ)} (h : Erases run run') :
    Erases (snr_part_v verbose kind mask run x) (snr_part mask run' x) := by
  unfold snr_part_v snr_part
  split_ifs
  · exact Erases.say (h.bind fun _ => Erases.pure _)
  · exact Erases.pure _

theorem index_self (m : List Bool) : index m m = .ok (np.select m m) := by
  unfold index
  rw [if_pos rfl]
  rfl

/-- The first lines, where they can be printed. -/
theorem announce_erases {verbose : Bool} {c : Cols} {ws : Which} (hv : verbose = true → ∀ m, ws ≠ .list m) :
    Erases (announce verbose c ws) (Pure.pure ()) := by
  unfold announce
  split_ifs with hb
  · rcases ws with _ | m | m
    · rw [index_self]
      exact Erases.say (Erases.say (Erases.pure ()))
    · have : Which.chosen c.n_sources (.array m) = .ok (np.select m m).length := by
        unfold Which.chosen
        simp only [index_self]
        rfl
      rw [index_self, this]
      exact Erases.say (Erases.say (Erases.pure ()))
    · exact absurd rfl (hv hb m)
  · exact Erases.pure _

theorem Source_get_snr_v_erases {W : World} {s : ℕ} {a : SnrArgs} {n : ℕ} {verbose : Bool} {ws : Which}
    (hv : verbose = true → ∀ m, ws ≠ .list m) :
    Erases (Source_get_snr_v W s a n verbose ws) (Source_get_snr W s a n ws.mask) := by
  unfold Source_get_snr_v Source_get_snr
  refine (Erases.quiet _).bind fun a => (Erases.quiet _).bind fun src => ?_
  have h : ∀ (v : V ℕ) (m : M ℕ), Erases v m → Erases (announce verbose src.cols ws >>= fun _ => v) m := fun v m h =>
    (announce_erases hv).bind fun _ => h
  refine h _ _ ?_
  refine (Erases.quiet _).bind fun stat => (Erases.lift _).bind fun sm => (Erases.quiet _).bind fun evo =>
    (Erases.lift _).bind fun em => ?_
  exact (snr_part_v_erases (get_snr_stationary_v_erases W s a verbose (.array sm))).bind fun x =>
    (snr_part_v_erases (get_snr_evolving_v_erases W s a n verbose (.array em))).bind fun y => Erases.quiet _

theorem get_snr_v_erases {W : World} {s : ℕ} {a : SnrArgs} {n : ℕ} {verbose : Bool} {ws : Which}
    (hv : verbose = true → ∀ m, ws ≠ .list m) : Erases (get_snr_v W s a n verbose ws) (get_snr W s a n ws.mask) := by
  unfold get_snr_v get_snr
  refine (Erases.quiet _).bind fun src => ?_
  rcases src.cls with _ | _ | _ | _
  · exact Source_get_snr_v_erases hv
  · exact (get_snr_stationary_v_erases W s _ verbose .none).bind fun _ => Erases.quiet _
  · exact (get_snr_evolving_v_erases W s _ n verbose .none).bind fun _ => Erases.quiet _
  · exact Source_get_snr_v_erases hv

/-! ### Nothing printed without `verbose` -/

theorem circ_v_silent (kind : String) (c_mask : List Bool) (run : Except PyErr (List (Option ℝ))) (acc : SnrState) :
    Silent (circ_v false kind c_mask run acc) := by
  unfold circ_v
  split_ifs
  · exact (Silent.say _).bind fun _ => (Silent.lift _).bind fun _ => Silent.pure _
  · exact Silent.pure _

theorem ecc_v_silent (kind : String) (c : Cols) (S : Settings) (e_mask : List Bool)
    (run : List Bool → ℕ → Except PyErr SnrOut) (acc : SnrState) : Silent (ecc_v false kind c S e_mask run acc) := by
  unfold ecc_v
  split_ifs
  · exact (Silent.say _).bind fun _ => Silent.lift _
  · exact Silent.pure _

theorem get_snr_stationary_v_silent (W : World) (s : ℕ) (a : SnrArgs) (ws : Which) :
    Silent (get_snr_stationary_v W s a false ws) := by
  unfold get_snr_stationary_v calc_stationary_v
  exact (Silent.quiet _).bind fun _ => (Silent.quiet _).bind fun _ => (Silent.quiet _).bind fun _ => (Silent.lift _).bind fun _ =>
    ((Silent.lift _).bind fun _ => (Silent.lift _).bind fun _ => (Silent.lift _).bind fun _ => (Silent.lift _).bind fun _ =>
      (circ_v_silent _ _ _ _).bind fun _ => (ecc_v_silent _ _ _ _ _ _).bind fun _ => Silent.pure _).bind fun _ =>
    (Silent.quiet _).bind fun _ => Silent.lift _

theorem get_snr_evolving_v_silent (W : World) (s : ℕ) (a : SnrArgs) (n : ℕ) (ws : Which) :
    Silent (get_snr_evolving_v W s a n false ws) := by
  unfold get_snr_evolving_v calc_evolving_v
  exact (Silent.quiet _).bind fun _ => (Silent.quiet _).bind fun _ => (Silent.quiet _).bind fun _ => (Silent.lift _).bind fun _ =>
    ((Silent.lift _).bind fun _ => (Silent.lift _).bind fun _ => (Silent.lift _).bind fun _ =>
      (circ_v_silent _ _ _ _).bind fun _ => (ecc_v_silent _ _ _ _ _ _).bind fun _ => Silent.pure _).bind fun _ =>
    (Silent.quiet _).bind fun _ => Silent.lift _

theorem snr_part_v_silent {kind : String} {mask : List Bool} {run : V (List (Option ℝ))} {x : List (Option ℝ)}
    (h : Silent run) : Silent (snr_part_v false kind mask run x) := by
  unfold snr_part_v
  split_ifs
  · exact (Silent.say _).bind fun _ => h.bind fun _ => Silent.pure _
  · exact Silent.pure _

theorem Source_get_snr_v_silent (W : World) (s : ℕ) (a : SnrArgs) (n : ℕ) (ws : Which) :
    Silent (Source_get_snr_v W s a n false ws) := by
  unfold Source_get_snr_v announce
  exact (Silent.quiet _).bind fun _ => (Silent.quiet _).bind fun _ => (Silent.pure _).bind fun _ =>
    (Silent.quiet _).bind fun _ => (Silent.lift _).bind fun _ => (Silent.quiet _).bind fun _ => (Silent.lift _).bind fun _ =>
    (snr_part_v_silent (get_snr_stationary_v_silent W s _ _)).bind fun _ =>
    (snr_part_v_silent (get_snr_evolving_v_silent W s _ _ _)).bind fun _ => Silent.quiet _

theorem get_snr_v_silent (W : World) (s : ℕ) (a : SnrArgs) (n : ℕ) (ws : Which) : Silent (get_snr_v W s a n false ws) := by
  unfold get_snr_v
  refine (Silent.quiet _).bind fun src => ?_
  rcases src.cls with _ | _ | _ | _
  · exact Source_get_snr_v_silent W s a n ws
  · exact (get_snr_stationary_v_silent W s _ .none).bind fun _ => Silent.quiet _
  · exact (get_snr_evolving_v_silent W s _ n .none).bind fun _ => Silent.quiet _
  · exact Source_get_snr_v_silent W s a n ws

/-! ### What is printed -/

theorem select_count {α : Type} {m : List Bool} {xs : List α} (h : m.length = xs.length) :
    (np.select m xs).length = m.count true := by
  induction m generalizing xs with
  | nil =>
    rw [List.length_nil] at h
    rw [List.length_eq_zero_iff.1 h.symm]
    rfl
  | cons b m ih =>
    rcases xs with _ | ⟨x, xs⟩
    · cases h
    · have := ih (xs := xs) (by simpa using h)
      unfold np.select at this
      rcases b with _ | _ <;> simp [np.select, this]

theorem any_count {m : List Bool} : m.any id = true ↔ m.count true ≠ 0 := by
  rw [← Nat.pos_iff_ne_zero, List.count_pos_iff, List.any_eq_true]
  simp

open Classical in
theorem howMany_congr {c : Cols} {P Q : ℕ → One → Prop} (h : ∀ i < c.n_sources, P i (rowAt c i) ↔ Q i (rowAt c i)) :
    howMany c P = howMany c Q := by
  unfold howMany
  congr 1
  refine List.filter_congr fun i hi => ?_
  rw [decide_eq_decide]
  exact h i (List.mem_range.1 hi)

open Classical in
theorem count_howMany {c : Cols} {m : List Bool} (h : m.length = c.n_sources) :
    m.count true = howMany c fun i _ => m[i]? = some true := by
  have hm : m = (List.range c.n_sources).map fun i => decide (m[i]? = some true) := by
    refine List.ext_getElem (by simp [h]) fun i h1 h2 => ?_
    simp only [List.getElem_map, List.getElem_range]
    rw [List.getElem?_eq_getElem h1]
    rcases m[i] with _ | _ <;> simp
  unfold howMany
  conv_lhs => rw [hm]
  rw [List.count, List.countP_map, List.countP_eq_length_filter]
  congr 1
  refine List.filter_congr fun i _ => ?_
  simp

theorem items_of_row {c : Cols} {ws : Option (List Bool)} (hw : FitsMask c ws) {i : ℕ} (hi : i < c.n_sources) :
    ∃ b, (items c (which c.n_sources ws))[i]? = some (rowAt c i, b) ∧ (b = true ↔ Chosen ws i) := by
  have hl := which_length hw
  have hb := List.getElem?_eq_getElem (l := which c.n_sources ws) (i := i) (by rw [hl]; exact hi)
  refine ⟨_, by
    unfold items
    rw [List.getElem?_zip_eq_some]
    exact ⟨by simp [rows, hi], hb⟩, ?_⟩
  unfold Chosen
  rcases ws with _ | m
  · simp [which]
  · simp only [which] at hb ⊢
    simp [hb]

/-- Counting the sources a mask selects. -/
theorem count_items {c : Cols} {ws : Option (List Bool)} (hw : FitsMask c ws) {q : One × Bool → Bool} {P : ℕ → One → Prop}
    (hq : ∀ i b, (b = true ↔ Chosen ws i) → (q (rowAt c i, b) = true ↔ P i (rowAt c i))) :
    ((items c (which c.n_sources ws)).map q).count true = howMany c P := by
  rw [count_howMany (by rw [List.length_map, items_length (which_length hw)])]
  refine howMany_congr fun i hi => ?_
  obtain ⟨b, hb, hb'⟩ := items_of_row hw hi
  rw [List.getElem?_map, hb, Option.map_some, Option.some.injEq]
  exact hq i b hb'

theorem liftV_ok {α : Type} {e : Except PyErr α} {a : α} {k k' : Console} (h : (PyM.lift e : V α) k = (.ok a, k')) :
    e = .ok a ∧ k' = k := by
  obtain ⟨h1, h2⟩ := Prod.mk.inj h
  exact ⟨h1, h2.symm⟩

theorem circ_v_prints {kind : String} {c_mask : List Bool} {run : Except PyErr (List (Option ℝ))} {acc x : SnrState}
    {k k' : Console} (hl : c_mask.length = acc.1.length) (h : circ_v true kind c_mask run acc k = (.ok x, k')) :
    k'.printed = k.printed ++ lineIf (c_mask.count true) "\t\t" (" sources are " ++ kind ++ " and circular") ∧
      x.1.length = acc.1.length := by
  unfold circ_v at h
  unfold lineIf
  split_ifs at h with hc
  · rw [if_neg (any_count.1 hc)]
    obtain ⟨_u, k₁, h1, h2⟩ := bind_eq_ok h
    obtain ⟨s, k₂, h3, h4⟩ := bind_eq_ok h2
    cases h1
    obtain ⟨-, rfl⟩ := liftV_ok h3
    cases h4
    refine ⟨?_, np.assign_length _ _ _⟩
    simp [select_count hl, String.append_assoc]
  · rw [if_pos (by rw [any_count] at hc; simpa using hc)]
    cases h
    exact ⟨by simp, rfl⟩

theorem ecc_v_prints {kind : String} {c : Cols} {S : Settings} {e_mask : List Bool}
    {run : List Bool → ℕ → Except PyErr SnrOut} {acc x : SnrState} {k k' : Console} (hl : e_mask.length = acc.1.length)
    (h : ecc_v true kind c S e_mask run acc k = (.ok x, k')) :
    k'.printed = k.printed ++ lineIf (e_mask.count true) "\t\t" (" sources are " ++ kind ++ " and eccentric") := by
  unfold ecc_v at h
  unfold lineIf
  split_ifs at h with hc
  · rw [if_neg (any_count.1 hc)]
    obtain ⟨_u, k₁, h1, h2⟩ := bind_eq_ok h
    cases h1
    obtain ⟨-, rfl⟩ := liftV_ok h2
    simp [select_count hl, String.append_assoc]
  · rw [if_pos (by rw [any_count] at hc; simpa using hc)]
    cases h
    simp

theorem detail_masks {c : Cols} (hr : Rect c) {ws : Option (List Bool)} (hw : FitsMask c ws) (tol : ℝ) :
    ∃ e_mask c_mask, logical_and (ecc_above c.ecc tol) ((items c (which c.n_sources ws)).map live) = .ok e_mask ∧
      logical_and (ecc_below c.ecc tol) ((items c (which c.n_sources ws)).map live) = .ok c_mask ∧
      e_mask.length = c.n_sources ∧ c_mask.length = c.n_sources ∧
      c_mask.count true = howMany c (fun i r => Inspiralling ws i r ∧ r.ecc ≤ tol) ∧
      e_mask.count true = howMany c (fun i r => Inspiralling ws i r ∧ tol < r.ecc) := by
  have hwl := which_length hw
  rw [ecc_above_eq hr hwl, ecc_below_eq hr hwl, logical_and_map, logical_and_map]
  refine ⟨_, _, rfl, rfl, by simp [items_length hwl], by simp [items_length hwl], count_items hw fun i b hb => ?_,
    count_items hw fun i b hb => ?_⟩
  all_goals
    unfold live Inspiralling
    rw [← hb]
    simp
    tauto

theorem calc_stationary_v_prints {C : Ctx} {c : Cols} {S : Settings} {ws : Option (List Bool)} {k k' : Console} {x}
    (hr : Rect c) (hw : FitsMask c ws) (h : calc_stationary_v true C c S (which c.n_sources ws) k = (.ok x, k')) :
    k'.printed = k.printed ++ detailLines c "stationary" S.ecc_tol (Inspiralling ws) := by
  obtain ⟨e_mask, c_mask, h1, h2, h3, h4, h5, h6⟩ := detail_masks hr hw S.ecc_tol
  unfold calc_stationary_v at h
  rw [inspiralling_ok hr (which_length hw), pyLift_ok_bind, h1, pyLift_ok_bind, h2, pyLift_ok_bind] at h
  obtain ⟨os, k₁, g1, h⟩ := bind_eq_ok h
  obtain ⟨acc, k₂, g2, h⟩ := bind_eq_ok h
  obtain ⟨acc', k₃, g3, h⟩ := bind_eq_ok h
  cases h
  obtain ⟨-, rfl⟩ := liftV_ok g1
  obtain ⟨g4, g5⟩ := circ_v_prints (by simp [h4]) g2
  rw [ecc_v_prints (by rw [g5]; simp [h3]) g3, g4, h5, h6, List.append_assoc]
  rfl

theorem calc_evolving_v_prints {W : World} {C : Ctx} {c : Cols} {S : Settings} {n : ℕ} {ws : Option (List Bool)}
    {k k' : Console} {x} (hr : Rect c) (hw : FitsMask c ws)
    (h : calc_evolving_v true W C c S n (which c.n_sources ws) k = (.ok x, k')) :
    k'.printed = k.printed ++ detailLines c "evolving" S.ecc_tol (Inspiralling ws) := by
  obtain ⟨e_mask, c_mask, h1, h2, h3, h4, h5, h6⟩ := detail_masks hr hw S.ecc_tol
  unfold calc_evolving_v at h
  rw [inspiralling_ok hr (which_length hw), pyLift_ok_bind, h1, pyLift_ok_bind, h2, pyLift_ok_bind] at h
  obtain ⟨acc, k₂, g2, h⟩ := bind_eq_ok h
  obtain ⟨acc', k₃, g3, h⟩ := bind_eq_ok h
  cases h
  obtain ⟨g4, g5⟩ := circ_v_prints (by simp [h4]) g2
  rw [ecc_v_prints (by rw [g5]; simp [h3]) g3, g4, h5, h6, List.append_assoc]
  rfl

theorem quiet_ok {α : Type} {m : M α} {k k' : Console} {a : α} (h : quiet m k = (.ok a, k')) :
    m k.heap = (.ok a, k'.heap) ∧ k'.printed = k.printed := by
  unfold quiet at h
  obtain ⟨h1, h2⟩ := Prod.mk.inj h
  rw [← h2]
  exact ⟨Prod.ext h1 rfl, rfl⟩

theorem get_snr_stationary_v_prints {W : World} {s : ℕ} {a : SnrArgs} {ws : Which} {k k' : Console} {vs : List (Option ℝ)}
    (hr : Rect (k.heap.src s).cols) (hw : FitsMask (k.heap.src s).cols ws.mask)
    (h : get_snr_stationary_v W s a true ws k = (.ok vs, k')) :
    ∃ tol, (k.heap.src s).ecc_tol = some tol ∧
      k'.printed = k.printed ++ detailLines (k.heap.src s).cols "stationary" tol (Inspiralling ws.mask) := by
  unfold get_snr_stationary_v at h
  obtain ⟨f, k₁, g1, h⟩ := bind_eq_ok h
  obtain ⟨src, k₂, g2, h⟩ := bind_eq_ok h
  obtain ⟨S, k₃, g3, h⟩ := bind_eq_ok h
  obtain ⟨C, k₄, g4, h⟩ := bind_eq_ok h
  obtain ⟨x, k₅, g5, h⟩ := bind_eq_ok h
  obtain ⟨_u, k₆, g6, h⟩ := bind_eq_ok h
  obtain ⟨-, rfl⟩ := liftV_ok h
  obtain ⟨g1, p1⟩ := quiet_ok g1
  obtain ⟨g2, p2⟩ := quiet_ok g2
  obtain ⟨g3, p3⟩ := quiet_ok g3
  obtain ⟨-, rfl⟩ := liftV_ok g4
  obtain ⟨-, p6⟩ := quiet_ok g6
  obtain ⟨rfl, e2⟩ := getSrc_ok_iff.1 g2
  obtain ⟨hS, e3⟩ := getSettings_ok_iff.1 g3
  have hc := match_params_cols g1
  have hsc := match_params_scOnly g1
  rw [e2] at hS
  have hS' := hsc.hasSettings.1 hS
  refine ⟨S.ecc_tol, hS'.1, ?_⟩
  rw [hc] at g5
  rw [p6, calc_stationary_v_prints hr hw g5, p3, p2, p1]

theorem get_snr_evolving_v_prints {W : World} {s : ℕ} {a : SnrArgs} {n : ℕ} {ws : Which} {k k' : Console}
    {vs : List (Option ℝ)} (hr : Rect (k.heap.src s).cols) (hw : FitsMask (k.heap.src s).cols ws.mask)
    (h : get_snr_evolving_v W s a n true ws k = (.ok vs, k')) :
    ∃ tol, (k.heap.src s).ecc_tol = some tol ∧
      k'.printed = k.printed ++ detailLines (k.heap.src s).cols "evolving" tol (Inspiralling ws.mask) := by
  unfold get_snr_evolving_v at h
  obtain ⟨f, k₁, g1, h⟩ := bind_eq_ok h
  obtain ⟨src, k₂, g2, h⟩ := bind_eq_ok h
  obtain ⟨S, k₃, g3, h⟩ := bind_eq_ok h
  obtain ⟨C, k₄, g4, h⟩ := bind_eq_ok h
  obtain ⟨x, k₅, g5, h⟩ := bind_eq_ok h
  obtain ⟨_u, k₆, g6, h⟩ := bind_eq_ok h
  obtain ⟨-, rfl⟩ := liftV_ok h
  obtain ⟨g1, p1⟩ := quiet_ok g1
  obtain ⟨g2, p2⟩ := quiet_ok g2
  obtain ⟨g3, p3⟩ := quiet_ok g3
  obtain ⟨-, rfl⟩ := liftV_ok g4
  obtain ⟨-, p6⟩ := quiet_ok g6
  obtain ⟨rfl, e2⟩ := getSrc_ok_iff.1 g2
  obtain ⟨hS, e3⟩ := getSettings_ok_iff.1 g3
  have hc := match_params_cols g1
  have hsc := match_params_scOnly g1
  rw [e2] at hS
  have hS' := hsc.hasSettings.1 hS
  refine ⟨S.ecc_tol, hS'.1, ?_⟩
  rw [hc] at g5
  rw [p6, calc_evolving_v_prints hr hw g5, p3, p2, p1]

theorem snr_part_v_prints {kind : String} {mask : List Bool} {run : V (List (Option ℝ))} {x y : List (Option ℝ)}
    {lines : List String} {k k' : Console} (hl : mask.length = x.length)
    (hp : mask.any id = true → ∀ k₀ vs, k₀.heap = k.heap → run k₀ = (.ok vs, k') → k'.printed = k₀.printed ++ lines)
    (hn : mask.any id = false → lines = [])
    (h : snr_part_v true kind mask run x k = (.ok y, k')) :
    k'.printed = k.printed ++ lineIf (mask.count true) "\t" (" sources are " ++ kind) ++ lines ∧ y.length = x.length := by
  unfold snr_part_v at h
  unfold lineIf
  split_ifs at h with hc
  · rw [if_neg (any_count.1 hc)]
    obtain ⟨_u, k₁, h1, h2⟩ := bind_eq_ok h
    obtain ⟨s, k₂, h3, h4⟩ := bind_eq_ok h2
    cases h4
    cases h1
    refine ⟨?_, np.assign_length _ _ _⟩
    rw [hp hc _ _ (by rfl) h3]
    simp [select_count hl, String.append_assoc]
  · rw [if_pos (by rw [any_count] at hc; simpa using hc), hn (by simpa using hc)]
    cases h
    exact ⟨by simp, rfl⟩

theorem howMany_zero {c : Cols} {P Q : ℕ → One → Prop} (h : howMany c P = 0) (hPQ : ∀ i r, Q i r → P i r) :
    howMany c Q = 0 := by
  unfold howMany at h ⊢
  rw [List.length_eq_zero_iff, List.filter_eq_nil_iff] at h ⊢
  intro i hi hq
  exact h i hi (by simpa using hPQ _ _ (by simpa using hq))

theorem detail_nil {c : Cols} {kind : String} {tol : ℝ} {P : ℕ → One → Prop} (h : howMany c P = 0) :
    detailLines c kind tol P = [] := by
  unfold detailLines lineIf
  rw [if_pos (howMany_zero h fun i r h => h.1), if_pos (howMany_zero h fun i r h => h.1)]
  rfl

theorem detail_congr {c : Cols} {kind : String} {tol : ℝ} {P Q : ℕ → One → Prop}
    (h : ∀ i < c.n_sources, P i (rowAt c i) ↔ Q i (rowAt c i)) : detailLines c kind tol P = detailLines c kind tol Q := by
  unfold detailLines
  rw [howMany_congr (P := fun i r => P i r ∧ r.ecc ≤ tol) (Q := fun i r => Q i r ∧ r.ecc ≤ tol) fun i hi => by rw [h i hi],
    howMany_congr (P := fun i r => P i r ∧ tol < r.ecc) (Q := fun i r => Q i r ∧ tol < r.ecc) fun i hi => by rw [h i hi]]

theorem announce_prints {c : Cols} {ws : Which} (hl : ∀ m, ws ≠ .list m) (hr : Rect c) (hw : FitsMask c ws.mask)
    {k k' : Console} (h : announce true c ws k = (.ok (), k')) : k'.heap = k.heap ∧
    k'.printed = k.printed ++ ["Calculating SNR for " ++ toString (howMany c fun i _ => Chosen ws.mask i) ++ " sources",
      "\t" ++ toString (howMany c fun _ r => r.merged = true) ++ " sources have already merged"] := by
  have h1 : ws.chosen c.n_sources = .ok (howMany c fun i _ => Chosen ws.mask i) := by
    have h2 : howMany c (fun i _ => Chosen ws.mask i) = (which c.n_sources ws.mask).count true := by
      rw [count_howMany (which_length hw)]
      refine howMany_congr fun i hi => ?_
      unfold Chosen
      rcases ws.mask with _ | m
      · simp [which, hi]
      · simp [which]
    rw [h2]
    rcases ws with _ | m | m
    · simp [Which.chosen, which, Which.mask]
      rfl
    · unfold Which.chosen
      simp only [index_self]
      rw [ok_bind, select_count rfl]
      rfl
    · exact absurd rfl (hl m)
  have h3 : (np.select c.merged c.merged).length = howMany c fun _ r => r.merged = true := by
    have hm : c.merged.length = c.n_sources := by
      conv_lhs => rw [hr.col_merged]
      rw [List.length_map, rows_length]
    rw [select_count rfl, count_howMany hm]
    refine howMany_congr fun i hi => ?_
    conv_lhs => rw [hr.col_merged]
    simp [rows, hi]
  unfold announce at h
  rw [if_pos rfl, h1, index_self] at h
  cases h
  refine ⟨rfl, ?_⟩
  simp [h3]

/-- The number of sources a list of two masks selects. -/
theorem chosen_map {c : Cols} {ws : Option (List Bool)} (hw : FitsMask c ws) {q : One × Bool → Bool} {P : ℕ → One → Prop}
    (hq : ∀ i b, (b = true ↔ Chosen ws i) → (q (rowAt c i, b) = true ↔ P i (rowAt c i))) {i : ℕ} (hi : i < c.n_sources) :
    Chosen (some ((items c (which c.n_sources ws)).map q)) i ↔ P i (rowAt c i) := by
  obtain ⟨b, hb, hb'⟩ := items_of_row hw hi
  rw [← hq i b hb']
  unfold Chosen
  simp [hb]

end Legwork.source
