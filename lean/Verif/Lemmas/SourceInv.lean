import Verif.Lemmas.SourceOps

/-!
# The invariants of reachable heaps
-/

namespace Legwork.source

open Legwork.Spec
open PyM hiding bind

/-! ### Calls that only touch parameters and curves -/

/-- Only parameters and curves differ. -/
structure ScOnly (h h' : Heap) : Prop where
  src : ∀ s, ∃ sc p, h'.src s = { h.src s with sc := sc, sc_params := p }
  next : h.next ≤ h'.next
  snrs : h'.snrs = h.snrs
  harms : h'.harms = h.harms

theorem ScOnly.refl (h : Heap) : ScOnly h h := ⟨fun _ => ⟨_, _, rfl⟩, le_rfl, rfl, rfl⟩

theorem ScOnly.trans {h h' h'' : Heap} (a : ScOnly h h') (b : ScOnly h' h'') : ScOnly h h'' := by
  refine ⟨fun s => ?_, a.next.trans b.next, b.snrs.trans a.snrs, b.harms.trans a.harms⟩
  obtain ⟨sc, p, h1⟩ := a.src s
  obtain ⟨sc', p', h2⟩ := b.src s
  exact ⟨sc', p', by rw [h2, h1]⟩

theorem ScOnly.setSrc {h : Heap} {s : ℕ} {x : Src} (hx : ∃ sc p, x = { h.src s with sc := sc, sc_params := p }) :
    ScOnly h (h.setSrc s x) := by
  refine ⟨fun s' => ?_, le_rfl, rfl, rfl⟩
  by_cases he : s' = s
  · subst he; simpa using hx
  · rw [setSrc_src, Function.update_of_ne he]; exact ⟨_, _, rfl⟩

theorem set_sc_scOnly (W : World) (s : ℕ) (h : Heap) : ScOnly h (set_sc W s h).2 := by
  rw [set_sc_run]
  split_ifs
  · rcases (h.src s).sc_params with _ | p
    · exact ScOnly.refl h
    · simp only
      rcases curve W (h.par p).dict with e | c
      · exact ⟨fun _ => ⟨_, _, rfl⟩, le_rfl, rfl, rfl⟩
      · refine ScOnly.trans (h' := h.log (.interpolated s)) ⟨fun _ => ⟨_, _, rfl⟩, le_rfl, rfl, rfl⟩ ?_
        exact ScOnly.setSrc ⟨_, _, rfl⟩
  · exact ScOnly.setSrc ⟨_, _, rfl⟩

theorem re_interpolate_scOnly (W : World) (p : ℕ) (h : Heap) : ScOnly h (re_interpolate W p h).2 := by
  rw [re_interpolate_run]
  rcases (h.par p).source with _ | s
  · exact ScOnly.refl h
  · exact set_sc_scOnly W s h

theorem setPar_scOnly (h : Heap) (p : ℕ) (x : Params) : ScOnly h (h.setPar p x) :=
  ⟨fun _ => ⟨_, _, rfl⟩, le_rfl, rfl, rfl⟩

/-- Item assignment, step by step. -/
theorem params_setitem_run (W : World) (p : ℕ) (key : String) (v : PVal) (h : Heap) :
    (key ∉ scKeys ∧ params_setitem W p key v h = (.error .KeyError, h)) ∨
    (key ∈ scKeys ∧ (h.par p).dict.get key = v ∧
      params_setitem W p key v h = (.ok (), h.setPar p { h.par p with dict := (h.par p).dict.set key v })) ∨
    (key ∈ scKeys ∧ (h.par p).dict.get key ≠ v ∧ params_setitem W p key v h =
      re_interpolate W p (h.setPar p { h.par p with dict := (h.par p).dict.set key v })) := by
  unfold params_setitem
  rw [bind_run]
  simp only [lift_run]
  rcases check_keys_cases [key] with hk | hk
  · have hk' := (check_keys_ok_iff _).1 hk key (by simp)
    rw [hk]
    simp only
    rw [bind_run]
    simp only [getPar]
    rw [bind_run]
    simp only [modPar, modify_run]
    unfold re_interpolate_if
    right
    split_ifs with hc
    · exact Or.inr ⟨hk', hc, rfl⟩
    · exact Or.inl ⟨hk', by simpa using hc, rfl⟩
  · left
    refine ⟨?_, ?_⟩
    · intro hmem
      have := (check_keys_ok_iff [key]).2 (by simpa using hmem)
      rw [this] at hk
      cases hk
    · rw [hk]

/-- An update, step by step. -/
theorem params_update_run (W : World) (p : ℕ) (kvs : Dict) (h : Heap) :
    ((∃ key ∈ kvs.ofPairs.keys, key ∉ scKeys) ∧ params_update W p kvs h = (.error .KeyError, h)) ∨
    ((∀ key ∈ kvs.ofPairs.keys, key ∈ scKeys) ∧ (∀ kv ∈ kvs.ofPairs, (h.par p).dict.get kv.1 = kv.2) ∧
      params_update W p kvs h = (.ok (), h.setPar p { h.par p with dict := (h.par p).dict.update kvs.ofPairs })) ∨
    ((∀ key ∈ kvs.ofPairs.keys, key ∈ scKeys) ∧ (∃ kv ∈ kvs.ofPairs, (h.par p).dict.get kv.1 ≠ kv.2) ∧
      params_update W p kvs h =
        re_interpolate W p (h.setPar p { h.par p with dict := (h.par p).dict.update kvs.ofPairs })) := by
  unfold params_update
  rw [bind_run]
  simp only [lift_run]
  generalize Dict.ofPairs kvs = new
  rcases check_keys_cases new.keys with hk | hk
  · have hk' := (check_keys_ok_iff _).1 hk
    rw [hk]
    simp only
    rw [bind_run]
    simp only [getPar]
    rw [bind_run]
    simp only [modPar, modify_run]
    unfold re_interpolate_if
    right
    split_ifs with hc
    · exact Or.inr ⟨hk', hc, rfl⟩
    · push Not at hc
      exact Or.inl ⟨hk', hc, rfl⟩
  · left
    refine ⟨?_, ?_⟩
    · by_contra hno
      push Not at hno
      have := (check_keys_ok_iff new.keys).2 hno
      rw [this] at hk
      cases hk
    · rw [hk]

theorem params_setitem_scOnly (W : World) (p : ℕ) (key : String) (v : PVal) (h : Heap) :
    ScOnly h (params_setitem W p key v h).2 := by
  rcases params_setitem_run W p key v h with ⟨-, hr⟩ | ⟨-, -, hr⟩ | ⟨-, -, hr⟩ <;> rw [hr]
  · exact ScOnly.refl h
  · exact setPar_scOnly h p _
  · exact (setPar_scOnly h p _).trans (re_interpolate_scOnly W p _)

theorem params_update_scOnly (W : World) (p : ℕ) (kvs : Dict) (h : Heap) : ScOnly h (params_update W p kvs h).2 := by
  rcases params_update_run W p kvs h with ⟨-, hr⟩ | ⟨-, -, hr⟩ | ⟨-, -, hr⟩ <;> rw [hr]
  · exact ScOnly.refl h
  · exact setPar_scOnly h p _
  · exact (setPar_scOnly h p _).trans (re_interpolate_scOnly W p _)

theorem new_params_scOnly (d : Option Dict) (s : Option ℕ) (h : Heap) : ScOnly h (new_params d s h).2 := by
  rw [new_params_run]
  rcases filled_params d with e | d
  · exact ScOnly.refl h
  · exact ⟨fun _ => ⟨_, _, rfl⟩, Nat.le_succ _, rfl, rfl⟩

theorem set_sc_params_scOnly (W : World) (s : ℕ) (d : Option Dict) (h : Heap) :
    ScOnly h (set_sc_params W s d h).2 := by
  rcases set_sc_params_run W s d h with ⟨e, -, hr⟩ | ⟨d, h₁, -, hh, hr⟩
  · rw [hr]; exact ScOnly.refl h
  · have h1 : ScOnly h h₁ := by
      rw [hh]
      refine ScOnly.trans (h' := (h.setPar h.next ⟨d, some s⟩).bump)
        ⟨fun _ => ⟨_, _, rfl⟩, Nat.le_succ _, rfl, rfl⟩ ?_
      exact ScOnly.setSrc ⟨_, _, rfl⟩
    rcases hr with hr | ⟨hr, -⟩
    · rw [hr]; exact h1.trans (set_sc_scOnly W s h₁)
    · rw [hr]; exact h1

/-! ### The tolerance invariant -/

/-- Everything derived from `gw_lum_tol` is up to date. -/
def TolInv (W : World) (h : Heap) : Prop :=
  ∀ s tol, (h.src s).gw_lum_tol = some tol →
    (h.src s).harmonics_required = some (harmonics_required W.table tol) ∧
    (h.src s).max_strain_harmonic = some (max_strain_harmonic W.table tol) ∧
    ∀ e, find_eccentric_transition tol = .ok e → (h.src s).ecc_tol = some e

/-- What the tolerance invariant looks at in a source. -/
def SameTol (x y : Src) : Prop :=
  x.gw_lum_tol = y.gw_lum_tol ∧ x.harmonics_required = y.harmonics_required ∧
  x.max_strain_harmonic = y.max_strain_harmonic ∧ x.ecc_tol = y.ecc_tol

theorem TolInv.frame {W : World} {h h' : Heap} (hi : TolInv W h) (hs : ∀ s, SameTol (h'.src s) (h.src s)) :
    TolInv W h' := by
  intro s tol ht
  obtain ⟨e1, e2, e3, e4⟩ := hs s
  rw [e1] at ht
  rw [e2, e3, e4]
  exact hi s tol ht

theorem TolInv.modSrc {W : World} {s : ℕ} {f : Src → Src} (hf : ∀ x, SameTol (f x) x) :
    Preserves (TolInv W) (modSrc s f) := by
  intro h hi
  refine hi.frame fun s' => ?_
  change SameTol (Function.update h.src s (f (h.src s)) s') (h.src s')
  by_cases he : s' = s
  · subst he; rw [Function.update_self]; exact hf _
  · rw [Function.update_of_ne he]; exact ⟨rfl, rfl, rfl, rfl⟩

theorem TolInv.scOnly {W : World} {h h' : Heap} (hi : TolInv W h) (ho : ScOnly h h') : TolInv W h' := by
  refine hi.frame fun s => ?_
  obtain ⟨sc, p, he⟩ := ho.src s
  rw [he]
  exact ⟨rfl, rfl, rfl, rfl⟩

theorem TolInv.newSrc {W : World} {x : Src} {h : Heap} (hi : TolInv W h)
    (hx : ∀ tol, x.gw_lum_tol = some tol → x.harmonics_required = some (harmonics_required W.table tol) ∧
      x.max_strain_harmonic = some (max_strain_harmonic W.table tol) ∧
      ∀ e, find_eccentric_transition tol = .ok e → x.ecc_tol = some e) (a : ℕ) (h' : Heap)
    (hh : h'.src = Function.update h.src a x) : TolInv W h' := by
  intro s tol
  rw [hh]
  by_cases he : s = a
  · subst he; rw [Function.update_self]; exact hx tol
  · rw [Function.update_of_ne he]; exact hi s tol

/-- Setting the tolerance, step by step. -/
theorem set_gw_lum_tol_run (W : World) (s : ℕ) (tol : ℝ) (h : Heap) :
    ((h.src s).gw_lum_tol = some tol ∧ set_gw_lum_tol W s tol h = (.ok (), h)) ∨
    ((h.src s).gw_lum_tol ≠ some tol ∧ ((∃ e, find_eccentric_transition tol = .error e ∧
      set_gw_lum_tol W s tol h = (.error e, (h.log (.harmonics s)).setSrc s { h.src s with
        gw_lum_tol := some tol, harmonics_required := some (harmonics_required W.table tol),
        max_strain_harmonic := some (max_strain_harmonic W.table tol) })) ∨
     ∃ e, find_eccentric_transition tol = .ok e ∧
      set_gw_lum_tol W s tol h = (.ok (), (h.log (.harmonics s)).setSrc s { h.src s with
        gw_lum_tol := some tol, harmonics_required := some (harmonics_required W.table tol),
        max_strain_harmonic := some (max_strain_harmonic W.table tol), ecc_tol := some e }))) := by
  unfold set_gw_lum_tol
  rw [bind_run]
  simp only [getSrc]
  split_ifs with hc
  · exact Or.inl ⟨hc, rfl⟩
  · right
    refine ⟨hc, ?_⟩
    rw [bind_run]
    simp only [modSrc, modify_run]
    unfold derive_tolerances
    rw [bind_run]
    simp only [logEvent, modify_run]
    rw [bind_run]
    simp only [modSrc, modify_run]
    rw [bind_run]
    simp only [lift_run]
    rcases find_eccentric_transition tol with e | e
    · left
      refine ⟨e, rfl, ?_⟩
      simp [Heap.setSrc, Heap.log]
    · right
      refine ⟨e, rfl, ?_⟩
      simp [Heap.setSrc, Heap.log]

theorem TolInv.atoms_setTol (W : World) (s : ℕ) (tol : ℝ) : Preserves (TolInv W) (set_gw_lum_tol W s tol) := by
  intro h hi
  rcases set_gw_lum_tol_run W s tol h with ⟨-, hr⟩ | ⟨-, ⟨e, he, hr⟩ | ⟨e, he, hr⟩⟩ <;> rw [hr]
  · exact hi
  · refine hi.newSrc (x := _) ?_ s _ rfl
    rintro tol' ⟨⟩
    refine ⟨rfl, rfl, ?_⟩
    intro e' he'
    rw [he] at he'
    cases he'
  · refine hi.newSrc (x := _) ?_ s _ rfl
    rintro tol' ⟨⟩
    refine ⟨rfl, rfl, ?_⟩
    intro e' he'
    rw [he] at he'
    cases he'
    rfl

theorem TolInv.atoms_getitem (W : World) (s : ℕ) (m : Sel) {h : Heap} (hi : TolInv W h)
    (hk : ∀ p, (h.src s).sc_params = some p → KeysOk (h.par p).dict) : TolInv W (getitem_mask s m h).2 := by
  rcases getitem_mask_run s m h with ⟨e, h', hr, hg⟩ | ⟨cols, snr, harm, p, h₁, -, hp, hg, -, -, -, hr⟩
  · rw [hr]
    exact hi.frame fun s => by simp only [hg.src]; exact ⟨rfl, rfl, rfl, rfl⟩
  · rcases hr with ⟨e, he⟩ | ⟨d, -, hr⟩
    · obtain ⟨d', hd', -⟩ := filled_params_of_keysOk (hk p hp)
      rw [he] at hd'; cases hd'
    · rw [hr]
      refine TolInv.newSrc hi (a := h₁.next) (hh := rfl) ?_
      exact fun tol ht => hi s tol ht

/-! ### The address invariant -/

/-- Addresses in use are allocated and belong to one source only. -/
def AddrInv (h : Heap) : Prop :=
  ∀ s, (∀ r, (h.src s).snr = some r → r < h.next ∧ ∀ s', (h.src s').snr = some r → s' = s) ∧
    (∀ r, (h.src s).max_snr_harmonic = some r → r < h.next ∧ ∀ s', (h.src s').max_snr_harmonic = some r → s' = s)

/-- What the address invariant looks at in a source. -/
def SameAddr (x y : Src) : Prop := x.snr = y.snr ∧ x.max_snr_harmonic = y.max_snr_harmonic

theorem AddrInv.frame {h h' : Heap} (hi : AddrInv h) (hs : ∀ s, SameAddr (h'.src s) (h.src s))
    (hn : h.next ≤ h'.next) : AddrInv h' := by
  intro s
  obtain ⟨h1, h2⟩ := hi s
  constructor
  · intro r hr
    rw [(hs s).1] at hr
    obtain ⟨a, b⟩ := h1 r hr
    refine ⟨a.trans_le hn, fun s' hs' => b s' ?_⟩
    rwa [(hs s').1] at hs'
  · intro r hr
    rw [(hs s).2] at hr
    obtain ⟨a, b⟩ := h2 r hr
    refine ⟨a.trans_le hn, fun s' hs' => b s' ?_⟩
    rwa [(hs s').2] at hs'

theorem AddrInv.setSrc_frame {h h' : Heap} (hi : AddrInv h) {s : ℕ} {x : Src} (hx : SameAddr x (h.src s))
    (hs : h'.src = Function.update h.src s x) (hn : h.next ≤ h'.next) : AddrInv h' := by
  refine hi.frame (fun s' => ?_) hn
  rw [hs]
  by_cases he : s' = s
  · subst he; rw [Function.update_self]; exact hx
  · rw [Function.update_of_ne he]; exact ⟨rfl, rfl⟩

theorem AddrInv.scOnly {h h' : Heap} (hi : AddrInv h) (ho : ScOnly h h') : AddrInv h' := by
  refine hi.frame (fun s => ?_) ho.next
  obtain ⟨sc, p, he⟩ := ho.src s
  rw [he]
  exact ⟨rfl, rfl⟩

/-- A source whose arrays are new or absent. -/
theorem AddrInv.newSrc {h h' : Heap} (hi : AddrInv h) {a : ℕ} {x : Src}
    (hsnr : ∀ r, x.snr = some r → (h.next ≤ r ∨ (h.src a).snr = some r) ∧ r < h'.next)
    (hharm : ∀ r, x.max_snr_harmonic = some r → (h.next ≤ r ∨ (h.src a).max_snr_harmonic = some r) ∧ r < h'.next)
    (hh : h'.src = Function.update h.src a x) (hn : h.next ≤ h'.next) : AddrInv h' := by
  intro s
  rw [hh]
  by_cases he : s = a
  · subst he
    rw [Function.update_self]
    constructor
    · intro r hr
      obtain ⟨h1, h2⟩ := hsnr r hr
      refine ⟨h2, fun s' hs' => ?_⟩
      by_contra hne
      rw [Function.update_of_ne hne] at hs'
      rcases h1 with h1 | h1
      · have := ((hi s').1 r hs').1
        omega
      · exact hne (((hi s).1 r h1).2 s' hs')
    · intro r hr
      obtain ⟨h1, h2⟩ := hharm r hr
      refine ⟨h2, fun s' hs' => ?_⟩
      by_contra hne
      rw [Function.update_of_ne hne] at hs'
      rcases h1 with h1 | h1
      · have := ((hi s').2 r hs').1
        omega
      · exact hne (((hi s).2 r h1).2 s' hs')
  · rw [Function.update_of_ne he]
    constructor
    · intro r hr
      obtain ⟨h1, h2⟩ := (hi s).1 r hr
      refine ⟨h1.trans_le hn, fun s' hs' => ?_⟩
      by_cases he' : s' = a
      · subst he'
        rw [Function.update_self] at hs'
        rcases (hsnr r hs').1 with h3 | h3
        · omega
        · exact h2 s' h3
      · rw [Function.update_of_ne he'] at hs'
        exact h2 s' hs'
    · intro r hr
      obtain ⟨h1, h2⟩ := (hi s).2 r hr
      refine ⟨h1.trans_le hn, fun s' hs' => ?_⟩
      by_cases he' : s' = a
      · subst he'
        rw [Function.update_self] at hs'
        rcases (hharm r hs').1 with h3 | h3
        · omega
        · exact h2 s' h3
      · rw [Function.update_of_ne he'] at hs'
        exact h2 s' hs'

theorem AddrInv.grown {h h' : Heap} (hi : AddrInv h) (hg : Grown h h') : AddrInv h' :=
  hi.frame (fun s => by rw [hg.src]; exact ⟨rfl, rfl⟩) hg.next

/-! ### All invariants together -/

/-- The invariants of reachable heaps. -/
structure Inv (W : World) (b : Bool) (h : Heap) : Prop where
  sc : ScInv W b h
  tol : TolInv W h
  addr : AddrInv h

theorem store_snr_run (s : ℕ) (x : List (Option ℝ)) (h : Heap) :
    store_snr s x h = (.ok h.next, (h.setSnr h.next x).bump.setSrc s { h.src s with snr := some h.next }) := rfl

theorem store_harm_run (s : ℕ) (x : List ℕ) (h : Heap) :
    store_harm s x h =
      (.ok h.next, (h.setHarm h.next x).bump.setSrc s { h.src s with max_snr_harmonic := some h.next }) := rfl

theorem newSrc_sc {W : World} {b : Bool} {h : Heap} (hi : ScInv W b h) {x : Src} (hx : x.sc_params = none) :
    ScInv W b (newSrc x h).2 := by
  intro s
  change Owned (h.setSrc h.next x).bump s ∧ Current W b (h.setSrc h.next x).bump s
  by_cases he : s = h.next
  · constructor
    · intro p hp
      simp only [bump_src, setSrc_src, he, Function.update_self, hx] at hp
      cases hp
    · intro p hp
      simp only [bump_src, setSrc_src, he, Function.update_self, hx] at hp
      cases hp
  · obtain ⟨h1, h2⟩ := hi s
    constructor
    · intro p hp
      simp only [bump_src, setSrc_src, Function.update_of_ne he] at hp
      obtain ⟨a, b, c⟩ := h1 p hp
      exact ⟨Nat.lt_succ_of_lt a, b, c⟩
    · intro p hp
      simp only [bump_src, setSrc_src, Function.update_of_ne he, bump_par, setSrc_par] at hp ⊢
      exact h2 p hp

theorem getitem_sc {W : World} {b : Bool} {h : Heap} (hi : ScInv W b h) (s : ℕ) (m : Sel) :
    ScInv W b (getitem_mask s m h).2 := by
  rcases getitem_mask_run s m h with ⟨e, h', hr, hg⟩ | ⟨cols, snr, harm, p, h₁, -, hp, hg, -, -, -, hr⟩
  · rw [hr]
    exact hi.frame (fun s => by rw [hg.src]; exact SameSc.refl _) (fun p _ => by rw [hg.par]) hg.next
  · obtain ⟨d', hd', heq⟩ := filled_params_of_keysOk ((hi s).1 p hp).2.2
    rcases hr with ⟨e, he⟩ | ⟨d, hd, hr⟩
    · rw [he] at hd'; cases hd'
    · rw [hd] at hd'
      cases hd'
      rw [hr]
      have hnext := hg.next
      intro s'
      by_cases he : s' = h₁.next
      · subst he
        constructor
        · intro p' hp'
          simp only [Function.update_self, Option.some.injEq] at hp' ⊢
          subst hp'
          simp only [Function.update_self]
          exact ⟨by omega, trivial, filled_params_ok hd⟩
        · intro p' hp'
          simp only [Function.update_self, Option.some.injEq] at hp' ⊢
          subst hp'
          simp only [Function.update_self]
          rw [curve_congr W heq]
          exact (hi s).2 p hp
      · constructor
        · intro p' hp'
          simp only [Function.update_of_ne he] at hp' ⊢
          obtain ⟨a, b, c⟩ := (hi s').1 p' hp'
          rw [Function.update_of_ne (by omega)]
          exact ⟨by omega, b, c⟩
        · intro p' hp'
          simp only [Function.update_of_ne he] at hp' ⊢
          have a := ((hi s').1 p' hp').1
          rw [Function.update_of_ne (by omega)]
          exact (hi s').2 p' hp'

/-- All invariants survive the basic operations. -/
theorem inv_atoms (W : World) (b : Bool) : Atoms W (Inv W b) where
  store_snr s x h hi := by
    rw [store_snr_run]
    refine ⟨?_, ?_, ?_⟩
    · exact hi.sc.frame (h' := (h.setSnr h.next x).bump.setSrc s { h.src s with snr := some h.next })
        (sameSc_update (h := h) ⟨rfl, rfl, rfl⟩) (fun _ _ => rfl) (Nat.le_succ _)
    · exact hi.tol.newSrc (x := { h.src s with snr := some h.next }) (fun tol ht => hi.tol s tol ht) s _ rfl
    · refine hi.addr.newSrc (a := s) (x := { h.src s with snr := some h.next }) ?_ ?_ rfl (Nat.le_succ _)
      · rintro r ⟨⟩
        exact ⟨Or.inl le_rfl, Nat.lt_succ_self _⟩
      · intro r hr
        exact ⟨Or.inr hr, ((hi.addr s).2 r hr).1.trans (Nat.lt_succ_self _)⟩
  store_harm s x h hi := by
    rw [store_harm_run]
    refine ⟨?_, ?_, ?_⟩
    · exact hi.sc.frame (h' := (h.setHarm h.next x).bump.setSrc s { h.src s with max_snr_harmonic := some h.next })
        (sameSc_update (h := h) ⟨rfl, rfl, rfl⟩) (fun _ _ => rfl) (Nat.le_succ _)
    · exact hi.tol.newSrc (x := { h.src s with max_snr_harmonic := some h.next })
        (fun tol ht => hi.tol s tol ht) s _ rfl
    · refine hi.addr.newSrc (a := s) (x := { h.src s with max_snr_harmonic := some h.next }) ?_ ?_ rfl (Nat.le_succ _)
      · intro r hr
        exact ⟨Or.inr hr, ((hi.addr s).1 r hr).1.trans (Nat.lt_succ_self _)⟩
      · rintro r ⟨⟩
        exact ⟨Or.inl le_rfl, Nat.lt_succ_self _⟩
  setSnr r x h hi :=
    ⟨preserves_setSnr W b r x h hi.sc, hi.tol.frame fun _ => ⟨rfl, rfl, rfl, rfl⟩,
      hi.addr.frame (fun _ => ⟨rfl, rfl⟩) le_rfl⟩
  setHarm r x h hi :=
    ⟨preserves_setHarm W b r x h hi.sc, hi.tol.frame fun _ => ⟨rfl, rfl, rfl, rfl⟩,
      hi.addr.frame (fun _ => ⟨rfl, rfl⟩) le_rfl⟩
  cols s f h hi :=
    ⟨preserves_modSrc W b (f := fun x => { x with cols := f x.cols }) (fun _ => ⟨rfl, rfl, rfl⟩) h hi.sc,
      TolInv.modSrc (f := fun x => { x with cols := f x.cols }) (fun _ => ⟨rfl, rfl, rfl, rfl⟩) h hi.tol,
      hi.addr.setSrc_frame (x := { h.src s with cols := f (h.src s).cols }) ⟨rfl, rfl⟩ rfl le_rfl⟩
  set_g s g h hi :=
    ⟨preserves_modSrc W b (f := fun x => { x with g := if g then some W.gSpline else none })
        (fun _ => ⟨rfl, rfl, rfl⟩) h hi.sc,
      TolInv.modSrc (f := fun x => { x with g := if g then some W.gSpline else none })
        (fun _ => ⟨rfl, rfl, rfl, rfl⟩) h hi.tol,
      hi.addr.setSrc_frame (x := { h.src s with g := if g then some W.gSpline else none }) ⟨rfl, rfl⟩ rfl le_rfl⟩
  setitem p k v h hi :=
    ⟨params_setitem_inv W b p k v h hi.sc, hi.tol.scOnly (params_setitem_scOnly W p k v h),
      hi.addr.scOnly (params_setitem_scOnly W p k v h)⟩
  update p kvs h hi :=
    ⟨params_update_inv W b p kvs h hi.sc, hi.tol.scOnly (params_update_scOnly W p kvs h),
      hi.addr.scOnly (params_update_scOnly W p kvs h)⟩
  assign s d h hi :=
    ⟨set_sc_params_inv W b s d h hi.sc, hi.tol.scOnly (set_sc_params_scOnly W s d h),
      hi.addr.scOnly (set_sc_params_scOnly W s d h)⟩
  set_sc s h hi :=
    ⟨set_sc_inv (hi.sc.toE _), hi.tol.scOnly (set_sc_scOnly W s h), hi.addr.scOnly (set_sc_scOnly W s h)⟩
  new_params d s h hi :=
    ⟨new_params_inv W b d s h hi.sc, hi.tol.scOnly (new_params_scOnly d s h), hi.addr.scOnly (new_params_scOnly d s h)⟩
  setTol s tol h hi := by
    refine ⟨?_, TolInv.atoms_setTol W s tol h hi.tol, ?_⟩
    · rcases set_gw_lum_tol_run W s tol h with ⟨-, hr⟩ | ⟨-, ⟨e, -, hr⟩ | ⟨e, -, hr⟩⟩ <;> rw [hr]
      · exact hi.sc
      · exact hi.sc.frame (sameSc_update (h := h) ⟨rfl, rfl, rfl⟩) (fun _ _ => rfl) le_rfl
      · exact hi.sc.frame (sameSc_update (h := h) ⟨rfl, rfl, rfl⟩) (fun _ _ => rfl) le_rfl
    · rcases set_gw_lum_tol_run W s tol h with ⟨-, hr⟩ | ⟨-, ⟨e, -, hr⟩ | ⟨e, -, hr⟩⟩ <;> rw [hr]
      · exact hi.addr
      · refine AddrInv.setSrc_frame hi.addr (s := s) (hs := rfl) (hn := le_rfl) ?_
        exact ⟨rfl, rfl⟩
      · refine AddrInv.setSrc_frame hi.addr (s := s) (hs := rfl) (hn := le_rfl) ?_
        exact ⟨rfl, rfl⟩
  newSrc x hx1 hx2 hx3 hx4 _ _ h hi := by
    refine ⟨newSrc_sc hi.sc hx1, ?_, ?_⟩
    · refine hi.tol.newSrc (x := x) ?_ h.next _ rfl
      intro tol ht
      rw [hx2] at ht
      cases ht
    · refine hi.addr.newSrc (a := h.next) (x := x) ?_ ?_ rfl (Nat.le_succ _)
      · intro r hr; rw [hx3] at hr; cases hr
      · intro r hr; rw [hx4] at hr; cases hr
  getitem s m h hi := by
    refine ⟨getitem_sc hi.sc s m, TolInv.atoms_getitem W s m hi.tol fun p hp => ((hi.sc s).1 p hp).2.2, ?_⟩
    rcases getitem_mask_run s m h with ⟨e, h', hr, hg⟩ | ⟨cols, snr, harm, p, h₁, -, hp, hg, hsnr, hharm, -, hr⟩
    · rw [hr]; exact hi.addr.grown hg
    · rcases hr with ⟨e, he⟩ | ⟨d, -, hr⟩
      · obtain ⟨d', hd', -⟩ := filled_params_of_keysOk ((hi.sc s).1 p hp).2.2
        rw [he] at hd'; cases hd'
      · rw [hr]
        have := hg.next
        refine hi.addr.newSrc (a := h₁.next) (x := _) ?_ ?_ rfl (by change h.next ≤ h₁.next + 2; omega)
        · intro r' hr'
          change snr = some r' at hr'
          rcases hs : (h.src s).snr with _ | r
          · rw [hsnr.none_iff.1 hs] at hr'; cases hr'
          · obtain ⟨h1, h2, -⟩ := hsnr.some_of r r' hs hr'
            exact ⟨Or.inl h1, by change r' < h₁.next + 2; omega⟩
        · intro r' hr'
          change harm = some r' at hr'
          rcases hs : (h.src s).max_snr_harmonic with _ | r
          · rw [hharm.none_iff.1 hs] at hr'; cases hr'
          · obtain ⟨h1, h2, -⟩ := hharm.some_of r r' hs hr'
            exact ⟨Or.inl h1, by change r' < h₁.next + 2; omega⟩

end Legwork.source
