import Verif.Lemmas.ColsFrame
import Verif.Spec.Shared

/-!
# Programs that share arrays and write into them
-/

namespace Legwork.source

open Legwork.Spec
open PyM hiding bind

variable {W : World} {σ : Shared} {op : Op}

/-! ### Columns read from arrays -/

theorem read_get (c : Cols) (v : Attr → List ℝ) (a : Attr) : (c.read v).get a = (c.get a).map fun _ => v a := by
  cases a <;> rfl

theorem read_eq {c : Cols} {v : Attr → List ℝ} (h : ∀ a xs, c.get a = some xs → v a = xs) : c.read v = c := by
  have ho : ∀ (o : Option (List ℝ)) (x : List ℝ), (∀ xs, o = some xs → x = xs) → (o.map fun _ => x) = o := by
    intro o x hx
    rcases o with _ | xs
    · rfl
    · rw [Option.map_some, hx xs rfl]
  unfold Cols.read
  rw [h .m_1 _ rfl, h .m_2 _ rfl, h .dist _ rfl, h .f_orb _ rfl, h .ecc _ rfl, ho c.weights _ (h .weights),
    ho c.inclination _ (h .inclination), ho c.polarisation _ (h .polarisation), ho c.t_merge _ (h .t_merge)]

theorem cols_ext {c d : Cols} (h : ∀ a, c.get a = d.get a) (hp : c.position = d.position) (hm : c.merged = d.merged) :
    c = d := by
  have h1 := h .m_1
  have h2 := h .m_2
  have h3 := h .dist
  have h4 := h .f_orb
  have h5 := h .ecc
  have h6 := h .weights
  have h7 := h .inclination
  have h8 := h .polarisation
  have h9 := h .t_merge
  simp only [Cols.get, Option.some.injEq] at h1 h2 h3 h4 h5 h6 h7 h8 h9
  cases c
  cases d
  simp_all

theorem put_get (c : Cols) (a b : Attr) (xs : List ℝ) : (c.put a xs).get b = if b = a then some xs else c.get b := by
  cases a <;> cases b <;> rfl

theorem put_position (c : Cols) (a : Attr) (xs : List ℝ) : (c.put a xs).position = c.position := by cases a <;> rfl

theorem put_merged (c : Cols) (a : Attr) (xs : List ℝ) : (c.put a xs).merged = c.merged := by cases a <;> rfl

theorem view_get (σ : Shared) (s : ℕ) (a : Attr) :
    (σ.view.src s).cols.get a = ((σ.heap.src s).cols.get a).map fun _ => σ.mem (σ.addr s a) := read_get _ _ _

theorem view_some {s : ℕ} {a : Attr} {xs : List ℝ} (h : (σ.view.src s).cols.get a = some xs) :
    σ.mem (σ.addr s a) = xs := by
  rw [view_get] at h
  obtain ⟨_, -, h⟩ := Option.map_eq_some_iff.1 h
  exact h

/-! ### Calls -/

/-- Every attribute is bound to an array that has been made, and all but finitely many objects to their own. -/
structure Sound (σ : Shared) : Prop where
  born : ∀ s a, (σ.addr s a).born < σ.step
  own : ∃ N, ∀ s, N ≤ s → ∀ a, ∃ t, σ.addr s a = .made t s a

theorem call_mem_old {x : Arr} (given : Attr → Option Arr) (hx : x.born < σ.step) :
    (σ.call W op given).mem x = σ.mem x := by
  rcases x with ⟨t, s, a⟩ | t
  · exact if_neg hx.ne
  · rfl

theorem call_mem_new (given : Attr → Option Arr) (s : ℕ) (a : Attr) :
    (σ.call W op given).mem (.made σ.step s a) = (((op.run W σ.view).2.src s).cols.get a).getD [] := if_pos rfl

/-- The arrays a new object is given have the values of its attributes. -/
def Fits (W : World) (σ : Shared) (op : Op) (given : Attr → Option Arr) : Prop :=
  (op.run W σ.view).1 = .ok () → ∀ a x, given a = some x →
    x.born < σ.step ∧ ((op.run W σ.view).2.src σ.view.next).cols.get a = some (σ.mem x)

/-- A call on objects whose values are in arrays does what it does on the values. -/
theorem call_view {given : Attr → Option Arr} (hs : Sound σ) (hi : Inv W false σ.view) (hg : Fits W σ op given) :
    (σ.call W op given).view = (op.run W σ.view).2 := by
  have key : ∀ s, ((op.run W σ.view).2.src s).cols.read
      (fun a => (σ.call W op given).mem ((σ.call W op given).addr s a)) = ((op.run W σ.view).2.src s).cols := by
    intro s
    refine read_eq fun a xs hxs => ?_
    by_cases hlt : s < σ.view.next
    · by_cases hr : Rebinds W σ.view ((op.run W σ.view).1 = .ok ()) op s a
      · have h1 : (σ.call W op given).addr s a = .made σ.step s a := by
          simp only [Shared.call, if_pos hlt, if_pos hr]
        rw [h1, call_mem_new, hxs]
        rfl
      · have h1 : (σ.call W op given).addr s a = σ.addr s a := by
          simp only [Shared.call, if_pos hlt, if_neg hr]
        rw [h1, call_mem_old given (hs.born s a)]
        rw [cols_frame hi hlt hr] at hxs
        exact view_some hxs
    · by_cases hn : s = σ.view.next ∧ (op.run W σ.view).1 = .ok ()
      · have h1 : (σ.call W op given).addr s a = (given a).getD (.made σ.step s a) := by
          simp only [Shared.call, if_neg hlt, if_pos hn]
        rw [h1]
        rcases hga : given a with _ | x
        · rw [Option.getD_none, call_mem_new, hxs]
          rfl
        · obtain ⟨h2, h3⟩ := hg hn.2 a x hga
          rw [Option.getD_some, call_mem_old given h2]
          rw [hn.1, h3] at hxs
          exact Option.some.inj hxs
      · have h1 : (σ.call W op given).addr s a = .made σ.step s a := by
          simp only [Shared.call, if_neg hlt, if_neg hn]
        rw [h1, call_mem_new, hxs]
        rfl
  have h2 : (σ.call W op given).view = { (op.run W σ.view).2 with src := fun s => { (op.run W σ.view).2.src s with
      cols := ((op.run W σ.view).2.src s).cols.read
        (fun a => (σ.call W op given).mem ((σ.call W op given).addr s a)) } } := rfl
  rw [h2]
  simp only [key]

/-- Where attributes are bound after a call. -/
theorem call_addr (given : Attr → Option Arr) (s : ℕ) (a : Attr) :
    (s < σ.view.next ∧ (σ.call W op given).addr s a = σ.addr s a) ∨ (σ.call W op given).addr s a = .made σ.step s a ∨
    ∃ x, s = σ.view.next ∧ (op.run W σ.view).1 = .ok () ∧ given a = some x ∧ (σ.call W op given).addr s a = x := by
  by_cases hlt : s < σ.view.next
  · by_cases hr : Rebinds W σ.view ((op.run W σ.view).1 = .ok ()) op s a
    · exact Or.inr (Or.inl (by simp only [Shared.call, if_pos hlt, if_pos hr]))
    · exact Or.inl ⟨hlt, by simp only [Shared.call, if_pos hlt, if_neg hr]⟩
  · by_cases hn : s = σ.view.next ∧ (op.run W σ.view).1 = .ok ()
    · have h1 : (σ.call W op given).addr s a = (given a).getD (.made σ.step s a) := by
        simp only [Shared.call, if_neg hlt, if_pos hn]
      rcases hga : given a with _ | x
      · rw [hga] at h1
        exact Or.inr (Or.inl h1)
      · rw [hga] at h1
        exact Or.inr (Or.inr ⟨x, hn.1, hn.2, rfl, h1⟩)
    · exact Or.inr (Or.inl (by simp only [Shared.call, if_neg hlt, if_neg hn]))

theorem call_sound {given : Attr → Option Arr} (hs : Sound σ) (hg : Fits W σ op given) : Sound (σ.call W op given) := by
  refine ⟨fun s a => ?_, σ.view.next + 1, fun s hN a => ?_⟩
  · change _ < σ.step + 1
    rcases call_addr (W := W) (σ := σ) (op := op) given s a with ⟨-, h⟩ | h | ⟨x, -, hok, hx, h⟩ <;> rw [h]
    · exact Nat.lt_succ_of_lt (hs.born s a)
    · exact Nat.lt_succ_self _
    · exact Nat.lt_succ_of_lt (hg hok a x hx).1
  · rcases call_addr (W := W) (σ := σ) (op := op) given s a with ⟨hlt, -⟩ | h | ⟨x, hn, -⟩
    · omega
    · exact ⟨_, h⟩
    · omega

/-! ### Arrays passed to constructors -/

theorem orientation_keeps {args : InitArgs} {p : Option (List (ℝ × ℝ))} {q r : Option (List ℝ)}
    (h : init_orientation args = .ok (p, q, r)) :
    (∀ x, args.polarisation = some x → q = some x.toList) ∧ ∀ x, args.inclination = some x → r = some x.toList := by
  unfold init_orientation at h
  rcases hp : args.position with _ | pos
  · rw [hp] at h
    simp only at h
    split_ifs at h with h1 h2
    simp only [Bool.not_eq_true, Option.isSome_eq_false_iff, Option.isNone_iff_eq_none] at h1 h2
    exact ⟨fun x hx => (Option.some_ne_none x (hx.symm.trans h2)).elim,
      fun x hx => (Option.some_ne_none x (hx.symm.trans h1)).elim⟩
  · rw [hp] at h
    simp only at h
    obtain ⟨inc, hinc, h⟩ := except_bind_ok.1 h
    obtain ⟨pol, hpol, h⟩ := except_bind_ok.1 h
    split_ifs at h
    obtain ⟨position, -, h⟩ := except_bind_ok.1 h
    cases h
    refine ⟨fun x hx => ?_, fun x hx => ?_⟩
    · rw [hx] at hpol
      cases hpol
      rfl
    · rw [hx] at hinc
      cases hinc
      rfl

theorem init_get {cls : Cls} {args : InitArgs} {h h' : Heap} {s : ℕ} (hr : init W cls args h = (.ok s, h')) :
    s = h.next ∧ ∃ c, Accepted W args c ∧ (h'.src h.next).cols = c := by
  obtain ⟨cols, ecc_tol, d, sc, hc, -, -, -, hs, hh⟩ := init_ok hr
  refine ⟨hs, cols, init_cols_iff.1 hc, ?_⟩
  rw [hh]
  simp [heapAfterInit, newObject]

/-- The constructor keeps the arrays it is given. -/
theorem fits_init {cls : Cls} {args : InitArgs} {given : Attr → Option Arr}
    (hv : ∀ a x, given a = some x → x.born < σ.step) :
    Fits W σ (.init cls (args.fill σ.mem (ctorArrays given))) (ctorArrays given) := by
  intro hok a x hx
  have hborn : x.born < σ.step := by
    cases a <;> first | exact hv _ _ hx | cases hx
  refine ⟨hborn, ?_⟩
  simp only [Op.run] at hok ⊢
  rw [bind_run] at hok ⊢
  rcases hi : init W cls (args.fill σ.mem (ctorArrays given)) σ.view with ⟨e | s, h'⟩
  · rw [hi] at hok
    cases hok
  · obtain ⟨hs, c, hc, hcols⟩ := init_get hi
    simp only
    change (h'.src _).cols.get a = _
    rw [hcols]
    have ho := orientation_keeps hc.orient
    cases a
    · simp only [Cols.get]
      rw [hc.m_1]
      simp only [InitArgs.fill, hx]
      rfl
    · simp only [Cols.get]
      rw [hc.m_2]
      simp only [InitArgs.fill, hx]
      rfl
    · simp only [Cols.get]
      rw [hc.dist]
      simp only [InitArgs.fill, hx]
      rfl
    · obtain ⟨f, hf, hcf, -⟩ := hc.f_orb
      simp only [Cols.get]
      rw [hcf]
      unfold init_f_orb at hf
      have h1 : (args.fill σ.mem (ctorArrays given)).f_orb = some (.array (σ.mem x) true) := by
        simp only [InitArgs.fill, hx]
        rfl
      rw [h1] at hf
      cases hf
      rfl
    · simp only [Cols.get]
      rw [hc.ecc]
      simp only [InitArgs.fill, hx]
      rfl
    · simp only [Cols.get]
      rw [hc.weights]
      simp only [InitArgs.fill, hx]
      rfl
    · simp only [Cols.get]
      refine ho.2 (.array (σ.mem x) true) ?_
      simp only [InitArgs.fill, hx]
      rfl
    · simp only [Cols.get]
      refine ho.1 (.array (σ.mem x) true) ?_
      simp only [InitArgs.fill, hx]
      rfl
    · cases hx

/-- What an evolved new object has in the attributes handed on. -/
theorem evolved_get {s : ℕ} {t : EvolTime} {h : Heap} (hok : ((Op.evolveNew s t).run W h).1 = .ok ()) {a : Attr}
    {xs : List ℝ} (ha : PassedOn a) (hxs : (h.src s).cols.get a = some xs) :
    (((Op.evolveNew s t).run W h).2.src h.next).cols.get a = some xs := by
  simp only [Op.run] at hok ⊢
  rw [bind_run] at hok ⊢
  rcases evolve_sources_new_run W s t h with ⟨e, hr⟩ | ⟨e, h₁, tol, p, he, htol, hp, hr⟩
  · rw [hr] at hok
    cases hok
  · rcases hr with ⟨err, h₂, hin, hr⟩ | ⟨s', h₂, hin, hr⟩
    · rw [hr] at hok
      cases hok
    · rw [hr]
      have h1 : h₁.next = h.next ∧ (h₁.src s).cols.get a = some xs := by
        rcases evolve_common_frame W s t h with h2 | ⟨-, tm, h2⟩ <;> rw [he] at h2 <;> simp only at h2 <;> rw [h2]
        · exact ⟨rfl, hxs⟩
        · refine ⟨rfl, ?_⟩
          simp only [setSrc_src, Function.update_self]
          rw [← hxs]
          cases a <;> first | rfl | exact ha.elim
      obtain ⟨hs', c, hc, hcols⟩ := init_get hin
      rw [h1.1] at hs' hcols
      have ho := orientation_keeps hc.orient
      have h2 := h1.2
      have hc1 := hc.m_1
      have hc2 := hc.m_2
      have hc3 := hc.dist
      subst hs'
      change ((h₂.setSrc h.next _).src h.next).cols.get a = _
      simp only [setSrc_src, Function.update_self, hcols]
      cases a
      · simp only [Cols.get, Option.some.injEq] at h2 ⊢
        rw [hc1, ← h2]
        rfl
      · simp only [Cols.get, Option.some.injEq] at h2 ⊢
        rw [hc2, ← h2]
        rfl
      · simp only [Cols.get, Option.some.injEq] at h2 ⊢
        rw [hc3, ← h2]
        rfl
      · exact ha.elim
      · exact ha.elim
      · exact ha.elim
      · simp only [Cols.get] at h2 ⊢
        refine ho.2 (.array xs true) ?_
        simp only [evolved_args, h2]
        rfl
      · simp only [Cols.get] at h2 ⊢
        refine ho.1 (.array xs true) ?_
        simp only [evolved_args, h2]
        rfl
      · exact ha.elim

/-- The arrays passed on. -/
theorem passed_some {h : Heap} {addr : ℕ → Attr → Arr} {a : Attr} {x : Arr} (hx : passed h addr op a = some x) :
    ∃ s t, op = .evolveNew s t ∧ PassedOn a ∧ ((h.src s).cols.get a).isSome ∧ x = addr s a := by
  cases op <;> first | (cases a <;> cases hx; done) | skip
  rename_i s t
  cases a <;> first | (cases hx; done) | skip
  · exact ⟨s, t, rfl, trivial, rfl, (Option.some.inj hx).symm⟩
  · exact ⟨s, t, rfl, trivial, rfl, (Option.some.inj hx).symm⟩
  · exact ⟨s, t, rfl, trivial, rfl, (Option.some.inj hx).symm⟩
  · simp only [passed] at hx
    obtain ⟨y, hy, rfl⟩ := Option.map_eq_some_iff.1 hx
    exact ⟨s, t, rfl, trivial, by simp [Cols.get, hy], rfl⟩
  · simp only [passed] at hx
    obtain ⟨y, hy, rfl⟩ := Option.map_eq_some_iff.1 hx
    exact ⟨s, t, rfl, trivial, by simp [Cols.get, hy], rfl⟩

theorem fits_call (hs : Sound σ) : Fits W σ op (passed σ.view σ.addr op) := by
  intro hok a x hx
  obtain ⟨s, t, rfl, ha, hsome, rfl⟩ := passed_some hx
  refine ⟨hs.born s a, ?_⟩
  obtain ⟨xs, hxs⟩ := Option.isSome_iff_exists.1 hsome
  rw [view_some hxs]
  exact evolved_get hok ha hxs

/-! ### Assignments and writes -/

/-- Heaps that differ in their sources only. -/
def withSrc (h : Heap) (f : ℕ → Src) : Heap := { h with src := f }

theorem with_cols {x : Src} {c d : Cols} (h : c = d) : { x with cols := c } = { x with cols := d } := by rw [h]

theorem give_view (W : World) (s : ℕ) (a : Attr) (x : Arr) :
    (σ.give s a x).view = ((Op.setCols s ((σ.view.src s).cols.put a (σ.mem x))).run W σ.view).2 := by
  have hsrc : ∀ s', (σ.give s a x).view.src s' =
      Function.update σ.view.src s { σ.view.src s with cols := (σ.view.src s).cols.put a (σ.mem x) } s' := by
    intro s'
    by_cases he : s' = s
    · subst he
      rw [Function.update_self]
      have h1 : (σ.give s' a x).view.src s' = { σ.view.src s' with cols := ((σ.give s' a x).view.src s').cols } := by
        simp [Shared.view, Shared.give]
      rw [h1]
      refine with_cols (cols_ext (fun b => ?_) ?_ ?_)
      · rw [view_get, put_get, view_get]
        simp only [Shared.give, setSrc_src, Function.update_self, true_and]
        rw [put_get]
        split_ifs with hb
        · rfl
        · rfl
      · rw [put_position]
        simp only [Shared.view, Shared.give, setSrc_src, Function.update_self, Cols.read]
        rw [put_position]
      · rw [put_merged]
        simp only [Shared.view, Shared.give, setSrc_src, Function.update_self, Cols.read]
        rw [put_merged]
    · rw [Function.update_of_ne he]
      simp only [Shared.view, Shared.give, setSrc_src, Function.update_of_ne he, he, false_and, if_false]
  have h1 : (σ.give s a x).view = { σ.view with src := (σ.give s a x).view.src } := rfl
  rw [h1, funext hsrc]
  rfl

theorem give_sound {s : ℕ} {a : Attr} {x : Arr} (hs : Sound σ) (hx : x.born < σ.step) : Sound (σ.give s a x) := by
  obtain ⟨hb, N, hN⟩ := hs
  refine ⟨fun s' a' => ?_, max N (s + 1), fun s' hs' a' => ?_⟩
  · change (if s' = s ∧ a' = a then x else σ.addr s' a').born < σ.step + 1
    split_ifs
    · exact Nat.lt_succ_of_lt hx
    · exact Nat.lt_succ_of_lt (hb s' a')
  · have h1 : s' ≠ s := by
      have := le_of_max_le_right hs'
      omega
    obtain ⟨t, ht⟩ := hN s' (le_of_max_le_left hs') a'
    refine ⟨t, ?_⟩
    change (if s' = s ∧ a' = a then x else σ.addr s' a') = _
    rw [if_neg fun h => h1 h.1, ht]

theorem write_sound {x : Arr} {xs : List ℝ} (hs : Sound σ) : Sound (σ.write x xs) := by
  unfold Shared.write
  split_ifs
  · exact ⟨fun s a => Nat.lt_succ_of_lt (hs.born s a), hs.own⟩
  · exact hs

/-- What a write does to an attribute. -/
theorem write_get {x : Arr} {xs : List ℝ} (hl : xs.length = (σ.mem x).length) (s : ℕ) (a : Attr) :
    ((σ.write x xs).view.src s).cols.get a =
      if σ.addr s a = x then ((σ.view.src s).cols.get a).map fun _ => xs else (σ.view.src s).cols.get a := by
  unfold Shared.write
  rw [if_pos hl]
  split_ifs with h
  · rw [view_get, view_get, Option.map_map]
    simp only [h, Function.update_self]
    rfl
  · rw [view_get, view_get]
    simp only [Function.update_of_ne h]

/-- A write changes nothing else of an object. -/
theorem write_src (x : Arr) (xs : List ℝ) (s : ℕ) : (σ.write x xs).view.src s =
    { σ.view.src s with cols := ((σ.write x xs).view.src s).cols } ∧
    ((σ.write x xs).view.src s).cols.position = (σ.view.src s).cols.position ∧
    ((σ.write x xs).view.src s).cols.merged = (σ.view.src s).cols.merged := by
  unfold Shared.write
  split_ifs <;> exact ⟨rfl, rfl, rfl⟩

theorem write_rest (x : Arr) (xs : List ℝ) :
    (σ.write x xs).view = withSrc σ.view (σ.write x xs).view.src := by
  unfold Shared.write
  split_ifs <;> rfl

/-- An object none of whose arrays is written into stays as it is. -/
theorem write_other {x : Arr} (xs : List ℝ) {s : ℕ} (h : ∀ a, σ.addr s a ≠ x) :
    (σ.write x xs).view.src s = σ.view.src s := by
  by_cases hl : xs.length = (σ.mem x).length
  · obtain ⟨h1, h2, h3⟩ := write_src (σ := σ) x xs s
    rw [h1]
    have h4 : ((σ.write x xs).view.src s).cols = (σ.view.src s).cols := by
      refine cols_ext (fun a => ?_) h2 h3
      rw [write_get hl, if_neg (h a)]
    rw [h4]
  · unfold Shared.write
    rw [if_neg hl]

/-- Writing is assigning to the objects whose arrays it is, one after the other. -/
theorem write_reachable {ok : Heap → Op → Prop} (hp : PerObject ok) (hs : Sound σ) (hr : Reachable W ok σ.view)
    {x : Arr} {xs : List ℝ}
    (hok : ∀ s, (∃ a, σ.addr s a = x) → ok σ.view (.setCols s ((σ.write x xs).view.src s).cols)) :
    Reachable W ok (σ.write x xs).view := by
  obtain ⟨N, hN⟩ := hs.own
  obtain ⟨M, hM⟩ : ∃ M, ∀ s, M ≤ s → ∀ a, σ.addr s a ≠ x := by
    rcases x with ⟨t, s₀, a₀⟩ | t
    · refine ⟨max N (s₀ + 1), fun s hs a he => ?_⟩
      obtain ⟨t', ht'⟩ := hN s (le_of_max_le_left hs) a
      rw [ht'] at he
      have := le_of_max_le_right hs
      cases he
      omega
    · refine ⟨N, fun s hs a he => ?_⟩
      obtain ⟨t', ht'⟩ := hN s hs a
      rw [ht'] at he
      cases he
  have step : ∀ k, Reachable W ok
      (withSrc σ.view fun s => if s < k then (σ.write x xs).view.src s else σ.view.src s) := by
    intro k
    induction k with
    | zero => simpa [withSrc] using hr
    | succ k ih =>
      by_cases hk : ∃ a, σ.addr k a = x
      · have h1 := Reachable.call (.setCols k ((σ.write x xs).view.src k).cols) ih
          (hp _ _ k _ (by simp [withSrc]) (hok k hk))
        convert h1 using 1
        change _ = withSrc σ.view (Function.update _ _ _)
        congr 1
        funext s
        by_cases he : s = k
        · subst he
          rw [if_pos (Nat.lt_succ_self _), Function.update_self]
          simp only [withSrc, lt_self_iff_false, if_false]
          exact (write_src x xs s).1
        · rw [Function.update_of_ne he]
          have : s < k + 1 ↔ s < k := by omega
          simp only [withSrc, this]
      · push Not at hk
        convert ih using 2
        funext s
        by_cases he : s = k
        · subst he
          rw [if_pos (Nat.lt_succ_self _), if_neg (lt_irrefl _), write_other xs hk]
        · have : s < k + 1 ↔ s < k := by omega
          simp only [this]
  have hfin := step M
  rw [write_rest]
  convert hfin using 2
  funext s
  split_ifs with h
  · rfl
  · exact write_other xs (hM s (by omega))

/-! ### Programs -/

theorem array_view {xs : List ℝ} (hs : Sound σ) :
    (Step.run W σ (.array xs)).view = σ.view ∧ Sound (Step.run W σ (.array xs)) := by
  refine ⟨?_, fun s a => Nat.lt_succ_of_lt (hs.born s a), hs.own⟩
  have h1 : ∀ s a, Function.update σ.mem (.own σ.step) xs (σ.addr s a) = σ.mem (σ.addr s a) := fun s a =>
    Function.update_of_ne (fun he => by
      have := hs.born s a
      rw [he] at this
      exact lt_irrefl _ this) _ _
  simp only [Shared.view, Step.run, h1]

theorem start_sound (h : Heap) : Sound ⟨h, fun s a => .made 0 s a, fun _ => [], 1⟩ :=
  ⟨fun _ _ => Nat.zero_lt_one, 0, fun _ _ _ => ⟨0, rfl⟩⟩

theorem start_view {h : Heap} (he : ∀ s, h.src s = blank) :
    (⟨h, fun s a => .made 0 s a, fun _ => [], 1⟩ : Shared).view = h := by
  have h1 : h.src = fun s => { h.src s with cols := (h.src s).cols.read fun _ => [] } := by
    funext s
    rw [he s]
    rfl
  change withSrc h _ = withSrc h h.src
  exact congrArg (withSrc h) h1.symm

/-- Programs that share arrays and write into them see what programs with assignments see. -/
theorem made_view {P : Shared → Step → Prop} {ok : Heap → Op → Prop} (hp : PerObject ok)
    (hP : ∀ σ st, P σ st → Allowed ok σ st) (hm : Made W P σ) : Reachable W ok σ.view ∧ Sound σ := by
  induction hm with
  | start he => exact ⟨by rw [start_view he]; exact .start he, start_sound _⟩
  | @step σ st _ hv hok ih =>
    obtain ⟨hr, hs⟩ := ih
    have ha := hP _ _ hok
    cases st with
    | call op =>
      have hf : Fits W σ op _ := fits_call hs
      refine ⟨?_, call_sound hs hf⟩
      simp only [Step.run]
      rw [call_view hs (Reachable.inv hr) hf]
      exact .call op hr ha
    | init cls args given =>
      have hf := fits_init (W := W) (σ := σ) (cls := cls) (args := args) hv
      refine ⟨?_, call_sound hs hf⟩
      simp only [Step.run]
      rw [call_view hs (Reachable.inv hr) hf]
      exact .call _ hr ha
    | array xs =>
      obtain ⟨h1, h2⟩ := array_view (W := W) (xs := xs) hs
      exact ⟨by rw [h1]; exact hr, h2⟩
    | give s a x =>
      refine ⟨?_, give_sound hs hv⟩
      simp only [Step.run]
      rw [give_view W]
      exact .call _ hr ha
    | write x xs => exact ⟨write_reachable hp hs hr ha, write_sound hs⟩

theorem made_any {P : Shared → Step → Prop} (hm : Made W P σ) : Reachable W AnyCall σ.view ∧ Sound σ :=
  made_view (fun _ _ _ _ _ _ => trivial) (fun σ st _ => by
    cases st
    case write => exact fun _ _ => trivial
    all_goals trivial) hm

end Legwork.source
