import Verif.Lemmas.Shared
import Verif.Props.SourceEvolve

/-!
# C99: arrays that are shared and written into
-/

namespace Legwork.Props

open Legwork.Spec Legwork.source
open PyM hiding bind

variable {W : World} {σ : Shared} {P : Shared → Step → Prop}

/-- **C99.** A program may share arrays between attributes and write into them: what it sees of its objects could
have come about by assignments of new arrays alone. So what holds for all programs without sharing and writing (every
theorem about `Reachable` heaps) holds for those with it, also where assignments are restricted per object (`SizeOk`,
`Interpolating`). -/
theorem C99_as_assignments {ok : Heap → Op → Prop} (hp : PerObject ok) (hm : Made W (Allowed ok) σ) :
    Reachable W ok σ.view := (made_view hp (fun _ _ h => h) hm).1

theorem C99_any (hm : Made W AnyStep σ) : Reachable W AnyCall σ.view := (made_any hm).1

theorem C99_sizes (hm : Made W (Allowed SizeOk) σ) : Reachable W SizeOk σ.view :=
  C99_as_assignments (fun h h' s c he hc => by
    simp only [SizeOk] at hc ⊢
    rw [← he]
    exact hc) hm

/-- **C99.** A call does the same whether arrays are shared or not. -/
theorem C99_call (hm : Made W P σ) (op : Op) :
    (Step.run W σ (.call op)).view = (op.run W σ.view).2 :=
  call_view (made_any hm).2 (Reachable.inv (made_any hm).1) (fits_call (made_any hm).2)

/-- **C99.** A write reaches the attributes bound to the array and nothing else. -/
theorem C99_write {x : Arr} {xs : List ℝ} (hl : xs.length = (σ.mem x).length) :
    (∀ s a, ((σ.write x xs).view.src s).cols.get a =
      if σ.addr s a = x then ((σ.view.src s).cols.get a).map fun _ => xs else (σ.view.src s).cols.get a) ∧
    (∀ s, (σ.write x xs).view.src s = { σ.view.src s with cols := ((σ.write x xs).view.src s).cols } ∧
      ((σ.write x xs).view.src s).cols.position = (σ.view.src s).cols.position ∧
      ((σ.write x xs).view.src s).cols.merged = (σ.view.src s).cols.merged) ∧
    (σ.write x xs).view = { σ.view with src := (σ.write x xs).view.src } :=
  ⟨write_get hl, write_src x xs, write_rest x xs⟩

/-! ### Which arrays are shared -/

theorem made_ne {t : ℕ} {s : ℕ} {a : Attr} {x : Arr} (h : x.born < t) : x ≠ .made t s a := by
  rintro rfl
  exact lt_irrefl _ h

theorem call_kin {op : Op} {given : Attr → Option Arr} (hs : Sound σ) (hf : Fits W σ op given) (hk : Kin σ)
    (hold : ∀ a x, given a = some x → ∀ s' a', σ.addr s' a' = x → a = a' ∧ PassedOn a)
    (hnew : ∀ a a' x, given a = some x → given a' = some x → a = a') : Kin (σ.call W op given) := by
  intro s a s' a' he
  rcases call_addr (W := W) (σ := σ) (op := op) given s a with ⟨-, h1⟩ | h1 | ⟨x, hx, hok, hg, h1⟩ <;>
  rcases call_addr (W := W) (σ := σ) (op := op) given s' a' with ⟨-, h2⟩ | h2 | ⟨y, hy, hok', hg', h2⟩ <;>
  rw [h1, h2] at he
  · exact hk s a s' a' he
  · exact absurd he (made_ne (hs.born s a))
  · obtain ⟨h3, h4⟩ := hold a' y hg' s a he
    exact ⟨h3.symm, Or.inr (by rwa [← h3])⟩
  · exact absurd he.symm (made_ne (hs.born s' a'))
  · cases he
    exact ⟨rfl, Or.inl rfl⟩
  · exact absurd he.symm (made_ne (hf hok' a' y hg').1)
  · obtain ⟨h3, h4⟩ := hold a x hg s' a' he.symm
    exact ⟨h3, Or.inr h4⟩
  · exact absurd he (made_ne (hf hok a x hg).1)
  · subst he
    exact ⟨hnew a a' x hg hg', Or.inl (by rw [hx, hy])⟩

theorem ctor_some {given : Attr → Option Arr} {a : Attr} {x : Arr} (h : ctorArrays given a = some x) :
    given a = some x := by
  cases a <;> first | exact h | cases h

/-- **C99.** As long as the program itself binds no array twice, arrays are shared by nothing but the same attribute,
one of `m_1`, `m_2`, `dist`, `inclination` and `polarisation`, of different objects. -/
theorem C99_kin (hm : Made W OnceEach σ) : Kin σ := by
  induction hm with
  | start he =>
    intro s a s' a' h
    cases h
    exact ⟨rfl, Or.inl rfl⟩
  | @step σ st hm hv hok ih =>
    have hs := (made_any hm).2
    cases st with
    | call op =>
      refine call_kin hs (fits_call hs) ih ?_ ?_
      · intro a x hx s' a' he
        obtain ⟨s, t, -, ha, -, rfl⟩ := passed_some hx
        obtain ⟨h1, -⟩ := ih s' a' s a he
        exact ⟨h1.symm, ha⟩
      · intro a a' x hx hx'
        obtain ⟨s, t, rfl, -, -, rfl⟩ := passed_some hx
        obtain ⟨s', t', h1, -, -, h2⟩ := passed_some hx'
        exact (ih s a s' a' h2).1
    | init cls args given =>
      refine call_kin hs (fits_init hv) ih ?_ ?_
      · exact fun a x hx s' a' he => absurd he (hok.1 a x (ctor_some hx) s' a')
      · exact fun a a' x hx hx' => hok.2 a a' x (ctor_some hx) (ctor_some hx')
    | array xs => exact ih
    | give s₀ a₀ x =>
      intro s a s' a' he
      change (if s = s₀ ∧ a = a₀ then x else σ.addr s a) = (if s' = s₀ ∧ a' = a₀ then x else σ.addr s' a') at he
      split_ifs at he with h1 h2 h2
      · exact ⟨by rw [h1.2, h2.2], Or.inl (by rw [h1.1, h2.1])⟩
      · exact absurd (hok s' a' he.symm) h2
      · exact absurd (hok s a he) h1
      · exact ih s a s' a' he
    | write x xs =>
      have h1 : (Step.run W σ (.write x xs)).addr = σ.addr := by
        simp only [Step.run, Shared.write]
        split_ifs <;> rfl
      intro s a s' a' he
      rw [h1] at he
      exact ih s a s' a' he

/-- Every array belongs to one attribute of one object. -/
def Apart (σ : Shared) : Prop := ∀ s a s' a', σ.addr s a = σ.addr s' a' → s = s' ∧ a = a'

theorem call_apart {op : Op} {given : Attr → Option Arr} (hs : Sound σ) (hf : Fits W σ op given) (hk : Apart σ)
    (hold : ∀ a x, given a = some x → ∀ s' a', σ.addr s' a' ≠ x)
    (hnew : ∀ a a' x, given a = some x → given a' = some x → a = a') : Apart (σ.call W op given) := by
  intro s a s' a' he
  rcases call_addr (W := W) (σ := σ) (op := op) given s a with ⟨-, h1⟩ | h1 | ⟨x, hx, hok, hg, h1⟩ <;>
  rcases call_addr (W := W) (σ := σ) (op := op) given s' a' with ⟨-, h2⟩ | h2 | ⟨y, hy, hok', hg', h2⟩ <;>
  rw [h1, h2] at he
  · exact hk s a s' a' he
  · exact absurd he (made_ne (hs.born s a))
  · exact absurd he (hold a' y hg' s a)
  · exact absurd he.symm (made_ne (hs.born s' a'))
  · cases he
    exact ⟨rfl, rfl⟩
  · exact absurd he.symm (made_ne (hf hok' a' y hg').1)
  · exact absurd he.symm (hold a x hg s' a')
  · exact absurd he (made_ne (hf hok a x hg).1)
  · subst he
    exact ⟨by rw [hx, hy], hnew a a' x hg hg'⟩

/-- Without `create_new_class` no array is shared, as long as the program itself binds none twice. -/
theorem made_apart (hm : Made W NoneShared σ) : Apart σ := by
  induction hm with
  | start he =>
    intro s a s' a' h
    cases h
    exact ⟨rfl, rfl⟩
  | @step σ st hm hv hok ih =>
    have hs := (made_any hm).2
    cases st with
    | call op =>
      refine call_apart hs (fits_call hs) ih ?_ ?_
      · intro a x hx s' a' he
        obtain ⟨s, t, rfl, -⟩ := passed_some hx
        exact hok.2 s t rfl
      · intro a a' x hx hx'
        obtain ⟨s, t, rfl, -⟩ := passed_some hx
        exact absurd rfl (hok.2 s t)
    | init cls args given =>
      refine call_apart hs (fits_init hv) ih ?_ ?_
      · exact fun a x hx s' a' he => hok.1.1 a x (ctor_some hx) s' a' he
      · exact fun a a' x hx hx' => hok.1.2 a a' x (ctor_some hx) (ctor_some hx')
    | array xs => exact ih
    | give s₀ a₀ x =>
      intro s a s' a' he
      change (if s = s₀ ∧ a = a₀ then x else σ.addr s a) = (if s' = s₀ ∧ a' = a₀ then x else σ.addr s' a') at he
      split_ifs at he with h1 h2 h2
      · exact ⟨by rw [h1.1, h2.1], by rw [h1.2, h2.2]⟩
      · exact absurd (hok.1 s' a' he.symm) h2
      · exact absurd (hok.1 s a he) h1
      · exact ih s a s' a' he
    | write x xs =>
      have h1 : (Step.run W σ (.write x xs)).addr = σ.addr := by
        simp only [Step.run, Shared.write]
        split_ifs <;> rfl
      intro s a s' a' he
      rw [h1] at he
      exact ih s a s' a' he

/-- **C99.** Without `create_new_class`, and as long as the program itself binds no array twice, writing into the array
of an attribute does exactly what assigning a new array to this attribute of this object does. -/
theorem C99_write_is_assignment (hm : Made W NoneShared σ) {s : ℕ} {a : Attr} {xs ys : List ℝ}
    (hget : (σ.view.src s).cols.get a = some ys) (hl : xs.length = ys.length) :
    (σ.write (σ.addr s a) xs).view = ((Op.setCols s ((σ.view.src s).cols.put a xs)).run W σ.view).2 := by
  have hap := made_apart hm
  have hl' : xs.length = (σ.mem (σ.addr s a)).length := by rw [view_some hget, hl]
  rw [write_rest]
  change withSrc σ.view _ = withSrc σ.view (Function.update _ _ _)
  congr 1
  funext s'
  by_cases he : s' = s
  · subst he
    rw [Function.update_self]
    obtain ⟨h1, h2, h3⟩ := write_src (σ := σ) (σ.addr s' a) xs s'
    rw [h1]
    refine with_cols (cols_ext (fun b => ?_) ?_ ?_)
    · rw [write_get hl', put_get]
      by_cases hb : b = a
      · subst hb
        rw [if_pos rfl, if_pos rfl, hget]
        rfl
      · rw [if_neg hb, if_neg fun h => hb (hap s' b s' a h).2]
    · rw [h2, put_position]
    · rw [h3, put_merged]
  · rw [Function.update_of_ne he]
    exact write_other xs fun b hb => he (hap s' b s a hb).1

/-- **C99.** A call other than `evolve_sources(create_new_class=True)`, such as indexing, copying, loading or making the
verification binaries, leaves the objects it makes with arrays of their own: writing into one of them changes no object
from before, and writing into an array of such an object does not change the new ones. -/
theorem C99_new_objects (hm : Made W P σ) {op : Op} (hop : ∀ s t, op ≠ .evolveNew s t) {s s' : ℕ}
    (hs : s < σ.view.next) (hs' : σ.view.next ≤ s') (a : Attr) (xs : List ℝ) :
    (((Step.run W σ (.call op)).write ((Step.run W σ (.call op)).addr s' a) xs).view.src s =
      (Step.run W σ (.call op)).view.src s) ∧
    (((Step.run W σ (.call op)).write ((Step.run W σ (.call op)).addr s a) xs).view.src s' =
      (Step.run W σ (.call op)).view.src s') := by
  have hsound := (made_any hm).2
  have hlt : ¬ s' < σ.view.next := not_lt.2 hs'
  have hnew : ∀ b, (Step.run W σ (.call op)).addr s' b = .made σ.step s' b := by
    intro b
    rcases call_addr (W := W) (σ := σ) (op := op) (passed σ.view σ.addr op) s' b with ⟨h, -⟩ | h | ⟨x, -, -, hx, -⟩
    · exact absurd h hlt
    · exact h
    · obtain ⟨u, t, rfl, -⟩ := passed_some hx
      exact absurd rfl (hop u t)
  have hold : ∀ b c, (Step.run W σ (.call op)).addr s b ≠ .made σ.step s' c := by
    intro b c
    rcases call_addr (W := W) (σ := σ) (op := op) (passed σ.view σ.addr op) s b with ⟨-, h⟩ | h | ⟨x, h, -⟩
    · exact fun he => made_ne (hsound.born s b) (h.symm.trans he)
    · intro he
      have h1 : Arr.made σ.step s b = .made σ.step s' c := h.symm.trans he
      cases h1
      exact hlt hs
    · exact absurd h hs.ne
  refine ⟨write_other xs fun b hb => ?_, write_other xs fun b hb => ?_⟩
  · rw [hnew a] at hb
    exact hold b a hb
  · rw [hnew b] at hb
    exact hold a b hb.symm

/-- **C99.** An object made by `evolve_sources(create_new_class=True)` shares `m_1`, `m_2` and `dist`, and inclinations and
polarisations if there are any, with the original: writing into its array changes the original, and the other way around. The
arrays of the other attributes are its own: writing into them leaves the original as it was, and (unless the program has
bound the array to two attributes of the original) the other way around. -/
theorem C99_evolved (hm : Made W P σ) {s : ℕ} {t : EvolTime} (hs : s < σ.view.next)
    (hok : ((Op.evolveNew s t).run W σ.view).1 = .ok ()) (a : Attr) (xs : List ℝ) :
    let τ := Step.run W σ (.call (.evolveNew s t))
    let n := σ.view.next
    (PassedOn a → ∀ ys, (σ.view.src s).cols.get a = some ys → xs.length = ys.length →
      ((τ.write (τ.addr n a) xs).view.src s).cols.get a = some xs ∧
      ((τ.write (τ.addr s a) xs).view.src n).cols.get a = some xs) ∧
    ((¬ PassedOn a ∨ (σ.view.src s).cols.get a = none) → (∀ b, σ.addr s a = σ.addr s b → b = a) →
      (τ.write (τ.addr n a) xs).view.src s = τ.view.src s ∧ (τ.write (τ.addr s a) xs).view.src n = τ.view.src n) := by
  intro τ n
  have hsound := (made_any hm).2
  have hnn : ¬ n < σ.view.next := lt_irrefl _
  have hnew : ∀ b, τ.addr n b = (passed σ.view σ.addr (.evolveNew s t) b).getD (.made σ.step n b) := by
    intro b
    have h1 : n = σ.view.next ∧ ((Op.evolveNew s t).run W σ.view).1 = .ok () := ⟨rfl, hok⟩
    simp only [τ, Step.run, Shared.call, if_neg hnn, if_pos h1]
  have hkeep : ∀ b, PassedOn b → τ.addr s b = σ.addr s b := by
    intro b hb
    have h1 : ¬ Rebinds W σ.view (((Op.evolveNew s t).run W σ.view).1 = .ok ()) (.evolveNew s t) s b := by
      cases b <;> first | exact id | exact hb.elim
    simp only [τ, Step.run, Shared.call, if_pos hs, if_neg h1]
  have hpass : ∀ b, PassedOn b → ((σ.view.src s).cols.get b).isSome →
      passed σ.view σ.addr (.evolveNew s t) b = some (σ.addr s b) := by
    intro b hb hsome
    cases b <;> first | exact hb.elim | rfl | skip
    all_goals
      simp only [Cols.get] at hsome
      obtain ⟨y, hy⟩ := Option.isSome_iff_exists.1 hsome
      simp only [passed, hy, Option.map_some]
  constructor
  · intro ha ys hys hl
    have hsame : τ.addr n a = σ.addr s a := by
      rw [hnew, hpass a ha (by rw [hys]; rfl)]
      rfl
    have hmem : τ.mem (σ.addr s a) = ys := by
      rw [← view_some hys]
      exact call_mem_old _ (hsound.born s a)
    have hl' : xs.length = (τ.mem (σ.addr s a)).length := by rw [hmem, hl]
    have hview : τ.view = ((Op.evolveNew s t).run W σ.view).2 := C99_call hm _
    refine ⟨?_, ?_⟩
    · rw [hsame, write_get hl', if_pos (hkeep a ha)]
      have h1 : (τ.view.src s).cols.get a = some ys := by
        rw [hview, cols_frame (Reachable.inv (made_any hm).1) hs, hys]
        cases a <;> first | exact id | exact ha.elim
      rw [h1]
      rfl
    · rw [hkeep a ha, write_get hl', if_pos hsame]
      have h1 : (τ.view.src n).cols.get a = some ys := by
        rw [hview]
        exact evolved_get hok ha hys
      rw [h1]
      rfl
  · intro ha hown
    have hno : passed σ.view σ.addr (.evolveNew s t) a = none := by
      rcases hp : passed σ.view σ.addr (.evolveNew s t) a with _ | x
      · rfl
      · obtain ⟨s', t', he, h1, h2, -⟩ := passed_some hp
        cases he
        rcases ha with ha | ha
        · exact absurd h1 ha
        · rw [ha] at h2
          cases h2
    have hn1 : τ.addr n a = .made σ.step n a := by
      rw [hnew, hno]
      rfl
    have hborn : ∀ b, τ.addr s b = σ.addr s b ∨ τ.addr s b = .made σ.step s b := by
      intro b
      rcases call_addr (W := W) (σ := σ) (op := .evolveNew s t) (passed σ.view σ.addr (.evolveNew s t)) s b with
        ⟨-, h⟩ | h | ⟨x, h, -⟩
      · exact Or.inl h
      · exact Or.inr h
      · exact absurd h hs.ne
    refine ⟨write_other xs fun b hb => ?_, write_other xs fun b hb => ?_⟩
    · rw [hn1] at hb
      rcases hborn b with h | h <;> rw [h] at hb
      · exact made_ne (hsound.born s b) hb
      · simp only [Arr.made.injEq] at hb
        exact hs.ne hb.2.1
    · rw [hnew] at hb
      rcases hp : passed σ.view σ.addr (.evolveNew s t) b with _ | x
      · rw [hp] at hb
        simp only [Option.getD_none] at hb
        rcases hborn a with h | h <;> rw [h] at hb
        · exact made_ne (hsound.born s a) hb.symm
        · simp only [Arr.made.injEq] at hb
          exact hs.ne hb.2.1.symm
      · rw [hp] at hb
        obtain ⟨s', t', he, h1, h2, rfl⟩ := passed_some hp
        cases he
        simp only [Option.getD_some] at hb
        rcases hborn a with h | h <;> rw [h] at hb
        · have := hown b hb.symm
          subst this
          rw [hpass b h1 h2] at hno
          cases hno
        · exact made_ne (hsound.born s b) hb

/-! ### An example -/

/-- A program with an array of masses of its own. -/
noncomputable def sharedStart : Shared := ⟨Example.start, fun s a => .made 0 s a, fun _ => [], 1⟩

/-- It makes the array ... -/
noncomputable def sharedArray : Shared := Step.run Example.world sharedStart (.array [2e30, 3e30])

/-- ... and a `Source` with it. -/
noncomputable def sharedSource : Shared :=
  Step.run Example.world sharedArray (.init .Source Example.args fun a => if a = .m_1 then some (.own 1) else none)

theorem sharedSource_made : Made Example.world NoneShared sharedSource := by
  refine .step _ (.step _ (.start fun _ => rfl) trivial ⟨trivial, fun _ _ h => by cases h⟩) ?_ ⟨⟨?_, ?_⟩, fun _ _ h => by cases h⟩
  · intro a x hx
    simp only [Option.ite_none_right_eq_some] at hx
    obtain ⟨-, hx⟩ := hx
    cases hx
    exact Nat.lt_succ_self 1
  · intro a x hx s b
    simp only [Option.ite_none_right_eq_some] at hx
    obtain ⟨-, hx⟩ := hx
    cases hx
    intro h
    cases h
  · intro a b x ha hb
    simp only [Option.ite_none_right_eq_some] at ha hb
    rw [ha.1, hb.1]

theorem sharedSource_view : sharedSource.view = Example.heap := by
  have h1 : Made Example.world NoneShared sharedArray := .step _ (.start fun _ => rfl) trivial ⟨trivial, fun _ _ h => by cases h⟩
  have hs := (made_any h1).2
  have hstart : sharedStart.view = Example.start := start_view fun _ => rfl
  have hview : sharedArray.view = Example.start :=
    ((array_view (W := Example.world) (xs := [2e30, 3e30]) (start_sound Example.start)).1).trans hstart
  have hfill : Example.args.fill sharedArray.mem (ctorArrays fun a => if a = .m_1 then some (.own 1) else none) =
      Example.args := by
    simp only [InitArgs.fill, ctorArrays, if_true, Example.args, sharedArray, Step.run, sharedStart, reduceCtorEq, if_false]
    rfl
  have h2 := call_view (W := Example.world) (σ := sharedArray)
    (op := .init .Source (Example.args.fill sharedArray.mem (ctorArrays fun a => if a = .m_1 then some (.own 1) else none)))
    hs (Reachable.inv (made_any h1).1) (fits_init (by
      intro a x hx
      simp only [Option.ite_none_right_eq_some] at hx
      obtain ⟨-, hx⟩ := hx
      cases hx
      exact Nat.lt_succ_self 1))
  refine h2.trans ?_
  rw [hfill, hview]
  change ((init Example.world .Source Example.args >>= fun _ => pure ()) Example.start).2 = _
  rw [bind_run, Example.init_start]
  rfl

/-- Writing into the masses of the two binaries is assigning to them, ... -/
example (x y : ℝ) : (sharedSource.write (sharedSource.addr 0 .m_1) [x, y]).view =
    ((Op.setCols 0 { Example.cols with m_1 := [x, y] }).run Example.world Example.heap).2 := by
  have h1 := C99_write_is_assignment sharedSource_made (s := 0) (a := .m_1) (xs := [x, y]) (ys := [2e30, 3e30])
    (by rw [sharedSource_view, Example.heap_src]; rfl) rfl
  rw [sharedSource_view, Example.heap_src] at h1
  exact h1

theorem sharedSource_evolves : ((Op.evolveNew 0 (.scalar 1e8)).run Example.world sharedSource.view).1 = .ok () := by
  rw [sharedSource_view]
  obtain ⟨s', h', h₁, h2, -⟩ := C47_new_class (W := Example.world) (T := fun _ => 1e8) (t := .scalar 1e8)
    (Example.reachable (ok := AnyCall) trivial) example_rect example_coherent (by simp [Example.heap, heapAfterInit])
    (fun _ _ => rfl) (by rw [Example.heap_src]; rfl) Example.find_eccTol (by rw [Example.heap_src]; rfl)
  change ((evolve_sources_new Example.world 0 (.scalar 1e8) >>= fun _ => pure ()) Example.heap).1 = _
  rw [bind_run, h2]
  rfl

/-- ... it is also writing into the array the program made, ... -/
example : sharedSource.addr 0 .m_1 = .own 1 := by
  have h1 : Made Example.world NoneShared sharedArray := .step _ (.start fun _ => rfl) trivial ⟨trivial, fun _ _ h => by cases h⟩
  have hstart : sharedStart.view = Example.start := start_view fun _ => rfl
  have hview : sharedArray.view = Example.start :=
    ((array_view (W := Example.world) (xs := [2e30, 3e30]) (start_sound Example.start)).1).trans hstart
  have hfill : Example.args.fill sharedArray.mem (ctorArrays fun a => if a = .m_1 then some (.own 1) else none) =
      Example.args := by
    simp only [InitArgs.fill, ctorArrays, if_true, Example.args, sharedArray, Step.run, sharedStart, reduceCtorEq, if_false]
    rfl
  have hrun : ((Op.init .Source (Example.args.fill sharedArray.mem
      (ctorArrays fun a => if a = .m_1 then some (.own 1) else none))).run Example.world sharedArray.view).1 = .ok () := by
    rw [hfill, hview]
    change ((init Example.world .Source Example.args >>= fun _ => pure ()) Example.start).1 = _
    rw [bind_run, Example.init_start]
    rfl
  have hn : ¬ 0 < sharedArray.view.next := by rw [hview]; exact lt_irrefl _
  have hn' : 0 = sharedArray.view.next ∧ ((Op.init .Source (Example.args.fill sharedArray.mem
      (ctorArrays fun a => if a = .m_1 then some (.own 1) else none))).run Example.world sharedArray.view).1 = .ok () :=
    ⟨by rw [hview]; rfl, hrun⟩
  simp only [sharedSource, Step.run, Shared.call, if_neg hn, if_pos hn']
  rfl

/-- ... and writing into the masses of an evolved new object changes those of the original. -/
noncomputable example (x y : ℝ) := (C99_evolved sharedSource_made (s := 0) (t := .scalar 1e8)
  (by rw [sharedSource_view]; simp [Example.heap, heapAfterInit]) sharedSource_evolves .m_1 [x, y]).1 trivial [2e30, 3e30]
  (by rw [sharedSource_view, Example.heap_src]; rfl) rfl

end Legwork.Props
