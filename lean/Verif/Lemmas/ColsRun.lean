import Verif.Lemmas.SizesRun

/-!
# What calls do to the sources of an existing object
-/

namespace Legwork.source

open Legwork.Spec Legwork.evol Legwork.utils Legwork.Props
open PyM hiding bind

variable {W : World} {h h' : Heap} {s : ℕ}

theorem run_unit {α : Type} (m : M α) (h : Heap) : ((do let _ ← m; pure ()) h).2 = (m h).2 := by
  rw [bind_run]
  rcases m h with ⟨e | x, h'⟩ <;> rfl

/-- Evolving into a new object only caches merger times. -/
theorem evolveNew_cols {t : EvolTime} (hi : Inv W false h) (hr : Rect (h.src s).cols) (hs : s < h.next) :
    ((evolve_sources_new W s t h).2.src s).cols = timed W.K (h.src s).cols := by
  have hcom := evolve_common_times (W := W) (t := t) hr
  have hi₁ := (inv_atoms W false).evolve_common s t h hi
  rcases evolve_sources_new_run W s t h with ⟨e, hrun⟩ | ⟨e, h₁, tol, p, he, htol, hp, hrun⟩
  · rw [hrun, hcom]
    simp
  · rw [he] at hi₁
    rw [hcom] at he
    obtain ⟨-, hh⟩ := Prod.mk.inj he
    have hn : h₁.next = h.next := by rw [← hh]; rfl
    have ha : Away W h₁ s h₁ := ⟨hi₁, by rw [hn]; exact hs, Untouched.refl _ _⟩
    have hinit := leaves_init (W := W) (s₀ := s) .Source (evolved_args (h₁.src s) tol (h₁.par p).dict e) h₁ h₁ ha
    have hc : (h₁.src s).cols = timed W.K (h.src s).cols := by rw [← hh]; simp
    rcases hrun with ⟨err, h₂, h1, h2⟩ | ⟨s', h₂, h1, h2⟩ <;> rw [h1] at hinit <;> rw [h2]
    · rw [hinit.same.src, hc]
    · obtain ⟨-, -, -, -, -, -, -, -, hs', -⟩ := init_ok h1
      rw [setSrc_src, Function.update_of_ne (by omega), hinit.same.src, hc]

/-- A call replaces at most the frequencies and merger times of an existing object, unless it is an evolution or an
assignment. -/
theorem cols_run {op : Op} (hi : Inv W false h) (ht : ∀ x, Tidy h x) (hok : SizeOk h op) (hs : s < h.next) :
    (∃ f t, ((op.run W h).2.src s).cols = { (h.src s).cols with f_orb := f, t_merge := t }) ∨
    (∃ c, op = .setCols s c ∧ ((op.run W h).2.src s).cols = c) ∨
    ∃ t T, op = .evolve s t ∧ TimesOf (h.src s).cols.n_sources T t ∧
      ((op.run W h).2.src s).cols = (h.src s).cols.evolved (evolvedOf W (h.src s).cols T) := by
  have hn : Neat W s (h.src s).cols h := ⟨hi, ht, rfl⟩
  have ha : Away W h s h := ⟨hi, hs, Untouched.refl _ _⟩
  by_cases hop : op.on h = some s
  swap
  · left
    rw [(away_run ha hop).same.src]
    exact ⟨_, _, rfl⟩
  have hq : Quiet s op → ∃ f t, ((op.run W h).2.src s).cols = { (h.src s).cols with f_orb := f, t_merge := t } :=
    fun hop => ⟨_, _, (neat_quiet hop h hn).cols⟩
  cases op with
  | setitem p key value => exact Or.inl (hq trivial)
  | update p kvs => exact Or.inl (hq trivial)
  | remove p => exact Or.inl (hq trivial)
  | copyParams p => exact Or.inl (hq trivial)
  | assign s params => exact Or.inl (hq trivial)
  | setTol s tol => exact Or.inl (hq trivial)
  | setSc s => exact Or.inl (hq trivial)
  | setG s b => exact Or.inl (hq trivial)
  | setPlain s t n b => exact Or.inl (hq trivial)
  | setCols s' c =>
    cases hop
    refine Or.inr (Or.inl ⟨c, rfl, ?_⟩)
    simp [Op.run, modSrc, modify_run]
  | getSnr s a n w => exact Or.inl (hq (Option.some.inj hop))
  | getSnrStationary s a w => exact Or.inl (hq (Option.some.inj hop))
  | getSnrEvolving s a n w => exact Or.inl (hq (Option.some.inj hop))
  | getMask s c st t => exact Or.inl (hq (Option.some.inj hop))
  | setA s' a =>
    cases hop
    obtain ⟨f, hf⟩ := set_a_tidy hn hok
    exact Or.inl ⟨_, _, hf.cols⟩
  | mergerTime s' save w ex =>
    cases hop
    obtain ⟨t, hf⟩ := merger_tidy (save := save) (ex := ex) (w := w) hn
    left
    unfold Op.run
    rw [run_unit]
    exact ⟨_, _, hf.cols⟩
  | evolve s' t =>
    cases hop
    rcases evolve_tidy (t := t) hn with ⟨T, hT, hf⟩ | hf
    · exact Or.inr (Or.inr ⟨t, T, rfl, hT, hf.cols⟩)
    · exact Or.inl ⟨_, _, hf.cols⟩
  | evolveNew s' t =>
    cases hop
    left
    unfold Op.run
    rw [run_unit, evolveNew_cols hi hn.rect hs]
    exact ⟨_, _, rfl⟩
  | getitem s' ind =>
    cases hop
    left
    unfold Op.run
    rw [run_unit, (leaves_getitem s ind h h ha).same.src]
    exact ⟨_, _, rfl⟩
  | copy s' =>
    cases hop
    left
    unfold Op.run
    rw [run_unit]
    have := (leaves_getitem (W := W) (s₀ := s) s (.slice none none none) h h ha).same.src
    unfold copy
    rw [this]
    exact ⟨_, _, rfl⟩
  | init cls args => cases hop
  | verification vbs rand => cases hop
  | load Φ st cls name ig isc np => cases hop

end Legwork.source
