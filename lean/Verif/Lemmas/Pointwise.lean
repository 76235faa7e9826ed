import Verif.Lemmas.Snr

/-!
# Calculations made on every entry of a list
-/

namespace Legwork

variable {α β γ δ : Type}

theorem ok_bind {ε : Type} (x : α) (f : α → Except ε β) : ((Except.ok x : Except ε α) >>= f) = f x := rfl

theorem error_bind {ε : Type} (e : ε) (f : α → Except ε β) : ((Except.error e : Except ε α) >>= f) = .error e := rfl

theorem except_bind_ok {ε : Type} {x : Except ε α} {f : α → Except ε β} {y : β} :
    (x >>= f) = .ok y ↔ ∃ a, x = .ok a ∧ f a = .ok y := by
  rcases x with e | a
  · constructor
    · intro h; cases h
    · rintro ⟨a, h, -⟩; cases h
  · constructor
    · intro h; exact ⟨a, rfl, h⟩
    · rintro ⟨a', h, h'⟩; cases h; exact h'

theorem pure_ok {ε : Type} {x y : α} : (pure x : Except ε α) = .ok y ↔ x = y := by
  constructor
  · intro h; cases h; rfl
  · rintro rfl; rfl

theorem mapM_nil_ok {f : α → Except PyErr β} {r : List β} : [].mapM f = .ok r ↔ r = [] := by
  rw [List.mapM_nil, pure_ok]
  exact eq_comm

theorem mapM_cons_ok {f : α → Except PyErr β} {a : α} {l : List α} {r : List β} :
    (a :: l).mapM f = .ok r ↔ ∃ b bs, f a = .ok b ∧ l.mapM f = .ok bs ∧ r = b :: bs := by
  rw [List.mapM_cons, except_bind_ok]
  constructor
  · rintro ⟨b, hb, h⟩
    rw [except_bind_ok] at h
    obtain ⟨bs, hbs, h⟩ := h
    exact ⟨b, bs, hb, hbs, (pure_ok.1 h).symm⟩
  · rintro ⟨b, bs, hb, hbs, rfl⟩
    refine ⟨b, hb, ?_⟩
    rw [except_bind_ok]
    exact ⟨bs, hbs, rfl⟩

/-- Two calculations on every entry, then a combination of the results, is one calculation on every entry. -/
theorem mapM_zipWith {f : α → Except PyErr β} {g : α → Except PyErr γ} (k : β → γ → δ) {l : List α} {vs : List δ} :
    (∃ xs ys, l.mapM f = .ok xs ∧ l.mapM g = .ok ys ∧ xs.zipWith k ys = vs) ↔
      l.mapM (fun a => do let x ← f a; let y ← g a; pure (k x y)) = .ok vs := by
  induction l generalizing vs with
  | nil =>
    rw [mapM_nil_ok]
    constructor
    · rintro ⟨xs, ys, h1, h2, rfl⟩
      rw [mapM_nil_ok] at h1 h2
      subst h1 h2
      rfl
    · rintro rfl
      exact ⟨[], [], by simp [pure, Except.pure], by simp [pure, Except.pure], rfl⟩
  | cons a l ih =>
    rw [mapM_cons_ok]
    constructor
    · rintro ⟨xs, ys, h1, h2, rfl⟩
      obtain ⟨x, xs, hx, hxs, rfl⟩ := mapM_cons_ok.1 h1
      obtain ⟨y, ys, hy, hys, rfl⟩ := mapM_cons_ok.1 h2
      refine ⟨k x y, xs.zipWith k ys, ?_, ih.1 ⟨xs, ys, hxs, hys, rfl⟩, rfl⟩
      rw [hx, ok_bind, hy]
      rfl
    · rintro ⟨v, vs, hv, hvs, rfl⟩
      obtain ⟨x, hx, hv⟩ := except_bind_ok.1 hv
      obtain ⟨y, hy, hv⟩ := except_bind_ok.1 hv
      obtain ⟨xs, ys, hxs, hys, rfl⟩ := ih.2 hvs
      refine ⟨x :: xs, y :: ys, mapM_cons_ok.2 ⟨_, _, hx, hxs, rfl⟩, mapM_cons_ok.2 ⟨_, _, hy, hys, rfl⟩, ?_⟩
      rw [← pure_ok.1 hv]
      rfl

/-- A pure step after each calculation. -/
theorem mapM_map_ok {f : α → Except PyErr β} (k : β → γ) {l : List α} {vs : List γ} :
    (∃ xs, l.mapM f = .ok xs ∧ xs.map k = vs) ↔ l.mapM (fun a => do let x ← f a; pure (k x)) = .ok vs := by
  induction l generalizing vs with
  | nil =>
    rw [mapM_nil_ok]
    constructor
    · rintro ⟨xs, h1, rfl⟩
      rw [mapM_nil_ok] at h1
      subst h1
      rfl
    · rintro rfl
      exact ⟨[], by simp [pure, Except.pure], rfl⟩
  | cons a l ih =>
    rw [mapM_cons_ok]
    constructor
    · rintro ⟨xs, h1, rfl⟩
      obtain ⟨x, xs, hx, hxs, rfl⟩ := mapM_cons_ok.1 h1
      refine ⟨k x, xs.map k, ?_, ih.1 ⟨xs, hxs, rfl⟩, rfl⟩
      rw [hx]
      rfl
    · rintro ⟨v, vs, hv, hvs, rfl⟩
      obtain ⟨x, hx, hv⟩ := except_bind_ok.1 hv
      obtain ⟨xs, hxs, rfl⟩ := ih.2 hvs
      refine ⟨x :: xs, mapM_cons_ok.2 ⟨_, _, hx, hxs, rfl⟩, ?_⟩
      rw [← pure_ok.1 hv]
      rfl

/-- Calculations succeed with the same results if they agree on every entry. -/
theorem mapM_congr_ok {f g : α → Except PyErr β} {l : List α} (h : ∀ a ∈ l, ∀ b, f a = .ok b ↔ g a = .ok b)
    {vs : List β} : l.mapM f = .ok vs ↔ l.mapM g = .ok vs := by
  induction l generalizing vs with
  | nil => rw [mapM_nil_ok, mapM_nil_ok]
  | cons a l ih =>
    rw [mapM_cons_ok, mapM_cons_ok]
    constructor
    · rintro ⟨b, bs, h1, h2, rfl⟩
      exact ⟨b, bs, (h a (by simp) b).1 h1, (ih fun a ha => h a (by simp [ha])).1 h2, rfl⟩
    · rintro ⟨b, bs, h1, h2, rfl⟩
      exact ⟨b, bs, (h a (by simp) b).2 h1, (ih fun a ha => h a (by simp [ha])).2 h2, rfl⟩

theorem mapM_map' {f : β → Except PyErr γ} {g : α → β} {l : List α} : (l.map g).mapM f = l.mapM fun a => f (g a) := by
  rw [List.mapM_map]
  rfl

theorem mapM_singleton_ok {f : α → Except PyErr β} {a : α} {b : β} : [a].mapM f = .ok [b] ↔ f a = .ok b := by
  rw [mapM_cons_ok]
  constructor
  · rintro ⟨b', bs, h1, -, h3⟩
    cases h3
    exact h1
  · intro h
    exact ⟨b, [], h, by simp [pure, Except.pure], rfl⟩

/-- A successful calculation on every entry, entry by entry. -/
theorem mapM_get? {f : α → Except PyErr β} {l : List α} {vs : List β} :
    l.mapM f = .ok vs ↔ vs.length = l.length ∧ ∀ (i : ℕ) a b, l[i]? = some a → vs[i]? = some b → f a = .ok b := by
  rw [mapM_except_ok_iff, List.forall₂_iff_get]
  constructor
  · rintro ⟨h1, h2⟩
    refine ⟨h1.symm, fun i a b ha hb => ?_⟩
    obtain ⟨hi, rfl⟩ := List.getElem?_eq_some_iff.1 ha
    obtain ⟨hj, rfl⟩ := List.getElem?_eq_some_iff.1 hb
    exact h2 i hi hj
  · rintro ⟨h1, h2⟩
    refine ⟨h1.symm, fun i hi hj => ?_⟩
    exact h2 i _ _ (List.getElem?_eq_getElem hi) (List.getElem?_eq_getElem hj)

/-! ### Masks -/

theorem np.select_map (mask : List Bool) (f : α → β) (xs : List α) :
    np.select mask (xs.map f) = (np.select mask xs).map f := by
  unfold np.select
  induction mask generalizing xs with
  | nil => rfl
  | cons b m ih =>
    cases xs with
    | nil => rfl
    | cons x xs =>
      have := ih xs
      cases b
      · simpa using this
      · simpa using this

theorem np.select_filter (p : α → Bool) (xs : List α) : np.select (xs.map p) xs = xs.filter p := by
  unfold np.select
  induction xs with
  | nil => rfl
  | cons x xs ih =>
    rw [List.map_cons, List.zip_cons_cons, List.filterMap_cons, List.filter_cons]
    cases p x
    · simpa using ih
    · simpa using ih

theorem np.assign_length (mask : List Bool) (xs vs : List α) : (np.assign mask xs vs).length = xs.length := by
  induction mask generalizing xs vs with
  | nil => cases xs <;> rfl
  | cons b m ih =>
    cases xs with
    | nil => cases b <;> rfl
    | cons x xs =>
      cases b with
      | false => simp [np.assign, ih]
      | true =>
        cases vs with
        | nil => simp [np.assign, ih]
        | cons v vs => simp [np.assign, ih]

theorem np.assign_map (mask : List Bool) (f : α → β) (xs vs : List α) :
    np.assign mask (xs.map f) (vs.map f) = (np.assign mask xs vs).map f := by
  induction mask generalizing xs vs with
  | nil => cases xs <;> rfl
  | cons b m ih =>
    cases xs with
    | nil => cases b <;> rfl
    | cons x xs =>
      cases b with
      | false => simp [np.assign, ih]
      | true =>
        cases vs with
        | nil => simpa [np.assign] using ih xs []
        | cons v vs => simp [np.assign, ih]

/-- Computing on the selected entries and writing the results back. -/
theorem mapM_assign {p : α → Bool} {f : α → Except PyErr β} {as : List α} {olds news : List β}
    (hl : olds.length = as.length) :
    (∃ vs, (as.filter p).mapM f = .ok vs ∧ np.assign (as.map p) olds vs = news) ↔
      (as.zip olds).mapM (fun x => if p x.1 then f x.1 else pure x.2) = .ok news := by
  induction as generalizing olds news with
  | nil =>
    have : olds = [] := List.length_eq_zero_iff.1 hl
    subst this
    simp only [List.filter_nil, List.map_nil, List.zip_nil_left]
    rw [mapM_nil_ok]
    constructor
    · rintro ⟨vs, -, rfl⟩; rfl
    · rintro rfl; exact ⟨[], by simp [pure, Except.pure], rfl⟩
  | cons a as ih =>
    cases olds with
    | nil => cases hl
    | cons o olds =>
      have hl' : olds.length = as.length := by simpa using hl
      rw [List.zip_cons_cons, mapM_cons_ok, List.filter_cons, List.map_cons]
      rcases hp : p a with _ | _
      · simp only [Bool.false_eq_true, if_false]
        constructor
        · rintro ⟨vs, h1, rfl⟩
          exact ⟨o, np.assign (as.map p) olds vs, rfl, (ih hl').1 ⟨vs, h1, rfl⟩, rfl⟩
        · rintro ⟨b, bs, h1, h2, rfl⟩
          obtain ⟨vs, h3, rfl⟩ := (ih hl').2 h2
          cases h1
          exact ⟨vs, h3, rfl⟩
      · simp only [if_true]
        constructor
        · rintro ⟨vs, h1, rfl⟩
          obtain ⟨v, vs, h2, h3, rfl⟩ := mapM_cons_ok.1 h1
          exact ⟨v, np.assign (as.map p) olds vs, h2, (ih hl').1 ⟨vs, h3, rfl⟩, rfl⟩
        · rintro ⟨b, bs, h1, h2, rfl⟩
          obtain ⟨vs, h3, rfl⟩ := (ih hl').2 h2
          exact ⟨b :: vs, mapM_cons_ok.2 ⟨b, vs, h1, h3, rfl⟩, rfl⟩

/-- One calculation after the other on every entry. -/
theorem mapM_comp {f g : α × β → Except PyErr β} {as : List α} {xs zs : List β} (hl : xs.length = as.length) :
    (∃ ys, (as.zip xs).mapM f = .ok ys ∧ (as.zip ys).mapM g = .ok zs) ↔
      (as.zip xs).mapM (fun x => do let y ← f x; g (x.1, y)) = .ok zs := by
  induction as generalizing xs zs with
  | nil =>
    have : xs = [] := List.length_eq_zero_iff.1 hl
    subst this
    simp only [List.zip_nil_left]
    constructor
    · rintro ⟨ys, h1, h2⟩; exact mapM_nil_ok.2 (mapM_nil_ok.1 h2)
    · intro h
      cases mapM_nil_ok.1 h
      exact ⟨[], by simp [pure, Except.pure], by simp [pure, Except.pure]⟩
  | cons a as ih =>
    cases xs with
    | nil => cases hl
    | cons x xs =>
      have hl' : xs.length = as.length := by simpa using hl
      rw [List.zip_cons_cons, mapM_cons_ok]
      constructor
      · rintro ⟨ys, h1, h2⟩
        obtain ⟨y, ys, h3, h4, rfl⟩ := mapM_cons_ok.1 h1
        rw [List.zip_cons_cons] at h2
        obtain ⟨z, zs, h5, h6, rfl⟩ := mapM_cons_ok.1 h2
        refine ⟨z, zs, ?_, (ih hl').1 ⟨ys, h4, h6⟩, rfl⟩
        rw [h3]
        exact h5
      · rintro ⟨z, zs, h1, h2, rfl⟩
        obtain ⟨y, h3, h5⟩ := except_bind_ok.1 h1
        obtain ⟨ys, h4, h6⟩ := (ih hl').2 h2
        refine ⟨y :: ys, mapM_cons_ok.2 ⟨_, _, h3, h4, rfl⟩, ?_⟩
        rw [List.zip_cons_cons]
        exact mapM_cons_ok.2 ⟨_, _, h5, h6, rfl⟩

end Legwork
