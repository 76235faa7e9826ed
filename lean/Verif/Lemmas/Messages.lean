import Verif.Lemmas.Verbose
import Verif.Lemmas.SnrEccEvolving
import Verif.Model.Messages

/-!
# Log messages
-/

namespace Legwork

open PyM hiding bind

section

variable {α β : Type}

/-- Up to what it logs `m` is `e`. -/
def Says (m : Log α) (e : Except PyErr α) : Prop := ∀ ms, (m ms).1 = e

theorem Says.lift (e : Except PyErr α) : Says (PyM.lift e) e := fun _ => rfl

theorem Says.pure (a : α) : Says (Pure.pure a) (Pure.pure a) := fun _ => rfl

theorem Says.tell (c : Prop) [Decidable c] (m : Message) : Says (tell_if c m) (Pure.pure ()) := fun _ => rfl

theorem Says.bind {m : Log α} {e : Except PyErr α} {f : α → Log β} {g : α → Except PyErr β} (hm : Says m e)
    (hf : ∀ a, Says (f a) (g a)) : Says (m >>= f) (e >>= g) := by
  intro ms
  have h := hm ms
  rw [bind_run]
  rcases hk : m ms with ⟨x | a, ms'⟩
  · rw [hk] at h
    rw [← h]
    rfl
  · rw [hk] at h
    rw [← h]
    exact hf a ms'

theorem Says.ite {c : Prop} [Decidable c] {m m' : Log α} {e e' : Except PyErr α} (h : Says m e) (h' : Says m' e') :
    Says (if c then m else m') (if c then e else e') := by
  split
  · exact h
  · exact h'

theorem lift_ok {H : Type} {e : Except PyErr α} {h h' : H} {a : α} (hl : PyM.lift e h = (.ok a, h')) :
    e = .ok a ∧ h' = h := by
  simp only [lift_run, Prod.mk.injEq] at hl
  exact ⟨hl.1, hl.2.symm⟩

theorem tell_ok {c : Prop} [Decidable c] {m : Message} {ms ms' : List Message} {x : Unit}
    (h : tell_if c m ms = (.ok x, ms')) : ms' = ms ++ if c then [m] else [] := by
  simp only [tell_if, modify_run, Prod.mk.injEq] at h
  rw [← h.2]
  split <;> simp

theorem raise_ok {c : Prop} [Decidable c] {e : PyErr} {x : Unit}
    (h : (if c then throw e else Pure.pure () : Except PyErr Unit) = .ok x) : ¬ c := by
  split at h
  · cases h
  · assumption

end

namespace evol

variable {n : ℕ}

theorem avoid_merger_times_says (K : Consts) (e b a : Fin n → ℝ) (ex : Bool) (tb : ℝ) (tm : Option (Fin n → ℝ))
    (ts : Fin n → List ℝ) : Says (avoid_merger_times_m K e b a ex tb tm ts) (avoid_merger_times K e b a ex tb tm ts) := by
  unfold avoid_merger_times_m avoid_merger_times
  cases tm
  all_goals
    refine Says.bind (Says.lift _) fun T => ?_
    intro ms
    simp only [bind_run, tell_if, modify_run, lift_run]
    split_ifs <;> rfl

theorem evol_ecc_says (K : Consts) (odeint : Odeint) (e : Fin n → ℝ) (te : Option (TEvol (Fin n))) (ns : ℕ)
    (ts : Option (Steps (Fin n))) (b m₁ m₂ a f : Option (Fin n → ℝ)) (vars : List String) (np : ℕ) (order : List ℕ)
    (am ex : Bool) (tb : ℝ) (tm : Option (Fin n → ℝ)) :
    Says (evol_ecc_m K odeint e te ns ts b m₁ m₂ a f vars np order am ex tb tm)
      (evol_ecc K odeint e te ns ts b m₁ m₂ a f vars np order am ex tb tm) := by
  unfold evol_ecc_m evol_ecc
  refine Says.bind (Says.lift _) fun x => ?_
  obtain ⟨b', a'⟩ := x
  dsimp only
  by_cases hc : wantsFreq vars = true ∧ (m₁.isNone = true ∨ m₂.isNone = true)
  · rw [if_pos hc, if_pos hc]
    exact fun ms => rfl
  · rw [if_neg hc, if_neg hc]
    intro ms
    rw [bind_run]
    revert ms
    refine Says.bind (Says.lift _) fun r => ?_
    cases am
    · exact Says.bind (Says.pure r) fun R => Says.lift _
    · exact Says.bind (avoid_merger_times_says K e b' a' ex tb tm r) fun R => Says.lift _

/-- The merger times behind the messages of a call that succeeded. -/
theorem avoid_merger_times_ok {K : Consts} {e b a : Fin n → ℝ} {ex : Bool} {tb : ℝ} {tm : Option (Fin n → ℝ)}
    {ts R : Fin n → List ℝ} {ms ms' : List Message}
    (h : avoid_merger_times_m K e b a ex tb tm ts ms = (.ok R, ms')) :
    ∃ T, (tm = some T ∨ tm = none ∧ get_t_merge_ecc K e (some a) none (some b) none none 0.15 (1 - 1e-4) ex = .ok T) ∧
      (∀ i, ts i ≠ []) ∧ (∀ i, R i = clamp_row Gyr (T i) tb (ts i)) ∧
      (open Classical in ms' = ms ++ (if ∃ i, ∃ t ∈ ts i, t > T i then [past_merger] else []) ++
        if ∀ i, ∀ t ∈ (ts i).tail, t ≥ T i - tb then [all_too_close] else []) := by
  unfold avoid_merger_times_m at h
  obtain ⟨T, m1, h1, h⟩ := bind_eq_ok h
  obtain ⟨x2, m2, h2, h⟩ := bind_eq_ok h
  obtain ⟨x3, m3, h3, h⟩ := bind_eq_ok h
  obtain ⟨x4, m4, h4, h⟩ := bind_eq_ok h
  simp only [pure_run, Prod.mk.injEq, Except.ok.injEq] at h
  obtain ⟨h1, e1⟩ := lift_ok h1
  have e2 := tell_ok h2
  obtain ⟨h3, e3⟩ := lift_ok h3
  have e4 := tell_ok h4
  have h3 := raise_ok h3
  push Not at h3
  refine ⟨T, ?_, h3, fun i => by rw [← h.1], ?_⟩
  · cases tm with
    | none => exact Or.inr ⟨rfl, h1⟩
    | some t =>
      simp only [pure, Except.pure, Except.ok.injEq] at h1
      exact Or.inl (by rw [h1])
  · rw [← h.2, e4, e3, e2, e1]

/-- What `evol_ecc` logs. -/
theorem evol_ecc_m_ok {K : Consts} {odeint : Odeint} {e : Fin n → ℝ} {te : Option (TEvol (Fin n))} {ns : ℕ}
    {steps : Option (Steps (Fin n))} {b m₁ m₂ a f : Option (Fin n → ℝ)} {vars : List String} {np : ℕ} {order : List ℕ}
    {am ex : Bool} {tb : ℝ} {tm : Option (Fin n → ℝ)} {ms ms' : List Message} {out : EvolOut (Fin n)}
    (h : evol_ecc_m K odeint e te ns steps b m₁ m₂ a f vars np order am ex tb tm ms = (.ok out, ms')) :
    ∃ b' a' ts, check_mass_freq_input K b m₁ m₂ a f = .ok (b', a') ∧
      create_timesteps_array K a' b' (some e) te ns steps = .ok ts ∧
      (am = false → ms' = ms) ∧
      (am = true → ∃ R, avoid_merger_times_m K e b' a' ex tb tm ts ms = (.ok R, ms')) := by
  unfold evol_ecc_m at h
  obtain ⟨⟨b', a'⟩, k1, h1, g1⟩ := bind_eq_ok h
  dsimp only at g1
  obtain ⟨u, k2, h2, g2⟩ := bind_eq_ok g1
  obtain ⟨ts, k3, h3, g3⟩ := bind_eq_ok g2
  have e3 : k3 = ms := by rw [(lift_ok h3).2, (lift_ok h2).2, (lift_ok h1).2]
  rw [e3] at g3
  refine ⟨b', a', ts, (lift_ok h1).1, (lift_ok h3).1, ?_, ?_⟩
  · rintro rfl
    rw [if_neg (by simp)] at g3
    obtain ⟨R, k4, h4, g4⟩ := bind_eq_ok g3
    rw [pure_run] at h4
    cases h4
    exact (lift_ok g4).2
  · rintro rfl
    rw [if_pos rfl] at g3
    obtain ⟨R, k4, h4, g4⟩ := bind_eq_ok g3
    rw [(lift_ok g4).2]
    exact ⟨R, h4⟩

/-- The merger times that belong to the arguments of a call, however they were given. -/
theorem get_t_merge_ecc_checked {K : Consts} {ι : Type} {e : ι → ℝ} {b m₁ m₂ a f : Option (ι → ℝ)} {b' a' : ι → ℝ}
    (h : check_mass_freq_input K b m₁ m₂ a f = .ok (b', a')) (s l : ℝ) (ex : Bool) :
    get_t_merge_ecc K e a f b m₁ m₂ s l ex = get_t_merge_ecc K e (some a') none (some b') none none s l ex := by
  unfold get_t_merge_ecc
  rw [h]
  rfl

end evol

namespace snr

theorem snr_ecc_evolving_says (C : Ctx) (odeint : evol.Odeint) (srcs : List EvolSrc) (H n : ℕ)
    (tm : Option (List ℝ)) (np : ℕ) (order : List ℕ) (rm rb : Bool) :
    Says (snr_ecc_evolving_m C odeint srcs H n tm np order rm rb)
      (snr_ecc_evolving C odeint srcs H n tm np order rm rb) := by
  unfold snr_ecc_evolving_m snr_ecc_evolving
  exact Says.bind (Says.lift _) fun T => Says.bind (evol.evol_ecc_says _ _ _ _ _ _ _ _ _ _ _ _ _ _ _ _ _ _) fun out =>
    Says.lift _

end snr

namespace source

section

variable {α β : Type}

/-- Up to what it logs `l` is `m`. -/
def Notes (l : PyM Session α) (m : M α) : Prop := ∀ k, (l k).1 = (m k.heap).1 ∧ (l k).2.heap = (m k.heap).2

theorem Notes.unlogged (m : M α) : Notes (unlogged m) m := fun _ => ⟨rfl, rfl⟩

theorem Notes.lift (e : Except PyErr α) : Notes (PyM.lift e) (PyM.lift e) := fun _ => ⟨rfl, rfl⟩

theorem Notes.pure (a : α) : Notes (Pure.pure a) (Pure.pure a) := fun _ => ⟨rfl, rfl⟩

theorem Notes.bind {l : PyM Session α} {m : M α} {f : α → PyM Session β} {g : α → M β} (hv : Notes l m)
    (hf : ∀ a, Notes (f a) (g a)) : Notes (l >>= f) (m >>= g) := by
  intro k
  obtain ⟨h1, h2⟩ := hv k
  rw [bind_run, bind_run]
  rcases hvk : l k with ⟨e | a, k'⟩ <;> rcases hm : m k.heap with ⟨e' | a', h'⟩ <;> rw [hvk, hm] at h1 h2 <;> cases h1
  · exact ⟨rfl, h2⟩
  · have := hf a k'
    dsimp only at h2 ⊢
    rw [← h2]
    exact this

theorem Notes.note {c : Prop} [Decidable c] {x : Message} {f : Unit → PyM Session β} {g : M β} (hf : Notes (f ()) g) :
    Notes (note_if c x >>= f) g := by
  intro k
  rw [bind_run]
  exact hf _

theorem note_ok {c : Prop} [Decidable c] {m : Message} {k k' : Session} {x : Unit}
    (h : note_if c m k = (.ok x, k')) : k'.messages = k.messages ++ if c then [m] else [] := by
  simp only [note_if, modify_run, Prod.mk.injEq] at h
  rw [← h.2]
  split <;> simp

theorem unlogged_ok {m : M α} {k k' : Session} {x : α} (h : source.unlogged m k = (.ok x, k')) :
    k'.messages = k.messages := by
  simp only [source.unlogged, Prod.mk.injEq] at h
  rw [← h.2]

end

theorem init_orientation_notes (a : InitArgs) : Notes (init_orientation_m a) (PyM.lift (init_orientation a)) := by
  unfold init_orientation_m init_orientation
  cases a.position with
  | none =>
    dsimp only
    split_ifs
    · exact Notes.lift _
    · exact Notes.lift _
    · exact Notes.pure _
  | some pos =>
    dsimp only
    apply Notes.note
    rw [pyLift_bind]
    refine Notes.bind (Notes.lift _) fun inc => ?_
    apply Notes.note
    rw [pyLift_bind]
    refine Notes.bind (Notes.lift _) fun pol => ?_
    split_ifs
    · exact Notes.lift _
    · rw [pyLift_bind]
      exact Notes.bind (Notes.lift _) fun p => Notes.pure _

theorem init_notes (W : World) (cls : Cls) (a : InitArgs) : Notes (init_m W cls a) (init W cls a) := by
  unfold init_m init init_cols
  split_ifs with hc
  · intro k
    exact ⟨rfl, rfl⟩
  · intro k
    rw [bind_run, lift_run]
    revert k
    dsimp only [pure, Except.pure]
    rw [pyLift_bind, pyBind_assoc]
    refine Notes.bind (init_orientation_notes a) fun x => ?_
    obtain ⟨pos, pol, inc⟩ := x
    dsimp only
    refine Notes.bind (Notes.lift _) fun cols => ?_
    refine Notes.bind (Notes.unlogged _) fun s => ?_
    refine Notes.bind (Notes.unlogged _) fun _ => ?_
    refine Notes.bind (Notes.unlogged _) fun _ => ?_
    apply Notes.note
    exact Notes.bind (Notes.unlogged _) fun _ => Notes.pure _

/-- What the constructor logs about positions and angles. -/
theorem init_orientation_logs {a : InitArgs} {k k' : Session} {x}
    (h : init_orientation_m a k = (.ok x, k')) : k'.messages = k.messages ++
      (if a.position.isSome = true ∧ a.inclination = none then [random_inclinations] else []) ++
      (if a.position.isSome = true ∧ a.polarisation = none then [random_polarisations] else []) := by
  unfold init_orientation_m at h
  cases hp : a.position with
  | none =>
    rw [hp] at h
    dsimp only at h
    split_ifs at h
    · cases (lift_ok h).1
    · cases (lift_ok h).1
    · simp only [pure_run, Prod.mk.injEq] at h
      simp [← h.2]
  | some pos =>
    rw [hp] at h
    dsimp only at h
    obtain ⟨_u, k1, h1, h⟩ := bind_eq_ok h
    obtain ⟨inc, k2, h2, h⟩ := bind_eq_ok h
    obtain ⟨_v, k3, h3, h⟩ := bind_eq_ok h
    obtain ⟨pol, k4, h4, h⟩ := bind_eq_ok h
    have e1 := note_ok h1
    obtain ⟨-, e2⟩ := lift_ok h2
    have e3 := note_ok h3
    obtain ⟨-, e4⟩ := lift_ok h4
    have e5 : k' = k4 := by
      split_ifs at h
      · cases (lift_ok h).1
      · obtain ⟨p, k5, h5, h⟩ := bind_eq_ok h
        obtain ⟨-, e5⟩ := lift_ok h5
        simp only [pure_run, Prod.mk.injEq] at h
        rw [← h.2, e5]
    rw [e5, e4, e3, e2, e1]
    simp

end source

end Legwork
