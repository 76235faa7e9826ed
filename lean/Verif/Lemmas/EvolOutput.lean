import Verif.Lemmas.Grid

/-!
# Helper lemmas on the output of evolutions
-/

namespace Legwork.evol

open np utils

variable {ι : Type*}

/-- The output names recognised by `evol_circ` (and, with `ecc`, by `evol_ecc`). -/
def isKnown (withEcc : Bool) (s : String) : Bool :=
  s = "timesteps" || (withEcc && s = "ecc") || s = "a" || s = "f_orb" || s = "f_GW"

/-- The value stored for a recognised name. -/
def getVar (withEcc : Bool) (v : EvolVars ι) (s : String) : Option (ι → List ℝ) :=
  if s = "timesteps" then some v.timesteps
  else if withEcc = true ∧ s = "ecc" then v.ecc
  else if s = "a" then v.a
  else if s = "f_orb" then v.f_orb
  else if s = "f_GW" then v.f_orb.map fun f i => (f i).map (2 * ·)
  else none

/-- Unwrapping of a single output. -/
def unwrap (xs : List (ι → List ℝ)) : Except PyErr (EvolOut ι) :=
  match xs with
  | [] => .error .IndexError
  | [x] => .ok (.one x)
  | xs => .ok (.many xs)

theorem output_step_known (we : Bool) (v : EvolVars ι) (acc : List (ι → List ℝ)) (s : String) (x : ι → List ℝ)
    (hk : isKnown we s = true) (hx : getVar we v s = some x) : output_step we v acc s = .ok (acc ++ [x]) := by
  unfold getVar at hx
  unfold output_step
  by_cases h1 : s = "timesteps"
  · simp only [if_pos h1, Option.some.injEq] at hx ⊢; rw [hx]; rfl
  by_cases h2 : we = true ∧ s = "ecc"
  · simp only [if_neg h1, if_pos h2] at hx ⊢; rw [hx]; rfl
  by_cases h3 : s = "a"
  · simp only [if_neg h1, if_neg h2, if_pos h3] at hx ⊢; rw [hx]; rfl
  by_cases h4 : s = "f_orb"
  · simp only [if_neg h1, if_neg h2, if_neg h3, if_pos h4] at hx ⊢; rw [hx]; rfl
  by_cases h5 : s = "f_GW"
  · simp only [if_neg h1, if_neg h2, if_neg h3, if_neg h4, if_pos h5] at hx ⊢
    rcases hf : v.f_orb with _ | f
    · rw [hf] at hx; simp at hx
    · rw [hf] at hx
      simp only [Option.map_some, Option.some.injEq] at hx
      rw [← hx]; rfl
  · simp [isKnown] at hk; tauto

theorem output_step_unknown (we : Bool) (v : EvolVars ι) (acc : List (ι → List ℝ)) (s : String)
    (hk : ¬ isKnown we s = true) : output_step we v acc s = .ok acc := by
  simp only [isKnown, Bool.or_eq_true, decide_eq_true_eq, Bool.and_eq_true, not_or] at hk
  obtain ⟨⟨⟨⟨h1, h2⟩, h3⟩, h4⟩, h5⟩ := hk
  unfold output_step
  simp only [if_neg h1, if_neg h2, if_neg h3, if_neg h4, if_neg h5]; rfl

theorem construct_output_eq (we : Bool) (v : EvolVars ι) (vars : List String) (val : String → ι → List ℝ)
    (hval : ∀ s ∈ vars, isKnown we s = true → getVar we v s = some (val s)) :
    construct_output we v vars = unwrap ((vars.filter (isKnown we)).map val) := by
  have key : ∀ (vars : List String), (∀ s ∈ vars, isKnown we s = true → getVar we v s = some (val s)) →
      ∀ acc : List (ι → List ℝ), vars.foldlM (output_step we v) acc
        = .ok (acc ++ (vars.filter (isKnown we)).map val) := by
    intro vars
    induction vars with
    | nil => intro _ acc; simp [pure, Except.pure]
    | cons s ss ih =>
      intro h acc
      have ih' := ih (fun t ht => h t (by simp [ht]))
      rw [List.foldlM_cons]
      by_cases hk : isKnown we s = true
      · rw [output_step_known we v acc s _ hk (h s (by simp) hk), List.filter_cons_of_pos hk]
        simp only [bind, Except.bind, ih', List.map_cons, List.append_assoc, List.singleton_append]
      · rw [output_step_unknown we v acc s hk, List.filter_cons_of_neg hk]
        simp only [bind, Except.bind, ih']
  unfold construct_output
  rw [key vars hval []]
  simp only [bind, Except.bind, List.nil_append]
  generalize (vars.filter (isKnown we)).map val = xs
  match xs with
  | [] => rfl
  | [x] => rfl
  | x :: y :: zs => rfl

end Legwork.evol

namespace Legwork.evol

open np utils

variable {ι : Type*}

theorem integrate_pool_eq {n : ℕ} (odeint : Odeint) (order : List ℕ) (hall : ∀ i < n, i ∈ order)
    (ecc : Fin n → ℝ) (ts : Fin n → List ℝ) (b c : Fin n → ℝ) :
    (integrate_pool odeint order ecc ts b c).map (fun r => r.getD []) = integrate_serial odeint ecc ts b c := by
  unfold integrate_pool integrate_serial
  rw [pool_map_eq]
  · rw [List.map_map]
    apply List.ext_getElem
    · simp
    · intro i h1 h2
      simp [integrate_de_dt]
  · intro i hi
    apply hall
    simpa using hi

theorem integrate_eq {n : ℕ} (odeint : Odeint) (n_proc : ℕ) (order : List ℕ)
    (hall : n_proc > 1 → ∀ i < n, i ∈ order) (ecc : Fin n → ℝ) (ts : Fin n → List ℝ) (b c : Fin n → ℝ) :
    integrate odeint n_proc order ecc ts b c
      = fun i => (odeint (fun e => de_dt e (b i) (c i)) (ecc i) (ts i)).map nan_to_num := by
  have h : (if n_proc > 1 then (integrate_pool odeint order ecc ts b c).map (fun r => r.getD [])
      else integrate_serial odeint ecc ts b c) = integrate_serial odeint ecc ts b c := by
    split_ifs with h
    · exact integrate_pool_eq odeint order (hall h) ecc ts b c
    · rfl
  unfold integrate
  simp only [h]
  funext i
  simp [integrate_serial]

/-- The value reported by `evol_ecc` for each name, from the times `R` and the eccentricities `E`. -/
noncomputable def eccVal {n : ℕ} (K : Consts) (R E : Fin n → List ℝ) (c m₁ m₂ : Fin n → ℝ) (s : String) :
    Fin n → List ℝ :=
  let A : Fin n → List ℝ := fun i => (E i).map fun e => get_a_from_ecc e (c i)
  let F : Fin n → List ℝ := fun i => (A i).map fun a => f_or_merged K AU a (m₁ i) (m₂ i)
  if s = "timesteps" then R else if s = "ecc" then E else if s = "a" then A else if s = "f_orb" then F
  else fun i => (F i).map (2 * ·)

theorem wantsFreq_of_mem {vars : List String} {s : String} (h : s ∈ vars) (hs : s = "f_orb" ∨ s = "f_GW") :
    wantsFreq vars = true := by
  unfold wantsFreq
  rw [List.any_eq_true]
  exact ⟨s, h, by simpa using hs⟩

theorem wantsSep_of_mem {vars : List String} {s : String} (h : s ∈ vars) (hs : s = "a" ∨ s = "f_orb" ∨ s = "f_GW") :
    wantsSep vars = true := by
  unfold wantsSep
  rw [List.any_eq_true]
  exact ⟨s, h, by simpa [or_assoc] using hs⟩

theorem not_freq_missing {vars : List String} {m₁ m₂ : Option (ι → ℝ)}
    (hm : wantsFreq vars = true → m₁.isSome ∧ m₂.isSome) :
    ¬ (wantsFreq vars = true ∧ (m₁.isNone = true ∨ m₂.isNone = true)) := by
  rintro ⟨hw, hor⟩
  obtain ⟨q1, q2⟩ := hm hw
  rcases hor with h | h
  · rw [Option.isNone_iff_eq_none] at h; rw [h] at q1; simp at q1
  · rw [Option.isNone_iff_eq_none] at h; rw [h] at q2; simp at q2

theorem evol_ecc_eq {n : ℕ} (K : Consts) (odeint : Odeint) (ecc : Fin n → ℝ) (te : Option (TEvol (Fin n))) (ns : ℕ)
    (steps : Option (Steps (Fin n))) (beta m₁ m₂ a f : Option (Fin n → ℝ)) (vars : List String) (np : ℕ)
    (order : List ℕ) (avoid ex : Bool) (tb : ℝ) (tm : Option (Fin n → ℝ)) {b' a' : Fin n → ℝ}
    {ts R : Fin n → List ℝ}
    (hin : check_mass_freq_input K beta m₁ m₂ a f = .ok (b', a'))
    (hm : wantsFreq vars = true → m₁.isSome ∧ m₂.isSome)
    (hts : create_timesteps_array K a' b' (some ecc) te ns steps = .ok ts)
    (hR : (if avoid = true then avoid_merger_times K ecc b' a' ex tb tm ts else pure ts) = .ok R) :
    evol_ecc K odeint ecc te ns steps beta m₁ m₂ a f vars np order avoid ex tb tm
      = unwrap ((vars.filter (isKnown true)).map
          (eccVal K R (integrate odeint np order ecc R b' (fun i => c_0 (a' i) (ecc i)))
            (fun i => c_0 (a' i) (ecc i)) (m₁.getD 0) (m₂.getD 0))) := by
  have h1 := not_freq_missing hm
  unfold evol_ecc
  cases avoid <;> simp only [pure, Except.pure, Bool.false_eq_true, if_false, if_true] at hR
  all_goals simp only [hin, bind, Except.bind, if_neg h1, hts, pure, Except.pure, hR, Bool.false_eq_true, if_false,
    if_true]
  on_goal 1 => injection hR with hR; subst hR
  all_goals
    apply construct_output_eq
    intro s hs hk
    unfold getVar eccVal
    by_cases h1 : s = "timesteps"
    · simp [h1]
    by_cases h2 : s = "ecc"
    · simp [h2]
    by_cases h3 : s = "a"
    · simp [h3, wantsSep_of_mem hs (Or.inl h3)]
    have hf : s = "f_orb" ∨ s = "f_GW" := by
      simp [isKnown] at hk; tauto
    have w1 := wantsFreq_of_mem hs hf
    have w2 := wantsSep_of_mem hs (Or.inr hf)
    obtain ⟨q1, q2⟩ := hm w1
    obtain ⟨m1, rfl⟩ := Option.isSome_iff_exists.1 q1
    obtain ⟨m2, rfl⟩ := Option.isSome_iff_exists.1 q2
    rcases hf with rfl | rfl
    · simp [w1, w2]
    · simp [w1, w2]

/-- The value reported by `evol_circ` for each name. -/
noncomputable def circVal (K : Consts) (u : ℝ) (ts : ι → List ℝ) (b a m₁ m₂ : ι → ℝ) (s : String) : ι → List ℝ :=
  let A : ι → List ℝ := fun i => (ts i).map (a_circ (a i) (b i))
  let F : ι → List ℝ := fun i => (A i).map fun a => f_or_merged K u a (m₁ i) (m₂ i)
  if s = "timesteps" then ts else if s = "a" then A else if s = "f_orb" then F else fun i => (F i).map (2 * ·)

theorem evol_circ_eq (K : Consts) (u : ℝ) (te : Option (TEvol ι)) (ns : ℕ) (steps : Option (Steps ι))
    (beta m₁ m₂ a f : Option (ι → ℝ)) (vars : List String) {b' a' : ι → ℝ} {ts : ι → List ℝ}
    (hin : check_mass_freq_input K beta m₁ m₂ a f = .ok (b', a'))
    (hm : wantsFreq vars = true → m₁.isSome ∧ m₂.isSome)
    (hts : create_timesteps_array K a' b' (some fun _ => 0) te ns steps = .ok ts) :
    evol_circ K u te ns steps beta m₁ m₂ a f vars
      = unwrap ((vars.filter (isKnown false)).map (circVal K u ts b' a' (m₁.getD 0) (m₂.getD 0))) := by
  have h1 := not_freq_missing hm
  unfold evol_circ
  simp only [hin, bind, Except.bind, if_neg h1, hts]
  apply construct_output_eq
  intro s hs hk
  unfold getVar circVal
  by_cases h1 : s = "timesteps"
  · simp [h1]
  by_cases h3 : s = "a"
  · simp [h3]
  have hf : s = "f_orb" ∨ s = "f_GW" := by
    simp [isKnown] at hk; tauto
  have w1 := wantsFreq_of_mem hs hf
  obtain ⟨q1, q2⟩ := hm w1
  obtain ⟨m1, rfl⟩ := Option.isSome_iff_exists.1 q1
  obtain ⟨m2, rfl⟩ := Option.isSome_iff_exists.1 q2
  rcases hf with rfl | rfl
  · simp [w1]
  · simp [w1]

end Legwork.evol
