import Verif.Lemmas.EvolOutput
import Verif.Lemmas.MergeTime

/-!
# C21, C22, C23, C52, C59: inputs, grids and outputs of the evolutions
-/

namespace Legwork.Props

open Legwork.utils Legwork.evol Legwork.Spec

variable {ι : Type*}

/-! ## C21 -/

/-- **C21** (errors). The inputs are rejected, always with `ValueError`, exactly when beta cannot be determined or
the separation cannot be determined. -/
theorem C21_value_error_iff (K : Consts) (β m₁ m₂ a f : Option (ι → ℝ)) :
    (check_mass_freq_input K β m₁ m₂ a f = .error .ValueError ↔
      (β = none ∧ (m₁ = none ∨ m₂ = none)) ∨ (a = none ∧ f = none) ∨ (a = none ∧ (m₁ = none ∨ m₂ = none))) ∧
    ∀ e, check_mass_freq_input K β m₁ m₂ a f = .error e → e = .ValueError := by
  rcases β with _ | β <;> rcases m₁ with _ | m₁ <;> rcases m₂ with _ | m₂ <;> rcases a with _ | a <;>
    rcases f with _ | f <;>
    simp [check_mass_freq_input, bind, Except.bind, pure, Except.pure, throw, throwThe, MonadExceptOf.throw]

/-- **C21** (values). Accepted inputs: a supplied beta or separation is returned unchanged whatever else is supplied;
otherwise beta is `(64/5) G³/c⁵ m₁ m₂ (m₁+m₂)` and the separation is the positive solution of Kepler's third law. -/
theorem C21_values (K : Consts) (β m₁ m₂ a f : Option (ι → ℝ)) {b' a' : ι → ℝ}
    (h : check_mass_freq_input K β m₁ m₂ a f = .ok (b', a')) :
    (∀ b, β = some b → b' = b) ∧ (∀ x, a = some x → a' = x) ∧
    (β = none → ∃ p q, m₁ = some p ∧ m₂ = some q ∧
      ∀ i, b' i = 64 / 5 * K.G ^ 3 / K.c ^ 5 * p i * q i * (p i + q i)) ∧
    (a = none → ∃ g p q, f = some g ∧ m₁ = some p ∧ m₂ = some q ∧
      ∀ i, 0 < g i → 0 < p i → 0 < q i → 0 < a' i ∧ KeplerThird K (g i) (a' i) (p i) (q i)) := by
  have kep : ∀ {g p q : ℝ}, 0 < g → 0 < p → 0 < q → 0 < get_a_from_f_orb K g p q ∧
      KeplerThird K g (get_a_from_f_orb K g p q) p q := fun hg hp hq =>
    ⟨get_a_from_f_orb_pos K hg hp hq, (C01_get_a_iff_kepler K hg (get_a_from_f_orb_pos K hg hp hq) hp hq).1 rfl⟩
  rcases β with _ | β <;> rcases m₁ with _ | m₁ <;> rcases m₂ with _ | m₂ <;> rcases a with _ | a <;>
    rcases f with _ | f <;>
    simp [check_mass_freq_input, bind, Except.bind, pure, Except.pure, throw, throwThe, MonadExceptOf.throw] at h ⊢ <;>
    obtain ⟨rfl, rfl⟩ := h <;> simp
  · exact ⟨fun i => by unfold beta; ring, fun i hg hp hq => kep hg hp hq⟩
  · exact fun i => by unfold beta; ring
  · exact fun i => by unfold beta; ring
  · exact fun i hg hp hq => kep hg hp hq

/-- The hypothesis of `C21_values` is met with masses and a frequency only. -/
example (K : Consts) : ∃ b' a', check_mass_freq_input K none (some fun _ : Fin 2 => 1e30) (some fun _ => 2e30) none
    (some fun _ => 1e-3) = .ok (b', a') := ⟨_, _, rfl⟩

/-! ## C22 -/

/-- **C22** (evolution times). Without explicit timesteps every source gets `n_step` equally spaced times from 0 to
its evolution time, strictly increasing when that time is positive. A scalar time is used for every source. -/
theorem C22_grid_from_t_evol (K : Consts) (a β : ι → ℝ) (ecc : Option (ι → ℝ)) (n : ℕ) (te : TEvol ι) :
    ∃ ts, create_timesteps_array K a β ecc (some te) n none = .ok ts ∧
      ∀ i, ∀ t, te = .scalar t ∨ (∃ ta, te = .array ta ∧ ta i = t) →
        EvenGrid t n (ts i) ∧ (0 < t → (ts i).Pairwise (· < ·)) := by
  rcases te with t | ta
  · refine ⟨_, rfl, fun i t' ht => ?_⟩
    rcases ht with h | ⟨_, h, _⟩
    · injection h with h; subst h
      exact ⟨linspace_even t n, fun h => linspace_mono h n⟩
    · cases h
  · refine ⟨_, rfl, fun i t' ht => ?_⟩
    rcases ht with h | ⟨x, h, hx⟩
    · cases h
    · injection h with h; subst h; subst hx
      exact ⟨linspace_even _ n, fun h => linspace_mono h n⟩

/-- **C22** (default time). With no times at all the grid runs to the merger time reported by
`get_t_merge_ecc`, and is strictly increasing for every bound binary. -/
theorem C22_default_grid (K : Consts) (a β ecc T : ι → ℝ) (n : ℕ)
    (hT : get_t_merge_ecc K ecc (some a) none (some β) none none 0.15 (1 - 1e-4) true = .ok T) :
    ∃ ts, create_timesteps_array K a β (some ecc) none n none = .ok ts ∧
      (∀ i, EvenGrid (T i) n (ts i)) ∧
      ((∀ i, 0 < a i ∧ 0 < β i ∧ 0 ≤ ecc i ∧ ecc i < 1) → ∀ i, (ts i).Pairwise (· < ·)) := by
  refine ⟨fun i => np.linspace (T i) n, ?_, fun i => linspace_even _ n, fun h i => ?_⟩
  · simp only [create_timesteps_array, hT, bind, Except.bind]; rfl
  · rw [get_t_merge_ecc_a K ecc a β true (by norm_num) (by norm_num) (fun i => (h i).2.2.1)] at hT
    injection hT with hT
    subst hT
    obtain ⟨h1, h2, h3, h4⟩ := h i
    exact linspace_mono (t_val_bounds h2 h1 h3 h4 true).1 n

/-- **C22** (explicit timesteps). A 1D grid is used for every source and a 2D array is used as it is, whatever
`t_evol` and `n_step` are. -/
theorem C22_explicit_timesteps (K : Consts) (a β : ι → ℝ) (ecc : Option (ι → ℝ)) (te : Option (TEvol ι)) (n : ℕ)
    (row : List ℝ) (rows : ι → List ℝ) :
    create_timesteps_array K a β ecc te n (some (.grid row)) = .ok (fun _ => row) ∧
    create_timesteps_array K a β ecc te n (some (.grids rows)) = .ok rows := ⟨rfl, rfl⟩

/-- **C22** (degenerate case). `n_step = 1` yields the time 0 only, so the evolution time is never reached. -/
theorem C22_single_step_never_reaches_t_evol (K : Consts) (a β : ι → ℝ) (ecc : Option (ι → ℝ)) (t : ℝ) :
    create_timesteps_array K a β ecc (some (.scalar t)) 1 none = .ok (fun _ => [0]) := by
  simp [create_timesteps_array, np.linspace, bind, Except.bind, pure, Except.pure, List.range_succ]

example (K : Consts) : ∃ T, get_t_merge_ecc K (fun _ : Fin 2 => 0.5) (some fun _ => 1) none (some fun _ => 1) none none
    0.15 (1 - 1e-4) true = .ok T :=
  ⟨_, get_t_merge_ecc_a K _ _ _ true (by norm_num) (by norm_num) (fun _ => by norm_num)⟩

/-! ## C23 -/

/-- **C23**. With `avoid_merger=True`, for grids with at least one time, none starting before -1 Gyr: the reported
times are the requested ones with every later time at or beyond `t_merge - t_before` replaced by the last allowed
time; eccentricities are integrated on exactly these times; a non-decreasing grid stays non-decreasing. -/
theorem C23_avoid_merger {n : ℕ} (K : Consts) (odeint : Odeint) (ecc T : Fin n → ℝ) (te : Option (TEvol (Fin n)))
    (ns : ℕ) (steps : Option (Steps (Fin n))) (β m₁ m₂ a f tm : Option (Fin n → ℝ)) (np : ℕ) (order : List ℕ)
    (hall : np > 1 → ∀ i < n, i ∈ order) (ex : Bool) (tb : ℝ) {b' a' : Fin n → ℝ} {ts : Fin n → List ℝ}
    (hin : check_mass_freq_input K β m₁ m₂ a f = .ok (b', a'))
    (hts : create_timesteps_array K a' b' (some ecc) te ns steps = .ok ts)
    (hT : tm = some T ∨
      tm = none ∧ get_t_merge_ecc K ecc (some a') none (some b') none none 0.15 (1 - 1e-4) ex = .ok T)
    (hne : ∀ i, ts i ≠ []) (hstart : ∀ i t, (ts i)[0]? = some t → -Gyr ≤ t) :
    ∃ R E, evol_ecc K odeint ecc te ns steps β m₁ m₂ a f ["timesteps", "ecc"] np order true ex tb tm
        = .ok (.many [R, E]) ∧
      (∀ i, MergerClamp (T i - tb) (ts i) (R i)) ∧
      (∀ i, (ts i).Pairwise (· ≤ ·) → (R i).Pairwise (· ≤ ·)) ∧
      ∀ i, E i = (odeint (fun e => de_dt e (b' i) (c_0 (a' i) (ecc i))) (ecc i) (R i)).map fun x => x.getD 0 := by
  have hclamp : ∀ i, MergerClamp (T i - tb) (ts i) (clamp_row Gyr (T i) tb (ts i)) := fun i =>
    clamp_row_spec (fun z hz => by rw [neg_one_mul]; exact hstart i z hz)
  refine ⟨fun i => clamp_row Gyr (T i) tb (ts i),
    fun i => (odeint (fun e => de_dt e (b' i) (c_0 (a' i) (ecc i))) (ecc i) (clamp_row Gyr (T i) tb (ts i))).map
      fun x => x.getD 0, ?_, hclamp, fun i h => Legwork.MergerClamp.sorted (hclamp i) h,
    fun i => rfl⟩
  rw [evol_ecc_eq K odeint ecc te ns steps β m₁ m₂ a f _ np order true ex tb tm hin (by simp [wantsFreq]) hts
    (R := fun i => clamp_row Gyr (T i) tb (ts i)), integrate_eq odeint np order hall]
  · simp [isKnown, unwrap, eccVal]
    rfl
  · rw [if_pos rfl]
    rcases hT with rfl | ⟨rfl, hT⟩
    · simp [avoid_merger_times, hne, bind, Except.bind, pure, Except.pure]
    · simp [avoid_merger_times, hne, bind, Except.bind, pure, Except.pure, hT]

/-- Beyond its first entry no time within `t_before` of the merger is integrated to, provided the grid starts before
the limit. -/
theorem C23_never_close {limit : ℝ} {row res : List ℝ} (h : MergerClamp limit row res)
    (h0 : ∀ t, row[0]? = some t → t < limit) : ∀ t ∈ res, t < limit := by
  intro t ht
  obtain ⟨k, hk⟩ := List.mem_iff_getElem?.1 ht
  rcases k with _ | k
  · rw [h.first] at hk; exact h0 t hk
  · have hkr : k + 1 < row.length := by
      rw [← h.length]; exact (List.getElem?_eq_some_iff.1 hk).1
    have hr : row[k + 1]? = some row[k + 1] := List.getElem?_eq_getElem hkr
    by_cases hl : row[k + 1] < limit
    · rw [h.safe k _ hr hl] at hk
      injection hk with hk; rw [← hk]; exact hl
    · obtain ⟨y, hy, hg⟩ := h.replaced k _ hr (not_lt.1 hl)
      rw [hy] at hk
      injection hk with hk
      rcases hg.1 with h' | ⟨j, _, h'⟩
      · rw [← hk]; exact h0 y h'
      · rw [← hk]; exact h'

/-- The hypotheses of C23 are met by a scalar evolution time with any positive number of steps. -/
example (K : Consts) (n k : ℕ) : ∃ ts, create_timesteps_array K (fun _ : Fin n => 1) (fun _ => 1) (some fun _ => 0.5)
    (some (.scalar 100)) (k + 1) none = .ok ts ∧ (∀ i, ts i ≠ []) ∧ ∀ i t, (ts i)[0]? = some t → -Gyr ≤ t := by
  refine ⟨_, rfl, fun i => ?_, fun i t h => ?_⟩
  · simp [np.linspace]
  · rw [linspace_get?] at h
    simp at h
    rw [← h]; norm_num [Gyr]

/-! ## C52 -/

/-- **C52**. Whatever the numbers of processes and the orders in which workers finish (each source being done at
least once), `evol_ecc` returns the same result. -/
theorem C52_n_proc_irrelevant {n : ℕ} (K : Consts) (odeint : Odeint) (ecc : Fin n → ℝ)
    (te : Option (TEvol (Fin n))) (ns : ℕ) (steps : Option (Steps (Fin n))) (β m₁ m₂ a f tm : Option (Fin n → ℝ))
    (vars : List String) (avoid ex : Bool) (tb : ℝ) (np np' : ℕ) (order order' : List ℕ)
    (h : np > 1 → ∀ i < n, i ∈ order) (h' : np' > 1 → ∀ i < n, i ∈ order') :
    evol_ecc K odeint ecc te ns steps β m₁ m₂ a f vars np order avoid ex tb tm
      = evol_ecc K odeint ecc te ns steps β m₁ m₂ a f vars np' order' avoid ex tb tm := by
  unfold evol_ecc
  simp only [integrate_eq odeint np order h, integrate_eq odeint np' order' h']

/-- The hypothesis on orders is met by every permutation of the sources. -/
example (n : ℕ) (order : List ℕ) (h : order.Perm (List.range n)) (i : ℕ) (hi : i < n) : i ∈ order :=
  h.mem_iff.2 (List.mem_range.2 hi)

/-! ## C59 -/

/-- How a list of outputs is returned: a single output is unwrapped. -/
def Packed (xs : List (ι → List ℝ)) (out : EvolOut ι) : Prop :=
  (∃ x, xs = [x] ∧ out = .one x) ∨ (2 ≤ xs.length ∧ out = .many xs)

theorem packed_of_unwrap {xs : List (ι → List ℝ)} {out : EvolOut ι} (h : unwrap xs = .ok out) : Packed xs out := by
  match xs with
  | [] => simp [unwrap] at h
  | [x] => left; simp [unwrap] at h; exact ⟨x, rfl, h.symm⟩
  | x :: y :: zs => right; simp [unwrap] at h; exact ⟨by simp, h.symm⟩

theorem forall₂_map {α β : Type*} {R : α → β → Prop} {f : α → β} {l : List α} (h : ∀ x ∈ l, R x (f x)) :
    List.Forall₂ R l (l.map f) := by
  induction l with
  | nil => exact .nil
  | cons x xs ih => exact .cons (h x (by simp)) (ih fun y hy => h y (by simp [hy]))

theorem isKnown_eq (we : Bool) (s : String) : isKnown we s =
    decide (s ∈ (if we then ["timesteps", "ecc", "a", "f_orb", "f_GW"] else ["timesteps", "a", "f_orb", "f_GW"])) := by
  cases we <;> simp [isKnown, Bool.decide_or, Bool.or_assoc]

theorem evol_ecc_inv {n : ℕ} {K : Consts} {odeint : Odeint} {ecc : Fin n → ℝ} {te : Option (TEvol (Fin n))} {ns : ℕ}
    {steps : Option (Steps (Fin n))} {β m₁ m₂ a f tm : Option (Fin n → ℝ)} {vars : List String} {np : ℕ}
    {order : List ℕ} {avoid ex : Bool} {tb : ℝ} {out : EvolOut (Fin n)}
    (h : evol_ecc K odeint ecc te ns steps β m₁ m₂ a f vars np order avoid ex tb tm = .ok out) :
    ∃ b' a' ts R, check_mass_freq_input K β m₁ m₂ a f = .ok (b', a') ∧
      (wantsFreq vars = true → m₁.isSome ∧ m₂.isSome) ∧
      create_timesteps_array K a' b' (some ecc) te ns steps = .ok ts ∧
      (if avoid = true then avoid_merger_times K ecc b' a' ex tb tm ts else pure ts) = .ok R := by
  unfold evol_ecc at h
  rcases hin : check_mass_freq_input K β m₁ m₂ a f with er | ⟨b', a'⟩
  · simp [hin, bind, Except.bind] at h
  simp only [hin, bind, Except.bind] at h
  by_cases hw : wantsFreq vars = true ∧ (m₁.isNone = true ∨ m₂.isNone = true)
  · rw [if_pos hw] at h; simp [throw, throwThe, MonadExceptOf.throw] at h
  rw [if_neg hw] at h
  rcases hts : create_timesteps_array K a' b' (some ecc) te ns steps with er | ts
  · simp [hts] at h
  simp only [hts, pure, Except.pure] at h
  have hm : wantsFreq vars = true → m₁.isSome ∧ m₂.isSome := by
    intro hf
    rcases m₁ with _ | m₁
    · exact absurd ⟨hf, by simp⟩ hw
    rcases m₂ with _ | m₂
    · exact absurd ⟨hf, by simp⟩ hw
    exact ⟨rfl, rfl⟩
  cases avoid
  · exact ⟨b', a', ts, ts, rfl, hm, hts, rfl⟩
  · simp only [if_true] at h
    rcases hR : avoid_merger_times K ecc b' a' ex tb tm ts with er | R
    · simp [hR] at h
    · exact ⟨b', a', ts, R, rfl, hm, hts, by simpa using hR⟩

/-- **C59** (eccentric evolution). A successful call returns, in the requested order and with repetitions, what a call
asking for each known name alone returns; unknown names contribute nothing. -/
theorem C59_evol_ecc_outputs {n : ℕ} (K : Consts) (odeint : Odeint) (ecc : Fin n → ℝ)
    (te : Option (TEvol (Fin n))) (ns : ℕ) (steps : Option (Steps (Fin n))) (β m₁ m₂ a f tm : Option (Fin n → ℝ))
    (vars : List String) (np : ℕ) (order : List ℕ) (avoid ex : Bool) (tb : ℝ) (out : EvolOut (Fin n))
    (h : evol_ecc K odeint ecc te ns steps β m₁ m₂ a f vars np order avoid ex tb tm = .ok out) :
    ∃ xs, List.Forall₂
        (fun s x => evol_ecc K odeint ecc te ns steps β m₁ m₂ a f [s] np order avoid ex tb tm = .ok (.one x))
        (vars.filter (· ∈ ["timesteps", "ecc", "a", "f_orb", "f_GW"])) xs ∧ Packed xs out := by
  obtain ⟨b', a', ts, R, hin, hm, hts, hR⟩ := evol_ecc_inv h
  rw [evol_ecc_eq K odeint ecc te ns steps β m₁ m₂ a f vars np order avoid ex tb tm hin hm hts hR] at h
  have hk := packed_of_unwrap h
  rw [show isKnown true = fun s => decide (s ∈ ["timesteps", "ecc", "a", "f_orb", "f_GW"]) from
    funext fun s => isKnown_eq true s] at hk
  refine ⟨_, forall₂_map ?_, hk⟩
  intro s hs
  obtain ⟨hs1, hs2⟩ := List.mem_filter.1 hs
  have hm' : wantsFreq [s] = true → m₁.isSome ∧ m₂.isSome := fun hw =>
    hm (wantsFreq_of_mem hs1 (by simpa [wantsFreq] using hw))
  rw [evol_ecc_eq K odeint ecc te ns steps β m₁ m₂ a f [s] np order avoid ex tb tm hin hm' hts hR,
    List.filter_cons_of_pos (by rw [isKnown_eq]; exact hs2)]
  simp [unwrap]

/-- **C59** (which eccentric requests work). When the inputs allow an evolution at all (asking for the times
succeeds): a frequency without both masses is a `ValueError`; otherwise a request with no known name is an
`IndexError`; every other request succeeds. -/
theorem C59_evol_ecc_requests {n : ℕ} (K : Consts) (odeint : Odeint) (ecc : Fin n → ℝ)
    (te : Option (TEvol (Fin n))) (ns : ℕ) (steps : Option (Steps (Fin n))) (β m₁ m₂ a f tm : Option (Fin n → ℝ))
    (vars : List String) (np : ℕ) (order : List ℕ) (avoid ex : Bool) (tb : ℝ) {out₀ : EvolOut (Fin n)}
    (h₀ : evol_ecc K odeint ecc te ns steps β m₁ m₂ a f ["timesteps"] np order avoid ex tb tm = .ok out₀) :
    let freq := "f_orb" ∈ vars ∨ "f_GW" ∈ vars
    let known := ∃ s ∈ vars, s ∈ ["timesteps", "ecc", "a", "f_orb", "f_GW"]
    let res := evol_ecc K odeint ecc te ns steps β m₁ m₂ a f vars np order avoid ex tb tm
    (freq ∧ (m₁ = none ∨ m₂ = none) → res = .error .ValueError) ∧
    (¬ known → res = .error .IndexError) ∧
    (known → ¬ (freq ∧ (m₁ = none ∨ m₂ = none)) → ∃ out, res = .ok out) := by
  intro freq known res
  obtain ⟨b', a', ts, R, hin, -, hts, hR⟩ := evol_ecc_inv h₀
  have hfreq : wantsFreq vars = true ↔ freq := by
    simp only [wantsFreq, List.any_eq_true, Bool.or_eq_true, decide_eq_true_eq]
    constructor
    · rintro ⟨x, hx, rfl | rfl⟩
      · exact Or.inl hx
      · exact Or.inr hx
    · rintro (h | h)
      · exact ⟨_, h, Or.inl rfl⟩
      · exact ⟨_, h, Or.inr rfl⟩
  have hmass : ¬ (freq ∧ (m₁ = none ∨ m₂ = none)) → (wantsFreq vars = true → m₁.isSome ∧ m₂.isSome) := by
    intro hn hw
    rw [hfreq] at hw
    rcases m₁ with _ | m₁
    · exact absurd ⟨hw, Or.inl rfl⟩ hn
    rcases m₂ with _ | m₂
    · exact absurd ⟨hw, Or.inr rfl⟩ hn
    exact ⟨rfl, rfl⟩
  refine ⟨?_, ?_, ?_⟩
  · rintro ⟨h1, h2⟩
    show evol_ecc _ _ _ _ _ _ _ _ _ _ _ _ _ _ _ _ _ _ = _
    unfold evol_ecc
    have : wantsFreq vars = true ∧ (m₁.isNone = true ∨ m₂.isNone = true) := by
      refine ⟨hfreq.2 h1, ?_⟩
      simpa [Option.isNone_iff_eq_none] using h2
    simp only [hin, bind, Except.bind, if_pos this]
    rfl
  · intro hk
    have hnf : ¬ freq := by
      rintro (h | h)
      · exact hk ⟨_, h, by simp⟩
      · exact hk ⟨_, h, by simp⟩
    show evol_ecc _ _ _ _ _ _ _ _ _ _ _ _ _ _ _ _ _ _ = _
    rw [evol_ecc_eq K odeint ecc te ns steps β m₁ m₂ a f vars np order avoid ex tb tm hin
      (hmass fun h => hnf h.1) hts hR]
    have : vars.filter (isKnown true) = [] := by
      rw [List.filter_eq_nil_iff]
      intro s hs hks
      rw [isKnown_eq] at hks
      exact hk ⟨s, hs, by simpa using hks⟩
    rw [this]; rfl
  · rintro ⟨s, hs, hks⟩ hn
    show ∃ out, evol_ecc _ _ _ _ _ _ _ _ _ _ _ _ _ _ _ _ _ _ = .ok out
    rw [evol_ecc_eq K odeint ecc te ns steps β m₁ m₂ a f vars np order avoid ex tb tm hin (hmass hn) hts hR]
    have hmem : s ∈ vars.filter (isKnown true) := by
      rw [List.mem_filter, isKnown_eq]
      exact ⟨hs, by simpa using hks⟩
    generalize vars.filter (isKnown true) = l at hmem
    match l with
    | [] => simp at hmem
    | [x] => exact ⟨_, rfl⟩
    | x :: y :: zs => exact ⟨_, rfl⟩

theorem evol_circ_inv {K : Consts} {u : ℝ} {te : Option (TEvol ι)} {ns : ℕ}
    {steps : Option (Steps ι)} {β m₁ m₂ a f : Option (ι → ℝ)} {vars : List String}
    {out : EvolOut ι}
    (h : evol_circ K u te ns steps β m₁ m₂ a f vars = .ok out) :
    ∃ b' a' ts, check_mass_freq_input K β m₁ m₂ a f = .ok (b', a') ∧
      (wantsFreq vars = true → m₁.isSome ∧ m₂.isSome) ∧
      create_timesteps_array K a' b' (some fun _ => 0) te ns steps = .ok ts := by
  unfold evol_circ at h
  rcases hin : check_mass_freq_input K β m₁ m₂ a f with er | ⟨b', a'⟩
  · simp [hin, bind, Except.bind] at h
  simp only [hin, bind, Except.bind] at h
  by_cases hw : wantsFreq vars = true ∧ (m₁.isNone = true ∨ m₂.isNone = true)
  · rw [if_pos hw] at h; simp [throw, throwThe, MonadExceptOf.throw] at h
  rw [if_neg hw] at h
  rcases hts : create_timesteps_array K a' b' (some fun _ => 0) te ns steps with er | ts
  · simp [hts] at h
  simp only [hts] at h
  have hm : wantsFreq vars = true → m₁.isSome ∧ m₂.isSome := by
    intro hf
    rcases m₁ with _ | m₁
    · exact absurd ⟨hf, by simp⟩ hw
    rcases m₂ with _ | m₂
    · exact absurd ⟨hf, by simp⟩ hw
    exact ⟨rfl, rfl⟩
  exact ⟨b', a', ts, rfl, hm, hts⟩

/-- **C59** (circular evolution). A successful call returns, in the requested order and with repetitions, what a call
asking for each known name alone returns; unknown names contribute nothing. -/
theorem C59_evol_circ_outputs (K : Consts) (u : ℝ)
    (te : Option (TEvol ι)) (ns : ℕ) (steps : Option (Steps ι)) (β m₁ m₂ a f : Option (ι → ℝ))
    (vars : List String) (out : EvolOut ι)
    (h : evol_circ K u te ns steps β m₁ m₂ a f vars = .ok out) :
    ∃ xs, List.Forall₂
        (fun s x => evol_circ K u te ns steps β m₁ m₂ a f [s] = .ok (.one x))
        (vars.filter (· ∈ ["timesteps", "a", "f_orb", "f_GW"])) xs ∧ Packed xs out := by
  obtain ⟨b', a', ts, hin, hm, hts⟩ := evol_circ_inv h
  rw [evol_circ_eq K u te ns steps β m₁ m₂ a f vars hin hm hts] at h
  have hk := packed_of_unwrap h
  rw [show isKnown false = fun s => decide (s ∈ ["timesteps", "a", "f_orb", "f_GW"]) from
    funext fun s => isKnown_eq false s] at hk
  refine ⟨_, forall₂_map ?_, hk⟩
  intro s hs
  obtain ⟨hs1, hs2⟩ := List.mem_filter.1 hs
  have hm' : wantsFreq [s] = true → m₁.isSome ∧ m₂.isSome := fun hw =>
    hm (wantsFreq_of_mem hs1 (by simpa [wantsFreq] using hw))
  rw [evol_circ_eq K u te ns steps β m₁ m₂ a f [s] hin hm' hts,
    List.filter_cons_of_pos (by rw [isKnown_eq]; exact hs2)]
  simp [unwrap]

/-- **C59** (which circular requests work). When the inputs allow an evolution at all (asking for the times
succeeds): a frequency without both masses is a `ValueError`; otherwise a request with no known name is an
`IndexError`; every other request succeeds. -/
theorem C59_evol_circ_requests (K : Consts) (u : ℝ)
    (te : Option (TEvol ι)) (ns : ℕ) (steps : Option (Steps ι)) (β m₁ m₂ a f : Option (ι → ℝ))
    (vars : List String) {out₀ : EvolOut ι}
    (h₀ : evol_circ K u te ns steps β m₁ m₂ a f ["timesteps"] = .ok out₀) :
    let freq := "f_orb" ∈ vars ∨ "f_GW" ∈ vars
    let known := ∃ s ∈ vars, s ∈ ["timesteps", "a", "f_orb", "f_GW"]
    let res := evol_circ K u te ns steps β m₁ m₂ a f vars
    (freq ∧ (m₁ = none ∨ m₂ = none) → res = .error .ValueError) ∧
    (¬ known → res = .error .IndexError) ∧
    (known → ¬ (freq ∧ (m₁ = none ∨ m₂ = none)) → ∃ out, res = .ok out) := by
  intro freq known res
  obtain ⟨b', a', ts, hin, -, hts⟩ := evol_circ_inv h₀
  have hfreq : wantsFreq vars = true ↔ freq := by
    simp only [wantsFreq, List.any_eq_true, Bool.or_eq_true, decide_eq_true_eq]
    constructor
    · rintro ⟨x, hx, rfl | rfl⟩
      · exact Or.inl hx
      · exact Or.inr hx
    · rintro (h | h)
      · exact ⟨_, h, Or.inl rfl⟩
      · exact ⟨_, h, Or.inr rfl⟩
  have hmass : ¬ (freq ∧ (m₁ = none ∨ m₂ = none)) → (wantsFreq vars = true → m₁.isSome ∧ m₂.isSome) := by
    intro hn hw
    rw [hfreq] at hw
    rcases m₁ with _ | m₁
    · exact absurd ⟨hw, Or.inl rfl⟩ hn
    rcases m₂ with _ | m₂
    · exact absurd ⟨hw, Or.inr rfl⟩ hn
    exact ⟨rfl, rfl⟩
  refine ⟨?_, ?_, ?_⟩
  · rintro ⟨h1, h2⟩
    show evol_circ _ _ _ _ _ _ _ _ _ _ _ = _
    unfold evol_circ
    have : wantsFreq vars = true ∧ (m₁.isNone = true ∨ m₂.isNone = true) := by
      refine ⟨hfreq.2 h1, ?_⟩
      simpa [Option.isNone_iff_eq_none] using h2
    simp only [hin, bind, Except.bind, if_pos this]
    rfl
  · intro hk
    have hnf : ¬ freq := by
      rintro (h | h)
      · exact hk ⟨_, h, by simp⟩
      · exact hk ⟨_, h, by simp⟩
    show evol_circ _ _ _ _ _ _ _ _ _ _ _ = _
    rw [evol_circ_eq K u te ns steps β m₁ m₂ a f vars hin
      (hmass fun h => hnf h.1) hts]
    have : vars.filter (isKnown false) = [] := by
      rw [List.filter_eq_nil_iff]
      intro s hs hks
      rw [isKnown_eq] at hks
      exact hk ⟨s, hs, by simpa using hks⟩
    rw [this]; rfl
  · rintro ⟨s, hs, hks⟩ hn
    show ∃ out, evol_circ _ _ _ _ _ _ _ _ _ _ _ = .ok out
    rw [evol_circ_eq K u te ns steps β m₁ m₂ a f vars hin (hmass hn) hts]
    have hmem : s ∈ vars.filter (isKnown false) := by
      rw [List.mem_filter, isKnown_eq]
      exact ⟨hs, by simpa using hks⟩
    generalize vars.filter (isKnown false) = l at hmem
    match l with
    | [] => simp at hmem
    | [x] => exact ⟨_, rfl⟩
    | x :: y :: zs => exact ⟨_, rfl⟩

/-- **C59** (meaning of the eccentric outputs). Separations lie on the Peters (5.11) curve through the initial
orbit, orbital frequencies follow from them by Kepler's third law (100 Hz once the eccentricity is zero), and
gravitational wave frequencies are twice those. -/
theorem C59_evol_ecc_meaning {n : ℕ} (K : Consts) (odeint : Odeint) (ecc p q : Fin n → ℝ)
    (te : Option (TEvol (Fin n))) (ns : ℕ) (steps : Option (Steps (Fin n))) (β a f tm : Option (Fin n → ℝ))
    (np : ℕ) (order : List ℕ) (avoid ex : Bool) (tb : ℝ) {R E A F G : Fin n → List ℝ}
    {b₀ a₀ : Fin n → ℝ} (hin : check_mass_freq_input K β (some p) (some q) a f = .ok (b₀, a₀))
    (h : evol_ecc K odeint ecc te ns steps β (some p) (some q) a f ["timesteps", "ecc", "a", "f_orb", "f_GW"] np order
      avoid ex tb tm = .ok (.many [R, E, A, F, G])) (i : Fin n) :
    (A i).length = (E i).length ∧ (F i).length = (E i).length ∧ (G i).length = (E i).length ∧
    ∀ (k : ℕ) (e x y z : ℝ), (E i)[k]? = some e → (A i)[k]? = some x → (F i)[k]? = some y → (G i)[k]? = some z →
      z = 2 * y ∧ (e = 0 → x = 0 ∧ y = 100) ∧
      (0 < e → e < 1 → 0 < ecc i → ecc i < 1 → 0 < a₀ i → 0 < p i → 0 < q i →
        (∃ c, Peters511 (a₀ i) (ecc i) c ∧ Peters511 x e c) ∧
        (x ≠ 1e-30 * AU → KeplerThird K y x (p i) (q i))) := by
  obtain ⟨b', a', ts, R', hin', hm, hts, hR⟩ := evol_ecc_inv h
  rw [hin] at hin'
  injection hin' with hin'
  injection hin' with h1 h2
  subst h1 h2
  rw [evol_ecc_eq K odeint ecc te ns steps β _ _ a f _ np order avoid ex tb tm hin hm hts hR] at h
  simp [isKnown, unwrap, eccVal] at h
  obtain ⟨-, rfl, rfl, rfl, rfl⟩ := h
  refine ⟨by simp, by simp, by simp, ?_⟩
  intro k e x y z he hx hy hz
  simp only [List.getElem?_map, he, Option.map_some, Option.some.injEq] at hx hy hz
  subst hx hy hz
  refine ⟨rfl, ?_, ?_⟩
  · rintro rfl
    have : get_a_from_ecc 0 (c_0 (a₀ i) (ecc i)) = 0 := by
      unfold get_a_from_ecc; rw [Real.zero_rpow (by norm_num)]; simp
    rw [this]
    exact ⟨rfl, by simp only [Function.comp, f_or_merged, this]; norm_num⟩
  · intro he0 he1 hi0 hi1 ha hp hq
    refine ⟨⟨c_0 (a₀ i) (ecc i), (C02_c_0_iff_peters hi0).1 rfl, (C02_get_a_iff_peters he0 he1).1 rfl⟩, ?_⟩
    intro hne
    have hpos : 0 < get_a_from_ecc e (c_0 (a₀ i) (ecc i)) := by
      have hc := c_0_pos hi0 hi1 ha
      have hs := one_sub_sq_pos' he0.le he1
      unfold get_a_from_ecc
      have := Real.rpow_pos_of_pos he0 (12 / 19)
      positivity
    unfold f_or_merged
    simp only [Function.comp, if_neg hpos.ne', if_neg hne]
    exact (C01_get_f_iff_kepler K (get_f_orb_from_a_pos K hpos hp hq) hpos hp hq).1 rfl

/-- The hypotheses of the two request theorems are met. -/
example (K : Consts) (odeint : Odeint) : (∃ out, evol_ecc K odeint (fun _ : Fin 2 => 0.5) none 5
      (some (.grid [0, 1, 2])) (some fun _ => 1) none none (some fun _ => 1) none ["timesteps"] 1 [] false true 0 none
      = .ok out) ∧
    ∃ out, evol_circ K 1 none 5 (some (.grid [0, 1, 2])) (some fun _ : Fin 2 => 1) none none (some fun _ => 1) none
      ["timesteps"] = .ok out := ⟨⟨_, rfl⟩, ⟨_, rfl⟩⟩

end Legwork.Props
