import Verif.Model.Snr
import Verif.Lemmas.Strain
import Verif.Props.PetersG

/-!
# Helper lemmas on signal-to-noise ratios
-/

namespace Legwork

theorem mapM_ok {α β : Type*} {f : α → Except PyErr β} {g : α → β} {l : List α} (h : ∀ x ∈ l, f x = .ok (g x)) :
    l.mapM f = .ok (l.map g) := by
  induction l with
  | nil => simp [pure, Except.pure]
  | cons x xs ih =>
    rw [List.mapM_cons, h x (by simp), ih fun y hy => h y (by simp [hy])]
    simp [bind, Except.bind, pure, Except.pure]

theorem mapM_length {α β : Type*} {f : α → Except PyErr β} {l : List α} {ys : List β} (h : l.mapM f = .ok ys) :
    ys.length = l.length := by
  induction l generalizing ys with
  | nil => simp [pure, Except.pure] at h; subst h; rfl
  | cons x xs ih =>
    rw [List.mapM_cons] at h
    rcases hx : f x with e | y
    · simp [hx, bind, Except.bind] at h
    · rcases hxs : xs.mapM f with e | zs
      · simp [hx, hxs, bind, Except.bind] at h
      · simp [hx, hxs, bind, Except.bind, pure, Except.pure] at h
        subst h
        simp [ih hxs]

theorem mapM_mem {α β : Type*} {f : α → Except PyErr β} {l : List α} {ys : List β} (h : l.mapM f = .ok ys) :
    ∀ y ∈ ys, ∃ x ∈ l, f x = .ok y := by
  induction l generalizing ys with
  | nil => simp [pure, Except.pure] at h; subst h; simp
  | cons x xs ih =>
    rw [List.mapM_cons] at h
    rcases hx : f x with e | y
    · simp [hx, bind, Except.bind] at h
    · rcases hxs : xs.mapM f with e | zs
      · simp [hx, hxs, bind, Except.bind] at h
      · simp [hx, hxs, bind, Except.bind, pure, Except.pure] at h
        subst h
        intro z hz
        rcases List.mem_cons.1 hz with rfl | hz
        · exact ⟨x, by simp, hx⟩
        · obtain ⟨w, hw, hw'⟩ := ih hxs z hz
          exact ⟨w, by simp [hw], hw'⟩

end Legwork

namespace Legwork.snr

open Real Legwork.utils Legwork.strain

theorem sqrt?_nonneg {x : ℝ} (h : 0 ≤ x) : sqrt? x = some (√x) := by
  unfold sqrt?
  rw [if_neg (not_lt.2 h), sqrt_eq_rpow]
  norm_num

theorem sqrt?_neg {x : ℝ} (h : x < 0) : sqrt? x = none := if_pos h

theorem divNoise_nonneg {x : ℝ} (hx : 0 ≤ x) {n : WithTop ℝ} (hn : 0 ≤ n) : 0 ≤ divNoise x n := by
  cases n with
  | top => exact le_rfl
  | coe y => exact div_nonneg hx (by exact_mod_cast hn)

theorem divNoise_le {x y : ℝ} (h : x ≤ y) {n : WithTop ℝ} (hn : 0 ≤ n) : divNoise x n ≤ divNoise y n := by
  cases n with
  | top => exact le_rfl
  | coe z => exact div_le_div_of_nonneg_right h (by exact_mod_cast hn)

theorem divNoise_mul (k x : ℝ) (n : WithTop ℝ) : divNoise (k * x) n = k * divNoise x n := by
  cases n with
  | top => exact (mul_zero k).symm
  | coe z => exact mul_div_assoc k x z

theorem divNoise_zero (n : WithTop ℝ) : divNoise 0 n = 0 := by
  cases n with
  | top => rfl
  | coe z => exact zero_div z

theorem mem_harmonics {H : ℕ} {n : ℤ} : n ∈ harmonics H ↔ 1 ≤ n ∧ n ≤ H := by
  unfold harmonics
  rw [List.mem_map]
  constructor
  · rintro ⟨k, hk, rfl⟩
    rw [List.mem_range] at hk
    omega
  · rintro ⟨h1, h2⟩
    exact ⟨(n - 1).toNat, by rw [List.mem_range]; omega, by omega⟩

theorem harmonics_length (H : ℕ) : (harmonics H).length = H := by simp [harmonics]

theorem harmonics_get? (H k : ℕ) : (harmonics H)[k]? = if k < H then some ((k : ℤ) + 1) else none := by
  unfold harmonics
  rw [List.getElem?_map]
  split_ifs with h
  · rw [List.getElem?_range h]; rfl
  · rw [List.getElem?_eq_none (by simpa using h)]; rfl

theorem harmonics_any (H : ℕ) : ¬ ((harmonics H).any (fun k => decide (k < 1)) = true) := by
  simp only [List.any_eq_true, decide_eq_true_eq, not_exists, not_and]
  intro n hn
  have := (mem_harmonics.1 hn).1
  omega

theorem h_0_n_ok (K : Consts) (ig : Option (ℤ → ℝ → ℝ)) {n : List ℤ} {rows : List Row} {μ : Row → ℝ}
    (hn : ¬ (n.any (fun k => decide (k < 1)) = true)) (hμ : ∀ r ∈ rows, modulation r.orient = .ok (μ r)) :
    h_0_n K ig n rows = .ok (rows.map fun r => r.steps.map fun s => n.map fun k =>
      μ r * h_0_val K ig r.m_c r.dist s.1 s.2 k) := by
  unfold h_0_n
  rw [if_neg hn]
  apply mapM_ok
  intro r hr
  unfold row_strain
  rw [hμ r hr]
  rfl

theorem h_c_n_ok (K : Consts) (ig : Option (ℤ → ℝ → ℝ)) {n : List ℤ} {rows : List Row}
    (hn : ¬ (n.any (fun k => decide (k < 1)) = true)) (hμ : ∀ r ∈ rows, r.orient = {}) :
    h_c_n K ig n rows = .ok (rows.map fun r => r.steps.map fun s => n.map fun k =>
      h_c_val K ig r.m_c r.dist s.1 s.2 k) := by
  unfold h_c_n
  rw [if_neg hn]
  apply mapM_ok
  intro r hr
  unfold row_strain
  rw [hμ r hr, modulation_none]
  simp [bind, Except.bind, pure, Except.pure]

theorem two_any : ¬ (([2] : List ℤ).any (fun k => decide (k < 1)) = true) := by decide

theorem zipWith_map_map {α β γ δ : Type*} (f : β → γ → δ) (g : α → β) (h : α → γ) (l : List α) :
    (l.map g).zipWith f (l.map h) = l.map fun x => f (g x) (h x) := by
  induction l with
  | nil => rfl
  | cons x xs ih => simp [ih]

/-- SNR² of a circular stationary source with modulation factor `μ` and noise `N`. -/
noncomputable def circ2 (C : Ctx) (N : ℝ → WithTop ℝ) (μ : ℝ) (s : CircSrc) : ℝ :=
  divNoise ((μ * h_0_val C.K C.interpolated_g s.m_c s.dist s.f_orb 0 2) ^ 2 * C.t_obs) (N (2 * s.f_orb))

theorem snr_circ_stationary_eq (C : Ctx) (srcs : List CircSrc) {N : ℝ → WithTop ℝ} {μ : CircSrc → ℝ}
    (hN : ∀ s ∈ srcs, noise C (2 * s.f_orb) = .ok (N (2 * s.f_orb)))
    (hμ : ∀ s ∈ srcs, modulation s.orient = .ok (μ s)) :
    snr_circ_stationary C srcs = .ok (srcs.map fun s => sqrt? (circ2 C N (μ s) s)) := by
  classical
  have hrow : h_0_n C.K C.interpolated_g [2] (srcs.map fun s => ⟨s.m_c, s.dist, [(s.f_orb, 0)], s.orient⟩)
      = .ok (srcs.map fun s => [[μ s * h_0_val C.K C.interpolated_g s.m_c s.dist s.f_orb 0 2]]) := by
    unfold h_0_n
    rw [if_neg two_any]
    rw [List.mapM_map]
    apply mapM_ok
    intro s hs
    simp only [Function.comp, row_strain, hμ s hs, bind, Except.bind, pure, Except.pure, List.map_cons, List.map_nil]
  unfold snr_circ_stationary
  rw [hrow]
  simp only [bind, Except.bind, mapM_ok hN, pure, Except.pure]
  congr 1
  have hfl : (srcs.map fun s => [[μ s * h_0_val C.K C.interpolated_g s.m_c s.dist s.f_orb 0 2]]).flatten.flatten
      = srcs.map fun s => μ s * h_0_val C.K C.interpolated_g s.m_c s.dist s.f_orb 0 2 := by
    clear hrow hN hμ
    induction srcs with
    | nil => rfl
    | cons x xs ih => simpa using ih
  rw [hfl, List.map_map, List.map_map, zipWith_map_map, List.map_map]
  rfl

/-- SNR² of harmonic `n` of an eccentric stationary source with noise `N`. -/
noncomputable def ecc2 (C : Ctx) (N : ℝ → WithTop ℝ) (s : EccSrc) (n : ℤ) : ℝ :=
  divNoise (h_0_val C.K C.interpolated_g s.m_c s.dist s.f_orb s.ecc n ^ 2 * C.t_obs) (N (n * s.f_orb))

theorem snr_ecc_stationary_eq (C : Ctx) (srcs : List EccSrc) (H : ℕ) (rm rb : Bool) {N : ℝ → WithTop ℝ}
    (hN : ∀ f, noise C f = .ok (N f)) :
    snr_ecc_stationary C srcs H rm rb
      = finish rm rb H (srcs.map fun s => (harmonics H).map fun n => ecc2 C N s n) := by
  unfold snr_ecc_stationary
  simp only
  rw [h_0_n_ok (μ := fun _ => 1) C.K C.interpolated_g (harmonics_any H)
    (by intro r hr; obtain ⟨s, -, rfl⟩ := List.mem_map.1 hr; rfl)]
  have hNs : (srcs.mapM fun s => (harmonics H).mapM fun n : ℤ => noise C (n * s.f_orb))
      = .ok (srcs.map fun s => (harmonics H).map fun n : ℤ => N (n * s.f_orb)) :=
    mapM_ok fun s _ => mapM_ok fun n _ => hN _
  simp only [bind, Except.bind, hNs]
  congr 1
  simp only [List.map_map]
  rw [zipWith_map_map]
  apply List.map_congr_left
  intro s hs
  simp only [Function.comp, List.map_cons, List.map_nil, List.flatten_cons, List.flatten_nil, List.append_nil,
    List.map_map, one_mul]
  rw [zipWith_map_map]
  rfl

theorem argmax_spec (xs : List ℝ) (h : xs ≠ []) : ∃ v, xs[argmax xs]? = some v ∧
    ∀ (j : ℕ) (w : ℝ), xs[j]? = some w → w ≤ v ∧ (j < argmax xs → w < v) := by
  induction xs with
  | nil => exact absurd rfl h
  | cons x xs ih =>
    rcases hxs : xs[argmax xs]? with _ | v
    · have hnil : xs = [] := by
        by_contra hne
        obtain ⟨v, hv, -⟩ := ih hne
        rw [hxs] at hv; cases hv
      subst hnil
      refine ⟨x, by simp [argmax], ?_⟩
      rintro (_ | j) w hw
      · simp at hw; exact ⟨hw.ge, by simp [argmax]⟩
      · simp at hw
    · have hne : xs ≠ [] := by rintro rfl; simp at hxs
      obtain ⟨v', hv, hmin⟩ := ih hne
      rw [hxs] at hv; injection hv with hv; subst hv
      by_cases hlt : x < v
      · have e : argmax (x :: xs) = argmax xs + 1 := by simp [argmax, hxs, hlt]
        rw [e]
        refine ⟨v, by simpa using hxs, ?_⟩
        rintro (_ | j) w hw
        · simp at hw; subst hw; exact ⟨hlt.le, fun _ => hlt⟩
        · simp at hw
          exact ⟨(hmin j w hw).1, fun hj => (hmin j w hw).2 (by omega)⟩
      · have e : argmax (x :: xs) = 0 := by simp [argmax, hxs, hlt]
        rw [e]
        refine ⟨x, by simp, ?_⟩
        rintro (_ | j) w hw
        · simp at hw; exact ⟨hw.ge, by simp⟩
        · simp at hw
          exact ⟨(hmin j w hw).1.trans (not_lt.1 hlt), by simp⟩

theorem trapezoid_nonneg {ys xs : List ℝ} (hy : ∀ y ∈ ys, 0 ≤ y) (hx : xs.Pairwise (· ≤ ·)) :
    0 ≤ trapezoid ys xs := by
  induction ys generalizing xs with
  | nil => simp [trapezoid]
  | cons y₀ ys ih =>
    rcases ys with _ | ⟨y₁, ys⟩
    · simp [trapezoid]
    · rcases xs with _ | ⟨x₀, xs⟩
      · simp [trapezoid]
      · rcases xs with _ | ⟨x₁, xs⟩
        · simp [trapezoid]
        · have h1 : x₀ ≤ x₁ := (List.pairwise_cons.1 hx).1 x₁ (by simp)
          have h2 := ih (fun y hy' => hy y (by simp [hy'])) (List.pairwise_cons.1 hx).2
          have h3 := hy y₀ (by simp)
          have h4 := hy y₁ (by simp)
          simp only [trapezoid]
          have : 0 ≤ (x₁ - x₀) * (y₁ + y₀) := mul_nonneg (by linarith) (by linarith)
          linarith

theorem trapezoid_neg {y₀ y₁ x₀ x₁ : ℝ} {ys xs : List ℝ} (hy : ∀ y ∈ y₀ :: y₁ :: ys, 0 < y)
    (hx : (x₀ :: x₁ :: xs).Pairwise (· > ·)) : trapezoid (y₀ :: y₁ :: ys) (x₀ :: x₁ :: xs) < 0 := by
  induction ys generalizing y₀ y₁ x₀ x₁ xs with
  | nil =>
    have h1 : x₁ < x₀ := (List.pairwise_cons.1 hx).1 x₁ (by simp)
    have h3 := hy y₀ (by simp)
    have h4 := hy y₁ (by simp)
    have : 0 < (x₀ - x₁) * (y₁ + y₀) := mul_pos (by linarith) (by linarith)
    rcases xs with _ | ⟨x₂, xs⟩ <;> simp only [trapezoid] <;> linarith
  | cons y₂ ys ih =>
    have h1 : x₁ < x₀ := (List.pairwise_cons.1 hx).1 x₁ (by simp)
    have h3 := hy y₀ (by simp)
    have h4 := hy y₁ (by simp)
    have h5 : 0 < (x₀ - x₁) * (y₁ + y₀) := mul_pos (by linarith) (by linarith)
    rcases xs with _ | ⟨x₂, xs⟩
    · simp only [trapezoid]; linarith
    · have := ih (fun y hy' => hy y (List.mem_cons_of_mem _ hy')) (List.pairwise_cons.1 hx).2
      rw [trapezoid]
      linarith

theorem trapezoid_const {ys xs : List ℝ} {c : ℝ} (hx : ∀ x ∈ xs, x = c) : trapezoid ys xs = 0 := by
  induction ys generalizing xs with
  | nil => simp [trapezoid]
  | cons y₀ ys ih =>
    rcases ys with _ | ⟨y₁, ys⟩
    · simp [trapezoid]
    · rcases xs with _ | ⟨x₀, xs⟩
      · simp [trapezoid]
      · rcases xs with _ | ⟨x₁, xs⟩
        · simp [trapezoid]
        · rw [trapezoid, ih fun x hx' => hx x (List.mem_cons_of_mem _ hx'), hx x₀ (by simp), hx x₁ (by simp)]
          ring

end Legwork.snr
