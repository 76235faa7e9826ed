import Verif.Lemmas.SnrChanged
import Verif.Props.SnrStationary

/-!
# SNRs under a change of distance and of the order of masses
-/

namespace Legwork.snr

open Real Legwork.strain Legwork.utils Legwork.evol Legwork.Props

variable {C : Ctx} {κ : ℝ}

theorem h_c_val_dist (K : Consts) (ig : Option (ℤ → ℝ → ℝ)) (m d f e : ℝ) (n : ℤ) (κ : ℝ) :
    h_c_val K ig m (κ * d) f e n = κ⁻¹ * h_c_val K ig m d f e n := by
  unfold h_c_val
  simp only
  rw [div_mul_eq_div_div_swap]
  ring

theorem h_0_val_dist' (K : Consts) (ig : Option (ℤ → ℝ → ℝ)) (m d f e : ℝ) (n : ℤ) (κ : ℝ) :
    h_0_val K ig m (κ * d) f e n = κ⁻¹ * h_0_val K ig m d f e n := by
  rw [h_0_val_dist]
  ring

theorem trapezoid_scale (k : ℝ) (ys xs : List ℝ) : trapezoid (ys.map (k * ·)) xs = k * trapezoid ys xs := by
  induction ys generalizing xs with
  | nil => simp [trapezoid]
  | cons y ys ih =>
    rcases ys with _ | ⟨y', ys⟩
    · simp [trapezoid]
    · rcases xs with _ | ⟨x, _ | ⟨x', xs⟩⟩
      · simp [trapezoid]
      · simp [trapezoid]
      · have := ih (x' :: xs)
        simp only [List.map_cons, trapezoid] at this ⊢
        rw [this]
        ring

theorem zipWith_divNoise_scale (k : ℝ) (xs : List ℝ) (ns : List (WithTop ℝ)) :
    (xs.map (k * ·)).zipWith divNoise ns = (xs.zipWith divNoise ns).map (k * ·) := by
  induction xs generalizing ns with
  | nil => simp
  | cons x xs ih =>
    rcases ns with _ | ⟨n, ns⟩
    · simp
    · simp only [List.map_cons, List.zipWith_cons_cons, divNoise_mul, ih]

theorem argmax_scale {k : ℝ} (hk : 0 < k) (xs : List ℝ) : argmax (xs.map (k * ·)) = argmax xs := by
  induction xs with
  | nil => rfl
  | cons x xs ih =>
    simp only [List.map_cons, argmax, ih, List.getElem?_map]
    rcases xs[argmax xs]? with _ | v
    · rfl
    · simp only [Option.map_some, mul_lt_mul_iff_right₀ hk]

theorem finish1_scale {k : ℝ} (hk : 0 < k) (xs : List ℝ) :
    finish1 (xs.map (k ^ 2 * ·)) = ((finish1 xs).1.map (k * ·), (finish1 xs).2) := by
  unfold finish1
  rw [argmax_scale (by positivity), List.sum_map_mul_left, List.map_id', sqrt?_scale hk]

theorem snr2_circ_row_scale (k : ℝ) (fs h : List ℝ) (ns : List (WithTop ℝ)) :
    snr2_circ_row fs (h.map (k * ·)) ns = k ^ 2 * snr2_circ_row fs h ns := by
  unfold snr2_circ_row
  simp only [List.map_map]
  rw [← trapezoid_scale, ← zipWith_divNoise_scale, List.map_map]
  congr 2
  apply List.map_congr_left
  intro x _
  simp only [Function.comp]
  ring

theorem snr2_harmonic_scale (k : ℝ) (fs h : List ℝ) (ns : List (WithTop ℝ)) :
    snr2_harmonic fs (h.map (k * ·)) ns = k ^ 2 * snr2_harmonic fs h ns := by
  unfold snr2_harmonic
  simp only [List.map_map]
  rw [← trapezoid_scale, ← zipWith_divNoise_scale, List.map_map]
  congr 2
  apply List.map_congr_left
  intro x _
  simp only [Function.comp]
  ring

theorem circ1_scale (hκ : 0 < κ) (s : CircSrc) {v : Option ℝ} (hv : circ1 C s = .ok v) :
    circ1 C { s with dist := κ * s.dist } = .ok (v.map (κ⁻¹ * ·)) := by
  unfold circ1 at hv ⊢
  obtain ⟨m, hm, hv⟩ := except_bind_ok.1 hv
  obtain ⟨N, hN, hv⟩ := except_bind_ok.1 hv
  cases hv
  simp only [hm, hN, ok_bind, h_0_val_dist']
  refine congrArg Except.ok ?_
  rw [← sqrt?_scale (inv_pos.2 hκ), ← divNoise_mul]
  congr 2
  ring

theorem ecc1_scale (hκ : 0 < κ) (H : ℕ) (s : EccSrc) {v : Option ℝ × ℕ} (hv : ecc1 C H s = .ok v) :
    ecc1 C H { s with dist := κ * s.dist } = .ok (v.1.map (κ⁻¹ * ·), v.2) := by
  unfold ecc1 at hv ⊢
  obtain ⟨N, hN, hv⟩ := except_bind_ok.1 hv
  cases hv
  simp only [hN, ok_bind, h_0_val_dist']
  refine congrArg Except.ok ?_
  rw [← finish1_scale (inv_pos.2 hκ), ← zipWith_divNoise_scale, List.map_map]
  congr 2
  apply List.map_congr_left
  intro x _
  simp only [Function.comp]
  ring

theorem circE1_scale (hκ : 0 < κ) (n : ℕ) (s : EvolSrc) (T : ℝ) {v : Option ℝ} (hv : circE1 C n s T = .ok v) :
    circE1 C n { s with dist := κ * s.dist } T = .ok (v.map (κ⁻¹ * ·)) := by
  unfold circE1 at hv ⊢
  obtain ⟨N, hN, hv⟩ := except_bind_ok.1 hv
  cases hv
  have e : circRow C.K { s with dist := κ * s.dist } = circRow C.K s := rfl
  simp only [e, hN, ok_bind, h_c_val_dist]
  refine congrArg Except.ok ?_
  rw [← sqrt?_scale (inv_pos.2 hκ), ← snr2_circ_row_scale, List.map_map]
  rfl

theorem eccE1_scale (hκ : 0 < κ) (odeint : Odeint) (H n : ℕ) (s : EvolSrc) (T : ℝ) {v : Option ℝ × ℕ}
    (hv : eccE1 C odeint H n s T = .ok v) :
    eccE1 C odeint H n { s with dist := κ * s.dist } T = .ok (v.1.map (κ⁻¹ * ·), v.2) := by
  unfold eccE1 at hv ⊢
  obtain ⟨N, hN, hv⟩ := except_bind_ok.1 hv
  cases hv
  have e1 : eccRow C odeint { s with dist := κ * s.dist } T n = eccRow C odeint s T n := rfl
  have e2 : eccFreqs C odeint { s with dist := κ * s.dist } T n = eccFreqs C odeint s T n := rfl
  rw [e2, hN, ok_bind]
  refine congrArg Except.ok ?_
  rw [← finish1_scale (inv_pos.2 hκ)]
  congr 1
  unfold eccE1Row
  rw [e1, e2, List.map_map]
  apply List.map_congr_left
  intro x hx
  simp only [Function.comp]
  rw [← snr2_harmonic_scale, List.map_map, List.map_map, List.map_map]
  congr 1
  apply List.map_congr_left
  intro fe _
  simp only [Function.comp, h_c_val_dist]
  rw [List.getD_eq_getElem?_getD, List.getD_eq_getElem?_getD, List.getElem?_map, List.getElem?_map]
  rcases (harmonics H)[x.2]? with _ | k
  · simp
  · rfl

theorem chirp_mass_comm (x y : ℝ) : chirp_mass x y = chirp_mass y x := by
  unfold chirp_mass
  rw [mul_comm x y, add_comm x y]

theorem beta_comm (K : Consts) (x y : ℝ) : utils.beta K x y = utils.beta K y x := by
  unfold utils.beta
  rw [add_comm x y]
  ring

theorem a_comm (K : Consts) (f x y : ℝ) : get_a_from_f_orb K f x y = get_a_from_f_orb K f y x := by
  unfold get_a_from_f_orb
  rw [add_comm x y]

theorem f_comm (K : Consts) (a x y : ℝ) : get_f_orb_from_a K a x y = get_f_orb_from_a K a y x := by
  unfold get_f_orb_from_a
  rw [add_comm x y]

end Legwork.snr

namespace Legwork.source

open Real Legwork.strain Legwork.utils Legwork.evol Legwork.Props Legwork.snr Legwork.Spec

/-- Exchanging the masses of a source treated as stationary. -/
theorem stat_swap {C : Ctx} {S : Settings} (x : One) :
    statOne C S { x with m_1 := x.m_2, m_2 := x.m_1 } = statOne C S x := by
  have hc := chirp_mass_comm x.m_2 x.m_1
  unfold statOne one1 One.circ One.eccentric One.m_c One.orient
  simp only [hc]

/-- Exchanging the masses of a source treated as evolving. -/
theorem evol_swap {W : World} {C : Ctx} {S : Settings} {n : ℕ} (x : One) :
    evolOne W C S n { x with m_1 := x.m_2, m_2 := x.m_1 } = evolOne W C S n x := by
  have hc := chirp_mass_comm x.m_2 x.m_1
  have hb := fun K => beta_comm K x.m_2 x.m_1
  have ha := fun K f => a_comm K f x.m_2 x.m_1
  have hf := fun K f => f_comm K f x.m_2 x.m_1
  have hfm : ∀ K au f, f_or_merged K au f x.m_2 x.m_1 = f_or_merged K au f x.m_1 x.m_2 := by
    intro K au f
    unfold f_or_merged
    simp only [hf]
  unfold evolOne one1 One.evolvingCirc One.evolving
  simp only [circTime, tCirc, tEcc, One.evolvingCirc, hb, ha]
  have e1 : ∀ t, circE1 C n { m_1 := x.m_2, m_2 := x.m_1, f_orb_i := x.f_orb, dist := x.dist } t =
      circE1 C n { m_1 := x.m_1, m_2 := x.m_2, f_orb_i := x.f_orb, dist := x.dist } t := by
    intro t
    unfold circE1 circRow
    simp only [hc, hb, ha, hfm]
  have e2 : ∀ H t, eccE1 C W.odeint H n { m_1 := x.m_2, m_2 := x.m_1, f_orb_i := x.f_orb, ecc := x.ecc, dist := x.dist } t =
      eccE1 C W.odeint H n { m_1 := x.m_1, m_2 := x.m_2, f_orb_i := x.f_orb, ecc := x.ecc, dist := x.dist } t := by
    intro H t
    have r1 : eccRow C W.odeint { m_1 := x.m_2, m_2 := x.m_1, f_orb_i := x.f_orb, ecc := x.ecc, dist := x.dist } t n =
        eccRow C W.odeint { m_1 := x.m_1, m_2 := x.m_2, f_orb_i := x.f_orb, ecc := x.ecc, dist := x.dist } t n := by
      unfold eccRow
      simp only [hb, ha]
    have r2 : eccFreqs C W.odeint { m_1 := x.m_2, m_2 := x.m_1, f_orb_i := x.f_orb, ecc := x.ecc, dist := x.dist } t n =
        eccFreqs C W.odeint { m_1 := x.m_1, m_2 := x.m_2, f_orb_i := x.f_orb, ecc := x.ecc, dist := x.dist } t n := by
      unfold eccFreqs
      rw [r1]
      have : eccFreq C.K { m_1 := x.m_2, m_2 := x.m_1, f_orb_i := x.f_orb, ecc := x.ecc, dist := x.dist } =
        eccFreq C.K { m_1 := x.m_1, m_2 := x.m_2, f_orb_i := x.f_orb, ecc := x.ecc, dist := x.dist } := by
        funext e
        unfold eccFreq
        simp only [ha, hfm]
      rw [this]
    unfold eccE1 eccE1Row
    rw [r1, r2]
    simp only [hc]
  simp only [e1, e2]

/-- Exchanging the masses of a source. -/
theorem full_swap {W : World} {C : Ctx} {S : Settings} {stat_tol : ℝ} {n : ℕ} (x : One) :
    fullOne W C S stat_tol n { x with m_1 := x.m_2, m_2 := x.m_1 } = fullOne W C S stat_tol n x := by
  have hc := chirp_mass_comm x.m_2 x.m_1
  have hst : stat1 W.K C.t_obs stat_tol { x with m_1 := x.m_2, m_2 := x.m_1 } = stat1 W.K C.t_obs stat_tol x := by
    have : One.StationaryOver W.K C.t_obs stat_tol { x with m_1 := x.m_2, m_2 := x.m_1 } = x.StationaryOver W.K C.t_obs stat_tol := by
      unfold One.StationaryOver One.m_c
      simp only [hc]
    unfold stat1
    exact decide_eq_decide.2 (iff_of_eq this)
  unfold fullOne
  rw [hst, stat_swap, evol_swap]

theorem one1_scale {S : Settings} {circ : One → Except PyErr (Option ℝ)} {ecc : ℕ → One → Except PyErr (Option ℝ × ℕ)}
    {x y : One} {κ : ℝ} {v : Option ℝ × ℕ} (hy : y.ecc = x.ecc)
    (h1 : ∀ w, circ x = .ok w → circ y = .ok (w.map (κ⁻¹ * ·)))
    (h2 : ∀ H w, ecc H x = .ok w → ecc H y = .ok (w.1.map (κ⁻¹ * ·), w.2)) (hv : one1 S circ ecc x = .ok v) :
    one1 S circ ecc y = .ok (v.1.map (κ⁻¹ * ·), v.2) := by
  rw [one1_spec] at hv ⊢
  rw [hy]
  refine ⟨fun h => ⟨h1 _ (hv.1 h).1, (hv.1 h).2⟩, fun h => ⟨fun H hH => h2 H _ ((hv.2 h).1 H hH), fun hH => ?_⟩⟩
  obtain ⟨h3, h4⟩ := (hv.2 h).2 hH
  refine ⟨?_, h4⟩
  rw [h3]
  simp

/-- Changing the distance of a source treated as stationary. -/
theorem stat_dist {C : Ctx} {S : Settings} {x : One} {κ : ℝ} (hκ : 0 < κ) {v : Option ℝ × ℕ} (hv : statOne C S x = .ok v) :
    statOne C S { x with dist := κ * x.dist } = .ok (v.1.map (κ⁻¹ * ·), v.2) :=
  one1_scale (x := x) (y := { x with dist := κ * x.dist }) rfl (fun w hw => circ1_scale hκ x.circ hw)
    (fun H w hw => ecc1_scale hκ H x.eccentric hw) hv

/-- Changing the distance of a source treated as evolving. -/
theorem evol_dist {W : World} {C : Ctx} {S : Settings} {n : ℕ} {x : One} {κ : ℝ} (hκ : 0 < κ) {v : Option ℝ × ℕ}
    (hv : evolOne W C S n x = .ok v) :
    evolOne W C S n { x with dist := κ * x.dist } = .ok (v.1.map (κ⁻¹ * ·), v.2) := by
  have ht : circTime C.K { x with dist := κ * x.dist } = circTime C.K x := by
    unfold circTime
    simp only
    rcases x.t_merge with _ | t <;> rfl
  refine one1_scale (x := x) (y := { x with dist := κ * x.dist }) rfl (fun w hw => ?_) (fun H w hw => ?_) hv
  · rw [ht]
    exact circE1_scale hκ n x.evolvingCirc (circTime C.K x) hw
  · exact eccE1_scale hκ W.odeint H n x.evolving (tEcc C.K x.m_1 x.m_2 x.f_orb x.ecc true) hw

/-- Changing the distance of a source. -/
theorem full_dist {W : World} {C : Ctx} {S : Settings} {stat_tol : ℝ} {n : ℕ} {x : One} {κ : ℝ} (hκ : 0 < κ)
    {v : Option ℝ × ℕ} (hv : fullOne W C S stat_tol n x = .ok v) :
    fullOne W C S stat_tol n { x with dist := κ * x.dist } = .ok (v.1.map (κ⁻¹ * ·), v.2) := by
  unfold fullOne at hv ⊢
  have hst : stat1 W.K C.t_obs stat_tol { x with dist := κ * x.dist } = stat1 W.K C.t_obs stat_tol x := rfl
  rw [hst]
  split_ifs at hv ⊢ with h
  · exact stat_dist hκ hv
  · exact evol_dist hκ hv

end Legwork.source
