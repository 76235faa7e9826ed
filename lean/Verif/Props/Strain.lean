import Verif.Lemmas.Strain
import Verif.Spec.Strain

/-!
# Properties of `strain.py`: C07, C08
-/

namespace Legwork.Props

open Real Legwork.utils Legwork.strain Legwork.Spec

private lemma any_lt_one (n : List ℤ) : n.any (fun k => decide (k < 1)) = true ↔ ∃ k ∈ n, k < 1 := by simp

private lemma row_entry {val : ℝ → ℝ → ℝ → ℝ → ℤ → ℝ} {n : List ℤ} {rows : List Row}
    {H : List (List (List ℝ))} (hH : rows.mapM (row_strain val n) = .ok H)
    {i j k : ℕ} {r : Row} {f e x : ℝ} {m : ℤ} (hr : rows[i]? = some r) (hs : r.steps[j]? = some (f, e))
    (hm : n[k]? = some m) (hx : entry H i j k = some x) :
    ∃ a, modulation r.orient = .ok a ∧ x = a * val r.m_c r.dist f e m := by
  rw [mapM_except_ok_iff] at hH
  unfold entry at hx
  rcases hHi : H[i]? with _ | R
  · simp [hHi] at hx
  · have := forall2_get? hH hr hHi
    unfold row_strain at this
    rcases hmod : modulation r.orient with err | a
    · rw [hmod] at this; simp [bind, Except.bind] at this
    · rw [hmod] at this
      simp only [bind, Except.bind, pure, Except.pure, Except.ok.injEq] at this
      refine ⟨a, rfl, ?_⟩
      rw [hHi, ← this] at hx
      simp [hs, hm] at hx
      exact hx.symm

/-- **C07.** Characteristic strain, chirp rate and strain amplitude satisfy
`h_c² · ḟ_n = (n f_orb)² · h_0²` element by element, for any orientation and any `g(n, e)`. -/
theorem C07_hc_h0_fdot (K : Consts) (ig : Option (ℤ → ℝ → ℝ)) (n : List ℤ) (rows : List Row)
    (hphys : ∀ r ∈ rows, PhysRow r) {H0 Hc : List (List (List ℝ))}
    (h0 : h_0_n K ig n rows = .ok H0) (hc : h_c_n K ig n rows = .ok Hc)
    {i j k : ℕ} {r : Row} {f e x y z : ℝ} {D : List ℝ}
    (hr : rows[i]? = some r) (hs : r.steps[j]? = some (f, e))
    (hD : fn_dot K r.m_c f e n = .ok D)
    (hx : entry H0 i j k = some x) (hy : entry Hc i j k = some y) (hz : D[k]? = some z)
    {m : ℤ} (hm : n[k]? = some m) :
    y ^ 2 * z = (m * f) ^ 2 * x ^ 2 := by
  unfold h_0_n at h0; unfold h_c_n at hc; unfold fn_dot at hD
  split_ifs at h0 hc hD with hany
  obtain ⟨a, ha, rfl⟩ := row_entry h0 hr hs hm hx
  obtain ⟨b, hb, rfl⟩ := row_entry hc hr hs hm hy
  rw [ha] at hb; cases hb
  obtain ⟨hmc, hdist, hst⟩ := hphys r (List.mem_of_getElem? hr)
  obtain ⟨hf, he0, he1⟩ := hst (f, e) (List.mem_of_getElem? hs)
  simp only [Except.ok.injEq] at hD
  rw [← hD] at hz
  simp [hm] at hz
  have hm1 : 1 ≤ m := by
    by_contra hlt
    exact hany ((any_lt_one n).2 ⟨m, List.mem_of_getElem? hm, by omega⟩)
  have := h_c_val_sq_mul_fn_dot K ig (d := r.dist) hmc hf he0 he1 hm1
  rw [← hz]
  linear_combination a ^ 2 * this

/-- **C08** (rejection). `h_0_n`, `h_c_n` and `fn_dot` raise `ValueError` exactly when some harmonic is below 1. -/
theorem C08_valueError_iff (K : Consts) (ig : Option (ℤ → ℝ → ℝ)) (n : List ℤ) (rows : List Row) :
    (h_0_n K ig n rows = .error .ValueError ↔ ∃ k ∈ n, k < 1) ∧
    (h_c_n K ig n rows = .error .ValueError ↔ ∃ k ∈ n, k < 1) ∧
    (∀ m f e, fn_dot K m f e n = .error .ValueError ↔ ∃ k ∈ n, k < 1) := by
  have hrow : ∀ (val : ℝ → ℝ → ℝ → ℝ → ℤ → ℝ) (l : List Row),
      l.mapM (row_strain val n) ≠ .error .ValueError := by
    intro val l
    induction l with
    | nil => simp [pure, Except.pure]
    | cons r l ih =>
      rw [List.mapM_cons]
      have h1 : ∀ er, row_strain val n r = .error er → er ≠ .ValueError := by
        intro er h
        unfold row_strain modulation amplitude_modulation at h
        generalize r.orient = o at h
        obtain ⟨p, q, i⟩ := o
        cases p <;> cases q <;> cases i <;>
          simp [bind, Except.bind, Except.map, pure, Except.pure] at h <;> simp [← h]
      rcases hrs : row_strain val n r with er | b
      · simp only [bind, Except.bind, ne_eq, Except.error.injEq]
        exact h1 er hrs
      · rcases hl : l.mapM (row_strain val n) with er | bs
        · rw [hl] at ih
          simpa [bind, Except.bind] using ih
        · simp [bind, Except.bind, pure, Except.pure]
  refine ⟨?_, ?_, ?_⟩
  · unfold h_0_n; split_ifs with h
    · simpa using h
    · simp only [hrow, false_iff]; simpa using h
  · unfold h_c_n; split_ifs with h
    · simpa using h
    · simp only [hrow, false_iff]; simpa using h
  · intro m f e; unfold fn_dot; split_ifs with h
    · simpa using h
    · simpa using h

/-- **C08** (acceptance). With harmonics all at least 1 and complete or absent orientations, both strains
succeed with one row per source, one column per timestep and one element per harmonic. -/
theorem C08_ok_shape (K : Consts) (ig : Option (ℤ → ℝ → ℝ)) (n : List ℤ) (rows : List Row)
    (hn : ∀ k ∈ n, 1 ≤ k) (ho : ∀ r ∈ rows, OrientOK r.orient) :
    (∃ H, h_0_n K ig n rows = .ok H ∧
      List.Forall₂ (fun r R => List.Forall₂ (fun _ c => List.length c = n.length) r.steps R) rows H) ∧
    (∃ H, h_c_n K ig n rows = .ok H ∧
      List.Forall₂ (fun r R => List.Forall₂ (fun _ c => List.length c = n.length) r.steps R) rows H) := by
  have hany : ¬ (n.any (fun k => decide (k < 1)) = true) := by
    rw [any_lt_one]; rintro ⟨k, hk, hlt⟩; have := hn k hk; omega
  have gen : ∀ (val : ℝ → ℝ → ℝ → ℝ → ℤ → ℝ) (l : List Row), (∀ r ∈ l, OrientOK r.orient) →
      ∃ H, l.mapM (row_strain val n) = .ok H ∧
      List.Forall₂ (fun r R => List.Forall₂ (fun _ c => List.length c = n.length) r.steps R) l H := by
    intro val l hl
    induction l with
    | nil => exact ⟨[], by simp [pure, Except.pure], by simp⟩
    | cons r l ih =>
      obtain ⟨H, hH, hF⟩ := ih (fun b hb => hl b (by simp [hb]))
      have hmod : ∃ a, modulation r.orient = .ok a := by
        rcases hl r (by simp) with h | ⟨p, q, i, h⟩
        · exact ⟨1, by rw [h]; rfl⟩
        · rw [h]; exact ⟨_, rfl⟩
      obtain ⟨a, ha⟩ := hmod
      refine ⟨(r.steps.map fun s => n.map fun k => a * val r.m_c r.dist s.1 s.2 k) :: H, ?_, ?_⟩
      · rw [List.mapM_cons, hH]
        unfold row_strain
        rw [ha]
        simp [bind, Except.bind, pure, Except.pure]
      · refine List.Forall₂.cons ?_ hF
        rw [List.forall₂_map_right_iff]
        simp
  unfold h_0_n h_c_n
  rw [if_neg hany, if_neg hany]
  exact ⟨gen _ rows ho, gen _ rows ho⟩

/-- **C08** (which calls succeed). A call returns strains exactly when every harmonic is at least 1 and every source has
either no orientation at all or a complete one; a source with only part of an orientation makes the call fail. -/
theorem C08_ok_iff (K : Consts) (ig : Option (ℤ → ℝ → ℝ)) (n : List ℤ) (rows : List Row) :
    ((∃ H, h_0_n K ig n rows = .ok H) ↔ (∀ k ∈ n, 1 ≤ k) ∧ ∀ r ∈ rows, OrientOK r.orient) ∧
    ((∃ H, h_c_n K ig n rows = .ok H) ↔ (∀ k ∈ n, 1 ≤ k) ∧ ∀ r ∈ rows, OrientOK r.orient) := by
  have hor : ∀ o : Orientation, (∃ m, modulation o = .ok m) → OrientOK o := by
    rintro ⟨_ | p, _ | q, _ | i⟩ ⟨m, hm⟩ <;>
      first
        | exact Or.inl rfl
        | exact Or.inr ⟨_, _, _, rfl⟩
        | simp [modulation, amplitude_modulation, Except.map] at hm
  have gen : ∀ (val : ℝ → ℝ → ℝ → ℝ → ℤ → ℝ) (H : List (List (List ℝ))),
      rows.mapM (row_strain val n) = .ok H → ∀ r ∈ rows, OrientOK r.orient := by
    intro val H hH r hr
    have hF := (mapM_except_ok_iff _ _ _).1 hH
    have hex : ∃ R, row_strain val n r = .ok R := by
      clear hH
      induction hF with
      | nil => cases hr
      | cons h _ ih =>
        rcases List.mem_cons.1 hr with rfl | hr
        · exact ⟨_, h⟩
        · exact ih hr
    obtain ⟨R, hR⟩ := hex
    apply hor
    unfold row_strain at hR
    rcases hm : modulation r.orient with e | m
    · rw [hm] at hR; cases hR
    · exact ⟨m, rfl⟩
  have hpos : (¬ (n.any (fun k => decide (k < 1)) = true)) → ∀ k ∈ n, 1 ≤ k := by
    intro h k hk
    by_contra hlt
    exact h ((any_lt_one n).2 ⟨k, hk, by omega⟩)
  constructor
  · refine ⟨fun ⟨H, hH⟩ => ?_, fun ⟨hn, ho⟩ => ?_⟩
    · unfold h_0_n at hH
      split_ifs at hH with h
      exact ⟨hpos h, gen _ _ hH⟩
    · obtain ⟨⟨H, hH, -⟩, -⟩ := C08_ok_shape K ig n rows hn ho
      exact ⟨H, hH⟩
  · refine ⟨fun ⟨H, hH⟩ => ?_, fun ⟨hn, ho⟩ => ?_⟩
    · unfold h_c_n at hH
      split_ifs at hH with h
      exact ⟨hpos h, gen _ _ hH⟩
    · obtain ⟨-, ⟨H, hH, -⟩⟩ := C08_ok_shape K ig n rows hn ho
      exact ⟨H, hH⟩

/-- **C08** (sign). Every strain is non-negative. -/
theorem C08_nonneg (K : Consts) (ig : Option (ℤ → ℝ → ℝ)) (n : List ℤ) (rows : List Row)
    (hphys : ∀ r ∈ rows, PhysRow r) {H0 Hc : List (List (List ℝ))} {i j k : ℕ} :
    (∀ x, h_0_n K ig n rows = .ok H0 → entry H0 i j k = some x → 0 ≤ x) ∧
    (∀ x, h_c_n K ig n rows = .ok Hc → entry Hc i j k = some x → 0 ≤ x) := by
  have gen : ∀ (val : ℝ → ℝ → ℝ → ℝ → ℤ → ℝ) (H : List (List (List ℝ))) (x : ℝ),
      (∀ m d f e k, 0 < m → 0 < d → 0 < f → 0 ≤ e → e < 1 → k ∈ n → 0 ≤ val m d f e k) →
      rows.mapM (row_strain val n) = .ok H → entry H i j k = some x → 0 ≤ x := by
    intro val H x hval hH hx
    have hF := (mapM_except_ok_iff _ _ _).1 hH
    unfold entry at hx
    rcases hHi : H[i]? with _ | R
    · simp [hHi] at hx
    obtain ⟨r, hr⟩ : ∃ r, rows[i]? = some r := by
      have hlt : i < rows.length := by
        rw [hF.length_eq]; by_contra hge; rw [List.getElem?_eq_none (by omega)] at hHi; cases hHi
      exact ⟨rows[i], List.getElem?_eq_getElem hlt⟩
    have h2 := forall2_get? hF hr hHi
    unfold row_strain at h2
    rcases hmod : modulation r.orient with er | a
    · rw [hmod] at h2; simp [bind, Except.bind] at h2
    rw [hmod] at h2
    simp only [bind, Except.bind, pure, Except.pure, Except.ok.injEq] at h2
    rw [hHi, ← h2] at hx
    simp only [Option.bind_some, List.getElem?_map] at hx
    rcases hs : r.steps[j]? with _ | s
    · simp [hs] at hx
    rcases hk : n[k]? with _ | m
    · simp [hs, hk] at hx
    simp [hs, hk] at hx
    have ha : 0 ≤ a := modulation_nonneg hmod
    obtain ⟨hmc, hdist, hst⟩ := hphys r (List.mem_of_getElem? hr)
    obtain ⟨hf, he0, he1⟩ := hst s (List.mem_of_getElem? hs)
    rw [← hx]
    exact mul_nonneg ha (hval _ _ _ _ _ hmc hdist hf he0 he1 (List.mem_of_getElem? hk))
  refine ⟨fun x h hx => ?_, fun x h hx => ?_⟩
  · unfold h_0_n at h
    split_ifs at h with hany
    refine gen _ _ x (fun m d f e k hm hd hf h0 h1 hk => ?_) h hx
    refine h_0_val_nonneg K ig hm.le hd.le hf.le h0 h1.le ?_
    by_contra hlt; exact hany ((any_lt_one n).2 ⟨k, hk, by omega⟩)
  · unfold h_c_n at h
    split_ifs at h with hany
    refine gen _ _ x (fun m d f e k hm hd hf h0 h1 hk => ?_) h hx
    refine h_c_val_nonneg K ig hm.le hd.le hf.le h0 h1 ?_
    by_contra hlt; exact hany ((any_lt_one n).2 ⟨k, hk, by omega⟩)

private lemma scale_gen {val : ℝ → ℝ → ℝ → ℝ → ℤ → ℝ} {n : List ℤ} {rows : List Row} (u : Row → Row) (κ : ℝ)
    (hu : ∀ r ∈ rows, (u r).orient = r.orient ∧ (u r).steps.length = r.steps.length ∧
      ∀ j (h : j < r.steps.length) (h' : j < (u r).steps.length), ∀ k ∈ n,
        val (u r).m_c (u r).dist ((u r).steps[j]).1 ((u r).steps[j]).2 k
        = κ * val r.m_c r.dist (r.steps[j]).1 (r.steps[j]).2 k) :
    (rows.map u).mapM (row_strain val n) = (rows.mapM (row_strain val n)).map (scale3 κ) := by
  unfold scale3
  apply mapM_except_map_map
  intro r hr
  obtain ⟨ho, hlen, hv⟩ := hu r hr
  unfold row_strain
  rw [ho]
  rcases modulation r.orient with er | a
  · rfl
  · simp only [bind, Except.bind, pure, Except.pure, Except.map, Except.ok.injEq]
    apply List.ext_getElem
    · simp [hlen]
    · intro j h1 h2
      simp only [List.length_map] at h1 h2
      simp only [List.getElem_map]
      rw [List.map_map]
      apply List.map_congr_left
      intro k hk
      simp only [Function.comp]
      rw [hv j h2 h1 k hk]
      ring

/-- **C08** (distance). Strains are inversely proportional to distance. -/
theorem C08_distance_scaling (K : Consts) (ig : Option (ℤ → ℝ → ℝ)) (n : List ℤ) (rows : List Row) {κ : ℝ}
    (hκ : 0 < κ) :
    h_0_n K ig n (rows.map fun r => { r with dist := κ * r.dist }) = (h_0_n K ig n rows).map (scale3 κ⁻¹) ∧
    h_c_n K ig n (rows.map fun r => { r with dist := κ * r.dist }) = (h_c_n K ig n rows).map (scale3 κ⁻¹) := by
  unfold h_0_n h_c_n
  split_ifs with h
  · simp [Except.map]
  · refine ⟨scale_gen _ _ fun r _ => ⟨rfl, rfl, fun j _ _ k _ => ?_⟩,
      scale_gen _ _ fun r _ => ⟨rfl, rfl, fun j _ _ k _ => ?_⟩⟩
    · simp only [h_0_val]; field_simp
    · simp only [h_c_val]; field_simp

/-- **C08** (chirp mass). `h_0 ∝ m_c^(5/3)` and `h_c ∝ m_c^(5/6)`. -/
theorem C08_mass_scaling (K : Consts) (ig : Option (ℤ → ℝ → ℝ)) (n : List ℤ) (rows : List Row) {κ : ℝ}
    (hκ : 0 < κ) (hphys : ∀ r ∈ rows, PhysRow r) :
    h_0_n K ig n (rows.map fun r => { r with m_c := κ * r.m_c })
      = (h_0_n K ig n rows).map (scale3 (κ ^ (5 / 3 : ℝ))) ∧
    h_c_n K ig n (rows.map fun r => { r with m_c := κ * r.m_c })
      = (h_c_n K ig n rows).map (scale3 (κ ^ (5 / 6 : ℝ))) := by
  unfold h_0_n h_c_n
  split_ifs with h
  · simp [Except.map]
  · refine ⟨scale_gen _ _ fun r hr => ⟨rfl, rfl, fun j _ _ k _ => ?_⟩,
      scale_gen _ _ fun r hr => ⟨rfl, rfl, fun j _ _ k _ => ?_⟩⟩
    · have := (hphys r hr).1
      simp only [h_0_val]; rw [mul_rpow hκ.le this.le]; ring
    · have := (hphys r hr).1
      simp only [h_c_val]; rw [mul_rpow hκ.le this.le]; ring

/-- **C08** (frequency). `h_0 ∝ f_orb^(2/3)` and `h_c ∝ f_orb^(-1/6)`. -/
theorem C08_freq_scaling (K : Consts) (ig : Option (ℤ → ℝ → ℝ)) (n : List ℤ) (rows : List Row) {κ : ℝ}
    (hκ : 0 < κ) (hphys : ∀ r ∈ rows, PhysRow r) :
    h_0_n K ig n (rows.map fun r => { r with steps := r.steps.map fun s => (κ * s.1, s.2) })
      = (h_0_n K ig n rows).map (scale3 (κ ^ (2 / 3 : ℝ))) ∧
    h_c_n K ig n (rows.map fun r => { r with steps := r.steps.map fun s => (κ * s.1, s.2) })
      = (h_c_n K ig n rows).map (scale3 (κ ^ (-1 / 6 : ℝ))) := by
  unfold h_0_n h_c_n
  split_ifs with h
  · simp [Except.map]
  · refine ⟨scale_gen _ _ fun r hr => ⟨rfl, by simp, fun j hj _ k _ => ?_⟩,
      scale_gen _ _ fun r hr => ⟨rfl, by simp, fun j hj _ k _ => ?_⟩⟩
    · have := (hphys r hr).2.2 _ (List.getElem_mem hj)
      simp only [h_0_val, List.getElem_map]
      rw [show π * (κ * (r.steps[j]).1) = κ * (π * (r.steps[j]).1) by ring,
        mul_rpow hκ.le (mul_nonneg pi_pos.le this.1.le)]; ring
    · have := (hphys r hr).2.2 _ (List.getElem_mem hj)
      simp only [h_c_val, List.getElem_map]
      rw [mul_rpow hκ.le this.1.le]; ring

/-- Non-vacuity of C07/C08: an eccentric source with two timesteps and an oriented one, harmonics 1 to 3. -/
example : ∃ H, h_0_n .codata2018 none [1, 2, 3]
    [⟨2e30, 3e19, [(1e-3, 0.3), (2e-3, 0.2)], {}⟩, ⟨2e30, 3e19, [(1e-3, 0)], ⟨some (0.1, 0.2), some 1, some 0⟩⟩]
    = .ok H := by
  obtain ⟨⟨H, h, _⟩, _⟩ := C08_ok_shape .codata2018 none [1, 2, 3]
    [⟨2e30, 3e19, [(1e-3, 0.3), (2e-3, 0.2)], {}⟩, ⟨2e30, 3e19, [(1e-3, 0)], ⟨some (0.1, 0.2), some 1, some 0⟩⟩]
    (by simp) (by
      intro r hr
      simp at hr
      rcases hr with rfl | rfl
      · exact Or.inl rfl
      · exact Or.inr ⟨_, _, _, rfl⟩)
  exact ⟨H, h⟩

example : PhysRow ⟨2e30, 3e19, [(1e-3, 0.3), (2e-3, 0.2)], {}⟩ := by
  refine ⟨by norm_num, by norm_num, ?_⟩
  intro s hs
  simp at hs
  rcases hs with rfl | rfl <;> norm_num

end Legwork.Props
