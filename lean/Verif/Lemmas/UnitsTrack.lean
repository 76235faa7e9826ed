import Verif.Lemmas.UnitsRun
import Verif.Lemmas.Pointwise
import Verif.Lemmas.Snr
import Verif.Props.EvolEcc

/-!
# `evol_circ` and `evol_ecc` on quantities
-/

namespace Legwork.units

open Real Legwork.Spec

variable {K : Consts}

theorem forall₂_maps {α : Type*} {d : Dim} {l : List α} {f : α → Val} {g : α → ℝ}
    (h : ∀ x ∈ l, Denotes (f x) d (g x)) : List.Forall₂ (fun v x => Denotes v d x) (l.map f) (l.map g) := by
  induction l with
  | nil => exact .nil
  | cons x l ih => exact .cons (h x (by simp)) (ih fun y hy => h y (by simp [hy]))

theorem scale_s : s.scale = 1 := rfl
theorem scale_m : m.scale = 1 := rfl

theorem merge_ecc_some {ι : Type} {va vb : Val} {xa xb e : ℝ} (ha : Denotes va lengthDim xa)
    (hb : Denotes vb betaDim xb) (he : 0 ≤ e) (ex : Bool) :
    ∃ T, get_t_merge_ecc K e (some va) none (some vb) none none 0.15 (1 - 1e-4) ex = .ok (express Gyr T) ∧
      evol.get_t_merge_ecc (ι := ι) K (fun _ => e) (some fun _ => xa) none (some fun _ => xb) none none 0.15
        (1 - 1e-4) ex = .ok fun _ => T := by
  have h1 := get_t_merge_ecc_eq (K := K) (b := some (vb, xb)) (m₁ := none) (m₂ := none) (a := some (va, xa))
    (f := none) (fun p hp => by cases hp; exact hb) (fun p hp => by cases hp) (fun p hp => by cases hp)
    (fun p hp => by cases hp; exact ha) (fun p hp => by cases hp) e 0.15 (1 - 1e-4) ex
  have h2 : ∃ T, evol.get_t_merge_ecc_scalar K e (some xa) none (some xb) none none 0.15 (1 - 1e-4) ex = .ok T := by
    unfold evol.get_t_merge_ecc_scalar
    simp only [Option.map_some, Option.map_none, evol.check_mass_freq_input, pure, Except.pure, bind, Except.bind]
    split_ifs <;> exact ⟨_, rfl⟩
  obtain ⟨T, hT⟩ := h2
  refine ⟨T, ?_, ?_⟩
  · refine h1.trans ?_
    show (evol.get_t_merge_ecc_scalar K e (some xa) none (some xb) none none 0.15 (1 - 1e-4) ex).map _ = _
    rw [hT]; rfl
  · have h4 : ∀ i : ι, _ := fun i => Legwork.Props.C18_array_eq_scalar (ι := ι) K (fun _ => e) (some fun _ => xa)
      none (some fun _ => xb) none none (s := 0.15) (l := 1 - 1e-4) ex (by norm_num) (by norm_num) (fun _ => he) i
    have h6 := evol.get_t_merge_ecc_of_check (ι := ι) K (ecc := fun _ => e) (a := some fun _ => xa) (f := none)
      (b := some fun _ => xb) (m₁ := none) (m₂ := none) (s := 0.15) (l := 1 - 1e-4) ex rfl (by norm_num)
      (by norm_num) fun _ => he
    rw [h6] at h4 ⊢
    congr 1
    funext i
    have h5 := (h4 i).trans hT
    simpa [Except.map] using h5

/-- The timesteps are the same times. -/
theorem timesteps_eq {ι : Type} {va vb : Val} {xa xb e : ℝ} (ha : Denotes va lengthDim xa) (hb : Denotes vb betaDim xb)
    (he : 0 ≤ e) {t : Option (Val × ℝ)} (ht : Said timeDim t) (n : ℕ) {steps : Option Row}
    (hs : ∀ r ∈ steps, r.unit.dim = timeDim) :
    ∃ row, create_timesteps_array K va vb e (t.map Prod.fst) n steps = .ok row ∧ row.unit.dim = timeDim ∧
      evol.create_timesteps_array (ι := ι) K (fun _ => xa) (fun _ => xb) (some fun _ => e)
        (t.map fun p => .array fun _ => p.2) n (steps.map fun r => .grids fun _ => r.si) = .ok fun _ => row.si := by
  rcases steps with _ | r
  · have key : ∀ {v : Val} {x : ℝ}, Denotes v timeDim x →
        (v.valueIn s >>= fun y => pure (⟨np.linspace y n, s⟩ : Row) : Except PyErr Row) =
          .ok ⟨np.linspace x n, s⟩ := by
      intro v x hv
      rw [denotes_valueIn hv time_ne (u := s) rfl, scale_s, div_one]
      rfl
    have hsi : ∀ x : ℝ, Row.si ⟨np.linspace x n, s⟩ = np.linspace x n := by
      intro x
      simp [Row.si, s]
    rcases t with _ | ⟨v, x⟩
    · obtain ⟨T, h1', h3⟩ := merge_ecc_some (K := K) (ι := ι) ha hb he true
      refine ⟨⟨np.linspace T n, s⟩, ?_, rfl, ?_⟩
      · show (get_t_merge_ecc K e (some va) none (some vb) none none 0.15 (1 - 1e-4) true >>= fun t =>
          t.valueIn s >>= fun y => pure (⟨np.linspace y n, s⟩ : Row)) = _
        rw [h1']
        exact key (denotes_qty T Gyr)
      · show (evol.get_t_merge_ecc (ι := ι) K (fun _ => e) (some fun _ => xa) none (some fun _ => xb) none none 0.15
          (1 - 1e-4) true >>= fun t => pure fun i => np.linspace (t i) n) = _
        rw [h3]
        show Except.ok (fun _ => np.linspace T n) = _
        rw [hsi]
    · refine ⟨⟨np.linspace x n, s⟩, key (ht _ rfl), rfl, ?_⟩
      show Except.ok (fun _ => np.linspace x n) = _
      rw [hsi]
  · exact ⟨r, rfl, hs r rfl, rfl⟩

theorem circ_track {va vb : Val} {xa xb : ℝ} (ha : Denotes va lengthDim xa) (hb : Denotes vb betaDim xb) {row : Row}
    (hr : row.unit.dim = timeDim) :
    row.values.mapM (fun t => a_circ va vb (.qty ⟨t, row.unit⟩)) = .ok (row.values.map fun t =>
      .qty ⟨evol.a_circ xa xb (t * row.unit.scale) / va.unit.scale, va.unit⟩) := by
  obtain ⟨q, rfl, hq, rfl⟩ := qty_of_denotes ha length_ne
  exact mapM_ok fun t _ => a_circ_eq hq hb ⟨hr, rfl⟩

theorem freq_track {m_1 m_2 : Val} {x₁ x₂ : ℝ} (h₁ : Denotes m_1 massDim x₁) (h₂ : Denotes m_2 massDim x₂)
    {α : Type} (l : List α) (g : α → ℝ) {u : PyUnit} (hu : u.dim = lengthDim) :
    (l.map fun x => Val.qty ⟨g x / u.scale, u⟩).mapM (fun a => f_or_merged K a m_1 m_2) =
      .ok (l.map fun x => .qty ⟨evol.f_or_merged K u.scale (g x) x₁ x₂, Hz⟩) := by
  rw [mapM_map']
  refine mapM_ok fun x _ => ?_
  rw [f_or_merged_eq hu h₁ h₂, div_mul_cancel₀ _ u.pos.ne']

/-- `evol_circ` on quantities gives the SI evolution. -/
theorem evol_circ_si {ι : Type} (i : ι) {b m₁ m₂ a f t : Option (Val × ℝ)} (hb : Said betaDim b) (h₁ : Said massDim m₁)
    (h₂ : Said massDim m₂) (ha : Said lengthDim a) (hf : Said freqDim f) (ht : Said timeDim t) (n : ℕ)
    {steps : Option Row} (hs : ∀ r ∈ steps, r.unit.dim = timeDim) (vars : List String) :
    (evol_circ K (t.map Prod.fst) n steps (b.map Prod.fst) (m₁.map Prod.fst) (m₂.map Prod.fst) (a.map Prod.fst)
        (f.map Prod.fst) vars).map (List.map Row.si) =
      (evol.evol_circ (ι := ι) K ((a.map Prod.fst).elim AU Val.unit).scale (t.map fun p => .array fun _ => p.2) n
        (steps.map fun r => .grids fun _ => r.si) (one' (b.map Prod.snd)) (one' (m₁.map Prod.snd))
        (one' (m₂.map Prod.snd)) (one' (a.map Prod.snd)) (one' (f.map Prod.snd)) vars).map (rowsAt i) := by
  unfold evol_circ evol.evol_circ
  rcases check_cases (K := K) (ι := ι) hb h₁ h₂ ha hf with ⟨vb, va, xb, xa, h, hb, hva, hu, h'⟩ | ⟨err, h, h'⟩
  swap
  · rw [h, h']; rfl
  rw [h, h', ok_bind, ok_bind]
  simp only
  by_cases hm : evol.wantsFreq vars = true ∧ ((m₁.map Prod.fst).isNone = true ∨ (m₂.map Prod.fst).isNone = true)
  · rw [if_pos hm, if_pos (by simpa [one'] using hm)]
    rfl
  rw [if_neg hm, if_neg (by simpa [one'] using hm)]
  obtain ⟨row, hrow, hdim, hrow'⟩ := timesteps_eq (K := K) (ι := ι) (e := 0) hva hb le_rfl ht n hs
  have hva' : va.unit.dim = lengthDim := by
    obtain ⟨q, rfl, hq, -⟩ := qty_of_denotes hva length_ne
    exact hq
  simp only [pure_bind]
  rw [hrow, hrow', ok_bind, ok_bind, circ_track hva hb hdim, ok_bind, ← hu]
  have hA : List.Forall₂ (fun v x => Denotes v lengthDim x)
      (row.values.map fun t => Val.qty ⟨evol.a_circ xa xb (t * row.unit.scale) / va.unit.scale, va.unit⟩)
      (row.si.map (evol.a_circ xa xb)) := by
    simp only [Row.si, List.map_map]
    exact forall₂_maps fun t _ => ⟨hva', div_mul_cancel₀ _ va.unit.pos.ne'⟩
  cases hw : evol.wantsFreq vars with
  | false =>
    refine construct_output_eq (i := i) (v := ⟨row, none, some _, none⟩)
      (w := ⟨fun _ => row.si, none, some fun _ => row.si.map (evol.a_circ xa xb), none⟩) ⟨hdim, rfl, rfl, .some hA, .none⟩
      false vars
  | true =>
    rw [hw] at hm
    rcases m₁ with _ | ⟨v₁, x₁⟩
    · exact absurd ⟨rfl, Or.inl rfl⟩ hm
    rcases m₂ with _ | ⟨v₂, x₂⟩
    · exact absurd ⟨rfl, Or.inr rfl⟩ hm
    simp only [Option.map_some]
    rw [freq_track (h₁ _ rfl) (h₂ _ rfl) _ _ hva', ok_bind]
    refine construct_output_eq (i := i) (v := ⟨row, none, some _, some _⟩)
      (w := ⟨fun _ => row.si, none, some fun _ => row.si.map (evol.a_circ xa xb), some fun _ => (row.si.map
        (evol.a_circ xa xb)).map fun a => evol.f_or_merged K va.unit.scale a x₁ x₂⟩)
      ⟨hdim, rfl, rfl, .some hA, .some ?_⟩ false vars
    simp only [Row.si, List.map_map]
    exact forall₂_maps fun t _ => ⟨rfl, mul_one _⟩

/-! ## Eccentric evolution -/

theorem rowMax_scale {k : ℝ} (hk : 0 < k) (x : ℝ) (xs : List ℝ) :
    np.rowMax (x * k) (xs.map (· * k)) = np.rowMax x xs * k := by
  unfold np.rowMax
  induction xs generalizing x with
  | nil => rfl
  | cons y ys ih =>
    rw [List.map_cons, List.foldl_cons, List.foldl_cons, ← max_mul_of_nonneg _ _ hk.le, ih]

theorem gyr_eq : Gyr.scale = evol.Gyr := by norm_num [Gyr, evol.Gyr]

/-- The merger clamp on quantities is the SI one. -/
theorem avoid_eq {va vb vt : Val} {xa xb e τ : ℝ} (ha : Denotes va lengthDim xa) (hb : Denotes vb betaDim xb)
    (he : 0 ≤ e) (ex : Bool) (ht : Denotes vt timeDim τ) {T : Option (Val × ℝ)} (hT : Said timeDim T) {row : Row}
    (hr : row.unit.dim = timeDim) :
    (∃ row', avoid_merger_times K e vb va ex vt (T.map Prod.fst) row = .ok row' ∧ row'.unit.dim = timeDim ∧
      evol.avoid_merger_times (n := 1) K (fun _ => e) (fun _ => xb) (fun _ => xa) ex τ (one' (T.map Prod.snd))
        (fun _ => row.si) = .ok fun _ => row'.si) ∨
    ∃ err, avoid_merger_times K e vb va ex vt (T.map Prod.fst) row = .error err ∧
      evol.avoid_merger_times (n := 1) K (fun _ => e) (fun _ => xb) (fun _ => xa) ex τ (one' (T.map Prod.snd))
        (fun _ => row.si) = .error err := by
  have key : ∀ {vm : Val} {M : ℝ}, Denotes vm timeDim M →
      (∃ row', (do
          let _ ← vm.valueIn row.unit
          let limit ← (← vm.sub vt).valueIn row.unit
          match row.values with
          | [] => throw .IndexError
          | t0 :: ts =>
            let marker ← (Val.qty ⟨-1, Gyr⟩).valueIn row.unit
            let previous := np.rowMax t0 (ts.map fun t => if t ≥ limit then marker else t)
            pure ⟨t0 :: ts.map fun t => if t ≥ limit then previous else t, row.unit⟩ : Except PyErr Row) = .ok row' ∧
        row'.unit.dim = timeDim ∧ (if ∃ _ : Fin 1, row.si = [] then throw .IndexError
          else pure fun _ => evol.clamp_row evol.Gyr M τ row.si : Except PyErr (Fin 1 → List ℝ)) =
            .ok fun _ => row'.si) ∨
      ∃ err, (do
          let _ ← vm.valueIn row.unit
          let limit ← (← vm.sub vt).valueIn row.unit
          match row.values with
          | [] => throw .IndexError
          | t0 :: ts =>
            let marker ← (Val.qty ⟨-1, Gyr⟩).valueIn row.unit
            let previous := np.rowMax t0 (ts.map fun t => if t ≥ limit then marker else t)
            pure ⟨t0 :: ts.map fun t => if t ≥ limit then previous else t, row.unit⟩ : Except PyErr Row) = .error err ∧
        (if ∃ _ : Fin 1, row.si = [] then throw .IndexError
          else pure fun _ => evol.clamp_row evol.Gyr M τ row.si : Except PyErr (Fin 1 → List ℝ)) = .error err := by
    intro vm M hm
    obtain ⟨d, hd, hdd⟩ := denotes_sub hm ht
    have hg : Denotes (Val.qty ⟨-1, Gyr⟩) timeDim (-1 * evol.Gyr) := ⟨rfl, by rw [← gyr_eq]⟩
    rw [denotes_valueIn hm time_ne hr.symm, hd]
    simp only [ok_bind]
    rw [denotes_valueIn hdd time_ne hr.symm, denotes_valueIn hg time_ne hr.symm]
    simp only [ok_bind]
    have hp := row.unit.pos
    rcases hv : row.values with _ | ⟨t0, ts⟩
    · right
      refine ⟨.IndexError, rfl, ?_⟩
      rw [if_pos ⟨0, by simp [Row.si, hv]⟩]; rfl
    · left
      refine ⟨_, rfl, hr, ?_⟩
      have hsi : row.si = t0 * row.unit.scale :: ts.map (· * row.unit.scale) := by simp [Row.si, hv]
      rw [if_neg (by rw [hsi]; simp)]
      show Except.ok _ = Except.ok _
      congr 1
      funext _
      rw [hsi]
      have hle : ∀ t : ℝ, (t * row.unit.scale ≥ M - τ) = (t ≥ (M - τ) / row.unit.scale) := by
        intro t
        rw [ge_iff_le, ge_iff_le, div_le_iff₀ hp]
      have hmax : np.rowMax (t0 * row.unit.scale) ((ts.map (· * row.unit.scale)).map fun t =>
          if t ≥ M - τ then -1 * evol.Gyr else t) =
          np.rowMax t0 (ts.map fun t => if t ≥ (M - τ) / row.unit.scale then -1 * evol.Gyr / row.unit.scale else t) *
            row.unit.scale := by
        rw [← rowMax_scale hp, List.map_map, List.map_map]
        congr 1
        apply List.map_congr_left
        intro t _
        simp only [Function.comp, hle]
        split_ifs
        · rw [div_mul_cancel₀ _ hp.ne']
        · rfl
      simp only [evol.clamp_row, Row.si, List.map_cons, decide_eq_true_eq]
      congr 1
      rw [hmax, List.map_map, List.map_map]
      apply List.map_congr_left
      intro t _
      simp only [Function.comp, hle]
      split_ifs <;> rfl
  rcases T with _ | ⟨v, x⟩
  · obtain ⟨M, h1, h2⟩ := merge_ecc_some (K := K) (ι := Fin 1) ha hb he ex
    have hto : (express Gyr M).to Gyr = .ok (express Gyr M) := by
      exact denotes_to (denotes_qty M Gyr) time_ne rfl
    have := key (denotes_qty M Gyr)
    unfold avoid_merger_times evol.avoid_merger_times
    simp only [Option.map_none, one', h1, h2, ok_bind]
    rw [hto, ok_bind]
    exact this
  · exact key (hT _ rfl)

/-- The second half of the SI `evol_ecc`, for one binary. -/
noncomputable def siTrack (K : Consts) (odeint : evol.Odeint) (e xb c0 : ℝ) (m₁ m₂ : Option ℝ) (vars : List String)
    (R : List ℝ) : Except PyErr (evol.EvolOut (Fin 1)) :=
  let E := (odeint (fun e => evol.de_dt e xb c0) e R).map evol.nan_to_num
  let A : Option (Fin 1 → List ℝ) :=
    if evol.wantsSep vars then some fun _ => E.map fun e => utils.get_a_from_ecc e c0 else none
  let F : Option (Fin 1 → List ℝ) :=
    match evol.wantsFreq vars, A, one' m₁, one' m₂ with
    | true, some a, some m1, some m2 => some fun i => (a i).map fun a => evol.f_or_merged K evol.AU a (m1 i) (m2 i)
    | _, _, _, _ => none
  evol.construct_output true ⟨fun _ => R, some fun _ => E, A, F⟩ vars

theorem track_eq (odeint : evol.Odeint) {e xb x : ℝ} {vb vc : Val} (hb : Denotes vb betaDim xb)
    (hc : Denotes vc lengthDim x) {m₁ m₂ : Option (Val × ℝ)} (h₁ : Said massDim m₁) (h₂ : Said massDim m₂)
    (vars : List String) {row : Row} (hr : row.unit.dim = timeDim) :
    (ecc_track K odeint e vb vc (m₁.map Prod.fst) (m₂.map Prod.fst) vars row).map (List.map Row.si) =
      (siTrack K odeint e xb x (m₁.map Prod.snd) (m₂.map Prod.snd) vars row.si).map (rowsAt 0) := by
  have hm4 : m4_s.scale = 1 := by
    show (1 : ℝ) ^ ((4 : ℚ) : ℝ) / 1 = 1
    simp
  have hm4d : betaDim = m4_s.dim := by
    symm
    show (4 : ℚ) • (0, 1, 0) - (0, 0, 1) = _
    dims
  unfold ecc_track siTrack
  obtain ⟨row₂, h2, hu2, hsi2⟩ := row_to (r := row) (u := s) hr
  have hval : row₂.values = row.si := by rw [← hsi2]; simp [Row.si, hu2, scale_s]
  have hd2 : row₂.unit.dim = timeDim := by rw [hu2]; rfl
  rw [denotes_valueIn hc length_ne (u := m) rfl, scale_m, div_one, ok_bind,
    denotes_valueIn hb beta_ne hm4d, hm4, div_one, ok_bind, h2, ok_bind, hval]
  generalize (odeint (fun e => evol.de_dt e xb x) e row.si).map evol.nan_to_num = E
  have hone : Row.si ⟨E, one⟩ = E := by simp [Row.si, one]
  have hA : E.mapM (fun e => get_a_from_ecc e (.qty ⟨x, m⟩)) =
      .ok (E.map fun e => .qty ⟨utils.get_a_from_ecc e x / AU.scale, AU⟩) :=
    mapM_ok fun e _ => get_a_from_ecc_eq ⟨rfl, mul_one x⟩
  have hAd : List.Forall₂ (fun v x => Denotes v lengthDim x)
      (E.map fun e => Val.qty ⟨utils.get_a_from_ecc e x / AU.scale, AU⟩) (E.map fun e => utils.get_a_from_ecc e x) :=
    forall₂_maps fun e _ => denotes_qty _ AU
  cases hs : evol.wantsSep vars with
  | false =>
    simp only [Bool.false_eq_true, if_false]
    cases evol.wantsFreq vars <;>
    exact construct_output_eq (i := (0 : Fin 1)) (v := ⟨row₂, some ⟨E, one⟩, none, none⟩)
      (w := ⟨fun _ => row.si, some fun _ => E, none, none⟩) ⟨hd2, hsi2, by simp [hone], .none, .none⟩ true vars
  | true =>
    simp only [if_true]
    rw [hA, ok_bind]
    cases hw : evol.wantsFreq vars with
    | false =>
      exact construct_output_eq (i := (0 : Fin 1)) (v := ⟨row₂, some ⟨E, one⟩, some _, none⟩)
        (w := ⟨fun _ => row.si, some fun _ => E, some _, none⟩) ⟨hd2, hsi2, by simp [hone], .some hAd, .none⟩ true vars
    | true =>
      rcases m₁ with _ | ⟨v₁, x₁⟩
      · exact construct_output_eq (i := (0 : Fin 1)) (v := ⟨row₂, some ⟨E, one⟩, some _, none⟩)
          (w := ⟨fun _ => row.si, some fun _ => E, some _, none⟩) ⟨hd2, hsi2, by simp [hone], .some hAd, .none⟩ true vars
      rcases m₂ with _ | ⟨v₂, x₂⟩
      · exact construct_output_eq (i := (0 : Fin 1)) (v := ⟨row₂, some ⟨E, one⟩, some _, none⟩)
          (w := ⟨fun _ => row.si, some fun _ => E, some _, none⟩) ⟨hd2, hsi2, by simp [hone], .some hAd, .none⟩ true vars
      simp only [Option.map_some, pure_bind]
      rw [freq_track (h₁ _ rfl) (h₂ _ rfl) _ _ (u := AU) rfl, ok_bind]
      refine construct_output_eq (i := (0 : Fin 1)) (v := ⟨row₂, some ⟨E, one⟩, some _, some _⟩)
        (w := ⟨fun _ => row.si, some fun _ => E, some _, some _⟩)
        ⟨hd2, hsi2, by simp [hone], .some hAd, .some ?_⟩ true vars
      simp only [List.map_map]
      exact forall₂_maps fun t _ => ⟨rfl, mul_one _⟩

/-- `evol_ecc` on quantities gives the SI evolution. -/
theorem evol_ecc_si (odeint : evol.Odeint) {e τ : ℝ} (he : 0 ≤ e) {b m₁ m₂ a f t T : Option (Val × ℝ)}
    (hb : Said betaDim b) (h₁ : Said massDim m₁) (h₂ : Said massDim m₂) (ha : Said lengthDim a) (hf : Said freqDim f)
    (ht : Said timeDim t) (n : ℕ) {steps : Option Row} (hs : ∀ r ∈ steps, r.unit.dim = timeDim) (vars : List String)
    (am ex : Bool) {vt : Val} (htb : Denotes vt timeDim τ) (hT : Said timeDim T) (n_proc : ℕ) (order : List ℕ)
    (hall : n_proc > 1 → 0 ∈ order) :
    (evol_ecc K odeint e (t.map Prod.fst) n steps (b.map Prod.fst) (m₁.map Prod.fst) (m₂.map Prod.fst) (a.map Prod.fst)
        (f.map Prod.fst) vars am ex vt (T.map Prod.fst)).map (List.map Row.si) =
      (evol.evol_ecc (n := 1) K odeint (fun _ => e) (t.map fun p => .array fun _ => p.2) n
        (steps.map fun r => .grids fun _ => r.si) (one' (b.map Prod.snd)) (one' (m₁.map Prod.snd))
        (one' (m₂.map Prod.snd)) (one' (a.map Prod.snd)) (one' (f.map Prod.snd)) vars n_proc order am ex τ
        (one' (T.map Prod.snd))).map (rowsAt 0) := by
  unfold evol_ecc evol.evol_ecc
  rcases check_cases (K := K) (ι := Fin 1) hb h₁ h₂ ha hf with ⟨vb, va, xb, xa, h, hb, hva, hu, h'⟩ | ⟨err, h, h'⟩
  swap
  · rw [h, h']; rfl
  rw [h, h', ok_bind, ok_bind]
  simp only
  by_cases hm : evol.wantsFreq vars = true ∧ ((m₁.map Prod.fst).isNone = true ∨ (m₂.map Prod.fst).isNone = true)
  · rw [if_pos hm, if_pos (by simpa [one'] using hm)]
    rfl
  rw [if_neg hm, if_neg (by simpa [one'] using hm)]
  obtain ⟨row, hrow, hdim, hrow'⟩ := timesteps_eq (K := K) (ι := Fin 1) (e := e) hva hb he ht n hs
  simp only [pure_bind]
  rw [c_0_eq hva, ok_bind, hrow, hrow', ok_bind, ok_bind]
  cases am with
  | false =>
    refine (track_eq (K := K) odeint hb (denotes_qty _ AU) h₁ h₂ vars hdim).trans ?_
    simp only [Bool.false_eq_true, if_false]
    rw [evol.integrate_eq odeint n_proc order (fun h i hi => by
      obtain rfl : i = 0 := by omega
      exact hall h)]
    unfold siTrack
    cases evol.wantsFreq vars <;> cases evol.wantsSep vars <;> cases m₁ <;> cases m₂ <;> rfl
  | true =>
    simp only [if_true]
    rcases avoid_eq (K := K) hva hb he ex htb hT hdim with ⟨row', h1, hdim', h1'⟩ | ⟨err, h1, h1'⟩
    · rw [h1, h1', ok_bind, ok_bind]
      refine (track_eq (K := K) odeint hb (denotes_qty _ AU) h₁ h₂ vars hdim').trans ?_
      rw [evol.integrate_eq odeint n_proc order (fun h i hi => by
        obtain rfl : i = 0 := by omega
        exact hall h)]
      unfold siTrack
      cases evol.wantsFreq vars <;> cases evol.wantsSep vars <;> cases m₁ <;> cases m₂ <;> rfl
    · rw [h1, h1']; rfl

/-! ## Documented units -/

theorem evol_circ_units {t b m₁ m₂ a f : Option Val} {n : ℕ} {steps : Option Row} {vars : List String} {out : List Row}
    (h : evol_circ K t n steps b m₁ m₂ a f vars = .ok out) : out.map Row.unit = vars.filterMap (outputUnit false) := by
  have hno : ∀ r ∈ (none : Option Row), r.unit = one := fun r hr => by cases hr
  unfold evol_circ at h
  obtain ⟨x, -, h⟩ := except_bind_ok.1 h
  simp only at h
  split_ifs at h
  · cases h
  simp only [pure_bind] at h
  obtain ⟨row, -, h⟩ := except_bind_ok.1 h
  obtain ⟨as, -, h⟩ := except_bind_ok.1 h
  split at h
  · obtain ⟨fs, -, h⟩ := except_bind_ok.1 h
    exact construct_output_units hno h
  · exact construct_output_units hno h

theorem ecc_track_units {odeint : evol.Odeint} {e : ℝ} {b c : Val} {m₁ m₂ : Option Val} {vars : List String} {row : Row}
    {out : List Row} (h : ecc_track K odeint e b c m₁ m₂ vars row = .ok out) :
    out.map Row.unit = vars.filterMap (outputUnit true) := by
  have hone : ∀ {E : List ℝ}, ∀ r ∈ some (⟨E, one⟩ : Row), r.unit = one := fun r hr => by cases hr; rfl
  unfold ecc_track at h
  obtain ⟨c0, -, h⟩ := except_bind_ok.1 h
  obtain ⟨β, -, h⟩ := except_bind_ok.1 h
  obtain ⟨ts, -, h⟩ := except_bind_ok.1 h
  simp only at h
  have fin : ∀ {A : Option (List Val)} {E : List ℝ}, ((match evol.wantsFreq vars, A, m₁, m₂ with
      | true, some a, some m1, some m2 => a.mapM (fun a => f_or_merged K a m1 m2) >>= fun r =>
        construct_output true ⟨ts, some ⟨E, one⟩, A, some r⟩ vars
      | _, _, _, _ => construct_output true ⟨ts, some ⟨E, one⟩, A, none⟩ vars) = .ok out) →
      out.map Row.unit = vars.filterMap (outputUnit true) := by
    intro A E h
    split at h
    · obtain ⟨fs, -, h⟩ := except_bind_ok.1 h
      exact construct_output_units hone h
    · exact construct_output_units hone h
  split_ifs at h
  · obtain ⟨as, -, h⟩ := except_bind_ok.1 h
    simp only [pure_bind] at h
    exact fin (A := some as) h
  · simp only [pure_bind] at h
    exact fin (A := none) h

theorem evol_ecc_units {odeint : evol.Odeint} {e : ℝ} {t b m₁ m₂ a f T : Option Val} {n : ℕ} {steps : Option Row}
    {vars : List String} {am ex : Bool} {tb : Val} {out : List Row}
    (h : evol_ecc K odeint e t n steps b m₁ m₂ a f vars am ex tb T = .ok out) :
    out.map Row.unit = vars.filterMap (outputUnit true) := by
  unfold evol_ecc at h
  obtain ⟨x, -, h⟩ := except_bind_ok.1 h
  simp only at h
  by_cases hw : evol.wantsFreq vars = true ∧ (m₁.isNone = true ∨ m₂.isNone = true)
  · rw [if_pos hw] at h
    cases h
  rw [if_neg hw] at h
  obtain ⟨c0, -, h⟩ := except_bind_ok.1 h
  obtain ⟨row, -, h⟩ := except_bind_ok.1 h
  cases am
  · exact ecc_track_units h
  · obtain ⟨row, -, h⟩ := except_bind_ok.1 h
    exact ecc_track_units h

theorem Row.ext_si {r r' : Row} (hu : r.unit = r'.unit) (hs : r.si = r'.si) : r = r' := by
  obtain ⟨v, u⟩ := r
  obtain ⟨v', u'⟩ := r'
  cases hu
  have : Function.Injective fun x : ℝ => x * u.scale := mul_left_injective₀ u.pos.ne'
  have hv : v = v' := List.map_injective_iff.2 this hs
  rw [hv]

theorem rows_ext : ∀ {l l' : List Row}, l.map Row.unit = l'.map Row.unit → l.map Row.si = l'.map Row.si → l = l'
  | [], [], _, _ => rfl
  | [], _ :: _, h, _ => by simp at h
  | _ :: _, [], h, _ => by simp at h
  | r :: l, r' :: l', h, h' => by
    simp only [List.map_cons, List.cons.injEq] at h h'
    rw [Row.ext_si h.1 h'.1, rows_ext h.2 h'.2]

end Legwork.units
