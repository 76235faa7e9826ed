import Verif.Lemmas.UnitsTrack
import Verif.Lemmas.SnrOne

/-!
# snr.py on quantities
-/

namespace Legwork.units

open Real Legwork.Spec

variable {U : Ctx} {C : snr.Ctx}

/-- A possibly infinite density of dimension `D`. -/
def DenotesDen (d : Density) (D : Dim) (n : WithTop ℝ) : Prop :=
  d.unit.dim = D ∧ d.number.map (fun x => x * d.unit.scale) = n

theorem noise_agree (h : SameObservation U C) {f : Val} {x : ℝ} (hf : Denotes f freqDim x) :
    (∃ d n, noise U f = .ok d ∧ snr.noise C x = .ok n ∧ DenotesDen d timeDim n) ∨
      ∃ e, noise U f = .error e ∧ snr.noise C x = .error e := by
  rcases hn : snr.noise C x with e | n
  · exact .inr ⟨e, h.error f x hf e hn, rfl⟩
  · obtain ⟨d, hd, hd'⟩ := h.noise f x hf n hn
    exact .inl ⟨d, n, hd, rfl, hd'⟩

theorem divide_eq {v : Val} {D D' : Dim} {x : ℝ} {d : Density} {n : WithTop ℝ} (hv : Denotes v D x)
    (hd : DenotesDen d D' n) : Denotes (d.divide v) (D - D') (snr.divNoise x n) := by
  obtain ⟨number, unit⟩ := d
  obtain ⟨rfl, rfl⟩ := hd
  have hp := unit.pos
  have key : ∀ y k : ℝ, snr.divNoise y number * (k / unit.scale) =
      snr.divNoise (y * k) (number.map fun x => x * unit.scale) := by
    intro y k
    cases number with
    | top => exact zero_mul _
    | coe z =>
      show y / z * (k / unit.scale) = y * k / (z * unit.scale)
      rw [div_mul_div_comm]
  cases v with
  | num y =>
    obtain ⟨rfl, rfl⟩ := hv
    refine ⟨rfl, ?_⟩
    have := key y 1
    rw [mul_one] at this
    exact this
  | qty q =>
    obtain ⟨rfl, rfl⟩ := hv
    exact ⟨rfl, key q.value q.unit.scale⟩

theorem scale_eq {v : Val} {D D' : Dim} {x : ℝ} {d : Density} {n : WithTop ℝ} (hv : Denotes v D x)
    (hd : DenotesDen d D' n) : DenotesDen (d.scale v) (D + D') (n.map fun y => x * y) := by
  obtain ⟨number, unit⟩ := d
  obtain ⟨rfl, rfl⟩ := hd
  cases v with
  | num y =>
    obtain ⟨rfl, rfl⟩ := hv
    refine ⟨(zero_add _).symm, ?_⟩
    cases number with
    | top => rfl
    | coe z =>
      show ((y * z * unit.scale : ℝ) : WithTop ℝ) = ((y * (z * unit.scale) : ℝ) : WithTop ℝ)
      rw [mul_assoc]
  | qty q =>
    obtain ⟨rfl, rfl⟩ := hv
    refine ⟨rfl, ?_⟩
    cases number with
    | top => rfl
    | coe z =>
      show ((q.value * z * (q.unit.scale * unit.scale) : ℝ) : WithTop ℝ) =
        ((q.value * q.unit.scale * (z * unit.scale) : ℝ) : WithTop ℝ)
      congr 1
      ring

theorem si_eq {v : Val} {D : Dim} {x : ℝ} (h : Denotes v D x) : v.si = x := by
  cases v <;> exact h.2

theorem root_eq {v : Val} {D : Dim} {x : ℝ} (h : Denotes v D x) : root v = snr.sqrt? x := by
  have hsi := si_eq (denotes_rpow (1 / 2) h)
  have hnum : v.number < 0 ↔ x < 0 := by
    cases v with
    | num y => rw [← h.2]; rfl
    | qty q =>
      rw [← h.2, mul_neg_iff]
      have := q.unit.pos
      show q.value < 0 ↔ _
      constructor
      · exact fun h => .inr ⟨h, this⟩
      · rintro (⟨-, h⟩ | ⟨h, -⟩)
        · exact absurd h this.le.not_gt
        · exact h
  unfold root snr.sqrt?
  rw [hsi]
  simp only [hnum]
  norm_num

theorem trapezoid_eq {dy dx : Dim} (hd : dx + dy = 0) : ∀ {ys : List Val} {Ys : List ℝ} {xs : List Val} {Xs : List ℝ},
    List.Forall₂ (fun v x => Denotes v dy x) ys Ys → List.Forall₂ (fun v x => Denotes v dx x) xs Xs →
      ∃ v, trapezoid ys xs = .ok v ∧ Denotes v 0 (snr.trapezoid Ys Xs)
  | _, _, _, _, .nil, _ => ⟨.num 0, by unfold trapezoid; rfl, rfl, by unfold snr.trapezoid; rfl⟩
  | _, _, _, _, .cons _ .nil, _ => ⟨.num 0, by unfold trapezoid; rfl, rfl, by unfold snr.trapezoid; rfl⟩
  | _, _, _, _, .cons _ (.cons _ _), .nil => ⟨.num 0, by unfold trapezoid; rfl, rfl, by unfold snr.trapezoid; rfl⟩
  | _, _, _, _, .cons _ (.cons _ _), .cons _ .nil => ⟨.num 0, by unfold trapezoid; rfl, rfl, by unfold snr.trapezoid; rfl⟩
  | _, _, _, _, .cons hy₀ (.cons hy₁ hys), .cons hx₀ (.cons hx₁ hxs) => by
    obtain ⟨dx', h1, hdx⟩ := denotes_sub hx₁ hx₀
    obtain ⟨sm, h2, hsm⟩ := denotes_add hy₁ hy₀
    obtain ⟨rest, h3, hrest⟩ := trapezoid_eq hd (.cons hy₁ hys) (.cons hx₁ hxs)
    obtain ⟨v, h4, hv⟩ := denotes_add (denotes_cast (denotes_div (denotes_mul hdx hsm) (denotes_num 2)) (by
      rw [hd, sub_zero]) rfl) hrest
    refine ⟨v, ?_, ?_⟩
    · rw [trapezoid, h1, ok_bind, h2, ok_bind, h3, ok_bind]
      exact h4
    · rw [snr.trapezoid]
      exact hv

theorem minimum_eq {v w : Val} {x y : ℝ} (hv : Denotes v timeDim x) (hw : Denotes w timeDim y) :
    ∃ r, v.minimum w = .ok r ∧ Denotes r timeDim (min x y) := by
  obtain ⟨q, rfl, hq, rfl⟩ := qty_of_denotes hv time_ne
  refine ⟨.qty ⟨min q.value (y / q.unit.scale), q.unit⟩, ?_, hq, ?_⟩
  · show (w.valueIn q.unit >>= _) = _
    rw [denotes_valueIn hw time_ne hq.symm]
    rfl
  · show min _ _ * _ = _
    rw [min_mul_of_nonneg _ _ q.unit.pos.le, div_mul_cancel₀ _ q.unit.pos.ne']

/-- Element by element: both lists, with the same values, or both fail. -/
theorem mapM_agree {α : Type} {D : Dim} {l : List α} {f : α → Except PyErr Val} {g : α → Except PyErr ℝ}
    (h : ∀ a ∈ l, (∃ v x, f a = .ok v ∧ g a = .ok x ∧ Denotes v D x) ∨ ∃ e, f a = .error e ∧ g a = .error e) :
    (∃ vs xs, l.mapM f = .ok vs ∧ l.mapM g = .ok xs ∧ List.Forall₂ (fun v x => Denotes v D x) vs xs) ∨
      ∃ e, l.mapM f = .error e ∧ l.mapM g = .error e := by
  induction l with
  | nil => exact .inl ⟨[], [], rfl, rfl, .nil⟩
  | cons a l ih =>
    rw [List.mapM_cons, List.mapM_cons]
    rcases h a (by simp) with ⟨v, x, hv, hx, hd⟩ | ⟨e, hv, hx⟩
    · rcases ih fun b hb => h b (by simp [hb]) with ⟨vs, xs, hvs, hxs, hds⟩ | ⟨e, hvs, hxs⟩
      · exact .inl ⟨v :: vs, x :: xs, by rw [hv, hvs]; rfl, by rw [hx, hxs]; rfl, .cons hd hds⟩
      · exact .inr ⟨e, by rw [hv, hvs]; rfl, by rw [hx, hxs]; rfl⟩
    · exact .inr ⟨e, by rw [hv]; rfl, by rw [hx]; rfl⟩

/-- A circular stationary source. -/
theorem circ_stat_si (h : SameObservation U C) {m_c f_orb dist : Val} {dm dd : Dim} {x y z : ℝ} (hm : Denotes m_c dm x)
    (hf : Denotes f_orb freqDim y) (hd : Denotes dist dd z) (o : strain.Orientation) :
    snr_circ_stationary U m_c f_orb dist o = snr.circ1 C ⟨x, y, z, o⟩ := by
  unfold snr_circ_stationary snr.circ1
  rcases strain.modulation o with e | amp
  · rfl
  rw [ok_bind, ok_bind, h_0_eq hm hd hf, ok_bind, h.consts, h.g]
  rcases noise_agree h (denotes_cast (denotes_mul (denotes_num 2) hf) (zero_add _) rfl) with
    ⟨d, n, h1, h2, hdn⟩ | ⟨e, h1, h2⟩
  · rw [h1, ok_bind, h2, ok_bind]
    have := divide_eq (denotes_mul (denotes_num ((amp * strain.h_0_val C.K C.interpolated_g x z y 0 2) ^ 2)) h.time) hdn
    exact congrArg Except.ok (root_eq this)
  · rw [h1, h2]; rfl

/-- An eccentric stationary source. -/
theorem ecc_stat_si (h : SameObservation U C) {m_c f_orb dist : Val} {dm dd : Dim} {x y z : ℝ} (hm : Denotes m_c dm x)
    (hf : Denotes f_orb freqDim y) (hd : Denotes dist dd z) (e : ℝ) (H : ℕ) (rm rb : Bool) :
    snr_ecc_stationary U m_c f_orb e dist H rm rb = snr.snr_ecc_stationary C [⟨x, y, e, z⟩] H rm rb := by
  rw [snr.ecc_stat_one]
  unfold snr_ecc_stationary
  congr 1
  congr 1
  funext k
  rw [h_0_eq hm hd hf, ok_bind, h.consts, h.g]
  rcases noise_agree h (denotes_cast (denotes_mul (denotes_num (k : ℝ)) hf) (zero_add _) rfl) with
    ⟨d, n, h1, h2, hdn⟩ | ⟨e, h1, h2⟩
  · rw [h1, ok_bind, h2, ok_bind]
    have := divide_eq (denotes_mul (denotes_num (strain.h_0_val C.K C.interpolated_g x z y e k ^ 2)) h.time) hdn
    exact congrArg Except.ok (si_eq this)
  · rw [h1, h2]; rfl

/-! ## Evolving sources -/

theorem au_eq : AU.scale = evol.AU := rfl

theorem column_one (s : snr.EvolSrc) (x : snr.EvolSrc → ℝ) : snr.column [s] x = fun _ => x s := by
  funext i
  match i with
  | ⟨0, _⟩ => rfl

theorem said_some {D : Dim} {v : Val} {x : ℝ} (h : Denotes v D x) : Said D (some (v, x)) := fun p hp => by cases hp; exact h

theorem said_none {D : Dim} : Said D none := fun p hp => by cases hp

/-- The frequencies of an evolving circular source, in Hz. -/
theorem circ_row {K : Consts} {s : snr.EvolSrc} {m_1 m_2 f t : Val} {τ : ℝ} (h₁ : Denotes m_1 massDim s.m_1)
    (h₂ : Denotes m_2 massDim s.m_2) (hf : Denotes f freqDim s.f_orb_i) (ht : Denotes t timeDim τ) (n : ℕ) :
    evol_circ K (some t) n none none (some m_1) (some m_2) none (some f) ["f_orb"] =
      .ok [⟨snr.circRow K s τ n, Hz⟩] := by
  have h1 := evol_circ_si (K := K) (0 : Fin [s].length) (b := none) (m₁ := some (m_1, s.m_1)) (m₂ := some (m_2, s.m_2))
    (a := none) (f := some (f, s.f_orb_i)) (t := some (t, τ)) said_none (said_some h₁) (said_some h₂) said_none
    (said_some hf) (said_some ht) n (steps := none) (fun r hr => by cases hr) ["f_orb"]
  have h2 := snr.evol_circ_snr K [s] (fun _ => τ) n
  rw [column_one, column_one, column_one] at h2
  have h3 : (evol_circ K (some t) n none none (some m_1) (some m_2) none (some f) ["f_orb"]).map (List.map Row.si) =
      .ok [snr.circRow K s τ n] := by
    refine h1.trans ?_
    show (evol.evol_circ (ι := Fin [s].length) K evol.AU (some (.array fun _ => τ)) n none none (some fun _ => s.m_1)
      (some fun _ => s.m_2) none (some fun _ => s.f_orb_i) ["f_orb"]).map (rowsAt 0) = _
    rw [h2]
    rfl
  rcases h4 : evol_circ K (some t) n none none (some m_1) (some m_2) none (some f) ["f_orb"] with e | rows
  · rw [h4] at h3; cases h3
  · rw [h4] at h3
    congr 1
    refine rows_ext ?_ ?_
    · rw [evol_circ_units h4]; rfl
    · refine (Except.ok.inj h3).trans ?_
      simp [Row.si, Hz]

theorem circ_time {K : Consts} {s : snr.EvolSrc} {m_1 m_2 f : Val} (h₁ : Denotes m_1 massDim s.m_1)
    (h₂ : Denotes m_2 massDim s.m_2) (hf : Denotes f freqDim s.f_orb_i) :
    get_t_merge_circ K none (some m_1) (some m_2) none (some f) = .ok (express Gyr (snr.tCirc K s)) :=
  get_t_merge_circ_eq (K := K) (b := none) (m₁ := some (m_1, s.m_1)) (m₂ := some (m_2, s.m_2))
    (a := none) (f := some (f, s.f_orb_i)) said_none (said_some h₁) (said_some h₂) said_none (said_some hf)

theorem denotes_second : Denotes (.qty ⟨1, s⟩) timeDim 1 := ⟨rfl, mul_one _⟩

/-- SNR² integrand of one frequency. -/
theorem integrand_eq (h : SameObservation U C) {m_c dist : Val} {dm dd : Dim} {x z f : ℝ} (hm : Denotes m_c dm x)
    (hd : Denotes dist dd z) {v : Val} (hv : Denotes v freqDim f) (e : ℝ) (k : ℤ) :
    (∃ w y, (h_c U.K U.interpolated_g m_c dist v e k >>= fun hc => noise U (.num k * v) >>= fun ν =>
        pure ((ν.scale ((.num k * v) ^ (2 : ℚ))).divide (.num (hc ^ 2)))) = .ok w ∧
      (snr.noise C (k * f) >>= fun ν => pure (snr.divNoise (strain.h_c_val C.K C.interpolated_g x z f e k ^ 2)
        (ν.map fun n => (k * f) ^ 2 * n))) = .ok y ∧ Denotes w timeDim y) ∨
    ∃ err, (h_c U.K U.interpolated_g m_c dist v e k >>= fun hc => noise U (.num k * v) >>= fun ν =>
        pure ((ν.scale ((.num k * v) ^ (2 : ℚ))).divide (.num (hc ^ 2)))) = .error err ∧
      (snr.noise C (k * f) >>= fun ν => pure (snr.divNoise (strain.h_c_val C.K C.interpolated_g x z f e k ^ 2)
        (ν.map fun n => (k * f) ^ 2 * n))) = .error err := by
  rw [h_c_eq hm hd hv, ok_bind, h.consts, h.g]
  have hk : Denotes (.num k * v) freqDim (k * f) := denotes_cast (denotes_mul (denotes_num (k : ℝ)) hv) (zero_add _) rfl
  rcases noise_agree h hk with ⟨d, n, h1, h2, hdn⟩ | ⟨err, h1, h2⟩
  · refine .inl ⟨_, _, by rw [h1]; rfl, by rw [h2]; rfl, ?_⟩
    have := divide_eq (denotes_num (strain.h_c_val C.K C.interpolated_g x z f e k ^ 2)) (scale_eq (denotes_pow 2 hk) hdn)
    exact denotes_cast this (by dims) rfl
  · exact .inr ⟨err, by rw [h1]; rfl, by rw [h2]; rfl⟩

/-- The integral of a row of frequencies. -/
theorem integral_eq (h : SameObservation U C) {m_c dist : Val} {dm dd : Dim} {x z : ℝ} (hm : Denotes m_c dm x)
    (hd : Denotes dist dd z) (k : ℤ) {α : Type} (l : List α) (φ e : α → ℝ) (fs : List ℝ) {β : Type}
    (g : Val → Except PyErr β) (g' : ℝ → Except PyErr β) (hg : ∀ v y, Denotes v 0 y → g v = g' y) :
    (l.mapM (fun a => h_c U.K U.interpolated_g m_c dist (.qty ⟨φ a, Hz⟩) (e a) k >>= fun hc =>
        noise U (.num k * .qty ⟨φ a, Hz⟩) >>= fun ν =>
        pure ((ν.scale ((.num k * .qty ⟨φ a, Hz⟩) ^ (2 : ℚ))).divide (.num (hc ^ 2)))) >>= fun y =>
      trapezoid y (fs.map fun f => .num k * .qty ⟨f, Hz⟩) >>= g) =
    (l.mapM (fun a => snr.noise C (k * φ a) >>= fun ν => pure (snr.divNoise (strain.h_c_val C.K C.interpolated_g x z (φ a)
        (e a) k ^ 2) (ν.map fun n => (k * φ a) ^ 2 * n))) >>= fun y =>
      g' (snr.trapezoid y (fs.map fun f => k * f))) := by
  have hfd : ∀ f : ℝ, Denotes (.qty ⟨f, Hz⟩) freqDim f := fun f => ⟨rfl, mul_one _⟩
  rcases mapM_agree (l := l) fun a _ => integrand_eq h hm hd (hfd (φ a)) (e a) k with
    ⟨vs, xs, h1, h2, hvs⟩ | ⟨err, h1, h2⟩
  · rw [h1, h2, ok_bind, ok_bind]
    obtain ⟨v, hv, hvd⟩ := trapezoid_eq (dx := freqDim) (by dims) hvs (forall₂_maps (l := fs)
      (f := fun f => .num k * .qty ⟨f, Hz⟩) (g := fun f => k * f) fun f _ =>
        denotes_cast (denotes_mul (denotes_num (k : ℝ)) (hfd f)) (zero_add _) rfl)
    rw [hv, ok_bind]
    exact hg v _ hvd
  · rw [h1, h2]; rfl

/-- A circular evolving source. -/
theorem circ_evol_si (h : SameObservation U C) {s : snr.EvolSrc} {m_1 m_2 f dist : Val} {dd : Dim}
    (h₁ : Denotes m_1 massDim s.m_1) (h₂ : Denotes m_2 massDim s.m_2) (hf : Denotes f freqDim s.f_orb_i)
    (hd : Denotes dist dd s.dist) {n : ℕ} (hn : n ≠ 0) {T : Option (Val × ℝ)} (hT : Said timeDim T) :
    snr_circ_evolving U m_1 m_2 f dist n (T.map Prod.fst) =
      snr.circE1 C n s ((T.map Prod.snd).getD (snr.tCirc C.K s)) := by
  have key : ∀ {vt : Val} {τ : ℝ}, Denotes vt timeDim τ → (do
      let t_evol ← (← vt.sub (.qty ⟨1, Legwork.units.s⟩)).minimum U.t_obs
      let f_orb_evol ← one_row (← evol_circ U.K (some t_evol) n none none (some m_1) (some m_2) none (some f) ["f_orb"])
      if n = 0 then throw .ValueError
      let f_orb_evol := (snr.drop_merged_circ f_orb_evol.values).map fun f => Val.qty ⟨f, f_orb_evol.unit⟩
      let y ← f_orb_evol.mapM fun f => do
        let h_c_n_2 := (← h_c U.K U.interpolated_g (express Msun (utils.chirp_mass s.m_1 s.m_2)) dist f 0 2) ^ 2
        let h_f_lisa_2 ← noise U (.num 2 * f)
        let h_c_lisa_2 := h_f_lisa_2.scale ((.num 2 * f) ^ (2 : ℚ))
        pure (h_c_lisa_2.divide (.num h_c_n_2))
      pure (root (← trapezoid y (f_orb_evol.map fun f => .num 2 * f))) : Except PyErr (Option ℝ)) =
        snr.circE1 C n s τ := by
    intro vt τ hτ
    obtain ⟨d, hd1, hd2⟩ := denotes_sub hτ denotes_second
    obtain ⟨te, hte, hted⟩ := minimum_eq hd2 h.time
    rw [hd1, ok_bind, hte, ok_bind, h.consts, circ_row h₁ h₂ hf hted n, ok_bind, ← h.consts]
    simp only [one_row, ok_bind, hn, if_false, List.map_map, mapM_map']
    rw [snr.circE1_eq]
    have := integral_eq h (denotes_qty (utils.chirp_mass s.m_1 s.m_2) Msun) hd 2 (snr.circFreqs C n s τ) (fun f => f)
      (fun _ => 0) (snr.circFreqs C n s τ) (fun v => pure (root v)) (fun y => pure (snr.sqrt? y))
      fun v y hy => by rw [root_eq hy]
    simp only [Int.cast_ofNat] at this
    rw [h.consts] at this ⊢
    exact this
  unfold snr_circ_evolving
  rw [chirp_mass_eq h₁ h₂, ok_bind]
  rcases T with _ | ⟨v, x⟩
  · simp only [Option.map_none, Option.getD_none]
    rw [circ_time h₁ h₂ hf, ok_bind, ← h.consts]
    exact key (denotes_qty _ Gyr)
  · exact key (hT _ rfl)

/-- Eccentricities and frequencies of an evolving eccentric source. -/
theorem ecc_rows {odeint : evol.Odeint} {s : snr.EvolSrc} {m_1 m_2 f t vT : Val} {T : ℝ} (h₁ : Denotes m_1 massDim s.m_1)
    (h₂ : Denotes m_2 massDim s.m_2) (hf : Denotes f freqDim s.f_orb_i) (he : 0 ≤ s.ecc)
    (ht : Denotes t timeDim (min (T - 0.1 * psd.yr) C.t_obs)) (hT : Denotes vT timeDim T) {n : ℕ} (hn : n ≠ 0) :
    evol_ecc C.K odeint s.ecc (some t) n none none (some m_1) (some m_2) none (some f) ["ecc", "f_orb"] true false
        (.qty ⟨0.1, yr⟩) (some vT) =
      .ok [⟨snr.eccRow C odeint s T n, one⟩, ⟨(snr.eccRow C odeint s T n).map (snr.eccFreq C.K s), Hz⟩] := by
  have htb : Denotes (.qty ⟨0.1, yr⟩) timeDim (0.1 * psd.yr) := ⟨rfl, rfl⟩
  have h1 := evol_ecc_si (K := C.K) odeint he (b := none) (m₁ := some (m_1, s.m_1)) (m₂ := some (m_2, s.m_2))
    (a := none) (f := some (f, s.f_orb_i)) (t := some (t, _)) (T := some (vT, T)) said_none (said_some h₁) (said_some h₂)
    said_none (said_some hf) (said_some ht) n (steps := none) (fun r hr => by cases hr) ["ecc", "f_orb"] true false htb
    (said_some hT) 1 [] (fun h => absurd h (by norm_num))
  have h2 := snr.evol_ecc_snr C odeint [s] hn 1 [] (fun h => absurd h (by norm_num)) (fun _ => T)
  rw [column_one, column_one, column_one, column_one] at h2
  have h3 : (evol_ecc C.K odeint s.ecc (some t) n none none (some m_1) (some m_2) none (some f) ["ecc", "f_orb"] true false
        (.qty ⟨0.1, yr⟩) (some vT)).map (List.map Row.si) =
      .ok [snr.eccRow C odeint s T n, (snr.eccRow C odeint s T n).map (snr.eccFreq C.K s)] := by
    refine h1.trans ?_
    refine (congrArg (Except.map (rowsAt (0 : Fin 1))) h2).trans ?_
    rfl
  rcases h4 : evol_ecc C.K odeint s.ecc (some t) n none none (some m_1) (some m_2) none (some f) ["ecc", "f_orb"] true
      false (.qty ⟨0.1, yr⟩) (some vT) with e | rows
  · rw [h4] at h3; cases h3
  · rw [h4] at h3
    congr 1
    refine rows_ext ?_ ?_
    · rw [evol_ecc_units h4]; rfl
    · refine (Except.ok.inj h3).trans ?_
      simp [Row.si, Hz, one]

theorem ecc_time {K : Consts} {s : snr.EvolSrc} {m_1 m_2 f : Val} (h₁ : Denotes m_1 massDim s.m_1)
    (h₂ : Denotes m_2 massDim s.m_2) (hf : Denotes f freqDim s.f_orb_i) (he : 0 ≤ s.ecc) :
    get_t_merge_ecc K s.ecc none (some f) none (some m_1) (some m_2) 0.15 (1 - 1e-4) true =
      .ok (express Gyr (snr.tEcc K s.m_1 s.m_2 s.f_orb_i s.ecc true)) := by
  have h1 := get_t_merge_ecc_eq (K := K) (b := none) (m₁ := some (m_1, s.m_1)) (m₂ := some (m_2, s.m_2))
    (a := none) (f := some (f, s.f_orb_i)) said_none (said_some h₁) (said_some h₂) said_none (said_some hf) s.ecc 0.15
    (1 - 1e-4) true
  refine h1.trans ?_
  have h2 := Legwork.Props.C18_array_eq_scalar (ι := Unit) K (fun _ => s.ecc) none (some fun _ => s.f_orb_i) none
    (some fun _ => s.m_1) (some fun _ => s.m_2) (s := 0.15) (l := 1 - 1e-4) true (by norm_num) (by norm_num)
    (fun _ => he) ()
  rw [snr.get_t_merge_ecc_each] at h2
  exact congrArg (Except.map (express Gyr)) h2.symm

/-- An eccentric evolving source. -/
theorem ecc_evol_si (h : SameObservation U C) (odeint : evol.Odeint) {s : snr.EvolSrc} {m_1 m_2 f dist : Val} {dd : Dim}
    (h₁ : Denotes m_1 massDim s.m_1) (h₂ : Denotes m_2 massDim s.m_2) (hf : Denotes f freqDim s.f_orb_i)
    (hd : Denotes dist dd s.dist) (he : 0 ≤ s.ecc) (H : ℕ) {n : ℕ} (hn : n ≠ 0) {T : Option (Val × ℝ)}
    (hT : Said timeDim T) (rm rb : Bool) {np : ℕ} {order : List ℕ} (hall : np > 1 → 0 ∈ order) :
    snr_ecc_evolving U odeint m_1 m_2 f dist s.ecc H n (T.map Prod.fst) rm rb =
      snr.snr_ecc_evolving C odeint [s] H n ((T.map Prod.snd).map fun t => [t]) np order rm rb := by
  have key : ∀ {vt : Val} {τ : ℝ}, Denotes vt timeDim τ → (do
      let t_before := Val.qty ⟨0.1, yr⟩
      let t_evol ← (← (← vt.sub t_before).minimum U.t_obs).to Legwork.units.s
      let (e_evol, f_orb_evol) ← two_rows (← evol_ecc U.K odeint s.ecc (some t_evol) n none none (some m_1) (some m_2)
        none (some f) ["ecc", "f_orb"] true false t_before (some vt))
      let fs := (snr.drop_merged_ecc e_evol.values f_orb_evol.values).map fun f => Val.qty ⟨f, f_orb_evol.unit⟩
      let snr_n_2 ← (snr.harmonics H).mapM fun n : ℤ => do
        let y ← (fs.zip e_evol.values).mapM fun (f, e) => do
          let h_c_n_2 := (← h_c U.K U.interpolated_g (express Msun (utils.chirp_mass s.m_1 s.m_2)) dist f e n) ^ 2
          let h_f_lisa ← noise U (.num n * f)
          let h_c_lisa_2 := h_f_lisa.scale ((.num n * f) ^ (2 : ℚ))
          pure (h_c_lisa_2.divide (.num h_c_n_2))
        pure (← trapezoid y (fs.map fun f => .num n * f)).si
      snr.finish rm rb H [snr_n_2] : Except PyErr snr.SnrOut) =
      ((snr.harmonics H).mapM (fun k : ℤ => ((snr.eccFreqs C odeint s τ n).zip (snr.eccRow C odeint s τ n)).mapM (fun fe =>
        snr.noise C (k * fe.1) >>= fun ν => pure (snr.divNoise (strain.h_c_val C.K C.interpolated_g
          (utils.chirp_mass s.m_1 s.m_2) s.dist fe.1 fe.2 k ^ 2) (ν.map fun n => (k * fe.1) ^ 2 * n))) >>= fun y =>
            pure (snr.trapezoid y ((snr.eccFreqs C odeint s τ n).map fun f => k * f))) >>= fun ys =>
              snr.finish rm rb H [ys]) := by
    intro vt τ hτ
    have htb : Denotes (.qty ⟨0.1, yr⟩) timeDim (0.1 * psd.yr) := ⟨rfl, rfl⟩
    obtain ⟨d, hd1, hd2⟩ := denotes_sub hτ htb
    obtain ⟨te, hte, hted⟩ := minimum_eq hd2 h.time
    have hto := denotes_to hted time_ne (u := Legwork.units.s) rfl
    simp only
    rw [hd1, ok_bind, hte, ok_bind, hto, ok_bind, h.consts, ecc_rows (C := C) h₁ h₂ hf he (denotes_qty _ Legwork.units.s)
      hτ hn, ok_bind]
    simp only [two_rows, ok_bind]
    congr 1
    congr 1
    funext k
    have hz : ∀ l l' : List ℝ, (l.map fun f => Val.qty ⟨f, Hz⟩).zip l' =
        (l.zip l').map fun fe => (Val.qty ⟨fe.1, Hz⟩, fe.2) := by
      intro l l'
      rw [← List.map_id l', List.zip_map]
      simp
    rw [hz, mapM_map', List.map_map]
    have := integral_eq h (denotes_qty (utils.chirp_mass s.m_1 s.m_2) Msun) hd k ((snr.eccFreqs C odeint s τ n).zip
      (snr.eccRow C odeint s τ n)) (fun fe => fe.1) (fun fe => fe.2) (snr.eccFreqs C odeint s τ n)
      (fun v => pure v.si) (fun y => pure y) fun v y hy => by rw [si_eq hy]
    rw [h.consts] at this
    exact this
  unfold snr_ecc_evolving
  rw [chirp_mass_eq h₁ h₂, ok_bind]
  rcases T with _ | ⟨v, x⟩
  · have hmt : snr.merge_times_ecc C [s] none = .ok fun _ => snr.tEcc C.K s.m_1 s.m_2 s.f_orb_i s.ecc true := by
      unfold snr.merge_times_ecc
      rw [column_one, column_one, column_one, column_one, snr.get_t_merge_ecc_each]
    simp only [Option.map_none]
    rw [snr.ecc_evol_one hn hall hmt, ecc_time h₁ h₂ hf he, ok_bind, h.consts]
    have := key (denotes_qty (snr.tEcc C.K s.m_1 s.m_2 s.f_orb_i s.ecc true) Gyr)
    rw [h.consts] at this
    exact this
  · have hmt : snr.merge_times_ecc C [s] (some [x]) = .ok fun _ => x := by
      show Except.ok (fun i : Fin [s].length => [x].getD i 0) = _
      congr 1
      funext i
      match i with
      | ⟨0, _⟩ => rfl
    simp only [Option.map_some]
    rw [snr.ecc_evol_one hn hall hmt]
    exact key (hT _ rfl)

end Legwork.units
