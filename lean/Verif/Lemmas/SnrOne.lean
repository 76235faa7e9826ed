import Verif.Lemmas.SnrPointwise

/-!
# The SNR functions on a single source
-/

namespace Legwork.snr

open Real Legwork.utils Legwork.strain Legwork.evol

theorem mapM_fuse {α β γ : Type} (g : α → Except PyErr β) (k : α → β → γ) (l : List α) :
    (l.mapM fun x => g x >>= fun y => pure (k x y)) = (l.mapM g >>= fun ys => pure (l.zipWith k ys)) := by
  induction l with
  | nil => rfl
  | cons x l ih =>
    rw [List.mapM_cons, List.mapM_cons, ih]
    rcases g x with e | y
    · rfl
    · rcases l.mapM g with e | ys <;> rfl

theorem mapM_one {α β : Type} (f : α → Except PyErr β) (x : α) : [x].mapM f = (f x >>= fun y => pure [y]) := by
  rw [List.mapM_cons]
  rfl

theorem ecc_stat_one (C : Ctx) (s : EccSrc) (H : ℕ) (rm rb : Bool) :
    snr_ecc_stationary C [s] H rm rb = ((harmonics H).mapM (fun n : ℤ => noise C (n * s.f_orb) >>= fun ν =>
      pure (divNoise (h_0_val C.K C.interpolated_g s.m_c s.dist s.f_orb s.ecc n ^ 2 * C.t_obs) ν)) >>= fun ys =>
        finish rm rb H [ys]) := by
  rw [mapM_fuse]
  unfold snr_ecc_stationary
  simp only
  rw [h_0_n_ok (μ := fun _ => 1) C.K C.interpolated_g (harmonics_any H)
    (by intro r hr; obtain ⟨s, -, rfl⟩ := List.mem_map.1 hr; rfl)]
  rw [ok_bind, mapM_one]
  rcases (harmonics H).mapM (fun n : ℤ => noise C (n * s.f_orb)) with e | ns
  · rfl
  · show finish rm rb H _ = finish rm rb H _
    congr 1
    simp [List.zipWith_map_left]

/-- The orbital frequencies used for an evolving circular source. -/
noncomputable def circFreqs (C : Ctx) (n : ℕ) (s : EvolSrc) (T : ℝ) : List ℝ :=
  drop_merged_circ (circRow C.K s (min (T - 1) C.t_obs) n)

theorem row_eq {β : Type} (h : β → ℝ) (p : β → ℝ) (fs : List β) (ns : List (WithTop ℝ)) :
    ((fs.map h).map fun x => x ^ 2).zipWith divNoise
      ((fs.map p).zipWith (fun f (n : WithTop ℝ) => n.map fun n => f ^ 2 * n) ns) =
    fs.zipWith (fun f n => divNoise (h f ^ 2) (n.map fun n => p f ^ 2 * n)) ns := by
  induction fs generalizing ns with
  | nil => rfl
  | cons f fs ih =>
    cases ns with
    | nil => rfl
    | cons n ns => simp [← ih ns]

theorem circE1_eq (C : Ctx) (n : ℕ) (s : EvolSrc) (T : ℝ) :
    circE1 C n s T = ((circFreqs C n s T).mapM (fun f => noise C (2 * f) >>= fun ν =>
      pure (divNoise (h_c_val C.K C.interpolated_g (chirp_mass s.m_1 s.m_2) s.dist f 0 2 ^ 2)
        (ν.map fun n => (2 * f) ^ 2 * n))) >>= fun y =>
          pure (sqrt? (trapezoid y ((circFreqs C n s T).map fun f => 2 * f)))) := by
  rw [mapM_fuse]
  show ((circFreqs C n s T).mapM (fun f => noise C (2 * f)) >>= fun ns => pure (sqrt? (snr2_circ_row (circFreqs C n s T)
    ((circFreqs C n s T).map fun f => h_c_val C.K C.interpolated_g (chirp_mass s.m_1 s.m_2) s.dist f 0 2) ns))) = _
  rcases (circFreqs C n s T).mapM (fun f => noise C (2 * f)) with e | ns
  · rfl
  · show Except.ok (sqrt? _) = Except.ok (sqrt? _)
    unfold snr2_circ_row
    simp only
    congr 3
    rw [← row_eq]
    simp only [List.zipWith_map_left]

theorem circ_evol_one {C : Ctx} {s : EvolSrc} {n : ℕ} (hn : n ≠ 0) {t : Option (List ℝ)} {T : ℝ}
    (hT : merge_times_circ C [s] t = .ok fun _ => T) {v : Option ℝ} :
    snr_circ_evolving C [s] n t = .ok [v] ↔ circE1 C n s T = .ok v := by
  rw [snr_circ_evolving_fin hn hT]
  show [(0 : Fin 1)].mapM (fun _ => circE1 C n s T) = _ ↔ _
  rw [mapM_one]
  rcases circE1 C n s T with e | w
  · simp [bind, Except.bind]
  · simp [bind, Except.bind, pure, Except.pure]

theorem circ_evol_zero {C : Ctx} {s : EvolSrc} {t : Option (List ℝ)} {T : Fin [s].length → ℝ}
    (hT : merge_times_circ C [s] t = .ok T) : snr_circ_evolving C [s] 0 t = .error .ValueError := by
  unfold snr_circ_evolving
  simp only
  rw [hT, ok_bind, evol_circ_snr, ok_bind]
  rfl

theorem ecc_evol_one {C : Ctx} {odeint : Odeint} {s : EvolSrc} {H n : ℕ} (hn : n ≠ 0) {t : Option (List ℝ)} {np : ℕ}
    {order : List ℕ} (hall : np > 1 → 0 ∈ order) {T : ℝ} (hT : merge_times_ecc C [s] t = .ok fun _ => T)
    (rm rb : Bool) :
    snr_ecc_evolving C odeint [s] H n t np order rm rb =
      ((harmonics H).mapM (fun k : ℤ => ((eccFreqs C odeint s T n).zip (eccRow C odeint s T n)).mapM (fun fe =>
        noise C (k * fe.1) >>= fun ν => pure (divNoise (h_c_val C.K C.interpolated_g (chirp_mass s.m_1 s.m_2) s.dist
          fe.1 fe.2 k ^ 2) (ν.map fun n => (k * fe.1) ^ 2 * n))) >>= fun y =>
            pure (trapezoid y ((eccFreqs C odeint s T n).map fun f => k * f))) >>= fun ys => finish rm rb H [ys]) := by
  unfold snr_ecc_evolving
  simp only
  rw [hT, ok_bind, evol_ecc_snr C odeint [s] hn np order (fun h i hi => by
    obtain rfl : i = 0 := by simpa using hi
    exact hall h) (fun _ => T), ok_bind]
  simp only [pair, pure_bind]
  rw [zip_ofFn, zipWith_ofFn]
  rw [h_c_n_ok C.K C.interpolated_g (harmonics_any H) (by
    intro r hr
    obtain ⟨i, rfl⟩ := List.mem_ofFn.1 hr
    rfl)]
  rw [ok_bind]
  set fs := eccFreqs C odeint s T n with hfs
  set es := eccRow C odeint s T n with hes
  have hlen : fs.length ≤ es.length := by
    rw [hfs, eccFreqs, ← hes]
    unfold drop_merged_ecc
    simp only
    split <;> simp
  show ([fs].mapM fun fs => (harmonics H).mapM fun n : ℤ => fs.mapM fun f => noise C (n * f)) >>= _ = _
  rw [mapM_one]
  have hin : ∀ k : ℤ, (fs.zip es).mapM (fun fe => noise C (k * fe.1) >>= fun ν => pure (divNoise (h_c_val C.K
      C.interpolated_g (chirp_mass s.m_1 s.m_2) s.dist fe.1 fe.2 k ^ 2) (ν.map fun n => (k * fe.1) ^ 2 * n))) =
      (fs.mapM (fun f => noise C (k * f)) >>= fun ns => pure ((fs.zip es).zipWith (fun fe ν => divNoise (h_c_val C.K
        C.interpolated_g (chirp_mass s.m_1 s.m_2) s.dist fe.1 fe.2 k ^ 2) (ν.map fun n => (k * fe.1) ^ 2 * n)) ns)) := by
    intro k
    rw [mapM_fuse (fun fe : ℝ × ℝ => noise C (k * fe.1))]
    congr 1
    have : (fs.zip es).map Prod.fst = fs := List.map_fst_zip hlen
    conv_rhs => rw [← this]
    rw [mapM_map']
  simp only [hin]
  have hout := mapM_fuse (fun k : ℤ => fs.mapM fun f => noise C (k * f)) (fun k ns => trapezoid ((fs.zip es).zipWith
    (fun fe ν => divNoise (h_c_val C.K C.interpolated_g (chirp_mass s.m_1 s.m_2) s.dist fe.1 fe.2 k ^ 2)
      (ν.map fun n => (k * fe.1) ^ 2 * n)) ns) (fs.map fun f => k * f)) (harmonics H)
  have hassoc : ∀ k : ℤ, ((fs.mapM (fun f => noise C (k * f)) >>= fun ns => (pure ((fs.zip es).zipWith (fun fe ν =>
      divNoise (h_c_val C.K C.interpolated_g (chirp_mass s.m_1 s.m_2) s.dist fe.1 fe.2 k ^ 2) (ν.map fun n =>
        (k * fe.1) ^ 2 * n)) ns) : Except PyErr (List ℝ))) >>= fun y => (pure (trapezoid y (fs.map fun f => k * f)) :
          Except PyErr ℝ)) = (fs.mapM (fun f => noise C (k * f)) >>= fun ns => pure (trapezoid ((fs.zip es).zipWith
      (fun fe ν => divNoise (h_c_val C.K C.interpolated_g (chirp_mass s.m_1 s.m_2) s.dist fe.1 fe.2 k ^ 2)
        (ν.map fun n => (k * fe.1) ^ 2 * n)) ns) (fs.map fun f => k * f))) := by
    intro k
    rcases fs.mapM (fun f => noise C (k * f)) with e | ns <;> rfl
  simp only [hassoc]
  rw [hout]
  rcases (harmonics H).mapM (fun k : ℤ => fs.mapM fun f => noise C (k * f)) with e | ns
  · rfl
  · show finish rm rb H _ = finish rm rb H _
    congr 1
    show [((harmonics H).zip ns).zipIdx.map fun x => snr2_harmonic (fs.map fun f => x.1.1 * f)
      (((fs.zip es).map fun fe => (harmonics H).map fun k =>
        h_c_val C.K C.interpolated_g (chirp_mass s.m_1 s.m_2) s.dist fe.1 fe.2 k).map fun step => step.getD x.2 0)
      x.1.2] = _
    congr 1
    apply List.ext_getElem
    · simp
    · intro i h1 h2
      have hi : i < (harmonics H).length := by simp at h1; omega
      have hi' : i < ns.length := by simp at h1; omega
      have hget : (fun fe : ℝ × ℝ => ((harmonics H).map fun k => h_c_val C.K C.interpolated_g (chirp_mass s.m_1 s.m_2)
          s.dist fe.1 fe.2 k).getD i 0) = fun fe => h_c_val C.K C.interpolated_g (chirp_mass s.m_1 s.m_2) s.dist fe.1 fe.2
            (harmonics H)[i] := by
        funext fe
        simp [List.getD_eq_getElem?_getD, List.getElem?_eq_getElem hi]
      have hfs' : (fs.map fun f => ((harmonics H)[i] : ℝ) * f) = (fs.zip es).map fun fe => ((harmonics H)[i] : ℝ) * fe.1 := by
        conv_lhs => rw [← List.map_fst_zip hlen]
        rw [List.map_map]
        rfl
      simp only [List.getElem_map, List.getElem_zipIdx, List.getElem_zip, List.getElem_zipWith, snr2_harmonic,
        List.map_map, Function.comp_def, Nat.zero_add, hget]
      rw [hfs']
      congr 1
      have := row_eq (fun fe : ℝ × ℝ => h_c_val C.K C.interpolated_g (chirp_mass s.m_1 s.m_2) s.dist fe.1 fe.2
        (harmonics H)[i]) (fun fe => ((harmonics H)[i] : ℝ) * fe.1) (fs.zip es) ns[i]
      simpa [List.map_map, Function.comp_def, List.getElem?_eq_getElem hi] using this

end Legwork.snr
