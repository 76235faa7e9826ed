import Verif.Props.EndToEnd
import Verif.Props.Cached
import Verif.Props.SourceWith
import Verif.Props.PsdTianqin
import Verif.Spec.Longer

/-!
# Observing for longer (C101)
-/

namespace Legwork.Props

open Real MeasureTheory Filter Topology Set Legwork.source Legwork.Spec Legwork.snr Legwork.strain Legwork.utils Legwork.evol

/-! ### Stationary sources -/

private lemma divNoise_quieter {x x' : ℝ} (hx : 0 ≤ x) (hxx : x ≤ x') {y y' : WithTop ℝ} (hy : 0 < y') (h : y' ≤ y) :
    0 ≤ divNoise x y ∧ divNoise x y ≤ divNoise x' y' := by
  refine ⟨divNoise_nonneg hx (hy.le.trans h), ?_⟩
  cases y with
  | top => exact divNoise_nonneg (hx.trans hxx) hy.le
  | coe y =>
    cases y' with
    | top => exact absurd h (by simp)
    | coe y' =>
      have h1 : 0 < y' := by exact_mod_cast hy
      have h2 : y' ≤ y := by exact_mod_cast h
      exact div_le_div₀ (hx.trans hxx) hxx h1 h2

theorem circ1_longer {C C' : Ctx} (h : LongerCall C C') {s : CircSrc} (hf : 0 < s.f_orb) {v : Option ℝ}
    (hv : circ1 C s = .ok v) : ∃ a b, circ1 C' s = .ok (some b) ∧ v = some a ∧ 0 ≤ a ∧ a ≤ b := by
  obtain ⟨y, y', h1, h2, h3, h4⟩ := h.noise (2 * s.f_orb) (by linarith)
  unfold circ1 at hv ⊢
  rw [h1] at hv
  rw [h2, h.K, h.g]
  rcases hm : modulation s.orient with e | m
  · rw [hm] at hv; cases hv
  rw [hm] at hv
  have e : v = sqrt? (divNoise ((m * h_0_val C.K C.interpolated_g s.m_c s.dist s.f_orb 0 2) ^ 2 * C.t_obs) y) :=
    (Except.ok.inj hv).symm
  obtain ⟨q1, q2⟩ := divNoise_quieter (mul_nonneg (sq_nonneg (m * h_0_val C.K C.interpolated_g s.m_c s.dist s.f_orb 0 2))
    h.t_obs.1) (mul_le_mul_of_nonneg_left h.t_obs.2 (sq_nonneg _)) h3 h4
  refine ⟨_, _, congrArg Except.ok (sqrt?_nonneg (q1.trans q2)), e.trans (sqrt?_nonneg q1), sqrt_nonneg _, sqrt_le_sqrt q2⟩

theorem sum_longer {C C' : Ctx} (h : LongerCall C C') {s : EccSrc} (hf : 0 < s.f_orb) (ks : List ℤ) (hk : ∀ k ∈ ks, 1 ≤ k)
    {ns ns' : List (WithTop ℝ)} (hn : ks.mapM (fun k : ℤ => noise C (k * s.f_orb)) = .ok ns)
    (hn' : ks.mapM (fun k : ℤ => noise C' (k * s.f_orb)) = .ok ns') :
    0 ≤ ((ks.map fun n => h_0_val C.K C.interpolated_g s.m_c s.dist s.f_orb s.ecc n ^ 2 * C.t_obs).zipWith
      divNoise ns).sum ∧
    ((ks.map fun n => h_0_val C.K C.interpolated_g s.m_c s.dist s.f_orb s.ecc n ^ 2 * C.t_obs).zipWith
      divNoise ns).sum ≤
    ((ks.map fun n => h_0_val C'.K C'.interpolated_g s.m_c s.dist s.f_orb s.ecc n ^ 2 * C'.t_obs).zipWith
      divNoise ns').sum := by
  rw [h.K, h.g]
  induction ks generalizing ns ns' with
  | nil => simp
  | cons k ks ih =>
    obtain ⟨a, as, ha, has, rfl⟩ := mapM_cons_ok.1 hn
    obtain ⟨b, bs, hb, hbs, rfl⟩ := mapM_cons_ok.1 hn'
    obtain ⟨i1, i2⟩ := ih (fun k hk' => hk k (List.mem_cons_of_mem _ hk')) has hbs
    have hk1 : (1 : ℝ) ≤ k := by exact_mod_cast hk k List.mem_cons_self
    obtain ⟨y, y', h1, h2, h3, h4⟩ := h.noise (k * s.f_orb) (mul_pos (by linarith) hf)
    rw [ha] at h1
    rw [hb] at h2
    cases h1
    cases h2
    obtain ⟨q1, q2⟩ := divNoise_quieter (mul_nonneg (sq_nonneg (h_0_val C.K C.interpolated_g s.m_c s.dist s.f_orb s.ecc k))
      h.t_obs.1) (mul_le_mul_of_nonneg_left h.t_obs.2 (sq_nonneg _)) h3 h4
    simp only [List.map_cons, List.zipWith_cons_cons, List.sum_cons]
    constructor
    · linarith
    · linarith

theorem ecc1_longer {C C' : Ctx} (h : LongerCall C C') {s : EccSrc} (hf : 0 < s.f_orb) {H : ℕ} {v : Option ℝ × ℕ}
    (hv : ecc1 C H s = .ok v) : ∃ a b k, ecc1 C' H s = .ok (some b, k) ∧ v.1 = some a ∧ 0 ≤ a ∧ a ≤ b := by
  unfold ecc1 at hv ⊢
  obtain ⟨ns, hns, hv⟩ := except_bind_ok.1 hv
  obtain ⟨ns', hns'⟩ : ∃ ns', (harmonics H).mapM (fun n : ℤ => noise C' (n * s.f_orb)) = .ok ns' := by
    have : ∀ k ∈ harmonics H, ∃ y, noise C' ((k : ℝ) * s.f_orb) = .ok y := fun k hk => by
      have hk1 : (1 : ℝ) ≤ k := by exact_mod_cast (mem_harmonics.1 hk).1
      obtain ⟨y, y', h1, h2, -⟩ := h.noise (k * s.f_orb) (mul_pos (by linarith) hf)
      exact ⟨y', h2⟩
    choose! g hg using this
    exact ⟨_, mapM_ok hg⟩
  obtain ⟨q1, q2⟩ := sum_longer h hf _ (fun k hk => (mem_harmonics.1 hk).1) hns hns'
  rw [hns', ok_bind]
  rw [← pure_ok.1 hv]
  refine ⟨_, _, _, congrArg Except.ok (Prod.ext (sqrt?_nonneg (q1.trans q2)) rfl), sqrt?_nonneg q1, sqrt_nonneg _,
    sqrt_le_sqrt q2⟩

/-- **C101** (stationary sources). Observing for longer, with a noise that is no larger, lowers no SNR of
`snr_circ_stationary` and none of `snr_ecc_stationary`. -/
theorem C101_stationary {C C' : Ctx} (h : LongerCall C C') :
    (∀ (srcs : List CircSrc) vs, (∀ s ∈ srcs, 0 < s.f_orb) → snr_circ_stationary C srcs = .ok vs →
      ∃ vs', snr_circ_stationary C' srcs = .ok vs' ∧
        List.Forall₂ (fun v v' => ∃ a b : ℝ, v = some a ∧ v' = some b ∧ 0 ≤ a ∧ a ≤ b) vs vs') ∧
    (∀ (srcs : List EccSrc) (H : ℕ) vs ks, 0 < H → (∀ s ∈ srcs, 0 < s.f_orb) →
      snr_ecc_stationary C srcs H true false = .ok (.withMax vs ks) →
      ∃ vs' ks', snr_ecc_stationary C' srcs H true false = .ok (.withMax vs' ks') ∧
        List.Forall₂ (fun v v' => ∃ a b : ℝ, v = some a ∧ v' = some b ∧ 0 ≤ a ∧ a ≤ b) vs vs') := by
  constructor
  · intro srcs vs hf hv
    rw [snr_circ_stationary_iff] at hv
    simp only [snr_circ_stationary_iff]
    induction srcs generalizing vs with
    | nil =>
      cases hv
      exact ⟨[], rfl, .nil⟩
    | cons s srcs ih =>
      obtain ⟨v, vs, hv1, hv2, rfl⟩ := mapM_cons_ok.1 hv
      obtain ⟨a, b, h1, h2, h3, h4⟩ := circ1_longer h (hf s List.mem_cons_self) hv1
      obtain ⟨vs', i1, i2⟩ := ih _ (fun s hs => hf s (List.mem_cons_of_mem _ hs)) hv2
      exact ⟨some b :: vs', mapM_cons_ok.2 ⟨_, _, h1, i1, rfl⟩, .cons ⟨a, b, h2, rfl, h3, h4⟩ i2⟩
  · intro srcs H vs ks hH hf hv
    obtain ⟨ps, hps, hout⟩ := (snr_ecc_stationary_iff hH).1 hv
    unfold pairOut at hout
    cases hout
    have : ∃ ps', srcs.mapM (ecc1 C' H) = .ok ps' ∧
        List.Forall₂ (fun v v' => ∃ a b : ℝ, v = some a ∧ v' = some b ∧ 0 ≤ a ∧ a ≤ b) (ps.map Prod.fst)
          (ps'.map Prod.fst) := by
      clear hv
      induction srcs generalizing ps with
      | nil =>
        cases hps
        exact ⟨[], rfl, .nil⟩
      | cons s srcs ih =>
        obtain ⟨v, vs, hv1, hv2, rfl⟩ := mapM_cons_ok.1 hps
        obtain ⟨a, b, k, h1, h2, h3, h4⟩ := ecc1_longer h (hf s List.mem_cons_self) hv1
        obtain ⟨vs', i1, i2⟩ := ih (fun s hs => hf s (List.mem_cons_of_mem _ hs)) _ hv2
        exact ⟨(some b, k) :: vs', mapM_cons_ok.2 ⟨_, _, h1, i1, rfl⟩, .cons ⟨a, b, h2, rfl, h3, h4⟩ i2⟩
    obtain ⟨ps', h1, h2⟩ := this
    exact ⟨_, _, (snr_ecc_stationary_iff hH).2 ⟨ps', h1, rfl⟩, h2⟩

/-! ### Objects -/

theorem snr_reachable {ok : Heap → Op → Prop} {W : World} {h h' : Heap} {s n r : ℕ} {a : SnrArgs} {ws : Option (List Bool)}
    (hr : Reachable W ok h) (hok : ok h (.getSnr s a n ws)) (hrun : get_snr W s a n ws h = (.ok r, h')) : Reachable W ok h' := by
  have := Reachable.call (.getSnr s a n ws) hr hok
  have he : (Op.run W (.getSnr s a n ws) h).2 = h' := by
    change ((get_snr W s a n ws >>= fun _ => pure ()) h).2 = h'
    rw [PyM.bind_run, hrun]
    rfl
  rwa [he] at this

/-- Interpolating a lower curve gives a lower curve. -/
theorem curve_lower {W : World} {d d' : Dict} {c c' : ℝ → WithTop ℝ} (hc : CurveOf W d c) (hc' : CurveOf W d' c')
    (hN : ∀ f, 1e-7 ≤ f → f ≤ 2 → ∃ y y', psd_of_dict W d f = .ok y ∧ psd_of_dict W d' f = .ok y' ∧ 0 < y' ∧ y' ≤ y) (f : ℝ) :
    0 < c' f ∧ c' f ≤ c f := by
  have hg : ∀ i < 10000, 0 < c' (scGrid i) ∧ c' (scGrid i) ≤ c (scGrid i) := fun i hi => by
    obtain ⟨y, y', h1, h2, h3, h4⟩ := hN (scGrid i) (scGrid_zero ▸ scGrid_le (Nat.zero_le i)) (scGrid_last ▸ scGrid_le (by omega))
    rw [hc.on_grid i hi] at h1
    rw [hc'.on_grid i hi] at h2
    cases h1
    cases h2
    exact ⟨h3, h4⟩
  by_cases hout : f < 1e-7 ∨ 2 < f
  · rw [hc.outside f hout, hc'.outside f hout]
    exact ⟨by exact_mod_cast (by norm_num : (0 : ℝ) < 1e30), le_rfl⟩
  push Not at hout
  rcases scGrid_locate (x := f) (by rw [scGrid_zero]; exact hout.1) (by rw [scGrid_last]; exact hout.2) with
    ⟨i, hi, rfl⟩ | ⟨i, hi, ha, hb⟩
  · exact hg i hi
  · obtain ⟨p1, p2⟩ := hg i (by omega)
    obtain ⟨q1, q2⟩ := hg (i + 1) (by omega)
    have hpos : (0 : WithTop ℝ) < ⊤ := WithTop.coe_lt_top 0
    rcases hca : c' (scGrid i) with _ | a'
    · have e1 : c (scGrid i) = ⊤ := by rw [hca] at p2; exact top_le_iff.1 p2
      rw [hc.infinite i hi f ha hb (Or.inl e1), hc'.infinite i hi f ha hb (Or.inl hca)]
      exact ⟨hpos, le_rfl⟩
    rcases hcb : c' (scGrid (i + 1)) with _ | b'
    · have e1 : c (scGrid (i + 1)) = ⊤ := by rw [hcb] at q2; exact top_le_iff.1 q2
      rw [hc.infinite i hi f ha hb (Or.inr e1), hc'.infinite i hi f ha hb (Or.inr hcb)]
      exact ⟨hpos, le_rfl⟩
    have e' := hc'.chord i hi f ha hb a' b' hca hcb
    rw [hca] at p1 p2
    rw [hcb] at q1 q2
    have a0 : 0 < a' := WithTop.coe_lt_coe.1 p1
    have b0 : 0 < b' := WithTop.coe_lt_coe.1 q1
    set w := (f - scGrid i) / (scGrid (i + 1) - scGrid i) with hw
    have hgap : 0 < scGrid (i + 1) - scGrid i := by linarith
    have w0 : 0 ≤ w := div_nonneg (by linarith) hgap.le
    have w1 : w ≤ 1 := (div_le_one hgap).2 (by linarith)
    have hp : 0 < a' + (b' - a') * w := by
      have : a' + (b' - a') * w = a' * (1 - w) + b' * w := by ring
      rw [this]
      rcases w0.eq_or_lt with h | h
      · rw [← h]; linarith
      · exact add_pos_of_nonneg_of_pos (mul_nonneg a0.le (by linarith)) (mul_pos b0 h)
    rw [e']
    refine ⟨by exact_mod_cast hp, ?_⟩
    rcases hda : c (scGrid i) with _ | a
    · rw [hc.infinite i hi f ha hb (Or.inl hda)]
      exact le_top
    rcases hdb : c (scGrid (i + 1)) with _ | b
    · rw [hc.infinite i hi f ha hb (Or.inr hdb)]
      exact le_top
    rw [hc.chord i hi f ha hb a b hda hdb]
    rw [hda] at p2
    rw [hdb] at q2
    have ha1 : a' ≤ a := WithTop.coe_le_coe.1 p2
    have hb1 : b' ≤ b := WithTop.coe_le_coe.1 q2
    refine WithTop.coe_le_coe.2 ?_
    have : a' + (b' - a') * w = a' * (1 - w) + b' * w := by ring
    have : a + (b - a) * w = a * (1 - w) + b * w := by ring
    nlinarith [mul_nonneg (sub_nonneg.2 ha1) (sub_nonneg.2 w1), mul_nonneg (sub_nonneg.2 hb1) w0]

/-- The calls made for the longer observation. -/
theorem longer_call {W : World} {h h' : Heap} {s s' p p' : ℕ} {C C' : Ctx} (hr : Reachable W AnyCall h)
    (hr' : Reachable W AnyCall h') (hC : CallCtx W h s C) (hC' : CallCtx W h' s' C') (hp : (h.src s).sc_params = some p)
    (hp' : (h'.src s').sc_params = some p') (hS : SameTables h s h' s') {t t' : ℝ}
    (hbefore : (h.par p).dict.get? "t_obs" = some (.time t)) (hafter : (h'.par p').dict.get? "t_obs" = some (.time t'))
    (h0 : 0 ≤ t) (htt : t ≤ t')
    (hN : ∀ f, 0 < f → ∃ y y', psd_of_dict W (h.par p).dict f = .ok y ∧ psd_of_dict W (h'.par p').dict f = .ok y' ∧
      0 < y' ∧ y' ≤ y) : LongerCall C C' ∧ C.t_obs = t ∧ C'.t_obs = t' := by
  have hN' : ∀ f, 1e-7 ≤ f → f ≤ 2 → ∃ y y', psd_of_dict W (h.par p).dict f = .ok y ∧
      psd_of_dict W (h'.par p').dict f = .ok y' ∧ 0 < y' ∧ y' ≤ y := fun f hf _ => hN f (lt_of_lt_of_le (by norm_num) hf)
  have hgrid : ∀ i < 10000, 1e-7 ≤ scGrid i ∧ scGrid i ≤ 2 := fun i hi =>
    ⟨scGrid_zero ▸ scGrid_le (Nat.zero_le i), scGrid_last ▸ scGrid_le (by omega)⟩
  obtain ⟨c, hc⟩ := curve_exists_iff.2 fun i hi => by
    obtain ⟨y, -, h1, -⟩ := hN' _ (hgrid i hi).1 (hgrid i hi).2
    exact ⟨y, h1⟩
  obtain ⟨c', hc'⟩ := curve_exists_iff.2 fun i hi => by
    obtain ⟨-, y, -, h1, -⟩ := hN' _ (hgrid i hi).1 (hgrid i hi).2
    exact ⟨y, h1⟩
  rw [curve_ok_iff] at hc hc'
  have key : ∀ f, 0 < f → ∃ y y', noise C f = .ok y ∧ noise C' f = .ok y' ∧ 0 < y' ∧ y' ≤ y := by
    intro f hf
    have e : C.interpolated_sc = (h.src s).sc := by
      obtain ⟨_, _, _, _, _, _, _, _, -, -, -, -, -, -, -, -, rfl⟩ := hC
      rfl
    have e' : C'.interpolated_sc = (h'.src s').sc := by
      obtain ⟨_, _, _, _, _, _, _, _, -, -, -, -, -, -, -, -, rfl⟩ := hC'
      rfl
    have hint := hS.interpolate
    rw [← e, ← e'] at hint
    rcases hi : C.interpolated_sc with _ | k
    · rcases hi' : C'.interpolated_sc with _ | k'
      · obtain ⟨y, y', h1, h2, h3⟩ := hN f hf
        have h1 := noise_of_dict hC hp h1
        have h2 := noise_of_dict hC' hp' h2
        have hE : { C with interpolated_sc := none } = C := by rw [← hi]
        have hE' : { C' with interpolated_sc := none } = C' := by rw [← hi']
        rw [hE] at h1
        rw [hE'] at h2
        exact ⟨y, y', h1, h2, h3⟩
      · rw [hi, hi'] at hint; cases hint
    · rcases hi' : C'.interpolated_sc with _ | k'
      · rw [hi, hi'] at hint; cases hint
      · have hk : k = c := C40_never_stale hr hp hc (e ▸ hi)
        have hk' : k' = c' := C40_never_stale hr' hp' hc' (e' ▸ hi')
        subst hk hk'
        refine ⟨k f, k' f, ?_, ?_, curve_lower hc hc' hN' f⟩
        · unfold noise; rw [hi]; rfl
        · unfold noise; rw [hi']; rfl
  obtain ⟨q, _, _, _, _, _, _, T, hq, -, -, -, -, -, -, h6, rfl⟩ := hC
  obtain ⟨q', _, _, _, _, _, _, T', hq', -, -, -, -, -, -, h6', rfl⟩ := hC'
  rw [hp] at hq
  rw [hp'] at hq'
  cases hq
  cases hq'
  rw [hbefore] at h6
  rw [hafter] at h6'
  cases h6
  cases h6'
  exact ⟨⟨rfl, hS.g, ⟨h0, htt⟩, key⟩, rfl, rfl⟩

/-- What is stationary for the longer time is stationary for the shorter one. -/
theorem stationary_shorter {K : Consts} {x : One} (hx : PhysicalOne x) {t t' tol : ℝ} (h0 : 0 ≤ t) (htt : t ≤ t')
    (htol : 0 ≤ tol) (hbig : x.f_orb * (1 + tol) < 1e9) (hst : x.StationaryOver K t' tol) : x.StationaryOver K t tol := by
  obtain ⟨h1, h2, h3, h4, h5⟩ := hx
  obtain ⟨S, hS, hS0⟩ := hst
  have e : ∀ t, determine_stationarity K (fun _ : Unit => x.f_orb) t (fun _ => x.ecc) none none (some fun _ => x.m_c) tol =
      determine_stationarity K (fun _ => x.f_orb) t (fun _ => x.ecc) (some fun _ => x.m_1) (some fun _ => x.m_2) none tol :=
    fun t => rfl
  obtain ⟨S', T, hS', -⟩ := C19_threshold K (fun _ : Unit => x.f_orb) (fun _ => x.ecc) (fun _ => x.m_1) (fun _ => x.m_2) t tol
    (fun _ => h3) (fun _ => h1) (fun _ => h2) htol (fun _ => hbig)
  exact ⟨S', (e t).trans hS', C19_monotone K (fun _ : Unit => x.f_orb) (fun _ => x.ecc) (fun _ => x.ecc) (fun _ => x.m_1)
    (fun _ => x.m_2) (fun _ => h3) (fun _ => h1) (fun _ => h2) htol (fun _ => hbig) h0 htt (fun _ => h4) (fun _ => le_rfl)
    (fun _ => h5) le_rfl ((e t').symm.trans hS) hS' () hS0⟩

/-- One source that is treated as stationary in both calls. -/
theorem stationary_longer {C C' : Ctx} (hL : LongerCall C C') {x : One} (hx : PhysicalOne x) {tol : ℝ} {q : ℝ → ℤ}
    {v v' : Option ℝ} {harm harm' : ℕ} (hs : StationarySnr C tol q x v harm) (hs' : StationarySnr C' tol q x v' harm') :
    ∃ a b : ℝ, v = some a ∧ v' = some b ∧ 0 ≤ a ∧ a ≤ b := by
  obtain ⟨c1, e1⟩ := hs
  obtain ⟨c2, e2⟩ := hs'
  by_cases he : x.ecc ≤ tol
  · obtain ⟨vs', hvs', hrel⟩ := (C101_stationary hL).1 [x.circ] [v] (by intro s hs; rw [List.mem_singleton] at hs; subst hs; exact hx.2.2.1) (c1 he).1
    rw [(c2 he).1] at hvs'
    cases hvs'
    cases hrel with
    | cons h _ => exact h
  · obtain ⟨g1, g2⟩ := e1 (not_le.1 he)
    obtain ⟨k1, k2⟩ := e2 (not_le.1 he)
    by_cases hH : ∃ H, HarmonicLimit (q x.ecc) H
    · obtain ⟨H, hH⟩ := hH
      obtain ⟨vs', ks', hvs', hrel⟩ := (C101_stationary hL).2 [x.eccentric] H [v] _ (harmonicLimit_pos hH)
        (by intro s hs; rw [List.mem_singleton] at hs; subst hs; exact hx.2.2.1) (g1 H hH)
      rw [k1 H hH] at hvs'
      cases hvs'
      cases hrel with
      | cons h _ => exact h
    · exact ⟨0, 0, (g2 hH).1, (k2 hH).1, le_rfl, le_rfl⟩

/-- **C101.** Let `get_snr` return for two objects, or twice for one, however the programs got there: the second time for an
observation that is at least as long, otherwise with the same settings, and with a noise that is no larger. Every binary
that counts as stationary for the longer observation has an SNR that is no smaller the second time, circular or eccentric,
with or without position. -/
theorem C101_get_snr {W : World} {h₁ h₂ h₁' h₂' : Heap} {s₁ s₂ n₁ n₂ r₁ r₂ p₁ p₂ : ℕ} {a₁ a₂ : SnrArgs}
    {ws₁ ws₂ : Option (List Bool)} (hr₁ : Reachable W AnyCall h₁) (hr₂ : Reachable W AnyCall h₂)
    (hcls₁ : (h₁.src s₁).cls = .Source ∨ (h₁.src s₁).cls = .VerificationBinaries)
    (hcls₂ : (h₂.src s₂).cls = .Source ∨ (h₂.src s₂).cls = .VerificationBinaries) (hn₁ : n₁ ≠ 0) (hn₂ : n₂ ≠ 0)
    (hsch₁ : CompleteSchedule W (h₁.src s₁)) (hsch₂ : CompleteSchedule W (h₂.src s₂)) (hrect₁ : Rect (h₁.src s₁).cols)
    (hrect₂ : Rect (h₂.src s₂).cols) (hw₁ : FitsMask (h₁.src s₁).cols ws₁) (hw₂ : FitsMask (h₂.src s₂).cols ws₂)
    (hrun₁ : get_snr W s₁ a₁ n₁ ws₁ h₁ = (.ok r₁, h₁')) (hrun₂ : get_snr W s₂ a₂ n₂ ws₂ h₂ = (.ok r₂, h₂'))
    (hp₁ : (h₁'.src s₁).sc_params = some p₁) (hp₂ : (h₂'.src s₂).sc_params = some p₂) (hS : SameTables h₁' s₁ h₂' s₂)
    {t t' : ℝ} (hd : OtherTime (h₁'.par p₁).dict (h₂'.par p₂).dict t t') (h0 : 0 ≤ t) (htt : t ≤ t')
    (hN : ∀ f, 0 < f → ∃ y y', psd_of_dict W (h₁'.par p₁).dict f = .ok y ∧ psd_of_dict W (h₂'.par p₂).dict f = .ok y' ∧
      0 < y' ∧ y' ≤ y) {i₁ i₂ : ℕ} {x : One} (hi₁ : (rows (h₁.src s₁).cols)[i₁]? = some x)
    (hi₂ : (rows (h₂.src s₂).cols)[i₂]? = some x) (hm : x.merged = false) (hch₁ : Chosen ws₁ i₁) (hch₂ : Chosen ws₂ i₂)
    (hx : PhysicalOne x) (htol : 0 ≤ (h₁'.src s₁).stat_tol) (hbig : x.f_orb * (1 + (h₁'.src s₁).stat_tol) < 1e9)
    (hst : x.StationaryOver W.K t' (h₁'.src s₁).stat_tol) :
    ∃ v v' : ℝ, (h₁'.snrs r₁)[i₁]? = some (some v) ∧ (h₂'.snrs r₂)[i₂]? = some (some v') ∧ 0 ≤ v ∧ v ≤ v' := by
  obtain ⟨-, -, -, hrow₁⟩ := C36_get_snr hcls₁ hn₁ hsch₁ hrect₁ hw₁ hrun₁
  obtain ⟨-, -, -, hrow₂⟩ := C36_get_snr hcls₂ hn₂ hsch₂ hrect₂ hw₂ hrun₂
  obtain ⟨v, harm, -, hv, -, -, C, tol, q, hC, htl, hq, hstat, -⟩ := (hrow₁ i₁ x hi₁).2 hm hch₁
  obtain ⟨v', harm', -, hv', -, -, C', tol', q', hC', htl', hq', hstat', -⟩ := (hrow₂ i₂ x hi₂).2 hm hch₂
  obtain ⟨hL, hCt, hCt'⟩ := longer_call (snr_reachable hr₁ trivial hrun₁) (snr_reachable hr₂ trivial hrun₂) hC hC' hp₁ hp₂ hS
    hd.before hd.after h0 htt hN
  rw [hS.ecc_tol, htl] at htl'
  cases htl'
  rw [hS.harmonics_required, hq] at hq'
  cases hq'
  rw [hCt] at hstat
  rw [hCt', hS.stat_tol] at hstat'
  obtain ⟨a, b, rfl, rfl, ha, hab⟩ := stationary_longer hL hx (hstat (stationary_shorter hx h0 htt htol hbig hst)) (hstat' hst)
  exact ⟨a, b, hv, hv', ha, hab⟩

/-! ### LISA -/

/-- The default noise of LISA, and that without confusion noise, is no larger for a longer observation. -/
theorem lisa_quieter (K : Consts) (env : psd.Env) (custom : Option psd.CustomPsd) {f t t' : ℝ} (hf : 0 < f) (ht : 0 < t)
    (htt : t ≤ t') {cn : psd.NoiseArg} (hcn : cn = .name "auto" ∨ cn = .none) :
    ∃ y y', psd.power_spectral_density K env f "LISA" custom (.val t) .auto true cn = .ok y ∧
      psd.power_spectral_density K env f "LISA" custom (.val t') .auto true cn = .ok y' ∧ 0 < y' ∧ y' ≤ y := by
  have hex : ∀ T, 0 < T → ∃ y, psd.power_spectral_density K env f "LISA" custom (.val T) .auto true cn = .ok y ∧ 0 < y := by
    intro T hT
    obtain ⟨y, hy, h1, h2⟩ := C24_lisa K env f (.val T) (L := 2.5e9) (by norm_num) true
      (noise := cn.resolve "karnesis21") (by rcases hcn with rfl | rfl <;> simp [Recognised, psd.NoiseArg.resolve])
      (fun g _ => by simp [ResponseOk])
    refine ⟨y, hy, ?_⟩
    by_cases hout : f < 1e-7 ∨ 2 < f
    · rw [h1 hout]
      exact WithTop.coe_lt_top 0
    · push Not at hout
      obtain ⟨z, hz, rfl⟩ := h2 hout.1 hout.2
      exact_mod_cast hz
  obtain ⟨y, hy, -⟩ := hex t ht
  obtain ⟨y', hy', h0⟩ := hex t' (ht.trans_le htt)
  refine ⟨y, y', hy, hy', h0, ?_⟩
  rcases hcn with rfl | rfl
  · exact (C26_longer_mission K env hf ht htt custom .auto true hy hy').2
  · have : Except.ok y = Except.ok y' := hy.symm.trans hy'
    cases this
    exact le_rfl

/-- The parameters of a call with the settings of LISA. -/
theorem lisa_kw {W : World} {h : Heap} {s p : ℕ} {C : Ctx} (hC : CallCtx W h s C) (hp : (h.src s).sc_params = some p)
    (h6 : SixKeys (h.par p).dict) {t : ℝ} (hset : LisaSettings (h.par p).dict t) :
    ∃ custom cn, (cn = psd.NoiseArg.name "auto" ∧ (h.par p).dict.get? "confusion_noise" = some (.str "auto") ∨
        cn = .none ∧ (h.par p).dict.get? "confusion_noise" = some .none) ∧
      C.kw = ⟨"LISA", custom, .auto, true, cn⟩ ∧ C.t_obs = t ∧ C.K = W.K ∧ C.env = W.env ∧
      ∀ f, psd_of_dict W (h.par p).dict f =
        psd.power_spectral_density W.K W.env f "LISA" custom (.val t) .auto true cn := by
  have hdn := dict_of_noise hC hp h6
  obtain ⟨p', j, cp, L, aR, cn, kw, T', hp', h1, h2, h3, h4, h5, hkw, h7, rfl⟩ := hC
  rw [hp] at hp'
  cases hp'
  obtain ⟨s1, s2, s3, s4, s5⟩ := hset
  rw [s1] at h1
  rw [s2] at h3
  rw [s3] at h4
  rw [s5] at h7
  cases h1
  cases h3
  cases h4
  cases h7
  unfold asKw at hkw
  obtain ⟨_, e1, hkw⟩ := except_bind_ok.1 hkw
  obtain ⟨custom, -, hkw⟩ := except_bind_ok.1 hkw
  obtain ⟨_, e3, hkw⟩ := except_bind_ok.1 hkw
  obtain ⟨_, e4, hkw⟩ := except_bind_ok.1 hkw
  obtain ⟨cn', e5, hkw⟩ := except_bind_ok.1 hkw
  cases e1
  cases e3
  cases e4
  cases hkw
  rcases s4 with s4 | s4
  · refine ⟨custom, .name "auto", Or.inl ⟨rfl, s4⟩, ?_⟩
    rw [s4] at h5
    cases h5
    cases e5
    exact ⟨rfl, rfl, rfl, rfl, hdn⟩
  · refine ⟨custom, .none, Or.inr ⟨rfl, s4⟩, ?_⟩
    rw [s4] at h5
    cases h5
    cases e5
    exact ⟨rfl, rfl, rfl, rfl, hdn⟩

/-- The instrument does not look at a noise given by the user. -/
theorem lisa_custom (K : Consts) (env : psd.Env) (custom custom' : Option psd.CustomPsd) (f : ℝ) (t : psd.TimeArg)
    (cn : psd.NoiseArg) : psd.power_spectral_density K env f "LISA" custom t .auto true cn =
      psd.power_spectral_density K env f "LISA" custom' t .auto true cn := rfl

/-- With LISA the noise is no larger for the longer observation. -/
theorem lisa_dicts {W : World} {h h' : Heap} {s s' p p' : ℕ} {C C' : Ctx} (hC : CallCtx W h s C) (hC' : CallCtx W h' s' C')
    (hp : (h.src s).sc_params = some p) (hp' : (h'.src s').sc_params = some p') (h6 : SixKeys (h.par p).dict)
    (h6' : SixKeys (h'.par p').dict) {t t' : ℝ} (hd : OtherTime (h.par p).dict (h'.par p').dict t t')
    (hset : LisaSettings (h.par p).dict t) (ht : 0 < t) (htt : t ≤ t') (f : ℝ) (hf : 0 < f) :
    ∃ y y', psd_of_dict W (h.par p).dict f = .ok y ∧ psd_of_dict W (h'.par p').dict f = .ok y' ∧ 0 < y' ∧ y' ≤ y := by
  have hset' : LisaSettings (h'.par p').dict t' := by
    obtain ⟨s1, s2, s3, s4, s5⟩ := hset
    exact ⟨by rw [hd.same _ (by decide)]; exact s1, by rw [hd.same _ (by decide)]; exact s2,
      by rw [hd.same _ (by decide)]; exact s3, by rw [hd.same _ (by decide)]; exact s4, hd.after⟩
  obtain ⟨cu, cn, hcn, -, -, -, -, e⟩ := lisa_kw hC hp h6 hset
  obtain ⟨cu', cn', hcn', -, -, -, -, e'⟩ := lisa_kw hC' hp' h6' hset'
  rw [e, e']
  have hcc : cn' = cn := by
    rw [hd.same _ (by decide)] at hcn'
    rcases hcn with ⟨rfl, h1⟩ | ⟨rfl, h1⟩ <;> rcases hcn' with ⟨rfl, h2⟩ | ⟨rfl, h2⟩
    · rfl
    · rw [h1] at h2; cases h2
    · rw [h1] at h2; cases h2
    · rfl
  subst hcc
  rw [lisa_custom _ _ cu' cu]
  exact lisa_quieter W.K W.env cu hf ht htt (hcn.imp And.left And.left)

/-- What `get_snr` leaves alone. -/
theorem get_snr_frame {W : World} {h h' : Heap} {s n r : ℕ} {a : SnrArgs} {ws : Option (List Bool)}
    (hcls : (h.src s).cls = .Source ∨ (h.src s).cls = .VerificationBinaries) (hn : n ≠ 0) (hs : CompleteSchedule W (h.src s))
    (hr : Rect (h.src s).cols) (hw : FitsMask (h.src s).cols ws) (hrun : get_snr W s a n ws h = (.ok r, h')) :
    ∃ sc p x y, h'.src s = { h.src s with sc := sc, sc_params := p, snr := x, max_snr_harmonic := y } := by
  have hrun' : Source_get_snr W s a n ws h = (.ok r, h') := by
    rw [get_snr_run] at hrun
    rcases hcls with hc | hc <;> · rw [hc] at hrun; exact hrun
  obtain ⟨f, h₁, T, S, hR, hsnr, hcase⟩ := Source_get_snr_values hn hs hr hw hrun' _ rfl
  obtain ⟨sc, p, e1⟩ := (match_params_scOnly hR.matched).src s
  rcases hcase with ⟨-, ho, -⟩ | ⟨-, f', h₂, C, ps, hcalc, ho, -⟩
  · obtain ⟨x, y, he⟩ := ho.src s
    exact ⟨sc, p, x, y, by rw [he, e1]⟩
  · obtain ⟨x, y, he⟩ := ho.src s
    obtain ⟨sc', p', e2⟩ := (match_params_scOnly hcalc.matched).src s
    exact ⟨sc', p', x, y, by rw [he, e2, e1]⟩

/-- The settings after two calls that differ in the observation time. -/
theorem stored_twice {d d₁ d₂ : Dict} {a : SnrArgs} {t t' : ℝ} (hsto₁ : StoredArgs d { a with t_obs := .time t } d₁)
    (hsto : StoredArgs d₁ { a with t_obs := .time t' } d₂) (h6 : SixKeys d₁) (h6' : SixKeys d₂) : OtherTime d₁ d₂ t t' := by
  have given : ∀ {key : String} {z : PVal}, (∃ v, Given d key z v ∧ d₁.get? key = some v) →
      (∃ v, Given d₁ key z v ∧ d₂.get? key = some v) →
      d₂.get? key = d₁.get? key := by
    rintro key z ⟨v, hv, hv'⟩ ⟨v₂, hv₂, hv₂'⟩
    rw [hv', hv₂']
    rcases hv₂ with ⟨h1, rfl⟩ | ⟨h1, h2⟩
    · rcases hv with ⟨-, rfl⟩ | ⟨h3, -⟩
      · rfl
      · exact absurd h3 h1
    · rw [hv'] at h2
      exact h2.symm
  obtain ⟨k1, k2, k3, k4, k5, k6⟩ := hsto
  obtain ⟨j1, j2, j3, j4, j5, j6⟩ := hsto₁
  have htime : ∀ {d d' : Dict} {T : ℝ}, (∃ v, Given d "t_obs" (.time T) v ∧ (d'.get? "t_obs" = some v ∨ v = .str "auto" ∧
      ((d'.get? "instrument" = some (.str "LISA") ∧ d'.get? "t_obs" = some (.time (4 * psd.yr))) ∨
       (d'.get? "instrument" ≠ some (.str "LISA") ∧ d'.get? "t_obs" = some (.time (5 * psd.yr)))))) →
      d'.get? "t_obs" = some (.time T) := by
    rintro d d' T ⟨v, ⟨-, rfl⟩ | ⟨h1, -⟩, h2⟩
    · rcases h2 with h2 | ⟨h2, -⟩
      · exact h2
      · cases h2
    · cases h1
  refine ⟨fun key hk => ?_, htime j6, htime k6⟩
  by_cases hks : key ∈ scKeys
  · have : key = "instrument" ∨ key = "custom_psd" ∨ key = "t_obs" ∨ key = "L" ∨ key = "approximate_R" ∨
        key = "confusion_noise" := by
      simpa [scKeys] using hks
    rcases this with rfl | rfl | rfl | rfl | rfl | rfl
    · exact given j1 k1
    · exact given j2 k2
    · exact absurd rfl hk
    · exact given j3 k3
    · exact given j4 k4
    · exact given j5 k5
  · have n1 : d₁.get? key = none := by
      have := (h6 key).not.2 hks
      simpa using this
    have n2 : d₂.get? key = none := by
      have := (h6' key).not.2 hks
      simpa using this
    rw [n1, n2]

/-- What two calls of `get_snr` on one object, for two observation times, have in common. -/
theorem two_runs {W : World} {h h₁ h₂ : Heap} {s n r₁ r₂ p : ℕ} {a : SnrArgs} {ws : Option (List Bool)}
    (hr : Reachable W Interpolating h) (hcls : (h.src s).cls = .Source ∨ (h.src s).cls = .VerificationBinaries) (hn : n ≠ 0)
    (hsch : CompleteSchedule W (h.src s)) (hrect : Rect (h.src s).cols) (hw : FitsMask (h.src s).cols ws) {t t' : ℝ}
    (hrun₁ : get_snr W s { a with t_obs := .time t } n ws h = (.ok r₁, h₁))
    (hrun₂ : get_snr W s { a with t_obs := .time t' } n ws h₁ = (.ok r₂, h₂)) (hp : (h₁.src s).sc_params = some p) :
    (∃ sc p x y, h₁.src s = { h.src s with sc := sc, sc_params := p, snr := x, max_snr_harmonic := y }) ∧
    (∃ sc p x y, h₂.src s = { h₁.src s with sc := sc, sc_params := p, snr := x, max_snr_harmonic := y }) ∧
    Reachable W Interpolating h₁ ∧ Reachable W Interpolating h₂ ∧ (h₂.src s).sc_params = some p ∧
    SixKeys (h₁.par p).dict ∧ SixKeys (h₂.par p).dict ∧ OtherTime (h₁.par p).dict (h₂.par p).dict t t' := by
  obtain ⟨sc₁, q₁, x₁, y₁, e₁⟩ := get_snr_frame hcls hn hsch hrect hw hrun₁
  have hcols : (h₁.src s).cols = (h.src s).cols := by rw [e₁]
  have hcls' : (h₁.src s).cls = .Source ∨ (h₁.src s).cls = .VerificationBinaries := by rw [e₁]; exact hcls
  have hsch' : CompleteSchedule W (h₁.src s) := by rw [e₁]; exact hsch
  have hrect' : Rect (h₁.src s).cols := by rw [hcols]; exact hrect
  have hw' : FitsMask (h₁.src s).cols ws := by rw [hcols]; exact hw
  obtain ⟨sc₂, q₂, x₂, y₂, e₂⟩ := get_snr_frame hcls' hn hsch' hrect' hw' hrun₂
  have hr₁ := snr_reachable hr trivial hrun₁
  have hr₂ := snr_reachable hr₁ trivial hrun₂
  obtain ⟨p', hpp, hp₂, hsto⟩ := C36_settings hcls' hn hsch' hrect' hw' hrun₂
  rw [hp] at hpp
  cases hpp
  obtain ⟨p₀, -, hpp, hsto₁⟩ := C36_settings hcls hn hsch hrect hw hrun₁
  rw [hp] at hpp
  cases hpp
  have h6 := six_keys hr₁ hp
  have h6' := six_keys hr₂ hp₂
  exact ⟨⟨_, _, _, _, e₁⟩, ⟨_, _, _, _, e₂⟩, hr₁, hr₂, hp₂, h6, h6', stored_twice hsto₁ hsto h6 h6'⟩

/-- Both calls interpolate the noise or neither does. -/
theorem same_tables {W : World} {h₁ h₂ : Heap} {s p : ℕ} (hr₁ : Reachable W Interpolating h₁) (hr₂ : Reachable W Interpolating h₂)
    (e₂ : ∃ sc p x y, h₂.src s = { h₁.src s with sc := sc, sc_params := p, snr := x, max_snr_harmonic := y })
    (hp : (h₁.src s).sc_params = some p) (hp₂ : (h₂.src s).sc_params = some p)
    (hN : ∀ f, 0 < f → ∃ y y', psd_of_dict W (h₁.par p).dict f = .ok y ∧ psd_of_dict W (h₂.par p).dict f = .ok y' ∧
      0 < y' ∧ y' ≤ y) : SameTables h₁ s h₂ s := by
  obtain ⟨sc₂, q₂, x₂, y₂, e₂⟩ := e₂
  have hgrid : ∀ i, 0 < scGrid i := fun i => lt_of_lt_of_le (by norm_num : (0 : ℝ) < 1e-7) (scGrid_zero ▸ scGrid_le (Nat.zero_le i))
  obtain ⟨c, hc⟩ := curve_exists_iff.2 fun i (_ : i < 10000) => by
    obtain ⟨y, -, h1, -⟩ := hN _ (hgrid i)
    exact ⟨y, h1⟩
  obtain ⟨c', hc'⟩ := curve_exists_iff.2 fun i (_ : i < 10000) => by
    obtain ⟨-, y, -, h1, -⟩ := hN _ (hgrid i)
    exact ⟨y, h1⟩
  rw [curve_ok_iff] at hc hc'
  obtain ⟨g1, g2⟩ := C40_current hr₁ hp
  obtain ⟨g3, g4⟩ := C40_current hr₂ hp₂
  have hint : (h₂.src s).interpolate_sc = (h₁.src s).interpolate_sc := by rw [e₂]
  refine ⟨by rw [e₂], by rw [e₂], by rw [e₂], by rw [e₂], ?_⟩
  rcases hb : (h₁.src s).interpolate_sc with _ | _
  · rw [g2 hb, g4 (hint.trans hb)]
  · rw [g1 hb c hc, g3 (hint.trans hb) c' hc']
    rfl

/-- **C101** (LISA, one object). Call `get_snr` twice on one object, with the observation time `t` and then with `t' ≥ t`,
otherwise with the same arguments, for LISA with its default arm length and the analytic response, with the default
confusion noise (which depends on the observation time) or none. No SNR of a binary that counts as stationary for the longer
observation is smaller the second time. -/
theorem C101_lisa {W : World} {h h₁ h₂ : Heap} {s n r₁ r₂ p : ℕ} {a : SnrArgs} {ws : Option (List Bool)}
    (hr : Reachable W Interpolating h) (hcls : (h.src s).cls = .Source ∨ (h.src s).cls = .VerificationBinaries) (hn : n ≠ 0)
    (hsch : CompleteSchedule W (h.src s)) (hrect : Rect (h.src s).cols) (hw : FitsMask (h.src s).cols ws) {t t' : ℝ}
    (ht : 0 < t) (htt : t ≤ t') (hrun₁ : get_snr W s { a with t_obs := .time t } n ws h = (.ok r₁, h₁))
    (hrun₂ : get_snr W s { a with t_obs := .time t' } n ws h₁ = (.ok r₂, h₂)) (hp : (h₁.src s).sc_params = some p)
    (hset : LisaSettings (h₁.par p).dict t) {i : ℕ} {x : One} (hi : (rows (h.src s).cols)[i]? = some x)
    (hm : x.merged = false) (hch : Chosen ws i) (hx : PhysicalOne x) (htol : 0 ≤ (h.src s).stat_tol)
    (hbig : x.f_orb * (1 + (h.src s).stat_tol) < 1e9) (hst : x.StationaryOver W.K t' (h.src s).stat_tol) :
    ∃ v v' : ℝ, (h₁.snrs r₁)[i]? = some (some v) ∧ (h₂.snrs r₂)[i]? = some (some v') ∧ 0 ≤ v ∧ v ≤ v' := by
  obtain ⟨⟨sc₁, q₁, x₁, y₁, e₁⟩, ⟨sc₂, q₂, x₂, y₂, e₂⟩, hr₁, hr₂, hp₂, h6, h6', hd⟩ :=
    two_runs hr hcls hn hsch hrect hw hrun₁ hrun₂ hp
  have hcols : (h₁.src s).cols = (h.src s).cols := by rw [e₁]
  have hcls' : (h₁.src s).cls = .Source ∨ (h₁.src s).cls = .VerificationBinaries := by rw [e₁]; exact hcls
  have hsch' : CompleteSchedule W (h₁.src s) := by rw [e₁]; exact hsch
  have hrect' : Rect (h₁.src s).cols := by rw [hcols]; exact hrect
  have hw' : FitsMask (h₁.src s).cols ws := by rw [hcols]; exact hw
  have hi' : (rows (h₁.src s).cols)[i]? = some x := by rw [hcols]; exact hi
  obtain ⟨C, hC, -⟩ : ∃ C, CallCtx W h₁ s C ∧ True := by
    obtain ⟨-, -, -, hrow⟩ := C36_get_snr hcls hn hsch hrect hw hrun₁
    obtain ⟨-, -, -, -, -, -, C, -, -, hC, -⟩ := (hrow i x hi).2 hm hch
    exact ⟨C, hC, trivial⟩
  obtain ⟨C', hC', -⟩ : ∃ C, CallCtx W h₂ s C ∧ True := by
    obtain ⟨-, -, -, hrow⟩ := C36_get_snr hcls' hn hsch' hrect' hw' hrun₂
    obtain ⟨-, -, -, -, -, -, C, -, -, hC, -⟩ := (hrow i x hi').2 hm hch
    exact ⟨C, hC, trivial⟩
  have hN := lisa_dicts hC hC' hp hp₂ h6 h6' hd hset ht htt
  have hS := same_tables hr₁ hr₂ ⟨_, _, _, _, e₂⟩ hp hp₂ hN
  have hst0 : (h₁.src s).stat_tol = (h.src s).stat_tol := by rw [e₁]
  exact C101_get_snr (reachable_any hr) (reachable_any hr₁) hcls hcls' hn hn hsch hsch' hrect hrect'
    hw hw' hrun₁ hrun₂ hp hp₂ hS hd ht.le htt hN hi hi' hm hch hch hx (by rw [hst0]; exact htol) (by rw [hst0]; exact hbig)
    (by rw [hst0]; exact hst)

/-! ### Sources that change their frequency -/

/-- The limit of the SNR with many steps, for a source that is observed until a second before its merger or earlier and
stays below 1 Hz. -/
theorem evolving_limit {C : Ctx} {N : ℝ → WithTop ℝ} {s : EvolSrc} (hs : EvolPhys s) (h0 : 0 ≤ C.t_obs) (hN : Curve C N)
    (hreg : Tame N) {T : ℝ}
    (hT : get_t_merge_circ C.K none (some fun _ : Fin 1 => s.m_1) (some fun _ => s.m_2) none (some fun _ => s.f_orb_i)
      = .ok fun _ => T) (hfar : C.t_obs + 1 ≤ T) (hm : 1e-20 ≤ C.K.G * (s.m_1 + s.m_2))
    (hhigh : chirp s.f_orb_i T C.t_obs ≤ 1) :
    IntervalIntegrable (rate C N s T) volume 0 C.t_obs ∧
    ∃ v : ℕ → ℝ, (∀ n ≥ 2, snr_circ_evolving C [s] n none = .ok [some (v n)]) ∧
      Tendsto v atTop (𝓝 (√(∫ t in (0 : ℝ)..C.t_obs, rate C N s T t))) := by
  have hT' := t_merge_eq hT
  have hmin : min (T - 1) C.t_obs = C.t_obs := min_eq_right (by linarith)
  have hcol : ∀ x : EvolSrc → ℝ, column [s] x = fun _ => x s := fun x => by
    funext i
    match i with
    | ⟨0, _⟩ => rfl
  obtain ⟨hi, v, hv, hlim⟩ := early_limit (C := C) hs h0 hN hreg hT' (by linarith) le_rfl (fun n hn => by
    rw [hmin]
    have hmark := no_marker C.K hs hT' h0 (by linarith) hhigh hm hn
    have e := evol_circ_snr C.K [s] (fun _ => C.t_obs) n
    simp only [hcol] at e
    intro hmem
    have := (hmark _ e 100 hmem).2
    norm_num at this)
  rw [hmin] at hi hlim
  refine ⟨hi, v, fun n hn => ?_, hlim⟩
  have hn0 : n ≠ 0 := by omega
  refine (circ_evol_one hn0 (T := T) ?_).2 ((circ_evol_one hn0 (T := T) ?_).1 (hv n hn))
  · unfold merge_times_circ
    simp only [hcol]
    exact hT
  · unfold merge_times_circ
    simp only [pure, Except.pure]
    congr 1
    funext i
    match i with
    | ⟨0, _⟩ => rfl

/-- The inspiral from a later moment on. -/
theorem chirp_later {f T t u : ℝ} (h1 : t < T) (h2 : t + u < T) (hT : 0 < T) :
    chirp (chirp f T t) (T - t) u = chirp f T (t + u) := by
  have a1 : 0 < T - t := by linarith
  have a2 : 0 < T - (t + u) := by linarith
  unfold chirp
  rw [mul_assoc, ← mul_rpow (by positivity) (by rw [sub_sub]; positivity), sub_sub]
  congr 2
  field_simp

/-- **C101** (sources that change their frequency). Cut an observation of a circular source into two parts. The second part
begins with the frequency that `evol_circ` reports at the end of the first one. As the number of steps grows, the SNR² of
`snr_circ_evolving` for the whole observation becomes the sum of those for its parts. -/
theorem C101_split {C₁ C₂ C : Ctx} (hK₁ : C₁.K = C.K) (hK₂ : C₂.K = C.K) (hg₁ : C₁.interpolated_g = C.interpolated_g)
    (hg₂ : C₂.interpolated_g = C.interpolated_g) {N : ℝ → WithTop ℝ} (hN₁ : Curve C₁ N) (hN₂ : Curve C₂ N) (hN : Curve C N)
    (hreg : Tame N) (h₁ : 0 ≤ C₁.t_obs) (h₂ : 0 ≤ C₂.t_obs) (hsum : C.t_obs = C₁.t_obs + C₂.t_obs) {s : EvolSrc}
    (hs : EvolPhys s) {T : ℝ}
    (hT : get_t_merge_circ C.K none (some fun _ : Fin 1 => s.m_1) (some fun _ => s.m_2) none (some fun _ => s.f_orb_i)
      = .ok fun _ => T) (hfar : C.t_obs + 1 ≤ T) (hm : 1e-20 ≤ C.K.G * (s.m_1 + s.m_2))
    (hhigh : chirp s.f_orb_i T C.t_obs ≤ 1) {m : ℕ} (hmm : 2 ≤ m) {fs : Fin 1 → List ℝ} {f₁ : ℝ}
    (hfs : evol_circ C.K AU (some (.array fun _ : Fin 1 => C₁.t_obs)) m none none (some fun _ => s.m_1)
      (some fun _ => s.m_2) none (some fun _ => s.f_orb_i) ["f_orb"] = .ok (.one fs)) (hf₁ : (fs 0).getLast? = some f₁) :
    ∃ v₁ v₂ v : ℕ → ℝ, (∀ n ≥ 2, snr_circ_evolving C₁ [s] n none = .ok [some (v₁ n)] ∧
        snr_circ_evolving C₂ [{ s with f_orb_i := f₁ }] n none = .ok [some (v₂ n)] ∧
        snr_circ_evolving C [s] n none = .ok [some (v n)]) ∧
      ∃ x₁ x₂ x : ℝ, Tendsto v₁ atTop (𝓝 x₁) ∧ Tendsto v₂ atTop (𝓝 x₂) ∧ Tendsto v atTop (𝓝 x) ∧
        0 ≤ x₁ ∧ 0 ≤ x₂ ∧ x = √(x₁ ^ 2 + x₂ ^ 2) := by
  have hT' := t_merge_eq hT
  obtain ⟨p1, p2, p3, p4⟩ := hs
  have hTpos : 0 < T := by linarith
  have hcol : ∀ x : EvolSrc → ℝ, column [s] x = fun _ => x s := fun x => by
    funext i
    match i with
    | ⟨0, _⟩ => rfl
  have hch : chirp s.f_orb_i T C₁.t_obs ≤ 1 := (chirp_mono p3 hTpos (by linarith) (by linarith)).trans hhigh
  have hf1 : f₁ = chirp s.f_orb_i T C₁.t_obs := by
    have hmark := no_marker C.K ⟨p1, p2, p3, p4⟩ hT' h₁ (by linarith) hch hm hmm fs hfs
    have e := evol_circ_snr C.K [s] (fun _ => C₁.t_obs) m
    simp only [hcol] at e
    have e2 : fs = fun _ => circRow C.K s C₁.t_obs m := by
      have := hfs.symm.trans e
      simpa using this
    have hrow : circRow C.K s C₁.t_obs m = (np.linspace C₁.t_obs m).map (chirp s.f_orb_i T) := by
      have hmin : min (T - 1) C₁.t_obs = C₁.t_obs := min_eq_right (by linarith)
      have h100 : (100 : ℝ) ∉ circRow C.K s C₁.t_obs m := fun hmem => by
        have := (hmark 100 (by rw [e2]; exact hmem)).2
        norm_num at this
      have := circFreqs_chirp { C with t_obs := C₁.t_obs } ⟨p1, p2, p3, p4⟩ h₁ hT' (by linarith) hmm (by rw [hmin]; exact h100)
      unfold circFreqs at this
      rw [hmin, drop_merged_circ_of_not_mem h100] at this
      exact this
    rw [e2, hrow, List.getLast?_map, List.getLast?_eq_getElem?] at hf₁
    have hlen := (linspace_even C₁.t_obs m).length
    rw [hlen, (linspace_even C₁.t_obs m).last hmm] at hf₁
    simpa using hf₁.symm
  have hf1pos : 0 < f₁ := by rw [hf1]; exact chirp_pos p3 hTpos (by linarith)
  have ha := get_a_from_f_orb_pos C.K p3 p1 p2
  have hb := evol.beta_pos C.K p1 p2
  have hin := a_circ_inspiral ha hb
  rw [← hT'] at hin
  have hap := hin.pos C₁.t_obs (by linarith)
  have haf : get_a_from_f_orb C.K f₁ s.m_1 s.m_2 =
      a_circ (get_a_from_f_orb C.K s.f_orb_i s.m_1 s.m_2) (utils.beta C.K s.m_1 s.m_2) C₁.t_obs := by
    rw [hf1, ← f_of_a_circ C.K p3 p1 p2 hT' (by linarith)]
    exact C01_a_roundtrip C.K hap p1 p2
  have hT₂ : get_t_merge_circ C.K none (some fun _ : Fin 1 => s.m_1) (some fun _ => s.m_2) none (some fun _ => f₁)
      = .ok fun _ => T - C₁.t_obs := by
    rw [get_t_merge_circ_masses]
    refine congrArg Except.ok (funext fun _ => ?_)
    show get_a_from_f_orb C.K f₁ s.m_1 s.m_2 ^ 4 / (4 * utils.beta C.K s.m_1 s.m_2) = _
    have hlt : 4 * utils.beta C.K s.m_1 s.m_2 * C₁.t_obs ≤ get_a_from_f_orb C.K s.f_orb_i s.m_1 s.m_2 ^ 4 := by
      have : C₁.t_obs ≤ T := by linarith
      rw [hT', le_div_iff₀ (by positivity)] at this
      linarith
    rw [haf, a_circ_pow_four, max_eq_right (by linarith), hT']
    field_simp
  obtain ⟨-, v₁, hv₁, hl₁⟩ := evolving_limit (C := C₁) (s := s) ⟨p1, p2, p3, p4⟩ h₁ hN₁ hreg (by rw [hK₁]; exact hT)
    (by linarith) (by rw [hK₁]; exact hm) hch
  have hlater : ∀ u, C₁.t_obs + u < T → chirp f₁ (T - C₁.t_obs) u = chirp s.f_orb_i T (C₁.t_obs + u) := fun u hu => by
    rw [hf1]
    exact chirp_later (by linarith) hu hTpos
  obtain ⟨-, v₂, hv₂, hl₂⟩ := evolving_limit (C := C₂) (s := { s with f_orb_i := f₁ }) (T := T - C₁.t_obs)
    ⟨p1, p2, hf1pos, p4⟩ h₂ hN₂ hreg (by rw [hK₂]; exact hT₂) (by linarith) (by rw [hK₂]; exact hm)
    (by show chirp f₁ _ _ ≤ 1; rw [hlater _ (by linarith), ← hsum]; exact hhigh)
  obtain ⟨hi, v, hv, hl⟩ := evolving_limit (C := C) (s := s) ⟨p1, p2, p3, p4⟩ (by linarith) hN hreg hT hfar hm hhigh
  have hr₁ : ∀ t, rate C₁ N s T t = rate C N s T t := fun t => by unfold rate; rw [hK₁, hg₁]
  have hr₂ : ∀ u ∈ uIcc 0 C₂.t_obs, rate C₂ N { s with f_orb_i := f₁ } (T - C₁.t_obs) u = rate C N s T (C₁.t_obs + u) := by
    intro u hu
    rw [uIcc_of_le h₂] at hu
    have := hlater u (by linarith [hu.2])
    unfold rate
    simp only
    rw [this, hK₂, hg₂]
  simp only [hr₁] at hl₁
  rw [intervalIntegral.integral_congr hr₂, intervalIntegral.integral_comp_add_left (fun t => rate C N s T t), add_zero,
    ← hsum] at hl₂
  have hnn : ∀ t < T, 0 ≤ rate C N s T t := fun t ht => by
    have hf := chirp_pos p3 hTpos ht
    unfold rate
    exact divNoise_nonneg (sq_nonneg _) (hN.pos _ (mul_pos (by norm_num) hf)).le
  have hi₁ : IntervalIntegrable (rate C N s T) volume 0 C₁.t_obs :=
    hi.mono_set (by rw [uIcc_of_le h₁, uIcc_of_le (by linarith)]; exact Icc_subset_Icc_right (by linarith))
  have hi₂ : IntervalIntegrable (rate C N s T) volume C₁.t_obs C.t_obs :=
    hi.mono_set (by rw [uIcc_of_le (by linarith), uIcc_of_le (by linarith)]; exact Icc_subset_Icc_left h₁)
  refine ⟨v₁, v₂, v, fun n hn => ⟨hv₁ n hn, hv₂ n hn, hv n hn⟩, _, _, _, hl₁, hl₂, hl, sqrt_nonneg _, sqrt_nonneg _, ?_⟩
  rw [sq_sqrt (intervalIntegral.integral_nonneg h₁ fun t ht => hnn t (by linarith [ht.2])),
    sq_sqrt (intervalIntegral.integral_nonneg (by linarith) fun t ht => hnn t (by linarith [ht.2])),
    intervalIntegral.integral_add_adjacent_intervals hi₁ hi₂]

/-- A longer observation with a noise that is no larger collects no less. -/
theorem integral_longer {C C' : Ctx} (hK : C'.K = C.K) (hg : C'.interpolated_g = C.interpolated_g) {N N' : ℝ → WithTop ℝ}
    (hN' : ∀ f, 0 < f → 0 < N' f) (hle : ∀ f, 0 < f → N' f ≤ N f) (h0 : 0 ≤ C.t_obs) (htt : C.t_obs ≤ C'.t_obs)
    {s : EvolSrc} (hs : EvolPhys s) {T : ℝ} (hfar : C'.t_obs < T) (hi : IntervalIntegrable (rate C N s T) volume 0 C.t_obs)
    (hi' : IntervalIntegrable (rate C' N' s T) volume 0 C'.t_obs) :
    (∫ t in (0 : ℝ)..C.t_obs, rate C N s T t) ≤ ∫ t in (0 : ℝ)..C'.t_obs, rate C' N' s T t := by
  obtain ⟨p1, p2, p3, p4⟩ := hs
  have hTpos : 0 < T := by linarith
  have key : ∀ t < T, 0 ≤ rate C N s T t ∧ rate C N s T t ≤ rate C' N' s T t := fun t ht => by
    have hf : 0 < ((2 : ℤ) : ℝ) * chirp s.f_orb_i T t := mul_pos (by norm_num) (chirp_pos p3 hTpos ht)
    unfold rate
    rw [hK, hg]
    exact divNoise_quieter (sq_nonneg _) le_rfl (hN' _ hf) (hle _ hf)
  have hi₁ : IntervalIntegrable (rate C' N' s T) volume 0 C.t_obs :=
    hi'.mono_set (by rw [uIcc_of_le h0, uIcc_of_le (by linarith)]; exact Icc_subset_Icc_right htt)
  have hi₂ : IntervalIntegrable (rate C' N' s T) volume C.t_obs C'.t_obs :=
    hi'.mono_set (by rw [uIcc_of_le htt, uIcc_of_le (by linarith)]; exact Icc_subset_Icc_left h0)
  rw [← intervalIntegral.integral_add_adjacent_intervals hi₁ hi₂]
  have a1 := intervalIntegral.integral_mono_on h0 hi hi₁ fun t ht => (key t (by linarith [ht.2])).2
  have a2 : 0 ≤ ∫ t in C.t_obs..C'.t_obs, rate C' N' s T t :=
    intervalIntegral.integral_nonneg htt fun t ht => by
      have := key t (by linarith [ht.2])
      exact this.1.trans this.2
  linarith

/-- **C101** (sources that change their frequency). Observing for longer, with a noise that is no larger, does not lower what
the SNR of `snr_circ_evolving` tends to as the number of steps grows. -/
theorem C101_limit {C C' : Ctx} (hK : C'.K = C.K) (hg : C'.interpolated_g = C.interpolated_g) {N N' : ℝ → WithTop ℝ}
    (hN : Curve C N) (hN' : Curve C' N') (hreg : Tame N) (hreg' : Tame N') (hle : ∀ f, 0 < f → N' f ≤ N f)
    (h0 : 0 ≤ C.t_obs) (htt : C.t_obs ≤ C'.t_obs) {s : EvolSrc} (hs : EvolPhys s) {T : ℝ}
    (hT : get_t_merge_circ C.K none (some fun _ : Fin 1 => s.m_1) (some fun _ => s.m_2) none (some fun _ => s.f_orb_i)
      = .ok fun _ => T) (hfar : C'.t_obs + 1 ≤ T) (hm : 1e-20 ≤ C.K.G * (s.m_1 + s.m_2))
    (hhigh : chirp s.f_orb_i T C'.t_obs ≤ 1) :
    ∃ v v' : ℕ → ℝ, (∀ n ≥ 2, snr_circ_evolving C [s] n none = .ok [some (v n)] ∧
        snr_circ_evolving C' [s] n none = .ok [some (v' n)]) ∧
      ∃ x x' : ℝ, Tendsto v atTop (𝓝 x) ∧ Tendsto v' atTop (𝓝 x') ∧ 0 ≤ x ∧ x ≤ x' := by
  obtain ⟨hi, v, hv, hl⟩ := evolving_limit (C := C) hs h0 hN hreg hT (by linarith) hm
    ((chirp_mono hs.2.2.1 (by linarith) htt (by linarith)).trans hhigh)
  obtain ⟨hi', v', hv', hl'⟩ := evolving_limit (C := C') hs (by linarith) hN' hreg' (by rw [hK]; exact hT) hfar
    (by rw [hK]; exact hm) hhigh
  exact ⟨v, v', fun n hn => ⟨hv n hn, hv' n hn⟩, _, _, hl, hl', sqrt_nonneg _,
    sqrt_le_sqrt (integral_longer hK hg hN'.pos hle h0 htt hs (by linarith) hi hi')⟩

/-- The exact SNR as an integral over the observation. -/
theorem exact_eq {C : Ctx} {one : One} {T x : ℝ} (hx : ExactSnr C one T x) {N : ℝ → WithTop ℝ}
    (hN : Curve { C with interpolated_sc := none } N) (ht : 0 < C.t_obs) (hf : 0 < one.f_orb) (hT : C.t_obs < T) :
    x = √(∫ t in (0 : ℝ)..C.t_obs, rate { C with interpolated_sc := none } N one.evolvingCirc T t) := by
  obtain ⟨ρ, hρ, rfl⟩ := hx
  congr 1
  rw [← intervalIntegral.integral_const_mul]
  apply intervalIntegral.integral_congr
  intro t htm
  rw [uIcc_of_le ht.le] at htm
  have h1 := hρ t htm
  have hfp := chirp_pos hf (by linarith : 0 < T) (htm.2.trans_lt hT)
  rw [snr_circ_stationary_iff, mapM_singleton_ok] at h1
  unfold circ1 at h1
  simp only at h1
  rw [modulation_none, ok_bind, hN.ok, ok_bind, pure_ok, one_mul] at h1
  have hnp := hN.pos (2 * chirp one.f_orb T t) (by linarith)
  have hnn : 0 ≤ divNoise (h_0_val C.K C.interpolated_g one.m_c one.dist (chirp one.f_orb T t) 0 2 ^ 2 * C.t_obs)
      (N (2 * chirp one.f_orb T t)) := divNoise_nonneg (by positivity) hnp.le
  rw [sqrt?_nonneg hnn] at h1
  have h2 : ρ t = √_ := (Option.some.inj h1).symm
  show 1 / C.t_obs * ρ t ^ 2 = _
  rw [h2, sq_sqrt hnn]
  unfold rate
  push_cast
  have hne : C.t_obs ≠ 0 := ht.ne'
  show _ = divNoise (h_0_val C.K C.interpolated_g one.m_c one.dist (chirp one.f_orb T t) 0 2 ^ 2) _
  show _ = divNoise _ (N (2 * chirp one.f_orb T t))
  cases N (2 * chirp one.f_orb T t) with
  | top => exact mul_zero (1 / C.t_obs)
  | coe y =>
    show 1 / C.t_obs * (_ / y) = _ / y
    field_simp

/-- With LISA the noise of a call is regular. -/
theorem lisa_regular {W : World} {h : Heap} {s p : ℕ} {C : Ctx} (hC : CallCtx W h s C) (hp : (h.src s).sc_params = some p)
    (h6 : SixKeys (h.par p).dict) {t : ℝ} (hset : LisaSettings (h.par p).dict t) :
    ∃ N, Curve { C with interpolated_sc := none } N ∧ Tame N := by
  obtain ⟨custom, cn, hcn, hkw, -⟩ := lisa_kw hC hp h6 hset
  refine C85_builtin_noise _ rfl (fun L hL => ?_) (Or.inl ⟨?_, ?_, fun L _ => Or.inl ?_⟩)
  · simp only [hkw] at hL
    cases hL
  · simp only [hkw]
  · simp only [hkw]
    rcases hcn with ⟨rfl, -⟩ | ⟨rfl, -⟩
    · right; right; right; left; rfl
    · left; rfl
  · simp only [hkw]

/-- **C101** (LISA, any circular binary). Call `get_snr` twice on one object as in `C101_lisa`, for at least three months,
at least 100 steps and a tolerance for stationary sources of at most 1% (the defaults). A circular binary between 1e-7 Hz
and 0.77 Hz with at most half its time to merger observed, stationary or not, loses at most 16% of its SNR by the longer
observation, and at most 8% unless it is stationary for the shorter one. (It loses nothing that is not an error of the
steps, the interpolation or of treating it as stationary.) -/
theorem C101_circular {W : World} (hc : W.K.c = 299792458) {h h₁ h₂ : Heap} {s n r₁ r₂ p : ℕ} {a : SnrArgs}
    {ws : Option (List Bool)} (hr : Reachable W Interpolating h)
    (hcls : (h.src s).cls = .Source ∨ (h.src s).cls = .VerificationBinaries) (hn : 100 ≤ n)
    (hsch : CompleteSchedule W (h.src s)) (hrect : Rect (h.src s).cols) (hw : FitsMask (h.src s).cols ws) {t t' : ℝ}
    (ht : 0.25 * psd.yr ≤ t) (htt : t ≤ t') (hrun₁ : get_snr W s { a with t_obs := .time t } n ws h = (.ok r₁, h₁))
    (hrun₂ : get_snr W s { a with t_obs := .time t' } n ws h₁ = (.ok r₂, h₂)) (hp : (h₁.src s).sc_params = some p)
    (hset : LisaSettings (h₁.par p).dict t) (htol : 0 ≤ (h.src s).stat_tol) (htol' : (h.src s).stat_tol ≤ 0.01) {i : ℕ}
    {one : One} (hi : (rows (h.src s).cols)[i]? = some one) (hm : one.merged = false) (hch : Chosen ws i) {T : ℝ}
    (hb : CircularBinary W.K one T) (hfar : 2 * t' ≤ T) (hlow : 1e-7 ≤ 2 * one.f_orb) (hhigh : one.f_orb ≤ 0.77) :
    ∃ v v' : ℝ, (h₁.snrs r₁)[i]? = some (some v) ∧ (h₂.snrs r₂)[i]? = some (some v') ∧ 0.84 * v ≤ v' ∧
      (¬ one.StationaryOver W.K t (h.src s).stat_tol → 0.92 * v ≤ v') := by
  have ht1 : 2 ≤ t := le_trans (by norm_num [psd.yr]) ht
  have hn0 : n ≠ 0 := by omega
  obtain ⟨⟨sc₁, q₁, x₁, y₁, e₁⟩, ⟨sc₂, q₂, x₂, y₂, e₂⟩, hr₁, hr₂, hp₂, h6, h6', hd⟩ :=
    two_runs hr hcls hn0 hsch hrect hw hrun₁ hrun₂ hp
  have hcols : (h₁.src s).cols = (h.src s).cols := by rw [e₁]
  have hcls' : (h₁.src s).cls = .Source ∨ (h₁.src s).cls = .VerificationBinaries := by rw [e₁]; exact hcls
  have hsch' : CompleteSchedule W (h₁.src s) := by rw [e₁]; exact hsch
  have hrect' : Rect (h₁.src s).cols := by rw [hcols]; exact hrect
  have hw' : FitsMask (h₁.src s).cols ws := by rw [hcols]; exact hw
  have hi' : (rows (h₁.src s).cols)[i]? = some one := by rw [hcols]; exact hi
  have hst₁ : (h₁.src s).stat_tol = (h.src s).stat_tol := by rw [e₁]
  have hst₂ : (h₂.src s).stat_tol = (h.src s).stat_tol := by rw [e₂, hst₁]
  have hset' : LisaSettings (h₂.par p).dict t' := by
    obtain ⟨s1, s2, s3, s4, s5⟩ := hset
    refine ⟨?_, ?_, ?_, ?_, hd.after⟩
    · rw [hd.same _ (by decide)]; exact s1
    · rw [hd.same _ (by decide)]; exact s2
    · rw [hd.same _ (by decide)]; exact s3
    · rw [hd.same _ (by decide)]; exact s4
  obtain ⟨C, v, x, hC, hCt, hv, hx, hf1, hf2⟩ := C96_lisa hc (reachable_any hr) hcls hn hsch hrect hw hrun₁ hp hset ht
    (by rw [hst₁]; exact htol) (by rw [hst₁]; exact htol') hi hm hch hb (by linarith) hlow hhigh
  obtain ⟨C', v', x', hC', hCt', hv', hx', hf1', hf2'⟩ := C96_lisa hc (reachable_any hr₁) hcls' hn hsch' hrect' hw' hrun₂ hp₂
    hset' (ht.trans htt) (by rw [hst₂]; exact htol) (by rw [hst₂]; exact htol') hi' hm hch hb hfar hlow hhigh
  obtain ⟨N, hN, hreg⟩ := lisa_regular hC hp h6 hset
  obtain ⟨N', hN', hreg'⟩ := lisa_regular hC' hp₂ h6' hset'
  have hle : ∀ f, 0 < f → N' f ≤ N f := fun f hf => by
    obtain ⟨y, y', h1, h2, -, h3⟩ := lisa_dicts hC hC' hp hp₂ h6 h6' hd hset (by linarith) htt f hf
    rw [dict_of_noise hC hp h6, hN.ok] at h1
    rw [dict_of_noise hC' hp₂ h6', hN'.ok] at h2
    cases h1
    cases h2
    exact h3
  have hK : C.K = W.K := callCtx_K hC
  have hK' : C'.K = W.K := callCtx_K hC'
  have hg : C'.interpolated_g = C.interpolated_g := by
    have g1 : C.interpolated_g = (h₁.src s).g := by
      obtain ⟨_, _, _, _, _, _, _, _, -, -, -, -, -, -, -, -, rfl⟩ := hC
      rfl
    have g2 : C'.interpolated_g = (h₂.src s).g := by
      obtain ⟨_, _, _, _, _, _, _, _, -, -, -, -, -, -, -, -, rfl⟩ := hC'
      rfl
    rw [g1, g2, e₂]
  have hphys : EvolPhys one.evolvingCirc := ⟨hb.m_1, hb.m_2, hb.f_orb, hb.dist⟩
  obtain ⟨j1, -⟩ := evolving_limit (C := { C with interpolated_sc := none }) hphys (by show 0 ≤ C.t_obs; linarith) hN hreg
    (T := T) (by show get_t_merge_circ C.K _ _ _ _ _ = _; rw [hK]; exact hb.merger) (by show C.t_obs + 1 ≤ T; linarith)
    (by show _ ≤ C.K.G * _; rw [hK]; exact hb.mass)
    (by show chirp one.f_orb T C.t_obs ≤ 1; exact chirp_half hb.f_orb (by linarith) (by linarith) hhigh)
  obtain ⟨j2, -⟩ := evolving_limit (C := { C' with interpolated_sc := none }) hphys (by show 0 ≤ C'.t_obs; linarith) hN' hreg'
    (T := T) (by show get_t_merge_circ C'.K _ _ _ _ _ = _; rw [hK']; exact hb.merger) (by show C'.t_obs + 1 ≤ T; linarith)
    (by show _ ≤ C'.K.G * _; rw [hK']; exact hb.mass)
    (by show chirp one.f_orb T C'.t_obs ≤ 1; exact chirp_half hb.f_orb (by linarith) (by linarith) hhigh)
  have hxx : x ≤ x' := by
    rw [exact_eq hx hN (by linarith) hb.f_orb (by linarith), exact_eq hx' hN' (by linarith) hb.f_orb (by linarith)]
    exact sqrt_le_sqrt (integral_longer (C := { C with interpolated_sc := none }) (C' := { C' with interpolated_sc := none })
      (hK'.trans hK.symm) hg hN'.pos hle (by show 0 ≤ C.t_obs; linarith) (by show C.t_obs ≤ C'.t_obs; linarith) hphys
      (by show C'.t_obs < T; linarith) j1 j2)
  have hx0 : 0 ≤ x' := by
    obtain ⟨-, -, rfl⟩ := hx'
    exact sqrt_nonneg _
  have hv0 : 0 ≤ v' := by linarith [hf1'.2]
  refine ⟨v, v', hv, hv', ?_, fun hst => ?_⟩
  · have a1 := hf1.1
    have a2 := hf1'.2
    have : v ≤ 1.09 * (1.09 * v') := a1.trans (by linarith)
    linarith
  · have a1 := (hf2 (by rw [hst₁]; exact hst)).1
    have a2 := (hf2' (by
      rw [hst₂]
      exact fun hst' => hst (stationary_shorter ⟨hb.m_1, hb.m_2, hb.f_orb, hb.ecc.symm.le, by rw [hb.ecc]; norm_num⟩
        (by linarith) htt htol (by nlinarith [hb.f_orb]) hst'))).2
    have : v ≤ 1.042 * (1.042 * v') := a1.trans (by linarith)
    linarith

/-! ### TianQin -/

/-- **C101** (negative part). The noise must not be larger for the longer observation: for TianQin with its default
confusion noise, every circular stationary source that emits at 1e-4 Hz has, observed for one year, less than a 700000th of
the SNR it has observed for half a year. -/
theorem C101_tianqin (K : Consts) (hc : K.c = 299792458) (env : psd.Env) {m_c dist : ℝ} (hm : 0 < m_c) (hd : 0 < dist) :
    ∃ v v' : ℝ, snr_circ_stationary { K := K, env := env, kw := { instrument := "TianQin" }, t_obs := 0.5 * psd.yr }
        [⟨m_c, 0.5e-4, dist, {}⟩] = .ok [some v] ∧
      snr_circ_stationary { K := K, env := env, kw := { instrument := "TianQin" }, t_obs := psd.yr }
        [⟨m_c, 0.5e-4, dist, {}⟩] = .ok [some v'] ∧ 0 < v' ∧ 700000 * v' < v := by
  obtain ⟨x₁, x₂, h1, h2, h0, hx⟩ := C26_tianqin_one_year K hc env none false
  have hy : (0 : ℝ) < psd.yr := by norm_num [psd.yr]
  have hw : 0 < h_0_val K none m_c dist 0.5e-4 0 2 := by
    unfold h_0_val
    simp only [g_vals]
    rw [C05_circular (by norm_num), if_pos rfl]
    have := pi_pos
    have := K.G_pos
    have := K.c_pos
    positivity
  set w := h_0_val K none m_c dist 0.5e-4 0 2 with hwdef
  have hx2 : 0 < x₂ := by linarith
  have key : ∀ (t x : ℝ), 0 < t → 0 < x →
      psd.power_spectral_density K env 1e-4 "TianQin" none (.val t) .auto false (.name "auto") = .ok (x : WithTop ℝ) →
      snr_circ_stationary { K := K, env := env, kw := { instrument := "TianQin" }, t_obs := t } [⟨m_c, 0.5e-4, dist, {}⟩]
        = .ok [some √(w ^ 2 * t / x)] := by
    intro t x ht hx h
    rw [snr_circ_stationary_iff, mapM_singleton_ok]
    unfold circ1
    have hn : noise { K := K, env := env, kw := { instrument := "TianQin" }, t_obs := t } (2 * 0.5e-4) = .ok (x : WithTop ℝ) := by
      show psd.power_spectral_density K env (2 * 0.5e-4) "TianQin" none (.val t) .auto false (.name "auto") = _
      rw [← h]
      norm_num
    have hmod : modulation {} = .ok 1 := rfl
    show (modulation {} >>= fun m => noise _ (2 * 0.5e-4) >>= fun n => pure (sqrt? (divNoise ((m * w) ^ 2 * t) n))) = _
    rw [hmod, ok_bind, hn]
    show Except.ok (sqrt? ((1 * w) ^ 2 * t / x)) = _
    rw [one_mul, sqrt?_nonneg (by positivity)]
  refine ⟨_, _, key _ _ (by linarith) h0 h1, key _ _ hy hx2 h2, by positivity, ?_⟩
  rw [← sqrt_sq (by norm_num : (0 : ℝ) ≤ 700000), ← sqrt_mul (by norm_num)]
  apply sqrt_lt_sqrt (by positivity)
  rw [← mul_div_assoc, div_lt_div_iff₀ hx2 h0]
  have hp : 0 < w ^ 2 * psd.yr := by positivity
  nlinarith

/-! ### Examples -/

/-- The two calls of the examples: LISA, half of 1e8 seconds and then 1e8 seconds, 100 steps. -/
private lemma longer_example : ∃ (h h₁ h₂ : Heap) (r₁ r₂ : ℕ), Reachable Example.world Interpolating h ∧
    (h.src 0).cls = .Source ∧ CompleteSchedule Example.world (h.src 0) ∧ (h.src 0).cols = Example.cols ∧
    (h.src 0).stat_tol = 1e-2 ∧
    get_snr Example.world 0 { t_obs := .time 5e7 } 100 none h = (.ok r₁, h₁) ∧
    get_snr Example.world 0 { t_obs := .time 1e8 } 100 none h₁ = (.ok r₂, h₂) ∧ (h₁.src 0).sc_params = some 1 ∧
    LisaSettings (h₁.par 1).dict 5e7 := by
  obtain ⟨h, hreach, hready, hcls, hsch, hcols, hp, hd, hint, hstat, hetol⟩ := lisa_made
  have hno : FitsMask (h.src 0).cols none := fun m hm => by cases hm
  have hf : ∀ t, Filled (h.par 1).dict { t_obs := .time t } ⟨.time t, .str "LISA", .none, .str "auto", .bool true, .none⟩ :=
    fun t => by
      rw [hd]
      exact ⟨Or.inl ⟨by simp, rfl⟩, Or.inr ⟨rfl, rfl⟩, Or.inr ⟨rfl, rfl⟩, Or.inr ⟨rfl, rfl⟩, Or.inr ⟨rfl, rfl⟩, Or.inr ⟨rfl, rfl⟩⟩
  have hcurve : ∀ t, ∃ c, CurveOf Example.world
      (SnrArgs.toDict ⟨.time t, .str "LISA", .none, .str "auto", .bool true, .none⟩) c := fun t => by
    obtain ⟨c, hc⟩ := plain_curve (inst := "LISA") (t := .time t) (Or.inl rfl) (Or.inr ⟨_, rfl⟩)
    refine ⟨c, curve_ok_iff.1 ?_⟩
    rw [curve_congr Example.world (sixKeys_eq (toDict_sixKeys _) (plain_sixKeys _ _) (toDict_agrees _) (plain_agrees "LISA" (.time t)))]
    exact hc
  obtain ⟨c, hc⟩ := hcurve 5e7
  obtain ⟨r₁, h₁, hrun₁⟩ := C36_succeeds_with (n := 100) (ws := none) hreach (Or.inl hcls) (by norm_num) hsch hno hready.rect
    hready.built hint hready.snr_length hready.harm_length hp (hf 5e7) rfl hc
  obtain ⟨sc₁, q₁, x₁, y₁, e₁⟩ := get_snr_frame (Or.inl hcls) (by norm_num) hsch hready.rect hno hrun₁
  have hcls' : (h₁.src 0).cls = .Source := by rw [e₁]; exact hcls
  have hcols' : (h₁.src 0).cols = (h.src 0).cols := by rw [e₁]
  obtain ⟨p', hp', hp'', hst⟩ := C36_settings (Or.inl hcls) (by norm_num) hsch hready.rect hno hrun₁
  rw [hp] at hp'
  cases hp'
  obtain ⟨⟨v1, a1, b1⟩, ⟨v2, a2, b2⟩, ⟨v3, a3, b3⟩, ⟨v4, a4, b4⟩, ⟨v5, a5, b5⟩, v6, a6, b6⟩ := hst
  have hgiven : ∀ {key : String} {v w : PVal}, Given (h.par 1).dict key .none v → (h.par 1).dict.get? key = some w → v = w := by
    intro key v w hg hw
    rcases hg with ⟨hg, -⟩ | ⟨-, hg⟩
    · exact absurd rfl hg
    · rw [hg] at hw
      exact Option.some.inj hw
  rw [hgiven a1 (w := .str "LISA") (by rw [hd]; rfl)] at b1
  rw [hgiven a2 (w := .none) (by rw [hd]; rfl)] at b2
  rw [hgiven a3 (w := .str "auto") (by rw [hd]; rfl)] at b3
  rw [hgiven a4 (w := .bool true) (by rw [hd]; rfl)] at b4
  rw [hgiven a5 (w := .none) (by rw [hd]; rfl)] at b5
  have b6' : (h₁.par 1).dict.get? "t_obs" = some (.time 5e7) := by
    rcases a6 with ⟨-, rfl⟩ | ⟨a6, -⟩
    · rcases b6 with b6 | ⟨b6, -⟩
      · exact b6
      · cases b6
    · cases a6
  obtain ⟨c', hc'⟩ := hcurve 1e8
  obtain ⟨hsnr, -, hlen, -⟩ := C36_get_snr (Or.inl hcls) (by norm_num) hsch hready.rect hno hrun₁
  obtain ⟨r₂, h₂, hrun₂⟩ := C36_succeeds_with (n := 100) (ws := none) (a := { t_obs := .time 1e8 })
    (f := ⟨.time 1e8, .str "LISA", .none, .str "auto", .bool true, .none⟩) (snr_reachable hreach trivial hrun₁) (Or.inl hcls')
    (by norm_num) (by rw [e₁]; exact hsch) (fun m hm => by cases hm) (by rw [hcols']; exact hready.rect)
    (by
      obtain ⟨g1, g2, -⟩ := hready.built
      exact ⟨by rw [e₁]; exact g1, by rw [e₁]; exact g2, by rw [hp'']; rfl⟩)
    (by rw [e₁]; exact hint)
    (by
      unfold storedSnr
      rw [hsnr, hcols']
      exact hlen)
    (by
      rw [harm_length_after (Or.inl hcls) (by norm_num) hsch hready.rect hno hrun₁, hcols']
      exact hready.harm_length) hp''
    ⟨Or.inl ⟨by simp, rfl⟩, Or.inr ⟨rfl, b1⟩, Or.inr ⟨rfl, b2⟩, Or.inr ⟨rfl, b3⟩, Or.inr ⟨rfl, b4⟩, Or.inr ⟨rfl, b5⟩⟩ rfl hc'
  exact ⟨h, h₁, h₂, r₁, r₂, hreach, hcls, hsch, hcols, hstat, hrun₁, hrun₂, hp'', b1, b3, b4, Or.inr b5, b6'⟩

/-- Non-vacuity of `C101_lisa` (with `C101_get_snr`) and `C101_circular`: the circular binary of the example object. -/
example : ∃ (h h₁ h₂ : Heap) (r₁ r₂ : ℕ) (v v' : ℝ), Reachable Example.world Interpolating h ∧
    get_snr Example.world 0 { t_obs := .time 5e7 } 100 none h = (.ok r₁, h₁) ∧
    get_snr Example.world 0 { t_obs := .time 1e8 } 100 none h₁ = (.ok r₂, h₂) ∧
    (h₁.snrs r₁)[0]? = some (some v) ∧ (h₂.snrs r₂)[0]? = some (some v') ∧ 0 ≤ v ∧ v ≤ v' ∧ 0.84 * v ≤ v' := by
  obtain ⟨h, h₁, h₂, r₁, r₂, hreach, hcls, hsch, hcols, hstat, hrun₁, hrun₂, hp, hset⟩ := longer_example
  have hno : FitsMask (h.src 0).cols none := fun m hm => by cases hm
  have hrect : Rect (h.src 0).cols := by
    have := example_rect
    rw [Example.heap_src] at this
    rw [hcols]
    exact this
  have hi : (rows (h.src 0).cols)[0]? = some (rowAt Example.cols 0) := by rw [hcols]; rfl
  have hch : Chosen none 0 := fun m hm => by cases hm
  have hphys : PhysicalOne (rowAt Example.cols 0) := ⟨by show (0 : ℝ) < 2e30; norm_num, by show (0 : ℝ) < 1e30; norm_num,
    by show (0 : ℝ) < 1e-3; norm_num, by show (0 : ℝ) ≤ 0; norm_num, by show (0 : ℝ) < 1; norm_num⟩
  obtain ⟨v, v', hv, hv', h0, hle⟩ := C101_lisa hreach (Or.inl hcls) (by norm_num) hsch hrect hno (a := {}) (t := 5e7) (t' := 1e8)
    (by norm_num) (by norm_num) hrun₁ hrun₂ hp hset hi rfl hch hphys (by rw [hstat]; norm_num)
    (by rw [hstat]; show (1e-3 : ℝ) * (1 + 1e-2) < 1e9; norm_num)
    (by
      rw [hstat]
      have := example_stationary
      norm_num at this ⊢
      exact this)
  obtain ⟨T, hT8, hone⟩ := example_binary
  obtain ⟨w, w', hw, hw', hww, -⟩ := C101_circular rfl hreach (Or.inl hcls) le_rfl hsch hrect hno (a := {}) (t := 5e7) (t' := 1e8)
    (by norm_num [psd.yr]) (by norm_num) hrun₁ hrun₂ hp hset (by rw [hstat]; norm_num) (by rw [hstat]) hi rfl hch hone
    (le_trans (by norm_num [psd.yr]) hT8) (by show (1e-7 : ℝ) ≤ 2 * 1e-3; norm_num) (by show (1e-3 : ℝ) ≤ 0.77; norm_num)
  rw [hv] at hw
  rw [hv'] at hw'
  cases hw
  cases hw'
  exact ⟨h, h₁, h₂, r₁, r₂, v, v', hreach, hrun₁, hrun₂, hv, hv', h0, hle, hww⟩

/-- The context of the examples below: LISA, the analytic response, no confusion noise. -/
private noncomputable def exampleCtx (t : ℝ) : Ctx :=
  { K := Example.world.K, env := Example.world.env, kw := { approximate_R := true, confusion_noise := .none }, t_obs := t }

private lemma example_noise : ∃ N, (∀ t, Curve (exampleCtx t) N) ∧ Tame N := by
  obtain ⟨N, hN, hreg⟩ := C85_builtin_noise (exampleCtx 0) rfl (fun L h => by cases h)
    (Or.inl ⟨rfl, by simp [exampleCtx, psd.NoiseArg.resolve, Recognised], fun _ _ => Or.inl rfl⟩)
  exact ⟨N, fun t => ⟨fun f => hN.ok f, hN.pos⟩, hreg⟩

private lemma example_chirping : ∃ (s : EvolSrc) (T : ℝ), EvolPhys s ∧ 10 * psd.yr ≤ T ∧ s.f_orb_i ≤ 0.77 ∧
    1e-20 ≤ Example.world.K.G * (s.m_1 + s.m_2) ∧
    get_t_merge_circ Example.world.K none (some fun _ : Fin 1 => s.m_1) (some fun _ => s.m_2) none (some fun _ => s.f_orb_i)
      = .ok fun _ => T := by
  obtain ⟨T, hT8, hb⟩ := example_binary
  exact ⟨(rowAt Example.cols 0).evolvingCirc, T, ⟨hb.m_1, hb.m_2, hb.f_orb, hb.dist⟩, by linarith,
    by show (1e-3 : ℝ) ≤ 0.77; norm_num, hb.mass, hb.merger⟩

/-- Non-vacuity of `C101_stationary`: LISA for one year and for two. -/
example : LongerCall (exampleCtx psd.yr) (exampleCtx (2 * psd.yr)) := by
  obtain ⟨N, hN, -⟩ := example_noise
  exact ⟨rfl, rfl, ⟨by norm_num [exampleCtx, psd.yr], by norm_num [exampleCtx, psd.yr]⟩,
    fun f hf => ⟨N f, N f, (hN _).ok f, (hN _).ok f, (hN 0).pos f hf, le_rfl⟩⟩

/-- Non-vacuity of `C101_split`: five years, cut after two, for the circular binary of the example. -/
example : ∃ (s : EvolSrc) (f₁ : ℝ) (v₁ v₂ v : ℕ → ℝ), (∀ n ≥ 2,
      snr_circ_evolving (exampleCtx (2 * psd.yr)) [s] n none = .ok [some (v₁ n)] ∧
      snr_circ_evolving (exampleCtx (3 * psd.yr)) [{ s with f_orb_i := f₁ }] n none = .ok [some (v₂ n)] ∧
      snr_circ_evolving (exampleCtx (5 * psd.yr)) [s] n none = .ok [some (v n)]) ∧
    ∃ x₁ x₂ x : ℝ, Tendsto v₁ atTop (𝓝 x₁) ∧ Tendsto v₂ atTop (𝓝 x₂) ∧ Tendsto v atTop (𝓝 x) ∧
      0 ≤ x₁ ∧ 0 ≤ x₂ ∧ x = √(x₁ ^ 2 + x₂ ^ 2) := by
  obtain ⟨s, T, hs, hT8, hhigh, hmass, hT⟩ := example_chirping
  obtain ⟨N, hN, hreg⟩ := example_noise
  have hy : (0 : ℝ) < psd.yr := by norm_num [psd.yr]
  have hy1 : (1 : ℝ) ≤ psd.yr := by norm_num [psd.yr]
  have e := evol_circ_snr Example.world.K [s] (fun _ => 2 * psd.yr) 3
  have hcol : ∀ x : EvolSrc → ℝ, column [s] x = fun _ => x s := fun x => by
    funext i
    match i with
    | ⟨0, _⟩ => rfl
  simp only [hcol] at e
  have hl : (circRow Example.world.K s (2 * psd.yr) 3).length = 3 := by simp [circRow, (linspace_even (2 * psd.yr) 3).length]
  obtain ⟨f₁, hf₁⟩ : ∃ f₁, (circRow Example.world.K s (2 * psd.yr) 3).getLast? = some f₁ := by
    rw [List.getLast?_eq_getElem?, hl]
    exact ⟨_, List.getElem?_eq_getElem (by rw [hl]; norm_num)⟩
  obtain ⟨v₁, v₂, v, hv⟩ := C101_split (C₁ := exampleCtx (2 * psd.yr)) (C₂ := exampleCtx (3 * psd.yr)) (C := exampleCtx (5 * psd.yr))
    rfl rfl rfl rfl (hN _) (hN _) (hN _) hreg (by show 0 ≤ 2 * psd.yr; linarith) (by show 0 ≤ 3 * psd.yr; linarith)
    (by show 5 * psd.yr = 2 * psd.yr + 3 * psd.yr; ring) hs hT (by show 5 * psd.yr + 1 ≤ T; linarith) hmass
    (by show chirp s.f_orb_i T (5 * psd.yr) ≤ 1; exact chirp_half hs.2.2.1 (by linarith) (by linarith) hhigh)
    (m := 3) (by norm_num) e (f₁ := f₁) (by simpa using hf₁)
  exact ⟨s, f₁, v₁, v₂, v, hv⟩

/-- Non-vacuity of `C101_limit`: two years and five years, for the circular binary of the example. -/
example : ∃ (s : EvolSrc) (v v' : ℕ → ℝ), (∀ n ≥ 2,
      snr_circ_evolving (exampleCtx (2 * psd.yr)) [s] n none = .ok [some (v n)] ∧
      snr_circ_evolving (exampleCtx (5 * psd.yr)) [s] n none = .ok [some (v' n)]) ∧
    ∃ x x' : ℝ, Tendsto v atTop (𝓝 x) ∧ Tendsto v' atTop (𝓝 x') ∧ 0 ≤ x ∧ x ≤ x' := by
  obtain ⟨s, T, hs, hT8, hhigh, hmass, hT⟩ := example_chirping
  obtain ⟨N, hN, hreg⟩ := example_noise
  have hy : (0 : ℝ) < psd.yr := by norm_num [psd.yr]
  have hy1 : (1 : ℝ) ≤ psd.yr := by norm_num [psd.yr]
  obtain ⟨v, v', hv⟩ := C101_limit (C := exampleCtx (2 * psd.yr)) (C' := exampleCtx (5 * psd.yr)) rfl rfl (hN _) (hN _) hreg hreg
    (fun f _ => le_rfl) (by show 0 ≤ 2 * psd.yr; linarith) (by show 2 * psd.yr ≤ 5 * psd.yr; linarith) hs hT
    (by show 5 * psd.yr + 1 ≤ T; linarith) hmass
    (by show chirp s.f_orb_i T (5 * psd.yr) ≤ 1; exact chirp_half hs.2.2.1 (by linarith) (by linarith) hhigh)
  exact ⟨s, v, v', hv⟩

end Legwork.Props
