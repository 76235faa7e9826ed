import Verif.Lemmas.Peters

/-!
# Bounds on the fitted merger time

The correction polynomial of `t_merge_mandel_fit` is bounded on `[0.15, 1]` by writing it in the Bernstein basis
of two subintervals, where all coefficients are non-negative.
-/

namespace Legwork.evol

open Real Legwork.utils Legwork.np

/-- The correction polynomial of the fit. -/
noncomputable def corr (e : ℝ) : ℝ :=
  ((mandel_coefficients.zipIdx).map fun (c, i) => c * e ^ (mandel_coefficients.length - (i + 1))).sum

theorem corr_eq (e : ℝ) : corr e = -1203.17749 * e ^ 10 + 5672.11219 * e ^ 9 - 11393.5479 * e ^ 8
    + 12730.6422 * e ^ 7 - 8662.81737 * e ^ 6 + 3694.47796 * e ^ 5 - 979.864734 * e ^ 4 + 154.873214 * e ^ 3
    - 13.2267683 * e ^ 2 + 0.532494018 * e + 0.993382093 := by
  simp [corr, mandel_coefficients, List.zipIdx]
  norm_num
  ring

theorem corr_lo_0 {e : ℝ} (h0 : (3 / 20 : ℝ) ≤ e) (h1 : e ≤ (23 / 40 : ℝ)) : 0 ≤ corr e - 0.95 := by
  have hl : 0 ≤ e - (3 / 20 : ℝ) := by linarith
  have hu : 0 ≤ (23 / 40 : ℝ) - e := by linarith
  have key : corr e - 0.95 = (1743636774946394848 / 6299980938903125 : ℝ) * (e - (3 / 20 : ℝ)) ^ 0 * ((23 / 40 : ℝ) - e) ^ 10
      + (3673435365750294176 / 1259996187780625 : ℝ) * (e - (3 / 20 : ℝ)) ^ 1 * ((23 / 40 : ℝ) - e) ^ 9
      + (17477540140074644824 / 1259996187780625 : ℝ) * (e - (3 / 20 : ℝ)) ^ 2 * ((23 / 40 : ℝ) - e) ^ 8
      + (47296964103236559456 / 1259996187780625 : ℝ) * (e - (3 / 20 : ℝ)) ^ 3 * ((23 / 40 : ℝ) - e) ^ 7
      + (3241966393919239628 / 50399847511225 : ℝ) * (e - (3 / 20 : ℝ)) ^ 4 * ((23 / 40 : ℝ) - e) ^ 6
      + (528925307235487969868 / 6299980938903125 : ℝ) * (e - (3 / 20 : ℝ)) ^ 5 * ((23 / 40 : ℝ) - e) ^ 5
      + (96406912850912018023 / 1259996187780625 : ℝ) * (e - (3 / 20 : ℝ)) ^ 6 * ((23 / 40 : ℝ) - e) ^ 4
      + (57344675743521010422 / 1259996187780625 : ℝ) * (e - (3 / 20 : ℝ)) ^ 7 * ((23 / 40 : ℝ) - e) ^ 3
      + (172488347320958226879 / 10079969502245000 : ℝ) * (e - (3 / 20 : ℝ)) ^ 8 * ((23 / 40 : ℝ) - e) ^ 2
      + (7550078598194831009 / 2015993900449000 : ℝ) * (e - (3 / 20 : ℝ)) ^ 9 * ((23 / 40 : ℝ) - e) ^ 1
      + (73528499804328875779 / 201599390044900000 : ℝ) * (e - (3 / 20 : ℝ)) ^ 10 * ((23 / 40 : ℝ) - e) ^ 0 := by
    rw [corr_eq]; ring
  rw [key]
  positivity

theorem corr_lo_1 {e : ℝ} (h0 : (23 / 40 : ℝ) ≤ e) (h1 : e ≤ (1 : ℝ)) : 0 ≤ corr e - 0.95 := by
  have hl : 0 ≤ e - (23 / 40 : ℝ) := by linarith
  have hu : 0 ≤ (1 : ℝ) - e := by linarith
  have key : corr e - 0.95 = (73528499804328875779 / 201599390044900000 : ℝ) * (e - (23 / 40 : ℝ)) ^ 0 * ((1 : ℝ) - e) ^ 10
      + (17889053406677360367 / 5039984751122500 : ℝ) * (e - (23 / 40 : ℝ)) ^ 1 * ((1 : ℝ) - e) ^ 9
      + (3868444293059582952 / 251999237556125 : ℝ) * (e - (23 / 40 : ℝ)) ^ 2 * ((1 : ℝ) - e) ^ 8
      + (1971837755473356288 / 50399847511225 : ℝ) * (e - (23 / 40 : ℝ)) ^ 3 * ((1 : ℝ) - e) ^ 7
      + (651870396672883328 / 10079969502245 : ℝ) * (e - (23 / 40 : ℝ)) ^ 4 * ((1 : ℝ) - e) ^ 6
      + (137967898711089152 / 2015993900449 : ℝ) * (e - (23 / 40 : ℝ)) ^ 5 * ((1 : ℝ) - e) ^ 5
      + (79469838868234240 / 2015993900449 : ℝ) * (e - (23 / 40 : ℝ)) ^ 6 * ((1 : ℝ) - e) ^ 4
      + (15429100394315776 / 2015993900449 : ℝ) * (e - (23 / 40 : ℝ)) ^ 7 * ((1 : ℝ) - e) ^ 3
      + (8516933891784704 / 2015993900449 : ℝ) * (e - (23 / 40 : ℝ)) ^ 8 * ((1 : ℝ) - e) ^ 2
      + (13537854434574336 / 2015993900449 : ℝ) * (e - (23 / 40 : ℝ)) ^ 9 * ((1 : ℝ) - e) ^ 1
      + (494695203471360 / 2015993900449 : ℝ) * (e - (23 / 40 : ℝ)) ^ 10 * ((1 : ℝ) - e) ^ 0 := by
    rw [corr_eq]; ring
  rw [key]
  positivity

theorem corr_hi_0 {e : ℝ} (h0 : (3 / 20 : ℝ) ≤ e) (h1 : e ≤ (23 / 40 : ℝ)) : 0 ≤ 1.06 - corr e := by
  have hl : 0 ≤ e - (3 / 20 : ℝ) := by linarith
  have hu : 0 ≤ (23 / 40 : ℝ) - e := by linarith
  have key : 1.06 - corr e = (1860843225053605152 / 6299980938903125 : ℝ) * (e - (3 / 20 : ℝ)) ^ 0 * ((23 / 40 : ℝ) - e) ^ 10
      + (3535524634249705824 / 1259996187780625 : ℝ) * (e - (3 / 20 : ℝ)) ^ 1 * ((23 / 40 : ℝ) - e) ^ 9
      + (14962779859925355176 / 1259996187780625 : ℝ) * (e - (3 / 20 : ℝ)) ^ 2 * ((23 / 40 : ℝ) - e) ^ 8
      + (39210555896763440544 / 1259996187780625 : ℝ) * (e - (3 / 20 : ℝ)) ^ 3 * ((23 / 40 : ℝ) - e) ^ 7
      + (2813560006080760372 / 50399847511225 : ℝ) * (e - (3 / 20 : ℝ)) ^ 4 * ((23 / 40 : ℝ) - e) ^ 6
      + (379403652764512030132 / 6299980938903125 : ℝ) * (e - (3 / 20 : ℝ)) ^ 5 * ((23 / 40 : ℝ) - e) ^ 5
      + (54981247149087981977 / 1259996187780625 : ℝ) * (e - (3 / 20 : ℝ)) ^ 6 * ((23 / 40 : ℝ) - e) ^ 4
      + (29162844256478989578 / 1259996187780625 : ℝ) * (e - (3 / 20 : ℝ)) ^ 7 * ((23 / 40 : ℝ) - e) ^ 3
      + (87034212679041773121 / 10079969502245000 : ℝ) * (e - (3 / 20 : ℝ)) ^ 8 * ((23 / 40 : ℝ) - e) ^ 2
      + (3984257401805168991 / 2015993900449000 : ℝ) * (e - (3 / 20 : ℝ)) ^ 9 * ((23 / 40 : ℝ) - e) ^ 1
      + (41814860195671124221 / 201599390044900000 : ℝ) * (e - (3 / 20 : ℝ)) ^ 10 * ((23 / 40 : ℝ) - e) ^ 0 := by
    rw [corr_eq]; ring
  rw [key]
  positivity

theorem corr_hi_1 {e : ℝ} (h0 : (23 / 40 : ℝ) ≤ e) (h1 : e ≤ (63 / 80 : ℝ)) : 0 ≤ 1.06 - corr e := by
  have hl : 0 ≤ e - (23 / 40 : ℝ) := by linarith
  have hu : 0 ≤ (63 / 80 : ℝ) - e := by linarith
  have key : 1.06 - corr e = (1338075526261475975072 / 6299980938903125 : ℝ) * (e - (23 / 40 : ℝ)) ^ 0 * ((63 / 80 : ℝ) - e) ^ 10
      + (2739264210206773848096 / 1259996187780625 : ℝ) * (e - (23 / 40 : ℝ)) ^ 1 * ((63 / 80 : ℝ) - e) ^ 9
      + (2533826447345179038792 / 251999237556125 : ℝ) * (e - (23 / 40 : ℝ)) ^ 2 * ((63 / 80 : ℝ) - e) ^ 8
      + (34800459376312303946592 / 1259996187780625 : ℝ) * (e - (23 / 40 : ℝ)) ^ 3 * ((63 / 80 : ℝ) - e) ^ 7
      + (62841387177363481801796 / 1259996187780625 : ℝ) * (e - (23 / 40 : ℝ)) ^ 4 * ((63 / 80 : ℝ) - e) ^ 6
      + (390476930658969068052412 / 6299980938903125 : ℝ) * (e - (23 / 40 : ℝ)) ^ 5 * ((63 / 80 : ℝ) - e) ^ 5
      + (67943072584959751580473 / 1259996187780625 : ℝ) * (e - (23 / 40 : ℝ)) ^ 6 * ((63 / 80 : ℝ) - e) ^ 4
      + (8213328771147376507038 / 251999237556125 : ℝ) * (e - (23 / 40 : ℝ)) ^ 7 * ((63 / 80 : ℝ) - e) ^ 3
      + (132141523927505063548933 / 10079969502245000 : ℝ) * (e - (23 / 40 : ℝ)) ^ 8 * ((63 / 80 : ℝ) - e) ^ 2
      + (31673092350302417599329 / 10079969502245000 : ℝ) * (e - (23 / 40 : ℝ)) ^ 9 * ((63 / 80 : ℝ) - e) ^ 1
      + (67761363463782861835941 / 201599390044900000 : ℝ) * (e - (23 / 40 : ℝ)) ^ 10 * ((63 / 80 : ℝ) - e) ^ 0 := by
    rw [corr_eq]; ring
  rw [key]
  positivity

theorem corr_hi_2 {e : ℝ} (h0 : (63 / 80 : ℝ) ≤ e) (h1 : e ≤ (1 : ℝ)) : 0 ≤ 1.06 - corr e := by
  have hl : 0 ≤ e - (63 / 80 : ℝ) := by linarith
  have hu : 0 ≤ (1 : ℝ) - e := by linarith
  have key : 1.06 - corr e = (67761363463782861835941 / 201599390044900000 : ℝ) * (e - (63 / 80 : ℝ)) ^ 0 * ((1 : ℝ) - e) ^ 10
      + (9022067778370111059153 / 2519992375561250 : ℝ) * (e - (63 / 80 : ℝ)) ^ 1 * ((1 : ℝ) - e) ^ 9
      + (4296953319902682582112 / 251999237556125 : ℝ) * (e - (63 / 80 : ℝ)) ^ 2 * ((1 : ℝ) - e) ^ 8
      + (2386756899061075951616 / 50399847511225 : ℝ) * (e - (63 / 80 : ℝ)) ^ 3 * ((1 : ℝ) - e) ^ 7
      + (843522151230010447872 / 10079969502245 : ℝ) * (e - (63 / 80 : ℝ)) ^ 4 * ((1 : ℝ) - e) ^ 6
      + (193763499591289012224 / 2015993900449 : ℝ) * (e - (63 / 80 : ℝ)) ^ 5 * ((1 : ℝ) - e) ^ 5
      + (141345500170774642688 / 2015993900449 : ℝ) * (e - (63 / 80 : ℝ)) ^ 6 * ((1 : ℝ) - e) ^ 4
      + (61056704052501413888 / 2015993900449 : ℝ) * (e - (63 / 80 : ℝ)) ^ 7 * ((1 : ℝ) - e) ^ 3
      + (14079779850453778432 / 2015993900449 : ℝ) * (e - (63 / 80 : ℝ)) ^ 8 * ((1 : ℝ) - e) ^ 2
      + (2346939151724576768 / 2015993900449 : ℝ) * (e - (63 / 80 : ℝ)) ^ 9 * ((1 : ℝ) - e) ^ 1
      + (674548118045327360 / 2015993900449 : ℝ) * (e - (63 / 80 : ℝ)) ^ 10 * ((1 : ℝ) - e) ^ 0 := by
    rw [corr_eq]; ring
  rw [key]
  positivity

theorem corr_ge {e : ℝ} (h0 : 0.15 ≤ e) (h1 : e ≤ 1) : 0.95 ≤ corr e := by
  rcases le_total e (23 / 40) with h | h
  · linarith [corr_lo_0 (e := e) (by norm_num at h0 ⊢; linarith) h]
  · linarith [corr_lo_1 h (by linarith)]

theorem corr_le {e : ℝ} (h0 : 0.15 ≤ e) (h1 : e ≤ 1) : corr e ≤ 1.06 := by
  rcases le_total e (23 / 40) with h | h
  · linarith [corr_hi_0 (e := e) (by norm_num at h0 ⊢; linarith) h]
  · rcases le_total e (63 / 80) with h' | h'
    · linarith [corr_hi_1 h h']
    · linarith [corr_hi_2 h' (by linarith)]

theorem t_merge_mandel_fit_eq (e : ℝ) : t_merge_mandel_fit e
    = (1 + (0.27 * e ^ 10) + (0.33 * e ^ 20) + (0.20 * e ^ 1000)) * (1 - e ^ 2) ^ (7 / 2 : ℝ) / corr e := rfl

theorem mandel_fit_pos {e : ℝ} (h0 : 0.15 ≤ e) (h1 : e < 1) : 0 < t_merge_mandel_fit e := by
  have he : 0 < e := by norm_num at h0; linarith
  have hs := one_sub_sq_pos' he.le h1
  have hc : 0 < corr e := lt_of_lt_of_le (by norm_num) (corr_ge h0 h1.le)
  rw [t_merge_mandel_fit_eq]
  positivity

theorem mandel_fit_le_one {e : ℝ} (h0 : 0.15 ≤ e) (h1 : e < 1) : t_merge_mandel_fit e ≤ 1 := by
  have he : 0 < e := by norm_num at h0; linarith
  have hs := one_sub_sq_pos' he.le h1
  have hc := corr_ge h0 h1.le
  rw [t_merge_mandel_fit_eq, div_le_one (by linarith)]
  refine le_trans ?_ hc
  have e20 : e ^ 20 ≤ e ^ 10 := pow_le_pow_of_le_one he.le h1.le (by norm_num)
  have e1000 : e ^ 1000 ≤ e ^ 10 := pow_le_pow_of_le_one he.le h1.le (by norm_num)
  obtain ⟨s, hsd⟩ : ∃ s, s = e ^ 2 := ⟨_, rfl⟩
  have e10 : e ^ 10 = s ^ 5 := by rw [hsd]; ring
  have hs0 : 0.0225 ≤ s := by rw [hsd]; nlinarith
  have hs1 : s < 1 := by rw [hsd]; linarith
  rw [← hsd] at hs ⊢
  have h72 : (1 - s) ^ (7 / 2 : ℝ) ≤ (1 - s) ^ 3 * (1 - s / 2) := by
    have : (1 - s) ^ (7 / 2 : ℝ) = (1 - s) ^ 3 * (1 - s) ^ (1 / 2 : ℝ) := by
      rw [← rpow_natCast, ← rpow_add hs]; norm_num
    rw [this]
    apply mul_le_mul_of_nonneg_left _ (by positivity)
    rw [← sqrt_eq_rpow]
    rw [sqrt_le_left (by linarith)]
    nlinarith
  have hP : 1 + (0.27 * e ^ 10) + (0.33 * e ^ 20) + (0.20 * e ^ 1000) ≤ 1 + 0.8 * s ^ 5 := by
    rw [← e10]; norm_num; linarith
  have hs5 : s ^ 5 ≤ s := by
    calc s ^ 5 ≤ s ^ 1 := pow_le_pow_of_le_one (by linarith) hs1.le (by norm_num)
      _ = s := pow_one s
  have hs5' : 0 ≤ s ^ 5 := by positivity
  have hA : (1 + 0.8 * s ^ 5) * (1 - s) ≤ 1 := by nlinarith
  have hB : (1 - s) ^ 2 * (1 - s / 2) ≤ 0.95 := by
    have a1 : (1 - s) ^ 2 ≤ 0.9775 ^ 2 := pow_le_pow_left₀ hs.le (by linarith) 2
    have a2 : 1 - s / 2 ≤ 0.98875 := by linarith
    calc (1 - s) ^ 2 * (1 - s / 2) ≤ 0.9775 ^ 2 * 0.98875 :=
          mul_le_mul a1 a2 (by linarith) (by norm_num)
      _ ≤ 0.95 := by norm_num
  calc _ ≤ (1 + 0.8 * s ^ 5) * ((1 - s) ^ 3 * (1 - s / 2)) :=
        mul_le_mul hP h72 (by positivity) (by positivity)
    _ = ((1 + 0.8 * s ^ 5) * (1 - s)) * ((1 - s) ^ 2 * (1 - s / 2)) := by ring
    _ ≤ 1 * 0.95 := mul_le_mul hA hB (mul_nonneg (by positivity) (by linarith)) (by norm_num)
    _ = 0.95 := by norm_num

theorem mandel_fit_ge {e : ℝ} (h0 : 0.15 ≤ e) (h1 : e < 1) : 1 ≤ t_merge_mandel_fit e * peters_f e := by
  have he : 0 < e := by norm_num at h0; linarith
  have hs := one_sub_sq_pos' he.le h1
  have hc := corr_le h0 h1.le
  have hcp : 0 < corr e := lt_of_lt_of_le (by norm_num) (corr_ge h0 h1.le)
  rw [t_merge_mandel_fit_eq]
  unfold peters_f
  have hp : 0 < (1 - e ^ 2) ^ (7 / 2 : ℝ) := by positivity
  have hP : 1 ≤ 1 + (0.27 * e ^ 10) + (0.33 * e ^ 20) + (0.20 * e ^ 1000) := by
    have : 0 ≤ (0.27 * e ^ 10) + (0.33 * e ^ 20) + (0.20 * e ^ 1000) := by positivity
    linarith
  have hN : 1.06 ≤ 1 + 73 / 24 * e ^ 2 + 37 / 96 * e ^ 4 := by
    have : 0 ≤ 37 / 96 * e ^ 4 := by positivity
    nlinarith
  have : (1 + (0.27 * e ^ 10) + (0.33 * e ^ 20) + (0.20 * e ^ 1000)) * (1 - e ^ 2) ^ (7 / 2 : ℝ) / corr e
      * ((1 + 73 / 24 * e ^ 2 + 37 / 96 * e ^ 4) / (1 - e ^ 2) ^ (7 / 2 : ℝ))
      = (1 + (0.27 * e ^ 10) + (0.33 * e ^ 20) + (0.20 * e ^ 1000)) * (1 + 73 / 24 * e ^ 2 + 37 / 96 * e ^ 4)
        / corr e := by
    generalize 1 + (0.27 * e ^ 10) + (0.33 * e ^ 20) + (0.20 * e ^ 1000) = P
    field_simp
  rw [this, one_le_div hcp]
  nlinarith

end Legwork.evol
