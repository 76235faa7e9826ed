import Verif.Lemmas.UnitsUtils

/-!
# strain.py and psd.py on quantities
-/

namespace Legwork.units

open Real Legwork.Spec

variable {K : Consts}

theorem decompose_of {a : Val} {d : Dim} {x : ℝ} (h : Denotes a d x) (hq : ∃ q, a = .qty q) :
    a.decompose_value = .ok x := by
  obtain ⟨q, rfl⟩ := hq
  exact denotes_decompose h

theorem qty_mul_left {a b : Val} (h : ∃ q, a = .qty q) : ∃ q, a * b = .qty q := by
  obtain ⟨q, rfl⟩ := h
  cases b <;> exact ⟨_, rfl⟩

theorem qty_mul_right {a b : Val} (h : ∃ q, b = .qty q) : ∃ q, a * b = .qty q := by
  obtain ⟨q, rfl⟩ := h
  cases a <;> exact ⟨_, rfl⟩

theorem qty_div_left {a b : Val} (h : ∃ q, a = .qty q) : ∃ q, a / b = .qty q := by
  obtain ⟨q, rfl⟩ := h
  cases b <;> exact ⟨_, rfl⟩

theorem qty_pow {a : Val} {p : ℚ} (h : ∃ q, a = .qty q) : ∃ q, a ^ p = .qty q := by
  obtain ⟨q, rfl⟩ := h
  exact ⟨_, rfl⟩

theorem qty_G : ∃ q, G K = .qty q := ⟨_, rfl⟩

variable {ig : Option (ℤ → ℝ → ℝ)} {m_c dist f_orb : Val} {dm dd df : Dim} {x δ f e : ℝ} {n : ℤ}

/-- The strain is the SI number whatever the dimensions of the arguments. -/
theorem h_0_eq (hm : Denotes m_c dm x) (hd : Denotes dist dd δ) (hf : Denotes f_orb df f) :
    h_0 K ig m_c dist f_orb e n = .ok (strain.h_0_val K ig x δ f e n) := by
  unfold h_0
  have := decompose_of (denotes_mul (denotes_div (denotes_mul (denotes_mul (denotes_div (denotes_mul
    (denotes_num ((2 ^ (28 / 3 : ℝ) / 5) ^ (0.5 : ℝ))) (denotes_rpow (5 / 3) (denotes_G K)))
    (denotes_pow 4 (denotes_c K))) (denotes_rpow (5 / 3) hm))
    (denotes_rpow (2 / 3) (denotes_mul (denotes_num π) hf))) hd)
    (denotes_num (strain.g_vals ig n e ^ (1 / 2 : ℝ) / n)))
    (qty_mul_left (qty_div_left (qty_mul_left (qty_mul_left (qty_div_left (qty_mul_right (qty_pow qty_G)))))))
  refine this.trans ?_
  simp [strain.h_0_val]

theorem h_c_eq (hm : Denotes m_c dm x) (hd : Denotes dist dd δ) (hf : Denotes f_orb df f) :
    h_c K ig m_c dist f_orb e n = .ok (strain.h_c_val K ig x δ f e n) := by
  unfold h_c
  have := decompose_of (denotes_mul (denotes_div (denotes_mul (denotes_div (denotes_mul (denotes_div (denotes_mul
    (denotes_num ((2 ^ (5 / 3 : ℝ) / (3 * π ^ (4 / 3 : ℝ))) ^ (0.5 : ℝ))) (denotes_rpow (5 / 6) (denotes_G K)))
    (denotes_rpow (3 / 2) (denotes_c K))) (denotes_rpow (5 / 6) hm)) hd)
    (denotes_rpow (-1 / 6) hf)) (denotes_num (utils.peters_f e ^ (0.5 : ℝ))))
    (denotes_num ((strain.g_vals ig n e / n) ^ (1 / 2 : ℝ))))
    (qty_mul_left (qty_div_left (qty_mul_left (qty_div_left (qty_mul_left (qty_div_left (qty_mul_right
      (qty_pow qty_G))))))))
  refine this.trans ?_
  simp [strain.h_c_val]

/-! ## psd.py -/

theorem argmin_scale {k : ℝ} (hk : 0 < k) (xs : List ℝ) : psd.argmin (xs.map (k * ·)) = psd.argmin xs := by
  induction xs with
  | nil => rfl
  | cons x xs ih =>
    rw [List.map_cons]
    unfold psd.argmin
    rw [ih, List.getElem?_map]
    cases xs[psd.argmin xs]? with
    | none => rfl
    | some v => simp [hk]

theorem nearest_eq {t_obs : Val} {τ : ℝ} (ht : Denotes t_obs timeDim τ) (years : List ℝ) :
    nearest_length years t_obs = .ok (psd.nearest_length (years.map (· * psd.yr)) τ) := by
  obtain ⟨q, rfl, hd, rfl⟩ := qty_of_denotes ht time_ne
  have hs := q.unit.pos
  have e1 : ∀ y, (Val.qty q).sub (.qty ⟨y, yr⟩) =
      .ok (.qty ⟨q.value + -y * yr.scale / q.unit.scale, q.unit⟩) := fun y => by
    show ((Quantity.mk (-y) yr).to q.unit).map _ = _
    rw [to_ok (show yr.dim = q.unit.dim from hd.symm)]; rfl
  have h : ∀ years : List ℝ, (years.mapM fun y => (Val.qty q).sub (.qty ⟨y, yr⟩)) =
      .ok (years.map fun y => .qty ⟨q.value + -y * yr.scale / q.unit.scale, q.unit⟩) := by
    intro years
    induction years with
    | nil => rfl
    | cons y ys ih =>
      rw [List.mapM_cons, ih, e1]
      rfl
  have h2 : (years.map fun y => (Val.qty ⟨q.value + -y * yr.scale / q.unit.scale, q.unit⟩)).map Val.abs_number =
      (years.map fun y => |q.value * q.unit.scale - y * psd.yr|).map (q.unit.scale⁻¹ * ·) := by
    rw [List.map_map, List.map_map]
    refine List.map_congr_left fun y _ => ?_
    show |q.value + -y * psd.yr / q.unit.scale| = q.unit.scale⁻¹ * |_|
    rw [← abs_of_pos (inv_pos.2 hs), ← abs_mul]
    congr 1
    field_simp
    ring
  unfold nearest_length psd.nearest_length
  rw [h]
  show Except.ok (psd.argmin (List.map Val.abs_number _)) = _
  rw [h2, argmin_scale (inv_pos.2 hs), List.map_map]
  rfl

theorem hz_scale : Hz.scale = 1 := rfl
theorem perHz_scale : perHz.scale = 1 := div_one _

theorem valueIn_hz {v : Val} {x : ℝ} (h : Denotes v freqDim x) : v.valueIn Hz = .ok x := by
  rw [denotes_valueIn h freq_ne rfl, hz_scale, div_one]

variable {t_obs L f_low f_high : Val} {τ l lo hi : ℝ}

theorem robson_eq (hf : Denotes f_orb freqDim f) (ht : Denotes t_obs timeDim τ) :
    get_confusion_noise_robson19 f_orb t_obs = .ok (.qty ⟨psd.get_confusion_noise_robson19 f τ, perHz⟩) := by
  unfold get_confusion_noise_robson19
  rw [valueIn_hz hf, nearest_eq ht]
  rfl

theorem karnesis_eq (hf : Denotes f_orb freqDim f) (ht : Denotes t_obs timeDim τ) :
    get_confusion_noise_karnesis21 f_orb t_obs = .ok (.qty ⟨psd.get_confusion_noise_karnesis21 f τ, perHz⟩) := by
  unfold get_confusion_noise_karnesis21
  rw [valueIn_hz hf, denotes_valueIn ht time_ne rfl]
  rfl

theorem thiele_eq (hf : Denotes f_orb freqDim f) :
    get_confusion_noise_thiele21 f_orb = .ok (.qty ⟨psd.get_confusion_noise_thiele21 f, perHz⟩) := by
  unfold get_confusion_noise_thiele21
  have h4 : (Val.qty ⟨4, yr⟩).valueIn s = .ok (4 * psd.yr) := by
    have : Denotes (.qty ⟨4, yr⟩) timeDim (4 * psd.yr) := ⟨rfl, rfl⟩
    rw [denotes_valueIn this time_ne rfl]
    exact congrArg Except.ok (div_one _)
  rw [valueIn_hz hf]
  simp only [h4]
  rfl

theorem huang_eq (hf : Denotes f_orb freqDim f) (ht : Denotes t_obs timeDim τ) :
    ∃ v, get_confusion_noise_huang20 f_orb t_obs = .ok v ∧ Denotes v timeDim (psd.get_confusion_noise_huang20 f τ) ∧
      v.value = .ok (psd.get_confusion_noise_huang20 f τ) := by
  unfold get_confusion_noise_huang20
  rw [valueIn_hz hf, nearest_eq ht]
  have one_rpow : ∀ p : ℝ, (1 : ℝ) ^ p = 1 := Real.one_rpow
  refine ⟨_, rfl, ⟨?_, ?_⟩, ?_⟩
  · show (2 : ℚ) • (-1 / 2 : ℚ) • ((0, 0, -1) : Dim) = _
    dims
  · show _ ^ _ * ((1 : ℝ) ^ _) ^ _ = _
    rw [one_rpow, one_rpow, mul_one]
    norm_num [psd.get_confusion_noise_huang20]
  · show Except.ok (_ ^ _) = _
    norm_num [psd.get_confusion_noise_huang20]

theorem four_years_iff (ht : Denotes t_obs timeDim τ) : four_years t_obs = true ↔ τ = 4 * psd.yr := by
  obtain ⟨q, rfl, hd, rfl⟩ := qty_of_denotes ht time_ne
  show decide (q.unit.dim = yr.dim ∧ _) = true ↔ _
  rw [decide_eq_true_iff]
  exact ⟨fun h => h.2, fun h => ⟨hd, h⟩⟩

/-- The built-in confusion noise: the same number of 1/Hz, or the same error. -/
theorem noise_cases (hf : Denotes f_orb freqDim f) (ht : Denotes t_obs timeDim τ) (name : Option String) :
    (∃ v x, get_confusion_noise f_orb t_obs name = .ok v ∧ Denotes v timeDim x ∧ v.value = .ok x ∧
      psd.get_confusion_noise f name (.val τ) = .ok x) ∨
    (∃ err, get_confusion_noise f_orb t_obs name = .error err ∧ psd.get_confusion_noise f name (.val τ) = .error err) := by
  have per : ∀ x, Denotes (.qty ⟨x, perHz⟩) timeDim x := fun x => by
    refine ⟨?_, ?_⟩
    · show (0 : Dim) - (0, 0, -1) = _
      dims
    · rw [perHz_scale, mul_one]
  unfold get_confusion_noise psd.get_confusion_noise
  cases name with
  | none =>
    refine .inl ⟨.qty ⟨0, perHz⟩, 0, ?_, per _, rfl, rfl⟩
    simp only
    rw [valueIn_hz hf]; rfl
  | some m =>
    simp only
    split_ifs with h1 h2 h3 h4 h5 h6 h7
    · exact .inl ⟨_, _, robson_eq hf ht, per _, rfl, rfl⟩
    · obtain ⟨v, hv, hd, hv'⟩ := huang_eq hf ht
      exact .inl ⟨v, _, hv, hd, hv', rfl⟩
    · exact .inl ⟨_, _, thiele_eq hf, per _, rfl, rfl⟩
    · exact absurd ((four_years_iff ht).1 h4) h5
    · exact absurd ((four_years_iff ht).2 ‹_›) h4
    · exact .inr ⟨_, rfl, rfl⟩
    · exact .inl ⟨_, _, karnesis_eq hf ht, per _, rfl, rfl⟩
    · exact .inr ⟨_, rfl, rfl⟩

/-- The confusion noise argument of the SI model which corresponds to `noise` for LISA and DECIGO: the number in
whatever the function returns. -/
noncomputable def bareNoise (t_obs : Val) : Noise → psd.NoiseArg
  | .model none => .none
  | .model (some s) => .name s
  | .fn noise => .fn fun f _ => match f with
    | .bare f => noise (.num f) t_obs >>= Val.value
    | .quantity f => noise (.qty ⟨f, Hz⟩) t_obs >>= Val.value

theorem noise_bare_eq (ht : Denotes t_obs timeDim τ) (noise : Noise) :
    noise_bare f t_obs noise = psd.noise_bare f (.val τ) (bareNoise t_obs noise) := by
  have hf : Denotes (.qty ⟨f, Hz⟩) freqDim f := ⟨rfl, mul_one _⟩
  cases noise with
  | fn g => rfl
  | model name =>
    have key : (get_confusion_noise (.qty ⟨f, Hz⟩) t_obs name >>= fun v => v.value) =
        psd.get_confusion_noise f name (.val τ) := by
      rcases noise_cases hf ht name with ⟨v, x, h, -, hv, h'⟩ | ⟨err, h, h'⟩
      · rw [h, h']; exact hv
      · rw [h, h']; rfl
    cases name <;> exact key

theorem lisa_eq (env : psd.Env) (approx : Bool) (noise : Noise) (hf : Denotes f_orb freqDim f)
    (ht : Denotes t_obs timeDim τ) (hL : Denotes L lengthDim l) :
    lisa_psd K env f_orb t_obs L approx noise =
      psd.lisa_psd K env f (.val τ) l approx (bareNoise t_obs noise) := by
  have h1 : (c K / (.num (2 * π) * L)).valueIn Hz = .ok (K.c / (2 * π * l)) :=
    valueIn_hz (denotes_cast (denotes_div (denotes_c K) (denotes_mul (denotes_num _) hL)) (by dims) rfl)
  have h2 : L.valueIn m = .ok l := by
    rw [denotes_valueIn hL length_ne rfl]
    exact congrArg Except.ok (div_one _)
  unfold lisa_psd psd.lisa_psd
  rw [valueIn_hz hf, h1, h2]
  simp only [noise_bare_eq ht noise]
  rfl

theorem decigo_eq (noise : Noise) (hf : Denotes f_orb freqDim f) (ht : Denotes t_obs timeDim τ)
    (hlo : Denotes f_low freqDim lo) (hhi : Denotes f_high freqDim hi) :
    decigo_psd f_orb t_obs noise f_low f_high =
      psd.decigo_psd f (.val τ) (bareNoise t_obs noise) lo hi := by
  unfold decigo_psd psd.decigo_psd
  rw [valueIn_hz hf, valueIn_hz hlo, valueIn_hz hhi]
  simp only [← noise_bare_eq ht noise]
  rfl

/-- TianQin's instrument noise before the confusion noise is added. -/
noncomputable def tianqin_base (K : Consts) (f l : ℝ) : ℝ :=
  10 / (3 * l ^ 2) * (4 * 1e-30 / (2 * π * f) ^ 4 * (1 + 1e-4 / f) + 1e-24) * (1 + 0.6 * (f / (K.c / (2 * π * l))) ^ 2)

theorem tianqin_run (noise : Noise) (hf : Denotes f_orb freqDim f) (hL : Denotes L lengthDim l) :
    ∃ p, Denotes p timeDim (tianqin_base K f l) ∧ tianqin_psd K f_orb L t_obs noise =
      ((match noise with
        | .model name => get_confusion_noise f_orb t_obs name
        | .fn noise => noise f_orb t_obs) >>= fun cn => p.add cn >>= fun psd => psd.to (Hz ^ (-1 : ℚ))) := by
  have one_rpow : ∀ p : ℝ, (1 : ℝ) ^ p = 1 := Real.one_rpow
  have hstar := denotes_div (denotes_c K) (denotes_mul (denotes_num (2 * π)) hL)
  have hSa : Denotes (.qty ⟨1e-30, m ^ (2 : ℚ) * s ^ (-4 : ℚ) * Hz ^ (-1 : ℚ)⟩) (0, 2, -3) 1e-30 := by
    refine ⟨?_, ?_⟩
    · show (2 : ℚ) • ((0, 1, 0) : Dim) + (-4 : ℚ) • (0, 0, 1) + (-1 : ℚ) • (0, 0, -1) = _
      dims
    · show _ * ((1 : ℝ) ^ _ * (1 : ℝ) ^ _ * (1 : ℝ) ^ _) = _
      simp only [one_rpow, mul_one]
  have hSx : Denotes (.qty ⟨1e-24, m ^ (2 : ℚ) * Hz ^ (-1 : ℚ)⟩) (0, 2, 1) 1e-24 := by
    refine ⟨?_, ?_⟩
    · show (2 : ℚ) • ((0, 1, 0) : Dim) + (-1 : ℚ) • (0, 0, -1) = _
      dims
    · show _ * ((1 : ℝ) ^ _ * (1 : ℝ) ^ _) = _
      simp only [one_rpow, mul_one]
  have h4 : Denotes (.qty ⟨1e-4, Hz⟩) freqDim 1e-4 := ⟨rfl, mul_one _⟩
  obtain ⟨o, ho, hod⟩ := denotes_add (denotes_num 1) (denotes_cast (denotes_div h4 hf) (sub_self _) rfl)
  obtain ⟨w, hw, hwd⟩ := denotes_add (denotes_cast (denotes_mul (denotes_div (denotes_mul (denotes_num 4) hSa)
    (denotes_pow 4 (denotes_mul (denotes_num (2 * π)) hf))) hod) (by dims) rfl) hSx
  obtain ⟨r, hr, hrd⟩ := denotes_add (denotes_num 1) (denotes_cast (denotes_mul (denotes_num 0.6)
    (denotes_pow 2 (denotes_div hf hstar))) (by dims) rfl)
  refine ⟨_, denotes_cast (denotes_mul (denotes_mul (denotes_div (denotes_num 10) (denotes_mul (denotes_num 3)
    (denotes_pow 2 hL))) hwd) hrd) (by dims) rfl, ?_⟩
  have hw' : (Val.num 4 * .qty ⟨1e-30, m ^ (2 : ℚ) * s ^ (-4 : ℚ) * Hz ^ (-1 : ℚ)⟩ / (.num (2 * π) * f_orb) ^ (4 : ℚ) * o).add
    (.qty ⟨1e-24, m ^ (2 : ℚ) * Hz ^ (-1 : ℚ)⟩) = .ok w := hw
  have hr' : (Val.num 1).add (.num 0.6 * (f_orb / (c K / (.num (2 * π) * L))) ^ (2 : ℚ)) = .ok r := hr
  unfold tianqin_psd
  simp only [ho, hr']
  show ((Val.num 4 * .qty ⟨1e-30, m ^ (2 : ℚ) * s ^ (-4 : ℚ) * Hz ^ (-1 : ℚ)⟩ / (.num (2 * π) * f_orb) ^ (4 : ℚ) * o).add
    (.qty ⟨1e-24, m ^ (2 : ℚ) * Hz ^ (-1 : ℚ)⟩) >>= _) = _
  rw [hw']
  cases noise <;> rfl

theorem tianqin_cn {p cn : Val} {x y : ℝ} (hp : Denotes p timeDim x) (hc : Denotes cn timeDim y) :
    (p.add cn >>= fun psd => psd.to (Hz ^ (-1 : ℚ))) = .ok (.qty ⟨x + y, Hz ^ (-1 : ℚ)⟩) := by
  obtain ⟨r, hr, hd⟩ := denotes_add hp hc
  have hdim : timeDim = (Hz ^ (-1 : ℚ)).dim := by
    show _ = (-1 : ℚ) • ((0, 0, -1) : Dim)
    dims
  have hs : (Hz ^ (-1 : ℚ)).scale = 1 := Real.one_rpow _
  rw [hr]
  refine (denotes_to hd time_ne hdim).trans ?_
  rw [hs, div_one]

/-- A named model or none. -/
def named : Option String → psd.NoiseArg
  | none => .none
  | some s => .name s

theorem tianqin_eq (name : Option String) (hf : Denotes f_orb freqDim f) (ht : Denotes t_obs timeDim τ)
    (hL : Denotes L lengthDim l) :
    (∃ r : ℝ, psd.tianqin_psd K f l (.val τ) (named name) = .ok r ∧
      tianqin_psd K f_orb L t_obs (.model name) = .ok (.qty ⟨r, Hz ^ (-1 : ℚ)⟩)) ∨
    (∃ err, psd.tianqin_psd K f l (.val τ) (named name) = .error err ∧
      tianqin_psd K f_orb L t_obs (.model name) = .error err) := by
  obtain ⟨p, hp, hrun⟩ := tianqin_run (K := K) (t_obs := t_obs) (.model name) hf hL
  have hSI : psd.tianqin_psd K f l (.val τ) (named name) =
      (psd.get_confusion_noise f name (.val τ) >>= fun cn => pure ((tianqin_base K f l + cn : ℝ) : WithTop ℝ)) := by
    cases name <;> rfl
  rw [hrun, hSI]
  rcases noise_cases hf ht name with ⟨v, x, h, hd, -, h'⟩ | ⟨err, h, h'⟩
  · refine .inl ⟨tianqin_base K f l + x, ?_, ?_⟩
    · rw [h']; rfl
    · simp only [h]; exact tianqin_cn hp hd
  · refine .inr ⟨err, ?_, ?_⟩
    · rw [h']; rfl
    · simp only [h]; rfl

theorem tianqin_fn_eq (noise : Val → Val → Except PyErr Val) {v : Val} {y : ℝ} (hn : noise f_orb t_obs = .ok v)
    (hv : Denotes v timeDim y) (hf : Denotes f_orb freqDim f) (hL : Denotes L lengthDim l) :
    tianqin_psd K f_orb L t_obs (.fn noise) = .ok (.qty ⟨tianqin_base K f l + y, Hz ^ (-1 : ℚ)⟩) := by
  obtain ⟨p, hp, hrun⟩ := tianqin_run (K := K) (t_obs := t_obs) (.fn noise) hf hL
  rw [hrun]
  simp only [hn]
  exact tianqin_cn hp hv

end Legwork.units
