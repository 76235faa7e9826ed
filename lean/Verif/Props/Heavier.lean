import Verif.Lemmas.SnrScale
import Verif.Props.Cached
import Verif.Props.MergerOrder
import Verif.Props.Quieter
import Verif.Props.Stricter

/-!
# Heavier and tighter binaries merge sooner and are louder: C113
-/

namespace Legwork.Props

open Real Legwork.utils Legwork.evol Legwork.Spec Legwork.source Legwork.snr Legwork.strain

variable {ι : Type*}

/-- Every branch is the merger time of the circular binary times a function of the eccentricity. -/
private lemma t_val_factor (a b e s l : ℝ) (ex : Bool) : t_val a b e s l ex = a ^ 4 / (4 * b) * (4 * t_val 1 1 e s l ex) := by
  have hc : c_0 a e = a * c_0 1 e := by unfold c_0; ring
  unfold t_val
  split_ifs
  · ring
  · unfold t_small
    rw [hc]
    ring
  · unfold t_large
    rw [hc]
    ring
  · unfold t_exact
    rw [hc]
    ring
  · unfold t_fit
    ring

/-- **C113** (eccentricity factor). Whatever the tolerances, and by quadrature or by the fit: the merger time is the one of the
circular binary with the same masses and separation, times a factor that depends on the eccentricity alone. -/
theorem C113_factor {s l : ℝ} (hs : 0 < s) (hsl : s ≤ l) (ex : Bool) : ∃ φ : ℝ → ℝ, ∀ (ι : Type) (K : Consts) (ecc : ι → ℝ)
    (a f b m₁ m₂ : Option (ι → ℝ)) (Tc : ι → ℝ), (∀ i, 0 ≤ ecc i) → get_t_merge_circ K b m₁ m₂ a f = .ok Tc →
      get_t_merge_ecc K ecc a f b m₁ m₂ s l ex = .ok fun i => Tc i * φ (ecc i) := by
  refine ⟨fun e => 4 * t_val 1 1 e s l ex, fun ι K ecc a f b m₁ m₂ Tc h0 hc => ?_⟩
  obtain ⟨⟨b', a'⟩, hin⟩ : ∃ p, check_mass_freq_input K b m₁ m₂ a f = .ok p := by
    unfold get_t_merge_circ at hc
    rcases hch : check_mass_freq_input K b m₁ m₂ a f with e | p
    · rw [hch] at hc
      cases hc
    · exact ⟨p, rfl⟩
  have hTc : Tc = fun i => a' i ^ 4 / (4 * b' i) := by
    simp only [get_t_merge_circ, hin, bind, Except.bind, pure, Except.pure] at hc
    injection hc with hc
    exact hc.symm
  rw [get_t_merge_ecc_of_check K ex hin hs hsl h0, hTc]
  exact congrArg Except.ok (funext fun i => t_val_factor _ _ _ _ _ _)

private lemma circ_time_law (K : Consts) {m₁ m₂ f : ℝ} (h₁ : 0 < m₁) (h₂ : 0 < m₂) (hf : 0 < f) :
    get_a_from_f_orb K f m₁ m₂ ^ 4 / (4 * utils.beta K m₁ m₂) * (chirp_mass m₁ m₂ ^ (5 / 3 : ℝ) * f ^ (8 / 3 : ℝ)) =
      5 / 256 * K.c ^ 5 / (K.G ^ (5 / 3 : ℝ) * (2 * π) ^ (8 / 3 : ℝ)) := by
  have hG := K.G_pos
  have hc := K.c_pos
  have hM : 0 < m₁ + m₂ := by positivity
  have hμ : 0 < m₁ * m₂ := by positivity
  have hp : (0 : ℝ) < 2 * π := by positivity
  have e1 : get_a_from_f_orb K f m₁ m₂ ^ 4 =
      K.G ^ (4 / 3 : ℝ) * (m₁ + m₂) ^ (4 / 3 : ℝ) / ((2 * π) ^ (8 / 3 : ℝ) * f ^ (8 / 3 : ℝ)) := by
    unfold get_a_from_f_orb
    rw [← rpow_natCast, ← rpow_mul (by positivity), div_rpow (by positivity) (by positivity), mul_rpow hG.le hM.le,
      ← rpow_natCast (2 * π * f) 2, ← rpow_mul (by positivity), mul_rpow hp.le hf.le]
    norm_num
  have e2 : chirp_mass m₁ m₂ ^ (5 / 3 : ℝ) = m₁ * m₂ / (m₁ + m₂) ^ (1 / 3 : ℝ) := by
    unfold chirp_mass
    rw [div_rpow (by positivity) (by positivity), ← rpow_mul hμ.le, ← rpow_mul hM.le]
    norm_num
  have e3 : (m₁ + m₂) ^ (4 / 3 : ℝ) = (m₁ + m₂) * (m₁ + m₂) ^ (1 / 3 : ℝ) := by
    rw [← rpow_one_add' hM.le (by norm_num)]
    norm_num
  have e4 : K.G ^ 3 = K.G ^ (4 / 3 : ℝ) * K.G ^ (5 / 3 : ℝ) := by
    rw [← rpow_add hG, ← rpow_natCast]
    norm_num
  have p1 := rpow_pos_of_pos hM (1 / 3 : ℝ)
  have p2 := rpow_pos_of_pos hG (4 / 3 : ℝ)
  have p3 := rpow_pos_of_pos hG (5 / 3 : ℝ)
  have p4 := rpow_pos_of_pos hf (8 / 3 : ℝ)
  have p5 := rpow_pos_of_pos hp (8 / 3 : ℝ)
  unfold utils.beta
  rw [e1, e2, e3, e4]
  field_simp
  norm_num

/-- **C113** (chirp mass). Merger times depend on the masses through the chirp mass only: binaries with the same eccentricity
have merger times in inverse proportion to `m_c^(5/3) f_orb^(8/3)`. -/
theorem C113_chirp_mass (K : Consts) {ecc m₁ m₂ f T : ι → ℝ} {s l : ℝ} (hs : 0 < s) (hsl : s ≤ l) {ex : Bool}
    (h₁ : ∀ i, 0 < m₁ i) (h₂ : ∀ i, 0 < m₂ i) (hf : ∀ i, 0 < f i) (h0 : ∀ i, 0 ≤ ecc i)
    (hT : get_t_merge_ecc K ecc none (some f) none (some m₁) (some m₂) s l ex = .ok T) {i j : ι} (he : ecc i = ecc j) :
    T i * (chirp_mass (m₁ i) (m₂ i) ^ (5 / 3 : ℝ) * f i ^ (8 / 3 : ℝ)) =
      T j * (chirp_mass (m₁ j) (m₂ j) ^ (5 / 3 : ℝ) * f j ^ (8 / 3 : ℝ)) := by
  rw [get_t_merge_ecc_of_check K ex (b' := fun i => utils.beta K (m₁ i) (m₂ i))
    (a' := fun i => get_a_from_f_orb K (f i) (m₁ i) (m₂ i)) rfl hs hsl h0] at hT
  injection hT with hT
  subst hT
  have e1 := circ_time_law K (h₁ i) (h₂ i) (hf i)
  have e2 := circ_time_law K (h₁ j) (h₂ j) (hf j)
  simp only
  rw [t_val_factor, t_val_factor (get_a_from_f_orb K (f j) (m₁ j) (m₂ j)), he, mul_right_comm, e1, mul_right_comm, e2]

/-- The chirp mass does not decrease with the masses. -/
private lemma chirp_mono {m₁ m₂ m₁' m₂' : ℝ} (h₁ : 0 < m₁) (h₂ : 0 < m₂) (l₁ : m₁ ≤ m₁') (l₂ : m₂ ≤ m₂') :
    chirp_mass m₁ m₂ ≤ chirp_mass m₁' m₂' ∧ (m₁ < m₁' ∨ m₂ < m₂' → chirp_mass m₁ m₂ < chirp_mass m₁' m₂') := by
  have h₁' := h₁.trans_le l₁
  have a1 : chirp_mass m₁ m₂ ≤ chirp_mass m₁' m₂ := by
    rcases l₁.eq_or_lt with rfl | l
    · exact le_rfl
    · exact (C03_strictMono_left h₁ l h₂).le
  have a2 : chirp_mass m₁' m₂ ≤ chirp_mass m₁' m₂' := by
    rcases l₂.eq_or_lt with rfl | l
    · exact le_rfl
    · exact (C03_strictMono_right h₁' h₂ l).le
  refine ⟨a1.trans a2, ?_⟩
  rintro (l | l)
  · exact (C03_strictMono_left h₁ l h₂).trans_le a2
  · exact a1.trans_lt (C03_strictMono_right h₁' h₂ l)

/-- **C113** (sooner). Of two binaries with the same eccentricity, neither mass and not the orbital frequency of the second
being smaller, the second one merges no later, and sooner unless all three are the same. -/
theorem C113_sooner (K : Consts) {ecc m₁ m₂ f : ι → ℝ} (ex : Bool) (h₁ : ∀ i, 0 < m₁ i) (h₂ : ∀ i, 0 < m₂ i)
    (hf : ∀ i, 0 < f i) (h0 : ∀ i, 0 ≤ ecc i) (h1 : ∀ i, ecc i < 1) :
    ∃ T, get_t_merge_ecc K ecc none (some f) none (some m₁) (some m₂) 0.15 (1 - 1e-4) ex = .ok T ∧
      ∀ i j, ecc i = ecc j → m₁ i ≤ m₁ j → m₂ i ≤ m₂ j → f i ≤ f j →
        0 < T j ∧ T j ≤ T i ∧ (m₁ i < m₁ j ∨ m₂ i < m₂ j ∨ f i < f j → T j < T i) := by
  have hrun := get_t_merge_ecc_of_check K (ecc := ecc) (s := 0.15) (l := 1 - 1e-4) ex
    (b' := fun i => utils.beta K (m₁ i) (m₂ i)) (a' := fun i => get_a_from_f_orb K (f i) (m₁ i) (m₂ i))
    (a := none) (f := some f) (b := none) (m₁ := some m₁) (m₂ := some m₂) rfl (by norm_num) (by norm_num) h0
  refine ⟨_, hrun, fun i j he l₁ l₂ lf => ?_⟩
  have hlaw := C113_chirp_mass K (by norm_num) (by norm_num) h₁ h₂ hf h0 hrun he
  have pos : ∀ i, 0 < t_val (get_a_from_f_orb K (f i) (m₁ i) (m₂ i)) (utils.beta K (m₁ i) (m₂ i)) (ecc i) 0.15 (1 - 1e-4) ex :=
    fun i => (t_val_bounds (beta_pos K (h₁ i) (h₂ i)) (get_a_from_f_orb_pos K (hf i) (h₁ i) (h₂ i)) (h0 i) (h1 i) ex).1
  beta_reduce at hlaw ⊢
  obtain ⟨c1, c2⟩ := chirp_mono (h₁ i) (h₂ i) l₁ l₂
  have pc := C03_pos (h₁ i) (h₂ i)
  have g1 := rpow_le_rpow pc.le c1 (by norm_num : (0 : ℝ) ≤ 5 / 3)
  have g2 := rpow_le_rpow (hf i).le lf (by norm_num : (0 : ℝ) ≤ 8 / 3)
  have q1 := rpow_pos_of_pos pc (5 / 3 : ℝ)
  have q2 := rpow_pos_of_pos (hf i) (8 / 3 : ℝ)
  have hle := mul_le_mul g1 g2 q2.le (q1.le.trans g1)
  have key : ∀ {a b x y : ℝ}, 0 < a → 0 < b → 0 < x → a * x = b * y → (x ≤ y → b ≤ a) ∧ (x < y → b < a) := by
    intro a b x y ha hb hx h
    constructor
    · intro hxy
      by_contra hn
      push Not at hn
      have := mul_lt_mul hn hxy hx hb.le
      linarith
    · intro hxy
      by_contra hn
      push Not at hn
      have := mul_lt_mul' hn hxy hx.le hb
      linarith
  obtain ⟨k1, k2⟩ := key (pos i) (pos j) (mul_pos q1 q2) hlaw
  refine ⟨pos j, k1 hle, fun hlt => k2 ?_⟩
  rcases hlt with hlt | hlt | hlt
  · exact mul_lt_mul (rpow_lt_rpow pc.le (c2 (.inl hlt)) (by norm_num)) g2 q2 (q1.le.trans g1)
  · exact mul_lt_mul (rpow_lt_rpow pc.le (c2 (.inr hlt)) (by norm_num)) g2 q2 (q1.le.trans g1)
  · exact mul_lt_mul' g1 (rpow_lt_rpow (hf i).le hlt (by norm_num)) q2.le (q1.trans_le g1)

/-- **C113** (separations). The same for binaries given by their separation: with the same eccentricity, masses that are no
smaller and a separation that is no larger, the second one merges no later. -/
theorem C113_tighter (K : Consts) {ecc m₁ m₂ a : ι → ℝ} (ex : Bool) (h₁ : ∀ i, 0 < m₁ i) (h₂ : ∀ i, 0 < m₂ i)
    (ha : ∀ i, 0 < a i) (h0 : ∀ i, 0 ≤ ecc i) (h1 : ∀ i, ecc i < 1) :
    ∃ T, get_t_merge_ecc K ecc (some a) none none (some m₁) (some m₂) 0.15 (1 - 1e-4) ex = .ok T ∧
      ∀ i j, ecc i = ecc j → m₁ i ≤ m₁ j → m₂ i ≤ m₂ j → a j ≤ a i →
        0 < T j ∧ T j ≤ T i ∧ (m₁ i < m₁ j ∨ m₂ i < m₂ j ∨ a j < a i → T j < T i) := by
  have hrun := get_t_merge_ecc_of_check K (ecc := ecc) (s := 0.15) (l := 1 - 1e-4) ex
    (b' := fun i => utils.beta K (m₁ i) (m₂ i)) (a' := a) (a := some a) (f := none) (b := none) (m₁ := some m₁)
    (m₂ := some m₂) rfl (by norm_num) (by norm_num) h0
  refine ⟨_, hrun, fun i j he l₁ l₂ la => ?_⟩
  have pos : ∀ i, 0 < t_val (a i) (utils.beta K (m₁ i) (m₂ i)) (ecc i) 0.15 (1 - 1e-4) ex :=
    fun i => (t_val_bounds (beta_pos K (h₁ i) (h₂ i)) (ha i) (h0 i) (h1 i) ex).1
  have pφ := (t_val_bounds (a := 1) (b := 1) one_pos one_pos (h0 j) (h1 j) ex).1
  have hG := K.G_pos
  have hc := K.c_pos
  have bi := beta_pos K (h₁ i) (h₂ i)
  have bj := beta_pos K (h₁ j) (h₂ j)
  have hk : 0 < 64 / 5 * K.G ^ 3 / K.c ^ 5 := by positivity
  have mm : m₁ i * m₂ i ≤ m₁ j * m₂ j := mul_le_mul l₁ l₂ (h₂ i).le (h₁ j).le
  have pm : 0 < m₁ i * m₂ i := mul_pos (h₁ i) (h₂ i)
  have hb : utils.beta K (m₁ i) (m₂ i) ≤ utils.beta K (m₁ j) (m₂ j) := by
    have := mul_le_mul mm (add_le_add l₁ l₂) (add_pos (h₁ i) (h₂ i)).le (pm.le.trans mm)
    have := mul_le_mul_of_nonneg_left this hk.le
    unfold utils.beta
    linarith
  have hb' : m₁ i < m₁ j ∨ m₂ i < m₂ j → utils.beta K (m₁ i) (m₂ i) < utils.beta K (m₁ j) (m₂ j) := by
    intro h
    have hs : m₁ i + m₂ i < m₁ j + m₂ j := by rcases h with h | h <;> linarith
    have := mul_lt_mul' mm hs (add_pos (h₁ i) (h₂ i)).le (pm.trans_le mm)
    have := mul_lt_mul_of_pos_left this hk
    unfold utils.beta
    linarith
  have p4 : a j ^ 4 ≤ a i ^ 4 := pow_le_pow_left₀ (ha j).le la 4
  have pj : 0 < a j ^ 4 := pow_pos (ha j) 4
  refine ⟨pos j, ?_, fun hlt => ?_⟩
  · beta_reduce
    rw [t_val_factor, t_val_factor (a i), he]
    exact mul_le_mul_of_nonneg_right (div_le_div₀ (pj.le.trans p4) p4 (by positivity) (by linarith)) (by positivity)
  · beta_reduce
    rw [t_val_factor, t_val_factor (a i), he]
    refine mul_lt_mul_of_pos_right ?_ (by positivity)
    rcases hlt with h | h | h
    · exact div_lt_div₀' p4 (by linarith [hb' (.inl h)]) (pj.trans_le p4) (by positivity)
    · exact div_lt_div₀' p4 (by linarith [hb' (.inr h)]) (pj.trans_le p4) (by positivity)
    · exact div_lt_div₀ (pow_lt_pow_left₀ h (ha j).le (by norm_num)) (by linarith) (pj.le.trans p4) (by positivity)

/-- **C113** (collections). The same for `Source.get_merger_time`. -/
theorem C113_sources (K : Consts) {ex : Bool} {x y : One} {t t' : ℝ} (ht : MergerTimeOf K ex x t) (ht' : MergerTimeOf K ex y t')
    (hm : x.merged = false) (hm' : y.merged = false) (he : y.ecc = x.ecc) (l₁ : x.m_1 ≤ y.m_1) (l₂ : x.m_2 ≤ y.m_2)
    (lf : x.f_orb ≤ y.f_orb) (h₁ : 0 < x.m_1) (h₂ : 0 < x.m_2) (hf : 0 < x.f_orb) (h0 : 0 ≤ x.ecc) (h1 : x.ecc < 1) :
    0 < t' ∧ t' ≤ t ∧ (x.m_1 < y.m_1 ∨ x.m_2 < y.m_2 ∨ x.f_orb < y.f_orb → t' < t) ∧
      t * (x.m_c ^ (5 / 3 : ℝ) * x.f_orb ^ (8 / 3 : ℝ)) = t' * (y.m_c ^ (5 / 3 : ℝ) * y.f_orb ^ (8 / 3 : ℝ)) := by
  unfold MergerTimeOf at ht ht'
  rw [if_neg (by simp [hm])] at ht
  rw [if_neg (by simp [hm'])] at ht'
  let z : Bool → One := fun b => bif b then y else x
  have p₁ : ∀ b, 0 < (z b).m_1 := by rintro (_ | _); exacts [h₁, h₁.trans_le l₁]
  have p₂ : ∀ b, 0 < (z b).m_2 := by rintro (_ | _); exacts [h₂, h₂.trans_le l₂]
  have pf : ∀ b, 0 < (z b).f_orb := by rintro (_ | _); exacts [hf, hf.trans_le lf]
  have p0 : ∀ b, 0 ≤ (z b).ecc := by rintro (_ | _); exacts [h0, h0.trans_eq he.symm]
  have p1 : ∀ b, (z b).ecc < 1 := by rintro (_ | _); exacts [h1, he.trans_lt h1]
  obtain ⟨T, hT, hall⟩ := C113_sooner K ex p₁ p₂ pf p0 p1
  have hone : ∀ (w : One) (u : ℝ), 0 ≤ w.ecc → get_t_merge_ecc K (fun _ : Unit => w.ecc) none (some fun _ => w.f_orb) none
      (some fun _ => w.m_1) (some fun _ => w.m_2) 0.15 (1 - 1e-4) ex = .ok (fun _ => u) →
      u = t_val (get_a_from_f_orb K w.f_orb w.m_1 w.m_2) (utils.beta K w.m_1 w.m_2) w.ecc 0.15 (1 - 1e-4) ex := by
    intro w u hw h
    rw [get_t_merge_ecc_of_check K ex rfl (by norm_num) (by norm_num) fun _ => hw] at h
    injection h with h
    exact (congrFun h ()).symm
  have hlaw := C113_chirp_mass K (by norm_num) (by norm_num) p₁ p₂ pf p0 hT (i := false) (j := true) he.symm
  have hb := hall false true he.symm l₁ l₂ lf
  rw [get_t_merge_ecc_of_check K ex rfl (by norm_num) (by norm_num) p0] at hT
  injection hT with hT
  have ex1 : T false = t := by
    rw [hone x t h0 ht, ← hT]
    rfl
  have ex2 : T true = t' := by
    rw [hone y t' (h0.trans_eq he.symm) ht', ← hT]
    rfl
  rw [ex1, ex2] at hb hlaw
  exact ⟨hb.1, hb.2.1, hb.2.2, hlaw⟩

/-! ### Signal-to-noise ratios -/

private lemma h_0_val_law (K : Consts) (ig : Option (ℤ → ℝ → ℝ)) {m m' d d' : ℝ}
    (h : m' ^ (5 / 3 : ℝ) / d' = m ^ (5 / 3 : ℝ) / d) (f e : ℝ) (n : ℤ) : h_0_val K ig m' d' f e n = h_0_val K ig m d f e n := by
  unfold h_0_val
  simp only
  have : ∀ p x : ℝ, p * m' ^ (5 / 3 : ℝ) * x / d' = p * m ^ (5 / 3 : ℝ) * x / d := by
    intro p x
    have e : p * (m' ^ (5 / 3 : ℝ) / d') * x = p * (m ^ (5 / 3 : ℝ) / d) * x := by rw [h]
    linear_combination e
  rw [this]

private lemma stat_law {C : Ctx} {S : Settings} {x y : One} (hf : y.f_orb = x.f_orb) (he : y.ecc = x.ecc)
    (ho : y.orient = x.orient) (h : y.m_c ^ (5 / 3 : ℝ) / y.dist = x.m_c ^ (5 / 3 : ℝ) / x.dist) :
    statOne C S y = statOne C S x := by
  have hv := fun f e n => h_0_val_law C.K C.interpolated_g h f e n
  unfold statOne one1
  have e1 : circ1 C y.circ = circ1 C x.circ := by
    unfold circ1 One.circ
    simp only [hf, ho, hv]
  have e2 : ∀ H, ecc1 C H y.eccentric = ecc1 C H x.eccentric := by
    intro H
    unfold ecc1 One.eccentric
    simp only [hf, he, hv]
  simp only [e1, e2, he]

private lemma stat_nonneg {C : Ctx} {S : Settings} {x : One} {z : ℝ} {k : ℕ} (h : statOne C S x = .ok (some z, k)) : 0 ≤ z := by
  have hsq : ∀ {y : ℝ}, sqrt? y = some z → 0 ≤ z := by
    intro y hy
    unfold sqrt? at hy
    split_ifs at hy with h0
    injection hy with hy
    rw [← hy]
    exact rpow_nonneg (not_lt.1 h0) _
  unfold statOne at h
  rw [one1_spec] at h
  rcases le_or_gt x.ecc S.ecc_tol with hle | hlt
  · have h1 := (h.1 hle).1
    unfold circ1 at h1
    obtain ⟨_, -, h1⟩ := except_bind_ok.1 h1
    obtain ⟨_, -, h1⟩ := except_bind_ok.1 h1
    exact hsq (Except.ok.inj h1)
  · obtain ⟨h1, h2⟩ := h.2 hlt
    by_cases hH : ∃ H, HarmonicLimit (S.harmonics_required x.ecc) H
    · obtain ⟨H, hH⟩ := hH
      have h3 := h1 H hH
      unfold ecc1 at h3
      obtain ⟨_, -, h3⟩ := except_bind_ok.1 h3
      have h4 := Except.ok.inj h3
      exact hsq (congrArg Prod.fst h4)
    · have := (h2 hH).1
      injection this with this
      exact this.ge

/-- **C113** (louder). In one call of `get_snr`, take two unmerged sources with the same orbit frequency, eccentricity, sky
position, inclination and polarisation, both stationary over the observation. Their SNRs are proportional to
`m_c^(5/3) / dist`. In particular, if the second is at least as heavy in both masses and at most as far, its SNR is at least
as large. -/
theorem C113_louder {W : World} {s n r : ℕ} {h h' : Heap} {a : SnrArgs} {ws : Option (List Bool)}
    (hcls : (h.src s).cls = .Source ∨ (h.src s).cls = .VerificationBinaries) (hn : n ≠ 0)
    (hs : CompleteSchedule W (h.src s)) (hr : Rect (h.src s).cols) (hw : FitsMask (h.src s).cols ws)
    (hrun : get_snr W s a n ws h = (.ok r, h')) {i j : ℕ} {x y : One} (hi : (rows (h.src s).cols)[i]? = some x)
    (hj : (rows (h.src s).cols)[j]? = some y) (hci : Chosen ws i) (hcj : Chosen ws j) (hmx : x.merged = false)
    (hmy : y.merged = false) (hf : y.f_orb = x.f_orb) (he : y.ecc = x.ecc) (hpos : y.position = x.position)
    (hinc : y.inclination = x.inclination) (hpol : y.polarisation = x.polarisation) (hdx : 0 < x.dist) (hdy : 0 < y.dist)
    (h1 : 0 < x.m_1) (h2 : 0 < x.m_2) (h1' : 0 < y.m_1) (h2' : 0 < y.m_2)
    (hst : ∀ C, CallCtx W h' s C → x.StationaryOver W.K C.t_obs (h'.src s).stat_tol ∧
      y.StationaryOver W.K C.t_obs (h'.src s).stat_tol) :
    ∃ v, (h'.snrs r)[i]? = some v ∧
      (h'.snrs r)[j]? = some (v.map fun z => z * ((y.m_c / x.m_c) ^ (5 / 3 : ℝ) * (x.dist / y.dist))) ∧
      ∀ z, v = some z → x.m_1 ≤ y.m_1 → x.m_2 ≤ y.m_2 → y.dist ≤ x.dist →
        ∃ z', (h'.snrs r)[j]? = some (some z') ∧ 0 ≤ z ∧ z ≤ z' := by
  obtain ⟨-, -, -, hall⟩ := C36_get_snr hcls hn hs hr hw hrun
  obtain ⟨v, harm, r₁, hv, -, -, C, tol, q, hC, htol, hq, hS, -⟩ := (hall i x hi).2 hmx hci
  obtain ⟨u, harm', r₂, hu, -, -, C', tol', q', hC', htol', hq', hS', -⟩ := (hall j y hj).2 hmy hcj
  cases callCtx_unique hC hC'
  rw [htol] at htol'
  cases htol'
  rw [hq] at hq'
  cases hq'
  have hX : 0 < x.m_c := C03_pos h1 h2
  have hY : 0 < y.m_c := C03_pos h1' h2'
  have pX := rpow_pos_of_pos hX (5 / 3 : ℝ)
  have pY := rpow_pos_of_pos hY (5 / 3 : ℝ)
  have sx := (statOne_iff (S := ⟨tol, q, 1⟩) (p := (v, harm))).2 (hS (hst C hC).1)
  have sy := (statOne_iff (S := ⟨tol, q, 1⟩) (p := (u, harm'))).2 (hS' (hst C hC).2)
  have hκ : 0 < (x.m_c / y.m_c) ^ (5 / 3 : ℝ) * (y.dist / x.dist) := by positivity
  have sz := stat_dist hκ sx
  have hor : y.orient = x.orient := by unfold One.orient; rw [hpos, hinc, hpol]
  rw [stat_law (x := { x with dist := (x.m_c / y.m_c) ^ (5 / 3 : ℝ) * (y.dist / x.dist) * x.dist }) hf he hor (by
    change y.m_c ^ (5 / 3 : ℝ) / y.dist = x.m_c ^ (5 / 3 : ℝ) / ((x.m_c / y.m_c) ^ (5 / 3 : ℝ) * (y.dist / x.dist) * x.dist)
    rw [div_rpow hX.le hY.le]
    field_simp)] at sy
  rw [sz] at sy
  injection sy with sy
  injection sy with sy _
  have hinv : ((x.m_c / y.m_c) ^ (5 / 3 : ℝ) * (y.dist / x.dist))⁻¹ = (y.m_c / x.m_c) ^ (5 / 3 : ℝ) * (x.dist / y.dist) := by
    rw [mul_inv, ← inv_rpow (by positivity), inv_div, inv_div]
  rw [hinv] at sy
  have hju : (h'.snrs r)[j]? = some (v.map fun z => z * ((y.m_c / x.m_c) ^ (5 / 3 : ℝ) * (x.dist / y.dist))) := by
    rw [hu, ← sy]
    simp only [mul_comm]
  refine ⟨v, hv, hju, ?_⟩
  rintro z rfl l₁ l₂ ld
  have hz := stat_nonneg sx
  refine ⟨_, hju, hz, le_mul_of_one_le_right hz ?_⟩
  have c1 := (chirp_mono h1 h2 l₁ l₂).1
  have g1 : (1 : ℝ) ≤ (y.m_c / x.m_c) ^ (5 / 3 : ℝ) := one_le_rpow ((one_le_div hX).2 c1) (by norm_num)
  have g2 : 1 ≤ x.dist / y.dist := (one_le_div hdy).2 ld
  nlinarith

/-! ### Examples -/

/-- Non-vacuity of the theorems on merger times: binaries with eccentricity 0.3 at 1 mHz, the second twice as heavy. -/
example : ∃ T : Bool → ℝ, get_t_merge_ecc Consts.codata2018 (fun _ => 0.3) none (some fun _ => 1e-3) none
    (some fun b => bif b then 2e30 else 1e30) (some fun b => bif b then 2e30 else 1e30) 0.15 (1 - 1e-4) true = .ok T ∧
    0 < T true ∧ T true < T false := by
  have hm : ∀ b : Bool, (0 : ℝ) < bif b then 2e30 else 1e30 := by rintro (_ | _) <;> norm_num
  obtain ⟨T, hT, h⟩ := C113_sooner Consts.codata2018 (ecc := fun _ : Bool => 0.3) (f := fun _ => 1e-3) true hm hm
    (fun _ => by norm_num) (fun _ => by norm_num) (fun _ => by norm_num)
  obtain ⟨h1, -, h3⟩ := h false true rfl (by norm_num) (by norm_num) le_rfl
  exact ⟨T, hT, h1, h3 (.inl (by norm_num))⟩

section Objects

private noncomputable def pairArgs : InitArgs where
  m_1 := .array [2e30, 3e30] true
  m_2 := .array [1e30, 2e30] true
  ecc := .array [0, 0] false
  dist := .array [1e20, 1e20] true
  f_orb := some (.array [1e-3, 1e-3] true)
  sc_params := some (Example.custom 0)

private noncomputable def pairCols : Cols where
  m_1 := [2e30, 3e30]
  m_2 := [1e30, 2e30]
  dist := [1e20, 1e20]
  f_orb := [1e-3, 1e-3]
  ecc := [0, 0]
  merged := [false, false]

private lemma pair_cols : init_cols Example.world pairArgs = .ok pairCols := by
  unfold init_cols init_orientation init_f_orb pairArgs
  simp [bind, Except.bind, pure, Except.pure, Raw.hasUnits, Raw.toList, pairCols, List.replicate]

private lemma pair_stationary : ∀ i < 2, (rowAt pairCols i).StationaryOver Example.world.K 1e8 0.01 := by
  have key : ∀ m₁ m₂ : ℝ, 1e30 ≤ m₁ → m₁ ≤ 3e30 → 1e30 ≤ m₂ → m₂ ≤ 2e30 →
      evol.change_le (evol.evolve_f_orb_circ Consts.codata2018 1e-3 (utils.chirp_mass m₁ m₂) 1e8 0 1e9) 1e-3 0.01 := by
    intro m₁ m₂ l₁ u₁ l₂ u₂
    have p₁ : 0 < m₁ := lt_of_lt_of_le (by norm_num) l₁
    have p₂ : 0 < m₂ := lt_of_lt_of_le (by norm_num) l₂
    rw [stationarity_iff _ (by norm_num) p₁ p₂ (by norm_num) (by norm_num), C04_zero, mul_one]
    have ha := get_a_from_f_orb_pos Consts.codata2018 (f := 1e-3) (by norm_num) p₁ p₂
    have hc := a_cube (f := 1e-3) (by norm_num) p₁ p₂
    set a := utils.get_a_from_f_orb Consts.codata2018 1e-3 m₁ m₂
    have h3 : (1e24 : ℝ) ≤ a ^ 3 := by
      rw [hc, le_div_iff₀ (by positivity)]
      have := Real.pi_le_four
      have := Real.pi_pos
      norm_num at l₁ l₂ ⊢
      nlinarith
    have h1 : (1e8 : ℝ) ≤ a := by
      by_contra hlt
      push Not at hlt
      have : a ^ 3 < 1e8 ^ 3 := by gcongr
      norm_num at this h3
      linarith
    have h4 : (1e32 : ℝ) ≤ a ^ 4 := by
      have : (1e8 : ℝ) ^ 4 ≤ a ^ 4 := by gcongr
      norm_num at this ⊢
      exact this
    have hb : utils.beta Consts.codata2018 m₁ m₂ ≤ 1e20 := by
      have q : m₁ * m₂ * (m₁ + m₂) ≤ 3e30 * 2e30 * (3e30 + 2e30) := by gcongr
      unfold utils.beta
      have : 64 / 5 * Consts.codata2018.G ^ 3 / Consts.codata2018.c ^ 5 * m₁ * m₂ * (m₁ + m₂) =
        64 / 5 * Consts.codata2018.G ^ 3 / Consts.codata2018.c ^ 5 * (m₁ * m₂ * (m₁ + m₂)) := by ring
      rw [this]
      refine (mul_le_mul_of_nonneg_left q ?_).trans ?_ <;> norm_num [Consts.codata2018]
    have hb0 := Legwork.evol.beta_pos Consts.codata2018 p₁ p₂
    have hp : ((1 : ℝ) + 0.01) ^ (-8 / 3 : ℝ) ≤ 1 / 1.01 := by
      have : ((1 : ℝ) + 0.01) ^ (-8 / 3 : ℝ) ≤ ((1 : ℝ) + 0.01) ^ (-1 : ℝ) :=
        Real.rpow_le_rpow_of_exponent_le (by norm_num) (by norm_num)
      rw [Real.rpow_neg_one] at this
      norm_num at this ⊢
      exact this
    have hq : (1e-3 : ℝ) ≤ 1 - ((1 : ℝ) + 0.01) ^ (-8 / 3 : ℝ) := by
      norm_num at hp ⊢
      linarith
    have hd : (2e11 : ℝ) ≤ a ^ 4 / (4 * utils.beta Consts.codata2018 m₁ m₂) := by
      rw [le_div_iff₀ (by positivity)]
      norm_num at hb h4 ⊢
      linarith
    calc (1e8 : ℝ) ≤ 2e11 * 1e-3 := by norm_num
      _ ≤ _ := mul_le_mul hd hq (by norm_num) (by positivity)
  intro i hi
  rw [stationaryOver_iff]
  match i, hi with
  | 0, _ => exact key 2e30 1e30 (by norm_num) (by norm_num) (by norm_num) (by norm_num)
  | 1, _ => exact key 3e30 2e30 (by norm_num) (by norm_num) (by norm_num) (by norm_num)

/-- Non-vacuity of `C113_louder`: two circular binaries at 1 mHz and the same distance, the second heavier. -/
example : ∃ (h h' : Heap) (r : ℕ) (z z' : ℝ), Reachable Example.world AnyCall h ∧ (h.src 0).cols = pairCols ∧
    get_snr Example.world 0 {} 100 none h = (.ok r, h') ∧ (h'.snrs r)[0]? = some (some z) ∧ (h'.snrs r)[1]? = some (some z') ∧
    0 ≤ z ∧ z ≤ z' := by
  have e2 : find_eccentric_transition pairArgs.gw_lum_tol = .ok Example.eccTol := Example.find_eccTol
  have e3 : filled_params pairArgs.sc_params = .ok (Example.params 0) := rfl
  have hc := Example.curve_params 0
  obtain ⟨k, hk, hinit⟩ : ∃ k, k = heapAfterInit Example.world .Source pairArgs pairCols Example.eccTol (Example.params 0)
        (some (Example.sc 0)) Example.start ∧
      init Example.world .Source pairArgs Example.start = (.ok 0, k) := by
    refine ⟨_, rfl, ?_⟩
    rcases init_run Example.world .Source pairArgs Example.start with ⟨_, _, _, _, h1, h2, h3, h4, h5⟩ | ⟨-, h⟩
    · rw [pair_cols] at h1
      rw [e2] at h2
      rw [e3] at h3
      cases h1
      cases h2
      cases h3
      rcases h4 with ⟨-, c', hc', rfl⟩ | ⟨h4, -⟩
      · rw [hc] at hc'
        cases hc'
        exact h5
      · cases h4
    · exfalso
      rcases h with ⟨e, he⟩ | ⟨e, he⟩ | ⟨e, he⟩ | ⟨-, d, e, hd, he⟩
      · rw [pair_cols] at he
        cases he
      · rw [e2] at he
        cases he
      · rw [e3] at he
        cases he
      · rw [e3] at hd
        cases hd
        rw [hc] at he
        cases he
  have hsrc : k.src 0 = newObject Example.world .Source pairArgs pairCols Example.eccTol (some (Example.sc 0)) 1 := by
    rw [hk]
    change Function.update Example.start.src 0 _ 0 = _
    rw [Function.update_self]
    rfl
  have hpar : k.par 1 = ⟨Example.params 0, some 0⟩ := by
    rw [hk]
    change Function.update Example.start.par 1 _ 1 = _
    rw [Function.update_self]
    rfl
  have hreach : Reachable Example.world AnyCall k := by
    have h1 := Reachable.call (.init .Source pairArgs) (Reachable.start (W := Example.world) (ok := AnyCall) (h := Example.start)
      fun _ => rfl) trivial
    have h2 : (Op.run Example.world (.init .Source pairArgs) Example.start).2 = k := by
      change ((init Example.world .Source pairArgs >>= fun _ => pure ()) Example.start).2 = k
      rw [PyM.bind_run, hinit]
      rfl
    rwa [h2] at h1
  have hcls : (k.src 0).cls = .Source := by rw [hsrc]; rfl
  have hcols : (k.src 0).cols = pairCols := by rw [hsrc]; rfl
  have hp : (k.src 0).sc_params = some 1 := by rw [hsrc]; rfl
  have hrect : Rect (k.src 0).cols := by
    rw [hcols]
    refine ⟨rfl, rfl, rfl, rfl, rfl, ?_, ?_, ?_, ?_, ?_, ?_⟩ <;> simp [pairCols]
  have hsch : CompleteSchedule Example.world (k.src 0) := by
    rw [hsrc]
    intro hn
    simp [newObject, pairArgs] at hn
  have hno : FitsMask (k.src 0).cols none := fun m hm => by cases hm
  have hready : Ready Example.world k 0 := by
    refine ⟨hrect, by rw [hsrc]; exact ⟨rfl, rfl, rfl⟩, ⟨1, 1e8, _, hp, by rw [hpar]; exact (filled_params_ok e3).1, by rw [hpar]; rfl,
      by rw [hpar]; exact curve_ok_iff.1 hc, by rw [hsrc]; rfl⟩, ?_, ?_⟩
    · unfold storedSnr; rw [hsrc]; simp [newObject]
    · unfold storedHarm; rw [hsrc]; simp [newObject]
  obtain ⟨r, h', hrun⟩ := C36_succeeds (n := 100) (ws := none) (by norm_num) hsch hno hready
  have hch : ∀ i, Chosen none i := fun i m hm => by cases hm
  obtain ⟨_, _, _, hsrc'⟩ := (get_snr_snrCall Example.world 0 {} 100 none k).src 0
  rw [hrun] at hsrc'
  simp only at hsrc'
  obtain ⟨p', hp', hp'', hst⟩ := C36_settings (Or.inl hcls) (by norm_num) hsch hrect hno hrun
  rw [hp] at hp'
  cases hp'
  obtain ⟨⟨v1, a1, b1⟩, ⟨v2, a2, b2⟩, ⟨v3, a3, b3⟩, ⟨v4, a4, b4⟩, ⟨v5, a5, b5⟩, ⟨v6, a6, b6⟩⟩ := hst
  have hgiven : ∀ {key : String} {v w : PVal}, Given (k.par 1).dict key .none v → (k.par 1).dict.get? key = some w → v = w := by
    intro key v w hg hw
    rcases hg with ⟨hg, -⟩ | ⟨-, hg⟩
    · exact absurd rfl hg
    · rw [hg] at hw
      exact Option.some.inj hw
  rw [hgiven a1 (w := .str "custom") (by rw [hpar]; rfl)] at b1
  rw [hgiven a2 (w := .psdFn 0) (by rw [hpar]; rfl)] at b2
  rw [hgiven a3 (w := .str "auto") (by rw [hpar]; rfl)] at b3
  rw [hgiven a4 (w := .bool false) (by rw [hpar]; rfl)] at b4
  rw [hgiven a5 (w := .str "auto") (by rw [hpar]; rfl)] at b5
  have hv6 := hgiven a6 (w := .time 1e8) (by rw [hpar]; rfl)
  have b6' : (h'.par 1).dict.get? "t_obs" = some (.time 1e8) := by
    rcases b6 with b6 | ⟨b6, -⟩
    · rw [b6, hv6]
    · rw [hv6] at b6
      cases b6
  have hT : ∀ C, CallCtx Example.world h' 0 C → C.t_obs = 1e8 := by
    rintro C ⟨p, _, _, _, _, _, _, T, k1, -, -, -, -, -, -, k8, rfl⟩
    rw [hp''] at k1
    cases k1
    rw [b6'] at k8
    cases k8
    rfl
  have hstat : (h'.src 0).stat_tol = 0.01 := by
    rw [hsrc', hsrc]
    change (1e-2 : ℝ) = 0.01
    norm_num
  have hi0 : (rows (k.src 0).cols)[0]? = some (rowAt pairCols 0) := by rw [hcols]; rfl
  have hi1 : (rows (k.src 0).cols)[1]? = some (rowAt pairCols 1) := by rw [hcols]; rfl
  obtain ⟨v, hv, -, hle⟩ := C113_louder (Or.inl hcls) (by norm_num) hsch hrect hno hrun hi0 hi1 (hch 0) (hch 1) rfl rfl rfl rfl rfl
    rfl rfl (by show (0 : ℝ) < 1e20; norm_num) (by show (0 : ℝ) < 1e20; norm_num) (by show (0 : ℝ) < 2e30; norm_num)
    (by show (0 : ℝ) < 1e30; norm_num) (by show (0 : ℝ) < 3e30; norm_num) (by show (0 : ℝ) < 2e30; norm_num)
    (fun C hC => by
      rw [hT C hC, hstat]
      exact ⟨pair_stationary 0 (by norm_num), pair_stationary 1 (by norm_num)⟩)
  have hd : ∀ f, psd_of_dict Example.world (h'.par 1).dict f = .ok ((1e-40 : ℝ) : WithTop ℝ) := by
    have heq : (h'.par 1).dict.eq (Example.params 0) := sixKeys_eq (six_keys (snr_reachable hreach trivial hrun) hp'')
      (filled_params_ok (Example.filled_custom 0)).1 (f := ⟨.time 1e8, .str "custom", .psdFn 0, .str "auto", .bool false, .str "auto"⟩)
      (agrees_iff.2 ⟨b6', b1, b2, b3, b4, b5⟩) (agrees_iff.2 ⟨rfl, rfl, rfl, rfl, rfl, rfl⟩)
    intro f
    rw [psd_of_dict_congr _ heq, Example.psd_params]
    norm_num
  obtain ⟨z, _, hz, -, -, -⟩ := C111_get_snr hreach hreach (Or.inl hcls) (Or.inl hcls) (by norm_num) hsch hsch hrect hrect hno hno
    hrun hrun hp'' hp'' ⟨rfl, rfl, rfl, rfl, rfl⟩ b6' b6' (by norm_num)
    (fun f => ⟨_, _, hd f, hd f, fun _ => ⟨by exact_mod_cast (by norm_num : (0 : ℝ) < 1e-40), le_rfl⟩⟩) hi0 hi0 rfl (hch 0) (hch 0)
    ⟨by show (0 : ℝ) < 2e30; norm_num, by show (0 : ℝ) < 1e30; norm_num, by show (0 : ℝ) < 1e-3; norm_num,
      le_rfl, by show (0 : ℝ) < 1; norm_num⟩
    (fun hns => absurd (by rw [hstat]; exact pair_stationary 0 (by norm_num)) hns)
  rw [hv] at hz
  cases hz
  obtain ⟨z', h1, h2, h3⟩ := hle z rfl (by show (2e30 : ℝ) ≤ 3e30; norm_num) (by show (1e30 : ℝ) ≤ 2e30; norm_num) le_rfl
  exact ⟨k, h', r, z, z', hreach, hcols, hrun, hv, h1, h2, h3⟩

end Objects

end Legwork.Props
