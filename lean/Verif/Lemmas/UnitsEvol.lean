import Verif.Lemmas.UnitsUtils

/-!
# evol.py on quantities
-/

namespace Legwork.units

open Real Legwork.Spec

variable {K : Consts}

/-- An optional argument: given with units, and its value in SI units. -/
def Given (d : Dim) (o : Option (Val × ℝ)) : Prop := ∀ p ∈ o, Denotes p.1 d p.2 ∧ 0 < p.2

/-- The same without a condition on the sign. -/
def Said (d : Dim) (o : Option (Val × ℝ)) : Prop := ∀ p ∈ o, Denotes p.1 d p.2

theorem Given.said {d : Dim} {o : Option (Val × ℝ)} (h : Given d o) : Said d o := fun p hp => (h p hp).1

/-- The same argument for every binary. -/
def one' {ι : Type} : Option ℝ → Option (ι → ℝ) := Option.map fun x _ => x

theorem check_cases {ι : Type} {b m₁ m₂ a f : Option (Val × ℝ)} (hb : Said betaDim b) (h₁ : Said massDim m₁)
    (h₂ : Said massDim m₂) (ha : Said lengthDim a) (hf : Said freqDim f) :
    (∃ vb va xb xa, check_mass_freq_input K (b.map Prod.fst) (m₁.map Prod.fst) (m₂.map Prod.fst) (a.map Prod.fst)
        (f.map Prod.fst) = .ok (vb, va) ∧ Denotes vb betaDim xb ∧ Denotes va lengthDim xa ∧
      va.unit = (a.map Prod.fst).elim AU Val.unit ∧
      evol.check_mass_freq_input (ι := ι) K (one' (b.map Prod.snd)) (one' (m₁.map Prod.snd)) (one' (m₂.map Prod.snd))
        (one' (a.map Prod.snd)) (one' (f.map Prod.snd)) = .ok (fun _ => xb, fun _ => xa)) ∨
    (∃ err, check_mass_freq_input K (b.map Prod.fst) (m₁.map Prod.fst) (m₂.map Prod.fst) (a.map Prod.fst)
        (f.map Prod.fst) = .error err ∧
      evol.check_mass_freq_input (ι := ι) K (one' (b.map Prod.snd)) (one' (m₁.map Prod.snd)) (one' (m₂.map Prod.snd))
        (one' (a.map Prod.snd)) (one' (f.map Prod.snd)) = .error err) := by
  have key : ∀ {p q : Val × ℝ}, p ∈ m₁ → q ∈ m₂ →
      beta K p.1 q.1 = .ok (.qty ⟨utils.beta K p.2 q.2 / m4_s.scale, m4_s⟩) := fun hp hq =>
    beta_eq (h₁ _ hp) (h₂ _ hq)
  have hdim : m4_s.dim = betaDim := by
    show (4 : ℚ) • (0, 1, 0) - (0, 0, 1) = _
    dims
  have hβ : ∀ x, Denotes (.qty ⟨x / m4_s.scale, m4_s⟩) betaDim x := fun x => hdim ▸ denotes_qty x m4_s
  have hA : ∀ x, Denotes (.qty ⟨x / AU.scale, AU⟩) lengthDim x := fun x => denotes_qty x AU
  rcases b with _ | ⟨b, xb⟩ <;> rcases m₁ with _ | ⟨m₁, x₁⟩ <;> rcases m₂ with _ | ⟨m₂, x₂⟩ <;>
    rcases a with _ | ⟨a, xa⟩ <;> rcases f with _ | ⟨f, xf⟩ <;>
    first
    | exact .inr ⟨_, rfl, rfl⟩
    | exact .inl ⟨_, _, _, _, rfl, (hb _ rfl), (ha _ rfl), rfl, rfl⟩
    | (refine .inl ⟨_, _, _, _, ?_, hβ _, (ha _ rfl), rfl, rfl⟩
       show (do let beta' ← beta K m₁ m₂; _) = _
       rw [beta_eq (h₁ _ rfl) (h₂ _ rfl)]; rfl)
    | (refine .inl ⟨_, _, _, _, ?_, (hb _ rfl), hA _, rfl, rfl⟩
       show (do let a' ← get_a_from_f_orb K f m₁ m₂; _) = _
       rw [get_a_from_f_orb_eq (hf _ rfl) (h₁ _ rfl) (h₂ _ rfl)]; rfl)
    | (refine .inl ⟨_, _, _, _, ?_, hβ _, hA _, rfl, rfl⟩
       show (beta K m₁ m₂ >>= fun beta' => get_a_from_f_orb K f m₁ m₂ >>= fun a' => pure (beta', a')) = _
       rw [beta_eq (h₁ _ rfl) (h₂ _ rfl),
         get_a_from_f_orb_eq (hf _ rfl) (h₁ _ rfl) (h₂ _ rfl)]; rfl)
    | (refine .inr ⟨.ValueError, ?_, rfl⟩
       show (do let beta' ← beta K m₁ m₂; _) = _
       rw [beta_eq (h₁ _ rfl) (h₂ _ rfl)]; rfl)

/-- The physical value which is `x` in SI units, expressed in unit `u`. -/
noncomputable def express (u : PyUnit) (x : ℝ) : Val := .qty ⟨x / u.scale, u⟩

theorem circ_eq {vb va : Val} {xb xa : ℝ} (hb : Denotes vb betaDim xb) (ha : Denotes va lengthDim xa) :
    get_t_merge_circ K (some vb) none none (some va) none = .ok (express Gyr (xa ^ 4 / (4 * xb))) := by
  show (va ^ (4 : ℚ) / (.num 4 * vb)).to Gyr = _
  exact denotes_to (d := timeDim) (denotes_cast (denotes_div (denotes_pow 4 ha) (denotes_mul (denotes_num _) hb))
    (by dims) rfl) time_ne rfl

theorem get_t_merge_circ_eq {b m₁ m₂ a f : Option (Val × ℝ)} (hb : Said betaDim b) (h₁ : Said massDim m₁)
    (h₂ : Said massDim m₂) (ha : Said lengthDim a) (hf : Said freqDim f) :
    get_t_merge_circ K (b.map Prod.fst) (m₁.map Prod.fst) (m₂.map Prod.fst) (a.map Prod.fst) (f.map Prod.fst) =
      (evol.get_t_merge_circ K (one' (b.map Prod.snd)) (one' (m₁.map Prod.snd)) (one' (m₂.map Prod.snd))
        (one' (a.map Prod.snd)) (one' (f.map Prod.snd))).map fun t => express Gyr (t ()) := by
  unfold get_t_merge_circ evol.get_t_merge_circ
  rcases check_cases (K := K) (ι := Unit) hb h₁ h₂ ha hf with ⟨vb, va, xb, xa, h, hb, ha, -, h'⟩ | ⟨err, h, h'⟩
  · rw [h, h']
    exact circ_eq (K := K) hb ha
  · rw [h, h']; rfl

theorem get_t_merge_ecc_eq {b m₁ m₂ a f : Option (Val × ℝ)} (hb : Said betaDim b) (h₁ : Said massDim m₁)
    (h₂ : Said massDim m₂) (ha : Said lengthDim a) (hf : Said freqDim f) (e st lt : ℝ) (exact : Bool) :
    get_t_merge_ecc K e (a.map Prod.fst) (f.map Prod.fst) (b.map Prod.fst) (m₁.map Prod.fst) (m₂.map Prod.fst) st lt
        exact =
      (evol.get_t_merge_ecc_scalar K e (a.map Prod.snd) (f.map Prod.snd) (b.map Prod.snd) (m₁.map Prod.snd)
        (m₂.map Prod.snd) st lt exact).map (express Gyr) := by
  unfold get_t_merge_ecc evol.get_t_merge_ecc_scalar
  rcases check_cases (K := K) (ι := Unit) hb h₁ h₂ ha hf with ⟨vb, va, xb, xa, h, hb, ha, -, h'⟩ | ⟨err, h, h'⟩
  · simp only [one'] at h'
    rw [h]
    simp only [h']
    show (if e = 0 then get_t_merge_circ K (some vb) none none (some va) none else _) = _
    rw [circ_eq hb ha, c_0_eq ha]
    have hc : Denotes (express AU (utils.c_0 xa e)) lengthDim (utils.c_0 xa e) := denotes_qty _ AU
    show (if e = 0 then _ else if e < st then ((express AU (utils.c_0 xa e)) ^ (4 : ℚ) / (.num 4 * vb)
      * .num (e ^ (48 / 19 : ℝ))).to Gyr else if e > lt then ((express AU (utils.c_0 xa e)) ^ (4 : ℚ) / (.num 4 * vb)
      * .num (e ^ (48 / 19 : ℝ)) * .num (768 / 425)
        * .num ((1 - e ^ 2) ^ (-1 / 2 : ℝ)) * .num ((1 + 121 / 304 * e ^ 2) ^ (3480 / 2299 : ℝ))).to Gyr
      else if exact = true then (.num (12 / 19) * (express AU (utils.c_0 xa e)) ^ (4 : ℚ) / vb
        * .num (∫ x in (0 : ℝ)..e, evol.peters_5_14 x)).to Gyr
      else (express Gyr (xa ^ 4 / (4 * xb)) * .num (evol.t_merge_mandel_fit e)).to Gyr) = _
    have q := denotes_div (denotes_pow 4 hc) (denotes_mul (denotes_num 4) hb)
    by_cases e0 : e = 0
    · rw [if_pos e0]
      show _ = (if e = 0 then _ else _ : Except PyErr ℝ).map _
      rw [if_pos e0]; rfl
    rw [if_neg e0]
    show _ = (if e = 0 then _ else _ : Except PyErr ℝ).map _
    rw [if_neg e0]
    by_cases e1 : e < st
    · rw [if_pos e1]
      show _ = (if e < st then _ else _ : Except PyErr ℝ).map _
      rw [if_pos e1]
      exact denotes_to (d := timeDim) (denotes_cast (denotes_mul q (denotes_num _)) (by dims) rfl) time_ne rfl
    rw [if_neg e1]
    show _ = (if e < st then _ else _ : Except PyErr ℝ).map _
    rw [if_neg e1]
    by_cases e2 : e > lt
    · rw [if_pos e2, if_pos e2]
      exact denotes_to (d := timeDim) (denotes_cast (denotes_mul (denotes_mul (denotes_mul (denotes_mul q
        (denotes_num _)) (denotes_num _)) (denotes_num _)) (denotes_num _)) (by dims) rfl) time_ne rfl
    rw [if_neg e2, if_neg e2]
    cases exact
    · exact denotes_to (d := timeDim) (denotes_cast (denotes_mul (denotes_qty (xa ^ 4 / (4 * xb)) Gyr)
        (denotes_num _)) (add_zero _) rfl) time_ne (u := Gyr) rfl
    · exact denotes_to (d := timeDim) (denotes_cast (denotes_mul (denotes_div (denotes_mul (denotes_num _)
        (denotes_pow 4 hc)) hb) (denotes_num _)) (by dims) rfl) time_ne rfl
  · simp only [one'] at h'
    rw [h]; simp only [h']; rfl

theorem evolve_eq {f_orb m_c t : Val} {f x τ : ℝ} (hf : Denotes f_orb freqDim f) (hm : Denotes m_c massDim x)
    (ht : Denotes t timeDim τ) (e : ℝ) {merge : Quantity} {μ : ℝ} (hμ : Denotes (.qty merge) freqDim μ) (f0 : 0 < f)
    (x0 : 0 < x) (h0 : evol.inner_part K f x τ e ≠ 0) :
    ∃ r : ℝ, evol.evolve_f_orb_circ K f x τ e μ = r ∧
      evolve_f_orb_circ K f_orb m_c t e merge = .ok (express merge.unit r) := by
  have hG := K.G_pos
  have h1 := denotes_rpow (-8 / 3) hf
  have h2 := denotes_mul (denotes_mul (denotes_div (denotes_mul (denotes_num (2 ^ (32 / 3 : ℝ) * π ^ (8 / 3 : ℝ))) ht)
    (denotes_mul (denotes_num 5) (denotes_pow 5 (denotes_c K)))) (denotes_rpow (5 / 3) (denotes_mul (denotes_G K) hm))) (denotes_num
    (utils.peters_f e))
  obtain ⟨r, hr, hd⟩ := denotes_sub h1 (denotes_cast h2 (by dims) rfl)
  have hy : Denotes r ((-8 / 3 : ℚ) • freqDim) (evol.inner_part K f x τ e) := by
    refine denotes_cast hd rfl ?_
    simp [evol.inner_part]
  obtain ⟨q, rfl, hqd, hq⟩ := qty_of_denotes hy (by dims)
  obtain ⟨hmd, rfl⟩ := hμ
  have hrun : evolve_f_orb_circ K f_orb m_c t e merge =
      (if q.value ≥ 0 then ((Val.qty q) ^ (-3 / 8 : ℚ)).to merge.unit else pure (.qty merge)) := by
    unfold evolve_f_orb_circ
    refine (congrArg (· >>= _) hr).trans ?_
    rfl
  have hiff : q.value ≥ 0 ↔ evol.inner_part K f x τ e ≥ 0 := by
    rw [← hq]
    constructor
    · exact fun h => mul_nonneg h q.unit.pos.le
    · intro h
      by_contra hn
      exact absurd h (not_le.2 (mul_neg_of_neg_of_pos (not_le.1 hn) q.unit.pos))
  rw [hrun]
  unfold evol.evolve_f_orb_circ
  by_cases hi : evol.inner_part K f x τ e ≥ 0
  · refine ⟨evol.inner_part K f x τ e ^ ((-3 / 8 : ℚ) : ℝ), ?_, ?_⟩
    rotate_left
    · rw [if_pos (hiff.2 hi)]
      exact denotes_to (d := freqDim) (denotes_cast (denotes_rpow (-3 / 8) hy) (by dims) rfl) freq_ne hmd.symm
    · show (if _ then _ else _) = _
      rw [if_pos hi, if_neg h0]
      norm_num
  · refine ⟨merge.value * merge.unit.scale, ?_, ?_⟩
    rotate_left
    · rw [if_neg (fun h => hi (hiff.1 h))]
      show _ = Except.ok (express merge.unit (merge.value * merge.unit.scale))
      rw [express, mul_div_cancel_right₀ _ merge.unit.pos.ne']; rfl
    · show (if _ then _ else _) = _
      rw [if_neg hi]

open Classical in
theorem stationarity_eq {f_orb t : Val} {m₁ m₂ mc : Option (Val × ℝ)} {f τ : ℝ} (hf : Denotes f_orb freqDim f)
    (h₁ : Given massDim m₁) (h₂ : Given massDim m₂) (hc : Given massDim mc)
    (ht : Denotes t timeDim τ) (e tol : ℝ) (f0 : 0 < f)
    (h0 : ∀ p ∈ mc, evol.inner_part K f p.2 τ e ≠ 0)
    (h0' : ∀ p ∈ m₁, ∀ q ∈ m₂, mc = none → evol.inner_part K f (utils.chirp_mass p.2 q.2) τ e ≠ 0) :
    determine_stationarity K f_orb t e (m₁.map Prod.fst) (m₂.map Prod.fst) (mc.map Prod.fst) tol =
      (evol.determine_stationarity K (fun _ : Unit => f) τ (fun _ => e) (one' (m₁.map Prod.snd))
        (one' (m₂.map Prod.snd)) (one' (mc.map Prod.snd)) tol).map fun b => decide (b ()) := by
  have main : ∀ {v : Val} {x : ℝ}, Denotes v massDim x → 0 < x →
      evol.inner_part K f x τ e ≠ 0 →
      (evolve_f_orb_circ K f_orb v t e merge_f_default >>= fun f_orb_f => f_orb_f.sub f_orb >>= fun diff =>
        (diff / f_orb).le_num tol) =
        .ok (decide (evol.change_le (evol.evolve_f_orb_circ K f x τ e 1e9) f tol)) := by
    intro v x hv hx h0
    obtain ⟨r, hr, hr'⟩ := evolve_eq (K := K) hf hv ht e (merge := merge_f_default) (μ := 1e9)
      ⟨rfl, by norm_num [merge_f_default, Hz]⟩ f0 hx h0
    obtain ⟨d, hd, hdd⟩ := denotes_sub (denotes_qty r Hz) hf
    rw [hr', hr]
    have hd' : (express merge_f_default.unit r).sub f_orb = .ok d := hd
    have hq := denotes_div hdd hf
    have := qty_of_denotes hdd freq_ne
    obtain ⟨qd, rfl, -, -⟩ := this
    obtain ⟨qf, rfl, -, -⟩ := qty_of_denotes hf freq_ne
    have e1 : (Val.qty qd / Val.qty qf) = .qty ⟨qd.value / qf.value, qd.unit / qf.unit⟩ := rfl
    rw [e1] at hq
    obtain ⟨hq1, hq2⟩ := hq
    show ((express merge_f_default.unit r).sub (.qty qf) >>= fun diff => (diff / .qty qf).le_num tol) = _
    rw [hd']
    show (if (qd.unit / qf.unit).dim = 0 then _ else _) = _
    rw [if_pos (by rw [hq1]; exact sub_self freqDim), hq2]
    rfl
  unfold determine_stationarity evol.determine_stationarity
  rcases mc with _ | ⟨mc, xc⟩
  · rcases m₁ with _ | ⟨m₁, x₁⟩
    · rfl
    rcases m₂ with _ | ⟨m₂, x₂⟩
    · rfl
    show (do let m_c ← chirp_mass m₁ m₂; _) = _
    have p₁ := (h₁ _ rfl).2
    have p₂ := (h₂ _ rfl).2
    rw [chirp_mass_eq (h₁ _ rfl).1 (h₂ _ rfl).1]
    refine main (denotes_qty _ Msun) ?_ (h0' _ rfl _ rfl rfl)
    have p₁ : 0 < x₁ := p₁
    have p₂ : 0 < x₂ := p₂
    show 0 < utils.chirp_mass x₁ x₂
    unfold utils.chirp_mass
    positivity
  · exact main (hc _ rfl).1 (hc _ rfl).2 (h0 _ rfl)

end Legwork.units
