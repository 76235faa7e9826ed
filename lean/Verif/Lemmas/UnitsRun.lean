import Verif.Model.UnitsSnr
import Verif.Lemmas.UnitsEvol
import Verif.Lemmas.UnitsPsd
import Verif.Lemmas.EvolOutput
import Verif.Lemmas.Snr
import Verif.Lemmas.Pointwise
import Verif.Spec.UnitsSnr

/-!
# Evolution on quantities
-/

namespace Legwork.units

open Real Legwork.Spec

variable {K : Consts}

/-- A difference is in the unit of its first term. -/
theorem sub_qty {p : Quantity} {w : Val} {d : Dim} {y : ℝ} (hp : p.unit.dim = d) (hd : d ≠ 0) (hw : Denotes w d y) :
    (Val.qty p).sub w = .ok (.qty ⟨p.value - y / p.unit.scale, p.unit⟩) := by
  obtain ⟨q, rfl, hq, rfl⟩ := qty_of_denotes hw hd
  show (Quantity.to ⟨-q.value, q.unit⟩ p.unit).map _ = _
  rw [to_ok (q := ⟨-q.value, q.unit⟩) (show q.unit.dim = p.unit.dim by rw [hq, hp])]
  show Except.ok (Val.qty ⟨p.value + -q.value * q.unit.scale / p.unit.scale, p.unit⟩) = _
  congr 3
  ring

theorem pow_quarter (u : PyUnit) : (u ^ (4 : ℚ)) ^ (1 / 4 : ℚ) = u := by
  have hd : ((u ^ (4 : ℚ)) ^ (1 / 4 : ℚ)).dim = u.dim := by
    show ((1 / 4 : ℚ) • ((4 : ℚ) • u.dim)) = _
    rw [smul_smul]
    norm_num
  have hs : ((u ^ (4 : ℚ)) ^ (1 / 4 : ℚ)).scale = u.scale := by
    show ((u.scale ^ ((4 : ℚ) : ℝ)) ^ ((1 / 4 : ℚ) : ℝ)) = u.scale
    rw [← Real.rpow_mul u.pos.le]
    norm_num
  exact PyUnit.ext hs hd

theorem a_circ_eq {q : Quantity} {vb t : Val} {xb τ : ℝ} (ha : q.unit.dim = lengthDim) (hb : Denotes vb betaDim xb)
    (ht : Denotes t timeDim τ) :
    a_circ (.qty q) vb t = .ok (.qty ⟨evol.a_circ (q.value * q.unit.scale) xb τ / q.unit.scale, q.unit⟩) := by
  classical
  have hs := q.unit.pos
  have h4 : (q.unit ^ (4 : ℚ)).dim = (4 : ℚ) • lengthDim := by rw [← ha]; rfl
  have hsc : (q.unit ^ (4 : ℚ)).scale = q.unit.scale ^ 4 := by
    show q.unit.scale ^ ((4 : ℚ) : ℝ) = _
    norm_num
  have hv : q.value ^ ((4 : ℚ) : ℝ) = q.value ^ 4 := by
    norm_num
  have hsub := sub_qty (p := ⟨q.value ^ ((4 : ℚ) : ℝ), q.unit ^ (4 : ℚ)⟩) (d := (4 : ℚ) • lengthDim) h4 (by dims)
    (denotes_cast (denotes_mul (denotes_mul (denotes_num 4) hb) ht) (by dims) rfl)
  unfold a_circ
  show (((Val.qty ⟨q.value ^ ((4 : ℚ) : ℝ), q.unit ^ (4 : ℚ)⟩).sub (.num 4 * vb * t)) >>= _) = _
  rw [hsub]
  show Except.ok ((if q.value ^ ((4 : ℚ) : ℝ) - 4 * xb * τ / (q.unit ^ (4 : ℚ)).scale ≤ 0 then
    (Val.qty ⟨0, q.unit ^ (4 : ℚ)⟩) else Val.qty ⟨q.value ^ ((4 : ℚ) : ℝ) - 4 * xb * τ / (q.unit ^ (4 : ℚ)).scale,
      q.unit ^ (4 : ℚ)⟩) ^ (1 / 4 : ℚ)) = _
  rw [hv, hsc]
  have hd : (q.value * q.unit.scale) ^ 4 - 4 * xb * τ = (q.value ^ 4 - 4 * xb * τ / q.unit.scale ^ 4)
      * q.unit.scale ^ 4 := by
    field_simp
  have hroot : ∀ x : ℝ, (Val.qty ⟨x, q.unit ^ (4 : ℚ)⟩) ^ (1 / 4 : ℚ) = .qty ⟨x ^ (1 / 4 : ℝ), q.unit⟩ := by
    intro x
    show Val.qty ⟨x ^ ((1 / 4 : ℚ) : ℝ), (q.unit ^ (4 : ℚ)) ^ (1 / 4 : ℚ)⟩ = _
    rw [pow_quarter]
    norm_num
  have h4p : (0 : ℝ) < q.unit.scale ^ 4 := by positivity
  have hquart : (q.unit.scale ^ 4) ^ (1 / 4 : ℝ) = q.unit.scale := by
    rw [← Real.rpow_natCast, ← Real.rpow_mul hs.le]
    norm_num
  unfold evol.a_circ
  simp only
  rw [hd]
  congr 1
  by_cases h : q.value ^ 4 - 4 * xb * τ / q.unit.scale ^ 4 ≤ 0
  · rw [if_pos h, if_pos (mul_nonpos_of_nonpos_of_nonneg h h4p.le), hroot]
    norm_num
  · rw [if_neg h, if_neg (not_le.2 (mul_pos (not_le.1 h) h4p)), hroot,
      Real.mul_rpow (not_le.1 h).le h4p.le, hquart, mul_div_cancel_right₀ _ hs.ne']

theorem f_or_merged_eq {q : Quantity} {m_1 m_2 : Val} {x₁ x₂ : ℝ} (ha : q.unit.dim = lengthDim)
    (h₁ : Denotes m_1 massDim x₁) (h₂ : Denotes m_2 massDim x₂) :
    f_or_merged K (.qty q) m_1 m_2 =
      .ok (.qty ⟨evol.f_or_merged K q.unit.scale (q.value * q.unit.scale) x₁ x₂, Hz⟩) := by
  classical
  have hs := q.unit.pos
  have hN : ∃ r : Quantity, (if q.value = 0 then Val.qty ⟨1e-30, q.unit⟩ else .qty q) = .qty r ∧ r.unit = q.unit ∧
      r.value * q.unit.scale = (if q.value * q.unit.scale = 0 then 1e-30 * q.unit.scale else q.value * q.unit.scale) := by
    by_cases h : q.value = 0
    · exact ⟨⟨1e-30, q.unit⟩, if_pos h, rfl, by rw [if_pos (by rw [h, zero_mul])]⟩
    · exact ⟨q, if_neg h, rfl, by rw [if_neg (mul_ne_zero h hs.ne')]⟩
  obtain ⟨r, hr, hu, hv⟩ := hN
  have hf := get_f_orb_from_a_eq (K := K) (a := .qty r) (x := r.value * q.unit.scale)
    ⟨by rw [hu, ha], by rw [hu]⟩ h₁ h₂
  unfold f_or_merged
  show (get_f_orb_from_a K (if q.value = 0 then Val.qty ⟨1e-30, q.unit⟩ else .qty q) m_1 m_2 >>= fun f_orb =>
    (if q.value = 0 then Val.qty ⟨1e-30, q.unit⟩ else .qty q).value >>= fun number => f_orb.to Hz >>= fun f_orb =>
      pure (if number = 1e-30 then .qty ⟨1e2, Hz⟩ else f_orb)) = _
  rw [hr, hf]
  show ((Val.qty ⟨_ / Hz.scale, Hz⟩).to Hz >>= fun f_orb =>
      (pure (if r.value = 1e-30 then .qty ⟨1e2, Hz⟩ else f_orb) : Except PyErr Val)) = _
  rw [denotes_to (denotes_qty _ Hz) freq_ne rfl]
  show Except.ok (if r.value = 1e-30 then _ else _) = _
  unfold evol.f_or_merged
  simp only
  rw [← hv]
  by_cases h : r.value = 1e-30
  · rw [if_pos h, if_pos (by rw [h])]
  · rw [if_neg h, if_neg (fun h' => h (mul_right_cancel₀ hs.ne' h')), hz_scale, div_one]

/-! ## The output loop -/

theorem row_to {r : Row} {u : PyUnit} (h : r.unit.dim = u.dim) : ∃ r', r.to u = .ok r' ∧ r'.unit = u ∧ r'.si = r.si := by
  refine ⟨_, if_pos h, rfl, ?_⟩
  simp only [Row.si, List.map_map]
  apply List.map_congr_left
  intro x _
  show x * r.unit.scale / u.scale * u.scale = _
  exact div_mul_cancel₀ _ u.pos.ne'

theorem collect_eq {vs : List Val} {xs : List ℝ} {u : PyUnit} (hd : u.dim ≠ 0)
    (h : List.Forall₂ (fun v x => Denotes v u.dim x) vs xs) :
    collect vs u = .ok ⟨xs.map (· / u.scale), u⟩ := by
  have : vs.mapM (fun v => v.valueIn u) = .ok (xs.map (· / u.scale)) := by
    induction h with
    | nil => rfl
    | cons h _ ih => rw [List.mapM_cons, denotes_valueIn h hd rfl, ih]; rfl
  unfold collect
  rw [this]; rfl

theorem si_express (xs : List ℝ) (u : PyUnit) : Row.si ⟨xs.map (· / u.scale), u⟩ = xs := by
  simp only [Row.si, List.map_map]
  conv_rhs => rw [← List.map_id xs]
  apply List.map_congr_left
  intro x _
  exact div_mul_cancel₀ _ u.pos.ne'

/-- The variables on quantities are those on SI values, for source `i`. -/
structure SameVars {ι : Type*} (v : EvolVars) (w : evol.EvolVars ι) (i : ι) : Prop where
  time : v.timesteps.unit.dim = timeDim
  times : v.timesteps.si = w.timesteps i
  ecc : v.ecc.map Row.si = w.ecc.map fun x => x i
  a : Option.Rel (fun vs x => List.Forall₂ (fun v x => Denotes v lengthDim x) vs (x i)) v.a w.a
  f : Option.Rel (fun vs x => List.Forall₂ (fun v x => Denotes v freqDim x) vs (x i)) v.f_orb w.f_orb

theorem output_step_eq {ι : Type*} {v : EvolVars} {w : evol.EvolVars ι} {i : ι} (h : SameVars v w i) (we : Bool)
    (var : String) {acc : List Row} {acc' : List (ι → List ℝ)} (ha : acc.map Row.si = acc'.map fun x => x i) :
    (output_step we v acc var).map (List.map Row.si) = (evol.output_step we w acc' var).map (List.map fun x => x i) := by
  have snoc : ∀ {r : Row} {x : ι → List ℝ}, r.si = x i →
      ((Except.ok (acc ++ [r]) : Except PyErr (List Row))).map (List.map Row.si) =
        (Except.ok (acc' ++ [x])).map (List.map fun x => x i) := by
    intro r x hx
    simp [Except.map, ha, hx]
  unfold output_step evol.output_step
  split_ifs with h1 h2 h3 h4 h5
  · obtain ⟨r, hr, -, hsi⟩ := row_to (u := yr) h.time
    rw [hr]
    exact snoc (hsi.trans h.times)
  · have := h.ecc
    rcases hv : v.ecc with _ | r <;> rcases hw : w.ecc with _ | x <;> rw [hv, hw] at this
    · rfl
    · simp at this
    · simp at this
    · exact snoc (by simpa using this)
  · have := h.a
    rcases hv : v.a with _ | r <;> rcases hw : w.a with _ | x <;> rw [hv, hw] at this
    · rfl
    · cases this
    · cases this
    · cases this with
      | some this =>
        show ((collect r AU >>= fun y => pure (acc ++ [y])) : Except PyErr (List Row)).map _ = _
        rw [collect_eq (u := AU) length_ne this]
        exact snoc (si_express _ _)
  · have := h.f
    rcases hv : v.f_orb with _ | r <;> rcases hw : w.f_orb with _ | x <;> rw [hv, hw] at this
    · rfl
    · cases this
    · cases this
    · cases this with
      | some this =>
        show ((collect r Hz >>= fun y => pure (acc ++ [y])) : Except PyErr (List Row)).map _ = _
        rw [collect_eq (u := Hz) freq_ne this]
        exact snoc (si_express _ _)
  · have := h.f
    rcases hv : v.f_orb with _ | r <;> rcases hw : w.f_orb with _ | x <;> rw [hv, hw] at this
    · rfl
    · cases this
    · cases this
    · cases this with
      | some this =>
        show ((collect r Hz >>= fun f => pure (acc ++ [⟨f.values.map (2 * ·), f.unit⟩])) :
          Except PyErr (List Row)).map _ = _
        rw [collect_eq (u := Hz) freq_ne this]
        refine snoc (x := fun i => (x i).map (2 * ·)) ?_
        simp [Row.si, Hz, List.map_map, Function.comp_def]
  · simp [pure, Except.pure, Except.map, ha]

theorem construct_output_eq {ι : Type*} {v : EvolVars} {w : evol.EvolVars ι} {i : ι} (h : SameVars v w i) (we : Bool)
    (vars : List String) :
    (construct_output we v vars).map (List.map Row.si) = (evol.construct_output we w vars).map (rowsAt i) := by
  have key : ∀ (vars : List String) (acc : List Row) (acc' : List (ι → List ℝ)),
      acc.map Row.si = acc'.map (fun x => x i) →
      (vars.foldlM (output_step we v) acc).map (List.map Row.si) =
        (vars.foldlM (evol.output_step we w) acc').map (List.map fun x => x i) := by
    intro vars
    induction vars with
    | nil => intro acc acc' ha; simp [pure, Except.pure, Except.map, ha]
    | cons var vars ih =>
      intro acc acc' ha
      have hs := output_step_eq h we var ha
      rw [List.foldlM_cons, List.foldlM_cons]
      rcases h1 : output_step we v acc var with e | x <;> rcases h2 : evol.output_step we w acc' var with e' | y <;>
        rw [h1, h2] at hs <;> simp only [Except.map, Except.error.injEq, Except.ok.injEq, reduceCtorEq] at hs
      · subst hs; rfl
      · exact ih x y hs
  have := key vars [] [] rfl
  unfold construct_output evol.construct_output
  rcases h1 : vars.foldlM (output_step we v) [] with e | x <;>
    rcases h2 : vars.foldlM (evol.output_step we w) [] with e' | y <;>
    rw [h1, h2] at this <;> simp only [Except.map, Except.error.injEq, Except.ok.injEq, reduceCtorEq] at this
  · subst this; rfl
  · rcases y with _ | ⟨y, _ | ⟨z, ys⟩⟩
    · obtain rfl : x = [] := List.map_eq_nil_iff.1 this
      rfl
    · rcases x with _ | ⟨x, _ | ⟨x', xs⟩⟩
      · simp at this
      · show Except.ok [x.si] = Except.ok [y i]
        simp at this
        rw [this]
      · simp at this
    · rcases x with _ | ⟨x, xs⟩
      · simp at this
      · show Except.ok (List.map Row.si (x :: xs)) = Except.ok (List.map (fun x => x i) (y :: z :: ys))
        rw [this]

theorem output_step_units {v : EvolVars} (hv : ∀ r ∈ v.ecc, r.unit = one) {we : Bool} {var : String}
    {acc out : List Row} (h : output_step we v acc var = .ok out) :
    out.map Row.unit = acc.map Row.unit ++ (outputUnit we var).toList := by
  unfold output_step at h
  unfold outputUnit
  split_ifs at h ⊢ with h1 h2 h3 h4 h5
  · obtain ⟨r, hr, h⟩ := except_bind_ok.1 h
    cases h
    unfold Row.to at hr
    split_ifs at hr
    cases hr
    simp
  · obtain ⟨r, hr, h⟩ := except_bind_ok.1 h
    cases h
    rcases he : v.ecc with _ | r'
    · rw [he] at hr; cases hr
    · rw [he] at hr; cases hr
      simp [hv r (by simp [he])]
  · obtain ⟨a, ha, h⟩ := except_bind_ok.1 h
    obtain ⟨r, hr, h⟩ := except_bind_ok.1 h
    cases h
    obtain ⟨y, -, hy⟩ := except_bind_ok.1 hr
    cases hy
    simp
  · obtain ⟨a, ha, h⟩ := except_bind_ok.1 h
    obtain ⟨r, hr, h⟩ := except_bind_ok.1 h
    cases h
    obtain ⟨y, -, hy⟩ := except_bind_ok.1 hr
    cases hy
    simp
  · obtain ⟨a, ha, h⟩ := except_bind_ok.1 h
    obtain ⟨r, hr, h⟩ := except_bind_ok.1 h
    cases h
    obtain ⟨y, -, hy⟩ := except_bind_ok.1 hr
    cases hy
    simp
  · cases h
    simp

/-- Every row comes in its documented unit. -/
theorem construct_output_units {v : EvolVars} (hv : ∀ r ∈ v.ecc, r.unit = one) {we : Bool} {vars : List String}
    {out : List Row} (h : construct_output we v vars = .ok out) :
    out.map Row.unit = vars.filterMap (outputUnit we) := by
  have key : ∀ (vars : List String) (acc out : List Row), vars.foldlM (output_step we v) acc = .ok out →
      out.map Row.unit = acc.map Row.unit ++ vars.filterMap (outputUnit we) := by
    intro vars
    induction vars with
    | nil => intro acc out h; cases h; simp
    | cons var vars ih =>
      intro acc out h
      rw [List.foldlM_cons] at h
      obtain ⟨mid, hm, h⟩ := except_bind_ok.1 h
      rw [ih mid out h, output_step_units hv hm, List.append_assoc]
      congr 1
      rw [List.filterMap_cons]
      cases outputUnit we var <;> rfl
  unfold construct_output at h
  obtain ⟨x, hx, h⟩ := except_bind_ok.1 h
  have := key vars [] x hx
  rcases x with _ | ⟨x, xs⟩
  · cases h
  · cases h
    simpa using this

end Legwork.units
