import Verif.Lemmas.SnrHalf
import Verif.Lemmas.SnrAgain
import Verif.Spec.Classes

/-!
# Matching the sensitivity curve in one step or two, for objects that differ in class
-/

namespace Legwork.source

open Legwork.Spec Legwork.snr Legwork.Props
open PyM hiding bind

variable {W : World} {s n p : ℕ} {h : Heap}

theorem agrees_of_same {d : Dict} {f : SnrArgs} (h6 : SixKeys d) (hsame : ∀ kv ∈ f.toDict, d.get kv.1 = kv.2) : Agrees d f := by
  intro kv hkv
  have hk : kv.1 ∈ scKeys := toDict_keys f _ (List.mem_map_of_mem hkv)
  obtain ⟨v, hv⟩ := Option.isSome_iff_exists.1 ((h6 kv.1).2 hk)
  have := hsame kv hkv
  unfold Dict.get at this
  rw [hv] at this
  rw [hv, ← this]
  rfl

/-- What `sc_params.update` does, if it succeeds. -/
theorem update_iff (hp : (h.src s).sc_params = some p) (ho : Owned h s) {f : SnrArgs} {h' : Heap} :
    params_update W p f.toDict h = (.ok (), h') ↔
      (Agrees (h.par p).dict f ∧ h' = h) ∨
      (¬ Agrees (h.par p).dict f ∧ (h.src s).interpolate_sc = true ∧ ∃ c, curve W ((h.par p).dict.update f.toDict) = .ok c ∧
        h' = ((h.setPar p ⟨(h.par p).dict.update f.toDict, some s⟩).log (.interpolated s)).setSrc s
          { h.src s with sc := some c }) ∨
      (¬ Agrees (h.par p).dict f ∧ (h.src s).interpolate_sc = false ∧
        h' = (h.setPar p ⟨(h.par p).dict.update f.toDict, some s⟩).setSrc s { h.src s with sc := none }) := by
  obtain ⟨-, ho, h6, -⟩ := ho p hp
  by_cases ha : Agrees (h.par p).dict f
  · rw [params_update_same W ha]
    constructor
    · intro hh
      exact Or.inl ⟨ha, (Prod.mk.inj hh).2.symm⟩
    · rintro (⟨-, rfl⟩ | ⟨hn, -⟩ | ⟨hn, -⟩)
      · rfl
      · exact absurd ha hn
      · exact absurd ha hn
  · have hrun : params_update W p f.toDict h =
        re_interpolate W p (h.setPar p { h.par p with dict := (h.par p).dict.update f.toDict }) := by
      rcases params_update_run W p f.toDict h with ⟨⟨key, hk, hk'⟩, -⟩ | ⟨-, hsame, hr⟩ | ⟨-, -, hr⟩
      · exact absurd (toDict_keys f key hk) hk'
      · exact absurd (agrees_of_same h6 hsame) ha
      · exact hr
    rw [hrun, re_interpolate_run]
    simp only [setPar_par, Function.update_self, ho]
    rw [set_sc_run]
    simp only [setPar_src, hp, setPar_par, Function.update_self]
    rcases hi : (h.src s).interpolate_sc with _ | _
    · simp [ha, eq_comm]
    · rcases hc : curve W ((h.par p).dict.update f.toDict) with e | c
      · simp [ha]
      · simp [ha, eq_comm]

theorem match_of_update {a f f' : SnrArgs} {r : Bool} {h' : Heap} (hp : (h.src s).sc_params = some p)
    (hf : fill_args (h.par p).dict a = .ok f) (hf' : f' = if r then resolve_auto f else f)
    (hu : params_update W p f'.toDict h = (.ok (), h')) : match_params W s a r h = (.ok f', h') := by
  unfold match_params getSrcPar
  rw [bind_run, bind_run]
  simp only [getSrc, hp, attr, pure_run]
  rw [bind_run]
  simp only [getPar]
  rw [bind_run]
  simp only [lift_run, hf]
  rw [bind_run, ← hf', hu]
  rfl

/-- Filling in the arguments first and resolving `"auto"` afterwards gives the same arguments, parameters and curve as doing
both at once. -/
theorem match_two_steps {a f f' : SnrArgs} {h₁ h₂ : Heap} (hi : Inv W true h) (hi' : Inv W false h)
    (hm : match_params W s a false h = (.ok f, h₁)) (hm' : match_params W s f true h₁ = (.ok f', h₂)) :
    ∃ h₃, match_params W s a true h = (.ok f', h₃) ∧ h₃.src s = h₂.src s ∧
      ∀ p, (h.src s).sc_params = some p → (h₃.par p).dict.eq (h₂.par p).dict := by
  obtain ⟨p, f₀, hp, hp₁, hf₀, hff, hag⟩ := match_params_agrees hm
  simp only [Bool.false_eq_true, if_false] at hff
  subst hff
  obtain ⟨p', f₁, hp', hf₁, -, hu₁⟩ := match_params_ok hm
  rw [hp] at hp'
  cases hp'
  obtain ⟨p', f₂, hp', hf₂, hff, hu₂⟩ := match_params_ok hm'
  rw [hp₁] at hp'
  cases hp'
  rw [fill_args_within hag (Within.refl f)] at hf₂
  cases hf₂
  simp only [if_true] at hff
  by_cases hft : f.t_obs = .str "auto"
  · have hi₁ : Inv W false h₁ := by
      have := (inv_atoms W false).update p f.toDict h hi'
      rwa [hu₁] at this
    obtain ⟨-, hag₂, hp₂, h6₂, hsc, hsc', hi₂⟩ := match_resolves hi₁ hp₁ hag hft hm'
    have hown := (hi.sc s).1
    have h6 := (hown p hp).2.2.1
    obtain ⟨sc, p₁, he₁⟩ := (match_params_scOnly hm).src s
    obtain ⟨sc', p₂, he₂⟩ := (match_params_scOnly hm').src s
    rw [he₁] at he₂
    have hint : (h₂.src s).interpolate_sc = (h.src s).interpolate_sc := by rw [he₂]
    have hsrc : h₂.src s = { h.src s with sc := (h₂.src s).sc } := by
      rw [he₂] at hp₂ ⊢
      simp only at hp₂ ⊢
      rw [hp₂, ← hp]
    have hcur := (hi.sc s).2 p hp
    by_cases hsame : Agrees (h.par p).dict f'
    · refine ⟨h, match_of_update hp hf₀ (by simpa using hff) (params_update_same W hsame), ?_, fun q hq => ?_⟩
      · rw [hsrc]
        rcases hI : (h.src s).interpolate_sc with _ | _
        · rw [hsc' (hint.trans hI), ← (hcur.2 hI).resolve_right (by simp)]
        · obtain ⟨c, hc, hc'⟩ := hsc (hint.trans hI)
          rw [curve_congr W (sixKeys_eq h6₂ h6 hag₂ hsame)] at hc
          rw [hc', ← (hcur.1 hI c hc).resolve_right (by simp)]
      · rw [hp] at hq
        cases hq
        exact sixKeys_eq h6 h6₂ hsame hag₂
    · have hupd := update_agrees (h.par p).dict f'
      have h6' : SixKeys ((h.par p).dict.update f'.toDict) := ((hown p hp).2.2.update (toDict_keys f')).1
      rcases hI : (h.src s).interpolate_sc with _ | _
      · refine ⟨_, match_of_update hp hf₀ (by simpa using hff) ((update_iff hp hown).2 (Or.inr (Or.inr ⟨hsame, hI, rfl⟩))),
          ?_, fun q hq => ?_⟩
        · rw [hsrc, hsc' (hint.trans hI)]
          simp
        · rw [hp] at hq
          cases hq
          simp only [setSrc_par, setPar_par, Function.update_self]
          exact sixKeys_eq h6' h6₂ hupd hag₂
      · obtain ⟨c, hc, hc'⟩ := hsc (hint.trans hI)
        rw [curve_congr W (sixKeys_eq h6₂ h6' hag₂ hupd)] at hc
        refine ⟨_, match_of_update hp hf₀ (by simpa using hff)
          ((update_iff hp hown).2 (Or.inr (Or.inl ⟨hsame, hI, c, hc, rfl⟩))), ?_, fun q hq => ?_⟩
        · rw [hsrc, hc']
          simp
        · rw [hp] at hq
          cases hq
          change (Function.update h.par p _ p).dict.eq _
          rw [Function.update_self]
          exact sixKeys_eq h6' h6₂ hupd hag₂
  · rw [resolve_auto_of_ne hft] at hff
    subst hff
    rw [params_update_same W hag] at hu₂
    obtain ⟨-, rfl⟩ := Prod.mk.inj hu₂
    exact ⟨h₁, match_of_update hp hf₀ (by simp [resolve_auto_of_ne hft]) hu₁, rfl, fun q _ key => rfl⟩

/-- Matching does not look at the class. -/
theorem match_withClass {a f : SnrArgs} {r : Bool} {h₁ : Heap} (c : Cls) (hown : Owned h s)
    (hm : match_params W s a r h = (.ok f, h₁)) :
    ∃ k₁, match_params W s a r (withClass h s c) = (.ok f, k₁) ∧ k₁.src s = { h₁.src s with cls := c } ∧ k₁.par = h₁.par := by
  obtain ⟨p, f₀, hp, hf₀, hff, hu⟩ := match_params_ok hm
  have hk : (withClass h s c).src s = { h.src s with cls := c } := by simp [withClass]
  have hpk : ((withClass h s c).src s).sc_params = some p := by rw [hk]; exact hp
  have hownk : Owned (withClass h s c) s := by
    intro q hq
    rw [hk] at hq
    exact hown q hq
  rcases (update_iff hp hown).1 hu with ⟨ha, rfl⟩ | ⟨ha, hI, sc, hc, rfl⟩ | ⟨ha, hI, rfl⟩
  · exact ⟨_, match_of_update hpk hf₀ hff (params_update_same W ha), hk, rfl⟩
  · refine ⟨_, match_of_update hpk hf₀ hff ((update_iff hpk hownk).2
      (Or.inr (Or.inl ⟨ha, by rw [hk]; exact hI, sc, hc, rfl⟩))), ?_, rfl⟩
    simp [withClass]
  · refine ⟨_, match_of_update hpk hf₀ hff ((update_iff hpk hownk).2
      (Or.inr (Or.inr ⟨ha, by rw [hk]; exact hI, rfl⟩))), ?_, rfl⟩
    simp [withClass]

end Legwork.source
