import Verif.Lemmas.Fit
/-!
# C43 Fitting does not modify the caller's options

**False for the code**: `fit` deletes 'shoot_solver', 'shoot_it' and 'tol' from the
dictionary it receives (fitter.py 44-54). `C43_options_partial` describes what remains,
`C43_unaffected_partial` is the property for options without these names (the default
dictionary included), `C43_disagreement` shows that the same dictionary gives other
settings the second time.
-/
set_option autoImplicit false
namespace Imodal
variable {ν C R : Type}

theorem Dict.get?_erase {κ V : Type} [DecidableEq κ] (d : Dict κ V) (k k' : κ) :
    (d.erase k).get? k' = if k' = k then none else d.get? k' := by
  unfold Dict.erase
  induction d with
  | nil => simp [Dict.get?]
  | cons e d ih =>
    rw [List.filter_cons]
    by_cases h : e.1 = k
    · simp only [h, ne_eq, not_true_eq_false, decide_false, Bool.false_eq_true, if_false] at ih ⊢
      rw [ih, Dict.get?_cons]
      by_cases h' : k' = k
      · simp [h']
      · rw [if_neg h', if_neg h', if_neg]
        rw [h]; exact Ne.symm h'
    · simp only [ne_eq, h, not_false_eq_true, decide_true, if_true] at ih ⊢
      rw [Dict.get?_cons, ih, Dict.get?_cons]
      by_cases h' : e.1 = k'
      · rw [if_pos h', if_pos h', if_neg (by rw [← h']; exact h)]
      · rw [if_neg h', if_neg h']

theorem Dict.pop_fst {κ V : Type} [DecidableEq κ] (d : Dict κ V) (k : κ) :
    (d.pop k).1 = d.get? k := by
  unfold Dict.pop; cases d.get? k <;> rfl

theorem Dict.get?_pop_snd {κ V : Type} [DecidableEq κ] (d : Dict κ V) (k k' : κ) :
    (d.pop k).2.get? k' = if k' = k then none else d.get? k' := by
  unfold Dict.pop
  cases h : d.get? k with
  | some v => exact Dict.get?_erase d k k'
  | none =>
    by_cases h' : k' = k
    · simp [h', h]
    · simp [h']

theorem fitOptions_fst (o : Dict String ν) :
    (fitOptions o).1 = ⟨o.get? "shoot_solver", o.get? "shoot_it", o.get? "tol"⟩ := by
  unfold fitOptions
  simp only [Dict.pop_fst, Dict.get?_pop_snd]
  simp

theorem fitOptions_snd (o : Dict String ν) (k : String) :
    (fitOptions o).2.get? k =
      if k = "shoot_solver" ∨ k = "shoot_it" ∨ k = "tol" then none else o.get? k := by
  unfold fitOptions
  simp only [Dict.get?_pop_snd]
  by_cases h1 : k = "tol"
  · simp [h1]
  · by_cases h2 : k = "shoot_it"
    · simp [h2]
    · by_cases h3 : k = "shoot_solver" <;> simp [h1, h2, h3]

/-- The options left after any fit, whatever the optimiser, model and outcome. -/
theorem fit_options (o : FitOptimizer ν C R) (m : FitModel ν C) (disp : Bool) (s : FitState ν C) :
    (fit o m disp s).2.options = (fitOptions s.options).2 := by
  have hcb : ∀ (ds : List (Dict String C)) (s : FitState ν C),
      (fitCallbacks m disp ds s).2.options = s.options := by
    intro ds
    induction ds with
    | nil => intro s; rfl
    | cons d ds ih =>
      intro s
      simp only [fitCallbacks, Prog.bind_run, fitCallback]
      split
      · rename_i h
        split at h
        · cases h
        · cases h; rw [ih]
      · rename_i h
        split at h
        · cases h; rfl
        · cases h
  have htail : ∀ (s' : FitState ν C) (st : FitSettings ν) (rest : Dict String ν),
      (((do
        Prog.lift (bindCall o.params 7 ["miniter", "options"])
        fitCallbacks m disp (o.run st rest).1
        Prog.lift (o.run st rest).2) : Prog (FitState ν C) R) s').2.options = s'.options := by
    intro s' st rest
    simp only [Prog.bind_run, Prog.lift_run]
    cases bindCall o.params 7 ["miniter", "options"] with
    | error e => rfl
    | ok _ =>
      have := hcb (o.run st rest).1 s'
      cases h : fitCallbacks m disp (o.run st rest).1 s' with
      | mk a b =>
        rw [h] at this
        cases a <;> (simp only [h]; exact this)
  rw [fit_run]
  simp only
  split
  · cases m.evaluate (fitOptions s.options).1 with
    | error e => rfl
    | ok c0 => exact htail _ _ _
  · exact htail _ _ _

/-- A fit uses the settings found in the options, and removes exactly the three names from
the dictionary it received; all other entries stay. -/
theorem C43_options_partial (o : FitOptimizer ν C R) (m : FitModel ν C) (disp : Bool) (s : FitState ν C)
    (k : String) :
    (fit o m disp s).2.options.get? k =
      if k = "shoot_solver" ∨ k = "shoot_it" ∨ k = "tol" then none else s.options.get? k := by
  rw [fit_options, fitOptions_snd]

/-- Options without the three names are left untouched by any number of fits; in particular
the shared default dictionary stays empty. -/
theorem C43_unaffected_partial (runs : List (FitOptimizer ν C R × FitModel ν C × Bool)) (s : FitState ν C)
    (h : ∀ k, k = "shoot_solver" ∨ k = "shoot_it" ∨ k = "tol" → s.options.get? k = none) :
    (runs.foldl (fun s r => (fit r.1 r.2.1 r.2.2 s).2) s).options = s.options := by
  induction runs generalizing s with
  | nil => rfl
  | cons r runs ih =>
    rw [List.foldl_cons]
    have h1 : (fit r.1 r.2.1 r.2.2 s).2.options = s.options := by
      rw [fit_options]
      simp [fitOptions, Dict.pop, h]
    rw [ih _ (by rw [h1]; exact h), h1]

/-- **Disagreement.** For every options dictionary holding one of the three names, a fit
changes it, and a second fit with it uses the built-in defaults instead. -/
theorem C43_disagreement (o : FitOptimizer ν C R) (m : FitModel ν C) (disp : Bool) (s : FitState ν C)
    (h : ∃ k, (k = "shoot_solver" ∨ k = "shoot_it" ∨ k = "tol") ∧ (s.options.get? k).isSome) :
    (fit o m disp s).2.options ≠ s.options ∧
    (fitOptions (fit o m disp s).2.options).1 = ⟨none, none, none⟩ ∧
    (fitOptions s.options).1 ≠ ⟨none, none, none⟩ := by
  obtain ⟨k, hk, hs⟩ := h
  refine ⟨fun he => ?_, ?_, ?_⟩
  · have := C43_options_partial o m disp s k
    rw [he, if_pos hk] at this
    rw [this] at hs
    cases hs
  · rw [fitOptions_fst]
    simp [C43_options_partial]
  · rw [fitOptions_fst]
    intro he
    simp only [FitSettings.mk.injEq] at he
    rcases hk with rfl | rfl | rfl
    · rw [he.1] at hs; cases hs
    · rw [he.2.1] at hs; cases hs
    · rw [he.2.2] at hs; cases hs

example : (fit (C := Nat) (R := Unit) ⟨torchParams, fun _ _ => ([], .ok ())⟩ ⟨fun _ => .ok [], true⟩ true
    ⟨[("tol", 3), ("lr", 4)], none, 0⟩).2.options = [("lr", 4)] := by
  rw [fit_run]; rfl

end Imodal
