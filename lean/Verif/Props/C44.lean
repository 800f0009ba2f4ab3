import Verif.Lemmas.Fit
/-!
# C44 Fitting runs with the default optimiser

**False for the code**: `fit` (fitter.py 92) passes the keyword `miniter`, which the scipy
`optimize` (optimizer_scipy.py 29) does not accept. `C44_scipy_disagreement`: with every
scipy optimiser, the default included, every fit raises. `C44_torch_partial`: the three
others are run.
-/
set_option autoImplicit false
namespace Imodal
variable {ν C R : Type}

/-- For the optimisers registered under 'torch_sgd', 'torch_lbfgs' and 'gd', a fit whose
initial evaluation succeeds on a model that has deformation modules runs the optimiser:
it returns the optimiser's result and counts one iteration per callback. -/
theorem C44_torch_partial (name : String) (hname : name = "torch_sgd" ∨ name = "torch_lbfgs" ∨ name = "gd")
    (o : FitOptimizer ν C R) (ho : registeredOptimizers.get? name = some o.params)
    (m : FitModel ν C) (hm : m.hasDeformationModules = true) (disp : Bool) (s : FitState ν C)
    (he : ∃ c0, m.evaluate (fitOptions s.options).1 = .ok c0) :
    (fit o m disp s).1 = (o.run (fitOptions s.options).1 (fitOptions s.options).2).2 ∧
    (fit o m disp s).2.it =
      s.it + (o.run (fitOptions s.options).1 (fitOptions s.options).2).1.length := by
  have hp : o.params = torchParams := by
    rcases hname with rfl | rfl | rfl <;> (symm; simpa [registeredOptimizers, Dict.get?] using ho)
  obtain ⟨c0, he⟩ := he
  have hb : bindCall o.params 7 ["miniter", "options"] = .ok () := by
    rw [hp]; rfl
  rw [fit_run]
  simp only [he, hb, Prog.bind_run, Prog.lift_run, fitCallbacks_ok m disp (by simp [hm])]
  split <;> exact ⟨rfl, rfl⟩

/-- **Disagreement.** With every other registered optimiser, in particular the default one,
every fit raises whatever the model, options and settings; no iteration is done. With a
successful initial evaluation the exception is a TypeError. -/
theorem C44_scipy_disagreement (name : String) (o : FitOptimizer ν C R)
    (ho : registeredOptimizers.get? name = some o.params)
    (hname : name ≠ "torch_sgd" ∧ name ≠ "torch_lbfgs" ∧ name ≠ "gd")
    (m : FitModel ν C) (disp : Bool) (s : FitState ν C) :
    (∃ e, (fit o m disp s).1 = .error e) ∧ (fit o m disp s).2.it = s.it ∧
    ((∃ c0, m.evaluate (fitOptions s.options).1 = .ok c0) → (fit o m disp s).1 = .error .type) := by
  have hp : o.params = scipyParams := by
    simp only [registeredOptimizers, Dict.get?, List.find?_cons] at ho
    have h1 : ("torch_sgd" = name) = False := by simpa using hname.1.symm
    have h2 : ("torch_lbfgs" = name) = False := by simpa using hname.2.1.symm
    have h3 : ("gd" = name) = False := by simpa using hname.2.2.symm
    simp only [h1, h2, h3] at ho
    repeat' split at ho
    all_goals simp_all
  have hb : bindCall o.params 7 ["miniter", "options"] = .error .type := by
    rw [hp]; rfl
  rw [fit_run]
  simp only [hb, Prog.bind_run, Prog.lift_run]
  by_cases hc : (s.costs.isSome || disp) = true
  · rw [if_pos hc]
    cases he : m.evaluate (fitOptions s.options).1 with
    | error e => exact ⟨⟨e, rfl⟩, rfl, by rintro ⟨c0, h⟩; cases h⟩
    | ok c0 => exact ⟨⟨_, rfl⟩, rfl, fun _ => rfl⟩
  · rw [if_neg hc]
    exact ⟨⟨_, rfl⟩, rfl, fun _ => rfl⟩

/-- The default optimiser is one of the optimisers with which every fit raises. -/
theorem C44_default_raises (o : FitOptimizer ν C R)
    (ho : registeredOptimizers.get?
      (OptRegistry.initial (μ := Unit) (ω := Unit)).getDefault = some o.params)
    (m : FitModel ν C) (disp : Bool) (s : FitState ν C) : ∃ e, (fit o m disp s).1 = .error e :=
  (C44_scipy_disagreement _ o ho ⟨by decide, by decide, by decide⟩ m disp s).1

/-- On a model without deformation modules (the atlas model) a fit with display raises as
soon as one iteration is reported. -/
theorem C44_atlas_disp (o : FitOptimizer ν C R) (m : FitModel ν C)
    (hm : m.hasDeformationModules = false) (s : FitState ν C)
    (hrun : (o.run (fitOptions s.options).1 (fitOptions s.options).2).1 ≠ []) :
    ∃ e, (fit o m true s).1 = .error e := by
  rw [fit_run]
  simp only [Bool.or_true, if_true]
  cases m.evaluate (fitOptions s.options).1 with
  | error e => exact ⟨e, rfl⟩
  | ok c0 =>
    simp only [Prog.bind_run, Prog.lift_run]
    cases bindCall o.params 7 ["miniter", "options"] with
    | error e => exact ⟨e, rfl⟩
    | ok _ =>
      cases h : (o.run (fitOptions s.options).1 (fitOptions s.options).2).1 with
      | nil => exact absurd h hrun
      | cons d ds =>
        simp only [fitCallbacks, Prog.bind_run, fitCallback, hm]
        exact ⟨.attribute, rfl⟩

example : registeredOptimizers.get? "scipy_l-bfgs-b" = some scipyParams := by decide
example : registeredOptimizers.get? "gd" = some torchParams := by decide

end Imodal
