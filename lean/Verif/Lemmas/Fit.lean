import Verif.Model.Optim
import Verif.Props.C64
/-! # Running `fit` -/
set_option autoImplicit false
namespace Imodal
variable {ν C R : Type}

theorem fitCallbacks_ok (m : FitModel ν C) (disp : Bool) (hm : (disp && !m.hasDeformationModules) = false)
    (ds : List (Dict String C)) (s : FitState ν C) :
    fitCallbacks m disp ds s = (.ok (), { s with
      it := s.it + ds.length
      costs := match s.costs with
        | some [] => some []
        | some (e :: d) => some (ds.foldl appendInDictOfList (e :: d))
        | none => none }) := by
  induction ds generalizing s with
  | nil =>
    obtain ⟨o, c, i⟩ := s
    cases c with
    | none => rfl
    | some c => cases c <;> rfl
  | cons d ds ih =>
    obtain ⟨o, c, i⟩ := s
    simp only [fitCallbacks, Prog.bind_run, fitCallback, hm]
    rw [if_neg (by simp)]
    simp only [ih]
    cases c with
    | none => simp only [List.length_cons]; congr 2; omega
    | some c =>
      cases c with
      | nil => simp only [List.length_cons]; congr 2; omega
      | cons e c =>
        have hne : appendInDictOfList (e :: c) d ≠ [] := by
          have : ∀ (d : Dict String C) (b : Dict String (List C)), b ≠ [] →
              appendInDictOfList b d ≠ [] := by
            intro d
            unfold appendInDictOfList
            induction d with
            | nil => intro b hb; exact hb
            | cons x d ih =>
              intro b hb
              refine ih _ ?_
              intro h0
              have := keys_appendEntry b x
              rw [h0] at this
              cases b with
              | nil => exact hb rfl
              | cons y b =>
                by_cases hx : x.1 ∈ Dict.keys (y :: b)
                · rw [if_pos hx] at this; simp [Dict.keys] at this
                · rw [if_neg hx] at this; simp [Dict.keys] at this
          exact this d _ (by simp)
        cases h : appendInDictOfList (e :: c) d with
        | nil => exact absurd h hne
        | cons e' c' => simp only [List.length_cons, List.foldl_cons, h]; congr 2; omega

/-- What `fit` does, in one equation per case. -/
theorem fit_run (o : FitOptimizer ν C R) (m : FitModel ν C) (disp : Bool) (s : FitState ν C) :
    fit o m disp s =
      let st := (fitOptions s.options).1
      let rest := (fitOptions s.options).2
      let tail : Prog (FitState ν C) R := do
        Prog.lift (bindCall o.params 7 ["miniter", "options"])
        fitCallbacks m disp (o.run st rest).1
        Prog.lift (o.run st rest).2
      if s.costs.isSome || disp then
        match m.evaluate st with
        | .error e => (.error e, { s with options := rest })
        | .ok c0 => tail { s with
            options := rest, costs := s.costs.map (fun c => appendInDictOfList c c0) }
      else tail { s with options := rest } := by
  unfold fit
  simp only [Prog.bind_run, Prog.get_run, Prog.modify_run]
  by_cases h : (s.costs.isSome || disp) = true
  · rw [if_pos h, if_pos h]
    simp only [Prog.bind_run, Prog.lift_run]
    cases m.evaluate (fitOptions s.options).1 with
    | error e => rfl
    | ok c0 => simp only [Prog.modify_run]
  · rw [if_neg h, if_neg h]
    simp only [Prog.pure_run, Prog.bind_run, Prog.lift_run]

end Imodal
