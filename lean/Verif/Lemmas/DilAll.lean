import Verif.Lemmas.DilMod
import Verif.Lemmas.RigidAll
/-!
# All modules in another unit of length
-/
set_option autoImplicit false
namespace Imodal
noncomputable section
variable {d : Nat} {s : ℝ}

mutual
theorem manifold_dil : (m : DefModule d) → (m.dilate s).manifold = m.manifold.dilate s
  | .translations m => by simp only [DefModule.dilate, DefModule.manifold, Translations.manifold, Mfd.dilate]
  | .implicit0 m => by simp only [DefModule.dilate, DefModule.manifold, Implicit0.manifold, Mfd.dilate]
  | .oriented m => by simp only [DefModule.dilate, DefModule.manifold, Oriented.manifold, Mfd.dilate]
  | .constrained m => by simp only [DefModule.dilate, DefModule.manifold, Constrained.manifold, Mfd.dilate]
  | .globalTranslation m => by simp only [DefModule.dilate, DefModule.manifold, GlobalTranslation.manifold, Mfd.dilate]
  | .linear m => by simp only [DefModule.dilate, DefModule.manifold, Linear.manifold, Mfd.dilate]
  | .implicit1 m => by simp only [DefModule.dilate, DefModule.manifold, Implicit1.manifold, Mfd.dilate]
  | .divFree m => by simp only [DefModule.dilate, DefModule.manifold, DivFree.manifold, Mfd.dilate]
  | .arap m => by simp only [DefModule.dilate, DefModule.manifold, Arap.manifold, Mfd.dilate]
  | .silent man => by simp only [DefModule.dilate, DefModule.manifold]
  | .compound ms => by simp only [DefModule.dilate, DefModule.manifold, Mfd.dilate, manifolds_dil ms]
theorem manifolds_dil : (ms : List (DefModule d)) → DefModule.manifolds (DefModule.dilateAll s ms) = Mfd.dilateAll s (DefModule.manifolds ms)
  | [] => by simp only [DefModule.dilateAll, DefModule.manifolds, Mfd.dilateAll]
  | m :: ms => by simp only [DefModule.dilateAll, DefModule.manifolds, Mfd.dilateAll, manifold_dil m, manifolds_dil ms]
end

mutual
theorem controls_dil : (m : DefModule d) → (m.dilate s).controls = m.dilateCtrl s m.controls
  | .translations m => by simp only [DefModule.dilate, DefModule.controls, DefModule.dilateCtrl]
  | .implicit0 m => by simp only [DefModule.dilate, DefModule.controls, DefModule.dilateCtrl]
  | .oriented m => by simp only [DefModule.dilate, DefModule.controls, DefModule.dilateCtrl]
  | .constrained m => by simp only [DefModule.dilate, DefModule.controls, DefModule.dilateCtrl]
  | .globalTranslation m => by simp only [DefModule.dilate, DefModule.controls, DefModule.dilateCtrl]
  | .linear m => by simp only [DefModule.dilate, DefModule.controls, DefModule.dilateCtrl]
  | .implicit1 m => by simp only [DefModule.dilate, DefModule.controls, DefModule.dilateCtrl]
  | .divFree m => by simp only [DefModule.dilate, DefModule.controls, DefModule.dilateCtrl]
  | .arap m => by simp only [DefModule.dilate, DefModule.controls, DefModule.dilateCtrl]
  | .silent man => by simp only [DefModule.dilate, DefModule.controls, DefModule.dilateCtrl]
  | .compound ms => by simp only [DefModule.dilate, DefModule.controls, DefModule.dilateCtrl, controlsAll_dil ms]
theorem controlsAll_dil : (ms : List (DefModule d)) → DefModule.controlsAll (DefModule.dilateAll s ms) = DefModule.dilateCtrls s ms (DefModule.controlsAll ms)
  | [] => by simp only [DefModule.dilateAll, DefModule.controlsAll, DefModule.dilateCtrls]
  | m :: ms => by simp only [DefModule.dilateAll, DefModule.controlsAll, DefModule.dilateCtrls, controls_dil m, controlsAll_dil ms]
end

mutual
theorem field_dil (hs : s ≠ 0) : (m : DefModule d) → DilPy s s m.field (m.dilate s).field
  | .translations m => by simp only [DefModule.dilate, DefModule.field]; exact .inr ⟨_, _, rfl, rfl, m.field_dil hs⟩
  | .implicit0 m => by simp only [DefModule.dilate, DefModule.field]; exact .inr ⟨_, _, rfl, rfl, m.field_dil hs⟩
  | .oriented m => by simp only [DefModule.dilate, DefModule.field]; exact .inr ⟨_, _, rfl, rfl, m.field_dil hs⟩
  | .constrained m => by simp only [DefModule.dilate, DefModule.field]; exact .inr ⟨_, _, rfl, rfl, m.field_dil hs⟩
  | .globalTranslation m => by simp only [DefModule.dilate, DefModule.field]; exact .inr ⟨_, _, rfl, rfl, m.field_dil⟩
  | .linear m => by simp only [DefModule.dilate, DefModule.field]; exact .inr ⟨_, _, rfl, rfl, m.field_dil hs⟩
  | .implicit1 m => by simp only [DefModule.dilate, DefModule.field]; exact m.field_dil hs
  | .divFree m => by simp only [DefModule.dilate, DefModule.field]; exact m.field_dil hs
  | .arap m => by simp only [DefModule.dilate, DefModule.field]; exact m.field_dil hs
  | .silent man => by simp only [DefModule.dilate, DefModule.field]; exact .inr ⟨_, _, rfl, rfl, dil_null⟩
  | .compound ms => by
    simp only [DefModule.dilate, DefModule.field]
    rcases fields_dil hs ms with ⟨e, h1, h2⟩ | ⟨fs, fs', h1, h2, h3⟩
    · rw [h1, h2]; exact .inl ⟨_, rfl, rfl⟩
    · rw [h1, h2]; exact dilPy_mkSum h3
theorem fields_dil (hs : s ≠ 0) : (ms : List (DefModule d)) →
    DilAll s s (DefModule.fields ms) (DefModule.fields (DefModule.dilateAll s ms))
  | [] => by simp only [DefModule.dilateAll, DefModule.fields]; exact .inr ⟨_, _, rfl, rfl, .nil⟩
  | m :: ms => by
    simp only [DefModule.dilateAll, DefModule.fields]
    rcases field_dil hs m with ⟨e, h1, h2⟩ | ⟨f, f', h1, h2, h3⟩
    · rw [h1, h2]; exact .inl ⟨_, rfl, rfl⟩
    · rw [h1, h2]
      rcases fields_dil hs ms with ⟨e, k1, k2⟩ | ⟨fs, fs', k1, k2, k3⟩
      · rw [k1, k2]; exact .inl ⟨_, rfl, rfl⟩
      · rw [k1, k2]; exact .inr ⟨_, _, rfl, rfl, .cons h3 k3⟩
end

mutual
theorem cost_dil (hs : s ≠ 0) : (m : DefModule d) → (m.dilate s).cost = m.cost.map (s ^ 2 * ·)
  | .translations m => by
    simp only [DefModule.dilate, DefModule.cost]; exact congrArg Except.ok (m.cost_dil hs)
  | .implicit0 m => by
    simp only [DefModule.dilate, DefModule.cost]; exact congrArg Except.ok (m.cost_dil hs)
  | .oriented m => by
    simp only [DefModule.dilate, DefModule.cost]; exact congrArg Except.ok (m.cost_dil hs)
  | .constrained m => by
    simp only [DefModule.dilate, DefModule.cost]; exact congrArg Except.ok (m.cost_dil hs)
  | .globalTranslation m => by
    simp only [DefModule.dilate, DefModule.cost]; exact congrArg Except.ok (m.cost_dil)
  | .linear m => by
    simp only [DefModule.dilate, DefModule.cost]; exact congrArg Except.ok (m.cost_dil)
  | .implicit1 m => by simp only [DefModule.dilate, DefModule.cost]; exact m.cost_dil
  | .divFree m => by simp only [DefModule.dilate, DefModule.cost]; exact m.cost_dil
  | .arap m => by simp only [DefModule.dilate, DefModule.cost]; exact m.cost_dil
  | .silent man => by simp only [DefModule.dilate, DefModule.cost, Except.map, mul_zero]
  | .compound ms => by
    simp only [DefModule.dilate, DefModule.cost]
    exact costs_dil hs ms
theorem costs_dil (hs : s ≠ 0) : (ms : List (DefModule d)) → DefModule.costs (DefModule.dilateAll s ms) = (DefModule.costs ms).map (s ^ 2 * ·)
  | [] => by simp only [DefModule.dilateAll, DefModule.costs, Except.map, mul_zero]
  | m :: ms => by
    simp only [DefModule.dilateAll, DefModule.costs]
    rw [cost_dil hs m, costs_dil hs ms]
    cases m.cost with
    | error e => rfl
    | ok x => cases DefModule.costs ms with
      | error e => rfl
      | ok y => simp only [Except.map, mul_add]
end

mutual
theorem geodesic_dil (hs : s ≠ 0) (man : Mfd d) : (m : DefModule d) →
    DefModule.geodesic (man.dilate s) (m.dilate s) = (DefModule.geodesic man m).map (DefModule.dilate s)
  | .translations m => by
    simp only [DefModule.dilate, DefModule.geodesic]
    exact (congrArg (wrap _) (m.geodesic_dil hs man)).trans (wrap_map _ _ _ (fun x => by rw [DefModule.dilate]; rfl) _)
  | .implicit0 m => by
    simp only [DefModule.dilate, DefModule.geodesic]
    exact (congrArg (wrap _) (m.geodesic_dil hs man)).trans (wrap_map _ _ _ (fun x => by rw [DefModule.dilate]; rfl) _)
  | .oriented m => by
    simp only [DefModule.dilate, DefModule.geodesic]
    exact (congrArg (wrap _) (m.geodesic_dil hs man)).trans (wrap_map _ _ _ (fun x => by rw [DefModule.dilate]; rfl) _)
  | .constrained m => by
    simp only [DefModule.dilate, DefModule.geodesic]
    exact (congrArg (wrap _) (m.geodesic_dil hs man)).trans (wrap_map _ _ _ (fun x => by rw [DefModule.dilate]; rfl) _)
  | .globalTranslation m => by
    simp only [DefModule.dilate, DefModule.geodesic]
    exact (congrArg (wrap _) (m.geodesic_dil hs man)).trans (wrap_map _ _ _ (fun x => by rw [DefModule.dilate]; rfl) _)
  | .linear m => by
    simp only [DefModule.dilate, DefModule.geodesic]
    exact (congrArg (wrap _) (m.geodesic_dil hs man)).trans (wrap_map _ _ _ (fun x => by rw [DefModule.dilate]; rfl) _)
  | .implicit1 m => by
    simp only [DefModule.dilate, DefModule.geodesic]
    exact (congrArg (wrap _) (m.geodesic_dil hs man)).trans (wrap_map _ _ _ (fun x => by rw [DefModule.dilate]; rfl) _)
  | .divFree m => by
    simp only [DefModule.dilate, DefModule.geodesic]
    exact (congrArg (wrap _) (m.geodesic_dil hs man)).trans (wrap_map _ _ _ (fun x => by rw [DefModule.dilate]; rfl) _)
  | .arap m => by
    simp only [DefModule.dilate, DefModule.geodesic]
    exact (congrArg (wrap _) (m.geodesic_dil hs man)).trans (wrap_map _ _ _ (fun x => by rw [DefModule.dilate]; rfl) _)
  | .silent M => by simp only [DefModule.dilate, DefModule.geodesic, Except.map]
  | .compound ms => by
    simp only [DefModule.dilate, DefModule.geodesic]
    rw [geodesics_dil hs man ms]
    cases DefModule.geodesics man ms with
    | error e => rfl
    | ok fs => simp only [Except.map, DefModule.dilate]
theorem geodesics_dil (hs : s ≠ 0) (man : Mfd d) : (ms : List (DefModule d)) →
    DefModule.geodesics (man.dilate s) (DefModule.dilateAll s ms) = (DefModule.geodesics man ms).map (DefModule.dilateAll s)
  | [] => by simp only [DefModule.dilateAll, DefModule.geodesics, Except.map]
  | m :: ms => by
    simp only [DefModule.dilateAll, DefModule.geodesics]
    rw [geodesic_dil hs man m, geodesics_dil hs man ms]
    cases DefModule.geodesic man m with
    | error e => rfl
    | ok f =>
      cases DefModule.geodesics man ms with
      | error e => rfl
      | ok fs => simp only [Except.map, DefModule.dilateAll]
end

theorem modDilateAll_length : (ms : List (DefModule d)) → (DefModule.dilateAll s ms).length = ms.length
  | [] => by simp only [DefModule.dilateAll]
  | m :: ms => by simp only [DefModule.dilateAll, List.length_cons, modDilateAll_length ms]
theorem dilateCtrls_length : (ms : List (DefModule d)) → (hs : List (Ctrl d)) → (DefModule.dilateCtrls s ms hs).length = hs.length
  | [], _ => by simp only [DefModule.dilateCtrls]
  | _ :: _, [] => by simp only [DefModule.dilateCtrls]
  | m :: ms, h :: hs => by simp only [DefModule.dilateCtrls, List.length_cons, dilateCtrls_length ms hs]

mutual
theorem fillControls_dil (hs : s ≠ 0) : (m : DefModule d) → (c : Ctrl d) →
    (m.dilate s).fillControls (m.dilateCtrl s c) = (m.fillControls c).map (DefModule.dilate s)
  | @DefModule.translations _ n m, c => by
    cases c with
    | @vecs n' h =>
      simp only [DefModule.dilate, DefModule.dilateCtrl, DefModule.fillControls]
      by_cases e : n' = n
      · rw [dif_pos e, dif_pos e]; simp only [Except.map, DefModule.dilate]
      · rw [dif_neg e, dif_neg e]; rfl
    | _ => simp only [DefModule.dilate, DefModule.dilateCtrl, DefModule.fillControls, Except.map]
  | @DefModule.implicit0 _ n m, c => by
    cases c with
    | @vecs n' h =>
      simp only [DefModule.dilate, DefModule.dilateCtrl, DefModule.fillControls]
      by_cases e : n' = n
      · rw [dif_pos e, dif_pos e]; simp only [Except.map, DefModule.dilate]
      · rw [dif_neg e, dif_neg e]; rfl
    | _ => simp only [DefModule.dilate, DefModule.dilateCtrl, DefModule.fillControls, Except.map]
  | @DefModule.oriented _ n m, c => by
    cases c with
    | @scalars n' h =>
      simp only [DefModule.dilate, DefModule.dilateCtrl, DefModule.fillControls]
      by_cases e : n' = n
      · rw [dif_pos e, dif_pos e]; simp only [Except.map, DefModule.dilate]
      · rw [dif_neg e, dif_neg e]; rfl
    | _ => simp only [DefModule.dilate, DefModule.dilateCtrl, DefModule.fillControls, Except.map]
  | .constrained m, c => by
    cases c <;> simp only [DefModule.dilate, DefModule.dilateCtrl, DefModule.fillControls, Except.map]
  | .globalTranslation m, c => by
    cases c <;> simp only [DefModule.dilate, DefModule.dilateCtrl, DefModule.fillControls, Except.map]
  | .linear m, c => by
    cases c <;> simp only [DefModule.dilate, DefModule.dilateCtrl, DefModule.fillControls, Except.map]
  | @DefModule.implicit1 _ _ p m, c => by
    cases c with
    | @scalars p' h =>
      simp only [DefModule.dilate, DefModule.dilateCtrl, DefModule.fillControls]
      by_cases e : p' = p
      · rw [dif_pos e, dif_pos e]
        exact (congrArg (wrap _) (m.fill_dil hs fun i => h (e ▸ i))).trans (wrap_map _ _ _ (fun x => by rw [DefModule.dilate]; rfl) _)
      · rw [dif_neg e, dif_neg e]; rfl
    | _ => simp only [DefModule.dilate, DefModule.dilateCtrl, DefModule.fillControls, Except.map]
  | @DefModule.divFree _ _ P m, c => by
    cases c with
    | @vecs p' h =>
      simp only [DefModule.dilate, DefModule.dilateCtrl, DefModule.fillControls]
      by_cases e : p' = P
      · rw [dif_pos e, dif_pos e]
        exact (congrArg (wrap _) (m.fill_dil hs fun i => h (e ▸ i))).trans (wrap_map _ _ _ (fun x => by rw [DefModule.dilate]; rfl) _)
      · rw [dif_neg e, dif_neg e]; rfl
    | _ => simp only [DefModule.dilate, DefModule.dilateCtrl, DefModule.fillControls, Except.map]
  | @DefModule.arap _ _ P m, c => by
    cases c with
    | @vecs p' h =>
      simp only [DefModule.dilate, DefModule.dilateCtrl, DefModule.fillControls]
      by_cases e : p' = P
      · rw [dif_pos e, dif_pos e]
        exact (congrArg (wrap _) (m.fill_dil hs fun i => h (e ▸ i))).trans (wrap_map _ _ _ (fun x => by rw [DefModule.dilate]; rfl) _)
      · rw [dif_neg e, dif_neg e]; rfl
    | _ => simp only [DefModule.dilate, DefModule.dilateCtrl, DefModule.fillControls, Except.map]
  | .silent M, c => by
    cases c <;> simp only [DefModule.dilate, DefModule.dilateCtrl, DefModule.fillControls, Except.map]
  | .compound ms, c => by
    cases c with
    | list cs =>
      simp only [DefModule.dilate, DefModule.dilateCtrl, DefModule.fillControls]
      rw [modDilateAll_length, dilateCtrls_length]
      by_cases e : cs.length = ms.length
      · rw [if_pos e, if_pos e, fillAll_dil hs ms cs]
        cases DefModule.fillAll ms cs with
        | error e => rfl
        | ok ms' => simp only [Except.map, DefModule.dilate]
      · rw [if_neg e, if_neg e]; rfl
    | _ => simp only [DefModule.dilate, DefModule.dilateCtrl, DefModule.fillControls, Except.map]
theorem fillAll_dil (hs : s ≠ 0) : (ms : List (DefModule d)) → (cs : List (Ctrl d)) →
    DefModule.fillAll (DefModule.dilateAll s ms) (DefModule.dilateCtrls s ms cs) = (DefModule.fillAll ms cs).map (DefModule.dilateAll s)
  | [], [] => by simp only [DefModule.dilateAll, DefModule.dilateCtrls, DefModule.fillAll, Except.map]
  | [], h :: cs => by simp only [DefModule.dilateAll, DefModule.dilateCtrls, DefModule.fillAll, Except.map]
  | m :: ms, [] => by simp only [DefModule.dilateAll, DefModule.dilateCtrls, DefModule.fillAll, Except.map]
  | m :: ms, h :: cs => by
    simp only [DefModule.dilateAll, DefModule.dilateCtrls, DefModule.fillAll]
    rw [fillControls_dil hs m h, fillAll_dil hs ms cs]
    cases m.fillControls h with
    | error e => rfl
    | ok f =>
      cases DefModule.fillAll ms cs with
      | error e => rfl
      | ok fs => simp only [Except.map, DefModule.dilateAll]
end

end
end Imodal
