import Verif.Lemmas.ScaleMod
import Verif.Lemmas.RigidAll
/-!
# Scaling momenta and controls of all modules
-/
set_option autoImplicit false
namespace Imodal
noncomputable section
variable {d : Nat} (a : ℝ)

mutual
theorem manifold_scale : (m : DefModule d) → (m.scale a).manifold = m.manifold.scale a
  | .translations m => by simp only [DefModule.scale, DefModule.manifold, Translations.manifold, Mfd.scale]
  | .implicit0 m => by simp only [DefModule.scale, DefModule.manifold, Implicit0.manifold, Mfd.scale]
  | .oriented m => by simp only [DefModule.scale, DefModule.manifold, Oriented.manifold, Mfd.scale]
  | .constrained m => by simp only [DefModule.scale, DefModule.manifold, Constrained.manifold, Mfd.scale]
  | .globalTranslation m => by simp only [DefModule.scale, DefModule.manifold, GlobalTranslation.manifold, Mfd.scale]
  | .linear m => by simp only [DefModule.scale, DefModule.manifold, Linear.manifold, Mfd.scale]
  | .implicit1 m => by simp only [DefModule.scale, DefModule.manifold, Implicit1.manifold, Mfd.scale]
  | .divFree m => by simp only [DefModule.scale, DefModule.manifold, DivFree.manifold, Mfd.scale]
  | .arap m => by simp only [DefModule.scale, DefModule.manifold, Arap.manifold, Mfd.scale]
  | .silent man => by simp only [DefModule.scale, DefModule.manifold]
  | .compound ms => by simp only [DefModule.scale, DefModule.manifold, Mfd.scale, manifolds_scale ms]
theorem manifolds_scale : (ms : List (DefModule d)) → DefModule.manifolds (DefModule.scaleAll a ms) = Mfd.scaleAll a (DefModule.manifolds ms)
  | [] => by simp only [DefModule.scaleAll, DefModule.manifolds, Mfd.scaleAll]
  | m :: ms => by simp only [DefModule.scaleAll, DefModule.manifolds, Mfd.scaleAll, manifold_scale m, manifolds_scale ms]
end

mutual
theorem controls_scale : (m : DefModule d) → (m.scale a).controls = m.controls.scale a
  | .translations m => by simp only [DefModule.scale, DefModule.controls, Ctrl.scale]
  | .implicit0 m => by simp only [DefModule.scale, DefModule.controls, Ctrl.scale]
  | .oriented m => by simp only [DefModule.scale, DefModule.controls, Ctrl.scale]
  | .constrained m => by simp only [DefModule.scale, DefModule.controls, Ctrl.scale]
  | .globalTranslation m => by simp only [DefModule.scale, DefModule.controls, Ctrl.scale]
  | .linear m => by simp only [DefModule.scale, DefModule.controls, Ctrl.scale]
  | .implicit1 m => by simp only [DefModule.scale, DefModule.controls, Ctrl.scale]
  | .divFree m => by simp only [DefModule.scale, DefModule.controls, Ctrl.scale]
  | .arap m => by simp only [DefModule.scale, DefModule.controls, Ctrl.scale]
  | .silent man => by simp only [DefModule.scale, DefModule.controls, Ctrl.scale]
  | .compound ms => by simp only [DefModule.scale, DefModule.controls, Ctrl.scale, controlsAll_scale ms]
theorem controlsAll_scale : (ms : List (DefModule d)) → DefModule.controlsAll (DefModule.scaleAll a ms) = Ctrl.scaleAll a (DefModule.controlsAll ms)
  | [] => by simp only [DefModule.scaleAll, DefModule.controlsAll, Ctrl.scaleAll]
  | m :: ms => by simp only [DefModule.scaleAll, DefModule.controlsAll, Ctrl.scaleAll, controls_scale m, controlsAll_scale ms]
end

mutual
theorem field_scale : (m : DefModule d) → (m.scale a).field = m.field.map (FieldExpr.scale a)
  | .translations m => by
    simp only [DefModule.scale, DefModule.field, Except.map]; exact congrArg Except.ok (m.field_scale a)
  | .implicit0 m => by
    simp only [DefModule.scale, DefModule.field, Except.map]; exact congrArg Except.ok (m.field_scale a)
  | .oriented m => by
    simp only [DefModule.scale, DefModule.field, Except.map]; exact congrArg Except.ok (m.field_scale a)
  | .constrained m => by
    simp only [DefModule.scale, DefModule.field, Except.map]; exact congrArg Except.ok (m.field_scale a)
  | .globalTranslation m => by
    simp only [DefModule.scale, DefModule.field, Except.map]; exact congrArg Except.ok (m.field_scale a)
  | .linear m => by
    simp only [DefModule.scale, DefModule.field, Except.map]; exact congrArg Except.ok (m.field_scale a)
  | .implicit1 m => by simp only [DefModule.scale, DefModule.field]; exact m.field_scale a
  | .divFree m => by simp only [DefModule.scale, DefModule.field]; exact m.field_scale a
  | .arap m => by simp only [DefModule.scale, DefModule.field]; exact m.field_scale a
  | .silent man => by simp only [DefModule.scale, DefModule.field, Except.map, FieldExpr.scale]
  | .compound ms => by
    simp only [DefModule.scale, DefModule.field]
    rw [fields_scale ms]
    cases DefModule.fields ms with
    | error e => rfl
    | ok fs => exact mkSumField_scale a fs
theorem fields_scale : (ms : List (DefModule d)) →
    DefModule.fields (DefModule.scaleAll a ms) = (DefModule.fields ms).map (List.map (FieldExpr.scale a))
  | [] => by simp only [DefModule.scaleAll, DefModule.fields, Except.map, List.map_nil]
  | m :: ms => by
    simp only [DefModule.scaleAll, DefModule.fields]
    rw [field_scale m, fields_scale ms]
    cases m.field with
    | error e => rfl
    | ok f => cases DefModule.fields ms <;> rfl
end

mutual
theorem cost_scale : (m : DefModule d) → (m.scale a).cost = m.cost.map (a ^ 2 * ·)
  | .translations m => by
    simp only [DefModule.scale, DefModule.cost]; exact congrArg Except.ok (m.cost_scale a)
  | .implicit0 m => by
    simp only [DefModule.scale, DefModule.cost]; exact congrArg Except.ok (m.cost_scale a)
  | .oriented m => by
    simp only [DefModule.scale, DefModule.cost]; exact congrArg Except.ok (m.cost_scale a)
  | .constrained m => by
    simp only [DefModule.scale, DefModule.cost]; exact congrArg Except.ok (m.cost_scale a)
  | .globalTranslation m => by
    simp only [DefModule.scale, DefModule.cost]; exact congrArg Except.ok (m.cost_scale a)
  | .linear m => by
    simp only [DefModule.scale, DefModule.cost]; exact congrArg Except.ok (m.cost_scale a)
  | .implicit1 m => by simp only [DefModule.scale, DefModule.cost]; exact m.cost_scale a
  | .divFree m => by simp only [DefModule.scale, DefModule.cost]; exact m.cost_scale a
  | .arap m => by simp only [DefModule.scale, DefModule.cost]; exact m.cost_scale a
  | .silent man => by simp only [DefModule.scale, DefModule.cost, Except.map, mul_zero]
  | .compound ms => by
    simp only [DefModule.scale, DefModule.cost]
    exact costs_scale ms
theorem costs_scale : (ms : List (DefModule d)) → DefModule.costs (DefModule.scaleAll a ms) = (DefModule.costs ms).map (a ^ 2 * ·)
  | [] => by simp only [DefModule.scaleAll, DefModule.costs, Except.map, mul_zero]
  | m :: ms => by
    simp only [DefModule.scaleAll, DefModule.costs]
    rw [cost_scale m, costs_scale ms]
    cases m.cost with
    | error e => rfl
    | ok x => cases DefModule.costs ms with
      | error e => rfl
      | ok y => simp only [Except.map, mul_add]
end

mutual
theorem geodesic_scale (man : Mfd d) : (m : DefModule d) →
    DefModule.geodesic (man.scale a) (m.scale a) = (DefModule.geodesic man m).map (DefModule.scale a)
  | .translations m => by
    simp only [DefModule.scale, DefModule.geodesic]
    exact (congrArg (wrap _) (m.geodesic_scale a man)).trans (wrap_map _ _ _ (fun x => by rw [DefModule.scale]; rfl) _)
  | .implicit0 m => by
    simp only [DefModule.scale, DefModule.geodesic]
    exact (congrArg (wrap _) (m.geodesic_scale a man)).trans (wrap_map _ _ _ (fun x => by rw [DefModule.scale]; rfl) _)
  | .oriented m => by
    simp only [DefModule.scale, DefModule.geodesic]
    exact (congrArg (wrap _) (m.geodesic_scale a man)).trans (wrap_map _ _ _ (fun x => by rw [DefModule.scale]; rfl) _)
  | .constrained m => by
    simp only [DefModule.scale, DefModule.geodesic]
    exact (congrArg (wrap _) (m.geodesic_scale a man)).trans (wrap_map _ _ _ (fun x => by rw [DefModule.scale]; rfl) _)
  | .globalTranslation m => by
    simp only [DefModule.scale, DefModule.geodesic]
    exact (congrArg (wrap _) (m.geodesic_scale a man)).trans (wrap_map _ _ _ (fun x => by rw [DefModule.scale]; rfl) _)
  | .linear m => by
    simp only [DefModule.scale, DefModule.geodesic]
    exact (congrArg (wrap _) (m.geodesic_scale a man)).trans (wrap_map _ _ _ (fun x => by rw [DefModule.scale]; rfl) _)
  | .implicit1 m => by
    simp only [DefModule.scale, DefModule.geodesic]
    exact (congrArg (wrap _) (m.geodesic_scale a man)).trans (wrap_map _ _ _ (fun x => by rw [DefModule.scale]; rfl) _)
  | .divFree m => by
    simp only [DefModule.scale, DefModule.geodesic]
    exact (congrArg (wrap _) (m.geodesic_scale a man)).trans (wrap_map _ _ _ (fun x => by rw [DefModule.scale]; rfl) _)
  | .arap m => by
    simp only [DefModule.scale, DefModule.geodesic]
    exact (congrArg (wrap _) (m.geodesic_scale a man)).trans (wrap_map _ _ _ (fun x => by rw [DefModule.scale]; rfl) _)
  | .silent s => by simp only [DefModule.scale, DefModule.geodesic, Except.map]
  | .compound ms => by
    simp only [DefModule.scale, DefModule.geodesic]
    rw [geodesics_scale man ms]
    cases DefModule.geodesics man ms with
    | error e => rfl
    | ok fs => simp only [Except.map, DefModule.scale]
theorem geodesics_scale (man : Mfd d) : (ms : List (DefModule d)) →
    DefModule.geodesics (man.scale a) (DefModule.scaleAll a ms) = (DefModule.geodesics man ms).map (DefModule.scaleAll a)
  | [] => by simp only [DefModule.scaleAll, DefModule.geodesics, Except.map]
  | m :: ms => by
    simp only [DefModule.scaleAll, DefModule.geodesics]
    rw [geodesic_scale man m, geodesics_scale man ms]
    cases DefModule.geodesic man m with
    | error e => rfl
    | ok f =>
      cases DefModule.geodesics man ms with
      | error e => rfl
      | ok fs => simp only [Except.map, DefModule.scaleAll]
end

theorem modScaleAll_length : (ms : List (DefModule d)) → (DefModule.scaleAll a ms).length = ms.length
  | [] => by simp only [DefModule.scaleAll]
  | m :: ms => by simp only [DefModule.scaleAll, List.length_cons, modScaleAll_length ms]
theorem ctrlScaleAll_length : (hs : List (Ctrl d)) → (Ctrl.scaleAll a hs).length = hs.length
  | [] => by simp only [Ctrl.scaleAll]
  | h :: hs => by simp only [Ctrl.scaleAll, List.length_cons, ctrlScaleAll_length hs]

mutual
theorem fillControls_scale : (m : DefModule d) → (c : Ctrl d) →
    (m.scale a).fillControls (c.scale a) = (m.fillControls c).map (DefModule.scale a)
  | @DefModule.translations _ n m, c => by
    cases c with
    | @vecs n' h =>
      simp only [DefModule.scale, Ctrl.scale, DefModule.fillControls]
      by_cases e : n' = n
      · rw [dif_pos e, dif_pos e]; simp only [Except.map, DefModule.scale]
      · rw [dif_neg e, dif_neg e]; rfl
    | _ => simp only [DefModule.scale, Ctrl.scale, DefModule.fillControls, Except.map]
  | @DefModule.implicit0 _ n m, c => by
    cases c with
    | @vecs n' h =>
      simp only [DefModule.scale, Ctrl.scale, DefModule.fillControls]
      by_cases e : n' = n
      · rw [dif_pos e, dif_pos e]; simp only [Except.map, DefModule.scale]
      · rw [dif_neg e, dif_neg e]; rfl
    | _ => simp only [DefModule.scale, Ctrl.scale, DefModule.fillControls, Except.map]
  | @DefModule.oriented _ n m, c => by
    cases c with
    | @scalars n' h =>
      simp only [DefModule.scale, Ctrl.scale, DefModule.fillControls]
      by_cases e : n' = n
      · rw [dif_pos e, dif_pos e]; simp only [Except.map, DefModule.scale]
      · rw [dif_neg e, dif_neg e]; rfl
    | _ => simp only [DefModule.scale, Ctrl.scale, DefModule.fillControls, Except.map]
  | .constrained m, c => by
    cases c <;> simp only [DefModule.scale, Ctrl.scale, DefModule.fillControls, Except.map]
  | .globalTranslation m, c => by
    cases c <;> simp only [DefModule.scale, Ctrl.scale, DefModule.fillControls, Except.map]
  | .linear m, c => by
    cases c <;> simp only [DefModule.scale, Ctrl.scale, DefModule.fillControls, Except.map]
  | @DefModule.implicit1 _ _ p m, c => by
    cases c with
    | @scalars p' h =>
      simp only [DefModule.scale, Ctrl.scale, DefModule.fillControls]
      by_cases e : p' = p
      · rw [dif_pos e, dif_pos e]
        exact (congrArg (wrap _) (m.fill_scale a fun i => h (e ▸ i))).trans (wrap_map _ _ _ (fun x => by rw [DefModule.scale]; rfl) _)
      · rw [dif_neg e, dif_neg e]; rfl
    | _ => simp only [DefModule.scale, Ctrl.scale, DefModule.fillControls, Except.map]
  | @DefModule.divFree _ _ P m, c => by
    cases c with
    | @vecs p' h =>
      simp only [DefModule.scale, Ctrl.scale, DefModule.fillControls]
      by_cases e : p' = P
      · rw [dif_pos e, dif_pos e]
        exact (congrArg (wrap _) (m.fill_scale a fun i => h (e ▸ i))).trans (wrap_map _ _ _ (fun x => by rw [DefModule.scale]; rfl) _)
      · rw [dif_neg e, dif_neg e]; rfl
    | _ => simp only [DefModule.scale, Ctrl.scale, DefModule.fillControls, Except.map]
  | @DefModule.arap _ _ P m, c => by
    cases c with
    | @vecs p' h =>
      simp only [DefModule.scale, Ctrl.scale, DefModule.fillControls]
      by_cases e : p' = P
      · rw [dif_pos e, dif_pos e]
        exact (congrArg (wrap _) (m.fill_scale a fun i => h (e ▸ i))).trans (wrap_map _ _ _ (fun x => by rw [DefModule.scale]; rfl) _)
      · rw [dif_neg e, dif_neg e]; rfl
    | _ => simp only [DefModule.scale, Ctrl.scale, DefModule.fillControls, Except.map]
  | .silent s, c => by
    cases c <;> simp only [DefModule.scale, Ctrl.scale, DefModule.fillControls, Except.map]
  | .compound ms, c => by
    cases c with
    | list hs =>
      simp only [DefModule.scale, Ctrl.scale, DefModule.fillControls]
      rw [modScaleAll_length, ctrlScaleAll_length]
      by_cases e : hs.length = ms.length
      · rw [if_pos e, if_pos e, fillAll_scale ms hs]
        cases DefModule.fillAll ms hs with
        | error e => rfl
        | ok ms' => simp only [Except.map, DefModule.scale]
      · rw [if_neg e, if_neg e]; rfl
    | _ => simp only [DefModule.scale, Ctrl.scale, DefModule.fillControls, Except.map]
theorem fillAll_scale : (ms : List (DefModule d)) → (hs : List (Ctrl d)) →
    DefModule.fillAll (DefModule.scaleAll a ms) (Ctrl.scaleAll a hs) = (DefModule.fillAll ms hs).map (DefModule.scaleAll a)
  | [], [] => by simp only [DefModule.scaleAll, Ctrl.scaleAll, DefModule.fillAll, Except.map]
  | [], h :: hs => by simp only [DefModule.scaleAll, Ctrl.scaleAll, DefModule.fillAll, Except.map]
  | m :: ms, [] => by simp only [DefModule.scaleAll, Ctrl.scaleAll, DefModule.fillAll, Except.map]
  | m :: ms, h :: hs => by
    simp only [DefModule.scaleAll, Ctrl.scaleAll, DefModule.fillAll]
    rw [fillControls_scale m h, fillAll_scale ms hs]
    cases m.fillControls h with
    | error e => rfl
    | ok f =>
      cases DefModule.fillAll ms hs with
      | error e => rfl
      | ok fs => simp only [Except.map, DefModule.scaleAll]
end

end
end Imodal
