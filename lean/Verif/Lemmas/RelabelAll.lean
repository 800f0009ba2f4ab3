import Verif.Lemmas.RelabelMod
/-!
# All modules with their points listed in another order
-/
set_option autoImplicit false
namespace Imodal
noncomputable section
variable {d : Nat}

mutual
theorem manifold_relabel (σ : Labels) : (m : DefModule d) → (m.relabel σ).manifold = m.manifold.relabel σ
  | .translations _ => by simp only [DefModule.relabel, DefModule.manifold, Translations.manifold, Mfd.relabel]
  | .implicit0 _ => by simp only [DefModule.relabel, DefModule.manifold, Implicit0.manifold, Mfd.relabel]
  | .oriented _ => by simp only [DefModule.relabel, DefModule.manifold, Oriented.manifold, Mfd.relabel]
  | .constrained _ => by simp only [DefModule.relabel, DefModule.manifold, Constrained.manifold, Mfd.relabel]
  | .globalTranslation _ => by simp only [DefModule.relabel, DefModule.manifold, GlobalTranslation.manifold, Mfd.relabel]
  | .linear _ => by simp only [DefModule.relabel, DefModule.manifold, Linear.manifold, Mfd.relabel]
  | .implicit1 _ => by simp only [DefModule.relabel, DefModule.manifold, Implicit1.manifold, Mfd.relabel]
  | .divFree _ => by simp only [DefModule.relabel, DefModule.manifold, DivFree.manifold, Mfd.relabel]
  | .arap _ => by simp only [DefModule.relabel, DefModule.manifold, Arap.manifold, Mfd.relabel]
  | .silent _ => by simp only [DefModule.relabel, DefModule.manifold]
  | .compound ms => by simp only [DefModule.relabel, DefModule.manifold, Mfd.relabel]; rw [manifolds_relabel σ 0 ms]
theorem manifolds_relabel (σ : Labels) : (k : Nat) → (ms : List (DefModule d)) →
    DefModule.manifolds (DefModule.relabelAll σ k ms) = Mfd.relabelAll σ k (DefModule.manifolds ms)
  | _, [] => by simp only [DefModule.relabelAll, DefModule.manifolds, Mfd.relabelAll]
  | k, m :: ms => by
    simp only [DefModule.relabelAll, DefModule.manifolds, Mfd.relabelAll]
    rw [manifold_relabel (σ.at k) m, manifolds_relabel σ (k + 1) ms]
end

theorem relabelAll_length (σ : Labels) : (k : Nat) → (ms : List (DefModule d)) → (DefModule.relabelAll σ k ms).length = ms.length
  | _, [] => by rw [DefModule.relabelAll]
  | k, m :: ms => by rw [DefModule.relabelAll, List.length_cons, List.length_cons, relabelAll_length σ (k + 1) ms]
theorem relabelCtrls_length (σ : Labels) : (k : Nat) → (ms : List (DefModule d)) → (hs : List (Ctrl d)) → (DefModule.relabelCtrls σ k ms hs).length = hs.length
  | _, [], hs => by rw [DefModule.relabelCtrls]; simp
  | _, _ :: _, [] => by rw [DefModule.relabelCtrls]; simp
  | k, m :: ms, h :: hs => by rw [DefModule.relabelCtrls, List.length_cons, List.length_cons, relabelCtrls_length σ (k + 1) ms hs]

mutual
theorem controls_relabel (σ : Labels) : (m : DefModule d) → (m.relabel σ).controls = m.relabelCtrl σ m.controls
  | .translations _ => by simp only [DefModule.relabel, DefModule.controls, DefModule.relabelCtrl]
  | .implicit0 _ => by simp only [DefModule.relabel, DefModule.controls, DefModule.relabelCtrl]
  | .oriented _ => by simp only [DefModule.relabel, DefModule.controls, DefModule.relabelCtrl]
  | .constrained _ => by simp only [DefModule.relabel, DefModule.controls, DefModule.relabelCtrl]
  | .globalTranslation _ => by simp only [DefModule.relabel, DefModule.controls, DefModule.relabelCtrl]
  | .linear _ => by simp only [DefModule.relabel, DefModule.controls, DefModule.relabelCtrl]
  | .implicit1 _ => by simp only [DefModule.relabel, DefModule.controls, DefModule.relabelCtrl]
  | .divFree _ => by simp only [DefModule.relabel, DefModule.controls, DefModule.relabelCtrl]
  | .arap _ => by simp only [DefModule.relabel, DefModule.controls, DefModule.relabelCtrl]
  | .silent _ => by simp only [DefModule.relabel, DefModule.controls, DefModule.relabelCtrl]
  | .compound ms => by simp only [DefModule.relabel, DefModule.controls, DefModule.relabelCtrl]; rw [controlsAll_relabel σ 0 ms]
theorem controlsAll_relabel (σ : Labels) : (k : Nat) → (ms : List (DefModule d)) →
    DefModule.controlsAll (DefModule.relabelAll σ k ms) = DefModule.relabelCtrls σ k ms (DefModule.controlsAll ms)
  | _, [] => by simp only [DefModule.relabelAll, DefModule.controlsAll, DefModule.relabelCtrls]
  | k, m :: ms => by
    simp only [DefModule.relabelAll, DefModule.controlsAll, DefModule.relabelCtrls]
    rw [controls_relabel (σ.at k) m, controlsAll_relabel σ (k + 1) ms]
end

mutual
theorem cost_relabel (σ : Labels) : (m : DefModule d) → m.Keeps σ → (m.relabel σ).cost = m.cost
  | .translations m, _ => by simp only [DefModule.relabel, DefModule.cost]; exact congrArg _ (m.cost_perm (σ [] _))
  | .implicit0 m, _ => by simp only [DefModule.relabel, DefModule.cost]; exact congrArg _ (m.cost_perm (σ [] _))
  | .oriented m, _ => by simp only [DefModule.relabel, DefModule.cost]; exact congrArg _ (m.cost_perm (σ [] _))
  | .constrained m, _ => by simp only [DefModule.relabel, DefModule.cost]; exact congrArg _ (m.cost_perm (σ [] _))
  | .globalTranslation _, _ => by simp only [DefModule.relabel]
  | .linear _, _ => by simp only [DefModule.relabel]
  | .implicit1 m, _ => by simp only [DefModule.relabel, DefModule.cost]; exact m.cost_perm (σ [] _)
  | .divFree m, h => by rw [DefModule.Keeps] at h; simp only [DefModule.relabel, DefModule.cost]; exact DivFree.cost_perm h m
  | .arap m, h => by rw [DefModule.Keeps] at h; simp only [DefModule.relabel, DefModule.cost]; exact Arap.cost_perm h m
  | .silent _, _ => by simp only [DefModule.relabel, DefModule.cost]
  | .compound ms, h => by rw [DefModule.Keeps] at h; simp only [DefModule.relabel, DefModule.cost]; exact costs_relabel σ 0 ms h
theorem costs_relabel (σ : Labels) : (k : Nat) → (ms : List (DefModule d)) → DefModule.KeepsAll σ k ms → DefModule.costs (DefModule.relabelAll σ k ms) = DefModule.costs ms
  | _, [], _ => by simp only [DefModule.relabelAll]
  | k, m :: ms, h => by
    rw [DefModule.KeepsAll] at h
    simp only [DefModule.relabelAll, DefModule.costs]
    rw [cost_relabel (σ.at k) m h.1, costs_relabel σ (k + 1) ms h.2]
end

mutual
theorem field_relabel (σ : Labels) : (m : DefModule d) → m.Keeps σ → PyRel FieldExpr.Alike m.field (m.relabel σ).field
  | .translations m, _ => by simp only [DefModule.relabel, DefModule.field]; exact PyRel.ok (perm_f0 ..)
  | .implicit0 m, _ => by simp only [DefModule.relabel, DefModule.field]; exact PyRel.ok (perm_f0 ..)
  | .oriented m, _ => by simp only [DefModule.relabel, DefModule.field]; exact PyRel.ok (perm_f0 .torch m.gd m.vectors m.σ (σ [] _))
  | .constrained m, _ => by
    simp only [DefModule.relabel, DefModule.field]
    refine PyRel.ok ?_
    have := m.field_perm (σ [] _)
    unfold Constrained.perm at this
    rw [this]
    exact FieldExpr.Alike.refl _
  | .globalTranslation _, _ => by simp only [DefModule.relabel]; exact PyRel.refl FieldExpr.Alike.refl _
  | .linear _, _ => by simp only [DefModule.relabel]; exact PyRel.refl FieldExpr.Alike.refl _
  | .implicit1 m, _ => by simp only [DefModule.relabel, DefModule.field]; exact m.field_perm (σ [] _)
  | .divFree m, h => by rw [DefModule.Keeps] at h; simp only [DefModule.relabel, DefModule.field]; exact DivFree.field_perm h m
  | .arap m, h => by rw [DefModule.Keeps] at h; simp only [DefModule.relabel, DefModule.field]; exact Arap.field_perm h m
  | .silent _, _ => by simp only [DefModule.relabel, DefModule.field]; exact PyRel.ok (FieldExpr.Alike.refl _)
  | .compound ms, h => by
    rw [DefModule.Keeps] at h
    simp only [DefModule.relabel, DefModule.field]
    rcases (fields_relabel σ 0 ms h).both with ⟨a, b, e, e', h⟩ | ⟨_, _, e, e'⟩
    · rw [e, e']; exact alike_mkSum h
    · rw [e, e']; trivial
theorem fields_relabel (σ : Labels) : (k : Nat) → (ms : List (DefModule d)) → DefModule.KeepsAll σ k ms →
    PyRel (List.Forall₂ FieldExpr.Alike) (DefModule.fields ms) (DefModule.fields (DefModule.relabelAll σ k ms))
  | _, [], _ => by rw [DefModule.relabelAll, DefModule.fields]; exact List.Forall₂.nil
  | k, m :: ms, h => by
    rw [DefModule.KeepsAll] at h
    rw [DefModule.relabelAll, DefModule.fields, DefModule.fields]
    rcases (field_relabel (σ.at k) m h.1).both with ⟨a, b, e, e', h1⟩ | ⟨_, _, e, e'⟩
    · rw [e, e']
      dsimp only
      rcases (fields_relabel σ (k + 1) ms h.2).both with ⟨a, b, e, e', h'⟩ | ⟨_, _, e, e'⟩
      · rw [e, e']; exact List.Forall₂.cons h1 h'
      · rw [e, e']; trivial
    · rw [e, e']; trivial
end

theorem rel_of_map {α β : Type} {f : α → β} {x : Py α} {y : Py β} (h : y = x.map f) : PyRel (fun a b => b = f a) x y := by
  subst h
  cases x with
  | error _ => trivial
  | ok _ => rfl
theorem wrap_rel {α β : Type} {Q : α → β → Prop} {R : DefModule d → DefModule d → Prop} {f : α → DefModule d} {g : β → DefModule d}
    (hf : ∀ a b, Q a b → R (f a) (g b)) {x : Py α} {y : Py β} (h : PyRel Q x y) : PyRel R (wrap f x) (wrap g y) := by
  rcases h.both with ⟨a, b, rfl, rfl, h⟩ | ⟨_, _, rfl, rfl⟩
  · exact hf a b h
  · trivial

mutual
theorem geodesic_relabel (σ : Labels) {man man' : Mfd d} (hm : Mirror man man') : (m : DefModule d) → m.Keeps σ →
    PyRel (fun a b => b = a.relabel σ) (m.geodesic man) ((m.relabel σ).geodesic man')
  | .translations m, _ => by
    simp only [DefModule.relabel, DefModule.geodesic]
    exact wrap_rel (fun a b h => by rw [h, DefModule.relabel]; rfl) (m.geodesic_perm (σ [] _) hm)
  | .implicit0 m, _ => by
    simp only [DefModule.relabel, DefModule.geodesic]
    exact wrap_rel (fun a b h => by rw [h, DefModule.relabel]; rfl) (m.geodesic_perm (σ [] _) hm)
  | .oriented m, _ => by
    simp only [DefModule.relabel, DefModule.geodesic]
    exact wrap_rel (fun a b h => by rw [h, DefModule.relabel]; rfl) (m.geodesic_perm (σ [] _) hm)
  | .constrained m, _ => by
    simp only [DefModule.relabel, DefModule.geodesic]
    exact wrap_rel (fun a b h => by rw [h, DefModule.relabel]; rfl) (m.geodesic_perm (σ [] _) hm)
  | .globalTranslation m, _ => by
    simp only [DefModule.relabel, DefModule.geodesic]
    exact wrap_rel (fun a b h => by rw [h, DefModule.relabel]) (m.geodesic_mirror hm)
  | .linear m, _ => by
    simp only [DefModule.relabel, DefModule.geodesic]
    exact wrap_rel (fun a b h => by rw [h, DefModule.relabel]) (m.geodesic_mirror hm)
  | .implicit1 m, _ => by
    simp only [DefModule.relabel, DefModule.geodesic]
    exact wrap_rel (fun a b h => by rw [h, DefModule.relabel]; rfl) (m.geodesic_perm (σ [] _) hm)
  | .divFree m, h => by
    rw [DefModule.Keeps] at h
    simp only [DefModule.relabel, DefModule.geodesic]
    exact wrap_rel (fun a b h => by rw [h, DefModule.relabel]; rfl) (DivFree.geodesic_perm h m hm)
  | .arap m, h => by
    rw [DefModule.Keeps] at h
    simp only [DefModule.relabel, DefModule.geodesic]
    exact wrap_rel (fun a b h => by rw [h, DefModule.relabel]; rfl) (Arap.geodesic_perm h m hm)
  | .silent _, _ => by simp only [DefModule.relabel, DefModule.geodesic]; exact PyRel.ok (by rw [DefModule.relabel])
  | .compound ms, h => by
    rw [DefModule.Keeps] at h
    simp only [DefModule.relabel, DefModule.geodesic]
    rcases (geodesics_relabel σ hm 0 ms h).both with ⟨a, b, e, e', h⟩ | ⟨_, _, e, e'⟩
    · rw [e, e']; exact PyRel.ok (by rw [h, DefModule.relabel])
    · rw [e, e']; trivial
theorem geodesics_relabel (σ : Labels) {man man' : Mfd d} (hm : Mirror man man') : (k : Nat) → (ms : List (DefModule d)) → DefModule.KeepsAll σ k ms →
    PyRel (fun a b => b = DefModule.relabelAll σ k a) (DefModule.geodesics man ms) (DefModule.geodesics man' (DefModule.relabelAll σ k ms))
  | _, [], _ => by rw [DefModule.relabelAll, DefModule.geodesics, DefModule.geodesics]; exact PyRel.ok (by rw [DefModule.relabelAll])
  | k, m :: ms, h => by
    rw [DefModule.KeepsAll] at h
    rw [DefModule.relabelAll, DefModule.geodesics, DefModule.geodesics]
    rcases (geodesic_relabel (σ.at k) hm m h.1).both with ⟨a, b, e, e', h1⟩ | ⟨_, _, e, e'⟩
    · rw [e, e']
      dsimp only
      rcases (geodesics_relabel σ hm (k + 1) ms h.2).both with ⟨a', b', e, e', h'⟩ | ⟨_, _, e, e'⟩
      · rw [e, e']; exact PyRel.ok (by rw [h1, h', DefModule.relabelAll])
      · rw [e, e']; trivial
    · rw [e, e']; trivial
end

mutual
theorem fillControls_relabel (σ : Labels) : (m : DefModule d) → m.Keeps σ → (c : Ctrl d) →
    PyRel (fun a b => b = a.relabel σ) (m.fillControls c) ((m.relabel σ).fillControls (m.relabelCtrl σ c))
  | @DefModule.translations _ n m, _, c => by
    cases c with
    | @vecs n' h =>
      simp only [DefModule.relabel, DefModule.relabelCtrl, DefModule.fillControls]
      by_cases e : n' = n
      · subst e; simp only [dif_pos]; exact PyRel.ok (by rw [DefModule.relabel])
      · simp only [dif_neg e]; trivial
    | _ => simp only [DefModule.relabel, DefModule.relabelCtrl, DefModule.fillControls]; trivial
  | @DefModule.implicit0 _ n m, _, c => by
    cases c with
    | @vecs n' h =>
      simp only [DefModule.relabel, DefModule.relabelCtrl, DefModule.fillControls]
      by_cases e : n' = n
      · subst e; simp only [dif_pos]; exact PyRel.ok (by rw [DefModule.relabel])
      · simp only [dif_neg e]; trivial
    | _ => simp only [DefModule.relabel, DefModule.relabelCtrl, DefModule.fillControls]; trivial
  | @DefModule.oriented _ n m, _, c => by
    cases c with
    | @scalars n' h =>
      simp only [DefModule.relabel, DefModule.relabelCtrl, DefModule.fillControls]
      by_cases e : n' = n
      · subst e; simp only [dif_pos]; exact PyRel.ok (by rw [DefModule.relabel])
      · simp only [dif_neg e]; trivial
    | _ => simp only [DefModule.relabel, DefModule.relabelCtrl, DefModule.fillControls]; trivial
  | .constrained m, _, c => by
    cases c with
    | scalar h => simp only [DefModule.relabel, DefModule.relabelCtrl, DefModule.fillControls]; exact PyRel.ok (by rw [DefModule.relabel])
    | _ => simp only [DefModule.relabel, DefModule.relabelCtrl, DefModule.fillControls]; trivial
  | .globalTranslation m, _, c => by
    cases c with
    | vec h => simp only [DefModule.relabel, DefModule.relabelCtrl, DefModule.fillControls]; exact PyRel.ok (by rw [DefModule.relabel])
    | _ => simp only [DefModule.relabel, DefModule.relabelCtrl, DefModule.fillControls]; trivial
  | .linear m, _, c => by
    cases c with
    | scalar h => simp only [DefModule.relabel, DefModule.relabelCtrl, DefModule.fillControls]; exact PyRel.ok (by rw [DefModule.relabel])
    | _ => simp only [DefModule.relabel, DefModule.relabelCtrl, DefModule.fillControls]; trivial
  | @DefModule.implicit1 _ n p m, _, c => by
    cases c with
    | @scalars n' h =>
      simp only [DefModule.relabel, DefModule.relabelCtrl, DefModule.fillControls]
      by_cases e : n' = p
      · subst e
        simp only [dif_pos]
        exact wrap_rel (Q := fun a b => b = a.perm (σ [] n)) (fun a b h => by rw [h, DefModule.relabel]; rfl) (rel_of_map (m.fill_perm (σ [] n) h))
      · simp only [dif_neg e]; trivial
    | _ => simp only [DefModule.relabel, DefModule.relabelCtrl, DefModule.fillControls]; trivial
  | @DefModule.divFree _ N P m, hk, c => by
    rw [DefModule.Keeps] at hk
    cases c with
    | @vecs n' h =>
      simp only [DefModule.relabel, DefModule.relabelCtrl, DefModule.fillControls]
      by_cases e : n' = P
      · subst e
        simp only [dif_pos]
        exact wrap_rel (Q := fun a b => b = a.perm (σ [] (N + n'))) (fun a b h => by rw [h, DefModule.relabel]; rfl) (rel_of_map (DivFree.fill_perm hk m h))
      · simp only [dif_neg e]; trivial
    | _ => simp only [DefModule.relabel, DefModule.relabelCtrl, DefModule.fillControls]; trivial
  | @DefModule.arap _ N P m, hk, c => by
    rw [DefModule.Keeps] at hk
    cases c with
    | @vecs n' h =>
      simp only [DefModule.relabel, DefModule.relabelCtrl, DefModule.fillControls]
      by_cases e : n' = P
      · subst e
        simp only [dif_pos]
        exact wrap_rel (Q := fun a b => b = a.perm (σ [] (N + n'))) (fun a b h => by rw [h, DefModule.relabel]; rfl) (rel_of_map (Arap.fill_perm hk m h))
      · simp only [dif_neg e]; trivial
    | _ => simp only [DefModule.relabel, DefModule.relabelCtrl, DefModule.fillControls]; trivial
  | .silent s, _, c => by
    simp only [DefModule.relabel, DefModule.relabelCtrl, DefModule.fillControls]; exact PyRel.ok (by rw [DefModule.relabel])
  | .compound ms, hk, c => by
    rw [DefModule.Keeps] at hk
    cases c with
    | list hs =>
      simp only [DefModule.relabel, DefModule.relabelCtrl, DefModule.fillControls, relabelAll_length, relabelCtrls_length]
      split
      · rcases (fillAll_relabel σ 0 ms hk hs).both with ⟨a, b, e, e', h⟩ | ⟨_, _, e, e'⟩
        · rw [e, e']; exact PyRel.ok (by rw [h, DefModule.relabel])
        · rw [e, e']; trivial
      · trivial
    | _ => simp only [DefModule.relabel, DefModule.relabelCtrl, DefModule.fillControls]; trivial
theorem fillAll_relabel (σ : Labels) : (k : Nat) → (ms : List (DefModule d)) → DefModule.KeepsAll σ k ms → (hs : List (Ctrl d)) →
    PyRel (fun a b => b = DefModule.relabelAll σ k a) (DefModule.fillAll ms hs) (DefModule.fillAll (DefModule.relabelAll σ k ms) (DefModule.relabelCtrls σ k ms hs))
  | _, [], _, hs => by
    simp only [DefModule.relabelAll, DefModule.fillAll]
    exact PyRel.ok (by rw [DefModule.relabelAll])
  | _, m :: ms, _, [] => by
    simp only [DefModule.relabelAll, DefModule.relabelCtrls, DefModule.fillAll]
    exact PyRel.ok (by rw [DefModule.relabelAll])
  | k, m :: ms, hk, h :: hs => by
    rw [DefModule.KeepsAll] at hk
    rw [DefModule.relabelAll, DefModule.relabelCtrls, DefModule.fillAll, DefModule.fillAll]
    rcases (fillControls_relabel (σ.at k) m hk.1 h).both with ⟨a, b, e, e', h⟩ | ⟨_, _, e, e'⟩
    · rw [e, e']
      dsimp only
      rcases (fillAll_relabel σ (k + 1) ms hk.2 hs).both with ⟨a', b', e, e', h'⟩ | ⟨_, _, e, e'⟩
      · rw [e, e']; exact PyRel.ok (by rw [h, h', DefModule.relabelAll])
      · rw [e, e']; trivial
    · rw [e, e']; trivial
end

end
end Imodal
