import Verif.Lemmas.Backend
/-!
# Shooting with modules built with different compute backends
-/
set_option autoImplicit false
namespace Imodal
noncomputable section
variable {d : Nat}

mutual
theorem torch_torch : (m : DefModule d) → m.torch.torch = m.torch
  | .translations _ => by simp only [DefModule.torch]
  | .implicit0 _ => by simp only [DefModule.torch]
  | .oriented _ => by simp only [DefModule.torch]
  | .constrained _ => by simp only [DefModule.torch]
  | .globalTranslation _ => by simp only [DefModule.torch]
  | .linear _ => by simp only [DefModule.torch]
  | .implicit1 _ => by simp only [DefModule.torch]
  | .divFree _ => by simp only [DefModule.torch]
  | .arap _ => by simp only [DefModule.torch]
  | .silent _ => by simp only [DefModule.torch]
  | .compound ms => by rw [DefModule.torch, DefModule.torch, torchAll_torchAll ms]
theorem torchAll_torchAll : (ms : List (DefModule d)) → DefModule.torchAll (DefModule.torchAll ms) = DefModule.torchAll ms
  | [] => by simp only [DefModule.torchAll]
  | m :: ms => by rw [DefModule.torchAll, DefModule.torchAll, torch_torch m, torchAll_torchAll ms]
end

mutual
theorem manifold_torch : (m : DefModule d) → m.torch.manifold = m.manifold
  | .translations _ => by simp only [DefModule.torch, DefModule.manifold, Translations.manifold]
  | .implicit0 _ => by simp only [DefModule.torch, DefModule.manifold, Implicit0.manifold]
  | .oriented _ => by simp only [DefModule.torch]
  | .constrained _ => by simp only [DefModule.torch]
  | .globalTranslation _ => by simp only [DefModule.torch]
  | .linear _ => by simp only [DefModule.torch]
  | .implicit1 _ => by simp only [DefModule.torch, DefModule.manifold, Implicit1.manifold]
  | .divFree _ => by simp only [DefModule.torch]
  | .arap _ => by simp only [DefModule.torch]
  | .silent _ => by simp only [DefModule.torch]
  | .compound ms => by rw [DefModule.torch, DefModule.manifold, DefModule.manifold, manifolds_torch ms]
theorem manifolds_torch : (ms : List (DefModule d)) → DefModule.manifolds (DefModule.torchAll ms) = DefModule.manifolds ms
  | [] => by simp only [DefModule.torchAll]
  | m :: ms => by rw [DefModule.torchAll, DefModule.manifolds, DefModule.manifolds, manifold_torch m, manifolds_torch ms]
end

mutual
theorem controls_torch : (m : DefModule d) → m.torch.controls = m.controls
  | .translations _ => by simp only [DefModule.torch, DefModule.controls]
  | .implicit0 _ => by simp only [DefModule.torch, DefModule.controls]
  | .oriented _ => by simp only [DefModule.torch]
  | .constrained _ => by simp only [DefModule.torch]
  | .globalTranslation _ => by simp only [DefModule.torch]
  | .linear _ => by simp only [DefModule.torch]
  | .implicit1 _ => by simp only [DefModule.torch, DefModule.controls]
  | .divFree _ => by simp only [DefModule.torch]
  | .arap _ => by simp only [DefModule.torch]
  | .silent _ => by simp only [DefModule.torch]
  | .compound ms => by rw [DefModule.torch, DefModule.controls, DefModule.controls, controlsAll_torch ms]
theorem controlsAll_torch : (ms : List (DefModule d)) → DefModule.controlsAll (DefModule.torchAll ms) = DefModule.controlsAll ms
  | [] => by simp only [DefModule.torchAll]
  | m :: ms => by rw [DefModule.torchAll, DefModule.controlsAll, DefModule.controlsAll, controls_torch m, controlsAll_torch ms]
end

mutual
theorem cost_torch : (m : DefModule d) → m.torch.cost = m.cost
  | .translations m => by rw [DefModule.torch, DefModule.cost, DefModule.cost, m.cost_torch]
  | .implicit0 m => by rw [DefModule.torch, DefModule.cost, DefModule.cost, m.cost_torch]
  | .oriented _ => by simp only [DefModule.torch]
  | .constrained _ => by simp only [DefModule.torch]
  | .globalTranslation _ => by simp only [DefModule.torch]
  | .linear _ => by simp only [DefModule.torch]
  | .implicit1 _ => by simp only [DefModule.torch, DefModule.cost, Implicit1.cost]
  | .divFree _ => by simp only [DefModule.torch]
  | .arap _ => by simp only [DefModule.torch]
  | .silent _ => by simp only [DefModule.torch]
  | .compound ms => by rw [DefModule.torch, DefModule.cost, DefModule.cost, costs_torch ms]
theorem costs_torch : (ms : List (DefModule d)) → DefModule.costs (DefModule.torchAll ms) = DefModule.costs ms
  | [] => by simp only [DefModule.torchAll]
  | m :: ms => by rw [DefModule.torchAll, DefModule.costs, DefModule.costs, cost_torch m, costs_torch ms]
end

theorem field_torch_refl {m : DefModule d} (h : m.torch = m) : PyRel FieldExpr.Alike m.field m.torch.field := by
  rw [h]; exact PyRel.refl FieldExpr.Alike.refl _

mutual
theorem field_torch : (m : DefModule d) → PyRel FieldExpr.Alike m.field m.torch.field
  | .translations m => by rw [DefModule.torch, DefModule.field, DefModule.field]; exact alike_f0 ..
  | .implicit0 m => by rw [DefModule.torch, DefModule.field, DefModule.field]; exact alike_f0 ..
  | .oriented _ => field_torch_refl (by simp only [DefModule.torch])
  | .constrained _ => field_torch_refl (by simp only [DefModule.torch])
  | .globalTranslation _ => field_torch_refl (by simp only [DefModule.torch])
  | .linear _ => field_torch_refl (by simp only [DefModule.torch])
  | .implicit1 m => by
    rw [DefModule.torch, DefModule.field, DefModule.field]
    unfold Implicit1.field
    cases m.cache with
    | none => trivial
    | some k => exact alike_fp ..
  | .divFree _ => field_torch_refl (by simp only [DefModule.torch])
  | .arap _ => field_torch_refl (by simp only [DefModule.torch])
  | .silent _ => field_torch_refl (by simp only [DefModule.torch])
  | .compound ms => by
    rw [DefModule.torch, DefModule.field, DefModule.field]
    rcases (fields_torch ms).both with ⟨a, b, e, e', h⟩ | ⟨_, _, e, e'⟩
    · rw [e, e']; exact alike_mkSum h
    · rw [e, e']; trivial
theorem fields_torch : (ms : List (DefModule d)) →
    PyRel (List.Forall₂ FieldExpr.Alike) (DefModule.fields ms) (DefModule.fields (DefModule.torchAll ms))
  | [] => by rw [DefModule.torchAll, DefModule.fields]; exact List.Forall₂.nil
  | m :: ms => by
    rw [DefModule.torchAll, DefModule.fields, DefModule.fields]
    rcases (field_torch m).both with ⟨a, b, e, e', h⟩ | ⟨_, _, e, e'⟩
    · rw [e, e']
      dsimp only
      rcases (fields_torch ms).both with ⟨a, b, e, e', h'⟩ | ⟨_, _, e, e'⟩
      · rw [e, e']; exact List.Forall₂.cons h h'
      · rw [e, e']; trivial
    · rw [e, e']; trivial
end

/-- `b` is the torch version of `a`. -/
def ToTorch (a b : DefModule d) : Prop := b = a.torch

theorem wrap_torch {α β : Type} {Q : α → β → Prop} {f : α → DefModule d} {g : β → DefModule d} (hf : ∀ a b, Q a b → g b = (f a).torch) {x : Py α} {y : Py β}
    (h : PyRel Q x y) : PyRel ToTorch (wrap f x) (wrap g y) := by
  rcases h.both with ⟨a, b, rfl, rfl, h⟩ | ⟨_, _, rfl, rfl⟩
  · exact hf a b h
  · trivial

theorem wrap_refl {α : Type} {f : α → DefModule d} (hf : ∀ a, (f a).torch = f a) (x : Py α) : PyRel ToTorch (wrap f x) (wrap f x) :=
  wrap_torch (Q := Eq) (fun a b h => by rw [h, hf]) (PyRel.refl (fun _ => rfl) x)

mutual
theorem geodesic_torch (man : Mfd d) : (m : DefModule d) → PyRel ToTorch (m.geodesic man) (m.torch.geodesic man)
  | .translations m => by
    rw [DefModule.torch, DefModule.geodesic, DefModule.geodesic]
    exact wrap_torch (fun a b h => by rw [h, DefModule.torch]) (m.geodesic_torch man)
  | .implicit0 m => by
    rw [DefModule.torch, DefModule.geodesic, DefModule.geodesic]
    exact wrap_torch (fun a b h => by rw [h, DefModule.torch]) (m.geodesic_torch man)
  | .oriented _ => by simp only [DefModule.torch, DefModule.geodesic]; exact wrap_refl (fun _ => by simp only [DefModule.torch]) _
  | .constrained _ => by simp only [DefModule.torch, DefModule.geodesic]; exact wrap_refl (fun _ => by simp only [DefModule.torch]) _
  | .globalTranslation _ => by simp only [DefModule.torch, DefModule.geodesic]; exact wrap_refl (fun _ => by simp only [DefModule.torch]) _
  | .linear _ => by simp only [DefModule.torch, DefModule.geodesic]; exact wrap_refl (fun _ => by simp only [DefModule.torch]) _
  | .implicit1 m => by
    rw [DefModule.torch, DefModule.geodesic, DefModule.geodesic]
    exact wrap_torch (fun a b h => by rw [h, DefModule.torch]) (m.geodesic_torch man)
  | .divFree _ => by simp only [DefModule.torch, DefModule.geodesic]; exact wrap_refl (fun _ => by simp only [DefModule.torch]) _
  | .arap _ => by simp only [DefModule.torch, DefModule.geodesic]; exact wrap_refl (fun _ => by simp only [DefModule.torch]) _
  | .silent _ => by simp only [DefModule.torch, DefModule.geodesic]; exact PyRel.ok (by simp only [ToTorch, DefModule.torch])
  | .compound ms => by
    rw [DefModule.torch, DefModule.geodesic, DefModule.geodesic]
    rcases (geodesics_torch man ms).both with ⟨a, b, e, e', h⟩ | ⟨_, _, e, e'⟩
    · rw [e, e']; exact PyRel.ok (by rw [ToTorch, h, DefModule.torch])
    · rw [e, e']; trivial
theorem geodesics_torch (man : Mfd d) : (ms : List (DefModule d)) →
    PyRel (fun a b => b = DefModule.torchAll a) (DefModule.geodesics man ms) (DefModule.geodesics man (DefModule.torchAll ms))
  | [] => by rw [DefModule.torchAll, DefModule.geodesics]; exact PyRel.ok (by rw [DefModule.torchAll])
  | m :: ms => by
    rw [DefModule.torchAll, DefModule.geodesics, DefModule.geodesics]
    rcases (geodesic_torch man m).both with ⟨a, b, e, e', h⟩ | ⟨_, _, e, e'⟩
    · rw [e, e']
      dsimp only
      rcases (geodesics_torch man ms).both with ⟨a', b', e, e', h'⟩ | ⟨_, _, e, e'⟩
      · rw [e, e']; exact PyRel.ok (by rw [h, h', DefModule.torchAll])
      · rw [e, e']; trivial
    · rw [e, e']; trivial
end

theorem torchAll_length : (ms : List (DefModule d)) → (DefModule.torchAll ms).length = ms.length
  | [] => by rw [DefModule.torchAll]
  | m :: ms => by rw [DefModule.torchAll, List.length_cons, List.length_cons, torchAll_length ms]

theorem fill_refl {m : DefModule d} (hm : m.torch = m) (c : Ctrl d) (h : ∀ m', m.fillControls c = .ok m' → m'.torch = m') :
    PyRel ToTorch (m.fillControls c) (m.torch.fillControls c) := by
  rw [hm]
  cases e : m.fillControls c with
  | error _ => trivial
  | ok m' => exact (h m' e).symm

mutual
theorem fillControls_torch : (m : DefModule d) → (c : Ctrl d) → PyRel ToTorch (m.fillControls c) (m.torch.fillControls c)
  | @DefModule.translations _ n m, c => by
    rw [DefModule.torch]
    cases c with
    | vecs h =>
      rw [DefModule.fillControls, DefModule.fillControls]
      split
      · exact PyRel.ok (by simp only [ToTorch, DefModule.torch])
      · trivial
    | _ => simp only [DefModule.fillControls]; trivial
  | @DefModule.implicit0 _ n m, c => by
    rw [DefModule.torch]
    cases c with
    | vecs h =>
      rw [DefModule.fillControls, DefModule.fillControls]
      split
      · exact PyRel.ok (by simp only [ToTorch, DefModule.torch])
      · trivial
    | _ => simp only [DefModule.fillControls]; trivial
  | @DefModule.implicit1 _ n p m, c => by
    rw [DefModule.torch]
    cases c with
    | scalars h =>
      rw [DefModule.fillControls, DefModule.fillControls]
      split
      · exact wrap_torch (fun a b h => by rw [h, DefModule.torch]) (m.fill_torch _)
      · trivial
    | _ => simp only [DefModule.fillControls]; trivial
  | .oriented m, c => fill_refl (by simp only [DefModule.torch]) c fun m' h => by
    cases c with
    | scalars g =>
      rw [DefModule.fillControls] at h
      split at h
      · cases h; simp only [DefModule.torch]
      · cases h
    | _ => simp only [DefModule.fillControls] at h; cases h
  | .constrained m, c => fill_refl (by simp only [DefModule.torch]) c fun m' h => by
    cases c with
    | scalar g => rw [DefModule.fillControls] at h; cases h; simp only [DefModule.torch]
    | _ => simp only [DefModule.fillControls] at h; cases h
  | .globalTranslation m, c => fill_refl (by simp only [DefModule.torch]) c fun m' h => by
    cases c with
    | vec g => rw [DefModule.fillControls] at h; cases h; simp only [DefModule.torch]
    | _ => simp only [DefModule.fillControls] at h; cases h
  | .linear m, c => fill_refl (by simp only [DefModule.torch]) c fun m' h => by
    cases c with
    | scalar g => rw [DefModule.fillControls] at h; cases h; simp only [DefModule.torch]
    | _ => simp only [DefModule.fillControls] at h; cases h
  | .divFree m, c => fill_refl (by simp only [DefModule.torch]) c fun m' h => by
    cases c with
    | vecs g =>
      rw [DefModule.fillControls] at h
      split at h
      · cases hx : m.fill (fun i => g (by rename_i e; exact e ▸ i)) with
        | error e => rw [hx] at h; cases h
        | ok m'' => rw [hx] at h; cases h; simp only [DefModule.torch]
      · cases h
    | _ => simp only [DefModule.fillControls] at h; cases h
  | .arap m, c => fill_refl (by simp only [DefModule.torch]) c fun m' h => by
    cases c with
    | vecs g =>
      rw [DefModule.fillControls] at h
      split at h
      · cases hx : m.fill (fun i => g (by rename_i e; exact e ▸ i)) with
        | error e => rw [hx] at h; cases h
        | ok m'' => rw [hx] at h; cases h; simp only [DefModule.torch]
      · cases h
    | _ => simp only [DefModule.fillControls] at h; cases h
  | .silent s, c => fill_refl (by simp only [DefModule.torch]) c fun m' h => by
    rw [DefModule.fillControls] at h; cases h; simp only [DefModule.torch]
  | .compound ms, c => by
    rw [DefModule.torch]
    cases c with
    | list hs =>
      rw [DefModule.fillControls, DefModule.fillControls, torchAll_length]
      split
      · rcases (fillAll_torch ms hs).both with ⟨a, b, e, e', h⟩ | ⟨_, _, e, e'⟩
        · rw [e, e']; exact PyRel.ok (by rw [ToTorch, h, DefModule.torch])
        · rw [e, e']; trivial
      · trivial
    | _ => simp only [DefModule.fillControls]; trivial
theorem fillAll_torch : (ms : List (DefModule d)) → (hs : List (Ctrl d)) →
    PyRel (fun a b => b = DefModule.torchAll a) (DefModule.fillAll ms hs) (DefModule.fillAll (DefModule.torchAll ms) hs)
  | [], hs => by rw [DefModule.torchAll, DefModule.fillAll]; exact PyRel.ok (by rw [DefModule.torchAll]); all_goals simp
  | m :: ms, [] => by
    rw [DefModule.torchAll, DefModule.fillAll, DefModule.fillAll]
    · exact PyRel.ok (by rw [DefModule.torchAll])
    all_goals simp
  | m :: ms, h :: hs => by
    rw [DefModule.torchAll, DefModule.fillAll, DefModule.fillAll]
    rcases (fillControls_torch m h).both with ⟨a, b, e, e', h⟩ | ⟨_, _, e, e'⟩
    · rw [e, e']
      dsimp only
      rcases (fillAll_torch ms hs).both with ⟨a', b', e, e', h'⟩ | ⟨_, _, e, e'⟩
      · rw [e, e']; exact PyRel.ok (by rw [h, h', DefModule.torchAll])
      · rw [e, e']; trivial
    · rw [e, e']; trivial
end

/-- The torch version of a module that was read from a list of tensors. -/
def torchFst (r : DefModule d × List Row) : DefModule d × List Row := (r.1.torch, r.2)

mutual
theorem rollFillGd_torch : (m : DefModule d) → (l : List Row) → m.torch.rollFillGd l = (m.rollFillGd l).map torchFst
  | .translations _, l => by rcases l with _ | ⟨a, _ | ⟨b, l⟩⟩ <;> simp [DefModule.torch, DefModule.rollFillGd, Except.map, torchFst]
  | .implicit0 _, l => by rcases l with _ | ⟨a, _ | ⟨b, l⟩⟩ <;> simp [DefModule.torch, DefModule.rollFillGd, Except.map, torchFst]
  | .oriented _, l => by rcases l with _ | ⟨a, _ | ⟨b, l⟩⟩ <;> simp [DefModule.torch, DefModule.rollFillGd, Except.map, torchFst]
  | .constrained _, l => by rcases l with _ | ⟨a, _ | ⟨b, l⟩⟩ <;> simp [DefModule.torch, DefModule.rollFillGd, Except.map, torchFst]
  | .globalTranslation _, l => by rcases l with _ | ⟨a, _ | ⟨b, l⟩⟩ <;> simp [DefModule.torch, DefModule.rollFillGd, Except.map, torchFst]
  | .linear _, l => by rcases l with _ | ⟨a, _ | ⟨b, l⟩⟩ <;> simp [DefModule.torch, DefModule.rollFillGd, Except.map, torchFst]
  | .implicit1 _, l => by rcases l with _ | ⟨a, _ | ⟨b, l⟩⟩ <;> simp [DefModule.torch, DefModule.rollFillGd, Except.map, torchFst]
  | .divFree _, l => by rcases l with _ | ⟨a, _ | ⟨b, l⟩⟩ <;> simp [DefModule.torch, DefModule.rollFillGd, Except.map, torchFst]
  | .arap _, l => by rcases l with _ | ⟨a, _ | ⟨b, l⟩⟩ <;> simp [DefModule.torch, DefModule.rollFillGd, Except.map, torchFst]
  | .silent man, l => by
    simp only [DefModule.torch, DefModule.rollFillGd]
    cases man.rollFillGd l <;> simp [Except.map, torchFst, DefModule.torch]
  | .compound ms, l => by
    rw [DefModule.torch, DefModule.rollFillGd, DefModule.rollFillGd, rollFillGdAll_torch ms l]
    cases DefModule.rollFillGdAll ms l <;> simp [Except.map, torchFst, DefModule.torch]
theorem rollFillGdAll_torch : (ms : List (DefModule d)) → (l : List Row) →
    DefModule.rollFillGdAll (DefModule.torchAll ms) l = (DefModule.rollFillGdAll ms l).map fun r => (DefModule.torchAll r.1, r.2)
  | [], l => by simp [DefModule.torchAll, DefModule.rollFillGdAll, Except.map]
  | m :: ms, l => by
    rw [DefModule.torchAll, DefModule.rollFillGdAll, DefModule.rollFillGdAll, rollFillGd_torch m l]
    cases m.rollFillGd l with
    | error e => rfl
    | ok r =>
      simp only [Except.map, torchFst]
      rw [rollFillGdAll_torch ms r.2]
      cases DefModule.rollFillGdAll ms r.2 <;> simp [Except.map, DefModule.torchAll]
end

mutual
theorem rollFillCot_torch : (m : DefModule d) → (l : List Row) → m.torch.rollFillCot l = (m.rollFillCot l).map torchFst
  | .translations _, l => by rcases l with _ | ⟨a, _ | ⟨b, l⟩⟩ <;> simp [DefModule.torch, DefModule.rollFillCot, Except.map, torchFst]
  | .implicit0 _, l => by rcases l with _ | ⟨a, _ | ⟨b, l⟩⟩ <;> simp [DefModule.torch, DefModule.rollFillCot, Except.map, torchFst]
  | .oriented _, l => by rcases l with _ | ⟨a, _ | ⟨b, l⟩⟩ <;> simp [DefModule.torch, DefModule.rollFillCot, Except.map, torchFst]
  | .constrained _, l => by rcases l with _ | ⟨a, _ | ⟨b, l⟩⟩ <;> simp [DefModule.torch, DefModule.rollFillCot, Except.map, torchFst]
  | .globalTranslation _, l => by rcases l with _ | ⟨a, _ | ⟨b, l⟩⟩ <;> simp [DefModule.torch, DefModule.rollFillCot, Except.map, torchFst]
  | .linear _, l => by rcases l with _ | ⟨a, _ | ⟨b, l⟩⟩ <;> simp [DefModule.torch, DefModule.rollFillCot, Except.map, torchFst]
  | .implicit1 _, l => by rcases l with _ | ⟨a, _ | ⟨b, l⟩⟩ <;> simp [DefModule.torch, DefModule.rollFillCot, Except.map, torchFst]
  | .divFree _, l => by rcases l with _ | ⟨a, _ | ⟨b, l⟩⟩ <;> simp [DefModule.torch, DefModule.rollFillCot, Except.map, torchFst]
  | .arap _, l => by rcases l with _ | ⟨a, _ | ⟨b, l⟩⟩ <;> simp [DefModule.torch, DefModule.rollFillCot, Except.map, torchFst]
  | .silent man, l => by
    simp only [DefModule.torch, DefModule.rollFillCot]
    cases man.rollFillCot l <;> simp [Except.map, torchFst, DefModule.torch]
  | .compound ms, l => by
    rw [DefModule.torch, DefModule.rollFillCot, DefModule.rollFillCot, rollFillCotAll_torch ms l]
    cases DefModule.rollFillCotAll ms l <;> simp [Except.map, torchFst, DefModule.torch]
theorem rollFillCotAll_torch : (ms : List (DefModule d)) → (l : List Row) →
    DefModule.rollFillCotAll (DefModule.torchAll ms) l = (DefModule.rollFillCotAll ms l).map fun r => (DefModule.torchAll r.1, r.2)
  | [], l => by simp [DefModule.torchAll, DefModule.rollFillCotAll, Except.map]
  | m :: ms, l => by
    rw [DefModule.torchAll, DefModule.rollFillCotAll, DefModule.rollFillCotAll, rollFillCot_torch m l]
    cases m.rollFillCot l with
    | error e => rfl
    | ok r =>
      simp only [Except.map, torchFst]
      rw [rollFillCotAll_torch ms r.2]
      cases DefModule.rollFillCotAll ms r.2 <;> simp [Except.map, DefModule.torchAll]
end

theorem members_torch (m : DefModule d) : m.torch.members = DefModule.torchAll m.members := by
  cases m <;> simp [DefModule.torch, DefModule.members, DefModule.torchAll]

end
end Imodal
