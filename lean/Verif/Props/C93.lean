import Verif.Lemmas.ReorderReg
/-!
# C93: the order in which modules are listed does not matter
-/
set_option autoImplicit false
namespace Imodal
noncomputable section
variable {d : Nat} {G T : Type}

/-- A compound of the same modules in another order: the same cost, controls and descriptors in that
order, and the same field: values and first derivatives at every point, pairing with momenta and
action on any manifold. -/
theorem C93_module {is : List Nat} (hi : IsOrder is) (ms : List (DefModule d)) :
    PyRel Eq (DefModule.compound ms).cost (DefModule.compound (reorder is ms)).cost ∧
    (DefModule.compound (reorder is ms)).controls = (DefModule.compound ms).controls.reorder is ∧
    (DefModule.compound (reorder is ms)).manifold = (DefModule.compound ms).manifold.reorder is ∧
    PyRel (fun f f' => ∀ (M : Mfd d) {n : Nat} (pts : Fin n → Vec d), f'.values pts = f.values pts ∧ f'.jacobians pts = f.jacobians pts ∧
      M.innerProd f' = M.innerProd f ∧ M.action f' = M.action f) (DefModule.compound ms).field (DefModule.compound (reorder is ms)).field := by
  refine ⟨cost_reorder hi ms, controls_reorder is ms, manifold_reorder is ms, (field_reorder hi ms).mono fun f f' hf M _ pts =>
    ⟨(values_alike hf pts).symm, (jacobians_alike hf pts).symm, (innerProd_alike hf M).symm, (action_alike hf M).symm⟩⟩

/-- The Hamiltonian of the same modules in another order. -/
theorem C93_hamiltonian {is : List Nat} (hi : IsOrder is) (ms : List (DefModule d)) :
    PyRel Eq (Hamiltonian.value (mkHamiltonian ms)) (Hamiltonian.value (mkHamiltonian (reorder is ms))) ∧
    PyRel (fun a b => b = a.reorder is) (Hamiltonian.geodesicControls (mkHamiltonian ms)) (Hamiltonian.geodesicControls (mkHamiltonian (reorder is ms))) := by
  unfold mkHamiltonian
  refine ⟨value_reorder hi ms, ?_⟩
  unfold Hamiltonian.geodesicControls
  rw [manifold_reorder, DefModule.manifold]
  exact (geodesic_reorder hi ms (mirror_reorder hi _)).mono fun a b ⟨l, h, h'⟩ => by rw [h, h', DefModule.reorder]

/-- Filling controls, which must be listed in the same order as the modules. -/
theorem C93_fill {is : List Nat} (hi : IsOrder is) {ms : List (DefModule d)} (hl : ms.length = is.length) (c : Ctrl d) :
    PyRel (fun a b => b = a.reorder is) ((DefModule.compound ms).fillControls c) ((DefModule.compound (reorder is ms)).fillControls (c.reorder is)) :=
  (fill_reorder hi hl c).mono fun a b ⟨l, h, h'⟩ => by rw [h, h', DefModule.reorder]

/-- Shooting: both raise, or the final modules, the states and the controls agree but for the order,
and the costs agree; for every solver, from momenta or with controls. -/
theorem C93_shoot {is : List Nat} (hi : IsOrder is) {ms : List (DefModule d)} (hl : ms.length = is.length) (s : SolverName) (it : Nat) (t1 : ℝ) (cs : Option (List (Ctrl d))) :
    PyRel (fun r r' => r'.1 = r.1.reorder is ∧ r'.2 = r.2)
      (shoot s it t1 cs (.compound ms)) (shoot s it t1 (cs.map (List.map (Ctrl.reorder is))) (.compound (reorder is ms))) := by
  have hc : Option.Rel (List.Forall₂ fun c c' : Ctrl d => c' = c.reorder is) cs (cs.map (List.map (Ctrl.reorder is))) := by
    cases cs with
    | none => exact Option.Rel.none
    | some cs =>
      refine Option.Rel.some ?_
      rw [List.forall₂_map_right_iff, List.forall₂_same]
      exact fun _ _ => rfl
  have W := reorder_twin (d := d) hi (Z := ms.map shapeOf) (by rw [List.length_map, hl])
  refine (W.shoot (reordered_self ms) hc s it t1).mono ?_
  rintro ⟨⟨a, b, c, e⟩, f⟩ ⟨⟨a', b', c', e'⟩, f'⟩ ⟨h, h'⟩
  refine ⟨?_, h'⟩
  have e1 : a' = a.reorder is := by
    obtain ⟨L, h1, h2, -⟩ := h.module
    dsimp only at h1 h2
    rw [h1, h2, DefModule.reorder]
  have e2 : b' = b := h.costs
  have e3 : c' = c.map (Mfd.reorder is) := by
    have h3 := h.states
    dsimp only at h3
    clear * - h3
    induction h3 with
    | nil => rfl
    | cons h1 _ ih =>
      obtain ⟨x, y, ⟨L, hx, hy, -⟩, rfl, rfl⟩ := h1
      rw [List.map_cons, ih, hx, hy, manifold_reorder, DefModule.manifold, Mfd.reorder]
  have e4 : e' = e.map (Ctrl.reorder is) := by
    have h3 := h.ctrls
    dsimp only at h3
    clear * - h3
    induction h3 with
    | nil => rfl
    | cons h1 _ ih => rw [List.map_cons, ih, h1]
  dsimp only [Shot.reorder]
  rw [e1, e2, e3, e4]

/-- Deforming: if the deformation modules are listed in another order, and the controls accordingly,
the deformed geometries and the deformation cost are the same. -/
theorem C93_deformed {is : List Nat} (hi : IsOrder is) (Ds : List (Deformable d G)) {ms : List (DefModule d)} (hl : ms.length = is.length) (s : SolverName) (it : Nat)
    (w : Bool) (cs : Option (List (List (Ctrl d)))) (t1 : ℝ) (red : Reduce) :
    PyRel (fun r r' : Deformed d G => r'.geometries = r.geometries ∧ r'.cost = r.cost)
      (computeDeformed Ds ms s it w cs t1 red) (computeDeformed Ds (reorder is ms) s it w (cs.map (List.map (reorder is))) t1 red) :=
  (deformed_reorder hi Ds hl s it w cs t1 red).mono fun _ _ h => ⟨h.1, h.2.1⟩

/-- Registration: the geometries and the cost agree, and the model afterwards is the same but for the
order. -/
theorem C93_registration {is : List Nat} (hi : IsOrder is) {M : RegModel d G T} (hl : M.modules.length = is.length) (hM : M.Kept) (s : SolverName) (it : Nat) (w : Bool) (t1 : ℝ) :
    PyRel (fun r r' : Deformed d G × RegModel d G T => r'.1.geometries = r.1.geometries ∧ r'.1.cost = r.1.cost ∧ r'.2 = r.2.reorder is)
      (M.computeDeformed s it w t1) ((M.reorder is).computeDeformed s it w t1) := registration_reorder hi hl hM s it w t1

/-- `evaluate`: the same costs and the same total. -/
theorem C93_evaluate {is : List Nat} (hi : IsOrder is) {M : RegModel d G T} (hl : M.modules.length = is.length) (hM : M.Kept) (targets : List T) (s : SolverName) (it : Nat)
    (costs : Dict CostKey ℝ) :
    PyRel (fun r r' : Evaluated d G T => r'.costs = r.costs ∧ r'.total = r.total ∧ r'.model = r.model.reorder is)
      (M.evaluate none targets s it costs) ((M.reorder is).evaluate none targets s it costs) := by
  unfold RegModel.evaluate
  have hl' : (M.reorder is).deformables.length = M.deformables.length := rfl
  rw [hl']
  by_cases ht : targets.length ≠ M.deformables.length
  · rw [if_pos ht, if_pos ht]; trivial
  · rw [if_neg ht, if_neg ht]
    dsimp only
    rcases (C93_registration hi hl hM s it true 1).both with ⟨⟨r, N⟩, ⟨r', N'⟩, e, e', h1, h2, h3⟩ | ⟨_, _, e, e'⟩
    · rw [e, e']
      dsimp only at h1 h2 h3 ⊢
      subst h3
      have ha : (N.reorder is).attachments = N.attachments := rfl
      have hm : (N.reorder is).lam = N.lam := rfl
      rw [h2, h1, ha, hm]
      cases attachmentCost N.attachments r.geometries targets with
      | error _ => trivial
      | ok a => exact PyRel.ok ⟨rfl, rfl, rfl⟩
    · rw [e, e']; trivial

/-! ### Cases -/

-- an order of three modules, and what it does
example : IsOrder [2, 0, 1] ∧ reorder [2, 0, 1] ["a", "b", "c"] = ["c", "a", "b"] := by
  refine ⟨?_, rfl⟩
  unfold IsOrder; decide

-- listing a member twice is not an order
example : ¬IsOrder [0, 0] := by unfold IsOrder; decide

-- two modules of different kinds and sizes swapped, with their coordinates: the four coordinates of
-- the second come first
example (x p c : Fin 1 → Vec 2) (y q b : Fin 2 → Vec 2) : let ms : List (DefModule 2) := [.translations ⟨.torch, x, p, 1, c⟩, .implicit0 ⟨.torch, y, q, 1, 0.1, 1, b⟩]
    reorder [1, 0] ms = [.implicit0 ⟨.torch, y, q, 1, 0.1, 1, b⟩, .translations ⟨.torch, x, p, 1, c⟩] ∧
    (List.range 6).map (shuffle [2, 4] [1, 0]) = [2, 3, 4, 5, 0, 1] := ⟨rfl, by decide⟩

-- the controls have to be listed in the order of the modules: filling a linear module with the
-- control of a module of translations raises
example (x p c : Fin 1 → Vec 2) (m : Linear 2) : (DefModule.compound [.linear m, .translations ⟨.torch, x, p, 1, c⟩]).fillControls (.list [.vecs c, .scalar 1]) = .error .assertion := by
  simp [DefModule.fillControls, DefModule.fillAll]

end
end Imodal
