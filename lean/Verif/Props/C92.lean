import Verif.Lemmas.RelabelReg
import Verif.Props.C86
/-!
# C92: the order in which points are listed does not matter
-/
set_option autoImplicit false
namespace Imodal
noncomputable section
variable {d : Nat} {G T : Type}

/-- A module with its points listed in another order: the same cost, the descriptors and controls in
that order, and the same field: values and first derivatives at every point, pairing with momenta
and action on any manifold. -/
theorem C92_module (σ : Labels) (m : DefModule d) (hk : m.Keeps σ) :
    (m.relabel σ).cost = m.cost ∧ (m.relabel σ).manifold = m.manifold.relabel σ ∧ (m.relabel σ).controls = m.relabelCtrl σ m.controls ∧
    PyRel (fun f f' => ∀ (M : Mfd d) {n : Nat} (pts : Fin n → Vec d), f'.values pts = f.values pts ∧ f'.jacobians pts = f.jacobians pts ∧
      M.innerProd f' = M.innerProd f ∧ M.action f' = M.action f) m.field (m.relabel σ).field :=
  ⟨cost_relabel σ m hk, manifold_relabel σ m, controls_relabel σ m, (field_relabel σ m hk).mono fun f f' hf M _ pts =>
    ⟨(values_alike hf pts).symm, (jacobians_alike hf pts).symm, (innerProd_alike hf M).symm, (action_alike hf M).symm⟩⟩

/-- The pairing of a field with the momenta does not see the order, and the velocities of the
descriptors come in that order. -/
theorem C92_manifold (σ : Labels) (M : Mfd d) (f : FieldExpr d) :
    (M.relabel σ).innerProd f = M.innerProd f ∧ (M.relabel σ).action f = (M.action f).map (Tan.relabel σ) :=
  ⟨innerProd_relabel f σ M, action_relabel f σ M⟩

/-- Filling controls. -/
theorem C92_fill (σ : Labels) (m : DefModule d) (hk : m.Keeps σ) (c : Ctrl d) :
    PyRel (fun a b => b = a.relabel σ) (m.fillControls c) ((m.relabel σ).fillControls (m.relabelCtrl σ c)) := fillControls_relabel σ m hk c

/-- Geodesic controls for a manifold, which may be listed in another order of its own. -/
theorem C92_geodesic (σ τ : Labels) (m : DefModule d) (hk : m.Keeps σ) (man : Mfd d) :
    PyRel (fun a b => b = a.relabel σ) (m.geodesic man) ((m.relabel σ).geodesic (man.relabel τ)) := geodesic_relabel σ (mirror_relabel τ man) m hk

/-- Shooting: both raise, or the final modules, the states and the controls agree but for the order,
and the costs agree; for every solver, from momenta or with controls. -/
theorem C92_shoot (σ : Labels) (ms : List (DefModule d)) (hk : (DefModule.compound ms).Keeps σ) (s : SolverName) (it : Nat) (t1 : ℝ) (cs : Option (List (Ctrl d))) :
    PyRel (fun r r' => r'.1 = r.1.relabel σ (.compound ms) ∧ r'.2 = r.2)
      (shoot s it t1 cs (.compound ms)) (shoot s it t1 (cs.map (List.map ((DefModule.compound ms).relabelCtrl σ))) ((DefModule.compound ms).relabel σ)) := by
  have hc : Option.Rel (List.Forall₂ fun c c' => c' = (DefModule.compound ms).relabelCtrl σ c) cs (cs.map (List.map ((DefModule.compound ms).relabelCtrl σ))) := by
    cases cs with
    | none => exact Option.Rel.none
    | some cs =>
      refine Option.Rel.some ?_
      rw [List.forall₂_map_right_iff, List.forall₂_same]
      exact fun _ _ => rfl
  have h := relabelled_self (σ := σ) (DefModule.compound ms)
  rw [DefModule.relabel] at h
  have := (relabel_twin σ (.compound ms) hk).shoot h hc s it t1
  rw [DefModule.relabel]
  refine this.mono ?_
  rintro ⟨⟨a, b, c, e⟩, f⟩ ⟨⟨a', b', c', e'⟩, f'⟩ ⟨h, h'⟩
  refine ⟨?_, h'⟩
  have e1 : a' = a.relabel σ := h.module.1
  have e2 : b' = b := h.costs
  have e3 : c' = c.map (Mfd.relabel σ) := by
    have h3 := h.states
    dsimp only at h3
    clear * - h3
    induction h3 with
    | nil => rfl
    | cons h1 _ ih =>
      obtain ⟨x, y, hq, rfl, rfl⟩ := h1
      rw [List.map_cons, ih, hq.1, manifold_relabel]
  have e4 : e' = e.map ((DefModule.compound ms).relabelCtrl σ) := by
    have h3 := h.ctrls
    dsimp only at h3
    clear * - h3
    induction h3 with
    | nil => rfl
    | cons h1 _ ih => rw [List.map_cons, ih, h1]
  dsimp only [Shot.relabel]
  rw [e1, e2, e3, e4]

/-- Deforming: if the points of the deformation modules are listed in another order, and the
controls accordingly, the deformed geometries and the deformation cost are the same. -/
theorem C92_deformed (σ : Labels) (Ds : List (Deformable d G)) {ms : List (DefModule d)} (hk : (DefModule.compound ms).Keeps σ) (s : SolverName) (it : Nat)
    (w : Bool) (cs : Option (List (List (Ctrl d)))) (t1 : ℝ) (red : Reduce) :
    PyRel (fun r r' : Deformed d G => r'.geometries = r.geometries ∧ r'.cost = r.cost)
      (computeDeformed Ds ms s it w cs t1 red)
      (computeDeformed Ds (DefModule.relabelAll σ 0 ms) s it w (cs.map (List.map (DefModule.relabelCtrls σ 0 ms))) t1 red) := by
  rw [DefModule.Keeps] at hk
  exact (deformed_relabel σ Ds hk s it w cs t1 red).mono fun r r' h => ⟨h.1, h.2.1⟩

/-- Registration: the geometries and the cost agree, and the model afterwards is the same but for the
order. -/
theorem C92_registration (σ : Labels) {M : RegModel d G T} (hk : (DefModule.compound M.modules).Keeps σ) (hM : M.Kept) (s : SolverName) (it : Nat) (w : Bool) (t1 : ℝ) :
    PyRel (fun r r' : Deformed d G × RegModel d G T => r'.1.geometries = r.1.geometries ∧ r'.1.cost = r.1.cost ∧ r'.2 = r.2.relabel σ)
      (M.computeDeformed s it w t1) ((M.relabel σ).computeDeformed s it w t1) := by
  rw [DefModule.Keeps] at hk
  exact registration_relabel σ hk hM s it w t1

/-- `evaluate`: the same costs and the same total. -/
theorem C92_evaluate (σ : Labels) {M : RegModel d G T} (hk : (DefModule.compound M.modules).Keeps σ) (hM : M.Kept) (targets : List T) (s : SolverName) (it : Nat)
    (costs : Dict CostKey ℝ) :
    PyRel (fun r r' : Evaluated d G T => r'.costs = r.costs ∧ r'.total = r.total ∧ r'.model = r.model.relabel σ)
      (M.evaluate none targets s it costs) ((M.relabel σ).evaluate none targets s it costs) := by
  unfold RegModel.evaluate
  have hl : (M.relabel σ).deformables.length = M.deformables.length := rfl
  rw [hl]
  by_cases ht : targets.length ≠ M.deformables.length
  · rw [if_pos ht, if_pos ht]; trivial
  · rw [if_neg ht, if_neg ht]
    dsimp only
    rcases (C92_registration σ hk hM s it true 1).both with ⟨⟨r, N⟩, ⟨r', N'⟩, e, e', h1, h2, h3⟩ | ⟨_, _, e, e'⟩
    · rw [e, e']
      dsimp only at h1 h2 h3 ⊢
      subst h3
      have ha : (N.relabel σ).attachments = N.attachments := rfl
      have hm : (N.relabel σ).lam = N.lam := rfl
      rw [h2, h1, ha, hm]
      cases attachmentCost N.attachments r.geometries targets with
      | error _ => trivial
      | ok a => exact PyRel.ok ⟨rfl, rfl, rfl⟩
    · rw [e, e']; trivial

/-! ### Cases -/

/-- Two points swapped in every tensor of two points, the others left alone. -/
def swapTwo : Labels := fun _ n => if h : n = 2 then h ▸ Equiv.swap 0 1 else 1

-- a module of two translations with its points swapped
example (x p c : Fin 2 → Vec 2) : (DefModule.translations (⟨.torch, x, p, 1, c⟩ : Translations 2 2)).relabel swapTwo =
    .translations ⟨.torch, ![x 1, x 0], ![p 1, p 0], 1, ![c 1, c 0]⟩ := by
  rw [DefModule.relabel]
  congr 1
  simp only [Translations.mk.injEq, swapTwo, dif_pos]
  refine ⟨trivial, ?_, ?_, trivial, ?_⟩ <;> funext i <;> fin_cases i <;> rfl

-- orders that keep the two kinds of points apart, with something to reorder among each
example : KeepsParts 2 2 (Equiv.swap 0 1 * Equiv.swap 2 3) ∧ headOrder (N := 2) (P := 2) (Equiv.swap 0 1 * Equiv.swap 2 3) 0 = 1 ∧
    tailOrder (N := 2) (P := 2) (Equiv.swap 0 1 * Equiv.swap 2 3) 0 = 1 := by
  refine ⟨?_, by decide, by decide⟩
  unfold KeepsParts; decide

-- a compound of both kinds of modules meets the condition
example (x p c : Fin 2 → Vec 2) : (DefModule.compound [.translations ⟨.torch, x, p, 1, c⟩, .implicit0 ⟨.keops, x, p, 1, 0.1, 1, c⟩]).Keeps swapTwo := by
  simp only [DefModule.Keeps, DefModule.KeepsAll, and_self]

-- the order matters for modules with two kinds of points: this order mixes them
example : ¬KeepsParts 1 1 (Equiv.swap 0 1) := by unfold KeepsParts; decide

end
end Imodal
