import Verif.Lemmas.BackendReg
import Verif.Props.C20
/-!
# C82: the compute backend of a module does not change what it does
-/
set_option autoImplicit false
namespace Imodal
noncomputable section
variable {d : Nat}

/-- The costs, the values and first derivatives of the generated field, the pairing of that field
with a manifold and its action on one do not depend on the backend. -/
theorem C82_module {m m' : DefModule d} (h : SameButBackend m m') :
    m.cost = m'.cost ∧ m.controls = m'.controls ∧ m.manifold = m'.manifold ∧
    PyRel (fun f f' => ∀ (M : Mfd d) {n : Nat} (pts : Fin n → Vec d), f.values pts = f'.values pts ∧ f.jacobians pts = f'.jacobians pts ∧
      M.innerProd f = M.innerProd f' ∧ M.action f = M.action f') m.field m'.field :=
  ⟨h.cost, h.controls, h.manifold, h.field.mono fun f f' hf M _ pts =>
    ⟨values_alike hf pts, jacobians_alike hf pts, innerProd_alike hf M, action_alike hf M⟩⟩

/-- Geodesic controls: both raise or both return, and then the modules agree but for the backend. -/
theorem C82_geodesic {m m' : DefModule d} (h : SameButBackend m m') (man : Mfd d) :
    PyRel SameButBackend (m.geodesic man) (m'.geodesic man) := h.geodesic man

/-- Filling controls. -/
theorem C82_fill {m m' : DefModule d} (h : SameButBackend m m') (c : Ctrl d) :
    PyRel SameButBackend (m.fillControls c) (m'.fillControls c) := h.fillControls c

/-- Shooting: both raise, or the final modules (but for the backend), costs, intermediate states and
intermediate controls agree, for every solver and with or without given controls. -/
theorem C82_shoot {m m' : DefModule d} (h : SameButBackend m m') (s : SolverName) (it : Nat) (t1 : ℝ) (controls : Option (List (Ctrl d))) :
    PyRel (fun r r' => r.1.SameButBackend r'.1 ∧ r.2 = r'.2) (shoot s it t1 controls m) (shoot s it t1 controls m') :=
  h.shoot s it t1 controls

/-! ## Registration -/

theorem torchAll_append (l l' : List (DefModule d)) : DefModule.torchAll (l ++ l') = DefModule.torchAll l ++ DefModule.torchAll l' := by
  induction l with
  | nil => rw [DefModule.torchAll]; rfl
  | cons m l ih => rw [List.cons_append, DefModule.torchAll, DefModule.torchAll, ih]; rfl

theorem torchAll_drop : (k : Nat) → (l : List (DefModule d)) → DefModule.torchAll (l.drop k) = (DefModule.torchAll l).drop k
  | 0, _ => rfl
  | k + 1, [] => by simp [DefModule.torchAll]
  | k + 1, m :: l => by rw [DefModule.torchAll, List.drop_succ_cons, List.drop_succ_cons, torchAll_drop k l]

theorem pointsOf_torch (m : DefModule d) : pointsOf m.torch = pointsOf m := by
  cases m <;> simp [DefModule.torch, pointsOf]

variable {G T : Type}

theorem toGeometries_torch : (Ds : List (Deformable d G)) → (ms : List (DefModule d)) → toGeometries Ds (DefModule.torchAll ms) = toGeometries Ds ms
  | [], ms => by rw [toGeometries, toGeometries] <;> simp
  | D :: Ds, [] => by rw [DefModule.torchAll]
  | D :: Ds, m :: ms => by rw [DefModule.torchAll, toGeometries, toGeometries, pointsOf_torch, toGeometries_torch Ds ms]

theorem C82_deformed (Ds : List (Deformable d G)) {ms ms' : List (DefModule d)} (h : DefModule.torchAll ms = DefModule.torchAll ms')
    (s : SolverName) (it : Nat) (wantCosts : Bool) (controls : Option (List (List (Ctrl d)))) (t1 : ℝ) (red : Reduce) :
    PyRel Deformed.SameButBackend (computeDeformed Ds ms s it wantCosts controls t1 red) (computeDeformed Ds ms' s it wantCosts controls t1 red) := by
  have hc : SameButBackend (.compound (Ds.map Deformable.silent ++ ms)) (.compound (Ds.map Deformable.silent ++ ms')) := by
    unfold SameButBackend
    rw [DefModule.torch, DefModule.torch, torchAll_append, torchAll_append, h]
  unfold computeDeformed
  dsimp only
  rcases (hc.shoot s it t1 (padControls Ds.length controls)).both with ⟨⟨r, c⟩, ⟨r', c'⟩, e, e', h1, rfl⟩ | ⟨_, _, e, e'⟩
  · rw [e, e']
    dsimp only at h1 ⊢
    split
    · cases backwardModules Ds <;> trivial
    · have hr : PyRel (fun r r' => r.1 = r'.1 ∧ SameButBackend r.2 r'.2)
          (if wantCosts then reduceCost red it c (padControls Ds.length controls) r.states r.module else .ok (none, r.module))
          (if wantCosts then reduceCost red it c (padControls Ds.length controls) r'.states r'.module else .ok (none, r'.module)) := by
        rw [h1.states]
        split
        · exact h1.module.reduceCost ..
        · exact PyRel.ok ⟨rfl, h1.module⟩
      rcases hr.both with ⟨⟨a, m⟩, ⟨a', m'⟩, e, e', rfl, h2⟩ | ⟨_, _, e, e'⟩
      · rw [e, e']
        dsimp only
        rw [← toGeometries_torch Ds r.module.members, h1.module.members, toGeometries_torch]
        cases toGeometries Ds r'.module.members with
        | error _ => trivial
        | ok gs => exact PyRel.ok ⟨rfl, rfl, h1, h2⟩
      · rw [e, e']; trivial
  · rw [e, e']; trivial

theorem fillModules_torch {ms ms' : List (DefModule d)} (h : DefModule.torchAll ms = DefModule.torchAll ms') (mans : List (Mfd d)) :
    PyRel (fun l l' => DefModule.torchAll l = DefModule.torchAll l') (fillModules ms mans) (fillModules ms' mans) := by
  have hc : SameButBackend (.compound ms) (.compound ms') := by
    unfold SameButBackend
    rw [DefModule.torch, DefModule.torch, h]
  unfold fillModules
  rcases (hc.fillGdFrom (.compound mans)).both with ⟨a, b, e, e', h1⟩ | ⟨_, _, e, e'⟩
  · rw [e, e']
    dsimp only
    rcases (SameButBackend.fillCotFrom h1 (.compound mans)).both with ⟨a, b, e, e', h2⟩ | ⟨_, _, e, e'⟩
    · rw [e, e']; exact SameButBackend.members h2
    · rw [e, e']; trivial
  · rw [e, e']; trivial

theorem zipWith_leave : (Ds : List (Deformable d G)) → (l : List (DefModule d)) →
    List.zipWith Deformable.leave Ds (DefModule.torchAll l) = List.zipWith Deformable.leave Ds l
  | [], l => by simp
  | D :: Ds, [] => by simp [DefModule.torchAll]
  | D :: Ds, m :: l => by
    rw [DefModule.torchAll, List.zipWith_cons_cons, List.zipWith_cons_cons, zipWith_leave Ds l]
    unfold Deformable.leave
    rw [manifold_torch]

theorem RegModel.SameButBackend.leave {M M' : RegModel d G T} (h : M.SameButBackend M') {m m' : DefModule d} (hm : Imodal.SameButBackend m m') :
    (M.leave m).SameButBackend (M'.leave m') := by
  refine ⟨?_, ?_, h.attachments, h.init, h.learned, h.lam, h.reduce⟩
  · unfold RegModel.leave
    dsimp only
    rw [h.deformables, ← zipWith_leave _ m.members, hm.members, zipWith_leave]
  · unfold RegModel.leave
    dsimp only
    rw [torchAll_drop, torchAll_drop, hm.members, h.deformables]

/-- `compute_deformed` of two models that differ in the backends of their modules. -/
theorem C82_registration {M M' : RegModel d G T} (h : M.SameButBackend M') (s : SolverName) (it : Nat) (wantCosts : Bool) (t1 : ℝ) :
    PyRel (fun r r' => r.1.SameButBackend r'.1 ∧ r.2.SameButBackend r'.2) (M.computeDeformed s it wantCosts t1) (M'.computeDeformed s it wantCosts t1) := by
  unfold RegModel.computeDeformed RegModel.steps
  rw [h.init, h.deformables, h.learned, h.reduce]
  rcases (fillModules_torch h.modules (M'.init.drop M'.deformables.length)).both with ⟨ms, ms', e, e', h1⟩ | ⟨_, _, e, e'⟩
  · rw [e, e']
    dsimp only
    cases fillDeformables M'.deformables M'.init with
    | error _ => trivial
    | ok Ds =>
      dsimp only
      rcases (C82_deformed Ds h1 s (M'.learned.elim it Prod.fst) wantCosts (M'.learned.map Prod.snd) t1 M'.reduce).both with
        ⟨r, r', e, e', h2⟩ | ⟨_, _, e, e'⟩
      · rw [e, e']
        refine PyRel.ok ⟨h2, ?_⟩
        refine RegModel.SameButBackend.leave ?_ h2.compound
        exact ⟨rfl, h1, h.attachments, rfl, rfl, h.lam, rfl⟩
      · rw [e, e']; trivial
  · rw [e, e']; trivial

/-- `evaluate`: the costs and the number `backward` is called on do not depend on the backends. -/
theorem C82_evaluate {M M' : RegModel d G T} (h : M.SameButBackend M') (targets : List T) (s : SolverName) (it : Nat) (costs : Dict CostKey ℝ) :
    PyRel (fun r r' => r.costs = r'.costs ∧ r.total = r'.total ∧ r.model.SameButBackend r'.model) (M.evaluate none targets s it costs)
      (M'.evaluate none targets s it costs) := by
  unfold RegModel.evaluate
  rw [h.deformables]
  split
  · trivial
  · dsimp only
    rcases (C82_registration h s it true 1).both with ⟨⟨r, N⟩, ⟨r', N'⟩, e, e', h1, h2⟩ | ⟨_, _, e, e'⟩
    · rw [e, e']
      dsimp only at h1 h2 ⊢
      rw [h1.cost, h1.geometries, h2.attachments, h2.lam]
      cases attachmentCost N'.attachments r'.geometries targets with
      | error _ => trivial
      | ok a => exact PyRel.ok ⟨rfl, rfl, h2⟩
    · rw [e, e']; trivial

/-- `AtlasModel.evaluate`, member by member. -/
theorem C82_atlas (s : SolverName) (it : Nat) {Ms Ms' : List (RegModel d G T)} (h : List.Forall₂ RegModel.SameButBackend Ms Ms') (targets : List T)
    (ht : Option (Hyper d)) :
    PyRel (fun r r' => r.1 = r'.1 ∧ r.2.1 = r'.2.1 ∧ List.Forall₂ RegModel.SameButBackend r.2.2 r'.2.2)
      (atlasEvaluate ht Ms targets s it) (atlasEvaluate ht Ms' targets s it) := by
  have hl : ∀ {Ms Ms' : List (RegModel d G T)}, List.Forall₂ RegModel.SameButBackend Ms Ms' → ∀ (ts : List T) (costs : Dict CostKey (List ℝ)),
      PyRel (fun r r' => r.1 = r'.1 ∧ List.Forall₂ RegModel.SameButBackend r.2 r'.2) (atlasLoop s it Ms ts costs) (atlasLoop s it Ms' ts costs) := by
    intro Ms Ms' h
    induction h with
    | nil => intro ts costs; simp only [atlasLoop]; exact PyRel.ok ⟨rfl, .nil⟩
    | cons h h' ih =>
      intro ts costs
      cases ts with
      | nil => simp only [atlasLoop]; exact PyRel.ok ⟨rfl, .cons h h'⟩
      | cons t ts =>
        rw [atlasLoop, atlasLoop]
        rcases (C82_evaluate h [t] s it []).both with ⟨r, r', e, e', h1, -, h2⟩ | ⟨_, _, e, e'⟩
        · rw [e, e']
          dsimp only
          rw [h1]
          rcases (ih ts (appendInDictOfList costs r'.costs)).both with ⟨r, r', e, e', h3, h4⟩ | ⟨_, _, e, e'⟩
          · rw [e, e']; exact PyRel.ok ⟨h3, .cons h2 h4⟩
          · rw [e, e']; trivial
        · rw [e, e']; trivial
  have he : Ms.isEmpty = Ms'.isEmpty := by cases h <;> rfl
  unfold atlasEvaluate
  rw [he]
  rcases (if Ms'.isEmpty || targets.isEmpty then .ok () else useTemplate ht true : Py Unit) with _ | _
  · trivial
  · dsimp only
    rcases (hl h targets []).both with ⟨r, r', e, e', h1, h2⟩ | ⟨_, _, e, e'⟩
    · rw [e, e']
      dsimp only
      rw [h1]
      split
      · trivial
      · exact PyRel.ok ⟨rfl, rfl, h2⟩
    · rw [e, e']; trivial

-- modules built with KeOps against their torch versions, mixed inside a compound
example (x p c : Fin 2 → Vec 2) : SameButBackend
    (.compound [.translations ⟨.keops, x, p, 1, c⟩, .implicit0 ⟨.torch, x, p, 1, 0.1, 1, c⟩])
    (.compound [.translations ⟨.torch, x, p, 1, c⟩, .implicit0 ⟨.keops, x, p, 1, 0.1, 1, c⟩]) := by
  simp only [SameButBackend, DefModule.torch, DefModule.torchAll]

-- a KeOps module that returns geodesic controls, and so does its torch version
example : ∃ a b, (DefModule.translations (⟨.keops, ![0, 1], 0, 1, 0⟩ : Translations 2 2)).geodesic (.landmarks ![0, 1] ![1, 1]) = .ok a ∧
    (DefModule.translations (⟨.torch, ![0, 1], 0, 1, 0⟩ : Translations 2 2)).geodesic (.landmarks ![0, 1] ![1, 1]) = .ok b ∧ SameButBackend a b := by
  obtain ⟨m', h⟩ := C20_translations (⟨.keops, ![0, 1], 0, 1, 0⟩ : Translations 2 2) (by norm_num)
    (by intro i j h; fin_cases i <;> fin_cases j <;> simp_all) (.landmarks ![0, 1] ![1, 1]) (by simp [Mfd.NoEmptyCompound])
  have h1 : (DefModule.translations (⟨.keops, ![0, 1], 0, 1, 0⟩ : Translations 2 2)).geodesic (.landmarks ![0, 1] ![1, 1]) = .ok (.translations m') := by
    rw [DefModule.geodesic, h]; rfl
  obtain ⟨b, hb, hs⟩ := (C82_geodesic (m' := DefModule.translations (⟨.torch, ![0, 1], 0, 1, 0⟩ : Translations 2 2))
    (by simp only [SameButBackend, DefModule.torch]) (.landmarks ![0, 1] ![1, 1])).left h1
  exact ⟨_, b, h1, hb, hs⟩

end
end Imodal
