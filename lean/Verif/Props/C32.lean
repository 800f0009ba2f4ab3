import Verif.Spec.Registration
import Verif.Spec.Shooting
import Verif.Lemmas.RegSame
/-!
# C32: computing the deformed shapes is repeatable

A model built by `RegistrationModel` gives the same deformed shapes, costs and trajectories
after any history of calls.
-/
set_option autoImplicit false
namespace Imodal
noncomputable section
variable {d : Nat} {G T : Type}

/-- The models differ at most in descriptors, momenta, controls and cached results of the modules
and of the silent modules. -/
structure RegModel.Alike (M M' : RegModel d G T) : Prop where
  deformables : List.Forall₂ Deformable.Kin M.deformables M'.deformables
  modules : Same (.compound M.modules) (.compound M'.modules)
  attachments : M.attachments = M'.attachments
  init : M.init = M'.init
  learned : M.learned = M'.learned
  lam : M.lam = M'.lam
  reduce : M.reduce = M'.reduce

theorem kin_refl (Ds : List (Deformable d G)) : List.Forall₂ Deformable.Kin Ds Ds := by
  induction Ds with
  | nil => exact .nil
  | cons D Ds ih => exact .cons ⟨rfl, rfl⟩ ih

theorem RegModel.Alike.refl (M : RegModel d G T) : M.Alike M := ⟨kin_refl _, Same.refl _, rfl, rfl, rfl, rfl, rfl⟩

theorem kin_symm {Ds Ds' : List (Deformable d G)} (h : List.Forall₂ Deformable.Kin Ds Ds') : List.Forall₂ Deformable.Kin Ds' Ds := by
  induction h with
  | nil => exact .nil
  | cons h _ ih => exact .cons ⟨h.1.symm, h.2.symm⟩ ih

theorem kin_trans {Ds Ds' Ds'' : List (Deformable d G)} (h : List.Forall₂ Deformable.Kin Ds Ds')
    (h' : List.Forall₂ Deformable.Kin Ds' Ds'') : List.Forall₂ Deformable.Kin Ds Ds'' := by
  induction h generalizing Ds'' with
  | nil => exact h'
  | cons h _ ih =>
    cases h' with
    | cons h1 h2 => exact .cons ⟨h.1.trans h1.1, h.2.trans h1.2⟩ (ih h2)

theorem RegModel.Alike.symm {M M' : RegModel d G T} (h : M.Alike M') : M'.Alike M :=
  ⟨kin_symm h.deformables, h.modules.symm, h.attachments.symm, h.init.symm, h.learned.symm, h.lam.symm, h.reduce.symm⟩

theorem RegModel.Alike.trans {M M' M'' : RegModel d G T} (h : M.Alike M') (h' : M'.Alike M'') : M.Alike M'' :=
  ⟨kin_trans h.deformables h'.deformables, h.modules.trans h'.modules, h.attachments.trans h'.attachments, h.init.trans h'.init,
    h.learned.trans h'.learned, h.lam.trans h'.lam, h.reduce.trans h'.reduce⟩

/-- The initial manifolds have the shapes of the deformables and modules. -/
structure RegModel.Shaped (M : RegModel d G T) : Prop where
  count : M.deformables.length ≤ M.init.length
  shapes : (Mfd.compound (M.init.drop M.deformables.length)).Fits (.compound M.modules)

theorem shaped_alike {M M' : RegModel d G T} (h : M.Alike M') (hs : M.Shaped) : M'.Shaped where
  count := by rw [← h.init, ← h.deformables.length_eq]; exact hs.count
  shapes := by
    rw [← h.init, ← h.deformables.length_eq]
    exact fits_of_sameGd h.modules hs.shapes

theorem fillDeformables_kin {Ds Ds' : List (Deformable d G)} (h : List.Forall₂ Deformable.Kin Ds Ds') :
    ∀ {mans : List (Mfd d)}, Ds.length ≤ mans.length → fillDeformables Ds mans = fillDeformables Ds' mans := by
  induction h with
  | nil => intro mans _; rfl
  | @cons D D' Ds Ds' h _ ih =>
    intro mans hl
    cases mans with
    | nil => simp at hl
    | cons man mans =>
      have hf : D.fill man = D'.fill man := by
        obtain ⟨n, gd, cot, b, t⟩ := D
        obtain ⟨n', gd', cot', b', t'⟩ := D'
        obtain ⟨h1, h2⟩ := h
        dsimp only at h1 h2
        subst h1 h2
        cases man <;> rfl
      rw [fillDeformables, fillDeformables, hf, ih (by simpa using hl)]

theorem fill_kin {D D' : Deformable d G} {man : Mfd d} (h : D.fill man = .ok D') : D.Kin D' := by
  unfold Deformable.fill at h
  cases man <;> cases h
  exact ⟨rfl, rfl⟩

theorem fillDeformables_ok {Ds : List (Deformable d G)} : ∀ {mans : List (Mfd d)} {Ds' : List (Deformable d G)},
    fillDeformables Ds mans = .ok Ds' → List.Forall₂ Deformable.Kin Ds Ds' := by
  induction Ds with
  | nil => intro mans Ds' h; rw [fillDeformables] at h; cases h; exact .nil; simp
  | cons D Ds ih =>
    intro mans Ds' h
    cases mans with
    | nil => rw [fillDeformables] at h; cases h; exact kin_refl _; simp
    | cons man mans =>
      rw [fillDeformables] at h
      cases h1 : D.fill man with
      | error e => rw [h1] at h; cases h
      | ok D' =>
        rw [h1] at h
        dsimp only at h
        cases h2 : fillDeformables Ds mans with
        | error e => rw [h2] at h; cases h
        | ok Ds'' => rw [h2] at h; cases h; exact .cons (fill_kin h1) (ih h2)

theorem leave_kin {Ds : List (Deformable d G)} : ∀ {ms : List (DefModule d)}, Ds.length ≤ ms.length →
    List.Forall₂ Deformable.Kin Ds (List.zipWith Deformable.leave Ds ms) := by
  induction Ds with
  | nil => intro ms _; exact .nil
  | cons D Ds ih =>
    intro ms hl
    cases ms with
    | nil => simp at hl
    | cons m ms =>
      refine .cons ?_ (ih (by simpa using hl))
      unfold Deformable.leave
      cases h : D.fill m.manifold with
      | error e => exact ⟨rfl, rfl⟩
      | ok D' => exact fill_kin h

/-- The call depends on the parameters only, and not on what the modules hold. -/
theorem computeDeformed_alike {M M' : RegModel d G T} (h : M.Alike M') (hs : M.Shaped) {s : SolverName} {it : Nat} {wantCosts : Bool}
    {t1 : ℝ} (hit : M.steps it ≠ 0) {r : Deformed d G × RegModel d G T}
    (hr : M.computeDeformed s it wantCosts t1 = .ok r) : M'.computeDeformed s it wantCosts t1 = .ok r := by
  obtain ⟨ms, e1, f1⟩ := fillModules_fits hs.shapes
  have hs' := shaped_alike h hs
  obtain ⟨ms', e2, f2⟩ := fillModules_fits hs'.shapes
  have hreset : (DefModule.compound ms).reset = (DefModule.compound ms').reset := by
    rw [← e1, ← e2, ← h.init, ← h.deformables.length_eq]
    exact h.modules _
  unfold RegModel.computeDeformed at hr ⊢
  rw [f1] at hr
  rw [f2]
  dsimp only at hr ⊢
  rw [← h.init, ← h.learned, ← h.reduce, ← fillDeformables_kin h.deformables hs.count]
  cases h1 : fillDeformables M.deformables M.init with
  | error e => rw [h1] at hr; cases hr
  | ok Ds =>
    rw [h1] at hr
    dsimp only at hr ⊢
    rw [show M'.steps it = M.steps it by unfold RegModel.steps; rw [h.learned]]
    generalize M.steps it = n at hit hr ⊢
    cases h2 : Imodal.computeDeformed Ds ms s n wantCosts (M.learned.map Prod.snd) t1 M.reduce with
    | error e => rw [h2] at hr; cases hr
    | ok q =>
      rw [h2] at hr
      rw [computeDeformed_of_reset hreset hit h2]
      dsimp only at hr ⊢
      rw [← hr]
      obtain ⟨_, _, _, _, _, _, _⟩ := M
      obtain ⟨_, _, _, _, _, _, _⟩ := M'
      obtain ⟨-, -, rfl, rfl, rfl, rfl, rfl⟩ := h
      rfl

/-- A call leaves the model alike. -/
theorem alike_computeDeformed {M : RegModel d G T} (hs : M.Shaped) {s : SolverName} {it : Nat} {wantCosts : Bool} {t1 : ℝ}
    {r : Deformed d G × RegModel d G T} (hr : M.computeDeformed s it wantCosts t1 = .ok r) : M.Alike r.2 := by
  obtain ⟨ms, e1, f1⟩ := fillModules_fits hs.shapes
  unfold RegModel.computeDeformed at hr
  rw [f1] at hr
  dsimp only at hr
  cases h1 : fillDeformables M.deformables M.init with
  | error e => rw [h1] at hr; cases hr
  | ok Ds =>
    rw [h1] at hr
    dsimp only at hr
    have hk := fillDeformables_ok h1
    generalize M.steps it = n at hr
    cases h2 : Imodal.computeDeformed Ds ms s n wantCosts (M.learned.map Prod.snd) t1 M.reduce with
    | error e => rw [h2] at hr; cases hr
    | ok q =>
      rw [h2] at hr
      cases hr
      have hsame := computeDeformed_same h2
      obtain ⟨L, eL, hL⟩ := same_compound hsame
      rw [List.length_append, List.length_map] at hL
      rw [eL] at hsame
      have hd : Same (.compound (L.drop Ds.length)) (.compound ms) := by
        refine same_drop (A := Ds.map Deformable.silent) (A' := L.take Ds.length) ?_ ?_
        · rw [List.length_take, List.length_map]; omega
        · rw [List.take_append_drop]; exact hsame
      refine ⟨?_, ?_, rfl, rfl, rfl, rfl, rfl⟩
      · refine kin_trans hk ?_
        show List.Forall₂ Deformable.Kin Ds (List.zipWith _ Ds q.compound.members)
        rw [eL]
        exact leave_kin (by rw [DefModule.members]; omega)
      · show Same _ (.compound (q.compound.members.drop Ds.length))
        rw [eL, DefModule.members]
        refine Same.trans ?_ hd.symm
        rw [← e1]
        exact (same_rowsMod _ _).symm

theorem evaluate_ok {M : RegModel d G T} {targets : List T} {s : SolverName} {it : Nat} {costs : Dict CostKey ℝ} {r : Evaluated d G T}
    (hr : M.evaluate none targets s it costs = .ok r) : ∃ q, M.computeDeformed s it true 1 = .ok (q, r.model) := by
  unfold RegModel.evaluate at hr
  split at hr
  · cases hr
  · dsimp only at hr
    cases h1 : M.computeDeformed s it true 1 with
    | error e => rw [h1] at hr; cases hr
    | ok q =>
      rw [h1] at hr
      dsimp only at hr
      cases h2 : attachmentCost q.2.attachments q.1.geometries targets with
      | error e => rw [h2] at hr; cases hr
      | ok a => rw [h2] at hr; cases hr; exact ⟨q.1, rfl⟩

theorem history_alike {M₀ M : RegModel d G T} (hs : M₀.Shaped) (h : History RegModel.Alike M₀ M) : M₀.Alike M := by
  induction h with
  | start => exact RegModel.Alike.refl _
  | deformed _ hr ih => exact ih.trans (alike_computeDeformed (shaped_alike ih hs) hr)
  | evaluated _ hr ih =>
    obtain ⟨q, hq⟩ := evaluate_ok hr
    exact ih.trans (alike_computeDeformed (shaped_alike ih hs) hq)
  | raised _ hl ih => exact ih.trans hl

theorem unrollGdAll_manifolds_length (l : List (Mfd d)) (ms : List (DefModule d)) (h : l = DefModule.manifolds ms) :
    (Mfd.compound l).Fits (.compound ms) := by
  unfold Mfd.Fits
  rw [DefModule.manifold, h]

theorem new_shaped {Ds : List (Deformable d G)} {ms : List (DefModule d)} {as : List (Attach G T)} {fit : Option (SolverName × Nat × Bool)}
    {lam : ℝ} {red : Reduce} {M : RegModel d G T} (h : RegModel.new Ds ms as fit lam red = .ok M) : M.Shaped := by
  unfold RegModel.new at h
  split at h
  · cases h
  · split at h
    · cases h
    · dsimp only at h
      split at h
      · cases h
        refine ⟨?_, unrollGdAll_manifolds_length _ _ ?_⟩
        · simp
        · dsimp only
          rw [List.drop_append_of_le_length (by simp), List.drop_of_length_le (by simp), List.nil_append]
      · cases h

/-- **C32.** After any calls of a model built by `RegistrationModel`, `compute_deformed` raises
exactly if it did on the new model, and otherwise returns the same: the same geometries, the same
cost, the same trajectory. The initial state is the one of the new model. (With no step at all the
reduction `'lastcompound'` reads the controls that earlier calls left, see
`C32_no_step_disagreement`.) -/
theorem C32_repeatable {Ds : List (Deformable d G)} {ms : List (DefModule d)} {as : List (Attach G T)} {fit : Option (SolverName × Nat × Bool)}
    {lam : ℝ} {red : Reduce} {M₀ M : RegModel d G T} (hnew : RegModel.new Ds ms as fit lam red = .ok M₀)
    (hist : History RegModel.Alike M₀ M) (s : SolverName) (it : Nat) (wantCosts : Bool) (t1 : ℝ) (hit : M₀.steps it ≠ 0) :
    PyRel (fun r r₀ => r = r₀) (M.computeDeformed s it wantCosts t1) (M₀.computeDeformed s it wantCosts t1) ∧ M.init = M₀.init := by
  have hs := new_shaped hnew
  have ha := history_alike hs hist
  refine ⟨?_, ha.init.symm⟩
  cases h1 : M.computeDeformed s it wantCosts t1 with
  | error e =>
    cases h2 : M₀.computeDeformed s it wantCosts t1 with
    | error e' => trivial
    | ok r => rw [computeDeformed_alike ha hs hit h2] at h1; cases h1
  | ok r =>
    rw [show M₀.steps it = M.steps it by unfold RegModel.steps; rw [ha.learned]] at hit
    rw [computeDeformed_alike ha.symm (shaped_alike ha hs) hit h1]
    rfl

/-! ## Without any step -/

/-- A point carried by a global translation. -/
def towed (x p : Fin 1 → Vec 1) (h : Vec 1) : DefModule 1 := .compound [.silent (.landmarks x p), .globalTranslation ⟨1, h⟩]

theorem towed_geodesic (x p : Fin 1 → Vec 1) (h : Vec 1) : Hamiltonian.geodesicControls (towed x p h) = .ok (towed x p (p 0)) := by
  have h1 : collect ((⟨1, h⟩ : GlobalTranslation 1).entry (.compound [.landmarks x p, .empty])) = .ok (p 0) := by
    have h0 : (⟨1, h⟩ : GlobalTranslation 1).entry (.compound [.landmarks x p, .empty]) 0 = .ok (p 0 0) := by
      simp [GlobalTranslation.entry, Mfd.innerProd, Mfd.innerProdAll, FieldExpr.eval, tdiv, actLandmarks, FieldExpr.values, FieldExpr.batch,
        fieldConst, dotFlat]
    rw [collect, h0]
    dsimp only
    rw [collect]
    dsimp only
    congr 1
    funext i
    rw [Fin.fin_one_eq_zero i]
    rfl
  simp only [towed, Hamiltonian.geodesicControls, DefModule.geodesic, DefModule.geodesics, DefModule.manifold, DefModule.manifolds,
    GlobalTranslation.manifold, GlobalTranslation.geodesic, h1, wrap]

theorem towed_value (x p : Fin 1 → Vec 1) (h : Vec 1) : ∃ v, Hamiltonian.value (towed x p h) = .ok v := by
  simp [towed, Hamiltonian.value, hamiltonianOn, DefModule.field, DefModule.fields, mkSumField, DefModule.manifold, DefModule.manifolds,
    GlobalTranslation.manifold, GlobalTranslation.field, Mfd.innerProd, Mfd.innerProdAll, actLandmarks, FieldExpr.values, FieldExpr.batch,
    FieldExpr.eval, FieldExpr.evalSum, DefModule.cost, DefModule.costs]

theorem towed_plain (x p : Fin 1 → Vec 1) (h : Vec 1) :
    PlainMembers [.silent (.landmarks x p), .globalTranslation (⟨1, h⟩ : GlobalTranslation 1)] ∧ 0 < numCoords (towed x p h) := by
  constructor
  · intro m hm
    simp only [DefModule.manifolds, DefModule.manifold, GlobalTranslation.manifold, List.mem_cons, List.not_mem_nil, or_false] at hm
    rcases hm with rfl | rfl
    · exact Or.inr rfl
    · exact Or.inl rfl
  · simp [numCoords_eq, towed, DefModule.manifold, DefModule.manifolds, GlobalTranslation.manifold, Mfd.size, Mfd.sizeAll]

/-- Shooting without any step returns the modules as they are. -/
theorem shootMoments_zero {ms : List (DefModule d)} (hp : PlainMembers ms) (hn : 0 < numCoords (.compound ms)) (s : Solver) (t1 : ℝ) :
    shootMoments s 0 t1 (.compound ms) = .ok ⟨.compound ms, [], [(DefModule.compound ms).manifold], []⟩ := by
  have h := shoot_cases hp hn s 0 t1
  have ho : ∀ {σ : Type} (f : ℝ → Row × Row → Prog σ (Row × Row)) (w : σ), odeint s f t1 0 (gdRow (.compound ms), cotRow (.compound ms)) w
      = (.ok [(gdRow (.compound ms), cotRow (.compound ms))], w) := fun f w => by
    unfold odeint
    rw [if_neg (fun h => h.1 rfl)]
    rfl
  unfold orbit at h
  rw [ho] at h
  obtain ⟨g, h1, -, h3⟩ := h
  rw [ho] at h1
  cases h1
  rw [h3]
  simp only [List.getLastD, List.map_cons, List.map_nil, GradObj.init]
  simp only [List.getLast_singleton, rowsMod_self]

/-- The model of a point with momentum 1 and a global translation, while the silent module holds
the point `x` and the momentum `p`, and the translation the control `h`. -/
def towedModel (x p : Fin 1 → Vec 1) (h : Vec 1) : RegModel 1 (Points 1) Unit :=
  ⟨[⟨1, x, p, none, fun q => .ok q⟩], [.globalTranslation ⟨1, h⟩], [nullLoss], [.landmarks (n := 1) 0 1, .empty], none, 1, .lastCompound⟩

theorem towed_new : RegModel.new [⟨1, 0, 1, none, fun q => .ok q⟩] [.globalTranslation ⟨1, 0⟩] [nullLoss] none 1 .lastCompound
    = .ok (towedModel 0 1 0) := by
  simp [RegModel.new, towedModel, Deformable.silent, DefModule.manifold, DefModule.manifolds, GlobalTranslation.manifold, Mfd.canRequireGrad]

theorem towed_fill (x p : Fin 1 → Vec 1) (h : Vec 1) :
    fillModules (towedModel x p h).modules ((towedModel x p h).init.drop 1) = .ok [.globalTranslation ⟨1, h⟩]
    ∧ fillDeformables (towedModel x p h).deformables (towedModel x p h).init = .ok (towedModel 0 1 h).deformables := by
  constructor
  · simp [towedModel, fillModules, DefModule.fillGdFrom, DefModule.fillCotFrom, DefModule.rollFillGd, DefModule.rollFillGdAll,
      DefModule.rollFillCot, DefModule.rollFillCotAll, DefModule.members]
  · simp [towedModel, fillDeformables, Deformable.fill]

theorem towed_no_step (x p : Fin 1 → Vec 1) (h : Vec 1) :
    ∃ r M, (towedModel x p h).computeDeformed (.fixed .euler) 0 true 1 = .ok (r, M) ∧ r.cost = some (0.5 * h 0 ^ 2) := by
  have hs := shootMoments_zero (towed_plain 0 1 h).1 (towed_plain 0 1 h).2 .euler 1
  have hc : (towed 0 1 h).cost = .ok (0.5 * h 0 ^ 2) := by
    simp [towed, DefModule.cost, DefModule.costs, GlobalTranslation.cost, sq]
  unfold towed at hc
  unfold RegModel.computeDeformed
  rw [show (towedModel x p h).deformables.length = 1 from rfl, (towed_fill x p h).1, (towed_fill x p h).2]
  dsimp only
  unfold Imodal.computeDeformed
  simp only [towedModel, RegModel.steps, Option.elim, Option.map, padControls, List.map_cons, List.map_nil, Deformable.silent, List.singleton_append,
    shoot, shootOde, hs, List.any_cons, List.any_nil, Option.isSome, Bool.or_false, Bool.false_eq_true, if_false, if_true, reduceCost, hc,
    DefModule.members, toGeometries, pointsOf]
  exact ⟨_, _, rfl, rfl⟩

/-- Without any step the cost `'lastcompound'` reports is the one of the controls an earlier call
left: the two calls below differ by 1/2. -/
theorem C32_no_step_disagreement : ∃ (M₀ M : RegModel 1 (Points 1) Unit) (r₀ r : Deformed 1 (Points 1)) (M₀' M' : RegModel 1 (Points 1) Unit),
    RegModel.new [⟨1, 0, 1, none, fun q => .ok q⟩] [.globalTranslation ⟨1, 0⟩] [nullLoss] none 1 .lastCompound = .ok M₀
    ∧ (∃ q, M₀.computeDeformed .torchEuler 1 false 1 = .ok (q, M))
    ∧ M₀.computeDeformed (.fixed .euler) 0 true 1 = .ok (r₀, M₀') ∧ M.computeDeformed (.fixed .euler) 0 true 1 = .ok (r, M')
    ∧ r₀.cost = some 0 ∧ r.cost = some (1 / 2) := by
  obtain ⟨v, hv⟩ := towed_value 0 1 (1 : Fin 1 → ℝ)
  have hstep : ∀ y : Row × Row, rowsMod (towed 0 1 1) y
      = .compound [.silent (.landmarks (n := 1) (viewVecs fun j => y.1 (0 + j)) (viewVecs fun j => y.2 (0 + j))), .globalTranslation ⟨1, 1⟩] := fun y => by
    simp only [towed, rowsMod, DefModule.withGd, DefModule.withGdAll, DefModule.withCot, DefModule.withCotAll, Mfd.withGd, Mfd.withCot]
  have he : ∃ x p st ct, shootEuler 1 none (towed 0 1 0) = .ok ⟨towed x p 1, [], st, ct⟩ := by
    have hg : Hamiltonian.geodesicControls (towed 0 1 0) = .ok (towed 0 1 1) := towed_geodesic 0 1 0
    unfold shootEuler
    rw [if_neg one_ne_zero, eulerLoop]
    unfold eulerStep
    rw [setControls]
    dsimp only
    rw [hg]
    dsimp only
    rw [hv]
    dsimp only
    rw [withRows_eq]
    dsimp only
    rw [eulerLoop]
    dsimp only
    have := hstep (gdRow (towed 0 1 0) + (1 / (1 : ℕ) : ℝ) • (gradH (setControls none 0) (towed 0 1 0)).2,
      cotRow (towed 0 1 0) + -(1 / (1 : ℕ) : ℝ) • (gradH (setControls none 0) (towed 0 1 0)).1)
    unfold rowsMod at this
    dsimp only at this
    rw [this]
    exact ⟨_, _, _, _, rfl⟩
  obtain ⟨x, p, st, ct, he⟩ := he
  obtain ⟨r₀, M₀', h1, h2⟩ := towed_no_step 0 1 0
  obtain ⟨r, M', h3, h4⟩ := towed_no_step x p 1
  refine ⟨towedModel 0 1 0, towedModel x p 1, r₀, r, M₀', M', towed_new, ?_, h1, h3, ?_, ?_⟩
  · unfold RegModel.computeDeformed
    rw [show (towedModel 0 1 0).deformables.length = 1 from rfl, (towed_fill 0 1 0).1, (towed_fill 0 1 0).2]
    dsimp only
    unfold Imodal.computeDeformed
    unfold towed at he
    simp only [towedModel, RegModel.steps, Option.elim, Option.map, padControls, List.map_cons, List.map_nil, Deformable.silent, List.singleton_append,
      shoot, he, List.any_cons, List.any_nil, Option.isSome, Bool.or_false, Bool.false_eq_true, if_false, DefModule.members, toGeometries, pointsOf]
    exact ⟨_, rfl⟩
  · rw [h2]; norm_num
  · rw [h4]; norm_num

/-- The hypotheses of `C32_repeatable` are met by models that return. -/
example : ∃ (M₀ M : RegModel 1 (Points 1) Unit), RegModel.new [⟨1, 0, 1, none, fun q => .ok q⟩] [.globalTranslation ⟨1, 0⟩] [nullLoss] none 1 .lastCompound = .ok M₀
    ∧ History RegModel.Alike M₀ M ∧ M₀ ≠ M ∧ M₀.steps 3 ≠ 0 := by
  obtain ⟨M₀, M, r₀, r, M₀', M', h1, ⟨q, h2⟩, h3, h4, h5, h6⟩ := C32_no_step_disagreement
  refine ⟨M₀, M, h1, .deformed .start h2, ?_, ?_⟩
  · rintro rfl
    rw [h3] at h4
    cases h4
    rw [h5] at h6
    norm_num at h6
  · rw [towed_new] at h1
    cases h1
    decide

end
end Imodal
