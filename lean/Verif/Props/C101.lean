import Verif.Lemmas.DilReg
import Verif.Lemmas.DilAttach
/-!
# C101: a registration may be done in any unit of length
-/
set_option autoImplicit false
namespace Imodal
noncomputable section
variable {d : Nat} {G T : Type} {s : ℝ}

/-! ## Building a model -/

theorem canRequireGrad_dil (M : Mfd d) : (M.dilate s).canRequireGrad = M.canRequireGrad := by
  cases M <;> simp [Mfd.dilate, Mfd.canRequireGrad]

theorem all_canRequireGrad_dil : (Ms : List (Mfd d)) → (Mfd.dilateAll s Ms).all Mfd.canRequireGrad = Ms.all Mfd.canRequireGrad
  | [] => by rw [Mfd.dilateAll]
  | M :: Ms => by rw [Mfd.dilateAll, List.all_cons, List.all_cons, canRequireGrad_dil, all_canRequireGrad_dil Ms]

theorem init_dil (Ds : List (Deformable d G)) (ms : List (DefModule d)) :
    (Ds.map (Deformable.dilate s)).map (fun D => D.silent.manifold) ++ DefModule.manifolds (DefModule.dilateAll s ms)
      = Mfd.dilateAll s (Ds.map (fun D => D.silent.manifold) ++ DefModule.manifolds ms) := by
  rw [mfdDilateAll_eq, List.map_append, ← mfdDilateAll_eq (DefModule.manifolds ms), manifolds_dil]
  congr 1
  rw [List.map_map, List.map_map]
  refine List.map_congr_left fun D _ => ?_
  simp only [Function.comp_apply, Deformable.silent, Deformable.dilate, DefModule.manifold, Mfd.dilate]

/-- Controls of zeros are controls of zeros in every unit. -/
theorem like_dil (m : DefModule d) : (m.dilate s).controls.like 0 = (m.controls.like 0).map (m.dilateCtrl s) := by
  cases m <;> simp [DefModule.dilate, DefModule.controls, Ctrl.like, DefModule.dilateCtrl, Except.map]

theorem likes_dil : (ms : List (DefModule d)) →
    collectList (fun m : DefModule d => m.controls.like 0) (DefModule.dilateAll s ms)
      = (collectList (fun m : DefModule d => m.controls.like 0) ms).map (DefModule.dilateCtrls s ms)
  | [] => by rw [DefModule.dilateAll]; simp [collectList, Except.map, DefModule.dilateCtrls]
  | m :: ms => by
    rw [DefModule.dilateAll, collectList, collectList, likes_dil ms, like_dil]
    cases m.controls.like 0 with
    | error e => rfl
    | ok c =>
      cases collectList (fun m : DefModule d => m.controls.like 0) ms with
      | error e => rfl
      | ok cs => simp [Except.map, DefModule.dilateCtrls]

theorem learnable_dil (S : SolverName) (it : Nat) (ms : List (DefModule d)) :
    learnableControls S it false (DefModule.dilateAll s ms) = (learnableControls S it false ms).map (List.map (DefModule.dilateCtrls s ms)) := by
  unfold learnableControls
  cases controlsPerIt S with
  | error e => rfl
  | ok k =>
    dsimp only
    split
    · rfl
    · rw [show (if false = true then (1 : ℝ) else 0) = 0 from rfl, likes_dil]
      cases collectList (fun m : DefModule d => m.controls.like 0) ms with
      | error e => rfl
      | ok c => simp [Except.map]

/-- The model built from sources, modules and attachments in the new unit is the converted model. Initial learnable controls
of ones are the exception: one is not the same length in every unit. -/
theorem C101_new (Ds : List (Deformable d G)) (ms : List (DefModule d)) {as as' : List (Attach G T)} (ha : as.length = as'.length)
    (fit : Option (SolverName × Nat × Bool)) (lam : ℝ) (red : Reduce) (hf : ∀ S it, fit ≠ some (S, it, true)) :
    RegModel.new (Ds.map (Deformable.dilate s)) (DefModule.dilateAll s ms) as' fit lam red
      = (RegModel.new Ds ms as fit lam red).map (RegModel.dilate s as') := by
  unfold RegModel.new
  rw [List.length_map, ← ha]
  split
  · rfl
  · dsimp only
    rw [init_dil, all_canRequireGrad_dil]
    cases fit with
    | none =>
      dsimp only
      split
      · rfl
      · rfl
    | some f =>
      obtain ⟨S, it, ones⟩ := f
      cases ones with
      | true => exact absurd rfl (hf S it)
      | false =>
        dsimp only
        rw [learnable_dil S it]
        cases learnableControls S it false ms with
        | error e => rfl
        | ok cs =>
          simp only [Except.map]
          split
          · rfl
          · rfl

/-! ## Deforming and evaluating -/

/-- Deforming in the new unit gives the geometries and the trajectory in the new unit and the converted cost, or the same
exception; what is left in the model is converted as well. -/
theorem C101_deform (hs : s ≠ 0) {φ : G → G} {M : RegModel d G T} (as : List (Attach G T)) (hD : ∀ D ∈ M.deformables, D.CarriesUnit s φ) (hk : M.Kept)
    (S : SolverName) (it : Nat) (wantCosts : Bool) (t1 : ℝ) :
    (M.dilate s as).computeDeformed S it wantCosts t1
      = (M.computeDeformed S it wantCosts t1).map fun r =>
        (r.1.dilate s φ (.compound (M.deformables.map Deformable.silent ++ M.modules)), r.2.dilate s as) :=
  RegModel.computeDeformed_dil hs as hD hk S it wantCosts t1

/-- Evaluating in the new unit gives all costs and the total times `s ^ 2`, or the same exception. -/
theorem C101_evaluate (hs : s ≠ 0) {φ : G → G} {ψ : T → T} {M : RegModel d G T} {as : List (Attach G T)} (hD : ∀ D ∈ M.deformables, D.CarriesUnit s φ)
    (hk : M.Kept) (ha : List.Forall₂ (Attach.InUnit s φ ψ) M.attachments as) (targets : List T) (S : SolverName) (it : Nat) (costs : Dict CostKey ℝ) :
    (M.dilate s as).evaluate none (targets.map ψ) S it (dilateCosts s costs) = (M.evaluate none targets S it costs).map (Evaluated.dilate s as) :=
  RegModel.evaluate_dil hs hD hk ha targets S it costs

theorem value_unit (hs : s ≠ 0) {φ : G → G} {ψ : T → T} {M : RegModel d G T} {as : List (Attach G T)} (hD : ∀ D ∈ M.deformables, D.CarriesUnit s φ)
    (hk : M.Kept) (ha : List.Forall₂ (Attach.InUnit s φ ψ) M.attachments as) (targets : List T) (S : SolverName) (it : Nat) :
    (M.dilate s as).value (targets.map ψ) S it = (M.value targets S it).map (s ^ 2 * ·) := by
  unfold RegModel.value
  have h := C101_evaluate hs hD hk ha targets S it []
  rw [show dilateCosts s ([] : Dict CostKey ℝ) = [] from rfl] at h
  rw [h]
  cases M.evaluate none targets S it [] <;> rfl

/-- The whole claim in one statement about what a caller sees: build the model from given sources, modules and attachments and
evaluate it; the same problem in the new unit gives `s ^ 2` times the costs and the total, or the same exception. Every
solver, every reduction of costs, from momenta and with learnable controls that start from zero. -/
theorem C101_partial (hs : s ≠ 0) {φ : G → G} {ψ : T → T} {Ds : List (Deformable d G)} (ms : List (DefModule d)) {as as' : List (Attach G T)}
    (hD : ∀ D ∈ Ds, D.CarriesUnit s φ) (ha : List.Forall₂ (Attach.InUnit s φ ψ) as as')
    {fit : Option (SolverName × Nat × Bool)} (hf : ∀ S it, fit ≠ some (S, it, true)) (lam : ℝ) (red : Reduce) (targets : List T) (S : SolverName) (it : Nat) :
    ((RegModel.new (Ds.map (Deformable.dilate s)) (DefModule.dilateAll s ms) as' fit lam red >>= fun M => M.evaluate none (targets.map ψ) S it []).map
        fun r => (r.costs, r.total))
      = (RegModel.new Ds ms as fit lam red >>= fun M => M.evaluate none targets S it []).map
        fun r => (r.costs.map fun e => (e.1, s ^ 2 * e.2), s ^ 2 * r.total) := by
  rw [C101_new Ds ms ha.length_eq fit lam red hf]
  cases hM : RegModel.new Ds ms as fit lam red with
  | error e => rfl
  | ok M =>
    obtain ⟨hk, rfl, rfl, rfl⟩ := new_kept hM
    show ((M.dilate s as').evaluate none (targets.map ψ) S it []).map _ = (M.evaluate none targets S it []).map _
    have h := C101_evaluate hs hD hk ha targets S it []
    rw [show dilateCosts s ([] : Dict CostKey ℝ) = [] from rfl] at h
    rw [h]
    cases M.evaluate none targets S it [] <;> rfl

/-! ## Best values -/

mutual
theorem mfd_back (hs : s ≠ 0) : (M : Mfd d) → (M.dilate s⁻¹).dilate s = M
  | .landmarks _ _ => by simp [Mfd.dilate, hs]
  | .direction _ _ _ _ _ => by simp [Mfd.dilate, hs]
  | .frame _ _ _ _ => by simp [Mfd.dilate, hs]
  | .empty => by simp [Mfd.dilate]
  | .compound Ms => by rw [Mfd.dilate, Mfd.dilate, mfds_back hs Ms]
theorem mfds_back (hs : s ≠ 0) : (Ms : List (Mfd d)) → Mfd.dilateAll s (Mfd.dilateAll s⁻¹ Ms) = Ms
  | [] => by simp [Mfd.dilateAll]
  | M :: Ms => by rw [Mfd.dilateAll, Mfd.dilateAll, mfd_back hs M, mfds_back hs Ms]
end

mutual
theorem ctrl_back (hs : s ≠ 0) : (m : DefModule d) → (c : Ctrl d) → m.dilateCtrl s (m.dilateCtrl s⁻¹ c) = c
  | .compound ms, c => by
    cases c with
    | list cs => rw [DefModule.dilateCtrl, DefModule.dilateCtrl, ctrls_back hs ms cs]
    | _ => simp only [DefModule.dilateCtrl]
  | .translations _, c => by cases c <;> simp [DefModule.dilateCtrl, hs]
  | .implicit0 _, c => by cases c <;> simp [DefModule.dilateCtrl, hs]
  | .oriented _, c => by cases c <;> simp [DefModule.dilateCtrl, hs]
  | .constrained _, c => by cases c <;> simp [DefModule.dilateCtrl, hs]
  | .globalTranslation _, c => by cases c <;> simp [DefModule.dilateCtrl, hs]
  | .linear _, c => by cases c <;> simp [DefModule.dilateCtrl]
  | .implicit1 _, c => by cases c <;> simp [DefModule.dilateCtrl]
  | .divFree _, c => by cases c <;> simp [DefModule.dilateCtrl, hs]
  | .arap _, c => by cases c <;> simp [DefModule.dilateCtrl, hs]
  | .silent _, c => by cases c <;> simp [DefModule.dilateCtrl]
theorem ctrls_back (hs : s ≠ 0) : (ms : List (DefModule d)) → (cs : List (Ctrl d)) → DefModule.dilateCtrls s ms (DefModule.dilateCtrls s⁻¹ ms cs) = cs
  | [], cs => by simp only [DefModule.dilateCtrls]
  | _ :: _, [] => by simp only [DefModule.dilateCtrls]
  | m :: ms, c :: cs => by rw [DefModule.dilateCtrls, DefModule.dilateCtrls, ctrl_back hs m c, ctrls_back hs ms cs]
end

theorem sameKind_back : {I J : List (Mfd d)} → List.Forall₂ Mfd.SameKind I (Mfd.dilateAll s J) → List.Forall₂ Mfd.SameKind (Mfd.dilateAll s⁻¹ I) J
  | [], [], _ => by rw [Mfd.dilateAll]; exact .nil
  | [], _ :: _, h => by rw [Mfd.dilateAll] at h; cases h
  | _ :: _, [], h => by rw [Mfd.dilateAll] at h; cases h
  | i :: I, j :: J, h => by
    rw [Mfd.dilateAll] at h ⊢
    cases h with
    | cons h1 h2 =>
      refine .cons ?_ (sameKind_back h2)
      unfold Mfd.SameKind at h1 ⊢
      rw [blank_dil, h1, blank_dil]

/-- Best values stay best: if no other initial descriptors, momenta and learnable controls give a smaller total then the
converted ones are best for the problem in the new unit. -/
theorem C101_best (hs : s ≠ 0) {φ : G → G} {ψ : T → T} {M : RegModel d G T} {as : List (Attach G T)} (hD : ∀ D ∈ M.deformables, D.CarriesUnit s φ)
    (hk : M.Kept) (ha : List.Forall₂ (Attach.InUnit s φ ψ) M.attachments as) (targets : List T) (S : SolverName) (it : Nat) (h : M.Best targets S it) :
    (M.dilate s as).Best (targets.map ψ) S it := by
  obtain ⟨v, hv, hbest⟩ := h
  refine ⟨s ^ 2 * v, by rw [value_unit hs hD hk ha, hv]; rfl, fun init learned v' hi hl hv' => ?_⟩
  have hi' : List.Forall₂ Mfd.SameKind (Mfd.dilateAll s⁻¹ init) M.init := sameKind_back hi
  let L : Option (Nat × List (List (Ctrl d))) := learned.map fun l => (l.1, l.2.map (DefModule.dilateCtrls s⁻¹ M.modules))
  have hL : L.isSome = M.learned.isSome := by
    have e : (M.dilate s as).learned.isSome = M.learned.isSome := by unfold RegModel.dilate; cases M.learned <;> rfl
    rw [← e, ← hl]
    show (learned.map _).isSome = _
    cases learned <;> rfl
  have eq : (M.setValues (Mfd.dilateAll s⁻¹ init) L).dilate s as = (M.dilate s as).setValues init learned := by
    unfold RegModel.setValues RegModel.dilate
    simp only [mfds_back hs, RegModel.mk.injEq, true_and, and_true]
    show (learned.map _).map _ = _
    cases learned with
    | none => rfl
    | some l =>
      obtain ⟨k, cs⟩ := l
      simp [Function.comp_def, ctrls_back hs]
  have hk' : (M.setValues (Mfd.dilateAll s⁻¹ init) L).Kept := (sameKind_all (forall₂_drop' hi' M.deformables.length)).trans hk
  have hval := value_unit (M := M.setValues (Mfd.dilateAll s⁻¹ init) L) hs hD hk' ha targets S it
  rw [eq, hv'] at hval
  cases hw : (M.setValues (Mfd.dilateAll s⁻¹ init) L).value targets S it with
  | error e => rw [hw] at hval; cases hval
  | ok w =>
    rw [hw] at hval
    cases hval
    exact mul_le_mul_of_nonneg_left (hbest _ L w hi' hL hw) (sq_nonneg s)

/-! ## Attachments and sources -/

/-- The pointwise distance is a length: its weight, too, must be a length. -/
theorem C101_points (hs : 0 < s) (w : ℝ) :
    (pointAttach w : Attach (List (Vec d)) (List (Vec d))).InUnit s (List.map (scR s)) (List.map (scR s)) (pointAttach (s * w)) := fun x y => by
  unfold Attach.call pointAttach
  rw [Attach.loss, Attach.loss, pointwise_dil hs]
  cases pointwiseLoss x y with
  | error e => rfl
  | ok v =>
    simp only [Except.map, Attach.weight, Except.ok.injEq]
    ring

/-- The varifold distance of curves is a square of a length: widths are converted, the weight stays. -/
theorem C101_curves (hs : 0 < s) (w : ℝ) (sigmas : List ℝ) :
    (curveAttach w sigmas).InUnit s (List.map (scR s)) (List.map (scR s)) (curveAttach w (sigmas.map (s * ·))) := fun x y => by
  unfold Attach.call curveAttach
  rw [Attach.loss, Attach.loss, curveLoss_dil hs]
  cases (VarifoldClass.d2 .torch).loss sigmas (.curve x) (.curve y) with
  | error e => rfl
  | ok v =>
    cases v with
    | none => rfl
    | some v =>
      simp only [Except.map, Option.map_some, asNumber, Attach.weight, Except.ok.injEq]
      ring

/-- The varifold distance of meshes with a weight, for any number of faces. -/
def meshAttachAny (w : ℝ) (r : Reduction) (sigmas : List ℝ) : Attach Mesh Mesh :=
  .simple w fun x y => asNumber ((VarifoldClass.d3 r).loss sigmas (.mesh x) (.mesh y))

/-- The varifold distance of meshes is a fourth power of a length: the weight must be the inverse of an area. -/
theorem C101_meshes (hs : 0 < s) (w : ℝ) (r : Reduction) (sigmas : List ℝ) :
    (meshAttachAny w r sigmas).InUnit s (fun m => (m.1.map (scR s), m.2)) (fun m => (m.1.map (scR s), m.2))
      (meshAttachAny (w / s ^ 2) r (sigmas.map (s * ·))) := fun x y => by
  unfold Attach.call meshAttachAny
  rw [Attach.loss, Attach.loss, meshLoss_dil hs]
  cases (VarifoldClass.d3 r).loss sigmas (.mesh x) (.mesh y) with
  | error e => rfl
  | ok v =>
    cases v with
    | none => rfl
    | some v =>
      simp only [Except.map, Option.map_some, asNumber, Attach.weight, Except.ok.injEq]
      have : s ≠ 0 := hs.ne'
      field_simp

/-- Sources whose geometry is the list of points follow the unit, -/
theorem C101_carries_points {n : Nat} (gd cot : Fin n → Vec d) :
    (⟨n, gd, cot, none, fun p => .ok (List.ofFn p.x)⟩ : Deformable d (List (Vec d))).CarriesUnit s (List.map (scR s)) := fun p => by
  show Except.ok _ = Except.ok _
  rw [List.map_ofFn]
  rfl

/-- and so do meshes. -/
theorem C101_carries_mesh {n : Nat} (gd cot : Fin n → Vec 3) (F : List (Nat × Nat × Nat)) :
    (⟨n, gd, cot, none, fun p => .ok (List.ofFn p.x, F)⟩ : Deformable 3 Mesh).CarriesUnit s fun m => (m.1.map (scR s), m.2) := fun p => by
  show Except.ok _ = Except.ok _
  simp only [List.map_ofFn]
  rfl

/-! ## Disagreement -/

/-- Initial controls of ones are ones in every unit, so the model of the converted problem is not the converted model. -/
theorem C101_ones_disagreement (D : Deformable 2 G) (a : Attach G T) (m : Translations 2 1) (lam : ℝ) (red : Reduce) :
    ∃ M M' : RegModel 2 G T, RegModel.new [D] [.translations m] [a] (some (.fixed .euler, 1, true)) lam red = .ok M ∧
      RegModel.new ([D].map (Deformable.dilate 2)) (DefModule.dilateAll 2 [.translations m]) [a] (some (.fixed .euler, 1, true)) lam red = .ok M' ∧
      M'.learned ≠ (M.dilate 2 [a]).learned ∧ M'.learned = M.learned := by
  refine ⟨_, _, rfl, rfl, ?_, rfl⟩
  intro h
  have h := congrArg (fun l : Option (Nat × List (List (Ctrl 2))) => l.bind fun l => l.2[0]?.bind fun c => c[0]?) h
  simp [RegModel.dilate, collectList, DefModule.controls, Ctrl.like, DefModule.dilateCtrls, DefModule.dilateCtrl] at h
  have := congrFun (congrFun h 0) 0
  norm_num at this

/-! ## Example -/

/-- Two curves registered with a local translation of width 3, in metres and in centimetres. -/
example (r : Reduction) (gd cot : Fin 4 → Vec 2) (target : List (Vec 2)) :
    ((RegModel.new [(⟨4, fun i c => 100 * gd i c, fun i c => 100 * cot i c, none, fun p => .ok (List.ofFn p.x)⟩ : Deformable 2 (List (Vec 2)))]
          [.translations (⟨r, fun _ => ![200, 0], 0, 300, 0⟩ : Translations 2 1)] [curveAttach 5 [50, 70]] none 7 .sum
        >>= fun M => M.evaluate none [target.map (scR 100)] (.fixed .rk4) 10 []).map fun r => (r.costs, r.total))
      = (RegModel.new [(⟨4, gd, cot, none, fun p => .ok (List.ofFn p.x)⟩ : Deformable 2 (List (Vec 2)))]
          [.translations (⟨r, fun _ => ![2, 0], 0, 3, 0⟩ : Translations 2 1)] [curveAttach 5 [0.5, 0.7]] none 7 .sum
        >>= fun M => M.evaluate none [target] (.fixed .rk4) 10 []).map fun r => (r.costs.map fun e => (e.1, 100 ^ 2 * e.2), 100 ^ 2 * r.total) := by
  have h := C101_partial (s := 100) (by norm_num) [.translations (⟨r, fun _ => ![2, 0], 0, 3, 0⟩ : Translations 2 1)]
    (Ds := [(⟨4, gd, cot, none, fun p => .ok (List.ofFn p.x)⟩ : Deformable 2 (List (Vec 2)))])
    (by intro D hD; rw [List.mem_singleton.1 hD]; exact C101_carries_points gd cot)
    (.cons (C101_curves (by norm_num) 5 [0.5, 0.7]) .nil) (fit := none) (fun _ _ => by simp) 7 .sum [target] (.fixed .rk4) 10
  refine Eq.trans ?_ h
  have e : (fun (_ : Fin 1) (c : Fin 2) => 100 * (![2, 0] : Vec 2) c) = fun _ => ![200, 0] := by
    funext _ c; fin_cases c <;> norm_num
  have e0 : (fun (i : Fin 1) (c : Fin 2) => (100 : ℝ) * (0 : Fin 1 → Vec 2) i c) = 0 := funext fun _ => funext fun _ => mul_zero _
  simp only [List.map_cons, List.map_nil, Deformable.dilate, DefModule.dilateAll, DefModule.dilate, e, e0]
  norm_num

end
end Imodal
