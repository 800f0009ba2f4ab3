import Verif.Lemmas.RigidReg
import Verif.Lemmas.RigidAttach
import Verif.Props.C32
/-!
# C86: a registration does not depend on position and orientation
-/
set_option autoImplicit false
namespace Imodal
noncomputable section
open Matrix
variable {d : Nat} {G T : Type} (g : Rigid d)

/-! ## Building a model -/

theorem canRequireGrad_move (M : Mfd d) : (M.move g).canRequireGrad = M.canRequireGrad := by
  cases M <;> simp [Mfd.move, Mfd.canRequireGrad]

theorem all_canRequireGrad_move : (Ms : List (Mfd d)) → (Mfd.moveAll g Ms).all Mfd.canRequireGrad = Ms.all Mfd.canRequireGrad
  | [] => by rw [Mfd.moveAll]
  | M :: Ms => by rw [Mfd.moveAll, List.all_cons, List.all_cons, canRequireGrad_move, all_canRequireGrad_move Ms]

theorem mfdMoveAll_append : (A B : List (Mfd d)) → Mfd.moveAll g (A ++ B) = Mfd.moveAll g A ++ Mfd.moveAll g B
  | [], _ => by simp [Mfd.moveAll]
  | a :: A, B => by rw [List.cons_append, Mfd.moveAll, Mfd.moveAll, mfdMoveAll_append A B, List.cons_append]

theorem init_move (Ds : List (Deformable d G)) (ms : List (DefModule d)) :
    (Ds.map (Deformable.move g)).map (fun D => D.silent.manifold) ++ DefModule.manifolds (DefModule.moveAll g ms)
      = Mfd.moveAll g (Ds.map (fun D => D.silent.manifold) ++ DefModule.manifolds ms) := by
  rw [mfdMoveAll_append, manifolds_move]
  congr 1
  induction Ds with
  | nil => simp [Mfd.moveAll]
  | cons D Ds ih =>
    rw [List.map_cons, List.map_cons, List.map_cons, Mfd.moveAll, ih]
    simp only [Deformable.silent, Deformable.move, DefModule.manifold, Mfd.move]

/-- Controls of zeros turn into controls of zeros; and every control stays when there is no rotation. -/
theorem like_move {a : ℝ} (ha : a = 0 ∨ g.Q = 1) (c : Ctrl d) : (c.move g).like a = (c.like a).map (Ctrl.move g) := by
  have hv : ∀ n (i : Fin n), g.vec (fun _ : Fin d => a) = fun _ => a := fun n i => by
    unfold Rigid.vec
    rcases ha with rfl | h
    · exact Matrix.mulVec_zero _
    · rw [h, Matrix.one_mulVec]
  have hv' : g.vec (fun _ : Fin d => a) = fun _ => a := hv 1 0
  cases c <;> simp [Ctrl.move, Ctrl.like, Except.map, hv']

theorem controls_move_all (a : ℝ) (ha : a = 0 ∨ g.Q = 1) : (ms : List (DefModule d)) →
    collectList (fun m : DefModule d => m.controls.like a) (DefModule.moveAll g ms)
      = (collectList (fun m : DefModule d => m.controls.like a) ms).map (Ctrl.moveAll g)
  | [] => by rw [DefModule.moveAll]; simp [collectList, Except.map, Ctrl.moveAll]
  | m :: ms => by
    rw [DefModule.moveAll, collectList, collectList, controls_move_all a ha ms, controls_move, like_move g ha]
    cases m.controls.like a with
    | error e => rfl
    | ok c =>
      cases collectList (fun m : DefModule d => m.controls.like a) ms with
      | error e => rfl
      | ok cs => simp [Except.map, Ctrl.moveAll]

theorem learnable_move (s : SolverName) (it : Nat) (ones : Bool) (ho : ones = false ∨ g.Q = 1) (ms : List (DefModule d)) :
    learnableControls s it ones (DefModule.moveAll g ms) = (learnableControls s it ones ms).map (List.map (Ctrl.moveAll g)) := by
  unfold learnableControls
  cases controlsPerIt s with
  | error e => rfl
  | ok k =>
    dsimp only
    split
    · rfl
    · rw [controls_move_all g _ (by rcases ho with rfl | h; exact .inl rfl; exact .inr h)]
      cases collectList (fun m : DefModule d => m.controls.like (if ones then 1 else 0)) ms with
      | error e => rfl
      | ok c => simp [Except.map]

/-- The model built from moved sources and moved modules is the moved model. Initial learnable controls of ones are the
exception if there is a rotation, see `C86_ones_disagreement`. -/
theorem C86_new (Ds : List (Deformable d G)) (ms : List (DefModule d)) (as : List (Attach G T)) (fit : Option (SolverName × Nat × Bool))
    (lam : ℝ) (red : Reduce) (hf : (∀ s it, fit ≠ some (s, it, true)) ∨ g.Q = 1) :
    RegModel.new (Ds.map (Deformable.move g)) (DefModule.moveAll g ms) as fit lam red = (RegModel.new Ds ms as fit lam red).map (RegModel.move g) := by
  unfold RegModel.new
  rw [List.length_map]
  split
  · rfl
  · dsimp only
    rw [init_move, all_canRequireGrad_move]
    cases fit with
    | none =>
      dsimp only
      split
      · rfl
      · rfl
    | some f =>
      obtain ⟨s, it, ones⟩ := f
      dsimp only
      rw [learnable_move g s it ones (by
        rcases hf with hf | h
        · left
          cases ones with
          | false => rfl
          | true => exact absurd rfl (hf s it)
        · exact .inr h)]
      cases learnableControls s it ones ms with
      | error e => rfl
      | ok cs =>
        simp only [Except.map]
        split
        · rfl
        · rfl

/-! ## Which models -/

theorem new_kept {Ds : List (Deformable d G)} {ms : List (DefModule d)} {as : List (Attach G T)} {fit : Option (SolverName × Nat × Bool)}
    {lam : ℝ} {red : Reduce} {M : RegModel d G T} (h : RegModel.new Ds ms as fit lam red = .ok M) :
    M.Kept ∧ M.modules = ms ∧ M.deformables = Ds ∧ M.attachments = as := by
  unfold RegModel.new at h
  split at h
  · cases h
  · split at h
    · cases h
    · dsimp only at h
      split at h
      · cases h
        refine ⟨?_, rfl, rfl, rfl⟩
        unfold RegModel.Kept
        dsimp only
        rw [List.drop_append_of_le_length (by simp), List.drop_of_length_le (by simp), List.nil_append, DefModule.manifold]
        rfl
      · cases h

theorem Same.compound_smooth {ms ms' : List (DefModule d)} {n : WithTop ℕ∞} (h : Same (.compound ms) (.compound ms')) :
    (DefModule.compound ms).Smooth n ↔ (DefModule.compound ms').Smooth n := by
  rw [← smooth_rowsMod _ (0, 0), ← smooth_rowsMod (.compound ms') (0, 0), ← smooth_reset, h (0, 0), smooth_reset]

theorem forall₂_right {α β : Type} {R : α → β → Prop} {A : List α} {B : List β} (h : List.Forall₂ R A B) {b : β} (hb : b ∈ B) : ∃ a ∈ A, R a b := by
  induction h with
  | nil => cases hb
  | cons h1 _ ih =>
    rcases List.mem_cons.1 hb with rfl | hb
    · exact ⟨_, List.mem_cons_self .., h1⟩
    · obtain ⟨a, ha, hr⟩ := ih hb
      exact ⟨a, List.mem_cons_of_mem _ ha, hr⟩

/-- What the theorems below ask of a model holds for a new model if it holds for the given sources, modules and
attachments, and it goes on to hold whatever is done with the model. -/
theorem C86_ready {φ : G → G} {ψ : T → T} {Ds : List (Deformable d G)} {ms : List (DefModule d)} {as : List (Attach G T)}
    {fit : Option (SolverName × Nat × Bool)} {lam : ℝ} {red : Reduce} {M₀ M : RegModel d G T} (hnew : RegModel.new Ds ms as fit lam red = .ok M₀)
    (hist : History RegModel.Alike M₀ M) (hD : ∀ D ∈ Ds, D.Carries g φ) (h : DefModule.AllMovable g ms) (hs : (DefModule.compound ms).Smooth 1)
    (ha : ∀ a ∈ as, a.Blind φ ψ) :
    M.Ready g φ ψ := by
  have hk := new_kept hnew
  have hal := history_alike (new_shaped hnew) hist
  obtain ⟨hk, rfl, rfl, rfl⟩ := hk
  refine ⟨?_, ?_, ?_, ?_, ?_⟩
  · have := hal.deformables
    intro D hDM
    obtain ⟨D', hD', hkin⟩ := forall₂_right this hDM
    intro p
    rw [← hkin.2]
    exact hD D' hD' p
  · unfold RegModel.Kept
    rw [← hal.init, ← hal.deformables.length_eq]
    exact hk.trans (sameKind_same hal.modules)
  · have := (movable_same g hal.modules).1 (by rw [DefModule.Movable]; exact h)
    rwa [DefModule.Movable] at this
  · exact (Same.compound_smooth hal.modules).1 hs
  · rw [← hal.attachments]; exact ha

/-! ## Deforming and evaluating -/

/-- Deforming the moved problem gives the moved geometries, the moved trajectory and the same cost, or the same
exception; what is left in the model is moved as well. -/
theorem C86_deform {φ : G → G} {ψ : T → T} {M : RegModel d G T} (hM : M.Ready g φ ψ) (s : SolverName) (it : Nat) (wantCosts : Bool) (t1 : ℝ) :
    (M.move g).computeDeformed s it wantCosts t1 = (M.computeDeformed s it wantCosts t1).map fun r => (r.1.move g φ, r.2.move g) :=
  RegModel.computeDeformed_move g hM.carries hM.kept hM.movable hM.smooth s it wantCosts t1

/-- Evaluating the moved problem at moved targets gives the same costs and the same total, or the same exception. -/
theorem C86_evaluate {φ : G → G} {ψ : T → T} {M : RegModel d G T} (hM : M.Ready g φ ψ) (targets : List T) (s : SolverName) (it : Nat) (costs : Dict CostKey ℝ) :
    (M.move g).evaluate none (targets.map ψ) s it costs = (M.evaluate none targets s it costs).map (Evaluated.move g) :=
  RegModel.evaluate_move g hM.carries hM.kept hM.movable hM.smooth hM.blind targets s it costs

theorem value_move {φ : G → G} {ψ : T → T} {M : RegModel d G T} (hM : M.Ready g φ ψ) (targets : List T) (s : SolverName) (it : Nat) : (M.move g).value (targets.map ψ) s it = M.value targets s it := by
  unfold RegModel.value
  rw [C86_evaluate g hM targets s it]
  cases M.evaluate none targets s it [] <;> rfl

theorem point_inv (x : Vec d) : g.point (g.inv.point x) = x := by
  have h : g.Q * g.Qᵀ = 1 := (Matrix.mem_orthogonalGroup_iff _ _).1 g.orth
  unfold Rigid.point Rigid.inv
  rw [Matrix.mulVec_add, Matrix.mulVec_neg, Matrix.mulVec_mulVec, Matrix.mulVec_mulVec, h, Matrix.one_mulVec, Matrix.one_mulVec]
  abel

theorem vec_inv (x : Vec d) : g.vec (g.inv.vec x) = x := by
  have h : g.Q * g.Qᵀ = 1 := (Matrix.mem_orthogonalGroup_iff _ _).1 g.orth
  unfold Rigid.vec Rigid.inv
  rw [Matrix.mulVec_mulVec, h, Matrix.one_mulVec]

theorem frame_inv (R : Mat d) : g.Q * (g.inv.Q * R) = R := by
  have h : g.Q * g.Qᵀ = 1 := (Matrix.mem_orthogonalGroup_iff _ _).1 g.orth
  unfold Rigid.inv
  rw [← Matrix.mul_assoc, h, Matrix.one_mul]

mutual
theorem mfd_inv : (M : Mfd d) → (M.move g.inv).move g = M
  | .landmarks _ _ => by simp [Mfd.move, point_inv, vec_inv]
  | .direction _ _ _ _ _ => by simp [Mfd.move, point_inv, vec_inv]
  | .frame _ _ _ _ => by simp [Mfd.move, point_inv, vec_inv, frame_inv]
  | .empty => by simp [Mfd.move]
  | .compound Ms => by rw [Mfd.move, Mfd.move, mfds_inv Ms]
theorem mfds_inv : (Ms : List (Mfd d)) → Mfd.moveAll g (Mfd.moveAll g.inv Ms) = Ms
  | [] => by simp [Mfd.moveAll]
  | M :: Ms => by rw [Mfd.moveAll, Mfd.moveAll, mfd_inv M, mfds_inv Ms]
end

mutual
theorem ctrl_inv : (c : Ctrl d) → (c.move g.inv).move g = c
  | .vecs _ => by simp [Ctrl.move, vec_inv]
  | .scalars _ => by simp [Ctrl.move]
  | .scalar _ => by simp [Ctrl.move]
  | .vec _ => by simp [Ctrl.move, vec_inv]
  | .none => by simp [Ctrl.move]
  | .list cs => by rw [Ctrl.move, Ctrl.move, ctrls_inv cs]
theorem ctrls_inv : (cs : List (Ctrl d)) → Ctrl.moveAll g (Ctrl.moveAll g.inv cs) = cs
  | [] => by simp [Ctrl.moveAll]
  | c :: cs => by rw [Ctrl.moveAll, Ctrl.moveAll, ctrl_inv c, ctrls_inv cs]
end

theorem forall₂_sameKind_inv : {I J : List (Mfd d)} → List.Forall₂ Mfd.SameKind I (Mfd.moveAll g J) → List.Forall₂ Mfd.SameKind (Mfd.moveAll g.inv I) J
  | [], [], _ => by rw [Mfd.moveAll]; exact .nil
  | [], _ :: _, h => by rw [Mfd.moveAll] at h; cases h
  | _ :: _, [], h => by rw [Mfd.moveAll] at h; cases h
  | i :: I, j :: J, h => by
    rw [Mfd.moveAll] at h ⊢
    cases h with
    | cons h1 h2 =>
      refine .cons ?_ (forall₂_sameKind_inv h2)
      unfold Mfd.SameKind at h1 ⊢
      rw [Mfd.blank_move, h1, Mfd.blank_move]

theorem forall₂_drop' {α β : Type} {R : α → β → Prop} {a : List α} {b : List β} (h : List.Forall₂ R a b) : ∀ k, List.Forall₂ R (a.drop k) (b.drop k) := by
  induction h with
  | nil => intro k; simp
  | cons h1 h2 ih =>
    intro k
    cases k with
    | zero => exact .cons h1 h2
    | succ k => exact ih k

theorem Ready.setValues {φ : G → G} {ψ : T → T} {M : RegModel d G T} (hM : M.Ready g φ ψ) {init : List (Mfd d)}
    (hi : List.Forall₂ Mfd.SameKind init M.init) (learned : Option (Nat × List (List (Ctrl d)))) : (M.setValues init learned).Ready g φ ψ :=
  ⟨hM.carries, (sameKind_all (forall₂_drop' hi M.deformables.length)).trans hM.kept, hM.movable, hM.smooth, hM.blind⟩

/-- Best values stay best: if no other initial descriptors, momenta and learnable controls give a smaller total then the
moved ones are best for the moved problem, with the same total. -/
theorem C86_best {φ : G → G} {ψ : T → T} {M : RegModel d G T} (hM : M.Ready g φ ψ) (targets : List T) (s : SolverName) (it : Nat) (h : M.Best targets s it) :
    (M.move g).Best (targets.map ψ) s it ∧ (M.move g).value (targets.map ψ) s it = M.value targets s it := by
  refine ⟨?_, value_move g hM targets s it⟩
  obtain ⟨v, hv, hbest⟩ := h
  refine ⟨v, (value_move g hM targets s it).trans hv, fun init learned v' hi hl hv' => ?_⟩
  have hi' : List.Forall₂ Mfd.SameKind (Mfd.moveAll g.inv init) M.init := forall₂_sameKind_inv g hi
  let L : Option (Nat × List (List (Ctrl d))) := learned.map fun l => (l.1, l.2.map (Ctrl.moveAll g.inv))
  have hL : L.isSome = M.learned.isSome := by
    have e : (M.move g).learned.isSome = M.learned.isSome := by unfold RegModel.move; cases M.learned <;> rfl
    rw [← e, ← hl]
    show (learned.map _).isSome = _
    cases learned <;> rfl
  have eq : (M.setValues (Mfd.moveAll g.inv init) L).move g = (M.move g).setValues init learned := by
    unfold RegModel.setValues RegModel.move
    simp only [mfds_inv, RegModel.mk.injEq, true_and, and_true]
    show (learned.map _).map _ = _
    cases learned with
    | none => rfl
    | some l =>
      obtain ⟨k, cs⟩ := l
      simp [Function.comp_def, ctrls_inv]
  refine hbest _ L v' hi' hL ?_
  rw [← value_move g (Ready.setValues g hM hi' L) targets s it, eq]
  exact hv'

/-- The whole claim in one statement about what a caller sees: build the model from sources, modules and attachments that
single out no place and no direction, and evaluate it; the moved problem gives the same costs, the same total, or the same
exception. Every solver, from momenta and with learnable controls. Missing: initial controls of ones and meshes with
three faces, where it is false; see the disagreements. -/
theorem C86_partial {φ : G → G} {ψ : T → T} {Ds : List (Deformable d G)} {ms : List (DefModule d)} {as : List (Attach G T)}
    {fit : Option (SolverName × Nat × Bool)} (lam : ℝ) (red : Reduce) (hf : (∀ s it, fit ≠ some (s, it, true)) ∨ g.Q = 1)
    (hD : ∀ D ∈ Ds, D.Carries g φ) (h : DefModule.AllMovable g ms) (hs : (DefModule.compound ms).Smooth 1) (ha : ∀ a ∈ as, a.Blind φ ψ)
    (targets : List T) (s : SolverName) (it : Nat) :
    ((RegModel.new (Ds.map (Deformable.move g)) (DefModule.moveAll g ms) as fit lam red >>= fun M => M.evaluate none (targets.map ψ) s it []).map
        fun r => (r.costs, r.total))
      = (RegModel.new Ds ms as fit lam red >>= fun M => M.evaluate none targets s it []).map fun r => (r.costs, r.total) := by
  rw [C86_new g Ds ms as fit lam red hf]
  cases hM : RegModel.new Ds ms as fit lam red with
  | error e => rfl
  | ok M =>
    have hR := C86_ready g hM .start hD h hs ha
    show ((M.move g).evaluate none (targets.map ψ) s it []).map _ = (M.evaluate none targets s it []).map _
    rw [C86_evaluate g hR targets s it]
    cases M.evaluate none targets s it [] <;> rfl

/-! ## Attachments and deformables that qualify -/

theorem blind_simple {φ : G → G} {ψ : T → T} {w : ℝ} {f : G → T → Py ℝ} (h : ∀ s t, f (φ s) (ψ t) = f s t) : (Attach.simple w f).Blind φ ψ := by
  intro s t
  rw [Attach.loss, Attach.loss, h]

/-- The pointwise distance sees no rigid motion of both sides. -/
theorem C86_points (w : ℝ) : (pointAttach w : Attach (List (Vec d)) (List (Vec d))).Blind (List.map g.point) (List.map g.point) :=
  blind_simple (pointwise_move g)

/-- Neither does the varifold distance of curves, -/
theorem C86_curves (g : Rigid 2) (w : ℝ) (sigmas : List ℝ) : (curveAttach w sigmas).Blind (List.map g.point) (List.map g.point) :=
  blind_simple fun x y => by rw [curveLoss_move]

/-- nor that of meshes, for any number of faces but three. -/
theorem C86_meshes (g : Rigid 3) (w : ℝ) (r : Reduction) (sigmas : List ℝ) : (meshAttach w r sigmas).Blind (OtherMesh.move g) (OtherMesh.move g) :=
  blind_simple fun x y => by
    unfold OtherMesh.move
    dsimp only
    rw [meshLoss_move g r sigmas x.2 y.2]

mutual
/-- A compound of such attachments is one too. -/
theorem C86_compound {φ : G → G} {ψ : T → T} (w : ℝ) (as : List (Attach G T)) (h : ∀ a ∈ as, a.Blind φ ψ) : (Attach.compound w as).Blind φ ψ := by
  intro s t
  rw [Attach.loss, Attach.loss, blind_all as h s t]
theorem blind_all {φ : G → G} {ψ : T → T} : (as : List (Attach G T)) → (∀ a ∈ as, a.Blind φ ψ) → (s : G) → (t : T) →
    Attach.lossAll (φ s) (ψ t) as = Attach.lossAll s t as
  | [], _, _, _ => by rw [Attach.lossAll, Attach.lossAll]
  | a :: as, h, s, t => by
    rw [Attach.lossAll, Attach.lossAll, h a (List.mem_cons_self ..) s t, blind_all as (fun b hb => h b (List.mem_cons_of_mem _ hb)) s t]
end

/-- Deformables whose geometry is the list of points follow rigid motions, -/
theorem C86_carries_points {n : Nat} (gd cot : Fin n → Vec d) :
    (⟨n, gd, cot, none, fun p => .ok (List.ofFn p.x)⟩ : Deformable d (List (Vec d))).Carries g (List.map g.point) := fun p => by
  show Except.ok _ = Except.ok _
  rw [List.map_ofFn]
  rfl

/-- and so do meshes. -/
theorem C86_carries_mesh (g : Rigid 3) {n : Nat} (gd cot : Fin n → Vec 3) (F : List (Nat × Nat × Nat)) (hF : F.length ≠ 3) :
    (⟨n, gd, cot, none, fun p => .ok ⟨(List.ofFn p.x, F), hF⟩⟩ : Deformable 3 OtherMesh).Carries g (OtherMesh.move g) := fun p => by
  show Except.ok _ = Except.ok _
  unfold OtherMesh.move Mesh.move
  simp only [List.map_ofFn]
  rfl

/-! ## Disagreements -/

/-- The rotation about the third axis that takes `(1, 0, 0)` to `(3/5, 4/5, 0)`. -/
def pythagoras : Rigid 3 := ⟨!![3/5, -4/5, 0; 4/5, 3/5, 0; 0, 0, 1], 0, by
  rw [Matrix.mem_orthogonalGroup_iff]
  ext i j
  fin_cases i <;> fin_cases j <;> simp [Matrix.mul_apply, Fin.sum_univ_three] <;> norm_num⟩

/-- Corners of three triangles. -/
def cornerVertices : List (Vec 3) := [![0, 0, 0], ![1, 0, 0], ![0, 2, 0], ![0, 1, 0], ![0, 0, 1]]

/-- A mesh with three faces, none of them degenerate, for which turning matters: the distance of the mesh to itself is NaN,
that of the turned mesh to itself is zero. -/
theorem C86_three_disagreement (r : Reduction) (sigmas : List ℝ) (hne : sigmas ≠ []) (hσ : ∀ σ ∈ sigmas, σ ≠ 0) :
    ∃ (g : Rigid 3) (m : Mesh), Spec.ValidMesh m ∧ m.2.length = 3 ∧
      (∀ f ∈ m.2, Spec.triangleArea (Spec.triangle m.1 f).1 (Spec.triangle m.1 f).2.1 (Spec.triangle m.1 f).2.2 ≠ 0) ∧
      (VarifoldClass.d3 r).loss sigmas (.mesh m) (.mesh m) = .ok none ∧
      (VarifoldClass.d3 r).loss sigmas (.mesh (Mesh.move g m)) (.mesh (Mesh.move g m)) = .ok (some 0) := by
  have key : ∀ m n : Mesh, (VarifoldClass.d3 r).loss sigmas (.mesh m) (.mesh n) = (VarifoldClass.d3 .torch).loss sigmas (.mesh m) (.mesh n) := fun m n => by
    cases r
    · rfl
    · exact C61_backends sigmas m n
  have hv : Spec.ValidMesh (cornerVertices, [(0, 1, 2), (0, 1, 3), (0, 1, 4)]) := by
    intro f hf
    simp only [List.mem_cons, List.not_mem_nil, or_false] at hf
    rcases hf with rfl | rfl | rfl <;> simp [cornerVertices]
  have hv' : Spec.ValidMesh (Mesh.move pythagoras (cornerVertices, [(0, 1, 2), (0, 1, 3), (0, 1, 4)])) := by
    intro f hf
    simp only [Mesh.move, List.mem_cons, List.not_mem_nil, or_false] at hf
    rcases hf with rfl | rfl | rfl <;> simp [cornerVertices, Mesh.move]
  have hp : ¬ Spec.Proper (cornerVertices, [(0, 1, 2), (0, 1, 3), (0, 1, 4)]) := by
    intro h
    refine h _ (List.mem_cons_self ..) ?_
    show Real.sqrt _ = 0
    rw [Fin.sum_univ_three]
    simp [Spec.triangle, cornerVertices, relDiff]
  have hp' : Spec.Proper (Mesh.move pythagoras (cornerVertices, [(0, 1, 2), (0, 1, 3), (0, 1, 4)])) := by
    intro r hr
    simp only [Mesh.move, meshRows, faceNormals, List.map_cons, List.map_nil, List.zipWith_cons_cons, List.zipWith_nil_left, List.mem_cons, List.not_mem_nil, or_false] at hr
    rcases hr with rfl | rfl | rfl <;>
      · refine Real.sqrt_ne_zero'.2 ?_
        rw [Fin.sum_univ_three]
        simp [Spec.triangle, cornerVertices, relDiff, pythagoras, Rigid.point, Matrix.mulVec, dotProduct, Fin.sum_univ_three] <;> norm_num
  refine ⟨pythagoras, (cornerVertices, [(0, 1, 2), (0, 1, 3), (0, 1, 4)]), hv, rfl, ?_, ?_, ?_⟩
  · intro f hf
    rw [← (C67_partial _ _ _).2.2.1]
    refine Real.sqrt_ne_zero'.2 ?_
    rw [Fin.sum_univ_three]
    simp only [List.mem_cons, List.not_mem_nil, or_false] at hf
    rcases hf with rfl | rfl | rfl <;> simp [Spec.triangle, cornerVertices, relDiff, faceNormal, cross3] <;> norm_num
  · rw [key]
    refine loss_nan hne fun σ h => ?_
    show costVarifold3 vproduct _ _ σ = _
    rw [costVarifold3_eq hv hv (hσ σ h), if_neg fun h' => hp h'.1]
  · rw [key]
    exact (C61_meshes sigmas hσ _ _ hv' hv' hp' hp').2

/-- The quarter turn. -/
def quarterTurn : Rigid 2 := ⟨!![0, -1; 1, 0], 0, by
  rw [Matrix.mem_orthogonalGroup_iff]
  ext i j
  fin_cases i <;> fin_cases j <;> simp [Matrix.mul_apply]⟩

/-- Initial controls of ones single out a direction: the model of the turned problem is not the turned model. -/
theorem C86_ones_disagreement (D : Deformable 2 G) (a : Attach G T) (m : Translations 2 1) (lam : ℝ) (red : Reduce) :
    ∃ M M' : RegModel 2 G T, RegModel.new [D] [.translations m] [a] (some (.fixed .euler, 1, true)) lam red = .ok M ∧
      RegModel.new ([D].map (Deformable.move quarterTurn)) (DefModule.moveAll quarterTurn [.translations m]) [a] (some (.fixed .euler, 1, true)) lam red = .ok M' ∧
      M'.learned ≠ (M.move quarterTurn).learned ∧ M'.learned = M.learned := by
  refine ⟨_, _, rfl, rfl, ?_, rfl⟩
  intro h
  have h := congrArg (fun l : Option (Nat × List (List (Ctrl 2))) => l.bind fun l => l.2[0]?.bind fun c => c[0]?) h
  simp [RegModel.move, collectList, DefModule.controls, Ctrl.like, Ctrl.moveAll, Ctrl.move] at h
  have := congrFun (congrFun h 0) 0
  simp [Rigid.vec, quarterTurn, Matrix.mulVec, dotProduct, Fin.sum_univ_two] at this
  norm_num at this

/-! ## Examples -/

/-- Matching two sets of points and a curve with local translations, implicit modules and a rotation: everything asked for
holds, for every rigid motion of the plane. -/
example (g : Rigid 2) (q p : Fin 4 → Vec 2) (c : Implicit0 2 3) (t : Translations 2 5) (r : Linear 2) (hr : g.mat r.A = r.A) (lam : ℝ)
    (sigmas : List ℝ) : ∃ M : RegModel 2 (List (Vec 2)) (List (Vec 2)),
    RegModel.new [⟨4, q, p, none, fun p => .ok (List.ofFn p.x)⟩, ⟨4, q, p, none, fun p => .ok (List.ofFn p.x)⟩]
      [.implicit0 c, .translations t, .linear r] [pointAttach 1, curveAttach 2 sigmas] none lam .sum = .ok M ∧
    M.Ready g (List.map g.point) (List.map g.point) := by
  have key : ∀ M : RegModel 2 (List (Vec 2)) (List (Vec 2)),
      RegModel.new [⟨4, q, p, none, fun p => .ok (List.ofFn p.x)⟩, ⟨4, q, p, none, fun p => .ok (List.ofFn p.x)⟩]
        [.implicit0 c, .translations t, .linear r] [pointAttach 1, curveAttach 2 sigmas] none lam .sum = .ok M →
      M.Ready g (List.map g.point) (List.map g.point) := by
    intro M h
    refine C86_ready g h .start ?_ ?_ ?_ ?_
    · intro D hD
      simp only [List.mem_cons, List.not_mem_nil, or_false, or_self] at hD
      subst hD
      exact C86_carries_points g q p
    · simp [DefModule.AllMovable, DefModule.Movable, hr]
    · simp [DefModule.Smooth, DefModule.SmoothParts, DefModule.AllSmoothParts]
    · intro a ha
      simp only [List.mem_cons, List.not_mem_nil, or_false] at ha
      rcases ha with rfl | rfl
      · exact C86_points g 1
      · exact C86_curves g 2 sigmas
  exact ⟨_, rfl, key _ rfl⟩

end
end Imodal
