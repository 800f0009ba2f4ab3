import Verif.Lemmas.TurnGrad
import Verif.Lemmas.SmoothFill
import Verif.Model.Registration
/-!
# C78: shooting follows rigid motions
-/
set_option autoImplicit false
namespace Imodal
noncomputable section
open Matrix
variable {d : Nat}

/-- Translating the initial descriptors translates the whole trajectory: same momenta, controls and costs at
every step, same exceptions. For every solver, from momenta and with controls. -/
theorem C78_translation (τ : Vec d) (s : SolverName) (it : Nat) (t1 : ℝ) (controls : Option (List (Ctrl d))) {ms : List (DefModule d)}
    (h : (DefModule.compound ms).Movable (Rigid.translation τ)) :
    shoot s it t1 (controls.map (List.map (Ctrl.move (Rigid.translation τ)))) ((DefModule.compound ms).move (Rigid.translation τ))
      = (shoot s it t1 controls (.compound ms)).map fun r => (r.1.move (Rigid.translation τ), r.2) := by
  cases s with
  | torchEuler =>
    unfold shoot
    dsimp only
    rw [shootEuler_move controls it h fun i => gradMoves_translation (prep_setControls _ controls i) h]
    cases shootEuler it controls (.compound ms) <;> rfl
  | fixed s =>
    unfold shoot shootOde
    cases controls with
    | none =>
      dsimp only [Option.map]
      rw [shootMoments_move h (gradMoves_translation (prep_geodesic _) h)]
      cases shootMoments s it t1 (.compound ms) <;> rfl
    | some cs =>
      dsimp only [Option.map]
      rw [shootControls_move h]
      cases shootControls s it t1 cs (.compound ms) <;> rfl
  | adaptive => rfl
  | unknown => rfl

mutual
/-- A translation changes no control. -/
theorem ctrl_translation (τ : Vec d) : (c : Ctrl d) → c.move (Rigid.translation τ) = c
  | .vecs h => by simp [Ctrl.move, Rigid.vec, Rigid.translation]
  | .scalars h => by simp [Ctrl.move]
  | .scalar h => by simp [Ctrl.move]
  | .vec h => by simp [Ctrl.move, Rigid.vec, Rigid.translation]
  | .none => by simp [Ctrl.move]
  | .list hs => by rw [Ctrl.move, ctrls_translation τ hs]
theorem ctrls_translation (τ : Vec d) : (cs : List (Ctrl d)) → Ctrl.moveAll (Rigid.translation τ) cs = cs
  | [] => by rw [Ctrl.moveAll]
  | c :: cs => by rw [Ctrl.moveAll, ctrl_translation τ c, ctrls_translation τ cs]
end

mutual
/-- A translation adds a vector to every point and leaves directions, frames and momenta. -/
theorem move_translation (τ : Vec d) : (M : Mfd d) → M.move (Rigid.translation τ) = M.shift τ
  | .landmarks _ _ => by simp [Mfd.move, Mfd.shift, Rigid.point, Rigid.vec, Rigid.translation]
  | .direction _ _ _ _ _ => by simp [Mfd.move, Mfd.shift, Rigid.point, Rigid.vec, Rigid.translation]
  | .frame _ _ _ _ => by simp [Mfd.move, Mfd.shift, Rigid.point, Rigid.vec, Rigid.translation]
  | .empty => by rw [Mfd.move, Mfd.shift]
  | .compound ms => by rw [Mfd.move, Mfd.shift, moveAll_translation τ ms]
theorem moveAll_translation (τ : Vec d) : (Ms : List (Mfd d)) → Mfd.moveAll (Rigid.translation τ) Ms = Mfd.shiftAll τ Ms
  | [] => by rw [Mfd.moveAll, Mfd.shiftAll]
  | M :: Ms => by rw [Mfd.moveAll, Mfd.shiftAll, move_translation τ M, moveAll_translation τ Ms]
end

/-- The same in terms of what is observed: the states with every point translated, the same controls, the same
costs. -/
theorem C78_shift (τ : Vec d) {s : SolverName} {it : Nat} {t1 : ℝ} {controls : Option (List (Ctrl d))} {ms : List (DefModule d)}
    (h : (DefModule.compound ms).Movable (Rigid.translation τ)) {r : Shot d × Option (List ℝ)}
    (hr : shoot s it t1 controls (.compound ms) = .ok r) :
    ∃ r', shoot s it t1 controls ((DefModule.compound ms).move (Rigid.translation τ)) = .ok r' ∧ r'.1.states = r.1.states.map (Mfd.shift τ)
      ∧ r'.1.module.manifold = r.1.module.manifold.shift τ ∧ r'.1.ctrls = r.1.ctrls ∧ r'.1.costs = r.1.costs ∧ r'.2 = r.2 := by
  have h1 := C78_translation τ s it t1 controls h
  have hid : (Ctrl.move (Rigid.translation τ) : Ctrl d → Ctrl d) = id := funext (ctrl_translation τ)
  have hid' : (Mfd.move (Rigid.translation τ) : Mfd d → Mfd d) = Mfd.shift τ := funext (move_translation τ)
  have hcs : controls.map (List.map (Ctrl.move (Rigid.translation τ))) = controls := by
    rw [hid]; cases controls <;> simp
  rw [hcs, hr] at h1
  refine ⟨_, h1, ?_, ?_, ?_, rfl, rfl⟩
  · show r.1.states.map _ = _
    rw [hid']
  · show (r.1.module.move _).manifold = _
    rw [manifold_move, hid']
  · show r.1.ctrls.map _ = _
    rw [hid]; exact List.map_id _

/-- With controls, for every rigid motion: rotated, reflected and translated controls and descriptors give the
moved trajectory, and the same costs. -/
theorem C78_controls (g : Rigid d) (s : Solver) (it : Nat) (t1 : ℝ) (controls : List (Ctrl d)) {ms : List (DefModule d)}
    (h : (DefModule.compound ms).Movable g) :
    shoot (.fixed s) it t1 (some (controls.map (Ctrl.move g))) ((DefModule.compound ms).move g)
      = (shoot (.fixed s) it t1 (some controls) (.compound ms)).map fun r => (r.1.move g, r.2) := by
  unfold shoot shootOde
  dsimp only
  rw [shootControls_move h]
  cases shootControls s it t1 controls (.compound ms) <;> rfl

/-- From momenta, for every rigid motion and every solver: turning and translating the descriptors and turning the
momenta gives the moved trajectory, with the same costs and the same exceptions. -/
theorem C78_momenta (g : Rigid d) (s : SolverName) (it : Nat) (t1 : ℝ) {ms : List (DefModule d)}
    (h : (DefModule.compound ms).Movable g) (hs : (DefModule.compound ms).Smooth 1) :
    shoot s it t1 none ((DefModule.compound ms).move g) = (shoot s it t1 none (.compound ms)).map fun r => (r.1.move g, r.2) := by
  cases s with
  | torchEuler =>
    unfold shoot
    dsimp only
    have := shootEuler_move none it h fun i => gradMoves_geodesic h hs
    rw [Option.map_none] at this
    rw [this]
    cases shootEuler it none (.compound ms) <;> rfl
  | fixed s =>
    unfold shoot shootOde
    dsimp only
    rw [shootMoments_move h (gradMoves_geodesic h hs)]
    cases shootMoments s it t1 (.compound ms) <;> rfl
  | adaptive => rfl
  | unknown => rfl

/-- `'torch_euler'` with given controls: it differentiates the Hamiltonian with these controls, which is smooth as well. -/
theorem C78_euler (g : Rigid d) (it : Nat) (t1 : ℝ) (controls : List (Ctrl d)) {J : Prop} {ms : List (DefModule d)}
    (h : (DefModule.compound ms).Movable g) (hs : (DefModule.compound ms).SmoothParts 1 J) :
    shoot .torchEuler it t1 (some (controls.map (Ctrl.move g))) ((DefModule.compound ms).move g)
      = (shoot .torchEuler it t1 (some controls) (.compound ms)).map fun r => (r.1.move g, r.2) := by
  unfold shoot
  dsimp only
  have := shootEuler_move (some controls) it h fun i => gradMoves_fill h hs controls i
  rw [Option.map_some] at this
  rw [this]
  cases shootEuler it (some controls) (.compound ms) <;> rfl

/-- Every rigid motion, every solver, from momenta and with given controls. -/
theorem C78_all (g : Rigid d) (s : SolverName) (it : Nat) (t1 : ℝ) (controls : Option (List (Ctrl d))) {ms : List (DefModule d)}
    (h : (DefModule.compound ms).Movable g) (hs : (DefModule.compound ms).Smooth 1) :
    shoot s it t1 (controls.map (List.map (Ctrl.move g))) ((DefModule.compound ms).move g)
      = (shoot s it t1 controls (.compound ms)).map fun r => (r.1.move g, r.2) := by
  cases controls with
  | none => exact C78_momenta g s it t1 h hs
  | some cs =>
    cases s with
    | torchEuler => exact C78_euler g it t1 cs h hs
    | fixed s => exact C78_controls g s it t1 cs h
    | adaptive => rfl
    | unknown => rfl

/-! ### Examples -/

/-- Every list of these module kinds meets the hypothesis for every translation, with any matrix of the linear
deformation. -/
example {n N P p : Nat} (t : Translations 3 n) (i0 : Implicit0 3 n) (o : Oriented 3 n) (gt : GlobalTranslation 3) (l : Linear 3)
    (i1 : Implicit1 3 n p) (df : DivFree 3 N P) (ar : Arap 3 N P) (s : Mfd 3) (τ : Vec 3) :
    (DefModule.compound [.translations t, .implicit0 i0, .oriented o, .globalTranslation gt, .linear l,
      .implicit1 i1, .divFree df, .arap ar, .silent s]).Movable (Rigid.translation τ) := by
  simp [DefModule.Movable, DefModule.AllMovable, Rigid.mat, Rigid.translation]

/-- These module kinds meet the hypotheses of `C78_all` for every rigid motion of the plane, points with directions
included. -/
example {n p : Nat} (t : Translations 2 n) (i0 : Implicit0 2 n) (o : Oriented 2 n) (gt : GlobalTranslation 2) (q : Fin p → Vec 2) (g : Rigid 2) :
    (DefModule.compound [.translations t, .implicit0 i0, .oriented o, .globalTranslation gt, .silent (.landmarks q 0)]).Movable g
      ∧ (DefModule.compound [.translations t, .implicit0 i0, .oriented o, .globalTranslation gt, .silent (.landmarks q 0)]).Smooth 1 := by
  simp [DefModule.Movable, DefModule.AllMovable, DefModule.Smooth, DefModule.SmoothParts, DefModule.AllSmoothParts, Mfd.NoEmptyCompound]

end
end Imodal
