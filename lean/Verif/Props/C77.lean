import Verif.Lemmas.RigidAll
/-!
# C77: everything moves along with a rigid motion

Rotating, reflecting or translating all descriptors and momenta gives the moved fields,
velocities and geodesic controls, and the same costs and Hamiltonian.
-/
set_option autoImplicit false
namespace Imodal
noncomputable section
open Matrix
variable {d : Nat}

/-- The field of the moved module at the moved points is the turned field, and its Jacobian the
conjugated one. Exceptions are the same. -/
theorem C77_field (g : Rigid d) {m : DefModule d} (h : m.Movable g) {n : Nat} (pts : Fin n → Vec d) :
    ((m.move g).field.bind fun f => f.values fun i => g.point (pts i))
        = (m.field.bind fun f => f.values pts).map (fun v i => g.vec (v i))
      ∧ ((m.move g).field.bind fun f => f.jacobians fun i => g.point (pts i))
        = (m.field.bind fun f => f.jacobians pts).map (fun J i => g.mat (J i)) := by
  rw [field_move g m h]
  cases m.field with
  | error e => exact ⟨rfl, rfl⟩
  | ok f => exact ⟨values_move g f pts, jacobians_move g f pts⟩

/-- The cost. -/
theorem C77_cost (g : Rigid d) {m : DefModule d} (h : m.Movable g) : (m.move g).cost = m.cost := cost_move g m h

/-- The velocity the field gives to a manifold, and what it pairs to with the momentum. -/
theorem C77_action (g : Rigid d) {m : DefModule d} (h : m.Movable g) (man : Mfd d) :
    ((m.move g).field.bind (man.move g).action) = (m.field.bind man.action).map (Tan.move g)
      ∧ ((m.move g).field.bind (man.move g).innerProd) = m.field.bind man.innerProd := by
  rw [field_move g m h]
  cases m.field with
  | error e => exact ⟨rfl, rfl⟩
  | ok f => exact ⟨action_move g f man, innerProd_move g f man⟩

/-- Filling controls. -/
theorem C77_fill (g : Rigid d) {m : DefModule d} (h : m.Movable g) (c : Ctrl d) :
    (m.move g).fillControls (c.move g) = (m.fillControls c).map (DefModule.move g) := fillControls_move g m c h

/-- Geodesic controls: of the whole system, and of a module driven by any manifold. -/
theorem C77_geodesic (g : Rigid d) {m : DefModule d} (h : m.Movable g) :
    Hamiltonian.geodesicControls (m.move g) = (Hamiltonian.geodesicControls m).map (DefModule.move g)
      ∧ ∀ man : Mfd d, DefModule.geodesic (man.move g) (m.move g) = (DefModule.geodesic man m).map (DefModule.move g) := by
  refine ⟨?_, fun man => geodesic_move g man m h⟩
  unfold Hamiltonian.geodesicControls
  rw [manifold_move, geodesic_move g _ m h]

/-- The Hamiltonian. -/
theorem C77_hamiltonian (g : Rigid d) {m : DefModule d} (h : m.Movable g) : Hamiltonian.value (m.move g) = Hamiltonian.value m := by
  unfold Hamiltonian.value hamiltonianOn
  rw [field_move g m h]
  cases m.field with
  | error e => rfl
  | ok f =>
    dsimp only [Except.map]
    rw [manifold_move, innerProd_move, cost_move g m h]

mutual
/-- What is needed of a module for rigid motions is kept when controls or descriptors change. -/
theorem movable_geodesic (g : Rigid d) (man : Mfd d) : (m : DefModule d) → {m' : DefModule d} → DefModule.geodesic man m = .ok m' → m.Movable g → m'.Movable g
  | .translations m, m', h, _ => by
    rw [DefModule.geodesic] at h
    cases hm : m.geodesic man <;> rw [hm] at h <;> cases h
    rw [DefModule.Movable] <;> simp
  | .implicit0 m, m', h, _ => by
    rw [DefModule.geodesic] at h
    cases hm : m.geodesic man <;> rw [hm] at h <;> cases h
    rw [DefModule.Movable] <;> simp
  | .oriented m, m', h, _ => by
    rw [DefModule.geodesic] at h
    cases hm : m.geodesic man <;> rw [hm] at h <;> cases h
    rw [DefModule.Movable] <;> simp
  | .constrained m, m', h, hm => by
    rw [DefModule.geodesic] at h
    unfold Constrained.geodesic at h
    cases ha : man.innerProd (.f0 .torch (m.fsupp m.gd) (m.fvec m.gd) m.σ) with
    | error e => rw [ha] at h; cases h
    | ok a =>
      rw [ha] at h
      dsimp only at h
      cases hc : tdiv a (m.coeff * m.energy) <;> rw [hc] at h <;> cases h
      rw [DefModule.Movable] at hm ⊢
      exact hm
  | .globalTranslation m, m', h, _ => by
    rw [DefModule.geodesic] at h
    cases hm : m.geodesic man <;> rw [hm] at h <;> cases h
    rw [DefModule.Movable] <;> simp
  | .linear m, m', h, hm => by
    rw [DefModule.geodesic] at h
    unfold Linear.geodesic at h
    cases ha : man.innerProd (.affine m.A m.gd 0) with
    | error e => rw [ha] at h; cases h
    | ok a =>
      rw [ha] at h
      dsimp only at h
      cases hc : tdiv a m.coeff <;> rw [hc] at h <;> cases h
      rw [DefModule.Movable] at hm ⊢
      exact hm
  | .implicit1 m, m', h, hm => by
    rw [DefModule.Movable] at hm
    rw [DefModule.geodesic] at h
    cases ha : m.geodesic man <;> rw [ha] at h <;> cases h
    rw [DefModule.Movable]; exact hm
  | .divFree m, m', h, _ => by
    rw [DefModule.geodesic] at h
    cases hm : m.geodesic man <;> rw [hm] at h <;> cases h
    rw [DefModule.Movable] <;> simp
  | .arap m, m', h, hm => by
    rw [DefModule.Movable] at hm
    rw [DefModule.geodesic] at h
    cases ha : m.geodesic man <;> rw [ha] at h <;> cases h
    rw [DefModule.Movable]; exact hm
  | .silent s, m', h, hm => by
    rw [DefModule.geodesic] at h; cases h; exact hm
  | .compound ms, m', h, hm => by
    rw [DefModule.geodesic] at h
    cases ha : DefModule.geodesics man ms <;> rw [ha] at h <;> cases h
    rw [DefModule.Movable] at hm ⊢
    exact allMovable_geodesics g man ms ha hm
theorem allMovable_geodesics (g : Rigid d) (man : Mfd d) : (ms : List (DefModule d)) → {ms' : List (DefModule d)} →
    DefModule.geodesics man ms = .ok ms' → DefModule.AllMovable g ms → DefModule.AllMovable g ms'
  | [], ms', h, hm => by rw [DefModule.geodesics] at h; cases h; exact hm
  | m :: ms, ms', h, hm => by
    rw [DefModule.AllMovable] at hm
    rw [DefModule.geodesics] at h
    cases ha : DefModule.geodesic man m with
    | error e => rw [ha] at h; cases h
    | ok m1 =>
      rw [ha] at h
      dsimp only at h
      cases hb : DefModule.geodesics man ms <;> rw [hb] at h <;> cases h
      rw [DefModule.AllMovable]
      exact ⟨movable_geodesic g man m ha hm.1, allMovable_geodesics g man ms hb hm.2⟩
end

/-- The reduced Hamiltonian: the value after the geodesic controls were computed. -/
theorem C77_reduced (g : Rigid d) {m : DefModule d} (h : m.Movable g) :
    (Hamiltonian.geodesicControls (m.move g)).bind Hamiltonian.value = (Hamiltonian.geodesicControls m).bind Hamiltonian.value := by
  rw [(C77_geodesic g h).1]
  cases hg : Hamiltonian.geodesicControls m with
  | error e => rfl
  | ok m' => exact C77_hamiltonian g (movable_geodesic g _ m hg h)

/-! ### Examples -/

/-- A quarter turn of the plane, followed by a translation. -/
def quarter : Rigid 2 := ⟨!![0, -1; 1, 0], ![3, 4], by
  rw [Matrix.mem_orthogonalGroup_iff]
  ext i j
  fin_cases i <;> fin_cases j <;> simp [Matrix.mul_apply, Fin.sum_univ_succ, Matrix.star_eq_conjTranspose]⟩

/-- Every kind of module can be moved by a quarter turn, with a linear deformation that rotates. -/
example {n N P p : Nat} (t : Translations 2 n) (i0 : Implicit0 2 n) (o : Oriented 2 n) (gt : GlobalTranslation 2) (x p0 : Vec 2) (c h : ℝ)
    (i1 : Implicit1 2 n p) (df : DivFree 2 N P) (ar : Arap 2 N P) (s : Mfd 2) (cst : Constrained 2 n n) (hs : cst.fsupp = id)
    (hv : cst.fvec = fun x i => x i - x (i.rev)) :
    (DefModule.compound [.translations t, .implicit0 i0, .oriented o, .globalTranslation gt, .linear ⟨!![0, -1; 1, 0], x, p0, c, h⟩,
      .implicit1 i1, .divFree df, .arap ar, .silent s, .constrained cst]).Movable quarter := by
  simp only [DefModule.Movable, DefModule.AllMovable, hs, hv, id, true_and, and_true, true_or]
  refine ⟨?_, fun _ => True.intro, fun y => ?_⟩
  · ext i j
    fin_cases i <;> fin_cases j <;> simp [Rigid.mat, quarter, Matrix.mul_apply, Fin.sum_univ_succ]
  · funext j
    exact quarter.relDiff_point (y j) (y j.rev)

/-- The quarter turn moves the origin. -/
example : quarter.point ![1, 2] = ![1, 5] := by
  funext i; fin_cases i <;> simp [quarter, Rigid.point, Matrix.mulVec, dotProduct, Fin.sum_univ_succ] <;> norm_num

end
end Imodal
