import Verif.Spec.RigidReg
import Verif.Props.C61
import Verif.Props.C62
import Verif.Lemmas.RigidField
import Mathlib.LinearAlgebra.Matrix.Adjugate
/-! Attachments under rigid motions. -/
set_option autoImplicit false
namespace Imodal
noncomputable section
open Matrix
variable {d : Nat} (g : Rigid d)

theorem mapM_except {α β γ δ : Type} {f : α → Py β} {f' : γ → Py δ} (a : α → γ) (b : β → δ) (h : ∀ x, f' (a x) = (f x).map b) :
    ∀ l : List α, (l.map a).mapM f' = (l.mapM f).map (List.map b)
  | [] => rfl
  | x :: l => by
    rw [List.map_cons, List.mapM_cons, List.mapM_cons, h, mapM_except a b h l]
    cases f x with
    | error e => rfl
    | ok y => cases l.mapM f <;> rfl

theorem mapM_len {α β : Type} {f : α → Py β} : ∀ {l : List α} {r : List β}, l.mapM f = .ok r → r.length = l.length
  | [], r, h => by cases h; rfl
  | x :: l, r, h => by
    rw [List.mapM_cons] at h
    cases h1 : f x with
    | error e => rw [h1] at h; cases h
    | ok y =>
      rw [h1] at h
      cases h2 : l.mapM f with
      | error e => rw [h2] at h; cases h
      | ok r' => rw [h2] at h; cases h; simp [mapM_len h2]

theorem sqDistance_point (x y : Vec d) : sqDistance (g.point x) (g.point y) = sqDistance x y := by
  have h : ∀ a b : Vec d, sqDistance a b = ∑ c, relDiff a b c * relDiff a b c := fun a b => by
    unfold sqDistance relDiff
    exact Finset.sum_congr rfl fun c _ => by ring
  rw [h, h, g.relDiff_point, g.vec_dot']

theorem tdist_point (x y : Vec d) : tdist (g.point x) (g.point y) = tdist x y := by
  unfold tdist; rw [sqDistance_point]

theorem pointwise_move (x y : List (Vec d)) : pointwiseLoss (x.map g.point) (y.map g.point) = pointwiseLoss x y := by
  unfold pointwiseLoss
  rw [List.length_map, List.length_map]
  split
  · rw [List.zipWith_map]
    simp only [tdist_point]
  · match x, y with
    | [], [] => rfl
    | [], [b] => rfl
    | [], _ :: _ :: _ => rfl
    | [a], y => simp only [List.map_cons, List.map_nil, List.map_map, Function.comp_def, tdist_point]
    | _ :: _ :: _, [] => rfl
    | _ :: _ :: _, [b] => simp only [List.map_cons, List.map_nil, List.map_map, Function.comp_def, tdist_point]
    | _ :: _ :: _, _ :: _ :: _ => rfl

theorem tnorm_vec (v : Vec d) : tnorm (g.vec v) = tnorm v := by
  unfold tnorm
  simp only [sq]
  rw [g.vec_dot']

theorem atomKernel_move (σ : ℝ) (p q : Vec d × Vec d) :
    Spec.atomKernel σ (g.point p.1, g.vec p.2) (g.point q.1, g.vec q.2) = Spec.atomKernel σ p q := by
  unfold Spec.atomKernel
  rw [g.kXY_point, g.vec_dot', tnorm_vec, tnorm_vec]

theorem closeShape_map {β γ : Type} (f : β → γ) (x : List β) : closeShape (x.map f) = (closeShape x).map (List.map f) := by
  cases x with
  | nil => rfl
  | cons a l => simp [closeShape, Except.map]

theorem curveSegments_move (g : Rigid 2) (x : List (Vec 2)) :
    curveSegments (x.map g.point) = (curveSegments x).map (List.map fun p => (g.point p.1, g.vec p.2)) := by
  cases x with
  | nil => rfl
  | cons a l =>
    have h1 : closeShape (a :: l) = .ok (a :: l ++ [a]) := rfl
    have h2 : closeShape ((a :: l).map g.point) = .ok ((a :: l ++ [a]).map g.point) := by rw [closeShape_map, h1]; rfl
    rw [curveSegments_eq h2, curveSegments_eq h1]
    simp only [Except.map]
    congr 1
    unfold Spec.curveAtoms
    rw [edges_map, List.map_map, List.map_map]
    refine List.map_congr_left fun e _ => ?_
    simp only [Function.comp_apply, Prod.mk.injEq]
    constructor
    · have : (fun c => (e.1 c + e.2 c) / 2 : Vec 2) = (1 / 2 : ℝ) • (e.1 + e.2) := by
        funext c; simp only [Pi.smul_apply, Pi.add_apply, smul_eq_mul]; ring
      rw [this]
      unfold Rigid.point
      rw [Matrix.mulVec_smul, Matrix.mulVec_add]
      funext c
      simp only [Pi.smul_apply, Pi.add_apply, smul_eq_mul]
      ring
    · unfold Rigid.point Rigid.vec
      rw [Matrix.mulVec_sub]
      abel

theorem dotVarifold_move (g : Rigid 2) (σ : ℝ) (x y : List (Vec 2)) : dotVarifold σ (x.map g.point) (y.map g.point) = dotVarifold σ x y := by
  unfold dotVarifold
  rw [curveSegments_move, curveSegments_move]
  cases curveSegments x with
  | error e => rfl
  | ok a =>
    cases curveSegments y with
    | error e => rfl
    | ok b =>
      simp only [bind, Except.bind, Except.map, pure, Except.pure, List.map_map, Function.comp_def, dotTerm_eq]
      simp only [atomKernel_move]

theorem cost2_move (g : Rigid 2) (σ : ℝ) (x y : List (Vec 2)) : costVarifold2 (x.map g.point) (y.map g.point) σ = costVarifold2 x y σ := by
  unfold costVarifold2
  rw [dotVarifold_move, dotVarifold_move, dotVarifold_move]

theorem curveLoss_move (g : Rigid 2) (sigmas : List ℝ) (x y : List (Vec 2)) :
    (VarifoldClass.d2 .torch).loss sigmas (.curve (x.map g.point)) (.curve (y.map g.point)) = (VarifoldClass.d2 .torch).loss sigmas (.curve x) (.curve y) := by
  refine loss_congr fun σ _ => ?_
  show (do return some (← costVarifold2 (x.map g.point) (y.map g.point) σ)) = (do return some (← costVarifold2 x y σ) : Py (Option ℝ))
  rw [cost2_move]

/-! ## Meshes -/

/-- The vector product turns with the vectors, up to the sign of the determinant. -/
theorem cross3_vec (g : Rigid 3) (a b : Vec 3) : cross3 (g.vec a) (g.vec b) = g.Q.det • g.vec (cross3 a b) := by
  have hQ : g.Q * g.Qᵀ = 1 := (Matrix.mem_orthogonalGroup_iff _ _).1 g.orth
  have hadj : g.Q.adjugate = g.Q.det • g.Qᵀ := by
    have h := congrArg (· * g.Qᵀ) (Matrix.adjugate_mul g.Q)
    simp only [Matrix.mul_assoc, hQ, Matrix.mul_one, Matrix.smul_mul, Matrix.one_mul] at h
    exact h
  have e : ∀ i j, g.Q.det * g.Q i j = g.Q.adjugate j i := fun i j => by
    rw [hadj]; simp
  funext i
  have : (g.Q.det • g.vec (cross3 a b)) i = ∑ j, g.Q.adjugate j i * cross3 a b j := by
    simp only [Pi.smul_apply, smul_eq_mul, Rigid.vec, Matrix.mulVec, dotProduct, Finset.mul_sum, ← e, mul_assoc]
  rw [this, Matrix.adjugate_fin_three]
  unfold Rigid.vec Matrix.mulVec dotProduct cross3
  fin_cases i <;> simp [Fin.sum_univ_three] <;> ring

theorem det_sq (g : Rigid d) : g.Q.det * g.Q.det = 1 := by
  have hQ : g.Q * g.Qᵀ = 1 := (Matrix.mem_orthogonalGroup_iff _ _).1 g.orth
  have := congrArg Matrix.det hQ
  rwa [Matrix.det_mul, Matrix.det_transpose, Matrix.det_one] at this

theorem vec_smul (a : ℝ) (v : Vec d) : g.vec (a • v) = a • g.vec v := by unfold Rigid.vec; rw [Matrix.mulVec_smul]

theorem faceNormal_point (g : Rigid 3) (v0 v1 v2 : Vec 3) :
    faceNormal (g.point v0) (g.point v1) (g.point v2) = g.Q.det • g.vec (faceNormal v0 v1 v2) := by
  have h : ∀ a b c : Vec 3, faceNormal a b c = (0.5 : ℝ) • cross3 (relDiff b a) (relDiff c a) := fun a b c => rfl
  rw [h, h, g.relDiff_point, g.relDiff_point, cross3_vec, vec_smul, smul_comm]

/-- How the centres move: they are one and a half times the centres of gravity. -/
def Rigid.center (g : Rigid d) : Rigid d := ⟨g.Q, (1.5 : ℝ) • g.τ, g.orth⟩

theorem faceCenter_point (g : Rigid 3) (v0 v1 v2 : Vec 3) :
    faceCenter (g.point v0) (g.point v1) (g.point v2) = g.center.point (faceCenter v0 v1 v2) := by
  have h : ∀ a b c : Vec 3, faceCenter a b c = (0.5 : ℝ) • (a + b + c) := fun a b c => rfl
  rw [h, h]
  unfold Rigid.point Rigid.center
  rw [Matrix.mulVec_smul, Matrix.mulVec_add, Matrix.mulVec_add]
  funext c
  simp only [Pi.smul_apply, Pi.add_apply, smul_eq_mul]
  ring

def turnRow (g : Rigid 3) (r : Vec 3 × Vec 3 × ℝ) : Vec 3 × Vec 3 × ℝ := (g.center.point r.1, g.Q.det • g.vec r.2.1, r.2.2)
def turnTri (g : Rigid 3) (t : Tri) : Tri := (g.point t.1, g.point t.2.1, g.point t.2.2)

theorem smul_dot (g : Rigid 3) (u v : Vec 3) : ∑ c, (g.Q.det • g.vec u) c * (g.Q.det • g.vec v) c = ∑ c, u c * v c := by
  rw [← g.vec_dot' u v]
  refine Finset.sum_congr rfl fun c _ => ?_
  have := det_sq g
  simp only [Pi.smul_apply, smul_eq_mul]
  linear_combination (g.vec u c * g.vec v c) * this

theorem faceRow_turn (g : Rigid 3) (t : Tri) (n : Vec 3) : faceRow (turnTri g t) (g.Q.det • g.vec n) = turnRow g (faceRow t n) := by
  unfold faceRow turnRow turnTri
  dsimp only
  rw [faceCenter_point]
  congr 2
  simp only [sq]
  rw [smul_dot]

theorem selectFace_turn (g : Rigid 3) (V : List (Vec 3)) (f : Nat × Nat × Nat) : selectFace (V.map g.point) f = (selectFace V f).map (turnTri g) := by
  unfold selectFace
  rw [List.getElem?_map, List.getElem?_map, List.getElem?_map]
  cases V[f.1]? <;> cases V[f.2.1]? <;> cases V[f.2.2]? <;> rfl

theorem meshRows_turn (g : Rigid 3) {ts : List Tri} (h3 : ts.length ≠ 3) : meshRows (ts.map (turnTri g)) = (meshRows ts).map (turnRow g) := by
  rw [meshRows_map (by simpa using h3), meshRows_map h3, List.map_map, List.map_map]
  refine List.map_congr_left fun t _ => ?_
  simp only [Function.comp_apply]
  rw [← faceRow_turn, ← faceNormal_point]
  rfl

theorem cnl_turn (g : Rigid 3) {m : Mesh} (h3 : m.2.length ≠ 3) :
    centersNormalsLengths (Mesh.move g m).1 (Mesh.move g m).2 = (centersNormalsLengths m.1 m.2).map (List.map (turnRow g)) := by
  unfold centersNormalsLengths Mesh.move
  dsimp only
  have := mapM_except (f := selectFace m.1) (f' := selectFace (m.1.map g.point)) id (turnTri g) (selectFace_turn g m.1) m.2
  rw [List.map_id] at this
  rw [this]
  cases h : m.2.mapM (selectFace m.1) with
  | error e => rfl
  | ok ts =>
    have hl : ts.length ≠ 3 := by rw [mapM_len h]; exact h3
    show Except.ok (meshRows (ts.map (turnTri g))) = Except.ok ((meshRows ts).map (turnRow g))
    rw [meshRows_turn g hl]

theorem vterm_turn (g : Rigid 3) (σ : ℝ) (r s : Vec 3 × Vec 3 × ℝ) :
    vterm σ (VFace.ofRow (turnRow g r)) (VFace.ofRow (turnRow g s)) = vterm σ (VFace.ofRow r) (VFace.ofRow s) := by
  unfold vterm VFace.ofRow turnRow
  dsimp only
  by_cases hr : r.2.2 = 0
  · rw [if_pos hr, if_pos hr]
  · by_cases hs : s.2.2 = 0
    · rw [if_neg hr, if_neg hr, if_pos hs, if_pos hs]
    · rw [if_neg hr, if_neg hr, if_neg hs, if_neg hs]
      dsimp only
      rw [Rigid.kXY_point]
      have hd : ∑ c, (g.Q.det • g.vec r.2.1) c / r.2.2 * ((g.Q.det • g.vec s.2.1) c / s.2.2) = ∑ c, r.2.1 c / r.2.2 * (s.2.1 c / s.2.2) := by
        simp only [div_mul_div_comm, ← Finset.sum_div]
        rw [smul_dot]
      rw [hd]

theorem vproduct_turn (g : Rigid 3) (σ : ℝ) (R S : List (Vec 3 × Vec 3 × ℝ)) :
    vproduct σ ((R.map (turnRow g)).map VFace.ofRow) ((S.map (turnRow g)).map VFace.ofRow) = vproduct σ (R.map VFace.ofRow) (S.map VFace.ofRow) := by
  unfold vproduct
  simp only [List.map_map, Function.comp_def, vterm_turn]

theorem cost3_move (g : Rigid 3) (σ : ℝ) {m n : Mesh} (hm : m.2.length ≠ 3) (hn : n.2.length ≠ 3) :
    costVarifold3 vproduct (Mesh.move g m) (Mesh.move g n) σ = costVarifold3 vproduct m n σ := by
  unfold costVarifold3
  rw [cnl_turn g hm, cnl_turn g hn]
  cases centersNormalsLengths m.1 m.2 with
  | error e => rfl
  | ok R =>
    cases centersNormalsLengths n.1 n.2 with
    | error e => rfl
    | ok S =>
      simp only [Except.map, bind, Except.bind, vproduct_turn]

theorem meshLoss_move (g : Rigid 3) (r : Reduction) (sigmas : List ℝ) {m n : Mesh} (hm : m.2.length ≠ 3) (hn : n.2.length ≠ 3) :
    (VarifoldClass.d3 r).loss sigmas (.mesh (Mesh.move g m)) (.mesh (Mesh.move g n)) = (VarifoldClass.d3 r).loss sigmas (.mesh m) (.mesh n) := by
  have key : ∀ m n : Mesh, (VarifoldClass.d3 r).loss sigmas (.mesh m) (.mesh n) = (VarifoldClass.d3 .torch).loss sigmas (.mesh m) (.mesh n) := fun m n => by
    cases r
    · rfl
    · exact C61_backends sigmas m n
  rw [key, key]
  exact loss_congr fun σ _ => cost3_move g σ hm hn

end
end Imodal
