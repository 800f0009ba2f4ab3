import Verif.Model.MeshUtils
import Verif.Lemmas.Kernel
import Mathlib.Geometry.Euclidean.Angle.Unoriented.Basic
import Mathlib.Analysis.InnerProductSpace.PiL2
/-!
# C67: centres, normals and areas of triangles
-/
set_option autoImplicit false
namespace Imodal
noncomputable section

/-- The centroid of a triangle. -/
def Spec.centroid (v0 v1 v2 : Vec 3) : Vec 3 := fun c => (v0 c + v1 c + v2 c) / 3

/-- The centre of the code is one and a half times the centroid. -/
theorem faceCenter_eq (v0 v1 v2 : Vec 3) : faceCenter v0 v1 v2 = fun c => 3 / 2 * Spec.centroid v0 v1 v2 c := by
  funext c; simp only [faceCenter, Spec.centroid]; ring

/-- The computed centre is the centroid only for triangles whose centroid is the origin. -/
theorem C67_disagreement (v0 v1 v2 : Vec 3) : faceCenter v0 v1 v2 = Spec.centroid v0 v1 v2 ↔ Spec.centroid v0 v1 v2 = 0 := by
  rw [faceCenter_eq]
  constructor
  · intro h
    funext c
    have : 3 / 2 * Spec.centroid v0 v1 v2 c = Spec.centroid v0 v1 v2 c := congrFun h c
    show Spec.centroid v0 v1 v2 c = 0
    linarith
  · intro h; rw [h]; funext c; simp

/-- It does not move with the triangle: a translation moves it half as far again. -/
theorem C67_moves_disagreement (v0 v1 v2 t : Vec 3) : faceCenter (v0 + t) (v1 + t) (v2 + t) = fun c => faceCenter v0 v1 v2 c + 3 / 2 * t c := by
  funext c; simp only [faceCenter, Pi.add_apply]; ring

/-- It lies outside every triangle that is contained in a half space away from the origin. -/
theorem C67_outside_disagreement (v0 v1 v2 : Vec 3) (h : 0 < v0 0) (h1 : v1 0 = v0 0) (h2 : v2 0 = v0 0) :
    faceCenter v0 v1 v2 ∉ convexHull ℝ {v0, v1, v2} := by
  intro hm
  have hsub : convexHull ℝ {v0, v1, v2} ⊆ {p : Vec 3 | p 0 = v0 0} := by
    refine convexHull_min ?_ ?_
    · rintro p (rfl | rfl | rfl)
      · rfl
      · exact h1
      · exact h2
    · intro x hx y hy a b _ _ hab
      simp only [Set.mem_setOf_eq, Pi.add_apply, Pi.smul_apply, smul_eq_mul] at hx hy ⊢
      rw [hx, hy, ← add_mul, hab, one_mul]
  have := hsub hm
  simp only [Set.mem_setOf_eq, faceCenter, h1, h2] at this
  norm_num at this
  linarith

/-- A vector of `ℝ³` in Mathlib's Euclidean space. -/
def Spec.toE (v : Vec 3) : EuclideanSpace ℝ (Fin 3) := WithLp.toLp 2 v

/-- The area of a triangle: half the product of two sides and the sine of their angle. -/
def Spec.triangleArea (v0 v1 v2 : Vec 3) : ℝ :=
  1 / 2 * (‖Spec.toE (v1 - v0)‖ * ‖Spec.toE (v2 - v0)‖ * Real.sin (InnerProductGeometry.angle (Spec.toE (v1 - v0)) (Spec.toE (v2 - v0))))

theorem inner_toE (a b : Vec 3) : inner ℝ (Spec.toE a) (Spec.toE b) = a 0 * b 0 + a 1 * b 1 + a 2 * b 2 := by
  simp [Spec.toE, PiLp.inner_apply, Fin.sum_univ_three, mul_comm]

theorem faceNormal_apply (v0 v1 v2 : Vec 3) :
    faceNormal v0 v1 v2 0 = 0.5 * ((v1 1 - v0 1) * (v2 2 - v0 2) - (v1 2 - v0 2) * (v2 1 - v0 1)) ∧
    faceNormal v0 v1 v2 1 = 0.5 * ((v1 2 - v0 2) * (v2 0 - v0 0) - (v1 0 - v0 0) * (v2 2 - v0 2)) ∧
    faceNormal v0 v1 v2 2 = 0.5 * ((v1 0 - v0 0) * (v2 1 - v0 1) - (v1 1 - v0 1) * (v2 0 - v0 0)) := by
  refine ⟨?_, ?_, ?_⟩ <;> simp [faceNormal, cross3, relDiff]

/-- What holds: the centre is a fixed multiple of the centroid, the normal is orthogonal to the
triangle and its length is the area, and exchanging two vertices reverses the normal. Missing:
that the centre is the centroid. -/
theorem C67_partial (v0 v1 v2 : Vec 3) :
    (faceCenter v0 v1 v2 = fun c => 3 / 2 * Spec.centroid v0 v1 v2 c) ∧
    (∑ c, faceNormal v0 v1 v2 c * (v1 c - v0 c) = 0 ∧ ∑ c, faceNormal v0 v1 v2 c * (v2 c - v0 c) = 0) ∧
    faceLength v0 v1 v2 = Spec.triangleArea v0 v1 v2 ∧
    (faceNormal v0 v2 v1 = fun c => -faceNormal v0 v1 v2 c) := by
  obtain ⟨n0, n1, n2⟩ := faceNormal_apply v0 v1 v2
  obtain ⟨m0, m1, m2⟩ := faceNormal_apply v0 v2 v1
  refine ⟨faceCenter_eq v0 v1 v2, ⟨?_, ?_⟩, ?_, ?_⟩
  · rw [Fin.sum_univ_three, n0, n1, n2]; ring
  · rw [Fin.sum_univ_three, n0, n1, n2]; ring
  · have key := InnerProductGeometry.sin_angle_mul_norm_mul_norm (Spec.toE (v1 - v0)) (Spec.toE (v2 - v0))
    unfold Spec.triangleArea
    rw [mul_comm (‖_‖ * ‖_‖), key, inner_toE, inner_toE, inner_toE]
    unfold faceLength
    rw [Fin.sum_univ_three, n0, n1, n2]
    have h2 : (1 / 2 : ℝ) = Real.sqrt ((1 / 2) ^ 2) := (Real.sqrt_sq (by norm_num)).symm
    rw [h2, ← Real.sqrt_mul (by positivity)]
    congr 1
    simp only [Pi.sub_apply]
    ring
  · funext c
    fin_cases c
    · show faceNormal v0 v2 v1 0 = -faceNormal v0 v1 v2 0
      rw [m0, n0]; ring
    · show faceNormal v0 v2 v1 1 = -faceNormal v0 v1 v2 1
      rw [m1, n1]; ring
    · show faceNormal v0 v2 v1 2 = -faceNormal v0 v1 v2 2
      rw [m2, n2]; ring

/-- A mesh with any number of triangles other than three gets the centre, normal and area of each
triangle. -/
theorem C67_mesh (vertices : List (Vec 3)) (faces : List (Nat × Nat × Nat)) (ts : List Tri) (hts : faces.mapM (selectFace vertices) = .ok ts)
    (h3 : ts.length ≠ 3) :
    centersNormalsLengths vertices faces =
      .ok (ts.map fun t => (faceCenter t.1 t.2.1 t.2.2, faceNormal t.1 t.2.1 t.2.2, faceLength t.1 t.2.1 t.2.2)) := by
  unfold centersNormalsLengths
  rw [hts]
  have : faceNormals ts = ts.map fun t => faceNormal t.1 t.2.1 t.2.2 := by
    match ts, h3 with
    | [], _ => rfl
    | [_], _ => rfl
    | [_, _], _ => rfl
    | _ :: _ :: _ :: _ :: _, _ => rfl
    | [_, _, _], h => simp at h
  simp only [bind, Except.bind, pure, Except.pure, this]
  congr 1
  rw [List.zipWith_map_right, List.zipWith_self]
  rfl

/-- With exactly three triangles the normals are wrong: three translates of any triangle, however
large, get zero normals and zero areas. -/
theorem C67_three_disagreement (t0 t1 t2 : Tri) (s1 s2 : Vec 3) (h1 : t1 = (t0.1 + s1, t0.2.1 + s1, t0.2.2 + s1)) (h2 : t2 = (t0.1 + s2, t0.2.1 + s2, t0.2.2 + s2))
    (vertices : List (Vec 3)) (faces : List (Nat × Nat × Nat)) (hts : faces.mapM (selectFace vertices) = .ok [t0, t1, t2]) :
    ∃ out, centersNormalsLengths vertices faces = .ok out ∧ out.length = 3 ∧ ∀ r ∈ out, r.2.1 = 0 ∧ r.2.2 = 0 := by
  subst h1; subst h2
  unfold centersNormalsLengths
  rw [hts]
  refine ⟨_, rfl, rfl, ?_⟩
  have key : ∀ n ∈ faceNormals [t0, (t0.1 + s1, t0.2.1 + s1, t0.2.2 + s1), (t0.1 + s2, t0.2.1 + s2, t0.2.2 + s2)], n = 0 := by
    intro n hn
    simp only [faceNormals, List.mem_cons, List.not_mem_nil, or_false] at hn
    rcases hn with rfl | rfl | rfl <;> funext c <;> simp only [relDiff, Pi.add_apply, Pi.zero_apply] <;> ring
  intro r hr
  rw [List.mem_iff_getElem] at hr
  obtain ⟨i, hi, rfl⟩ := hr
  rw [List.getElem_zipWith]
  have := key _ (List.getElem_mem (n := i) (by rw [List.length_zipWith] at hi; omega))
  simp [faceRow, this]

example : ∃ vertices : List (Vec 3), [((0 : Nat), (1 : Nat), (2 : Nat)), (3, 4, 5), (3, 4, 5)].mapM (selectFace vertices) =
    .ok [(![0, 0, 0], ![1, 0, 0], ![0, 1, 0]), (![0, 0, 1], ![1, 0, 1], ![0, 1, 1]), (![0, 0, 1], ![1, 0, 1], ![0, 1, 1])] :=
  ⟨[![0, 0, 0], ![1, 0, 0], ![0, 1, 0], ![0, 0, 1], ![1, 0, 1], ![0, 1, 1]], rfl⟩

example : ∃ v0 v1 v2 : Vec 3, 0 < v0 0 ∧ v1 0 = v0 0 ∧ v2 0 = v0 0 ∧ Spec.centroid v0 v1 v2 ≠ 0 := by
  refine ⟨![1, 0, 0], ![1, 1, 0], ![1, 0, 1], by simp, by simp, by simp, fun h => ?_⟩
  have := congrFun h 0
  norm_num [Spec.centroid] at this

end
end Imodal
