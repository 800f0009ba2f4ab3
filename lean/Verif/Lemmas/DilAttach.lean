import Verif.Spec.DilReg
import Verif.Lemmas.DilField
import Verif.Lemmas.RigidAttach
/-! Attachments in another unit of length. -/
set_option autoImplicit false
namespace Imodal
noncomputable section
variable {d : Nat} {s : ℝ}

theorem tdist_dil (hs : 0 < s) (x y : Vec d) : tdist (scR s x) (scR s y) = s * tdist x y := by
  unfold tdist
  rw [sqDistance_dil, Real.sqrt_mul (sq_nonneg s), Real.sqrt_sq hs.le]

theorem sum_scaled {α : Type} (a : ℝ) (f : α → ℝ) (l : List α) : (l.map fun x => a * f x).sum = a * (l.map f).sum := by
  induction l with
  | nil => simp
  | cons x l ih => rw [List.map_cons, List.map_cons, List.sum_cons, List.sum_cons, ih, mul_add]

theorem zipWith_scaled {α β : Type} (a : ℝ) (f : α → β → ℝ) (l : List α) (l' : List β) :
    (List.zipWith (fun x y => a * f x y) l l').sum = a * (List.zipWith f l l').sum := by
  induction l generalizing l' with
  | nil => simp
  | cons x l ih =>
    cases l' with
    | nil => simp
    | cons y l' => rw [List.zipWith_cons_cons, List.zipWith_cons_cons, List.sum_cons, List.sum_cons, ih, mul_add]

theorem pointwise_dil (hs : 0 < s) (x y : List (Vec d)) :
    pointwiseLoss (x.map (scR s)) (y.map (scR s)) = (pointwiseLoss x y).map (s * ·) := by
  unfold pointwiseLoss
  rw [List.length_map, List.length_map]
  split
  · rw [List.zipWith_map]
    simp only [tdist_dil hs, zipWith_scaled, Except.map]
  · match x, y with
    | [], [] => rfl
    | [], [b] => simp [Except.map]
    | [], _ :: _ :: _ => rfl
    | [a], y => simp only [List.map_cons, List.map_nil, List.map_map, Function.comp_def, tdist_dil hs, sum_scaled, Except.map]
    | _ :: _ :: _, [] => rfl
    | _ :: _ :: _, [b] =>
      simp only [List.map_cons, List.map_nil, List.map_map, Function.comp_def, tdist_dil hs, sum_scaled, Except.map, List.sum_cons, mul_add]
    | _ :: _ :: _, _ :: _ :: _ => rfl

/-! ## Curves -/

theorem tnorm_dil (hs : 0 < s) (v : Vec d) : tnorm (scR s v) = s * tnorm v := by
  unfold tnorm scR
  rw [show ∑ c, (s * v c) ^ 2 = s ^ 2 * ∑ c, v c ^ 2 by rw [Finset.mul_sum]; exact Finset.sum_congr rfl fun c _ => by ring,
    Real.sqrt_mul (sq_nonneg s), Real.sqrt_sq hs.le]

theorem dot_dil (a : ℝ) (u v : Vec d) : ∑ c, scR a u c * scR a v c = a ^ 2 * ∑ c, u c * v c := by
  unfold scR
  rw [Finset.mul_sum]
  exact Finset.sum_congr rfl fun c _ => by ring

def scAtom (s : ℝ) (p : Vec d × Vec d) : Vec d × Vec d := (scR s p.1, scR s p.2)

theorem atomKernel_dil (hs : 0 < s) (σ : ℝ) (p q : Vec d × Vec d) :
    Spec.atomKernel (s * σ) (scAtom s p) (scAtom s q) = s ^ 2 * Spec.atomKernel σ p q := by
  unfold Spec.atomKernel scAtom
  dsimp only
  rw [kXY_dil hs.ne', dot_dil, tnorm_dil hs, tnorm_dil hs,
    show kXY σ p.1 q.1 * (s ^ 2 * ∑ c, p.2 c * q.2 c) ^ 2 = s ^ 2 * (s ^ 2 * (kXY σ p.1 q.1 * (∑ c, p.2 c * q.2 c) ^ 2)) by ring,
    show s * tnorm p.2 * (s * tnorm q.2) = s ^ 2 * (tnorm p.2 * tnorm q.2) by ring, mul_div_assoc, mul_div_mul_left _ _ (pow_ne_zero 2 hs.ne')]

theorem curveSegments_dil (x : List (Vec 2)) : curveSegments (x.map (scR s)) = (curveSegments x).map (List.map (scAtom s)) := by
  cases x with
  | nil => rfl
  | cons a l =>
    have h1 : closeShape (a :: l) = .ok (a :: l ++ [a]) := rfl
    have h2 : closeShape ((a :: l).map (scR s)) = .ok ((a :: l ++ [a]).map (scR s)) := by rw [closeShape_map, h1]; rfl
    rw [curveSegments_eq h2, curveSegments_eq h1]
    simp only [Except.map]
    congr 1
    unfold Spec.curveAtoms
    rw [edges_map, List.map_map, List.map_map]
    refine List.map_congr_left fun e _ => ?_
    simp only [Function.comp_apply, scAtom, Prod.mk.injEq]
    constructor
    · funext c
      simp only [scR]
      ring
    · funext c
      simp only [scR, Pi.sub_apply]
      ring

theorem dotVarifold_dil (hs : 0 < s) (σ : ℝ) (x y : List (Vec 2)) :
    dotVarifold (s * σ) (x.map (scR s)) (y.map (scR s)) = (dotVarifold σ x y).map (s ^ 2 * ·) := by
  unfold dotVarifold
  rw [curveSegments_dil, curveSegments_dil]
  cases curveSegments x with
  | error e => rfl
  | ok a =>
    cases curveSegments y with
    | error e => rfl
    | ok b =>
      simp only [bind, Except.bind, Except.map, pure, Except.pure, List.map_map, Function.comp_def, dotTerm_eq]
      simp only [atomKernel_dil hs, sum_scaled]

theorem cost2_dil (hs : 0 < s) (σ : ℝ) (x y : List (Vec 2)) :
    costVarifold2 (x.map (scR s)) (y.map (scR s)) (s * σ) = (costVarifold2 x y σ).map (s ^ 2 * ·) := by
  unfold costVarifold2
  rw [dotVarifold_dil hs, dotVarifold_dil hs, dotVarifold_dil hs]
  by_cases h : σ = 0
  · rw [if_pos h, if_pos (by rw [h, mul_zero])]; rfl
  · rw [if_neg h, if_neg (mul_ne_zero hs.ne' h)]
    cases dotVarifold σ x x with
    | error e => rfl
    | ok a =>
      cases dotVarifold σ y y with
      | error e => rfl
      | ok b =>
        cases dotVarifold σ x y with
        | error e => rfl
        | ok c =>
          simp only [Except.map, bind, Except.bind, pure, Except.pure, Except.ok.injEq]
          ring

theorem nsum_scaled (a : ℝ) (l : List (Option ℝ)) : nsum (l.map (Option.map (a * ·))) = (nsum l).map (a * ·) := by
  induction l with
  | nil => simp [nsum]
  | cons x l ih =>
    rw [List.map_cons, nsum, nsum, ih]
    cases x <;> cases nsum l <;> simp [nadd, mul_add]

theorem loss_dil {k : VarifoldClass} {a : ℝ} {x y x' y' : VShape} (h : ∀ σ, k.cost x' y' (s * σ) = (k.cost x y σ).map (Option.map (a * ·)))
    (sigmas : List ℝ) : k.loss (sigmas.map (s * ·)) x' y' = (k.loss sigmas x y).map (Option.map (a * ·)) := by
  unfold VarifoldClass.loss
  rw [mapM_except (f := k.cost x y) (f' := k.cost x' y') (s * ·) (Option.map (a * ·)) h]
  cases sigmas.mapM (k.cost x y) with
  | error e => rfl
  | ok l =>
    show Except.ok _ = Except.ok _
    rw [nsum_scaled]

theorem curveLoss_dil (hs : 0 < s) (sigmas : List ℝ) (x y : List (Vec 2)) :
    (VarifoldClass.d2 .torch).loss (sigmas.map (s * ·)) (.curve (x.map (scR s))) (.curve (y.map (scR s)))
      = ((VarifoldClass.d2 .torch).loss sigmas (.curve x) (.curve y)).map (Option.map (s ^ 2 * ·)) := by
  refine loss_dil (fun σ => ?_) sigmas
  show (do return some (← costVarifold2 (x.map (scR s)) (y.map (scR s)) (s * σ))) = (do return some (← costVarifold2 x y σ) : Py (Option ℝ)).map _
  rw [cost2_dil hs]
  cases costVarifold2 x y σ <;> rfl

/-! ## Meshes -/

def scTri (s : ℝ) (t : Tri) : Tri := (scR s t.1, scR s t.2.1, scR s t.2.2)
def scRow (s : ℝ) (r : Vec 3 × Vec 3 × ℝ) : Vec 3 × Vec 3 × ℝ := (scR s r.1, scR (s ^ 2) r.2.1, s ^ 2 * r.2.2)

theorem relDiff_scR (a b : Vec 3) (c : Fin 3) : relDiff (scR s a) (scR s b) c = s * relDiff a b c := by
  unfold relDiff scR; ring

theorem faceNormal_dil (a b c : Vec 3) : faceNormal (scR s a) (scR s b) (scR s c) = scR (s ^ 2) (faceNormal a b c) := by
  funext i
  unfold faceNormal cross3
  simp only [relDiff_scR]
  unfold scR
  fin_cases i <;> simp <;> ring

theorem faceNormals_dil (ts : List Tri) : faceNormals (ts.map (scTri s)) = (faceNormals ts).map (scR (s ^ 2)) := by
  have other : ∀ l : List Tri, (l.map (scTri s)).map (fun t => faceNormal t.1 t.2.1 t.2.2) = (l.map fun t => faceNormal t.1 t.2.1 t.2.2).map (scR (s ^ 2)) := fun l => by
    rw [List.map_map, List.map_map]
    exact List.map_congr_left fun t _ => faceNormal_dil _ _ _
  by_cases h3 : ts.length = 3
  · match ts, h3 with
    | [t0, t1, t2], _ =>
      simp only [List.map_cons, List.map_nil, faceNormals, scTri, relDiff_scR]
      congr 1
      · funext c; simp only [scR]; ring
      congr 1
      · funext c; simp only [scR]; ring
      congr 1
      funext c; simp only [scR]; ring
  · rw [faceNormals_of_ne h3, faceNormals_of_ne (by rwa [List.length_map])]
    exact other ts

theorem faceRow_dil (t : Tri) (n : Vec 3) : faceRow (scTri s t) (scR (s ^ 2) n) = scRow s (faceRow t n) := by
  unfold faceRow scRow scTri
  dsimp only
  congr 1
  · funext c; simp only [faceCenter, scR]; ring
  congr 1
  unfold scR
  rw [show ∑ c, (s ^ 2 * n c) ^ 2 = (s ^ 2) ^ 2 * ∑ c, n c ^ 2 by rw [Finset.mul_sum]; exact Finset.sum_congr rfl fun c _ => by ring,
    Real.sqrt_mul (sq_nonneg _), Real.sqrt_sq (sq_nonneg s)]

theorem selectFace_dil (V : List (Vec 3)) (f : Nat × Nat × Nat) : selectFace (V.map (scR s)) f = (selectFace V f).map (scTri s) := by
  unfold selectFace
  rw [List.getElem?_map, List.getElem?_map, List.getElem?_map]
  cases V[f.1]? <;> cases V[f.2.1]? <;> cases V[f.2.2]? <;> rfl

theorem cnl_dil (V : List (Vec 3)) (F : List (Nat × Nat × Nat)) :
    centersNormalsLengths (V.map (scR s)) F = (centersNormalsLengths V F).map (List.map (scRow s)) := by
  unfold centersNormalsLengths
  have := mapM_except (f := selectFace V) (f' := selectFace (V.map (scR s))) id (scTri s) (selectFace_dil V) F
  rw [List.map_id] at this
  rw [this]
  cases F.mapM (selectFace V) with
  | error e => rfl
  | ok ts =>
    show Except.ok _ = Except.ok _
    rw [faceNormals_dil, List.zipWith_map, List.map_zipWith]
    simp only [faceRow_dil]

theorem vterm_dil (hs : 0 < s) (σ : ℝ) (r q : Vec 3 × Vec 3 × ℝ) :
    vterm (s * σ) (VFace.ofRow (scRow s r)) (VFace.ofRow (scRow s q)) = (vterm σ (VFace.ofRow r) (VFace.ofRow q)).map (s ^ 4 * ·) := by
  have h2 : s ^ 2 ≠ 0 := pow_ne_zero 2 hs.ne'
  unfold vterm VFace.ofRow scRow
  dsimp only
  by_cases hr : r.2.2 = 0
  · rw [if_pos hr, if_pos (by rw [hr, mul_zero])]; rfl
  · by_cases hq : q.2.2 = 0
    · rw [if_neg hr, if_neg (mul_ne_zero h2 hr), if_pos hq, if_pos (by rw [hq, mul_zero])]; rfl
    · rw [if_neg hr, if_neg (mul_ne_zero h2 hr), if_neg hq, if_neg (mul_ne_zero h2 hq)]
      dsimp only
      rw [kXY_dil hs.ne']
      have hd : ∀ (v : Vec 3) (l : ℝ) (c : Fin 3), scR (s ^ 2) v c / (s ^ 2 * l) = v c / l := fun v l c => by
        unfold scR; rw [mul_div_mul_left _ _ h2]
      simp only [hd, Option.map_some, Option.some.injEq]
      ring

theorem vproduct_dil (hs : 0 < s) (σ : ℝ) (R Q : List (Vec 3 × Vec 3 × ℝ)) :
    vproduct (s * σ) ((R.map (scRow s)).map VFace.ofRow) ((Q.map (scRow s)).map VFace.ofRow)
      = (vproduct σ (R.map VFace.ofRow) (Q.map VFace.ofRow)).map (s ^ 4 * ·) := by
  unfold vproduct
  rw [← nsum_scaled]
  simp only [List.map_map, Function.comp_def, vterm_dil hs, ← nsum_scaled]

theorem cost3_dil (hs : 0 < s) (σ : ℝ) (m n : Mesh) :
    costVarifold3 vproduct (m.1.map (scR s), m.2) (n.1.map (scR s), n.2) (s * σ) = (costVarifold3 vproduct m n σ).map (Option.map (s ^ 4 * ·)) := by
  unfold costVarifold3
  by_cases h : σ = 0
  · rw [if_pos h, if_pos (by rw [h, mul_zero])]; rfl
  · rw [if_neg h, if_neg (mul_ne_zero hs.ne' h), cnl_dil, cnl_dil]
    cases centersNormalsLengths m.1 m.2 with
    | error e => rfl
    | ok R =>
      cases centersNormalsLengths n.1 n.2 with
      | error e => rfl
      | ok Q =>
        simp only [Except.map, bind, Except.bind, pure, Except.pure, vproduct_dil hs, Except.ok.injEq]
        cases vproduct σ (Q.map VFace.ofRow) (Q.map VFace.ofRow) <;> cases vproduct σ (R.map VFace.ofRow) (R.map VFace.ofRow) <;>
          cases vproduct σ (R.map VFace.ofRow) (Q.map VFace.ofRow) <;> simp [ncombine]
        ring

theorem meshLoss_dil (hs : 0 < s) (r : Reduction) (sigmas : List ℝ) (m n : Mesh) :
    (VarifoldClass.d3 r).loss (sigmas.map (s * ·)) (.mesh (m.1.map (scR s), m.2)) (.mesh (n.1.map (scR s), n.2))
      = ((VarifoldClass.d3 r).loss sigmas (.mesh m) (.mesh n)).map (Option.map (s ^ 4 * ·)) := by
  have key : ∀ (sigmas : List ℝ) (m n : Mesh), (VarifoldClass.d3 r).loss sigmas (.mesh m) (.mesh n) = (VarifoldClass.d3 .torch).loss sigmas (.mesh m) (.mesh n) :=
    fun sigmas m n => by
      cases r
      · rfl
      · exact C61_backends sigmas m n
  rw [key, key]
  refine loss_dil (fun σ => ?_) sigmas
  exact cost3_dil hs σ m n

end
end Imodal
