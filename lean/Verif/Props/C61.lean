import Verif.Lemmas.Varifold
import Verif.Props.C54
import Verif.Props.C57
import Verif.Props.C67
/-!
# C61: the varifold attachment
-/
set_option autoImplicit false
namespace Imodal
noncomputable section

/-! ## Sums with NaN -/

theorem nsum_some {α : Type} (f : α → ℝ) : ∀ l : List α, nsum (l.map fun a => some (f a)) = some (l.map f).sum
  | [] => rfl
  | a :: l => by rw [List.map_cons, nsum, nsum_some f l]; rfl

theorem nsum_none : ∀ l : List (Option ℝ), none ∈ l → nsum l = none
  | [], h => by simp at h
  | none :: l, _ => by rw [nsum]; cases nsum l <;> rfl
  | some a :: l, h => by
    rw [nsum, nsum_none l (by simpa using h)]; rfl

theorem nsum_congr {l : List (Option ℝ)} : ∀ {m : List (Option ℝ)}, l = m → nsum l = nsum m := fun h => h ▸ rfl

/-! ## From costs to the loss -/

theorem mapM_congr_py {α β : Type} {f g : α → Py β} : ∀ (l : List α), (∀ a ∈ l, f a = g a) → l.mapM f = l.mapM g
  | [], _ => rfl
  | a :: l, h => by rw [List.mapM_cons, List.mapM_cons, h a (by simp), mapM_congr_py l fun b hb => h b (by simp [hb])]

theorem loss_congr {k k' : VarifoldClass} {sigmas : List ℝ} {a b a' b' : VShape} (h : ∀ σ ∈ sigmas, k.cost a b σ = k'.cost a' b' σ) :
    k.loss sigmas a b = k'.loss sigmas a' b' := by
  unfold VarifoldClass.loss; rw [mapM_congr_py sigmas h]

theorem loss_values {k : VarifoldClass} {sigmas : List ℝ} {a b : VShape} (v : ℝ → ℝ) (h : ∀ σ ∈ sigmas, k.cost a b σ = .ok (some (v σ))) :
    k.loss sigmas a b = .ok (some (sigmas.map v).sum) := by
  unfold VarifoldClass.loss
  rw [mapM_ok _ (fun σ => some (v σ)) sigmas h]
  simp only [bind, Except.bind, pure, Except.pure, nsum_some]

theorem loss_nan {k : VarifoldClass} {sigmas : List ℝ} {a b : VShape} (hne : sigmas ≠ []) (h : ∀ σ ∈ sigmas, k.cost a b σ = .ok none) :
    k.loss sigmas a b = .ok none := by
  unfold VarifoldClass.loss
  rw [mapM_ok _ (fun _ => none) sigmas h]
  simp only [bind, Except.bind, pure, Except.pure]
  rw [nsum_none]
  cases sigmas with
  | nil => exact absurd rfl hne
  | cons a l => simp

/-! ## Curves -/

/-- The atoms of a closed curve. -/
def Spec.curveAtoms (closed : List (Vec 2)) : List (Vec 2 × Vec 2) :=
  (edges closed).map fun e => (fun c => (e.1 c + e.2 c) / 2, e.2 - e.1)

theorem zipWith_edges {β γ : Type} (f : β → β → γ) : ∀ (a : β) (l : List β) (z : β), List.zipWith (fun b a => f b a) (l ++ [z]) (a :: l) =
    (edges (a :: l ++ [z])).map fun e => f e.2 e.1
  | a, [], z => rfl
  | a, b :: l, z => by
    have := zipWith_edges f b l z
    simp only [List.cons_append] at this
    simp only [List.cons_append, List.zipWith_cons_cons, edges, List.map_cons]
    rw [this]

theorem curveSegments_eq {x c : List (Vec 2)} (h : closeShape x = .ok c) : curveSegments x = .ok (Spec.curveAtoms c) := by
  obtain ⟨a, l, rfl, rfl⟩ := closeShape_ok h
  unfold curveSegments
  rw [h]
  simp only [bind, Except.bind, pure, Except.pure, List.cons_append, List.drop_succ_cons, List.drop_zero]
  congr 1
  rw [List.take_of_length_le (by simp), zipWith_edges (fun b a => ((fun c => (b c + a c) / 2, fun c => b c - a c) : Vec 2 × Vec 2)) a l a]
  unfold Spec.curveAtoms
  refine List.map_congr_left fun e _ => ?_
  simp only [Prod.mk.injEq]
  exact ⟨by funext c; ring, rfl⟩

theorem dotTerm_eq (σ : ℝ) (p q : Vec 2 × Vec 2) : dotTerm σ p q = Spec.atomKernel σ p q := by
  unfold dotTerm Spec.atomKernel
  have hk : Real.exp (-(∑ c, p.1 c * p.1 c + ∑ c, q.1 c * q.1 c - 2 * ∑ c, p.1 c * q.1 c) / (2 * σ ^ 2)) = kXY σ p.1 q.1 := by
    unfold kXY
    congr 1
    have : ∑ c, p.1 c * p.1 c + ∑ c, q.1 c * q.1 c - 2 * ∑ c, p.1 c * q.1 c = sqDistance p.1 q.1 := by
      unfold sqDistance
      rw [Finset.mul_sum, ← Finset.sum_add_distrib, ← Finset.sum_sub_distrib]
      exact Finset.sum_congr rfl fun c _ => by ring
    rw [this, mul_comm 2, ← div_div]
    ring
  simp only [hk]
  split_ifs with h
  · rfl
  · have h0 : (∑ c, p.2 c * q.2 c) ^ 2 = 0 := le_antisymm (not_lt.1 h) (sq_nonneg _)
    rw [h0]; simp

theorem costVarifold2_eq {x y cx cy : List (Vec 2)} (hx : closeShape x = .ok cx) (hy : closeShape y = .ok cy) {σ : ℝ} (hσ : σ ≠ 0) :
    costVarifold2 x y σ = .ok (Spec.vdist σ (Spec.curveAtoms cx) (Spec.curveAtoms cy)) := by
  unfold costVarifold2 dotVarifold
  rw [if_neg hσ, curveSegments_eq hx, curveSegments_eq hy]
  simp only [bind, Except.bind, pure, Except.pure, dotTerm_eq]
  rfl

theorem closeShape_ne {β : Type} {x : List β} (h : x ≠ []) : ∃ c, closeShape x = .ok c := by
  cases x with
  | nil => exact absurd rfl h
  | cons a l => exact ⟨_, rfl⟩

theorem curveAtoms_perm {c c' : List (Vec 2)} (h : (edges c).Perm (edges c')) : Spec.SameVarifold (Spec.curveAtoms c) (Spec.curveAtoms c') :=
  ⟨_, h.map _, List.forall₂_same.2 fun _ _ => ⟨rfl, .inl rfl⟩⟩

theorem curveAtoms_reverse (c : List (Vec 2)) : Spec.SameVarifold (Spec.curveAtoms c) (Spec.curveAtoms c.reverse) := by
  refine ⟨(Spec.curveAtoms c).reverse, (List.reverse_perm _).symm, ?_⟩
  unfold Spec.curveAtoms
  rw [edges_reverse, ← List.map_reverse, ← List.map_reverse, List.map_map, List.forall₂_map_left_iff, List.forall₂_map_right_iff]
  refine List.forall₂_same.2 fun e _ => ⟨?_, .inr ?_⟩
  · funext c
    show (e.1 c + e.2 c) / 2 = (e.2 c + e.1 c) / 2
    ring
  · show e.2 - e.1 = -(e.1 - e.2)
    rw [neg_sub]

theorem vdist_trans {σ : ℝ} {d : Nat} {A A' A'' B : List (Vec d × Vec d)} (h : Spec.SameVarifold A A') (h' : Spec.SameVarifold A' A'') :
    Spec.vdist σ A B = Spec.vdist σ A'' B := by rw [vdist_same_left h, vdist_same_left h']

theorem cost2_rotate (u v y : List (Vec 2)) (h : u ++ v ≠ []) (hy : y ≠ []) {σ : ℝ} (hσ : σ ≠ 0) : costVarifold2 (u ++ v) y σ = costVarifold2 (v ++ u) y σ := by
  obtain ⟨c, hc⟩ := closeShape_ne h
  obtain ⟨c', hc'⟩ := closeShape_ne (x := v ++ u) (by simpa [and_comm] using h)
  obtain ⟨cy, hcy⟩ := closeShape_ne hy
  rw [costVarifold2_eq hc hcy hσ, costVarifold2_eq hc' hcy hσ, vdist_same_left (curveAtoms_perm (close_swap_perm hc hc'))]

theorem cost2_reverse (x y : List (Vec 2)) (hx : x ≠ []) (hy : y ≠ []) {σ : ℝ} (hσ : σ ≠ 0) : costVarifold2 x.reverse y σ = costVarifold2 x y σ := by
  obtain ⟨cy, hcy⟩ := closeShape_ne hy
  match x, hx with
  | a :: l, _ =>
    have e : (a :: l).reverse = l.reverse ++ [a] := by simp
    rw [e, cost2_rotate _ _ y (by simp) hy hσ]
    have h1 : closeShape ([a] ++ l.reverse) = .ok (a :: l ++ [a]).reverse := by simp [closeShape]
    have h2 : closeShape (a :: l) = .ok (a :: l ++ [a]) := rfl
    rw [costVarifold2_eq h1 hcy hσ, costVarifold2_eq h2 hcy hσ, vdist_same_left (curveAtoms_reverse (a :: l ++ [a]))]

theorem cost2_comm (x y : List (Vec 2)) (hx : x ≠ []) (hy : y ≠ []) {σ : ℝ} (hσ : σ ≠ 0) : costVarifold2 x y σ = costVarifold2 y x σ := by
  obtain ⟨cx, hcx⟩ := closeShape_ne hx
  obtain ⟨cy, hcy⟩ := closeShape_ne hy
  rw [costVarifold2_eq hcx hcy hσ, costVarifold2_eq hcy hcx hσ, vdist_comm]

theorem cost2_translate (x y : List (Vec 2)) (hx : x ≠ []) (hy : y ≠ []) (t : Vec 2) {σ : ℝ} (hσ : σ ≠ 0) :
    costVarifold2 (x.map (· + t)) (y.map (· + t)) σ = costVarifold2 x y σ := by
  obtain ⟨cx, hcx⟩ := closeShape_ne hx
  obtain ⟨cy, hcy⟩ := closeShape_ne hy
  have hm : ∀ {s c : List (Vec 2)}, closeShape s = .ok c → closeShape (s.map (· + t)) = .ok (c.map (· + t)) := by
    intro s c h
    obtain ⟨a, l, rfl, rfl⟩ := closeShape_ok h
    simp [closeShape]
  have ha : ∀ c : List (Vec 2), Spec.curveAtoms (c.map (· + t)) = (Spec.curveAtoms c).map fun p => (p.1 + t, p.2) := by
    intro c
    unfold Spec.curveAtoms
    rw [edges_map, List.map_map, List.map_map]
    refine List.map_congr_left fun e _ => ?_
    simp only [Function.comp_apply, Prod.mk.injEq]
    refine ⟨?_, by abel⟩
    funext c
    simp only [Pi.add_apply]
    ring
  rw [costVarifold2_eq (hm hcx) (hm hcy) hσ, costVarifold2_eq hcx hcy hσ, ha, ha, vdist_translate]

/-- The two-dimensional attachment: a number that is non-negative, symmetric, zero for equal
curves, unchanged by reversing a curve, by starting it at another of its points, and by
translating both curves. -/
theorem C61_curves (sigmas : List ℝ) (hσ : ∀ σ ∈ sigmas, σ ≠ 0) (x y : List (Vec 2)) (hx : x ≠ []) (hy : y ≠ []) :
    (∃ r, (VarifoldClass.d2 .torch).loss sigmas (.curve x) (.curve y) = .ok (some r) ∧ 0 ≤ r) ∧
    (VarifoldClass.d2 .torch).loss sigmas (.curve x) (.curve y) = (VarifoldClass.d2 .torch).loss sigmas (.curve y) (.curve x) ∧
    (VarifoldClass.d2 .torch).loss sigmas (.curve x) (.curve x) = .ok (some 0) ∧
    (VarifoldClass.d2 .torch).loss sigmas (.curve x.reverse) (.curve y) = (VarifoldClass.d2 .torch).loss sigmas (.curve x) (.curve y) ∧
    (∀ n, (VarifoldClass.d2 .torch).loss sigmas (.curve (x.rotate n)) (.curve y) = (VarifoldClass.d2 .torch).loss sigmas (.curve x) (.curve y)) ∧
    ∀ t : Vec 2, (VarifoldClass.d2 .torch).loss sigmas (.curve (x.map (· + t))) (.curve (y.map (· + t))) =
      (VarifoldClass.d2 .torch).loss sigmas (.curve x) (.curve y) := by
  obtain ⟨cx, hcx⟩ := closeShape_ne hx
  obtain ⟨cy, hcy⟩ := closeShape_ne hy
  refine ⟨⟨_, loss_values (fun σ => Spec.vdist σ (Spec.curveAtoms cx) (Spec.curveAtoms cy)) fun σ h => ?_, ?_⟩, ?_, ?_, ?_, fun n => ?_, fun t => ?_⟩
  · show (do return some (← costVarifold2 x y σ)) = _
    rw [costVarifold2_eq hcx hcy (hσ σ h)]; rfl
  · refine List.sum_nonneg fun r hr => ?_
    obtain ⟨σ, _, rfl⟩ := List.mem_map.1 hr
    exact vdist_nonneg _ _ _
  · refine loss_congr fun σ h => ?_
    show (do return some (← costVarifold2 x y σ)) = (do return some (← costVarifold2 y x σ))
    rw [cost2_comm x y hx hy (hσ σ h)]
  · rw [loss_values (fun _ => 0) fun σ h => ?_]
    · simp
    · show (do return some (← costVarifold2 x x σ)) = _
      rw [costVarifold2_eq hcx hcx (hσ σ h), vdist_self]; rfl
  · refine loss_congr fun σ h => ?_
    show (do return some (← costVarifold2 x.reverse y σ)) = (do return some (← costVarifold2 x y σ))
    rw [cost2_reverse x y hx hy (hσ σ h)]
  · refine loss_congr fun σ h => ?_
    show (do return some (← costVarifold2 (x.rotate n) y σ)) = (do return some (← costVarifold2 x y σ))
    have hr : x.take (n % x.length) ++ x.drop (n % x.length) ≠ [] := by rw [List.take_append_drop]; exact hx
    have := cost2_rotate _ _ y hr hy (hσ σ h)
    rw [List.take_append_drop, ← List.rotate_eq_drop_append_take_mod] at this
    rw [this]
  · refine loss_congr fun σ h => ?_
    show (do return some (← costVarifold2 (x.map (· + t)) (y.map (· + t)) σ)) = (do return some (← costVarifold2 x y σ))
    rw [cost2_translate x y hx hy t (hσ σ h)]

/-! ## Meshes -/

/-- The faces of a mesh refer to its vertices. -/
def Spec.ValidMesh (m : Mesh) : Prop := ∀ f ∈ m.2, f.1 < m.1.length ∧ f.2.1 < m.1.length ∧ f.2.2 < m.1.length

/-- The triangle of a face. -/
def Spec.triangle (vertices : List (Vec 3)) (f : Nat × Nat × Nat) : Tri := (vertices.getD f.1 0, vertices.getD f.2.1 0, vertices.getD f.2.2 0)

theorem selectFace_eq {m : Mesh} (h : Spec.ValidMesh m) {f : Nat × Nat × Nat} (hf : f ∈ m.2) : selectFace m.1 f = .ok (Spec.triangle m.1 f) := by
  obtain ⟨h1, h2, h3⟩ := h f hf
  simp [selectFace, Spec.triangle, h1, h2, h3]

/-- The rows of a list of triangles. -/
def meshRows (ts : List Tri) : List (Vec 3 × Vec 3 × ℝ) := List.zipWith faceRow ts (faceNormals ts)

theorem cnl_eq {m : Mesh} (h : Spec.ValidMesh m) : centersNormalsLengths m.1 m.2 = .ok (meshRows (m.2.map (Spec.triangle m.1))) := by
  unfold centersNormalsLengths
  rw [mapM_ok _ (Spec.triangle m.1) m.2 fun f hf => selectFace_eq h hf]
  rfl

theorem meshRows_length (ts : List Tri) {r : Vec 3 × Vec 3 × ℝ} (hr : r ∈ meshRows ts) : r.2.2 = tnorm r.2.1 := by
  unfold meshRows at hr
  rw [List.mem_iff_getElem] at hr
  obtain ⟨i, hi, rfl⟩ := hr
  rw [List.getElem_zipWith]
  rfl

/-- The atoms of computed rows. -/
def rowAtoms (R : List (Vec 3 × Vec 3 × ℝ)) : List (Vec 3 × Vec 3) := R.map fun r => (r.1, r.2.1)

theorem vterm_ofRow {σ : ℝ} {r s : Vec 3 × Vec 3 × ℝ} (hr : r.2.2 = tnorm r.2.1) (hs : s.2.2 = tnorm s.2.1) (hr0 : r.2.2 ≠ 0) (hs0 : s.2.2 ≠ 0) :
    vterm σ (VFace.ofRow r) (VFace.ofRow s) = some (Spec.atomKernel σ (r.1, r.2.1) (s.1, s.2.1)) := by
  simp only [vterm, VFace.ofRow, if_neg hr0, if_neg hs0, Spec.atomKernel, ← hr, ← hs]
  congr 1
  have : ∑ c, r.2.1 c / r.2.2 * (s.2.1 c / s.2.2) = (∑ c, r.2.1 c * s.2.1 c) / (r.2.2 * s.2.2) := by
    rw [Finset.sum_div]
    exact Finset.sum_congr rfl fun c _ => by rw [div_mul_div_comm]
  rw [this]
  field_simp

theorem vproduct_some {σ : ℝ} {R S : List (Vec 3 × Vec 3 × ℝ)} (hR : ∀ r ∈ R, r.2.2 = tnorm r.2.1 ∧ r.2.2 ≠ 0) (hS : ∀ r ∈ S, r.2.2 = tnorm r.2.1 ∧ r.2.2 ≠ 0) :
    vproduct σ (R.map VFace.ofRow) (S.map VFace.ofRow) = some (Spec.vinner σ (rowAtoms R) (rowAtoms S)) := by
  unfold vproduct Spec.vinner rowAtoms
  simp only [List.map_map, Function.comp_def]
  rw [← nsum_some]
  refine nsum_congr (List.map_congr_left fun r hr => ?_)
  rw [← nsum_some]
  refine nsum_congr (List.map_congr_left fun s hs => ?_)
  exact vterm_ofRow (hR r hr).1 (hS s hs).1 (hR r hr).2 (hS s hs).2

theorem vproduct_nan {σ : ℝ} {R : List (Vec 3 × Vec 3 × ℝ)} (h : ∃ r ∈ R, r.2.2 = 0) : vproduct σ (R.map VFace.ofRow) (R.map VFace.ofRow) = none := by
  obtain ⟨r, hr, h0⟩ := h
  unfold vproduct
  refine nsum_none _ (List.mem_map.2 ⟨VFace.ofRow r, List.mem_map_of_mem hr, nsum_none _ (List.mem_map.2 ⟨VFace.ofRow r, List.mem_map_of_mem hr, ?_⟩)⟩)
  simp [vterm, VFace.ofRow, h0]

/-- No computed length is zero. -/
def Spec.Proper (m : Mesh) : Prop := ∀ r ∈ meshRows (m.2.map (Spec.triangle m.1)), r.2.2 ≠ 0

/-- The atoms that the code computes from a mesh. -/
def meshAtoms (m : Mesh) : List (Vec 3 × Vec 3) := rowAtoms (meshRows (m.2.map (Spec.triangle m.1)))

open Classical in
theorem costVarifold3_eq {m n : Mesh} (hm : Spec.ValidMesh m) (hn : Spec.ValidMesh n) {σ : ℝ} (hσ : σ ≠ 0) :
    costVarifold3 vproduct m n σ = .ok (if Spec.Proper m ∧ Spec.Proper n then some (Spec.vdist σ (meshAtoms m) (meshAtoms n)) else none) := by
  unfold costVarifold3
  rw [if_neg hσ, cnl_eq hm, cnl_eq hn]
  simp only [bind, Except.bind, pure, Except.pure]
  congr 1
  by_cases h1 : Spec.Proper m
  · by_cases h2 : Spec.Proper n
    · rw [if_pos ⟨h1, h2⟩]
      have a1 : ∀ r ∈ meshRows (m.2.map (Spec.triangle m.1)), r.2.2 = tnorm r.2.1 ∧ r.2.2 ≠ 0 := fun r hr => ⟨meshRows_length _ hr, h1 r hr⟩
      have a2 : ∀ r ∈ meshRows (n.2.map (Spec.triangle n.1)), r.2.2 = tnorm r.2.1 ∧ r.2.2 ≠ 0 := fun r hr => ⟨meshRows_length _ hr, h2 r hr⟩
      rw [vproduct_some a1 a1, vproduct_some a2 a2, vproduct_some a1 a2]
      simp only [ncombine, Spec.vdist, meshAtoms]
      congr 1
      ring
    · rw [if_neg (fun h => h2 h.2), vproduct_nan (R := meshRows (n.2.map (Spec.triangle n.1))) (by unfold Spec.Proper at h2; push Not at h2; exact h2)]
      rfl
  · rw [if_neg (fun h => h1 h.1), vproduct_nan (R := meshRows (m.2.map (Spec.triangle m.1))) (by unfold Spec.Proper at h1; push Not at h1; exact h1)]
    unfold ncombine
    cases vproduct σ (List.map VFace.ofRow (meshRows (n.2.map (Spec.triangle n.1)))) (List.map VFace.ofRow (meshRows (n.2.map (Spec.triangle n.1)))) <;> rfl

theorem vtermKeOps_eq {σ : ℝ} (f g : VFace) : vtermKeOps σ f g = vterm σ f g := by
  unfold vtermKeOps vterm
  cases f.unit with
  | none => rfl
  | some u =>
    cases g.unit with
    | none => rfl
    | some v =>
      simp only [Option.some.injEq]
      rw [← sq]
      congr 3
      unfold kXY
      congr 1
      ring

/-- Both backends compute the same cost of triangulated surfaces. -/
theorem C61_backends (sigmas : List ℝ) (m n : Mesh) :
    (VarifoldClass.d3 .keops).loss sigmas (.mesh m) (.mesh n) = (VarifoldClass.d3 .torch).loss sigmas (.mesh m) (.mesh n) := by
  refine loss_congr fun σ _ => ?_
  show costVarifold3 vproductKeOps m n σ = costVarifold3 vproduct m n σ
  have : vproductKeOps = vproduct := by
    funext σ x y
    unfold vproductKeOps vproduct
    simp only [vtermKeOps_eq]
  rw [this]

/-- Rows that are the same up to order and orientation. -/
def SameRows (R S : List (Vec 3 × Vec 3 × ℝ)) : Prop := ∃ L, R.Perm L ∧ List.Forall₂ (fun r s => r.1 = s.1 ∧ (r.2.1 = s.2.1 ∨ r.2.1 = -s.2.1) ∧ r.2.2 = s.2.2) L S

theorem cost3_same {m m' n : Mesh} (hm : Spec.ValidMesh m) (hm' : Spec.ValidMesh m') (hn : Spec.ValidMesh n)
    (h : SameRows (meshRows (m.2.map (Spec.triangle m.1))) (meshRows (m'.2.map (Spec.triangle m'.1)))) {σ : ℝ} (hσ : σ ≠ 0) :
    costVarifold3 vproduct m n σ = costVarifold3 vproduct m' n σ := by
  obtain ⟨L, h1, h2⟩ := h
  have hp : Spec.Proper m ↔ Spec.Proper m' := by
    unfold Spec.Proper
    have e1 : (∀ r ∈ meshRows (m.2.map (Spec.triangle m.1)), r.2.2 ≠ 0) ↔ ∀ r ∈ L, r.2.2 ≠ 0 :=
      ⟨fun h r hr => h r (h1.mem_iff.2 hr), fun h r hr => h r (h1.mem_iff.1 hr)⟩
    rw [e1]
    generalize meshRows (m'.2.map (Spec.triangle m'.1)) = S at h2
    clear h1 e1
    induction h2 with
    | nil => simp
    | cons hr _ ih => simp only [List.forall_mem_cons, ih, hr.2.2]
  have hv : Spec.SameVarifold (meshAtoms m) (meshAtoms m') := by
    refine ⟨rowAtoms L, h1.map _, ?_⟩
    unfold meshAtoms rowAtoms
    rw [List.forall₂_map_left_iff, List.forall₂_map_right_iff]
    exact h2.imp fun r s h => ⟨h.1, h.2.1⟩
  rw [costVarifold3_eq hm hn hσ, costVarifold3_eq hm' hn hσ, vdist_same_left hv]
  by_cases h : Spec.Proper m ∧ Spec.Proper n
  · rw [if_pos h, if_pos ⟨hp.1 h.1, h.2⟩]
  · rw [if_neg h, if_neg fun h' => h ⟨hp.2 h'.1, h'.2⟩]

theorem faceNormals_of_ne {ts : List Tri} (h3 : ts.length ≠ 3) : faceNormals ts = ts.map fun t => faceNormal t.1 t.2.1 t.2.2 := by
  match ts, h3 with
  | [], _ => rfl
  | [_], _ => rfl
  | [_, _], _ => rfl
  | _ :: _ :: _ :: _ :: _, _ => rfl
  | [_, _, _], h => simp at h

theorem meshRows_map {ts : List Tri} (h3 : ts.length ≠ 3) : meshRows ts = ts.map fun t => faceRow t (faceNormal t.1 t.2.1 t.2.2) := by
  unfold meshRows
  rw [faceNormals_of_ne h3, List.zipWith_map_right, List.zipWith_self]

theorem faceRow_neg (t t' : Tri) (n : Vec 3) (hc : faceCenter t.1 t.2.1 t.2.2 = faceCenter t'.1 t'.2.1 t'.2.2) :
    (faceRow t n).1 = (faceRow t' (-n)).1 ∧ ((faceRow t n).2.1 = (faceRow t' (-n)).2.1 ∨ (faceRow t n).2.1 = -(faceRow t' (-n)).2.1) ∧
      (faceRow t n).2.2 = (faceRow t' (-n)).2.2 := by
  refine ⟨hc, .inr ?_, ?_⟩
  · simp [faceRow]
  · simp [faceRow]

theorem faceNormals_length : ∀ ts : List Tri, (faceNormals ts).length = ts.length
  | [] => rfl
  | [_] => rfl
  | [_, _] => rfl
  | [_, _, _] => rfl
  | _ :: _ :: _ :: _ :: _ => by simp [faceNormals]

/-- Reordering the triangles reorders the rows, up to orientation. -/
theorem meshRows_perm {ts ts' : List Tri} (h : ts.Perm ts') : SameRows (meshRows ts) (meshRows ts') := by
  by_cases h3 : ts.length = 3
  · match ts, h3 with
    | [a, b, c], _ =>
      have hmem := List.mem_permutations.2 h.symm
      have hall : ∀ (x y z : Vec 3 × Vec 3 × ℝ) (x' y' z' : Vec 3 × Vec 3 × ℝ) (L : List (Vec 3 × Vec 3 × ℝ)), [x, y, z].Perm L →
          List.Forall₂ (fun r s => r.1 = s.1 ∧ (r.2.1 = s.2.1 ∨ r.2.1 = -s.2.1) ∧ r.2.2 = s.2.2) L [x', y', z'] → SameRows [x, y, z] [x', y', z'] :=
        fun x y z x' y' z' L h1 h2 => ⟨L, h1, h2⟩
      have row : ∀ (t : Tri) (n n' : Vec 3), (n' = n ∨ n' = -n) →
          (faceRow t n).1 = (faceRow t n').1 ∧ ((faceRow t n).2.1 = (faceRow t n').2.1 ∨ (faceRow t n).2.1 = -(faceRow t n').2.1) ∧
          (faceRow t n).2.2 = (faceRow t n').2.2 := by
        intro t n n' h
        rcases h with rfl | rfl
        · exact ⟨rfl, .inl rfl, rfl⟩
        · exact faceRow_neg t t n rfl
      have hcases : ts' = [a, b, c] ∨ ts' = [b, a, c] ∨ ts' = [c, b, a] ∨ ts' = [b, c, a] ∨ ts' = [c, a, b] ∨ ts' = [a, c, b] := by
        simpa [List.permutations, List.permutationsAux, List.permutationsAux.rec, List.permutationsAux2] using hmem
      rcases hcases with rfl | rfl | rfl | rfl | rfl | rfl
      · exact ⟨_, .refl _, List.forall₂_same.2 fun _ _ => ⟨rfl, .inl rfl, rfl⟩⟩
      · refine ⟨_, List.Perm.swap _ _ _, .cons (row _ _ _ (.inr ?_)) (.cons (row _ _ _ (.inr ?_)) (.cons (row _ _ _ (.inr ?_)) .nil))⟩ <;>
          · funext k; simp only [Pi.neg_apply]; ring
      · refine ⟨_, (List.reverse_perm _).symm, .cons (row _ _ _ (.inr ?_)) (.cons (row _ _ _ (.inr ?_)) (.cons (row _ _ _ (.inr ?_)) .nil))⟩ <;>
          · funext k; simp only [Pi.neg_apply]; ring
      · refine ⟨_, (List.perm_append_comm (l₁ := [_]) (l₂ := [_, _])), .cons (row _ _ _ (.inl ?_)) (.cons (row _ _ _ (.inl ?_)) (.cons (row _ _ _ (.inl ?_)) .nil))⟩ <;>
          rfl
      · refine ⟨_, (List.perm_append_comm (l₁ := [_, _]) (l₂ := [_])), .cons (row _ _ _ (.inl ?_)) (.cons (row _ _ _ (.inl ?_)) (.cons (row _ _ _ (.inl ?_)) .nil))⟩ <;>
          rfl
      · refine ⟨_, (List.Perm.swap _ _ _).cons _, .cons (row _ _ _ (.inr ?_)) (.cons (row _ _ _ (.inr ?_)) (.cons (row _ _ _ (.inr ?_)) .nil))⟩ <;>
          · funext k; simp only [Pi.neg_apply]; ring
  · rw [meshRows_map h3, meshRows_map (by rwa [← h.length_eq])]
    exact ⟨_, h.map _, List.forall₂_same.2 fun _ _ => ⟨rfl, .inl rfl, rfl⟩⟩

/-- The triangle with its last two vertices exchanged. -/
def flipTri (t : Tri) : Tri := (t.1, t.2.2, t.2.1)

theorem faceNormal_flip (v0 v1 v2 : Vec 3) : faceNormal v0 v2 v1 = -faceNormal v0 v1 v2 := (C67_partial v0 v1 v2).2.2.2

theorem faceNormals_flip (ts : List Tri) : faceNormals (ts.map flipTri) = (faceNormals ts).map fun n => -n := by
  by_cases h3 : ts.length = 3
  · match ts, h3 with
    | [t0, t1, t2], _ =>
      simp only [faceNormals, List.map_cons, List.map_nil, flipTri, List.cons.injEq, and_true]
      refine ⟨?_, ?_, ?_⟩ <;> · funext c; simp only [Pi.neg_apply]; ring
  · rw [faceNormals_of_ne h3, faceNormals_of_ne (by simpa using h3), List.map_map, List.map_map]
    exact List.map_congr_left fun t _ => faceNormal_flip _ _ _

theorem faceCenter_flip (v0 v1 v2 : Vec 3) : faceCenter v0 v1 v2 = faceCenter v0 v2 v1 := by funext c; simp only [faceCenter]; ring

theorem meshRows_flip (ts : List Tri) : SameRows (meshRows ts) (meshRows (ts.map flipTri)) := by
  refine ⟨_, .refl _, ?_⟩
  unfold meshRows
  rw [faceNormals_flip]
  have hl := faceNormals_length ts
  generalize faceNormals ts = N at hl
  induction ts generalizing N with
  | nil => simp
  | cons t ts ih =>
    match N, hl with
    | n :: N, hl =>
      simp only [List.map_cons, List.zipWith_cons_cons]
      exact .cons (faceRow_neg t (flipTri t) n (faceCenter_flip _ _ _)) (ih N (by simpa using hl))

theorem shift_faceNormals (s : Vec 3) : ∀ ts : List Tri, faceNormals (ts.map fun t => (t.1 + s, t.2.1 + s, t.2.2 + s)) = faceNormals ts := by
  have hr : ∀ x y : Vec 3, relDiff (x + s) (y + s) = relDiff x y := fun x y => by funext c; simp [relDiff]
  intro ts
  by_cases h3 : ts.length = 3
  · match ts, h3 with
    | [_, _, _], _ => simp [faceNormals, hr]
  · rw [faceNormals_of_ne h3, faceNormals_of_ne (by simpa using h3), List.map_map]
    refine List.map_congr_left fun t _ => ?_
    simp only [Function.comp_apply]
    unfold faceNormal
    rw [hr, hr]

theorem meshRows_shift (s : Vec 3) (ts : List Tri) :
    meshRows (ts.map fun t => (t.1 + s, t.2.1 + s, t.2.2 + s)) = (meshRows ts).map fun r => (r.1 + (fun c => 3 / 2 * s c), r.2.1, r.2.2) := by
  unfold meshRows
  rw [shift_faceNormals, List.zipWith_map_left, List.map_zipWith]
  congr 1
  funext t n
  simp only [faceRow, C67_moves_disagreement, Prod.mk.injEq, and_true]
  rfl

theorem translate_triangles (s : Vec 3) {m : Mesh} (h : Spec.ValidMesh m) :
    m.2.map (Spec.triangle (m.1.map (· + s))) = (m.2.map (Spec.triangle m.1)).map fun t => (t.1 + s, t.2.1 + s, t.2.2 + s) := by
  rw [List.map_map]
  refine List.map_congr_left fun f hf => ?_
  obtain ⟨h1, h2, h3⟩ := h f hf
  simp [Spec.triangle, h1, h2, h3]

/-- A face with its vertices in another order. -/
def Spec.SameFace (f g : Nat × Nat × Nat) : Prop := [f.1, f.2.1, f.2.2].Perm [g.1, g.2.1, g.2.2]

theorem sameFace_rows (vertices : List (Vec 3)) {f g : Nat × Nat × Nat} (h : Spec.SameFace f g) :
    faceCenter (Spec.triangle vertices f).1 (Spec.triangle vertices f).2.1 (Spec.triangle vertices f).2.2 =
      faceCenter (Spec.triangle vertices g).1 (Spec.triangle vertices g).2.1 (Spec.triangle vertices g).2.2 ∧
    (faceNormal (Spec.triangle vertices g).1 (Spec.triangle vertices g).2.1 (Spec.triangle vertices g).2.2 =
        faceNormal (Spec.triangle vertices f).1 (Spec.triangle vertices f).2.1 (Spec.triangle vertices f).2.2 ∨
      faceNormal (Spec.triangle vertices g).1 (Spec.triangle vertices g).2.1 (Spec.triangle vertices g).2.2 =
        -faceNormal (Spec.triangle vertices f).1 (Spec.triangle vertices f).2.1 (Spec.triangle vertices f).2.2) := by
  obtain ⟨i, j, k⟩ := f
  obtain ⟨i', j', k'⟩ := g
  have hmem := List.mem_permutations.2 (show [i', j', k'].Perm [i, j, k] from h.symm)
  have hc : (i' = i ∧ j' = j ∧ k' = k) ∨ (i' = j ∧ j' = i ∧ k' = k) ∨ (i' = k ∧ j' = j ∧ k' = i) ∨ (i' = j ∧ j' = k ∧ k' = i) ∨
      (i' = k ∧ j' = i ∧ k' = j) ∨ (i' = i ∧ j' = k ∧ k' = j) := by
    simpa [List.permutations, List.permutationsAux, List.permutationsAux.rec, List.permutationsAux2] using hmem
  have hn : ∀ (u v w u' v' w' : Vec 3) (s : ℝ), (∀ c, faceNormal u' v' w' c = s * faceNormal u v w c) → (s = 1 ∨ s = -1) →
      faceNormal u' v' w' = faceNormal u v w ∨ faceNormal u' v' w' = -faceNormal u v w := by
    intro u v w u' v' w' s h hs
    rcases hs with rfl | rfl
    · exact .inl (funext fun c => by rw [h]; ring)
    · exact .inr (funext fun c => by rw [h]; simp)
  rcases hc with ⟨rfl, rfl, rfl⟩ | ⟨rfl, rfl, rfl⟩ | ⟨rfl, rfl, rfl⟩ | ⟨rfl, rfl, rfl⟩ | ⟨rfl, rfl, rfl⟩ | ⟨rfl, rfl, rfl⟩
  · exact ⟨rfl, .inl rfl⟩
  all_goals refine ⟨by funext c; simp only [faceCenter, Spec.triangle]; ring, ?_⟩
  · refine hn _ _ _ _ _ _ (-1) (fun c => ?_) (.inr rfl)
    fin_cases c <;> simp [faceNormal, cross3, relDiff, Spec.triangle] <;> (try left) <;> ring
  · refine hn _ _ _ _ _ _ (-1) (fun c => ?_) (.inr rfl)
    fin_cases c <;> simp [faceNormal, cross3, relDiff, Spec.triangle] <;> (try left) <;> ring
  · refine hn _ _ _ _ _ _ 1 (fun c => ?_) (.inl rfl)
    fin_cases c <;> simp [faceNormal, cross3, relDiff, Spec.triangle] <;> (try left) <;> ring
  · refine hn _ _ _ _ _ _ 1 (fun c => ?_) (.inl rfl)
    fin_cases c <;> simp [faceNormal, cross3, relDiff, Spec.triangle] <;> (try left) <;> ring
  · refine hn _ _ _ _ _ _ (-1) (fun c => ?_) (.inr rfl)
    fin_cases c <;> simp [faceNormal, cross3, relDiff, Spec.triangle] <;> (try left) <;> ring

/-- Orienting each face as one likes changes nothing, for meshes that do not have exactly three
faces. -/
theorem meshRows_sameFace (vertices : List (Vec 3)) {F G : List (Nat × Nat × Nat)} (h : List.Forall₂ Spec.SameFace F G) (h3 : F.length ≠ 3) :
    SameRows (meshRows (F.map (Spec.triangle vertices))) (meshRows (G.map (Spec.triangle vertices))) := by
  refine ⟨_, .refl _, ?_⟩
  rw [meshRows_map (by simpa using h3), meshRows_map (by rw [List.length_map, ← h.length_eq]; exact h3), List.map_map, List.map_map, List.forall₂_map_left_iff,
    List.forall₂_map_right_iff]
  refine h.imp fun f g hfg => ?_
  obtain ⟨hc, hn⟩ := sameFace_rows vertices hfg
  simp only [Function.comp_apply]
  rcases hn with e | e
  · rw [e]
    exact ⟨hc, .inl rfl, rfl⟩
  · rw [e]
    exact faceRow_neg _ _ _ hc

theorem validMesh_sameFace {vertices : List (Vec 3)} {F G : List (Nat × Nat × Nat)} (h : List.Forall₂ Spec.SameFace F G) (hv : Spec.ValidMesh (vertices, F)) :
    Spec.ValidMesh (vertices, G) := by
  unfold Spec.ValidMesh at *
  induction h with
  | nil => exact hv
  | cons hfg _ ih =>
    rename_i f g F G hFG
    simp only [List.forall_mem_cons] at hv ⊢
    refine ⟨?_, ih hv.2⟩
    have hm : ∀ i ∈ [g.1, g.2.1, g.2.2], i < vertices.length := by
      intro i hi
      have : i ∈ [f.1, f.2.1, f.2.2] := (show [f.1, f.2.1, f.2.2].Perm _ from hfg).mem_iff.2 hi
      simp only [List.mem_cons, List.not_mem_nil, or_false] at this
      rcases this with rfl | rfl | rfl
      · exact hv.1.1
      · exact hv.1.2.1
      · exact hv.1.2.2
    exact ⟨hm _ (by simp), hm _ (by simp), hm _ (by simp)⟩

/-- The three-dimensional attachment, for meshes whose faces refer to vertices and none of whose
computed lengths is zero: a number that is non-negative, and zero for equal meshes. -/
theorem C61_meshes (sigmas : List ℝ) (hσ : ∀ σ ∈ sigmas, σ ≠ 0) (m n : Mesh) (hm : Spec.ValidMesh m) (hn : Spec.ValidMesh n) (pm : Spec.Proper m) (pn : Spec.Proper n) :
    (∃ r, (VarifoldClass.d3 .torch).loss sigmas (.mesh m) (.mesh n) = .ok (some r) ∧ 0 ≤ r) ∧
    (VarifoldClass.d3 .torch).loss sigmas (.mesh m) (.mesh m) = .ok (some 0) := by
  refine ⟨⟨_, loss_values (fun σ => Spec.vdist σ (meshAtoms m) (meshAtoms n)) fun σ h => ?_, ?_⟩, ?_⟩
  · show costVarifold3 vproduct m n σ = _
    rw [costVarifold3_eq hm hn (hσ σ h), if_pos ⟨pm, pn⟩]
  · refine List.sum_nonneg fun r hr => ?_
    obtain ⟨σ, _, rfl⟩ := List.mem_map.1 hr
    exact vdist_nonneg _ _ _
  · rw [loss_values (fun _ => 0) fun σ h => ?_]
    · simp
    · show costVarifold3 vproduct m m σ = _
      rw [costVarifold3_eq hm hm (hσ σ h), if_pos ⟨pm, pm⟩, vdist_self]

/-- For all meshes whose faces refer to vertices: the attachment is symmetric, and unchanged by
reordering the faces, by reversing all faces, and by translating both meshes; if the mesh does
not have exactly three faces also by listing the vertices of each face in any order. -/
theorem C61_mesh_invariance (sigmas : List ℝ) (hσ : ∀ σ ∈ sigmas, σ ≠ 0) (vertices : List (Vec 3)) (F : List (Nat × Nat × Nat)) (n : Mesh)
    (hm : Spec.ValidMesh (vertices, F)) (hn : Spec.ValidMesh n) :
    (VarifoldClass.d3 .torch).loss sigmas (.mesh (vertices, F)) (.mesh n) = (VarifoldClass.d3 .torch).loss sigmas (.mesh n) (.mesh (vertices, F)) ∧
    (∀ G, F.Perm G → (VarifoldClass.d3 .torch).loss sigmas (.mesh (vertices, G)) (.mesh n) = (VarifoldClass.d3 .torch).loss sigmas (.mesh (vertices, F)) (.mesh n)) ∧
    (VarifoldClass.d3 .torch).loss sigmas (.mesh (vertices, F.map fun f => (f.1, f.2.2, f.2.1))) (.mesh n) =
      (VarifoldClass.d3 .torch).loss sigmas (.mesh (vertices, F)) (.mesh n) ∧
    (∀ t : Vec 3, (VarifoldClass.d3 .torch).loss sigmas (.mesh (vertices.map (· + t), F)) (.mesh (n.1.map (· + t), n.2)) =
      (VarifoldClass.d3 .torch).loss sigmas (.mesh (vertices, F)) (.mesh n)) ∧
    (F.length ≠ 3 → ∀ G, List.Forall₂ Spec.SameFace F G →
      (VarifoldClass.d3 .torch).loss sigmas (.mesh (vertices, G)) (.mesh n) = (VarifoldClass.d3 .torch).loss sigmas (.mesh (vertices, F)) (.mesh n)) := by
  refine ⟨loss_congr fun σ h => ?_, fun G hG => loss_congr fun σ h => ?_, loss_congr fun σ h => ?_, fun t => loss_congr fun σ h => ?_,
    fun h3 G hG => loss_congr fun σ h => ?_⟩
  · show costVarifold3 vproduct (vertices, F) n σ = costVarifold3 vproduct n (vertices, F) σ
    rw [costVarifold3_eq hm hn (hσ σ h), costVarifold3_eq hn hm (hσ σ h), vdist_comm]
    by_cases hp : Spec.Proper (vertices, F) ∧ Spec.Proper n
    · rw [if_pos hp, if_pos hp.symm]
    · rw [if_neg hp, if_neg fun h' => hp h'.symm]
  · show costVarifold3 vproduct (vertices, G) n σ = costVarifold3 vproduct (vertices, F) n σ
    exact (cost3_same (m' := (vertices, G)) hm (fun f hf => hm f (hG.mem_iff.2 hf)) hn (meshRows_perm (hG.map _)) (hσ σ h)).symm
  · show costVarifold3 vproduct (vertices, F.map fun f => (f.1, f.2.2, f.2.1)) n σ = costVarifold3 vproduct (vertices, F) n σ
    refine (cost3_same hm ?_ hn ?_ (hσ σ h)).symm
    · intro f hf
      obtain ⟨g, hg, rfl⟩ := List.mem_map.1 hf
      obtain ⟨a, b, c⟩ := hm g hg
      exact ⟨a, c, b⟩
    · have := meshRows_flip (F.map (Spec.triangle vertices))
      rw [List.map_map] at this ⊢
      exact this
  · show costVarifold3 vproduct (vertices.map (· + t), F) (n.1.map (· + t), n.2) σ = costVarifold3 vproduct (vertices, F) n σ
    have hv : ∀ {p : Mesh}, Spec.ValidMesh p → Spec.ValidMesh (p.1.map (· + t), p.2) := fun hp f hf => by simpa using hp f hf
    have hr : ∀ {p : Mesh}, Spec.ValidMesh p → meshRows ((p.1.map (· + t), p.2).2.map (Spec.triangle (p.1.map (· + t), p.2).1)) =
        (meshRows (p.2.map (Spec.triangle p.1))).map fun r => (r.1 + (fun c => 3 / 2 * t c), r.2.1, r.2.2) := by
      intro p hp
      rw [← meshRows_shift, ← translate_triangles t hp]
    have hp : ∀ {p : Mesh}, Spec.ValidMesh p → (Spec.Proper (p.1.map (· + t), p.2) ↔ Spec.Proper p) := by
      intro p hp
      unfold Spec.Proper
      rw [hr hp]
      simp only [List.forall_mem_map]
    have ha : ∀ {p : Mesh}, Spec.ValidMesh p → meshAtoms (p.1.map (· + t), p.2) = (meshAtoms p).map fun q => (q.1 + (fun c => 3 / 2 * t c), q.2) := by
      intro p hp
      unfold meshAtoms
      rw [hr hp]
      simp only [rowAtoms, List.map_map, Function.comp_def]
    rw [costVarifold3_eq (hv hm) (hv hn) (hσ σ h), costVarifold3_eq hm hn (hσ σ h), ha hm, ha hn, vdist_translate]
    by_cases hq : Spec.Proper (vertices, F) ∧ Spec.Proper n
    · rw [if_pos hq, if_pos ⟨(hp hm).2 hq.1, (hp hn).2 hq.2⟩]
    · rw [if_neg hq, if_neg fun h' => hq ⟨(hp hm).1 h'.1, (hp hn).1 h'.2⟩]
  · show costVarifold3 vproduct (vertices, G) n σ = costVarifold3 vproduct (vertices, F) n σ
    exact (cost3_same hm (validMesh_sameFace hG hm) hn (meshRows_sameFace vertices hG h3) (hσ σ h)).symm

/-- What holds of the claim, both dimensions: see the theorems that it combines. Missing: meshes
with degenerate triangles, and reversing single faces of meshes with exactly three faces. -/
theorem C61_partial (sigmas : List ℝ) (hσ : ∀ σ ∈ sigmas, σ ≠ 0) :
    (∀ x y : List (Vec 2), x ≠ [] → y ≠ [] →
      (∃ r, (VarifoldClass.d2 .torch).loss sigmas (.curve x) (.curve y) = .ok (some r) ∧ 0 ≤ r) ∧
      (VarifoldClass.d2 .torch).loss sigmas (.curve x) (.curve y) = (VarifoldClass.d2 .torch).loss sigmas (.curve y) (.curve x) ∧
      (VarifoldClass.d2 .torch).loss sigmas (.curve x) (.curve x) = .ok (some 0)) ∧
    ∀ m n : Mesh, Spec.ValidMesh m → Spec.ValidMesh n → Spec.Proper m → Spec.Proper n → ∀ r : Reduction,
      (∃ v, (VarifoldClass.d3 r).loss sigmas (.mesh m) (.mesh n) = .ok (some v) ∧ 0 ≤ v) ∧
      (VarifoldClass.d3 r).loss sigmas (.mesh m) (.mesh n) = (VarifoldClass.d3 r).loss sigmas (.mesh n) (.mesh m) ∧
      (VarifoldClass.d3 r).loss sigmas (.mesh m) (.mesh m) = .ok (some 0) := by
  refine ⟨fun x y hx hy => ?_, fun m n hm hn pm pn r => ?_⟩
  · obtain ⟨h1, h2, h3, _⟩ := C61_curves sigmas hσ x y hx hy
    exact ⟨h1, h2, h3⟩
  · have hr : ∀ a b : Mesh, (VarifoldClass.d3 r).loss sigmas (.mesh a) (.mesh b) = (VarifoldClass.d3 .torch).loss sigmas (.mesh a) (.mesh b) := by
      intro a b
      cases r
      · exact rfl
      · exact C61_backends sigmas a b
    rw [hr, hr, hr]
    obtain ⟨h1, h2⟩ := C61_meshes sigmas hσ m n hm hn pm pn
    exact ⟨h1, (C61_mesh_invariance sigmas hσ m.1 m.2 n hm hn).1, h2⟩

/-- Any degenerate triangle makes the attachment NaN, even of a mesh to itself. -/
theorem C61_degenerate_disagreement (sigmas : List ℝ) (hne : sigmas ≠ []) (hσ : ∀ σ ∈ sigmas, σ ≠ 0) (m n : Mesh) (hm : Spec.ValidMesh m) (hn : Spec.ValidMesh n)
    (h3 : m.2.length ≠ 3) (f : Nat × Nat × Nat) (hf : f ∈ m.2)
    (hdeg : Spec.triangleArea (Spec.triangle m.1 f).1 (Spec.triangle m.1 f).2.1 (Spec.triangle m.1 f).2.2 = 0) :
    (VarifoldClass.d3 .torch).loss sigmas (.mesh m) (.mesh n) = .ok none ∧ (VarifoldClass.d3 .torch).loss sigmas (.mesh m) (.mesh m) = .ok none := by
  have hp : ¬ Spec.Proper m := by
    intro h
    unfold Spec.Proper at h
    rw [meshRows_map (by simpa using h3)] at h
    refine h _ (List.mem_map_of_mem (List.mem_map_of_mem hf)) ?_
    rw [← (C67_partial _ _ _).2.2.1] at hdeg
    exact hdeg
  refine ⟨loss_nan hne fun σ h => ?_, loss_nan hne fun σ h => ?_⟩
  · show costVarifold3 vproduct m n σ = _
    rw [costVarifold3_eq hm hn (hσ σ h), if_neg fun h' => hp h'.1]
  · show costVarifold3 vproduct m m σ = _
    rw [costVarifold3_eq hm hm (hσ σ h), if_neg fun h' => hp h'.1]

/-- Three triangles in the plane, none of them degenerate. -/
def threeVertices : List (Vec 3) := [![0, 0, 0], ![1, 1, 0], ![2, 1, 0], ![1, 0, 0], ![0, 1, 0]]

/-- For a mesh with exactly three faces, exchanging two vertices of one face changes the
attachment: zero becomes NaN here, for every choice of widths. -/
theorem C61_three_disagreement (sigmas : List ℝ) (hne : sigmas ≠ []) (hσ : ∀ σ ∈ sigmas, σ ≠ 0) :
    ∃ (vertices : List (Vec 3)) (F G : List (Nat × Nat × Nat)), Spec.ValidMesh (vertices, F) ∧ F.length = 3 ∧ List.Forall₂ Spec.SameFace F G ∧
      (∀ f ∈ F, Spec.triangleArea (Spec.triangle vertices f).1 (Spec.triangle vertices f).2.1 (Spec.triangle vertices f).2.2 ≠ 0) ∧
      (VarifoldClass.d3 .torch).loss sigmas (.mesh (vertices, F)) (.mesh (vertices, F)) = .ok (some 0) ∧
      (VarifoldClass.d3 .torch).loss sigmas (.mesh (vertices, G)) (.mesh (vertices, F)) = .ok none := by
  have hF : Spec.ValidMesh (threeVertices, [(0, 1, 2), (0, 3, 4), (0, 2, 1)]) := by
    intro f hf
    simp only [List.mem_cons, List.not_mem_nil, or_false] at hf
    rcases hf with rfl | rfl | rfl <;> simp [threeVertices]
  have hG : Spec.ValidMesh (threeVertices, [(0, 2, 1), (0, 3, 4), (0, 2, 1)]) := by
    intro f hf
    simp only [List.mem_cons, List.not_mem_nil, or_false] at hf
    rcases hf with rfl | rfl | rfl <;> simp [threeVertices]
  have pF : Spec.Proper (threeVertices, [(0, 1, 2), (0, 3, 4), (0, 2, 1)]) := by
    intro r hr
    simp only [meshRows, faceNormals, List.map_cons, List.map_nil, List.zipWith_cons_cons, List.zipWith_nil_left, List.mem_cons, List.not_mem_nil, or_false] at hr
    rcases hr with rfl | rfl | rfl <;>
      · refine Real.sqrt_ne_zero'.2 ?_
        rw [Fin.sum_univ_three]
        simp [Spec.triangle, threeVertices, relDiff] <;> norm_num
  have pG : ¬ Spec.Proper (threeVertices, [(0, 2, 1), (0, 3, 4), (0, 2, 1)]) := by
    intro h
    refine h _ (List.mem_cons_of_mem _ (List.mem_cons_self ..)) ?_
    show Real.sqrt _ = 0
    rw [Fin.sum_univ_three]
    simp [Spec.triangle, threeVertices, relDiff] <;> norm_num
  refine ⟨threeVertices, [(0, 1, 2), (0, 3, 4), (0, 2, 1)], [(0, 2, 1), (0, 3, 4), (0, 2, 1)], hF, rfl, ?_, ?_, ?_, ?_⟩
  · exact .cons ((List.Perm.swap _ _ _).cons _) (.cons (.refl _) (.cons (.refl _) .nil))
  · intro f hf
    rw [← (C67_partial _ _ _).2.2.1]
    refine Real.sqrt_ne_zero'.2 ?_
    rw [Fin.sum_univ_three]
    simp only [List.mem_cons, List.not_mem_nil, or_false] at hf
    rcases hf with rfl | rfl | rfl <;> simp [Spec.triangle, threeVertices, relDiff, faceNormal, cross3] <;> norm_num
  · exact (C61_meshes sigmas hσ _ _ hF hF pF pF).2
  · refine loss_nan hne fun σ h => ?_
    show costVarifold3 vproduct _ _ σ = _
    rw [costVarifold3_eq hG hF (hσ σ h), if_neg fun h' => pG h'.1]

/-- With the KeOps backend the attachment of curves is not available. -/
theorem C61_keops_disagreement (σ : ℝ) (sigmas : List ℝ) (x y : VShape) : (VarifoldClass.d2 .keops).loss (σ :: sigmas) x y = .error .notImplemented := by
  unfold VarifoldClass.loss
  rw [List.mapM_cons]
  rfl

example : ∃ x : List (Vec 2), x ≠ [] ∧ x.reverse ≠ x := ⟨[![0, 0], ![1, 0], ![0, 1]], by simp, by simp⟩

end
end Imodal
