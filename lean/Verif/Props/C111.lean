import Verif.Props.C108
import Verif.Props.C61
import Verif.Props.C62
/-!
# C111: the varifold losses are continuous, and smooth where nothing collapses
-/
set_option autoImplicit false
namespace Imodal
noncomputable section
open Filter Topology
variable {d : Nat} {E : Type} [NormedAddCommGroup E] [NormedSpace ℝ E] {k : WithTop ℕ∞} {e₀ : E}

/-! ## Atoms -/

theorem tnorm_ne {v : Vec d} (h : v ≠ 0) : 0 < ∑ c, v c ^ 2 := by
  obtain ⟨c, hc⟩ := Function.ne_iff.1 h
  exact Finset.sum_pos' (fun _ _ => sq_nonneg _) ⟨c, Finset.mem_univ _, by have : v c ≠ 0 := hc; positivity⟩

theorem smooth_tnorm {v : E → Vec d} (hv : ∀ c, ContDiffAt ℝ k (fun e => v e c) e₀) (h0 : v e₀ ≠ 0) : ContDiffAt ℝ k (fun e => tnorm (v e)) e₀ := by
  unfold tnorm
  exact ContDiffAt.sqrt (ContDiffAt.sum fun c _ => (hv c).pow 2) (tnorm_ne h0).ne'

theorem smooth_kXY {x y : E → Vec d} (σ : ℝ) (hx : ∀ c, ContDiffAt ℝ k (fun e => x e c) e₀) (hy : ∀ c, ContDiffAt ℝ k (fun e => y e c) e₀) :
    ContDiffAt ℝ k (fun e => kXY σ (x e) (y e)) e₀ := by
  unfold kXY sqDistance
  exact ((contDiffAt_const.mul (ContDiffAt.sum fun c _ => ((hx c).sub (hy c)).pow 2)).div_const _).exp

/-- Atoms that depend smoothly on a parameter. -/
def SmPiece (k : WithTop ℕ∞) (e₀ : E) (p : E → Vec d × Vec d) : Prop :=
  (∀ c, ContDiffAt ℝ k (fun e => (p e).1 c) e₀) ∧ (∀ c, ContDiffAt ℝ k (fun e => (p e).2 c) e₀) ∧ ((p e₀).2 ≠ 0 ∨ ∀ e, (p e).2 = 0)

theorem smooth_atomKernel {p q : E → Vec d × Vec d} (σ : ℝ) (hp : SmPiece k e₀ p) (hq : SmPiece k e₀ q) :
    ContDiffAt ℝ k (fun e => Spec.atomKernel σ (p e) (q e)) e₀ := by
  unfold Spec.atomKernel
  obtain ⟨p1, p2, p3⟩ := hp
  obtain ⟨q1, q2, q3⟩ := hq
  rcases p3 with p3 | p3
  · rcases q3 with q3 | q3
    · refine ContDiffAt.div ((smooth_kXY σ p1 q1).mul ((ContDiffAt.sum fun c _ => (p2 c).mul (q2 c)).pow 2)) ((smooth_tnorm p2 p3).mul (smooth_tnorm q2 q3)) ?_
      exact (mul_pos (Real.sqrt_pos.2 (tnorm_ne p3)) (Real.sqrt_pos.2 (tnorm_ne q3))).ne'
    · simp only [q3]; simpa using contDiffAt_const
  · simp only [p3]; simpa using contDiffAt_const

theorem continuous_tnorm : Continuous fun v : Vec d => tnorm v := by
  unfold tnorm
  fun_prop

/-- The quotient in the kernel is continuous, also where one of the vectors vanishes. -/
theorem continuous_quotient : Continuous fun z : Vec d × Vec d => (∑ c, z.1 c * z.2 c) ^ 2 / (tnorm z.1 * tnorm z.2) := by
  have hn : Continuous fun z : Vec d × Vec d => tnorm z.1 * tnorm z.2 := (continuous_tnorm.comp continuous_fst).mul (continuous_tnorm.comp continuous_snd)
  refine continuous_iff_continuousAt.2 fun z => ?_
  by_cases h : tnorm z.1 * tnorm z.2 = 0
  · unfold ContinuousAt
    simp only [h, div_zero]
    refine squeeze_zero_norm (a := fun z : Vec d × Vec d => tnorm z.1 * tnorm z.2) (fun w => ?_) (by simpa only [h] using hn.tendsto z)
    have h0 : 0 ≤ tnorm w.1 * tnorm w.2 := mul_nonneg (Real.sqrt_nonneg _) (Real.sqrt_nonneg _)
    rw [Real.norm_of_nonneg (div_nonneg (sq_nonneg _) h0)]
    refine div_le_of_le_mul₀ h0 h0 ?_
    calc (∑ c, w.1 c * w.2 c) ^ 2 ≤ (∑ c, w.1 c ^ 2) * ∑ c, w.2 c ^ 2 := Finset.sum_mul_sq_le_sq_mul_sq _ _ _
      _ = tnorm w.1 * tnorm w.2 * (tnorm w.1 * tnorm w.2) := by
        unfold tnorm
        rw [mul_mul_mul_comm, Real.mul_self_sqrt (Finset.sum_nonneg fun _ _ => sq_nonneg _), Real.mul_self_sqrt (Finset.sum_nonneg fun _ _ => sq_nonneg _)]
  · refine ContinuousAt.div ?_ hn.continuousAt h
    fun_prop

theorem continuous_atomKernel {X : Type} [TopologicalSpace X] {p q : X → Vec d × Vec d} (σ : ℝ) (hp : Continuous p) (hq : Continuous q) :
    Continuous fun e => Spec.atomKernel σ (p e) (q e) := by
  unfold Spec.atomKernel
  simp only [mul_div_assoc]
  have h1 : Continuous fun e => kXY σ (p e).1 (q e).1 := by
    unfold kXY sqDistance
    fun_prop
  exact h1.mul (continuous_quotient.comp (hp.snd.prodMk hq.snd))

theorem smooth_listSum {ι : Type} {g : ι → E → ℝ} : (l : List ι) → (∀ i ∈ l, ContDiffAt ℝ k (g i) e₀) → ContDiffAt ℝ k (fun e => (l.map fun i => g i e).sum) e₀
  | [], _ => contDiffAt_const
  | i :: l, h => by
    simp only [List.map_cons, List.sum_cons]
    exact (h i (by simp)).add (smooth_listSum l fun j hj => h j (by simp [hj]))

theorem continuous_listSum {X ι : Type} [TopologicalSpace X] {g : ι → X → ℝ} : (l : List ι) → (∀ i ∈ l, Continuous (g i)) → Continuous fun e => (l.map fun i => g i e).sum
  | [], _ => continuous_const
  | i :: l, h => by
    simp only [List.map_cons, List.sum_cons]
    exact (h i (by simp)).add (continuous_listSum l fun j hj => h j (by simp [hj]))

/-! ## Closed curves -/

/-- The segment of a closed curve that starts at its point `i`. -/
def segAtom {n : Nat} [NeZero n] (x : Fin n → Vec 2) (i : Fin n) : Vec 2 × Vec 2 := (fun c => (x (i + 1) c + x i c) / 2, fun c => x (i + 1) c - x i c)

theorem curveSegments_ofFn {n : Nat} [NeZero n] (x : Fin n → Vec 2) : curveSegments (List.ofFn x) = .ok (List.ofFn (segAtom x)) := by
  have hc : closeShape (List.ofFn x) = .ok (List.ofFn x ++ [x 0]) := by
    obtain ⟨m, rfl⟩ := Nat.exists_eq_succ_of_ne_zero (NeZero.ne n)
    rw [List.ofFn_succ]
    rfl
  unfold curveSegments
  rw [hc]
  show Except.ok _ = Except.ok _
  congr 1
  refine List.ext_getElem (by simp) fun i h1 h2 => ?_
  have hi : i < n := by simpa using h2
  have hnext : (List.ofFn x ++ [x 0])[1 + i]'(by simp; omega) = x (⟨i, hi⟩ + 1) := by
    by_cases hl : 1 + i < n
    · rw [List.getElem_append_left (by simpa using hl), List.getElem_ofFn]
      congr 1
      apply Fin.ext
      have : (1 : Nat) < n := by omega
      rw [Fin.val_add, Fin.val_one', Nat.mod_eq_of_lt this, Nat.mod_eq_of_lt (by simpa [Nat.add_comm] using hl)]
      exact Nat.add_comm 1 i
    · rw [List.getElem_append_right (by simpa using hl)]
      simp only [List.getElem_singleton]
      congr 1
      apply Fin.ext
      have : i = n - 1 := by omega
      rw [Fin.val_add, Fin.val_one']
      simp only [this, Nat.add_mod_mod, Nat.sub_add_cancel (Nat.one_le_iff_ne_zero.2 (NeZero.ne n)), Nat.mod_self]
      rfl
  simp only [List.getElem_zipWith, List.getElem_take, List.getElem_drop, List.getElem_ofFn, hnext]
  rfl

/-- The value of the varifold loss of two closed curves. -/
def curveValue {n m : Nat} [NeZero n] [NeZero m] (sigmas : List ℝ) (y : Fin m → Vec 2) (x : Fin n → Vec 2) : ℝ :=
  (sigmas.map fun σ => ∑ i, ∑ j, Spec.atomKernel σ (segAtom x i) (segAtom x j) + ∑ i, ∑ j, Spec.atomKernel σ (segAtom y i) (segAtom y j)
    - 2 * ∑ i, ∑ j, Spec.atomKernel σ (segAtom x i) (segAtom y j)).sum

theorem curveLoss_eq {n m : Nat} [NeZero n] [NeZero m] (sigmas : List ℝ) (hσ : ∀ σ ∈ sigmas, σ ≠ 0) (x : Fin n → Vec 2) (y : Fin m → Vec 2) :
    (VarifoldClass.d2 .torch).loss sigmas (.curve (List.ofFn x)) (.curve (List.ofFn y)) = .ok (some (curveValue sigmas y x)) := by
  refine loss_values _ fun σ h => ?_
  show (do return some (← costVarifold2 (List.ofFn x) (List.ofFn y) σ)) = _
  unfold costVarifold2 dotVarifold
  rw [if_neg (hσ σ h), curveSegments_ofFn, curveSegments_ofFn]
  simp only [Bind.bind, Except.bind, Pure.pure, Except.pure, dotTerm_eq, List.map_ofFn, List.sum_ofFn, Function.comp_def]

/-- **C111, curves.** For all widths other than zero the varifold loss between a closed curve and a
target is returned for all positions of its points and is a continuous function of them; where no two
consecutive points coincide it has derivatives of all orders. -/
theorem C111_curves {n m : Nat} [NeZero n] [NeZero m] (sigmas : List ℝ) (hσ : ∀ σ ∈ sigmas, σ ≠ 0) (y : Fin m → Vec 2) :
    ∃ f : (Fin n → Vec 2) → ℝ, (∀ x, (VarifoldClass.d2 .torch).loss sigmas (.curve (List.ofFn x)) (.curve (List.ofFn y)) = .ok (some (f x))) ∧
      Continuous f ∧ ∀ x, (∀ i, x i ≠ x (i + 1)) → ∀ k : WithTop ℕ∞, ContDiffAt ℝ k f x := by
  refine ⟨curveValue sigmas y, fun x => curveLoss_eq sigmas hσ x y, ?_, fun x hx k => ?_⟩
  · unfold curveValue
    have hs : ∀ i, Continuous fun x : Fin n → Vec 2 => segAtom x i := fun i => by unfold segAtom; fun_prop
    refine continuous_listSum sigmas fun σ _ => ?_
    refine ((continuous_finset_sum _ fun i _ => continuous_finset_sum _ fun j _ => continuous_atomKernel σ (hs i) (hs j)).add continuous_const).sub
      (continuous_const.mul (continuous_finset_sum _ fun i _ => continuous_finset_sum _ fun j _ => continuous_atomKernel σ (hs i) continuous_const))
  · unfold curveValue
    have hs : ∀ i, SmPiece k x fun x : Fin n → Vec 2 => segAtom x i := fun i => by
      refine ⟨fun c => by unfold segAtom; fun_prop, fun c => by unfold segAtom; fun_prop, .inl fun h => hx i ?_⟩
      funext c
      have : x (i + 1) c - x i c = 0 := congrFun h c
      linarith
    have hy : ∀ j, SmPiece k x fun _ : Fin n → Vec 2 => segAtom y j := fun j =>
      ⟨fun c => contDiffAt_const, fun c => contDiffAt_const, by
        by_cases h : (segAtom y j).2 = 0
        · exact .inr fun _ => h
        · exact .inl h⟩
    refine smooth_listSum sigmas fun σ _ => ?_
    exact ((ContDiffAt.sum fun i _ => ContDiffAt.sum fun j _ => smooth_atomKernel σ (hs i) (hs j)).add contDiffAt_const).sub
      (contDiffAt_const.mul (ContDiffAt.sum fun i _ => ContDiffAt.sum fun j _ => smooth_atomKernel σ (hs i) (hy j)))

/-- A triangle. -/
example : ∃ x : Fin 3 → Vec 2, ∀ i, x i ≠ x (i + 1) := by
  refine ⟨![![0, 0], ![1, 0], ![0, 1]], fun i => ?_⟩
  fin_cases i <;> simp

/-- Where a segment collapses the loss need not be differentiable: two points that move apart from the
middle of a target of two points. -/
theorem C111_collapse_disagreement (sigmas : List ℝ) (hne : sigmas ≠ []) (hσ : ∀ σ ∈ sigmas, σ ≠ 0) :
    ∀ f : ℝ → ℝ, (∀ t, (VarifoldClass.d2 .torch).loss sigmas (.curve [![-t, 0], ![t, 0]]) (.curve [![-1, 0], ![1, 0]]) = .ok (some (f t))) → ¬DifferentiableAt ℝ f 0 := by
  intro f hf hd
  have ht : ∀ t : ℝ, tnorm (![2 * t, 0] : Vec 2) = 2 * |t| := fun t => by
    unfold tnorm
    simp [Fin.sum_univ_two, Real.sqrt_sq_eq_abs, abs_mul]
  have hseg : ∀ t : ℝ, ∀ i, segAtom (![![-t, 0], ![t, 0]] : Fin 2 → Vec 2) i = (0, if i = 0 then ![2 * t, 0] else ![2 * (-t), 0]) := fun t i => by
    fin_cases i
    · refine Prod.ext ?_ ?_ <;> (funext c; fin_cases c <;> simp [segAtom]) <;> ring
    · refine Prod.ext ?_ ?_ <;> (funext c; fin_cases c <;> simp [segAtom]) <;> ring
  have hk : ∀ (σ a b : ℝ), Spec.atomKernel σ ((0 : Vec 2), ![2 * a, 0]) (0, ![2 * b, 0]) = 4 * |a| * |b| := fun σ a b => by
    unfold Spec.atomKernel
    rw [ht, ht]
    have h1 : kXY σ (0 : Vec 2) 0 = 1 := by simp [kXY, sqDistance]
    rw [h1, one_mul]
    have h2 : (∑ c, (![2 * a, 0] : Vec 2) c * (![2 * b, 0] : Vec 2) c) ^ 2 = (4 * |a| * |b|) * (4 * |a| * |b|) := by
      simp only [Fin.sum_univ_two, Matrix.cons_val_zero, Matrix.cons_val_one, mul_zero, add_zero]
      calc (2 * a * (2 * b)) ^ 2 = 16 * a ^ 2 * b ^ 2 := by ring
        _ = 16 * |a| ^ 2 * |b| ^ 2 := by rw [sq_abs, sq_abs]
        _ = _ := by ring
    rw [h2, show 2 * |a| * (2 * |b|) = 4 * |a| * |b| by ring]
    by_cases h : 4 * |a| * |b| = 0
    · rw [h]; simp
    · rw [mul_div_assoc, div_self h, mul_one]
  have hval : ∀ t, f t = sigmas.length * (16 * (1 - |t|) ^ 2) := fun t => by
    have h := hf t
    rw [show ([![-t, 0], ![t, 0]] : List (Vec 2)) = List.ofFn (![![-t, 0], ![t, 0]] : Fin 2 → Vec 2) by simp,
      show ([![-1, 0], ![1, 0]] : List (Vec 2)) = List.ofFn (![![-1, 0], ![1, 0]] : Fin 2 → Vec 2) by simp, curveLoss_eq sigmas hσ] at h
    have h : curveValue sigmas (![![-1, 0], ![1, 0]] : Fin 2 → Vec 2) (![![-t, 0], ![t, 0]] : Fin 2 → Vec 2) = f t := Option.some.inj (Except.ok.inj h)
    rw [← h]
    unfold curveValue
    simp only [hseg, Fin.sum_univ_two, if_true, if_neg (one_ne_zero : (1 : Fin 2) ≠ 0), hk, abs_neg, abs_one]
    rw [List.map_const', List.sum_replicate, nsmul_eq_mul]
    ring
  have hL : (sigmas.length : ℝ) ≠ 0 := by
    simpa using hne
  have h1 : DifferentiableAt ℝ (fun t : ℝ => (f t - sigmas.length * 16 * (1 + t ^ 2)) * (-(sigmas.length * 32 : ℝ)⁻¹)) 0 :=
    (hd.sub (by fun_prop)).mul_const _
  refine not_differentiableAt_abs_zero (h1.congr_of_eventuallyEq (Eventually.of_forall fun t => ?_))
  simp only [hval]
  have : t ^ 2 = |t| ^ 2 := (sq_abs t).symm
  rw [this]
  field_simp
  ring

/-! ## Meshes -/

/-- All faces refer to vertices and are triangles with an area, and there are not exactly three of them. -/
def Spec.SoundMesh (m : Mesh) : Prop :=
  Spec.ValidMesh m ∧ m.2.length ≠ 3 ∧ ∀ f ∈ m.2, Spec.triangleArea (Spec.triangle m.1 f).1 (Spec.triangle m.1 f).2.1 (Spec.triangle m.1 f).2.2 ≠ 0

theorem proper_sound {m : Mesh} (h : Spec.SoundMesh m) : Spec.Proper m := by
  intro r hr
  rw [meshRows_map (by simpa using h.2.1)] at hr
  obtain ⟨t, ht, rfl⟩ := List.mem_map.1 hr
  obtain ⟨f, hf, rfl⟩ := List.mem_map.1 ht
  have := h.2.2 f hf
  rw [← (C67_partial _ _ _).2.2.1] at this
  exact this

/-- The atom of a triangle. -/
def triAtom (v0 v1 v2 : Vec 3) : Vec 3 × Vec 3 := (faceCenter v0 v1 v2, faceNormal v0 v1 v2)

theorem meshAtoms_map {m : Mesh} (h : m.2.length ≠ 3) :
    meshAtoms m = m.2.map fun f => triAtom (Spec.triangle m.1 f).1 (Spec.triangle m.1 f).2.1 (Spec.triangle m.1 f).2.2 := by
  unfold meshAtoms rowAtoms
  rw [meshRows_map (by simpa using h), List.map_map, List.map_map]
  rfl

theorem triAtom_ne {v0 v1 v2 : Vec 3} (h : Spec.triangleArea v0 v1 v2 ≠ 0) : (triAtom v0 v1 v2).2 ≠ 0 := by
  intro e
  rw [← (C67_partial _ _ _).2.2.1] at h
  refine h ?_
  unfold faceLength
  have : faceNormal v0 v1 v2 = 0 := e
  rw [this]
  simp

theorem smooth_triAtom {v0 v1 v2 : E → Vec 3} (h0 : ∀ c, ContDiffAt ℝ k (fun e => v0 e c) e₀) (h1 : ∀ c, ContDiffAt ℝ k (fun e => v1 e c) e₀)
    (h2 : ∀ c, ContDiffAt ℝ k (fun e => v2 e c) e₀) (h : Spec.triangleArea (v0 e₀) (v1 e₀) (v2 e₀) ≠ 0) :
    SmPiece k e₀ fun e => triAtom (v0 e) (v1 e) (v2 e) := by
  refine ⟨fun c => ?_, fun c => ?_, .inl (triAtom_ne h)⟩
  · unfold triAtom faceCenter
    exact contDiffAt_const.mul (((h0 c).add (h1 c)).add (h2 c))
  · unfold triAtom faceNormal
    refine contDiffAt_const.mul ?_
    have h : ∀ a b : Fin 3, ContDiffAt ℝ k (fun e => (v1 e a - v0 e a) * (v2 e b - v0 e b) - (v1 e b - v0 e b) * (v2 e a - v0 e a)) e₀ := fun a b => by fun_prop
    fin_cases c
    · exact h 1 2
    · exact h 2 0
    · exact h 0 1

theorem smooth_vinner {ι κ : Type} {p : ι → E → Vec d × Vec d} {q : κ → E → Vec d × Vec d} (σ : ℝ) {A : List ι} {B : List κ}
    (hA : ∀ i ∈ A, SmPiece k e₀ (p i)) (hB : ∀ i ∈ B, SmPiece k e₀ (q i)) :
    ContDiffAt ℝ k (fun e => Spec.vinner σ (A.map fun i => p i e) (B.map fun i => q i e)) e₀ := by
  unfold Spec.vinner
  simp only [List.map_map, Function.comp_def]
  exact smooth_listSum A fun i hi => smooth_listSum B fun j hj => smooth_atomKernel σ (hA i hi) (hB j hj)

theorem triangle_ofFn {n : Nat} (x : Fin n → Vec 3) {i : Nat} (hi : i < n) : (List.ofFn x).getD i 0 = x ⟨i, hi⟩ := by
  simp [hi]

/-- **C111, meshes.** For both backends, all widths other than zero and meshes that refer to their
vertices, have triangles with areas and not exactly three of them: the varifold loss is a number for
all vertices near those of the mesh and has derivatives of all orders. Missing: triangles without area,
and meshes of three triangles (`C61_degenerate_disagreement`, `C61_three_disagreement`). -/
theorem C111_meshes_partial (r : Reduction) (sigmas : List ℝ) (hσ : ∀ σ ∈ sigmas, σ ≠ 0) {n : Nat} (x : Fin n → Vec 3) (F : List (Nat × Nat × Nat)) (y : Mesh)
    (hx : Spec.SoundMesh (List.ofFn x, F)) (hy : Spec.SoundMesh y) (k : WithTop ℕ∞) :
    ∃ f : (Fin n → Vec 3) → ℝ, ContDiffAt ℝ k f x ∧
      ∀ᶠ x' in 𝓝 x, (VarifoldClass.d3 r).loss sigmas (.mesh (List.ofFn x', F)) (.mesh y) = .ok (some (f x')) := by
  have hval : ∀ x' : Fin n → Vec 3, Spec.ValidMesh (List.ofFn x', F) := fun x' f hf => by simpa using hx.1 f hf
  have htri : ∀ (x' : Fin n → Vec 3) {f : Nat × Nat × Nat} (hf : f ∈ F), Spec.triangle (List.ofFn x') f =
      (x' ⟨f.1, by simpa using (hx.1 f hf).1⟩, x' ⟨f.2.1, by simpa using (hx.1 f hf).2.1⟩, x' ⟨f.2.2, by simpa using (hx.1 f hf).2.2⟩) := fun x' f hf => by
    unfold Spec.triangle
    rw [triangle_ofFn, triangle_ofFn, triangle_ofFn]
  have hsm : ∀ f ∈ F, SmPiece k x fun x' : Fin n → Vec 3 =>
      triAtom (Spec.triangle (List.ofFn x') f).1 (Spec.triangle (List.ofFn x') f).2.1 (Spec.triangle (List.ofFn x') f).2.2 := fun f hf => by
    have ha := hx.2.2 f hf
    rw [htri x hf] at ha
    simp only [htri _ hf]
    exact smooth_triAtom (fun c => by fun_prop) (fun c => by fun_prop) (fun c => by fun_prop) ha
  have hysm : ∀ f ∈ y.2, SmPiece k x fun _ : Fin n → Vec 3 => triAtom (Spec.triangle y.1 f).1 (Spec.triangle y.1 f).2.1 (Spec.triangle y.1 f).2.2 := fun f hf =>
    ⟨fun c => contDiffAt_const, fun c => contDiffAt_const, .inl (triAtom_ne (hy.2.2 f hf))⟩
  refine ⟨fun x' => (sigmas.map fun σ => Spec.vdist σ (meshAtoms (List.ofFn x', F)) (meshAtoms y)).sum, ?_, ?_⟩
  · refine smooth_listSum sigmas fun σ _ => ?_
    unfold Spec.vdist
    have hat : ∀ x' : Fin n → Vec 3, meshAtoms (List.ofFn x', F) = F.map fun f =>
        triAtom (Spec.triangle (List.ofFn x') f).1 (Spec.triangle (List.ofFn x') f).2.1 (Spec.triangle (List.ofFn x') f).2.2 := fun x' =>
      meshAtoms_map (m := (List.ofFn x', F)) hx.2.1
    simp only [meshAtoms_map hy.2.1, hat]
    exact ((smooth_vinner σ hsm hsm).add (smooth_vinner σ hysm hysm)).sub (contDiffAt_const.mul (smooth_vinner σ hsm hysm))
  · have hopen : ∀ᶠ x' in 𝓝 x, ∀ f ∈ F, (triAtom (Spec.triangle (List.ofFn x') f).1 (Spec.triangle (List.ofFn x') f).2.1 (Spec.triangle (List.ofFn x') f).2.2).2 ≠ 0 := by
      refine (eventually_all_finite (List.finite_toSet F)).2 fun f hf => ?_
      have hc : ContinuousAt (fun x' : Fin n → Vec 3 =>
          (triAtom (Spec.triangle (List.ofFn x') f).1 (Spec.triangle (List.ofFn x') f).2.1 (Spec.triangle (List.ofFn x') f).2.2).2) x :=
        continuousAt_pi.2 fun c => ((hsm f hf).2.1 c).continuousAt
      exact hc.eventually_ne (triAtom_ne (hx.2.2 f hf))
    filter_upwards [hopen] with x' hx'
    have hp : Spec.Proper (List.ofFn x', F) := fun row hr => by
      rw [meshRows_map (by simpa using hx.2.1)] at hr
      obtain ⟨t, ht, rfl⟩ := List.mem_map.1 hr
      obtain ⟨f, hf, rfl⟩ := List.mem_map.1 ht
      exact (Real.sqrt_pos.2 (tnorm_ne (hx' f hf))).ne'
    have ht : (VarifoldClass.d3 .torch).loss sigmas (.mesh (List.ofFn x', F)) (.mesh y) = .ok (some _) :=
      loss_values (fun σ => Spec.vdist σ (meshAtoms (List.ofFn x', F)) (meshAtoms y)) fun σ h => by
        show costVarifold3 vproduct (List.ofFn x', F) y σ = _
        rw [costVarifold3_eq (hval x') hy.1 (hσ σ h), if_pos ⟨hp, proper_sound hy⟩]
    cases r with
    | torch => exact ht
    | keops => rw [C61_backends]; exact ht

/-- A single triangle. -/
example : Spec.SoundMesh (List.ofFn (![![0, 0, 0], ![1, 0, 0], ![0, 1, 0]] : Fin 3 → Vec 3), [(0, 1, 2)]) := by
  refine ⟨?_, by simp, ?_⟩
  · intro f hf
    obtain rfl : f = (0, 1, 2) := by simpa using hf
    simp
  · intro f hf
    obtain rfl : f = (0, 1, 2) := by simpa using hf
    rw [← (C67_partial _ _ _).2.2.1]
    have h : (0 : ℝ) < √(0.5 ^ 2) := by norm_num
    simpa [faceLength, faceNormal, cross3, relDiff, Spec.triangle, Fin.sum_univ_three] using h.ne'

/-! ## The optimum with the losses of the library -/

/-- A set of points that is registered with the pointwise distance to as many points, or a closed curve
that is registered with the varifold distance to another. -/
def Spec.LibraryLoss (D : Deformable 2 (List (Vec 2))) (a : Attach (List (Vec 2)) (List (Vec 2))) (t : List (Vec 2)) : Prop :=
  (∃ w : ℝ, 0 ≤ w ∧ a = pointAttach w ∧ t.length = D.n) ∨
    ∃ (w : ℝ) (sigmas : List ℝ), 0 ≤ w ∧ (∀ σ ∈ sigmas, σ ≠ 0) ∧ a = curveAttach w sigmas ∧ t ≠ [] ∧ 0 < D.n

/-- This holds of every source with its attachment and target. -/
def Spec.LibraryLosses : List (Deformable 2 (List (Vec 2))) → List (Attach (List (Vec 2)) (List (Vec 2))) → List (List (Vec 2)) → Prop
  | D :: Ds, a :: as, t :: ts => (D.Plainly ∧ Spec.LibraryLoss D a t) ∧ Spec.LibraryLosses Ds as ts
  | [], [], [] => True
  | _, _, _ => False

theorem continuous_tdist (t : Vec d) : Continuous fun x : Vec d => tdist x t := by
  unfold tdist sqDistance
  fun_prop

theorem ofFn_get {β : Type} {n : Nat} {t : List β} (h : t.length = n) : ∃ y : Fin n → β, t = List.ofFn y := by
  subst h
  exact ⟨t.get, (List.ofFn_get t).symm⟩

theorem curveAttach_call {n m : Nat} [NeZero n] [NeZero m] (w : ℝ) (sigmas : List ℝ) (hσ : ∀ σ ∈ sigmas, σ ≠ 0) (x : Fin n → Vec 2) (y : Fin m → Vec 2) :
    (curveAttach w sigmas).call (List.ofFn x) (List.ofFn y) = .ok (w * curveValue sigmas y x) := by
  unfold curveAttach Attach.call
  rw [Attach.loss, curveLoss_eq sigmas hσ]
  rfl

theorem library_continuous {D : Deformable 2 (List (Vec 2))} {a : Attach (List (Vec 2)) (List (Vec 2))} {t : List (Vec 2)} (hD : D.Plainly) (h : Spec.LibraryLoss D a t)
    (x : Fin D.n → Vec 2) : SmPy 0 x fun x => (D.toDeformed ⟨D.n, x⟩).bind fun g => a.call g t := by
  rcases h with ⟨w, -, rfl, ht⟩ | ⟨w, sigmas, -, hσ, rfl, ht, hn⟩
  · obtain ⟨y, rfl⟩ := ofFn_get ht
    refine ⟨fun x => w * ∑ i, tdist (x i) (y i), ?_, Eventually.of_forall fun x => ?_⟩
    · refine (contDiff_zero.2 ?_).contDiffAt
      exact continuous_const.mul (continuous_finset_sum _ fun i _ => (continuous_tdist (y i)).comp (continuous_apply i))
    · dsimp only
      rw [hD x]
      exact pointAttach_call w x y
  · obtain ⟨m, hm⟩ : ∃ m, t.length = m := ⟨_, rfl⟩
    have : NeZero D.n := ⟨hn.ne'⟩
    have : NeZero m := ⟨fun h => ht (List.length_eq_zero_iff.1 (hm.trans h))⟩
    obtain ⟨y, rfl⟩ := ofFn_get hm
    obtain ⟨f, hf, hc, -⟩ := C111_curves (n := D.n) sigmas hσ y
    refine ⟨fun x => w * f x, (contDiff_zero.2 (continuous_const.mul hc)).contDiffAt, Eventually.of_forall fun x => ?_⟩
    have e : curveValue sigmas y x = f x := Option.some.inj (Except.ok.inj ((curveLoss_eq sigmas hσ x y).symm.trans (hf x)))
    dsimp only
    rw [hD x, ← e]
    exact curveAttach_call w sigmas hσ x y

theorem library_everywhere : (Ds : List (Deformable 2 (List (Vec 2)))) → (as : List (Attach (List (Vec 2)) (List (Vec 2)))) → (ts : List (List (Vec 2))) →
    Spec.LibraryLosses Ds as ts → SmoothEverywhere 0 Ds as ts
  | [], [], [], _ => trivial
  | _ :: Ds, _ :: as, _ :: ts, h => ⟨library_continuous h.1.1 h.1.2, library_everywhere Ds as ts h.2⟩

theorem tdist_nonneg' (x y : Vec d) : 0 ≤ tdist x y := Real.sqrt_nonneg _

theorem pointwise_nonneg {x y : List (Vec d)} {v : ℝ} (h : pointwiseLoss x y = .ok v) : 0 ≤ v := by
  unfold pointwiseLoss at h
  have hm : ∀ (f : Vec d → ℝ) (l : List (Vec d)), (∀ a, 0 ≤ f a) → 0 ≤ (l.map f).sum := fun f l hf => List.sum_nonneg fun r hr => by
    obtain ⟨a, -, rfl⟩ := List.mem_map.1 hr
    exact hf a
  split at h
  · rw [← Except.ok.inj h]
    refine List.sum_nonneg fun r hr => ?_
    obtain ⟨i, hi, rfl⟩ := List.mem_iff_getElem.1 hr
    rw [List.getElem_zipWith]
    exact tdist_nonneg' _ _
  · split at h
    · rw [← Except.ok.inj h]; exact hm _ _ fun a => tdist_nonneg' _ _
    · rw [← Except.ok.inj h]; exact hm _ _ fun a => tdist_nonneg' _ _
    · cases h

theorem curve_nonneg {sigmas : List ℝ} (hσ : ∀ σ ∈ sigmas, σ ≠ 0) {x y : List (Vec 2)} {v : Option ℝ} (h : (VarifoldClass.d2 .torch).loss sigmas (.curve x) (.curve y) = .ok v) :
    ∃ r, v = some r ∧ 0 ≤ r := by
  by_cases hx : x = [] ∨ y = []
  · match sigmas, hσ, h with
    | [], _, h => exact ⟨0, (Except.ok.inj h).symm, le_rfl⟩
    | σ :: l, hσ, h =>
      exfalso
      have h0 : σ ≠ 0 := hσ σ (by simp)
      have he : ∃ e, (VarifoldClass.d2 .torch).cost (.curve x) (.curve y) σ = .error e := by
        show ∃ e, (do return some (← costVarifold2 x y σ)) = Except.error e
        rcases hx with rfl | rfl
        · exact ⟨.index, by unfold costVarifold2; rw [if_neg h0]; rfl⟩
        · match x with
          | [] => exact ⟨.index, by unfold costVarifold2; rw [if_neg h0]; rfl⟩
          | a :: l => exact ⟨.index, by unfold costVarifold2; rw [if_neg h0]; rfl⟩
      obtain ⟨e, he⟩ := he
      unfold VarifoldClass.loss at h
      rw [List.mapM_cons, he] at h
      cases h
  · rw [not_or] at hx
    obtain ⟨⟨r, hr, h0⟩, -⟩ := C61_curves sigmas hσ x y hx.1 hx.2
    exact ⟨r, (Except.ok.inj (hr.symm.trans h)).symm, h0⟩

theorem library_nonneg : (Ds : List (Deformable 2 (List (Vec 2)))) → (as : List (Attach (List (Vec 2)) (List (Vec 2)))) → (ts : List (List (Vec 2))) →
    Spec.LibraryLosses Ds as ts → ∀ a ∈ as, ∀ g t u, a.call g t = .ok u → 0 ≤ u
  | [], [], [], _ => by simp
  | D :: Ds, a :: as, t :: ts, h => by
    intro b hb g t' u hu
    rcases List.mem_cons.1 hb with rfl | hb
    · rcases h.1.2 with ⟨w, hw, rfl, -⟩ | ⟨w, sigmas, hw, hσ, rfl, -, -⟩
      · unfold pointAttach Attach.call at hu
        rw [Attach.loss] at hu
        split at hu
        · cases hu
        · rename_i v hv
          rw [← Except.ok.inj hu]
          exact mul_nonneg hw (pointwise_nonneg hv)
      · unfold curveAttach Attach.call at hu
        rw [Attach.loss] at hu
        split at hu
        · cases hu
        · rename_i v hv
          rw [← Except.ok.inj hu]
          match hl : (VarifoldClass.d2 .torch).loss sigmas (.curve g) (.curve t'), hv with
          | .error e, hv => cases hv
          | .ok none, hv => cases hv
          | .ok (some r), hv =>
            obtain ⟨r', hr, h0⟩ := curve_nonneg hσ hl
            obtain rfl := Option.some.inj hr
            obtain rfl : r = v := Except.ok.inj hv
            exact mul_nonneg hw h0
    · exact library_nonneg Ds as ts h.2 b hb g t' u hu

/-- **C111, the optimum.** Sets of points and closed curves of the plane that are registered with the
pointwise and the varifold distances of the library, with weights that are not negative: learned
controls, one list per step, have an optimum for all solvers. -/
theorem C111_optimum {Ds : List (Deformable 2 (List (Vec 2)))} {ms : List (DefModule 2)} {as : List (Attach (List (Vec 2)) (List (Vec 2)))} {lam : ℝ}
    {M : RegModel 2 (List (Vec 2)) (List (Vec 2))} (hnew : RegModel.new Ds ms as none lam .sum = .ok M) (hb : ∀ D ∈ Ds, D.backward = none)
    {D : Deformable 2 (List (Vec 2))} (hD : D ∈ Ds) (hd : 0 < D.n) (hco : ∀ m ∈ ms, m.Coercive) (hsm : (DefModule.compound ms).Smooth 1) (hp : PlainMembers ms)
    (hlam : 0 ≤ lam) {targets : List (List (Vec 2))} (hlib : Spec.LibraryLosses Ds as targets)
    {init : List (Mfd 2)} (hkind : List.Forall₂ Mfd.SameKind init M.init) (s : Solver) (N it : Nat) :
    ∃ (best : List (List (Ctrl 2))) (v : ℝ), best.length = N ∧ (∀ l ∈ best, OwnControls ms l) ∧
      (M.setValues init (some (N, best))).value targets (.fixed s) it = .ok v ∧
      ∀ cs : List (List (Ctrl 2)), cs.length = N → (∀ l ∈ cs, OwnControls ms l) →
        ∃ v', (M.setValues init (some (N, cs))).value targets (.fixed s) it = .ok v' ∧ v ≤ v' :=
  C108_partial hnew hb hD (by omega) hco hsm hp hlam (library_nonneg Ds as targets hlib) (library_everywhere Ds as targets hlib) hkind s N it

/-- A curve of four points and a target of two. -/
example (gd : Fin 4 → Vec 2) : Spec.LibraryLosses [⟨4, gd, 0, none, fun p => .ok (List.ofFn p.x)⟩] [curveAttach 2 [1, 3]] [[![0, 0], ![1, 0]]] :=
  ⟨⟨fun _ => rfl, .inr ⟨2, [1, 3], by norm_num, by simp, rfl, by simp, by norm_num⟩⟩, trivial⟩

end
end Imodal
