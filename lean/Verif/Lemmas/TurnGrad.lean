import Verif.Lemmas.HamGrad
import Mathlib.LinearAlgebra.FiniteDimensional.Basic
/-!
# The gradient of the Hamiltonian and rigid motions
-/
set_option autoImplicit false
namespace Imodal
noncomputable section
open Matrix
variable {d : Nat}

/-! ## Products of rows -/

/-- The product of two lists of numbers. -/
def dotL (l l' : List ℝ) : ℝ := (List.zipWith (· * ·) l l').sum

theorem dotL_append {a a' b b' : List ℝ} (h : a.length = a'.length) : dotL (a ++ b) (a' ++ b') = dotL a a' + dotL b b' := by
  unfold dotL; rw [List.zipWith_append h, List.sum_append]

theorem dotL_ofFn {n : Nat} (a b : Fin n → ℝ) : dotL (List.ofFn a) (List.ofFn b) = ∑ k, a k * b k := by
  unfold dotL
  rw [← List.sum_ofFn]
  congr 1
  refine List.ext_getElem (by simp) fun j h1 h2 => ?_
  simp

theorem dotL_rows {N : Nat} {l l' : List ℝ} (h : l.length = N) (h' : l'.length = N) : dotL l l' = ∑ j : Fin N, rowOf l j * rowOf l' j := by
  subst h
  rw [← dotL_ofFn]
  congr 1
  · refine List.ext_getElem (by simp) fun j h1 h2 => ?_
    simp [rowOf, List.getD]
  · refine List.ext_getElem (by simp [h']) fun j h1 h2 => ?_
    simp [rowOf, List.getD, h1]

theorem dotL_vecs {n : Nat} (a b : Fin n → Vec d) : dotL (flatVecs a) (flatVecs b) = ∑ i, a i ⬝ᵥ b i := by
  unfold flatVecs
  rw [dotL_ofFn, ← finProdFinEquiv.sum_comp, Fintype.sum_prod_type]
  refine Finset.sum_congr rfl fun i _ => Finset.sum_congr rfl fun c _ => ?_
  have h := finProdFinEquiv.symm_apply_apply (i, c)
  have h1 : (finProdFinEquiv (i, c)).divNat = i := congrArg Prod.fst h
  have h2 : (finProdFinEquiv (i, c)).modNat = c := congrArg Prod.snd h
  rw [h1, h2]

theorem dotL_mats {n : Nat} (a b : Fin n → Mat d) : dotL (flatMats a) (flatMats b) = ∑ i, Matrix.trace (a i * (b i)ᵀ) := by
  unfold flatMats
  rw [dotL_ofFn, ← finProdFinEquiv.sum_comp, Fintype.sum_prod_type]
  refine Finset.sum_congr rfl fun i _ => ?_
  rw [← finProdFinEquiv.sum_comp, Fintype.sum_prod_type, Matrix.trace]
  refine Finset.sum_congr rfl fun r _ => ?_
  rw [Matrix.diag_apply, Matrix.mul_apply]
  refine Finset.sum_congr rfl fun c _ => ?_
  have h := finProdFinEquiv.symm_apply_apply (i, finProdFinEquiv (r, c))
  have h1 : (finProdFinEquiv (i, finProdFinEquiv (r, c))).divNat = i := congrArg Prod.fst h
  have h2 : (finProdFinEquiv (i, finProdFinEquiv (r, c))).modNat = finProdFinEquiv (r, c) := congrArg Prod.snd h
  have h' := finProdFinEquiv.symm_apply_apply (r, c)
  have h3 : (finProdFinEquiv (r, c)).divNat = r := congrArg Prod.fst h'
  have h4 : (finProdFinEquiv (r, c)).modNat = c := congrArg Prod.snd h'
  rw [h1, h2, h3, h4, Matrix.transpose_apply]

theorem turn_dot (g : Rigid d) (a b : Vec d) : g.vec a ⬝ᵥ g.vec b = a ⬝ᵥ b := by
  unfold Rigid.vec
  rw [Matrix.dotProduct_mulVec, Matrix.vecMul_mulVec, (Matrix.mem_orthogonalGroup_iff' _ _).1 g.orth, Matrix.vecMul_one]

theorem turn_trace (g : Rigid d) (a b : Mat d) : Matrix.trace (g.Q * a * (g.Q * b)ᵀ) = Matrix.trace (a * bᵀ) := by
  rw [Matrix.transpose_mul, Matrix.mul_assoc, Matrix.trace_mul_comm, Matrix.mul_assoc, Matrix.mul_assoc,
    show g.Qᵀ * g.Q = 1 from (Matrix.mem_orthogonalGroup_iff' _ _).1 g.orth, Matrix.mul_one]

mutual
/-- Turning velocities and momenta leaves their product. -/
theorem dotL_turn (g : Rigid d) (x y : Row) : (M : Mfd d) → (o : Nat) →
    dotL ((M.withGd x o).move g.lin).unrollGd.flatten ((M.withCot y o).move g).unrollCot.flatten
      = dotL (M.withGd x o).unrollGd.flatten (M.withCot y o).unrollCot.flatten
  | .landmarks _ _, o => by
    simp only [Mfd.withGd, Mfd.withCot, Mfd.move, Mfd.unrollGd, Mfd.unrollCot, List.flatten_cons, List.flatten_nil, List.append_nil, dotL_vecs,
      lin_point, turn_dot]
  | @Mfd.direction _ _ n _ _ _ _, o => by
    simp only [Mfd.withGd, Mfd.withCot, Mfd.move, Mfd.unrollGd, Mfd.unrollCot, List.flatten_cons, List.flatten_nil, List.append_nil]
    rw [dotL_append (by rw [length_flatVecs, length_flatVecs]), dotL_append (by rw [length_flatVecs, length_flatVecs])]
    simp only [dotL_vecs, lin_point, turn_dot, show ∀ v, g.lin.vec v = g.vec v from fun _ => rfl]
  | @Mfd.frame _ n _ _ _ _, o => by
    simp only [Mfd.withGd, Mfd.withCot, Mfd.move, Mfd.unrollGd, Mfd.unrollCot, List.flatten_cons, List.flatten_nil, List.append_nil]
    rw [dotL_append (by rw [length_flatVecs, length_flatVecs]), dotL_append (by rw [length_flatVecs, length_flatVecs])]
    simp only [dotL_vecs, dotL_mats, lin_point, turn_dot, show g.lin.Q = g.Q from rfl, turn_trace]
  | .empty, o => by simp [Mfd.withGd, Mfd.withCot, Mfd.move, Mfd.unrollGd, Mfd.unrollCot]
  | .compound ms, o => by
    simp only [Mfd.withGd, Mfd.withCot, Mfd.move, Mfd.unrollGd, Mfd.unrollCot]
    exact dotL_turns g x y ms o
theorem dotL_turns (g : Rigid d) (x y : Row) : (Ms : List (Mfd d)) → (o : Nat) →
    dotL (Mfd.unrollGdAll (Mfd.moveAll g.lin (Mfd.withGdAll x o Ms))).flatten (Mfd.unrollCotAll (Mfd.moveAll g (Mfd.withCotAll y o Ms))).flatten
      = dotL (Mfd.unrollGdAll (Mfd.withGdAll x o Ms)).flatten (Mfd.unrollCotAll (Mfd.withCotAll y o Ms)).flatten
  | [], o => by simp [Mfd.withGdAll, Mfd.withCotAll, Mfd.moveAll, Mfd.unrollGdAll, Mfd.unrollCotAll]
  | M :: Ms, o => by
    simp only [Mfd.withGdAll, Mfd.withCotAll, Mfd.moveAll, Mfd.unrollGdAll, Mfd.unrollCotAll, List.flatten_append]
    rw [dotL_append (by rw [length_move_unroll, length_move_unrollCot]),
      dotL_append (by rw [Mfd.length_unrollGd, Mfd.length_unrollCot, Mfd.size_withGd, Mfd.size_withCot]), dotL_turn g x y M, dotL_turns g x y Ms]
end

/-- The same for rows. -/
theorem rows_turn (g : Rigid d) (M : Mfd d) (x y : Row) :
    ∑ j : Fin M.size, gdTurn g M x j * cotTurn g M y j = ∑ j : Fin M.size, x j * y j := by
  have h := dotL_turn g x y M 0
  rw [dotL_rows (length_move_unroll g.lin M x 0) (length_move_unrollCot g M y 0),
    dotL_rows (by rw [Mfd.length_unrollGd, Mfd.size_withGd]) (by rw [Mfd.length_unrollCot, Mfd.size_withCot])] at h
  refine h.trans (Finset.sum_congr rfl fun j _ => ?_)
  rw [rowOf_of_starts (Mfd.starts_withGd x M 0), rowOf_of_starts (Mfd.starts_withCot y M 0), Mfd.length_unrollGd, Mfd.size_withGd,
    Mfd.length_unrollCot, Mfd.size_withCot, cut_of_lt j.2, cut_of_lt j.2]

/-- Two maps that keep products: covectors turn by the second when vectors turn by the first. -/
theorem dual_turn {N : Nat} (G C : (Fin N → ℝ) →ₗ[ℝ] (Fin N → ℝ)) (h : ∀ v u, G v ⬝ᵥ C u = v ⬝ᵥ u) {A B : Fin N → ℝ}
    (hAB : ∀ v, G v ⬝ᵥ A = v ⬝ᵥ B) : A = C B := by
  have hinj : Function.Injective G := by
    rw [← LinearMap.ker_eq_bot, LinearMap.ker_eq_bot']
    intro v hv
    have := h v v
    rw [hv, zero_dotProduct] at this
    exact dotProduct_self_eq_zero.1 this.symm
  have hsurj := LinearMap.injective_iff_surjective.1 hinj
  obtain ⟨v, hv⟩ := hsurj (A - C B)
  have h0 : (A - C B) ⬝ᵥ (A - C B) = 0 := by
    have : G v ⬝ᵥ (A - C B) = 0 := by rw [dotProduct_sub, hAB, h, sub_self]
    rwa [hv] at this
  exact sub_eq_zero.1 (dotProduct_self_eq_zero.1 h0)

theorem mfd_withGd_cut (M : Mfd d) (x : Row) : M.withGd (cut M.size x) 0 = M.withGd x 0 := by
  have h := Mfd.withGd_of_starts (M.withGd x 0) (starts_rowOf _)
  rwa [Mfd.withGd_withGd, rowOf_of_starts (Mfd.starts_withGd x M 0), Mfd.length_unrollGd, Mfd.size_withGd] at h
theorem mfd_withCot_cut (M : Mfd d) (x : Row) : M.withCot (cut M.size x) 0 = M.withCot x 0 := by
  have h := Mfd.withCot_of_starts (M.withCot x 0) (starts_rowOf _)
  rwa [Mfd.withCot_withCot, rowOf_of_starts (Mfd.starts_withCot x M 0), Mfd.length_unrollCot, Mfd.size_withCot] at h

theorem cut_congr {N : Nat} {x y : Row} (h : ∀ j < N, x j = y j) : cut N x = cut N y := by
  funext j; unfold cut; split
  · exact h j (by assumption)
  · rfl

theorem gdTurn_congr (g : Rigid d) (M : Mfd d) {x y : Row} (h : ∀ j < M.size, x j = y j) : gdTurn g M x = gdTurn g M y := by
  show gdMotion g.lin M x = gdMotion g.lin M y
  unfold gdMotion
  rw [← mfd_withGd_cut M x, ← mfd_withGd_cut M y, cut_congr h]
theorem cotTurn_congr (g : Rigid d) (M : Mfd d) {x y : Row} (h : ∀ j < M.size, x j = y j) : cotTurn g M x = cotTurn g M y := by
  show cotMotion g M x = cotMotion g M y
  unfold cotMotion
  rw [← mfd_withCot_cut M x, ← mfd_withCot_cut M y, cut_congr h]

/-- A linear map of rows on the first entries. -/
def finMap (N : Nat) (L : Row →ₗ[ℝ] Row) : (Fin N → ℝ) →ₗ[ℝ] (Fin N → ℝ) where
  toFun v := fun j => L (extRow v) j
  map_add' v w := by
    have : extRow (v + w) = extRow v + extRow w := by
      funext j; rw [Pi.add_apply]; unfold extRow; split <;> simp
    funext j
    rw [this, map_add]; rfl
  map_smul' c v := by
    have : extRow (c • v) = c • extRow v := by
      funext j; rw [Pi.smul_apply]; unfold extRow; split <;> simp
    funext j
    rw [this, map_smul]; rfl

theorem finMap_turn (g : Rigid d) (M : Mfd d) (v u : Fin M.size → ℝ) :
    finMap M.size (gdTurn g M) v ⬝ᵥ finMap M.size (cotTurn g M) u = v ⬝ᵥ u := by
  have := rows_turn g M (extRow v) (extRow u)
  refine this.trans (Finset.sum_congr rfl fun j _ => ?_)
  rw [extRow_lt _ j.2, extRow_lt _ j.2]

/-- If one function is the other after a rigid motion, then its derivatives are the turned derivatives of the
other. -/
theorem partial_turn {g : Rigid d} {M : Mfd d} {F F' : Row → Row → ℝ} (hF : RowReads M.size F) (hF' : RowReads M.size F')
    (hinv : ∀ q p, F' (gdMotion g M q) (cotMotion g M p) = F q p) {x : Row × Row} (hd : DifferentiableAt ℝ (rowFn M.size F) (entries M.size x))
    (hd' : DifferentiableAt ℝ (rowFn M.size F') (entries M.size (rowsMove g M x))) :
    (∀ j < M.size, partialQ F' (gdMotion g M x.1) (cotMotion g M x.2) j = cotTurn g M (partialQ F x.1 x.2) j) ∧
      ∀ j < M.size, partialP F' (gdMotion g M x.1) (cotMotion g M x.2) j = gdTurn g M (partialP F x.1 x.2) j := by
  have hq : ∀ v : Row, ∑ j : Fin M.size, gdTurn g M v j * partialQ F' (gdMotion g M x.1) (cotMotion g M x.2) j
      = ∑ j : Fin M.size, v j * partialQ F x.1 x.2 j := fun v => by
    have h1 := ham_curve hF' hd' (γ := fun s => gdMotion g M (x.1 + s • v)) (δ := fun _ => cotMotion g M x.2) (t₀ := 0)
      (a := gdTurn g M v) (b := 0) (fun j _ => by simp [rowsMove]) (fun j _ => rfl)
      (fun j _ => by
        simp only [gdMotion_add, map_smul, Pi.add_apply, Pi.smul_apply, smul_eq_mul]
        simpa using ((hasDerivAt_id (0 : ℝ)).mul_const (gdTurn g M v j)).const_add (gdMotion g M x.1 j))
      (fun j _ => hasDerivAt_const _ _)
    have h2 := ham_curve hF hd (γ := fun s => x.1 + s • v) (δ := fun _ => x.2) (t₀ := 0) (a := v) (b := 0) (fun j _ => by simp) (fun j _ => rfl)
      (fun j _ => by
        have := ((hasDerivAt_id (0 : ℝ)).mul_const (v j)).const_add (x.1 j)
        simpa using this)
      (fun j _ => hasDerivAt_const _ _)
    simp only [hinv] at h1
    simpa [rowsMove] using h1.unique h2
  have hp : ∀ v : Row, ∑ j : Fin M.size, cotTurn g M v j * partialP F' (gdMotion g M x.1) (cotMotion g M x.2) j
      = ∑ j : Fin M.size, v j * partialP F x.1 x.2 j := fun v => by
    have h1 := ham_curve hF' hd' (γ := fun _ => gdMotion g M x.1) (δ := fun s => cotMotion g M (x.2 + s • v)) (t₀ := 0)
      (a := 0) (b := cotTurn g M v) (fun j _ => rfl) (fun j _ => by simp [rowsMove]) (fun j _ => hasDerivAt_const _ _)
      (fun j _ => by
        simp only [cotMotion_add, map_smul, Pi.add_apply, Pi.smul_apply, smul_eq_mul]
        simpa using ((hasDerivAt_id (0 : ℝ)).mul_const (cotTurn g M v j)).const_add (cotMotion g M x.2 j))
    have h2 := ham_curve hF hd (γ := fun _ => x.1) (δ := fun s => x.2 + s • v) (t₀ := 0) (a := 0) (b := v) (fun j _ => rfl) (fun j _ => by simp)
      (fun j _ => hasDerivAt_const _ _)
      (fun j _ => by
        have := ((hasDerivAt_id (0 : ℝ)).mul_const (v j)).const_add (x.2 j)
        simpa using this)
    simp only [hinv] at h1
    simpa [rowsMove] using h1.unique h2
  constructor
  · have := dual_turn (finMap M.size (gdTurn g M)) (finMap M.size (cotTurn g M)) (finMap_turn g M)
      (A := fun j => partialQ F' (gdMotion g M x.1) (cotMotion g M x.2) j) (B := fun j => partialQ F x.1 x.2 j) fun v => by
        refine (hq (extRow v)).trans (Finset.sum_congr rfl fun j _ => ?_)
        rw [extRow_lt _ j.2]
    intro j hj
    refine (congrFun this ⟨j, hj⟩).trans ?_
    show cotTurn g M (extRow _) j = _
    rw [cotTurn_congr g M fun k hk => extRow_lt _ hk]
  · have := dual_turn (finMap M.size (cotTurn g M)) (finMap M.size (gdTurn g M)) (fun v u => by rw [dotProduct_comm, finMap_turn, dotProduct_comm])
      (A := fun j => partialP F' (gdMotion g M x.1) (cotMotion g M x.2) j) (B := fun j => partialP F x.1 x.2 j) fun v => by
        refine (hp (extRow v)).trans (Finset.sum_congr rfl fun j _ => ?_)
        rw [extRow_lt _ j.2]
    intro j hj
    refine (congrFun this ⟨j, hj⟩).trans ?_
    show gdTurn g M (extRow _) j = _
    rw [gdTurn_congr g M fun k hk => extRow_lt _ hk]

/-- Derivatives read the first entries. -/
theorem partials_congr {N : Nat} {F : Row → Row → ℝ} (hF : RowReads N F) {q q' p p' : Row} (h : ∀ j < N, q j = q' j) (h' : ∀ j < N, p j = p' j) :
    (∀ j < N, partialQ F q p j = partialQ F q' p' j) ∧ ∀ j < N, partialP F q p j = partialP F q' p' j := by
  have hu : ∀ {q q' : Row} (_ : ∀ j < N, q j = q' j) (j : Nat) (s : ℝ), ∀ k < N, Function.update q j s k = Function.update q' j s k := by
    intro q q' h j s k hk
    by_cases e : k = j
    · subst e; simp
    · rw [Function.update_of_ne e, Function.update_of_ne e]; exact h k hk
  constructor
  · intro j hj
    unfold partialQ
    rw [h j hj]
    congr 1
    funext s
    exact hF (hu h j s) h'
  · intro j hj
    unfold partialP
    rw [h' j hj]
    congr 1
    funext s
    exact hF h (hu h' j s)

theorem hamFn_reads (P : DefModule d → Py (DefModule d)) (m : DefModule d) : RowReads (numCoords m) fun q p => valD (hamFn P m q p) := fun _ _ _ _ h h' => by
  show valD _ = valD _
  have := rowsMod_congr m (x := (_, _)) (y := (_, _)) h h'
  unfold hamFn
  rw [withRows_eq, withRows_eq]
  unfold rowsMod at this
  dsimp only at this ⊢
  rw [this]

theorem gradH_rows {P : DefModule d → Py (DefModule d)} (hP : ResetFree P) (m : DefModule d) (x : Row × Row) :
    gradH P (rowsMod m x) = (cut (numCoords m) (partialQ (fun q p => valD (hamFn P m q p)) x.1 x.2),
      cut (numCoords m) (partialP (fun q p => valD (hamFn P m q p)) x.1 x.2)) := by
  unfold gradH
  dsimp only
  have e : (fun q p => valD (hamFn P (rowsMod m x) q p)) = fun q p => valD (hamFn P m q p) := by
    funext q p; rw [hamFn_same hP (same_rowsMod m x)]
  rw [e, numCoords_rowsMod, gdRow_rowsMod, cotRow_rowsMod]
  have := partials_congr (hamFn_reads P m) (q := cut (numCoords m) x.1) (q' := x.1) (p := cut (numCoords m) x.2) (p' := x.2)
    (fun j hj => cut_of_lt hj) fun j hj => cut_of_lt hj
  rw [cut_congr this.1, cut_congr this.2]

/-- The Hamiltonian with prepared controls is differentiable wherever the preparation succeeds. -/
def SmoothAt (P : DefModule d → Py (DefModule d)) (m : DefModule d) : Prop :=
  ∀ x m', P (rowsMod m x) = .ok m' → DifferentiableAt ℝ (rowFn (numCoords m) fun q p => valD (hamFn P m q p)) (entries (numCoords m) x)

theorem cut_turn (g : Rigid d) (M : Mfd d) (x : Row) : cut M.size (gdTurn g M x) = gdTurn g M x ∧ cut M.size (cotTurn g M x) = cotTurn g M x := by
  constructor
  · show cut _ (rowOf _) = rowOf _
    funext j
    unfold cut
    split
    · rfl
    · rename_i h
      rw [rowOf, List.getD_eq_getElem?_getD, List.getElem?_eq_none (by rw [length_move_unroll]; omega)]; rfl
  · show cut _ (rowOf _) = rowOf _
    funext j
    unfold cut
    split
    · rfl
    · rename_i h
      rw [rowOf, List.getD_eq_getElem?_getD, List.getElem?_eq_none (by rw [length_move_unrollCot]; omega)]; rfl

/-- Gradients of the Hamiltonian turn with the module. -/
theorem gradMoves_of_smooth {g : Rigid d} {P P' : DefModule d → Py (DefModule d)} (hP : PrepMoves g P P') (hR : ResetFree P) (hR' : ResetFree P')
    {m : DefModule d} (h : m.Movable g) (hs : SmoothAt P m) (hs' : SmoothAt P' (m.move g)) : GradMoves g P P' m := fun x m' hx => by
  have hN : numCoords (m.move g) = m.manifold.size := by rw [numCoords_move, numCoords_eq]
  have hx' : P' (rowsMod (m.move g) (rowsMove g m.manifold x)) = .ok (m'.move g) := by
    rw [rowsMod_move, hP.map _ ((movable_rowsMod g x m).2 h), hx]; rfl
  have hd := hs x m' hx
  have hd' := hs' _ _ hx'
  have hr := hamFn_reads P m
  have hr' := hamFn_reads P' (m.move g)
  rw [hN] at hd' hr'
  rw [numCoords_eq] at hd hr
  have key := partial_turn (g := g) hr hr' (fun q p => by rw [hamFn_move hP h]) hd hd'
  rw [← rowsMod_move, gradH_rows hR', gradH_rows hR, hN, numCoords_eq]
  dsimp only [rowsMove]
  rw [cut_congr key.1, cut_congr key.2, (cut_turn g _ _).1, (cut_turn g _ _).2,
    cotTurn_congr g m.manifold fun j hj => cut_of_lt hj, gdTurn_congr g m.manifold fun j hj => cut_of_lt hj]

theorem SmoothAt.same {P : DefModule d → Py (DefModule d)} (hR : ResetFree P) {m m' : DefModule d} (hN : numCoords m' = numCoords m) (h : Same m' m)
    (hs : SmoothAt P m) : SmoothAt P m' := fun x m1 hx => by
  have e : (fun q p => valD (hamFn P m' q p)) = fun q p => valD (hamFn P m q p) := by
    funext q p; rw [hamFn_same hR h]
  rw [e, hN]
  exact hs x m1 (by rw [← hR _ _ (h x)]; exact hx)

theorem smoothAt_geodesic {m : DefModule d} (h : m.Smooth 1) : SmoothAt Hamiltonian.geodesicControls m := fun _ m' hx =>
  (hamV_contDiffAt h ⟨m', hx⟩).2.differentiableAt one_ne_zero

theorem gradMoves_geodesic {g : Rigid d} {m : DefModule d} (h : m.Movable g) (hs : m.Smooth 1) :
    GradMoves g Hamiltonian.geodesicControls Hamiltonian.geodesicControls m :=
  gradMoves_of_smooth (prep_geodesic g) geodesic_resetFree geodesic_resetFree h (smoothAt_geodesic hs)
    ((smoothAt_geodesic hs).same geodesic_resetFree (numCoords_move g m) (same_move g m))

end
end Imodal
