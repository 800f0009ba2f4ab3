import Verif.Lemmas.RigidAll
import Verif.Lemmas.Shoot
/-!
# Rigid motions of the rows of the state vector
-/
set_option autoImplicit false
namespace Imodal
noncomputable section
open Matrix
variable {d : Nat}

/-- The linear part. -/
def Rigid.lin (g : Rigid d) : Rigid d := ⟨g.Q, 0, g.orth⟩

theorem Rigid.point_add (g : Rigid d) (x v : Vec d) : g.point (x + v) = g.point x + g.lin.point v := by
  unfold Rigid.point Rigid.lin
  rw [Matrix.mulVec_add, add_zero, add_right_comm]

/-! ## Structure -/

mutual
theorem size_move (g : Rigid d) : (m : Mfd d) → (m.move g).size = m.size
  | .landmarks _ _ => by rw [Mfd.move, Mfd.size, Mfd.size]
  | .direction _ _ _ _ _ => by rw [Mfd.move, Mfd.size, Mfd.size]
  | .frame _ _ _ _ => by rw [Mfd.move, Mfd.size, Mfd.size]
  | .empty => by rw [Mfd.move]
  | .compound ms => by rw [Mfd.move, Mfd.size, Mfd.size, sizeAll_move g ms]
theorem sizeAll_move (g : Rigid d) : (ms : List (Mfd d)) → Mfd.sizeAll (Mfd.moveAll g ms) = Mfd.sizeAll ms
  | [] => by rw [Mfd.moveAll]
  | m :: ms => by rw [Mfd.moveAll, Mfd.sizeAll, Mfd.sizeAll, size_move g m, sizeAll_move g ms]
end

mutual
theorem mfd_move_withGd (g : Rigid d) (x y : Row) : (m : Mfd d) → (o o' : Nat) → ((m.withGd x o).move g).withGd y o' = (m.move g).withGd y o'
  | .landmarks _ _, _, _ => by simp [Mfd.withGd, Mfd.move]
  | .direction _ _ _ _ _, _, _ => by simp [Mfd.withGd, Mfd.move]
  | .frame _ _ _ _, _, _ => by simp [Mfd.withGd, Mfd.move]
  | .empty, _, _ => by simp [Mfd.withGd, Mfd.move]
  | .compound ms, o, o' => by rw [Mfd.withGd, Mfd.move, Mfd.withGd, Mfd.move, Mfd.withGd, mfds_move_withGd g x y ms]
theorem mfds_move_withGd (g : Rigid d) (x y : Row) : (ms : List (Mfd d)) → (o o' : Nat) →
    Mfd.withGdAll y o' (Mfd.moveAll g (Mfd.withGdAll x o ms)) = Mfd.withGdAll y o' (Mfd.moveAll g ms)
  | [], _, _ => by simp [Mfd.withGdAll, Mfd.moveAll]
  | m :: ms, o, o' => by
    rw [Mfd.withGdAll, Mfd.moveAll, Mfd.withGdAll, Mfd.moveAll, Mfd.withGdAll, mfd_move_withGd g x y m, mfds_move_withGd g x y ms,
      size_move, size_move, Mfd.size_withGd]
end

mutual
theorem mfd_move_withCot (g : Rigid d) (x y : Row) : (m : Mfd d) → (o o' : Nat) → ((m.withCot x o).move g).withCot y o' = (m.move g).withCot y o'
  | .landmarks _ _, _, _ => by simp [Mfd.withCot, Mfd.move]
  | .direction _ _ _ _ _, _, _ => by simp [Mfd.withCot, Mfd.move]
  | .frame _ _ _ _, _, _ => by simp [Mfd.withCot, Mfd.move]
  | .empty, _, _ => by simp [Mfd.withCot, Mfd.move]
  | .compound ms, o, o' => by rw [Mfd.withCot, Mfd.move, Mfd.withCot, Mfd.move, Mfd.withCot, mfds_move_withCot g x y ms]
theorem mfds_move_withCot (g : Rigid d) (x y : Row) : (ms : List (Mfd d)) → (o o' : Nat) →
    Mfd.withCotAll y o' (Mfd.moveAll g (Mfd.withCotAll x o ms)) = Mfd.withCotAll y o' (Mfd.moveAll g ms)
  | [], _, _ => by simp [Mfd.withCotAll, Mfd.moveAll]
  | m :: ms, o, o' => by
    rw [Mfd.withCotAll, Mfd.moveAll, Mfd.withCotAll, Mfd.moveAll, Mfd.withCotAll, mfd_move_withCot g x y m, mfds_move_withCot g x y ms,
      size_move, size_move, Mfd.size_withCot]
end

mutual
theorem move_withGd (g : Rigid d) (x y : Row) : (m : DefModule d) → (o o' : Nat) → ((m.withGd x o).move g).withGd y o' = (m.move g).withGd y o'
  | .translations _, _, _ => by simp [DefModule.withGd, DefModule.move]
  | .implicit0 _, _, _ => by simp [DefModule.withGd, DefModule.move]
  | .oriented _, _, _ => by simp [DefModule.withGd, DefModule.move]
  | .constrained _, _, _ => by simp [DefModule.withGd, DefModule.move]
  | .globalTranslation _, _, _ => by simp [DefModule.withGd, DefModule.move]
  | .linear _, _, _ => by simp [DefModule.withGd, DefModule.move]
  | .implicit1 _, _, _ => by simp [DefModule.withGd, DefModule.move]
  | .divFree _, _, _ => by simp [DefModule.withGd, DefModule.move]
  | .arap _, _, _ => by simp [DefModule.withGd, DefModule.move]
  | .silent man, o, o' => by rw [DefModule.withGd, DefModule.move, DefModule.withGd, DefModule.move, DefModule.withGd, mfd_move_withGd g x y man]
  | .compound ms, o, o' => by rw [DefModule.withGd, DefModule.move, DefModule.withGd, DefModule.move, DefModule.withGd, moveAll_withGd g x y ms]
theorem moveAll_withGd (g : Rigid d) (x y : Row) : (ms : List (DefModule d)) → (o o' : Nat) →
    DefModule.withGdAll y o' (DefModule.moveAll g (DefModule.withGdAll x o ms)) = DefModule.withGdAll y o' (DefModule.moveAll g ms)
  | [], _, _ => by simp [DefModule.withGdAll, DefModule.moveAll]
  | m :: ms, o, o' => by
    rw [DefModule.withGdAll, DefModule.moveAll, DefModule.withGdAll, DefModule.moveAll, DefModule.withGdAll, move_withGd g x y m,
      moveAll_withGd g x y ms, manifold_move, manifold_move, size_move, size_move, DefModule.manifold_withGd, Mfd.size_withGd]
end

mutual
theorem move_withCot (g : Rigid d) (x y : Row) : (m : DefModule d) → (o o' : Nat) → ((m.withCot x o).move g).withCot y o' = (m.move g).withCot y o'
  | .translations _, _, _ => by simp [DefModule.withCot, DefModule.move]
  | .implicit0 _, _, _ => by simp [DefModule.withCot, DefModule.move]
  | .oriented _, _, _ => by simp [DefModule.withCot, DefModule.move]
  | .constrained _, _, _ => by simp [DefModule.withCot, DefModule.move]
  | .globalTranslation _, _, _ => by simp [DefModule.withCot, DefModule.move]
  | .linear _, _, _ => by simp [DefModule.withCot, DefModule.move]
  | .implicit1 _, _, _ => by simp [DefModule.withCot, DefModule.move]
  | .divFree _, _, _ => by simp [DefModule.withCot, DefModule.move]
  | .arap _, _, _ => by simp [DefModule.withCot, DefModule.move]
  | .silent man, o, o' => by rw [DefModule.withCot, DefModule.move, DefModule.withCot, DefModule.move, DefModule.withCot, mfd_move_withCot g x y man]
  | .compound ms, o, o' => by rw [DefModule.withCot, DefModule.move, DefModule.withCot, DefModule.move, DefModule.withCot, moveAll_withCot g x y ms]
theorem moveAll_withCot (g : Rigid d) (x y : Row) : (ms : List (DefModule d)) → (o o' : Nat) →
    DefModule.withCotAll y o' (DefModule.moveAll g (DefModule.withCotAll x o ms)) = DefModule.withCotAll y o' (DefModule.moveAll g ms)
  | [], _, _ => by simp [DefModule.withCotAll, DefModule.moveAll]
  | m :: ms, o, o' => by
    rw [DefModule.withCotAll, DefModule.moveAll, DefModule.withCotAll, DefModule.moveAll, DefModule.withCotAll, move_withCot g x y m,
      moveAll_withCot g x y ms, manifold_move, manifold_move, size_move, size_move, DefModule.manifold_withCot, Mfd.size_withCot]
end

/-! ## The motion of a row -/

/-- How the row of descriptors changes. -/
def gdMotion (g : Rigid d) (M : Mfd d) (x : Row) : Row := rowOf ((M.withGd x 0).move g).unrollGd.flatten
/-- How the row of momenta changes. -/
def cotMotion (g : Rigid d) (M : Mfd d) (x : Row) : Row := rowOf ((M.withCot x 0).move g).unrollCot.flatten

theorem withGd_gdMotion (g : Rigid d) (m : DefModule d) (x : Row) : (m.move g).withGd (gdMotion g m.manifold x) 0 = (m.withGd x 0).move g := by
  rw [← move_withGd g x _ m 0 0]
  have : gdMotion g m.manifold x = gdRow ((m.withGd x 0).move g) := by
    rw [gdRow, manifold_move, DefModule.manifold_withGd]; rfl
  rw [this, DefModule.withGd_gdRow]

theorem withCot_cotMotion (g : Rigid d) (m : DefModule d) (x : Row) : (m.move g).withCot (cotMotion g m.manifold x) 0 = (m.withCot x 0).move g := by
  rw [← move_withCot g x _ m 0 0]
  have : cotMotion g m.manifold x = cotRow ((m.withCot x 0).move g) := by
    rw [cotRow, manifold_move, DefModule.manifold_withCot]; rfl
  rw [this, DefModule.withCot_cotRow]

mutual
theorem unrollCot_move_withGd (g : Rigid d) (x y : Row) : (m : Mfd d) → (o o' : Nat) →
    (((m.withGd y o').withCot x o).move g).unrollCot = ((m.withCot x o).move g).unrollCot
  | .landmarks _ _, _, _ => by simp [Mfd.withGd, Mfd.withCot, Mfd.move, Mfd.unrollCot]
  | .direction _ _ _ _ _, _, _ => by simp [Mfd.withGd, Mfd.withCot, Mfd.move, Mfd.unrollCot]
  | .frame _ _ _ _, _, _ => by simp [Mfd.withGd, Mfd.withCot, Mfd.move, Mfd.unrollCot]
  | .empty, _, _ => by simp [Mfd.withGd, Mfd.withCot, Mfd.move, Mfd.unrollCot]
  | .compound ms, o, o' => by
    rw [Mfd.withGd, Mfd.withCot, Mfd.move, Mfd.unrollCot, Mfd.withCot, Mfd.move, Mfd.unrollCot, unrollCotAll_move_withGd g x y ms]
theorem unrollCotAll_move_withGd (g : Rigid d) (x y : Row) : (ms : List (Mfd d)) → (o o' : Nat) →
    Mfd.unrollCotAll (Mfd.moveAll g (Mfd.withCotAll x o (Mfd.withGdAll y o' ms))) = Mfd.unrollCotAll (Mfd.moveAll g (Mfd.withCotAll x o ms))
  | [], _, _ => by simp [Mfd.withGdAll, Mfd.withCotAll, Mfd.moveAll]
  | m :: ms, o, o' => by
    rw [Mfd.withGdAll, Mfd.withCotAll, Mfd.moveAll, Mfd.unrollCotAll, Mfd.withCotAll, Mfd.moveAll, Mfd.unrollCotAll,
      unrollCot_move_withGd g x y m, unrollCotAll_move_withGd g x y ms, Mfd.size_withGd]
end

theorem cotMotion_withGd (g : Rigid d) (M : Mfd d) (x y : Row) : cotMotion g (M.withGd y 0) x = cotMotion g M x := by
  unfold cotMotion
  rw [unrollCot_move_withGd]

/-- Moving the state vector. -/
def rowsMove (g : Rigid d) (M : Mfd d) (x : Row × Row) : Row × Row := (gdMotion g M x.1, cotMotion g M x.2)

theorem rowsMod_move (g : Rigid d) (m : DefModule d) (x : Row × Row) : rowsMod (m.move g) (rowsMove g m.manifold x) = (rowsMod m x).move g := by
  unfold rowsMod rowsMove
  dsimp only
  rw [withGd_gdMotion, ← cotMotion_withGd g m.manifold x.2 x.1, ← DefModule.manifold_withGd, withCot_cotMotion]

theorem numCoords_move (g : Rigid d) (m : DefModule d) : numCoords (m.move g) = numCoords m := by
  rw [numCoords_eq, numCoords_eq, manifold_move, size_move]

theorem gdMotion_row (g : Rigid d) (M : Mfd d) : gdMotion g M (rowOf M.unrollGd.flatten) = rowOf (M.move g).unrollGd.flatten := by
  unfold gdMotion; rw [Mfd.withGd_of_starts M (starts_rowOf _)]
theorem cotMotion_row (g : Rigid d) (M : Mfd d) : cotMotion g M (rowOf M.unrollCot.flatten) = rowOf (M.move g).unrollCot.flatten := by
  unfold cotMotion; rw [Mfd.withCot_of_starts M (starts_rowOf _)]

theorem gdRow_move (g : Rigid d) (m : DefModule d) : gdRow (m.move g) = gdMotion g m.manifold (gdRow m) := by
  rw [gdRow, manifold_move, gdRow, gdMotion_row]
theorem cotRow_move (g : Rigid d) (m : DefModule d) : cotRow (m.move g) = cotMotion g m.manifold (cotRow m) := by
  rw [cotRow, manifold_move, cotRow, cotMotion_row]

/-! ## Linearity -/

theorem length_zipAdd {l l' : List ℝ} (h : l.length = l'.length) : (List.zipWith (· + ·) l l').length = l.length := by
  rw [List.length_zipWith, h, Nat.min_self]

theorem rowOf_zipAdd {l l' : List ℝ} (h : l.length = l'.length) : rowOf (List.zipWith (· + ·) l l') = rowOf l + rowOf l' := by
  funext j
  rw [Pi.add_apply]
  by_cases hj : j < l.length
  · simp [rowOf, List.getD, hj, h ▸ hj]
  · have h' : ¬ j < l'.length := h ▸ hj
    simp [rowOf, List.getD, hj, h']

theorem rowOf_mapMul (c : ℝ) (l : List ℝ) : rowOf (l.map (c * ·)) = c • rowOf l := by
  funext j
  rw [Pi.smul_apply]
  by_cases hj : j < l.length
  · simp [rowOf, List.getD, hj]
  · simp [rowOf, List.getD, hj]

theorem flatVecs_zip {n : Nat} (a b : Fin n → Vec d) : flatVecs (fun i => a i + b i) = List.zipWith (· + ·) (flatVecs a) (flatVecs b) := by
  refine List.ext_getElem (by simp [flatVecs]) fun j h1 h2 => ?_
  simp [flatVecs]
theorem flatMats_zip {n : Nat} (a b : Fin n → Mat d) : flatMats (fun i => a i + b i) = List.zipWith (· + ·) (flatMats a) (flatMats b) := by
  refine List.ext_getElem (by simp [flatMats]) fun j h1 h2 => ?_
  simp [flatMats]
theorem flatVecs_mul {n : Nat} (c : ℝ) (a : Fin n → Vec d) : flatVecs (fun i => c • a i) = (flatVecs a).map (c * ·) := by
  refine List.ext_getElem (by simp [flatVecs]) fun j h1 h2 => ?_
  simp [flatVecs]
theorem flatMats_mul {n : Nat} (c : ℝ) (a : Fin n → Mat d) : flatMats (fun i => c • a i) = (flatMats a).map (c * ·) := by
  refine List.ext_getElem (by simp [flatMats]) fun j h1 h2 => ?_
  simp [flatMats]

theorem viewVecs_add {n : Nat} (x y : Row) : (viewVecs (fun j => (x + y) j) : Fin n → Vec d) = fun i => viewVecs x i + viewVecs y i := rfl
theorem viewMats_add {n : Nat} (x y : Row) : (viewMats (fun j => (x + y) j) : Fin n → Mat d) = fun i => viewMats x i + viewMats y i := rfl

theorem zipAdd_two {a a' b b' : List ℝ} (h : a.length = a'.length) :
    List.zipWith (· + ·) (a ++ (b ++ [])) (a' ++ (b' ++ [])) = List.zipWith (· + ·) a a' ++ (List.zipWith (· + ·) b b' ++ []) := by
  rw [List.append_nil, List.append_nil, List.append_nil, List.zipWith_append h]

theorem length_move_unroll (g : Rigid d) (M : Mfd d) (x : Row) (o : Nat) : ((M.withGd x o).move g).unrollGd.flatten.length = M.size := by
  rw [Mfd.length_unrollGd, size_move, Mfd.size_withGd]
theorem lengths_move_unroll (g : Rigid d) (M : List (Mfd d)) (x : Row) (o : Nat) :
    (Mfd.unrollGdAll (Mfd.moveAll g (Mfd.withGdAll x o M))).flatten.length = Mfd.sizeAll M := by
  rw [Mfd.length_unrollGdAll, sizeAll_move, Mfd.size_withGdAll]
theorem length_move_unrollCot (g : Rigid d) (M : Mfd d) (x : Row) (o : Nat) : ((M.withCot x o).move g).unrollCot.flatten.length = M.size := by
  rw [Mfd.length_unrollCot, size_move, Mfd.size_withCot]

theorem point_view_add (g : Rigid d) {n : Nat} (x y : Row) : (fun i : Fin n => g.point (viewVecs (fun j => (x + y) j) i))
    = fun i => g.point (viewVecs x i) + g.lin.point (viewVecs y i) := funext fun i => g.point_add _ _
theorem vec_view_add (g : Rigid d) {n : Nat} (x y : Row) : (fun i : Fin n => g.vec (viewVecs (fun j => (x + y) j) i))
    = fun i => g.vec (viewVecs x i) + g.lin.vec (viewVecs y i) := funext fun i => Matrix.mulVec_add _ _ _
theorem mat_view_add (g : Rigid d) {n : Nat} (x y : Row) : (fun i : Fin n => g.Q * (viewMats (fun j => (x + y) j) i : Mat d))
    = fun i => g.Q * viewMats x i + g.lin.Q * viewMats y i := funext fun i => Matrix.mul_add _ _ _

mutual
theorem unroll_add (g : Rigid d) (x y : Row) : (M : Mfd d) → (o : Nat) → ((M.withGd (x + y) o).move g).unrollGd.flatten
    = List.zipWith (· + ·) ((M.withGd x o).move g).unrollGd.flatten ((M.withGd y o).move g.lin).unrollGd.flatten
  | .landmarks _ _, o => by
    simp only [Mfd.withGd, Mfd.move, Mfd.unrollGd, List.flatten_cons, List.flatten_nil, List.append_nil]
    exact (congrArg flatVecs (point_view_add g (fun j => x (o + j)) (fun j => y (o + j)))).trans (flatVecs_zip _ _)
  | @Mfd.direction _ _ n _ _ _ _, o => by
    simp only [Mfd.withGd, Mfd.move, Mfd.unrollGd, List.flatten_cons, List.flatten_nil]
    rw [zipAdd_two (by rw [length_flatVecs, length_flatVecs])]
    exact congrArg₂ (fun a b => a ++ (b ++ []))
      ((congrArg flatVecs (point_view_add g (fun j => x (o + j)) (fun j => y (o + j)))).trans (flatVecs_zip _ _))
      ((congrArg flatVecs (vec_view_add g (fun j => x (o + n * d + j)) (fun j => y (o + n * d + j)))).trans (flatVecs_zip _ _))
  | @Mfd.frame _ n _ _ _ _, o => by
    simp only [Mfd.withGd, Mfd.move, Mfd.unrollGd, List.flatten_cons, List.flatten_nil]
    rw [zipAdd_two (by rw [length_flatVecs, length_flatVecs])]
    exact congrArg₂ (fun a b => a ++ (b ++ []))
      ((congrArg flatVecs (point_view_add g (fun j => x (o + j)) (fun j => y (o + j)))).trans (flatVecs_zip _ _))
      ((congrArg flatMats (mat_view_add g (fun j => x (o + n * d + j)) (fun j => y (o + n * d + j)))).trans (flatMats_zip _ _))
  | .empty, o => by simp [Mfd.withGd, Mfd.move, Mfd.unrollGd]
  | .compound ms, o => by
    simp only [Mfd.withGd, Mfd.move, Mfd.unrollGd]
    exact unrollAll_add g x y ms o
theorem unrollAll_add (g : Rigid d) (x y : Row) : (Ms : List (Mfd d)) → (o : Nat) →
    (Mfd.unrollGdAll (Mfd.moveAll g (Mfd.withGdAll (x + y) o Ms))).flatten
    = List.zipWith (· + ·) (Mfd.unrollGdAll (Mfd.moveAll g (Mfd.withGdAll x o Ms))).flatten
        (Mfd.unrollGdAll (Mfd.moveAll g.lin (Mfd.withGdAll y o Ms))).flatten
  | [], o => by simp [Mfd.withGdAll, Mfd.moveAll, Mfd.unrollGdAll]
  | M :: Ms, o => by
    simp only [Mfd.withGdAll, Mfd.moveAll, Mfd.unrollGdAll, List.flatten_append]
    rw [List.zipWith_append (by rw [length_move_unroll, length_move_unroll]), unroll_add g x y M, unrollAll_add g x y Ms]
end

mutual
theorem unrollCot_add (g : Rigid d) (x y : Row) : (M : Mfd d) → (o : Nat) → ((M.withCot (x + y) o).move g).unrollCot.flatten
    = List.zipWith (· + ·) ((M.withCot x o).move g).unrollCot.flatten ((M.withCot y o).move g).unrollCot.flatten
  | .landmarks _ _, o => by
    simp only [Mfd.withCot, Mfd.move, Mfd.unrollCot, List.flatten_cons, List.flatten_nil, List.append_nil]
    exact (congrArg flatVecs (vec_view_add g (fun j => x (o + j)) (fun j => y (o + j)))).trans (flatVecs_zip _ _)
  | @Mfd.direction _ _ n _ _ _ _, o => by
    simp only [Mfd.withCot, Mfd.move, Mfd.unrollCot, List.flatten_cons, List.flatten_nil]
    rw [zipAdd_two (by rw [length_flatVecs, length_flatVecs])]
    exact congrArg₂ (fun a b => a ++ (b ++ []))
      ((congrArg flatVecs (vec_view_add g (fun j => x (o + j)) (fun j => y (o + j)))).trans (flatVecs_zip _ _))
      ((congrArg flatVecs (vec_view_add g (fun j => x (o + n * d + j)) (fun j => y (o + n * d + j)))).trans (flatVecs_zip _ _))
  | @Mfd.frame _ n _ _ _ _, o => by
    simp only [Mfd.withCot, Mfd.move, Mfd.unrollCot, List.flatten_cons, List.flatten_nil]
    rw [zipAdd_two (by rw [length_flatVecs, length_flatVecs])]
    exact congrArg₂ (fun a b => a ++ (b ++ []))
      ((congrArg flatVecs (vec_view_add g (fun j => x (o + j)) (fun j => y (o + j)))).trans (flatVecs_zip _ _))
      ((congrArg flatMats (mat_view_add g (fun j => x (o + n * d + j)) (fun j => y (o + n * d + j)))).trans (flatMats_zip _ _))
  | .empty, o => by simp [Mfd.withCot, Mfd.move, Mfd.unrollCot]
  | .compound ms, o => by
    simp only [Mfd.withCot, Mfd.move, Mfd.unrollCot]
    exact unrollCotAll_add g x y ms o
theorem unrollCotAll_add (g : Rigid d) (x y : Row) : (Ms : List (Mfd d)) → (o : Nat) →
    (Mfd.unrollCotAll (Mfd.moveAll g (Mfd.withCotAll (x + y) o Ms))).flatten
    = List.zipWith (· + ·) (Mfd.unrollCotAll (Mfd.moveAll g (Mfd.withCotAll x o Ms))).flatten
        (Mfd.unrollCotAll (Mfd.moveAll g (Mfd.withCotAll y o Ms))).flatten
  | [], o => by simp [Mfd.withCotAll, Mfd.moveAll, Mfd.unrollCotAll]
  | M :: Ms, o => by
    simp only [Mfd.withCotAll, Mfd.moveAll, Mfd.unrollCotAll, List.flatten_append]
    rw [List.zipWith_append (by rw [length_move_unrollCot, length_move_unrollCot]), unrollCot_add g x y M, unrollCotAll_add g x y Ms]
end

theorem point_view_mul (g : Rigid d) {n : Nat} (c : ℝ) (x : Row) : (fun i : Fin n => g.lin.point (viewVecs (fun j => (c • x) j) i))
    = fun i => c • g.lin.point (viewVecs x i) := funext fun i => by
  unfold Rigid.point Rigid.lin
  dsimp only
  rw [add_zero, add_zero]
  exact Matrix.mulVec_smul _ _ _
theorem vec_view_mul (g : Rigid d) {n : Nat} (c : ℝ) (x : Row) : (fun i : Fin n => g.vec (viewVecs (fun j => (c • x) j) i))
    = fun i => c • g.vec (viewVecs x i) := funext fun i => Matrix.mulVec_smul _ _ _
theorem mat_view_mul (g : Rigid d) {n : Nat} (c : ℝ) (x : Row) : (fun i : Fin n => g.Q * (viewMats (fun j => (c • x) j) i : Mat d))
    = fun i => c • (g.Q * viewMats x i) := funext fun i => Matrix.mul_smul _ _ _

mutual
theorem unroll_mul (g : Rigid d) (c : ℝ) (x : Row) : (M : Mfd d) → (o : Nat) → ((M.withGd (c • x) o).move g.lin).unrollGd.flatten
    = ((M.withGd x o).move g.lin).unrollGd.flatten.map (c * ·)
  | .landmarks _ _, o => by
    simp only [Mfd.withGd, Mfd.move, Mfd.unrollGd, List.flatten_cons, List.flatten_nil, List.append_nil]
    exact (congrArg flatVecs (point_view_mul g c (fun j => x (o + j)))).trans (flatVecs_mul _ _)
  | @Mfd.direction _ _ n _ _ _ _, o => by
    simp only [Mfd.withGd, Mfd.move, Mfd.unrollGd, List.flatten_cons, List.flatten_nil, List.map_append, List.map_nil]
    exact congrArg₂ (fun a b => a ++ (b ++ []))
      ((congrArg flatVecs (point_view_mul g c (fun j => x (o + j)))).trans (flatVecs_mul _ _))
      ((congrArg flatVecs (vec_view_mul g.lin c (fun j => x (o + n * d + j)))).trans (flatVecs_mul _ _))
  | @Mfd.frame _ n _ _ _ _, o => by
    simp only [Mfd.withGd, Mfd.move, Mfd.unrollGd, List.flatten_cons, List.flatten_nil, List.map_append, List.map_nil]
    exact congrArg₂ (fun a b => a ++ (b ++ []))
      ((congrArg flatVecs (point_view_mul g c (fun j => x (o + j)))).trans (flatVecs_mul _ _))
      ((congrArg flatMats (mat_view_mul g.lin c (fun j => x (o + n * d + j)))).trans (flatMats_mul _ _))
  | .empty, o => by simp [Mfd.withGd, Mfd.move, Mfd.unrollGd]
  | .compound ms, o => by
    simp only [Mfd.withGd, Mfd.move, Mfd.unrollGd]
    exact unrollAll_mul g c x ms o
theorem unrollAll_mul (g : Rigid d) (c : ℝ) (x : Row) : (Ms : List (Mfd d)) → (o : Nat) →
    (Mfd.unrollGdAll (Mfd.moveAll g.lin (Mfd.withGdAll (c • x) o Ms))).flatten
    = (Mfd.unrollGdAll (Mfd.moveAll g.lin (Mfd.withGdAll x o Ms))).flatten.map (c * ·)
  | [], o => by simp [Mfd.withGdAll, Mfd.moveAll, Mfd.unrollGdAll]
  | M :: Ms, o => by
    simp only [Mfd.withGdAll, Mfd.moveAll, Mfd.unrollGdAll, List.flatten_append, List.map_append]
    rw [unroll_mul g c x M, unrollAll_mul g c x Ms]
end

mutual
theorem unrollCot_mul (g : Rigid d) (c : ℝ) (x : Row) : (M : Mfd d) → (o : Nat) → ((M.withCot (c • x) o).move g).unrollCot.flatten
    = ((M.withCot x o).move g).unrollCot.flatten.map (c * ·)
  | .landmarks _ _, o => by
    simp only [Mfd.withCot, Mfd.move, Mfd.unrollCot, List.flatten_cons, List.flatten_nil, List.append_nil]
    exact (congrArg flatVecs (vec_view_mul g c (fun j => x (o + j)))).trans (flatVecs_mul _ _)
  | @Mfd.direction _ _ n _ _ _ _, o => by
    simp only [Mfd.withCot, Mfd.move, Mfd.unrollCot, List.flatten_cons, List.flatten_nil, List.map_append, List.map_nil]
    exact congrArg₂ (fun a b => a ++ (b ++ []))
      ((congrArg flatVecs (vec_view_mul g c (fun j => x (o + j)))).trans (flatVecs_mul _ _))
      ((congrArg flatVecs (vec_view_mul g c (fun j => x (o + n * d + j)))).trans (flatVecs_mul _ _))
  | @Mfd.frame _ n _ _ _ _, o => by
    simp only [Mfd.withCot, Mfd.move, Mfd.unrollCot, List.flatten_cons, List.flatten_nil, List.map_append, List.map_nil]
    exact congrArg₂ (fun a b => a ++ (b ++ []))
      ((congrArg flatVecs (vec_view_mul g c (fun j => x (o + j)))).trans (flatVecs_mul _ _))
      ((congrArg flatMats (mat_view_mul g c (fun j => x (o + n * d + j)))).trans (flatMats_mul _ _))
  | .empty, o => by simp [Mfd.withCot, Mfd.move, Mfd.unrollCot]
  | .compound ms, o => by
    simp only [Mfd.withCot, Mfd.move, Mfd.unrollCot]
    exact unrollCotAll_mul g c x ms o
theorem unrollCotAll_mul (g : Rigid d) (c : ℝ) (x : Row) : (Ms : List (Mfd d)) → (o : Nat) →
    (Mfd.unrollCotAll (Mfd.moveAll g (Mfd.withCotAll (c • x) o Ms))).flatten
    = (Mfd.unrollCotAll (Mfd.moveAll g (Mfd.withCotAll x o Ms))).flatten.map (c * ·)
  | [], o => by simp [Mfd.withCotAll, Mfd.moveAll, Mfd.unrollCotAll]
  | M :: Ms, o => by
    simp only [Mfd.withCotAll, Mfd.moveAll, Mfd.unrollCotAll, List.flatten_append, List.map_append]
    rw [unrollCot_mul g c x M, unrollCotAll_mul g c x Ms]
end

theorem lin_lin (g : Rigid d) : g.lin.lin = g.lin := rfl

/-- The linear part of the motion of the descriptors. -/
def gdTurn (g : Rigid d) (M : Mfd d) : Row →ₗ[ℝ] Row where
  toFun := gdMotion g.lin M
  map_add' x y := by
    unfold gdMotion
    rw [unroll_add, lin_lin, rowOf_zipAdd (by rw [length_move_unroll, length_move_unroll])]
  map_smul' c x := by
    unfold gdMotion
    rw [unroll_mul, rowOf_mapMul]; rfl

/-- The motion of the momenta, which is linear. -/
def cotTurn (g : Rigid d) (M : Mfd d) : Row →ₗ[ℝ] Row where
  toFun := cotMotion g M
  map_add' x y := by
    unfold cotMotion
    rw [unrollCot_add, rowOf_zipAdd (by rw [length_move_unrollCot, length_move_unrollCot])]
  map_smul' c x := by
    unfold cotMotion
    rw [unrollCot_mul, rowOf_mapMul]; rfl

theorem gdMotion_add (g : Rigid d) (M : Mfd d) (x k : Row) : gdMotion g M (x + k) = gdMotion g M x + gdTurn g M k := by
  show _ = _ + gdMotion g.lin M k
  unfold gdMotion
  rw [unroll_add, rowOf_zipAdd (by rw [length_move_unroll, length_move_unroll])]
theorem cotMotion_add (g : Rigid d) (M : Mfd d) (x k : Row) : cotMotion g M (x + k) = cotMotion g M x + cotTurn g M k :=
  (cotTurn g M).map_add x k

/-! ## Velocities -/

mutual
/-- A velocity of the descriptors of a manifold. -/
def Tan.Fits : Tan d → Mfd d → Prop
  | @Tan.landmarks _ n _, @Mfd.landmarks _ k _ _ => n = k
  | @Tan.direction _ n _ _, @Mfd.direction _ _ k _ _ _ _ => n = k
  | @Tan.frame _ n _ _, @Mfd.frame _ k _ _ _ _ => n = k
  | .empty, .empty => True
  | .compound ts, .compound ms => Tan.AllFit ts ms
  | _, _ => False
def Tan.AllFit : List (Tan d) → List (Mfd d) → Prop
  | [], [] => True
  | t :: ts, m :: ms => t.Fits m ∧ Tan.AllFit ts ms
  | _, _ => False
end

mutual
theorem fits_action (f : FieldExpr d) : (M : Mfd d) → {v : Tan d} → M.action f = .ok v → v.Fits M
  | .landmarks gd cot, v, h => by
    rw [Mfd.action] at h
    cases ha : actLandmarks gd f <;> rw [ha] at h <;> cases h
    rw [Tan.Fits]
  | .direction t gd dir cot cdir, v, h => by
    rw [Mfd.action] at h
    cases ha : actDirection t gd dir f <;> rw [ha] at h <;> cases h
    rw [Tan.Fits]
  | .frame gd R cot cR, v, h => by
    rw [Mfd.action] at h
    cases ha : actFrame gd R f <;> rw [ha] at h <;> cases h
    rw [Tan.Fits]
  | .empty, v, h => by
    rw [Mfd.action] at h; cases h; rw [Tan.Fits]; trivial
  | .compound ms, v, h => by
    rw [Mfd.action] at h
    cases ha : Mfd.actionAll f ms <;> rw [ha] at h <;> cases h
    rw [Tan.Fits]
    exact fits_actions f ms ha
theorem fits_actions (f : FieldExpr d) : (Ms : List (Mfd d)) → {ts : List (Tan d)} → Mfd.actionAll f Ms = .ok ts → Tan.AllFit ts Ms
  | [], ts, h => by rw [Mfd.actionAll] at h; cases h; rw [Tan.AllFit]; trivial
  | M :: Ms, ts, h => by
    rw [Mfd.actionAll] at h
    cases ha : M.action f with
    | error e => rw [ha] at h; cases h
    | ok v =>
      rw [ha] at h
      dsimp only at h
      cases hb : Mfd.actionAll f Ms <;> rw [hb] at h <;> cases h
      rw [Tan.AllFit]
      exact ⟨fits_action f M ha, fits_actions f Ms hb⟩
end

mutual
theorem length_fits : (v : Tan d) → {M : Mfd d} → v.Fits M → v.unroll.flatten.length = M.size
  | @Tan.landmarks _ n v, M, h => by
    cases M <;> rw [Tan.Fits] at h <;> first | exact h.elim | skip
    subst h; simp [Tan.unroll, Mfd.size, length_flatVecs]
  | .direction v w, M, h => by
    cases M <;> rw [Tan.Fits] at h <;> first | exact h.elim | skip
    subst h; simp [Tan.unroll, Mfd.size, length_flatVecs]
  | .frame v w, M, h => by
    cases M <;> rw [Tan.Fits] at h <;> first | exact h.elim | skip
    subst h; simp [Tan.unroll, Mfd.size, length_flatVecs, length_flatMats]
  | .empty, M, h => by
    cases M <;> rw [Tan.Fits] at h <;> first | exact h.elim | skip
    simp [Tan.unroll, Mfd.size]
  | .compound ts, M, h => by
    cases M <;> rw [Tan.Fits] at h <;> first | exact h.elim | skip
    rw [Tan.unroll, Mfd.size]
    exact lengths_fit ts h
theorem lengths_fit : (ts : List (Tan d)) → {Ms : List (Mfd d)} → Tan.AllFit ts Ms → (Tan.unrollAll ts).flatten.length = Mfd.sizeAll Ms
  | [], [], h => by simp [Tan.unrollAll, Mfd.sizeAll]
  | [], _ :: _, h => by rw [Tan.AllFit] at h <;> first | exact h.elim | simp
  | _ :: _, [], h => by rw [Tan.AllFit] at h <;> first | exact h.elim | simp
  | t :: ts, M :: Ms, h => by
    rw [Tan.AllFit] at h
    rw [Tan.unrollAll, Mfd.sizeAll, List.flatten_append, List.length_append, length_fits t h.1, lengths_fit ts h.2]
end

theorem lin_point (g : Rigid d) (x : Vec d) : g.lin.point x = g.vec x := by
  unfold Rigid.point Rigid.lin Rigid.vec; exact add_zero _

mutual
theorem turn_fits (g : Rigid d) {x : Row} : (v : Tan d) → {M : Mfd d} → {o : Nat} → v.Fits M → Starts x o v.unroll.flatten →
    ((M.withGd x o).move g.lin).unrollGd.flatten = (v.move g).unroll.flatten
  | @Tan.landmarks _ n v, M, o, h, hs => by
    cases M <;> rw [Tan.Fits] at h <;> first | exact h.elim | skip
    subst h
    simp only [Tan.unroll, List.flatten_cons, List.flatten_nil, List.append_nil] at hs
    simp only [Mfd.withGd, Mfd.move, Mfd.unrollGd, Tan.move, Tan.unroll, view_of_starts hs, lin_point]
  | @Tan.direction _ n v w, M, o, h, hs => by
    cases M <;> rw [Tan.Fits] at h <;> first | exact h.elim | skip
    subst h
    simp only [Tan.unroll, List.flatten_cons, List.flatten_nil, List.append_nil] at hs
    obtain ⟨h1, h2⟩ := Starts.append.1 hs
    rw [length_flatVecs] at h2
    simp only [Mfd.withGd, Mfd.move, Mfd.unrollGd, Tan.move, Tan.unroll, view_of_starts h1, view_of_starts h2, lin_point]
    rfl
  | @Tan.frame _ n v w, M, o, h, hs => by
    cases M <;> rw [Tan.Fits] at h <;> first | exact h.elim | skip
    subst h
    simp only [Tan.unroll, List.flatten_cons, List.flatten_nil, List.append_nil] at hs
    obtain ⟨h1, h2⟩ := Starts.append.1 hs
    rw [length_flatVecs] at h2
    simp only [Mfd.withGd, Mfd.move, Mfd.unrollGd, Tan.move, Tan.unroll, view_of_starts h1, viewMats_of_starts h2, lin_point]
    rfl
  | .empty, M, o, h, hs => by
    cases M <;> rw [Tan.Fits] at h <;> first | exact h.elim | skip
    simp [Mfd.withGd, Mfd.move, Mfd.unrollGd, Tan.move, Tan.unroll]
  | .compound ts, M, o, h, hs => by
    cases M <;> rw [Tan.Fits] at h <;> first | exact h.elim | skip
    rw [Tan.unroll] at hs
    rw [Mfd.withGd, Mfd.move, Mfd.unrollGd, Tan.move, Tan.unroll]
    exact turn_allFit g ts h hs
theorem turn_allFit (g : Rigid d) {x : Row} : (ts : List (Tan d)) → {Ms : List (Mfd d)} → {o : Nat} → Tan.AllFit ts Ms →
    Starts x o (Tan.unrollAll ts).flatten →
    (Mfd.unrollGdAll (Mfd.moveAll g.lin (Mfd.withGdAll x o Ms))).flatten = (Tan.unrollAll (Tan.moveAll g ts)).flatten
  | [], [], o, h, hs => by simp [Mfd.withGdAll, Mfd.moveAll, Mfd.unrollGdAll, Tan.moveAll, Tan.unrollAll]
  | [], _ :: _, o, h, hs => by rw [Tan.AllFit] at h <;> first | exact h.elim | simp
  | _ :: _, [], o, h, hs => by rw [Tan.AllFit] at h <;> first | exact h.elim | simp
  | t :: ts, M :: Ms, o, h, hs => by
    rw [Tan.AllFit] at h
    rw [Tan.unrollAll, List.flatten_append] at hs
    obtain ⟨h1, h2⟩ := Starts.append.1 hs
    rw [length_fits t h.1] at h2
    rw [Mfd.withGdAll, Mfd.moveAll, Mfd.unrollGdAll, List.flatten_append, Tan.moveAll, Tan.unrollAll, List.flatten_append,
      turn_fits g t h.1 h1, turn_allFit g ts h.2 h2]
end

/-- The row of a velocity turns with the velocity. -/
theorem gdTurn_tan (g : Rigid d) {M : Mfd d} {v : Tan d} (h : v.Fits M) :
    gdTurn g M (rowOf v.unroll.flatten) = rowOf (v.move g).unroll.flatten :=
  congrArg rowOf (turn_fits g v h (starts_rowOf _))

/-! ## What a motion needs of a module -/

mutual
theorem movable_reset (g : Rigid d) : (m : DefModule d) → (m.reset.Movable g ↔ m.Movable g)
  | .translations _ => by simp [DefModule.reset, DefModule.Movable]
  | .implicit0 _ => by simp [DefModule.reset, DefModule.Movable]
  | .oriented _ => by simp [DefModule.reset, DefModule.Movable]
  | .constrained _ => by simp [DefModule.reset, DefModule.Movable]
  | .globalTranslation _ => by simp [DefModule.reset, DefModule.Movable]
  | .linear _ => by simp [DefModule.reset, DefModule.Movable]
  | .implicit1 _ => by simp [DefModule.reset, DefModule.Movable]
  | .divFree _ => by simp [DefModule.reset, DefModule.Movable]
  | .arap _ => by simp [DefModule.reset, DefModule.Movable]
  | .silent _ => by simp [DefModule.reset, DefModule.Movable]
  | .compound ms => by rw [DefModule.reset, DefModule.Movable, DefModule.Movable, allMovable_reset g ms]
theorem allMovable_reset (g : Rigid d) : (ms : List (DefModule d)) → (DefModule.AllMovable g (DefModule.resetAll ms) ↔ DefModule.AllMovable g ms)
  | [] => by simp [DefModule.resetAll]
  | m :: ms => by rw [DefModule.resetAll, DefModule.AllMovable, DefModule.AllMovable, movable_reset g m, allMovable_reset g ms]
end

mutual
theorem movable_withGd (g : Rigid d) (x : Row) : (m : DefModule d) → (o : Nat) → ((m.withGd x o).Movable g ↔ m.Movable g)
  | .translations _, _ => by simp [DefModule.withGd, DefModule.Movable]
  | .implicit0 _, _ => by simp [DefModule.withGd, DefModule.Movable]
  | .oriented _, _ => by simp [DefModule.withGd, DefModule.Movable]
  | .constrained _, _ => by simp [DefModule.withGd, DefModule.Movable]
  | .globalTranslation _, _ => by simp [DefModule.withGd, DefModule.Movable]
  | .linear _, _ => by simp [DefModule.withGd, DefModule.Movable]
  | .implicit1 _, _ => by simp [DefModule.withGd, DefModule.Movable]
  | .divFree _, _ => by simp [DefModule.withGd, DefModule.Movable]
  | .arap _, _ => by simp [DefModule.withGd, DefModule.Movable]
  | .silent _, _ => by simp [DefModule.withGd, DefModule.Movable]
  | .compound ms, o => by rw [DefModule.withGd, DefModule.Movable, DefModule.Movable, allMovable_withGd g x ms]
theorem allMovable_withGd (g : Rigid d) (x : Row) : (ms : List (DefModule d)) → (o : Nat) →
    (DefModule.AllMovable g (DefModule.withGdAll x o ms) ↔ DefModule.AllMovable g ms)
  | [], _ => by simp [DefModule.withGdAll]
  | m :: ms, o => by rw [DefModule.withGdAll, DefModule.AllMovable, DefModule.AllMovable, movable_withGd g x m, allMovable_withGd g x ms]
end

mutual
theorem movable_withCot (g : Rigid d) (x : Row) : (m : DefModule d) → (o : Nat) → ((m.withCot x o).Movable g ↔ m.Movable g)
  | .translations _, _ => by simp [DefModule.withCot, DefModule.Movable]
  | .implicit0 _, _ => by simp [DefModule.withCot, DefModule.Movable]
  | .oriented _, _ => by simp [DefModule.withCot, DefModule.Movable]
  | .constrained _, _ => by simp [DefModule.withCot, DefModule.Movable]
  | .globalTranslation _, _ => by simp [DefModule.withCot, DefModule.Movable]
  | .linear _, _ => by simp [DefModule.withCot, DefModule.Movable]
  | .implicit1 _, _ => by simp [DefModule.withCot, DefModule.Movable]
  | .divFree _, _ => by simp [DefModule.withCot, DefModule.Movable]
  | .arap _, _ => by simp [DefModule.withCot, DefModule.Movable]
  | .silent _, _ => by simp [DefModule.withCot, DefModule.Movable]
  | .compound ms, o => by rw [DefModule.withCot, DefModule.Movable, DefModule.Movable, allMovable_withCot g x ms]
theorem allMovable_withCot (g : Rigid d) (x : Row) : (ms : List (DefModule d)) → (o : Nat) →
    (DefModule.AllMovable g (DefModule.withCotAll x o ms) ↔ DefModule.AllMovable g ms)
  | [], _ => by simp [DefModule.withCotAll]
  | m :: ms, o => by rw [DefModule.withCotAll, DefModule.AllMovable, DefModule.AllMovable, movable_withCot g x m, allMovable_withCot g x ms]
end

theorem movable_rowsMod (g : Rigid d) (x : Row × Row) (m : DefModule d) : (rowsMod m x).Movable g ↔ m.Movable g := by
  unfold rowsMod
  rw [movable_withCot, movable_withGd]
theorem movable_of_reset (g : Rigid d) {m m' : DefModule d} (h : m'.reset = m.reset) : m'.Movable g ↔ m.Movable g := by
  rw [← movable_reset g m', h, movable_reset]

end
end Imodal
