import Verif.Lemmas.Descent
import Verif.Lemmas.Reorder
import Verif.Spec.Relabel
/-!
Rigid motions, other orders of points and other orders of modules change momenta by maps that preserve
products of entries.
-/
set_option autoImplicit false
namespace Imodal
noncomputable section
open Matrix
variable {d : Nat}

/-- The manifolds differ in their momenta only. -/
def Mfd.SameBut (m m' : Mfd d) : Prop := ∀ x off, m.withCot x off = m'.withCot x off

theorem Mfd.SameBut.size {m m' : Mfd d} (h : m.SameBut m') : m.size = m'.size := by
  rw [← Mfd.size_withCot 0 m 0, h 0 0, Mfd.size_withCot]

theorem Mfd.sameBut_withCot (m : Mfd d) (x : Row) (off : Nat) : (m.withCot x off).SameBut m := fun y off' => Mfd.withCot_withCot x y m off' off

theorem sameBut_all (x : Row) : (ms : List (Mfd d)) → (off : Nat) → List.Forall₂ Mfd.SameBut (Mfd.withCotAll x off ms) ms
  | [], _ => by rw [Mfd.withCotAll]; exact .nil
  | m :: ms, off => by rw [Mfd.withCotAll]; exact .cons (m.sameBut_withCot x off) (sameBut_all x ms _)

theorem withCotAll_sameBut (x : Row) : {ms ms' : List (Mfd d)} → List.Forall₂ Mfd.SameBut ms ms' → (off : Nat) → Mfd.withCotAll x off ms = Mfd.withCotAll x off ms'
  | _, _, .nil, _ => rfl
  | _, _, .cons h hs, off => by rw [Mfd.withCotAll, Mfd.withCotAll, h x off, h.size, withCotAll_sameBut x hs]

theorem sizeAll_sameBut : {ms ms' : List (Mfd d)} → List.Forall₂ Mfd.SameBut ms ms' → Mfd.sizeAll ms = Mfd.sizeAll ms'
  | _, _, .nil => rfl
  | _, _, .cons h hs => by rw [Mfd.sizeAll, Mfd.sizeAll, h.size, sizeAll_sameBut hs]

/-- The products of the momenta of two manifolds. -/
def Mfd.cotDot (m m' : Mfd d) : ℝ := prodL m.unrollCot.flatten m'.unrollCot.flatten

theorem dot_unrollAll : {ms ms' : List (Mfd d)} → List.Forall₂ Mfd.SameBut ms ms' →
    prodL (Mfd.unrollCotAll ms).flatten (Mfd.unrollCotAll ms').flatten = (List.zipWith Mfd.cotDot ms ms').sum
  | _, _, .nil => rfl
  | _, _, @List.Forall₂.cons _ _ _ m m' ms ms' h hs => by
    rw [Mfd.unrollCotAll, Mfd.unrollCotAll, List.flatten_append, List.flatten_append,
      prodL_append (by rw [Mfd.length_unrollCot, Mfd.length_unrollCot, h.size]), dot_unrollAll hs, List.zipWith_cons_cons, List.sum_cons]
    rfl

/-- `F` changes manifolds of the kinds of `I` such that products of momenta are preserved. -/
structure Turns (F : List (Mfd d) → List (Mfd d)) (I : List (Mfd d)) : Prop where
  same : ∀ x, List.Forall₂ Mfd.SameBut (F (Mfd.withCotAll x 0 I)) (F I)
  dot : ∀ x y, prodL (Mfd.unrollCotAll (F (Mfd.withCotAll x 0 I))).flatten (Mfd.unrollCotAll (F (Mfd.withCotAll y 0 I))).flatten =
    prodL (Mfd.unrollCotAll (Mfd.withCotAll x 0 I)).flatten (Mfd.unrollCotAll (Mfd.withCotAll y 0 I)).flatten
  size : Mfd.sizeAll (F I) = Mfd.sizeAll I

/-- The map of momenta. -/
def turnMomenta (F : List (Mfd d) → List (Mfd d)) (I : List (Mfd d)) (a : List ℝ) : List ℝ :=
  (Mfd.unrollCotAll (F (Mfd.withCotAll (rowOf a) 0 I))).flatten

theorem length_cots (ms : List (Mfd d)) : (Mfd.unrollCotAll ms).flatten.length = Mfd.sizeAll ms := by
  have := Mfd.length_unrollCot (.compound ms)
  rwa [Mfd.unrollCot, Mfd.size] at this

theorem read_write {I : List (Mfd d)} {a : List ℝ} (ha : a.length = Mfd.sizeAll I) : (Mfd.unrollCotAll (Mfd.withCotAll (rowOf a) 0 I)).flatten = a :=
  Starts.unique (Mfd.starts_withCotAll _ I 0) (starts_rowOf a) (by rw [length_cots, Mfd.size_withCotAll, ha])

theorem Turns.preserves {F : List (Mfd d) → List (Mfd d)} {I : List (Mfd d)} (h : Turns F I) : Preserves (Mfd.sizeAll I) (turnMomenta F I) where
  length a _ := by
    unfold turnMomenta
    rw [length_cots, sizeAll_sameBut (h.same _), h.size]
  dot a b ha hb := by
    unfold turnMomenta
    rw [h.dot, read_write ha, read_write hb]

/-- Writing the turned momenta into the changed manifolds gives the changed manifolds. -/
theorem Turns.write {F : List (Mfd d) → List (Mfd d)} {I : List (Mfd d)} (h : Turns F I) (a : List ℝ) :
    Mfd.withCotAll (rowOf (turnMomenta F I a)) 0 (F I) = F (Mfd.withCotAll (rowOf a) 0 I) := by
  rw [← withCotAll_sameBut _ (h.same (rowOf a)) 0]
  exact Mfd.withCotAll_of_starts _ (starts_rowOf _)

/-! ## Rigid motions -/

theorem dot_flatVecs {n : Nat} (u v : Fin n → Vec d) : prodL (flatVecs u) (flatVecs v) = ∑ i, u i ⬝ᵥ v i := by
  unfold flatVecs
  rw [prodL_ofFn]
  unfold dotProduct
  rw [← Fintype.sum_prod_type' (f := fun i j => u i j * v i j), ← finProdFinEquiv.sum_comp]
  refine Finset.sum_congr rfl fun p _ => ?_
  have := finProdFinEquiv.symm_apply_apply p
  have h1 : (finProdFinEquiv p).divNat = p.1 := congrArg Prod.fst this
  have h2 : (finProdFinEquiv p).modNat = p.2 := congrArg Prod.snd this
  dsimp only
  rw [h1, h2]

theorem dot_flatMats {n : Nat} (u v : Fin n → Mat d) : prodL (flatMats u) (flatMats v) = ∑ i, ∑ b, u i b ⬝ᵥ v i b := by
  unfold flatMats
  rw [prodL_ofFn]
  have h1 : ∀ {a b : Nat} (p : Fin a × Fin b), (finProdFinEquiv p).divNat = p.1 := fun p => congrArg Prod.fst (finProdFinEquiv.symm_apply_apply p)
  have h2 : ∀ {a b : Nat} (p : Fin a × Fin b), (finProdFinEquiv p).modNat = p.2 := fun p => congrArg Prod.snd (finProdFinEquiv.symm_apply_apply p)
  unfold dotProduct
  rw [← finProdFinEquiv.sum_comp, Fintype.sum_prod_type]
  refine Finset.sum_congr rfl fun i _ => ?_
  rw [← finProdFinEquiv.sum_comp, Fintype.sum_prod_type]
  simp only [h1, h2]

theorem turns_vec_dot (g : Rigid d) (u v : Vec d) : g.vec u ⬝ᵥ g.vec v = u ⬝ᵥ v := by
  have h : g.Qᵀ * g.Q = 1 := mul_eq_one_comm.1 ((Matrix.mem_orthogonalGroup_iff _ _).1 g.orth)
  unfold Rigid.vec
  rw [dotProduct_mulVec, ← mulVec_transpose, mulVec_mulVec, h, one_mulVec]

theorem mat_dot (g : Rigid d) (U V : Mat d) : ∑ b, (g.Q * U) b ⬝ᵥ (g.Q * V) b = ∑ b, U b ⬝ᵥ V b := by
  have key : ∀ A B : Mat d, ∑ b, A b ⬝ᵥ B b = ∑ c, (fun b => A b c) ⬝ᵥ fun b => B b c := fun A B => by
    unfold dotProduct
    rw [Finset.sum_comm]
  rw [key, key]
  refine Finset.sum_congr rfl fun c _ => ?_
  exact turns_vec_dot g (fun b => U b c) (fun b => V b c)

mutual
theorem Mfd.size_move (g : Rigid d) : (m : Mfd d) → (m.move g).size = m.size
  | .landmarks _ _ => by rw [Mfd.move, Mfd.size, Mfd.size]
  | .direction _ _ _ _ _ => by rw [Mfd.move, Mfd.size, Mfd.size]
  | .frame _ _ _ _ => by rw [Mfd.move, Mfd.size, Mfd.size]
  | .empty => by rw [Mfd.move]
  | .compound ms => by rw [Mfd.move, Mfd.size, Mfd.size, Mfd.size_moveAll g ms]
theorem Mfd.size_moveAll (g : Rigid d) : (ms : List (Mfd d)) → Mfd.sizeAll (Mfd.moveAll g ms) = Mfd.sizeAll ms
  | [] => by rw [Mfd.moveAll]
  | m :: ms => by rw [Mfd.moveAll, Mfd.sizeAll, Mfd.sizeAll, Mfd.size_move g m, Mfd.size_moveAll g ms]
end

mutual
theorem sameBut_move (g : Rigid d) (x : Row) : (m : Mfd d) → (off : Nat) → ((m.withCot x off).move g).SameBut (m.move g)
  | .landmarks _ _, _ => fun _ _ => by rw [Mfd.withCot, Mfd.move, Mfd.move, Mfd.withCot, Mfd.withCot]
  | .direction _ _ _ _ _, _ => fun _ _ => by rw [Mfd.withCot, Mfd.move, Mfd.move, Mfd.withCot, Mfd.withCot]
  | .frame _ _ _ _, _ => fun _ _ => by rw [Mfd.withCot, Mfd.move, Mfd.move, Mfd.withCot, Mfd.withCot]
  | .empty, _ => fun _ _ => by rw [Mfd.withCot]
  | .compound ms, off => fun y off' => by
    rw [Mfd.withCot, Mfd.move, Mfd.move, Mfd.withCot, Mfd.withCot, withCotAll_sameBut y (sameBut_moveAll g x ms off) off']
theorem sameBut_moveAll (g : Rigid d) (x : Row) : (ms : List (Mfd d)) → (off : Nat) →
    List.Forall₂ Mfd.SameBut (Mfd.moveAll g (Mfd.withCotAll x off ms)) (Mfd.moveAll g ms)
  | [], _ => by rw [Mfd.withCotAll, Mfd.moveAll]; exact .nil
  | m :: ms, off => by rw [Mfd.withCotAll, Mfd.moveAll, Mfd.moveAll]; exact .cons (sameBut_move g x m off) (sameBut_moveAll g x ms _)
end

theorem dot_two {a b a' b' : List ℝ} (h : a.length = a'.length) : prodL [a, b].flatten [a', b'].flatten = prodL a a' + prodL b b' := by
  simp only [List.flatten_cons, List.flatten_nil, List.append_nil]
  exact prodL_append h

mutual
theorem dot_move (g : Rigid d) (x y : Row) : (m : Mfd d) → (off : Nat) →
    ((m.withCot x off).move g).cotDot ((m.withCot y off).move g) = (m.withCot x off).cotDot (m.withCot y off)
  | .landmarks _ _, _ => by
    unfold Mfd.cotDot
    simp only [Mfd.withCot, Mfd.move, Mfd.unrollCot, List.flatten_singleton, dot_flatVecs, turns_vec_dot]
  | .direction _ _ _ _ _, _ => by
    unfold Mfd.cotDot
    simp only [Mfd.withCot, Mfd.move, Mfd.unrollCot]
    rw [dot_two (by rw [length_flatVecs, length_flatVecs]), dot_two (by rw [length_flatVecs, length_flatVecs])]
    simp only [dot_flatVecs, turns_vec_dot]
  | .frame _ _ _ _, _ => by
    unfold Mfd.cotDot
    simp only [Mfd.withCot, Mfd.move, Mfd.unrollCot]
    rw [dot_two (by rw [length_flatVecs, length_flatVecs]), dot_two (by rw [length_flatVecs, length_flatVecs])]
    simp only [dot_flatVecs, turns_vec_dot, dot_flatMats, mat_dot]
  | .empty, _ => by simp only [Mfd.withCot, Mfd.move]
  | .compound ms, off => by
    unfold Mfd.cotDot
    simp only [Mfd.withCot, Mfd.move, Mfd.unrollCot]
    exact dot_moveAll g x y ms off
theorem dot_moveAll (g : Rigid d) (x y : Row) : (ms : List (Mfd d)) → (off : Nat) →
    prodL (Mfd.unrollCotAll (Mfd.moveAll g (Mfd.withCotAll x off ms))).flatten (Mfd.unrollCotAll (Mfd.moveAll g (Mfd.withCotAll y off ms))).flatten =
      prodL (Mfd.unrollCotAll (Mfd.withCotAll x off ms)).flatten (Mfd.unrollCotAll (Mfd.withCotAll y off ms)).flatten
  | [], _ => by simp only [Mfd.withCotAll, Mfd.moveAll]
  | m :: ms, off => by
    have h1 := dot_move g x y m off
    have h2 := dot_moveAll g x y ms (off + m.size)
    unfold Mfd.cotDot at h1
    simp only [Mfd.withCotAll, Mfd.moveAll, Mfd.unrollCotAll, List.flatten_append]
    rw [prodL_append (by simp only [Mfd.length_unrollCot, Mfd.size_move, Mfd.size_withCot]),
      prodL_append (by simp only [Mfd.length_unrollCot, Mfd.size_withCot]), h1, h2]
end

theorem turns_move (g : Rigid d) (I : List (Mfd d)) : Turns (Mfd.moveAll g) I :=
  ⟨fun x => sameBut_moveAll g x I 0, fun x y => dot_moveAll g x y I 0, Mfd.size_moveAll g I⟩

/-! ## Other orders of points -/

mutual
theorem Mfd.size_relabel (σ : Labels) : (m : Mfd d) → (m.relabel σ).size = m.size
  | .landmarks _ _ => by rw [Mfd.relabel, Mfd.size, Mfd.size]
  | .direction _ _ _ _ _ => by rw [Mfd.relabel, Mfd.size, Mfd.size]
  | .frame _ _ _ _ => by rw [Mfd.relabel, Mfd.size, Mfd.size]
  | .empty => by rw [Mfd.relabel]
  | .compound ms => by rw [Mfd.relabel, Mfd.size, Mfd.size, Mfd.size_relabelAll σ 0 ms]
theorem Mfd.size_relabelAll (σ : Labels) : (k : Nat) → (ms : List (Mfd d)) → Mfd.sizeAll (Mfd.relabelAll σ k ms) = Mfd.sizeAll ms
  | _, [] => by rw [Mfd.relabelAll]
  | k, m :: ms => by rw [Mfd.relabelAll, Mfd.sizeAll, Mfd.sizeAll, Mfd.size_relabel _ m, Mfd.size_relabelAll σ (k + 1) ms]
end

mutual
theorem sameBut_relabel (σ : Labels) (x : Row) : (m : Mfd d) → (off : Nat) → ((m.withCot x off).relabel σ).SameBut (m.relabel σ)
  | .landmarks _ _, _ => fun _ _ => by rw [Mfd.withCot, Mfd.relabel, Mfd.relabel, Mfd.withCot, Mfd.withCot]
  | .direction _ _ _ _ _, _ => fun _ _ => by rw [Mfd.withCot, Mfd.relabel, Mfd.relabel, Mfd.withCot, Mfd.withCot]
  | .frame _ _ _ _, _ => fun _ _ => by rw [Mfd.withCot, Mfd.relabel, Mfd.relabel, Mfd.withCot, Mfd.withCot]
  | .empty, _ => fun _ _ => by rw [Mfd.withCot]
  | .compound ms, off => fun y off' => by
    rw [Mfd.withCot, Mfd.relabel, Mfd.relabel, Mfd.withCot, Mfd.withCot, withCotAll_sameBut y (sameBut_relabelAll σ x 0 ms off) off']
theorem sameBut_relabelAll (σ : Labels) (x : Row) : (k : Nat) → (ms : List (Mfd d)) → (off : Nat) →
    List.Forall₂ Mfd.SameBut (Mfd.relabelAll σ k (Mfd.withCotAll x off ms)) (Mfd.relabelAll σ k ms)
  | _, [], _ => by rw [Mfd.withCotAll, Mfd.relabelAll]; exact .nil
  | k, m :: ms, off => by
    rw [Mfd.withCotAll, Mfd.relabelAll, Mfd.relabelAll]; exact .cons (sameBut_relabel _ x m off) (sameBut_relabelAll σ x (k + 1) ms _)
end

theorem sum_order {n : Nat} (π : Equiv.Perm (Fin n)) (f : Fin n → ℝ) : ∑ i, f (π i) = ∑ i, f i := Equiv.sum_comp π f

mutual
theorem dot_relabel (σ : Labels) (x y : Row) : (m : Mfd d) → (off : Nat) →
    ((m.withCot x off).relabel σ).cotDot ((m.withCot y off).relabel σ) = (m.withCot x off).cotDot (m.withCot y off)
  | @Mfd.landmarks _ n _ _, off => by
    unfold Mfd.cotDot
    simp only [Mfd.withCot, Mfd.relabel, Mfd.unrollCot, List.flatten_singleton, dot_flatVecs]
    exact sum_order (σ [] n) fun i => viewVecs (fun j => x (off + j)) i ⬝ᵥ viewVecs (fun j => y (off + j)) i
  | @Mfd.direction _ _ n _ _ _ _, off => by
    unfold Mfd.cotDot
    simp only [Mfd.withCot, Mfd.relabel, Mfd.unrollCot]
    rw [dot_two (by rw [length_flatVecs, length_flatVecs]), dot_two (by rw [length_flatVecs, length_flatVecs])]
    simp only [dot_flatVecs]
    exact congrArg₂ (· + ·) (sum_order (σ [] n) fun i => viewVecs (fun j => x (off + j)) i ⬝ᵥ viewVecs (fun j => y (off + j)) i)
      (sum_order (σ [] n) fun i => viewVecs (fun j => x (off + n * d + j)) i ⬝ᵥ viewVecs (fun j => y (off + n * d + j)) i)
  | @Mfd.frame _ n _ _ _ _, off => by
    unfold Mfd.cotDot
    simp only [Mfd.withCot, Mfd.relabel, Mfd.unrollCot]
    rw [dot_two (by rw [length_flatVecs, length_flatVecs]), dot_two (by rw [length_flatVecs, length_flatVecs])]
    simp only [dot_flatVecs, dot_flatMats]
    exact congrArg₂ (· + ·) (sum_order (σ [] n) fun i => viewVecs (fun j => x (off + j)) i ⬝ᵥ viewVecs (fun j => y (off + j)) i)
      (sum_order (σ [] n) fun i => ∑ b, viewMats (d := d) (fun j => x (off + n * d + j)) i b ⬝ᵥ viewMats (fun j => y (off + n * d + j)) i b)
  | .empty, _ => by simp only [Mfd.withCot, Mfd.relabel]
  | .compound ms, off => by
    unfold Mfd.cotDot
    simp only [Mfd.withCot, Mfd.relabel, Mfd.unrollCot]
    exact dot_relabelAll σ x y 0 ms off
theorem dot_relabelAll (σ : Labels) (x y : Row) : (k : Nat) → (ms : List (Mfd d)) → (off : Nat) →
    prodL (Mfd.unrollCotAll (Mfd.relabelAll σ k (Mfd.withCotAll x off ms))).flatten (Mfd.unrollCotAll (Mfd.relabelAll σ k (Mfd.withCotAll y off ms))).flatten =
      prodL (Mfd.unrollCotAll (Mfd.withCotAll x off ms)).flatten (Mfd.unrollCotAll (Mfd.withCotAll y off ms)).flatten
  | _, [], _ => by simp only [Mfd.withCotAll, Mfd.relabelAll]
  | k, m :: ms, off => by
    have h1 := dot_relabel (σ.at k) x y m off
    have h2 := dot_relabelAll σ x y (k + 1) ms (off + m.size)
    unfold Mfd.cotDot at h1
    simp only [Mfd.withCotAll, Mfd.relabelAll, Mfd.unrollCotAll, List.flatten_append]
    rw [prodL_append (by simp only [Mfd.length_unrollCot, Mfd.size_relabel, Mfd.size_withCot]),
      prodL_append (by simp only [Mfd.length_unrollCot, Mfd.size_withCot]), h1, h2]
end

/-! ## After the first ones -/

theorem withCotAll_append (x : Row) : (A B : List (Mfd d)) → (off : Nat) →
    Mfd.withCotAll x off (A ++ B) = Mfd.withCotAll x off A ++ Mfd.withCotAll x (off + Mfd.sizeAll A) B
  | [], B, off => by rw [Mfd.sizeAll, Mfd.withCotAll]; rfl
  | m :: A, B, off => by
    rw [List.cons_append, Mfd.withCotAll, Mfd.withCotAll, withCotAll_append x A B, Mfd.sizeAll, Nat.add_assoc, List.cons_append]

theorem turns_length_withCotAll (x : Row) : (ms : List (Mfd d)) → (off : Nat) → (Mfd.withCotAll x off ms).length = ms.length
  | [], _ => by rw [Mfd.withCotAll]
  | m :: ms, off => by rw [Mfd.withCotAll, List.length_cons, turns_length_withCotAll x ms, List.length_cons]

theorem turns_unrollCotAll_append : (A B : List (Mfd d)) → Mfd.unrollCotAll (A ++ B) = Mfd.unrollCotAll A ++ Mfd.unrollCotAll B
  | [], B => by rw [Mfd.unrollCotAll]; rfl
  | m :: A, B => by rw [List.cons_append, Mfd.unrollCotAll, Mfd.unrollCotAll, turns_unrollCotAll_append A B, List.append_assoc]

theorem sizeAll_append : (A B : List (Mfd d)) → Mfd.sizeAll (A ++ B) = Mfd.sizeAll A + Mfd.sizeAll B
  | [], B => by rw [Mfd.sizeAll, Nat.zero_add]; rfl
  | m :: A, B => by rw [List.cons_append, Mfd.sizeAll, Mfd.sizeAll, sizeAll_append A B, Nat.add_assoc]

/-- The first `n` stay, the others are changed. -/
def afterFirst (n : Nat) (F : List (Mfd d) → List (Mfd d)) (I : List (Mfd d)) : List (Mfd d) := I.take n ++ F (I.drop n)

theorem turns_after (n : Nat) {F : List (Mfd d) → List (Mfd d)} {I : List (Mfd d)}
    (same : ∀ x off, List.Forall₂ Mfd.SameBut (F (Mfd.withCotAll x off (I.drop n))) (F (I.drop n)))
    (dot : ∀ x y off, prodL (Mfd.unrollCotAll (F (Mfd.withCotAll x off (I.drop n)))).flatten (Mfd.unrollCotAll (F (Mfd.withCotAll y off (I.drop n)))).flatten =
      prodL (Mfd.unrollCotAll (Mfd.withCotAll x off (I.drop n))).flatten (Mfd.unrollCotAll (Mfd.withCotAll y off (I.drop n))).flatten)
    (size : Mfd.sizeAll (F (I.drop n)) = Mfd.sizeAll (I.drop n)) : Turns (afterFirst n F) I := by
  have split : ∀ x, ∃ off, (Mfd.withCotAll x 0 I).take n = Mfd.withCotAll x 0 (I.take n) ∧ (Mfd.withCotAll x 0 I).drop n = Mfd.withCotAll x off (I.drop n) ∧ off = Mfd.sizeAll (I.take n) := fun x => by
    refine ⟨_, ?_, ?_, rfl⟩
    all_goals
      have e : Mfd.withCotAll x 0 I = Mfd.withCotAll x 0 (I.take n) ++ Mfd.withCotAll x (Mfd.sizeAll (I.take n)) (I.drop n) := by
        conv_lhs => rw [← List.take_append_drop n I]
        rw [withCotAll_append, Nat.zero_add]
      by_cases hn : n ≤ I.length
      · have hl : (Mfd.withCotAll x 0 (I.take n)).length = n := by rw [turns_length_withCotAll, List.length_take, Nat.min_eq_left hn]
        rw [e]
        first
          | rw [List.take_left' hl]
          | rw [List.drop_left' hl]
      · have hn' : I.length ≤ n := by omega
        first
          | (rw [List.take_of_length_le (by rw [turns_length_withCotAll]; exact hn'), List.take_of_length_le hn'])
          | (rw [List.drop_of_length_le (by rw [turns_length_withCotAll]; exact hn'), List.drop_of_length_le hn', Mfd.withCotAll])
  refine ⟨fun x => ?_, fun x y => ?_, ?_⟩
  · obtain ⟨off, h1, h2, -⟩ := split x
    unfold afterFirst
    rw [h1, h2]
    exact List.rel_append (sameBut_all x (I.take n) 0) (same x off)
  · obtain ⟨off, h1, h2, ho⟩ := split x
    obtain ⟨off', h1', h2', ho'⟩ := split y
    obtain rfl : off = off' := ho.trans ho'.symm
    have e : ∀ z, Mfd.withCotAll z 0 I = (Mfd.withCotAll z 0 I).take n ++ (Mfd.withCotAll z 0 I).drop n := fun z => (List.take_append_drop n _).symm
    unfold afterFirst
    rw [h1, h2, h1', h2', e x, e y, h1, h2, h1', h2']
    simp only [turns_unrollCotAll_append, List.flatten_append]
    rw [prodL_append (by simp only [length_cots, Mfd.size_withCotAll]), prodL_append (by simp only [length_cots, Mfd.size_withCotAll]), dot x y off]
  · unfold afterFirst
    rw [sizeAll_append, size, ← sizeAll_append, List.take_append_drop]

theorem turns_relabel (n : Nat) (σ : Labels) (I : List (Mfd d)) : Turns (afterFirst n (Mfd.relabelAll σ 0)) I :=
  turns_after n (fun x off => sameBut_relabelAll σ x 0 _ off) (fun x y off => dot_relabelAll σ x y 0 _ off) (Mfd.size_relabelAll σ 0 _)

/-! ## Other orders of modules -/

theorem turns_sizeAll_sum : (ms : List (Mfd d)) → Mfd.sizeAll ms = (ms.map Mfd.size).sum
  | [] => by rw [Mfd.sizeAll]; rfl
  | m :: ms => by rw [Mfd.sizeAll, turns_sizeAll_sum ms, List.map_cons, List.sum_cons]

theorem sameBut_pair (x y : Row) : (ms : List (Mfd d)) → (off off' : Nat) → List.Forall₂ Mfd.SameBut (Mfd.withCotAll x off ms) (Mfd.withCotAll y off' ms)
  | [], _, _ => by rw [Mfd.withCotAll, Mfd.withCotAll]; exact .nil
  | m :: ms, off, off' => by
    rw [Mfd.withCotAll, Mfd.withCotAll]
    exact .cons (fun z o => by rw [Mfd.withCot_withCot, Mfd.withCot_withCot]) (sameBut_pair x y ms _ _)

theorem dot_reorder {is : List Nat} (hi : IsOrder is) {ms ms' : List (Mfd d)} (hl : ms.length = is.length) (h : List.Forall₂ Mfd.SameBut ms ms') :
    prodL (Mfd.unrollCotAll (reorder is ms)).flatten (Mfd.unrollCotAll (reorder is ms')).flatten = prodL (Mfd.unrollCotAll ms).flatten (Mfd.unrollCotAll ms').flatten := by
  have hl' : ms'.length = is.length := by rw [← h.length_eq, hl]
  rw [dot_unrollAll (forall₂_reorder hi h), dot_unrollAll h]
  have e : ∀ l l' : List (Mfd d), List.zipWith Mfd.cotDot l l' = (l.zip l').map fun p => p.1.cotDot p.2 := fun l l' => by
    rw [List.zip, List.map_zipWith]
  rw [e, e, ← reorder_zip hl hl' hi, ← reorder_map]
  exact (reorder_perm hi _).sum_eq

theorem turns_reorder (n : Nat) {is : List Nat} (hi : IsOrder is) {I : List (Mfd d)} (hl : (I.drop n).length = is.length) : Turns (afterFirst n (reorder is)) I :=
  turns_after n (fun x off => forall₂_reorder hi (sameBut_all x _ off))
    (fun x y off => dot_reorder hi (by rw [turns_length_withCotAll, hl]) (sameBut_pair x y _ off off))
    (by rw [turns_sizeAll_sum, turns_sizeAll_sum]; exact ((reorder_perm hi _).map _).sum_eq)

end
end Imodal
