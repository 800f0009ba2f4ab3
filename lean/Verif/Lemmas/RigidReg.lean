import Verif.Spec.RigidReg
import Verif.Props.C34
import Verif.Props.C78
/-!
# Registrations under rigid motions
-/
set_option autoImplicit false
namespace Imodal
noncomputable section
variable {d : Nat} {G T : Type} (g : Rigid d)

theorem moveAll_append : (A B : List (DefModule d)) → DefModule.moveAll g (A ++ B) = DefModule.moveAll g A ++ DefModule.moveAll g B
  | [], B => by rw [List.nil_append, DefModule.moveAll, List.nil_append]
  | m :: A, B => by rw [List.cons_append, DefModule.moveAll, DefModule.moveAll, moveAll_append A B, List.cons_append]

theorem moveAll_drop : (k : Nat) → (A : List (DefModule d)) → DefModule.moveAll g (A.drop k) = (DefModule.moveAll g A).drop k
  | 0, _ => rfl
  | k + 1, [] => by simp [DefModule.moveAll]
  | k + 1, m :: A => by rw [DefModule.moveAll, List.drop_succ_cons, List.drop_succ_cons, moveAll_drop k A]

theorem mfdMoveAll_drop (k : Nat) (A : List (Mfd d)) : Mfd.moveAll g (A.drop k) = (Mfd.moveAll g A).drop k := by
  rw [moveAll_eq, moveAll_eq, List.map_drop]

theorem members_move (m : DefModule d) : (m.move g).members = DefModule.moveAll g m.members := by
  cases m <;> simp only [DefModule.move, DefModule.members, DefModule.moveAll]

theorem silents_move (Ds : List (Deformable d G)) : (Ds.map (Deformable.move g)).map Deformable.silent = DefModule.moveAll g (Ds.map Deformable.silent) := by
  induction Ds with
  | nil => rfl
  | cons D Ds ih =>
    rw [List.map_cons, List.map_cons, List.map_cons, DefModule.moveAll, ih]
    rfl

theorem allMovable_append : (A B : List (DefModule d)) → (DefModule.AllMovable g (A ++ B) ↔ DefModule.AllMovable g A ∧ DefModule.AllMovable g B)
  | [], B => by rw [List.nil_append, DefModule.AllMovable, true_and]
  | m :: A, B => by rw [List.cons_append, DefModule.AllMovable, DefModule.AllMovable, allMovable_append A B, and_assoc]

theorem allMovable_silents (Ds : List (Deformable d G)) : DefModule.AllMovable g (Ds.map Deformable.silent) := by
  induction Ds with
  | nil => rw [List.map_nil, DefModule.AllMovable]; trivial
  | cons D Ds ih => rw [List.map_cons, DefModule.AllMovable]; exact ⟨trivial, ih⟩

theorem movable_joined (Ds : List (Deformable d G)) {ms : List (DefModule d)} (h : DefModule.AllMovable g ms) :
    (DefModule.compound (Ds.map Deformable.silent ++ ms)).Movable g := by
  rw [DefModule.Movable, allMovable_append]
  exact ⟨allMovable_silents g Ds, h⟩

theorem movable_same {m m' : DefModule d} (h : Same m m') : m.Movable g ↔ m'.Movable g := by
  have := movable_of_reset g (h (0, 0))
  rwa [movable_rowsMod, movable_rowsMod] at this

/-! ## Filling -/

mutual
theorem Mfd.blank_rows (x y : Row) : (M : Mfd d) → (o : Nat) → (M.blank.withGd x o).withCot y o = (M.withGd x o).withCot y o
  | .landmarks _ _, _ => by simp [Mfd.blank, Mfd.withGd, Mfd.withCot]
  | .direction _ _ _ _ _, _ => by simp [Mfd.blank, Mfd.withGd, Mfd.withCot]
  | .frame _ _ _ _, _ => by simp [Mfd.blank, Mfd.withGd, Mfd.withCot]
  | .empty, _ => by simp [Mfd.blank, Mfd.withGd, Mfd.withCot]
  | .compound Ms, o => by rw [Mfd.blank, Mfd.withGd, Mfd.withGd, Mfd.withCot, Mfd.withCot, Mfd.blank_rowsAll x y Ms o]
theorem Mfd.blank_rowsAll (x y : Row) : (Ms : List (Mfd d)) → (o : Nat) →
    Mfd.withCotAll y o (Mfd.withGdAll x o (Mfd.blankAll Ms)) = Mfd.withCotAll y o (Mfd.withGdAll x o Ms)
  | [], _ => by rw [Mfd.blankAll]
  | M :: Ms, o => by
    rw [Mfd.blankAll, Mfd.withGdAll, Mfd.withGdAll, Mfd.withCotAll, Mfd.withCotAll, Mfd.blank_rows x y M o, Mfd.size_withGd, Mfd.size_withGd,
      Mfd.size_blank M, Mfd.blank_rowsAll x y Ms]
theorem Mfd.size_blank : (M : Mfd d) → M.blank.size = M.size
  | .landmarks _ _ => by simp [Mfd.blank, Mfd.size]
  | .direction _ _ _ _ _ => by simp [Mfd.blank, Mfd.size]
  | .frame _ _ _ _ => by simp [Mfd.blank, Mfd.size]
  | .empty => by simp [Mfd.blank]
  | .compound Ms => by rw [Mfd.blank, Mfd.size, Mfd.size, Mfd.size_blankAll Ms]
theorem Mfd.size_blankAll : (Ms : List (Mfd d)) → Mfd.sizeAll (Mfd.blankAll Ms) = Mfd.sizeAll Ms
  | [] => by rw [Mfd.blankAll]
  | M :: Ms => by rw [Mfd.blankAll, Mfd.sizeAll, Mfd.sizeAll, Mfd.size_blank M, Mfd.size_blankAll Ms]
end

mutual
theorem Mfd.blank_eq : (M : Mfd d) → (o : Nat) → M.blank = (M.withGd 0 o).withCot 0 o
  | .landmarks _ _, _ => by simp only [Mfd.blank, Mfd.withGd, Mfd.withCot]; rfl
  | .direction _ _ _ _ _, _ => by simp only [Mfd.blank, Mfd.withGd, Mfd.withCot]; rfl
  | .frame _ _ _ _, _ => by simp only [Mfd.blank, Mfd.withGd, Mfd.withCot]; rfl
  | .empty, _ => by simp [Mfd.blank, Mfd.withGd, Mfd.withCot]
  | .compound Ms, o => by rw [Mfd.blank, Mfd.withGd, Mfd.withCot, Mfd.blankAll_eq Ms o]
theorem Mfd.blankAll_eq : (Ms : List (Mfd d)) → (o : Nat) → Mfd.blankAll Ms = Mfd.withCotAll 0 o (Mfd.withGdAll 0 o Ms)
  | [], _ => by rw [Mfd.blankAll, Mfd.withGdAll, Mfd.withCotAll]
  | M :: Ms, o => by
    rw [Mfd.blankAll, Mfd.withGdAll, Mfd.withCotAll, ← Mfd.blank_eq M o, Mfd.size_withGd, ← Mfd.blankAll_eq Ms]
end

theorem Mfd.SameKind.rows {S M : Mfd d} (h : S.SameKind M) (x : Row × Row) : (S.withGd x.1 0).withCot x.2 0 = (M.withGd x.1 0).withCot x.2 0 := by
  rw [← Mfd.blank_rows, h, Mfd.blank_rows]

theorem sameKind_of_rows {S M : Mfd d} (h : (S.withGd 0 0).withCot 0 0 = (M.withGd 0 0).withCot 0 0) : S.SameKind M := by
  rw [← Mfd.blank_eq, ← Mfd.blank_eq] at h
  exact h

theorem sameKind_same {m m' : DefModule d} (h : Same m m') : m.manifold.SameKind m'.manifold := sameKind_of_rows <| by
  have := manifold_of_reset (h (0, 0))
  rwa [manifold_rowsMod, manifold_rowsMod] at this

theorem Mfd.SameKind.fits {S : Mfd d} {m : DefModule d} (h : S.SameKind m.manifold) : S.Fits m := by
  have := congrArg (fun M : Mfd d => M.unrollGd.map List.length) (h.rows (0, 0))
  simp only [Mfd.unrollGd_withCot, Mfd.lengths_withGd] at this
  exact this

theorem Mfd.SameKind.gdMotion {S M : Mfd d} (h : S.SameKind M) (x : Row) : Imodal.gdMotion g S x = Imodal.gdMotion g M x := by
  have key : ∀ N : Mfd d, Imodal.gdMotion g N x = rowOf (((N.withGd x 0).withCot 0 0).move g).unrollGd.flatten := fun N => by
    unfold Imodal.gdMotion
    have := congrArg Mfd.unrollGd (mfd_move_withCot g 0 0 (N.withGd x 0) 0 0)
    rw [Mfd.unrollGd_withCot, Mfd.unrollGd_withCot] at this
    rw [this]
  rw [key, key, h.rows (x, 0)]

theorem Mfd.SameKind.cotMotion {S M : Mfd d} (h : S.SameKind M) (x : Row) : Imodal.cotMotion g S x = Imodal.cotMotion g M x := by
  rw [← cotMotion_withGd g S x 0, ← cotMotion_withGd g M x 0]
  unfold Imodal.cotMotion
  rw [h.rows (0, x)]

mutual
theorem Mfd.blank_move : (M : Mfd d) → (M.move g).blank = M.blank
  | .landmarks _ _ => by simp [Mfd.blank, Mfd.move]
  | .direction _ _ _ _ _ => by simp [Mfd.blank, Mfd.move]
  | .frame _ _ _ _ => by simp [Mfd.blank, Mfd.move]
  | .empty => by simp [Mfd.move]
  | .compound Ms => by rw [Mfd.move, Mfd.blank, Mfd.blank, Mfd.blankAll_move Ms]
theorem Mfd.blankAll_move : (Ms : List (Mfd d)) → Mfd.blankAll (Mfd.moveAll g Ms) = Mfd.blankAll Ms
  | [] => by rw [Mfd.moveAll]
  | M :: Ms => by rw [Mfd.moveAll, Mfd.blankAll, Mfd.blankAll, Mfd.blank_move M, Mfd.blankAll_move Ms]
end

theorem Mfd.SameKind.move {S M : Mfd d} (h : S.SameKind M) : (S.move g).SameKind (M.move g) := by
  unfold Mfd.SameKind
  rw [Mfd.blank_move, Mfd.blank_move, h]

theorem Mfd.SameKind.trans {S M N : Mfd d} (h : S.SameKind M) (h' : M.SameKind N) : S.SameKind N := Eq.trans h h'

theorem sameKind_all {A B : List (Mfd d)} (h : List.Forall₂ Mfd.SameKind A B) : (Mfd.compound A).SameKind (.compound B) := by
  unfold Mfd.SameKind
  rw [Mfd.blank, Mfd.blank]
  congr 1
  induction h with
  | nil => rfl
  | cons h _ ih => rw [Mfd.blankAll, Mfd.blankAll, h, ih]

theorem fillGdFrom_move {S : Mfd d} {m : DefModule d} (h : S.SameKind m.manifold) :
    (m.move g).fillGdFrom (S.move g) = (m.fillGdFrom S).map (DefModule.move g) := by
  have hm : (S.move g).Fits (m.move g) := Mfd.SameKind.fits (by rw [manifold_move]; exact h.move g)
  rw [fillGdFrom_fits hm, fillGdFrom_fits h.fits]
  show Except.ok _ = Except.ok _
  rw [← withGd_gdMotion, ← h.gdMotion]
  unfold Mfd.rows
  rw [gdMotion_row]

theorem fillCotFrom_move {S : Mfd d} {m : DefModule d} (h : S.SameKind m.manifold) :
    (m.move g).fillCotFrom (S.move g) = (m.fillCotFrom S).map (DefModule.move g) := by
  have hm : (S.move g).Fits (m.move g) := Mfd.SameKind.fits (by rw [manifold_move]; exact h.move g)
  rw [fillCotFrom_fits hm, fillCotFrom_fits h.fits]
  show Except.ok _ = Except.ok _
  rw [← withCot_cotMotion, ← h.cotMotion]
  unfold Mfd.rows
  rw [cotMotion_row]

theorem fillModules_move {ms : List (DefModule d)} {mans : List (Mfd d)} (h : (Mfd.compound mans).SameKind (DefModule.compound ms).manifold) :
    fillModules (DefModule.moveAll g ms) (Mfd.moveAll g mans) = (fillModules ms mans).map (DefModule.moveAll g) := by
  have e1 : DefModule.compound (DefModule.moveAll g ms) = (DefModule.compound ms).move g := by rw [DefModule.move]
  have e2 : Mfd.compound (Mfd.moveAll g mans) = (Mfd.compound mans).move g := by rw [Mfd.move]
  unfold fillModules
  rw [e1, e2, fillGdFrom_move g h, fillGdFrom_fits h.fits]
  simp only [Except.map]
  have h' : (Mfd.compound mans).SameKind ((DefModule.compound ms).withGd (Mfd.compound mans).rows.1 0).manifold :=
    h.trans (sameKind_same (sameGd_withGd _ _).same.symm)
  rw [fillCotFrom_move g h', fillCotFrom_fits h'.fits]
  simp only [Except.map, members_move]

/-! ## Smoothness -/

section
variable {n : WithTop ℕ∞} {J : Prop}
mutual
theorem smoothParts_withGd (x : Row) : (m : DefModule d) → (o : Nat) → ((m.withGd x o).SmoothParts n J ↔ m.SmoothParts n J)
  | .translations _, _ => by simp [DefModule.withGd, DefModule.SmoothParts]
  | .implicit0 _, _ => by simp [DefModule.withGd, DefModule.SmoothParts]
  | .oriented _, _ => by simp [DefModule.withGd, DefModule.SmoothParts]
  | .constrained _, _ => by simp [DefModule.withGd, DefModule.SmoothParts]
  | .globalTranslation _, _ => by simp [DefModule.withGd, DefModule.SmoothParts]
  | .linear _, _ => by simp [DefModule.withGd, DefModule.SmoothParts]
  | .implicit1 _, _ => by simp [DefModule.withGd, DefModule.SmoothParts]
  | .divFree _, _ => by simp [DefModule.withGd, DefModule.SmoothParts]
  | .arap _, _ => by simp [DefModule.withGd, DefModule.SmoothParts]
  | .silent _, _ => by simp [DefModule.withGd, DefModule.SmoothParts, Mfd.noEmpty_gd]
  | .compound ms, o => by
    rw [DefModule.withGd, DefModule.SmoothParts, DefModule.SmoothParts, allSmoothParts_withGd x ms]
    cases ms <;> simp [DefModule.withGdAll]
theorem allSmoothParts_withGd (x : Row) : (ms : List (DefModule d)) → (o : Nat) →
    (DefModule.AllSmoothParts n J (DefModule.withGdAll x o ms) ↔ DefModule.AllSmoothParts n J ms)
  | [], _ => by simp [DefModule.withGdAll]
  | m :: ms, o => by rw [DefModule.withGdAll, DefModule.AllSmoothParts, DefModule.AllSmoothParts, smoothParts_withGd x m, allSmoothParts_withGd x ms]
end

mutual
theorem smoothParts_withCot (x : Row) : (m : DefModule d) → (o : Nat) → ((m.withCot x o).SmoothParts n J ↔ m.SmoothParts n J)
  | .translations _, _ => by simp [DefModule.withCot, DefModule.SmoothParts]
  | .implicit0 _, _ => by simp [DefModule.withCot, DefModule.SmoothParts]
  | .oriented _, _ => by simp [DefModule.withCot, DefModule.SmoothParts]
  | .constrained _, _ => by simp [DefModule.withCot, DefModule.SmoothParts]
  | .globalTranslation _, _ => by simp [DefModule.withCot, DefModule.SmoothParts]
  | .linear _, _ => by simp [DefModule.withCot, DefModule.SmoothParts]
  | .implicit1 _, _ => by simp [DefModule.withCot, DefModule.SmoothParts]
  | .divFree _, _ => by simp [DefModule.withCot, DefModule.SmoothParts]
  | .arap _, _ => by simp [DefModule.withCot, DefModule.SmoothParts]
  | .silent _, _ => by simp [DefModule.withCot, DefModule.SmoothParts, Mfd.noEmpty_cot]
  | .compound ms, o => by
    rw [DefModule.withCot, DefModule.SmoothParts, DefModule.SmoothParts, allSmoothParts_withCot x ms]
    cases ms <;> simp [DefModule.withCotAll]
theorem allSmoothParts_withCot (x : Row) : (ms : List (DefModule d)) → (o : Nat) →
    (DefModule.AllSmoothParts n J (DefModule.withCotAll x o ms) ↔ DefModule.AllSmoothParts n J ms)
  | [], _ => by simp [DefModule.withCotAll]
  | m :: ms, o => by rw [DefModule.withCotAll, DefModule.AllSmoothParts, DefModule.AllSmoothParts, smoothParts_withCot x m, allSmoothParts_withCot x ms]
end

theorem smooth_rowsMod (m : DefModule d) (x : Row × Row) : (rowsMod m x).Smooth n ↔ m.Smooth n := by
  unfold DefModule.Smooth
  rw [manifold_rowsMod, Mfd.noDir_cot, Mfd.noDir_gd]
  unfold rowsMod
  rw [smoothParts_withCot, smoothParts_withGd]

mutual
theorem smoothParts_reset : (m : DefModule d) → (m.reset.SmoothParts n J ↔ m.SmoothParts n J)
  | .translations _ => by simp [DefModule.reset, DefModule.SmoothParts]
  | .implicit0 _ => by simp [DefModule.reset, DefModule.SmoothParts]
  | .oriented _ => by simp [DefModule.reset, DefModule.SmoothParts]
  | .constrained _ => by simp [DefModule.reset, DefModule.SmoothParts]
  | .globalTranslation _ => by simp [DefModule.reset, DefModule.SmoothParts]
  | .linear _ => by simp [DefModule.reset, DefModule.SmoothParts]
  | .implicit1 _ => by simp [DefModule.reset, DefModule.SmoothParts]
  | .divFree _ => by simp [DefModule.reset, DefModule.SmoothParts]
  | .arap _ => by simp [DefModule.reset, DefModule.SmoothParts]
  | .silent _ => by simp [DefModule.reset, DefModule.SmoothParts]
  | .compound ms => by
    rw [DefModule.reset, DefModule.SmoothParts, DefModule.SmoothParts, allSmoothParts_reset ms]
    cases ms <;> simp [DefModule.resetAll]
theorem allSmoothParts_reset : (ms : List (DefModule d)) → (DefModule.AllSmoothParts n J (DefModule.resetAll ms) ↔ DefModule.AllSmoothParts n J ms)
  | [] => by simp [DefModule.resetAll]
  | m :: ms => by rw [DefModule.resetAll, DefModule.AllSmoothParts, DefModule.AllSmoothParts, smoothParts_reset m, allSmoothParts_reset ms]
end

theorem smooth_reset (m : DefModule d) : m.reset.Smooth n ↔ m.Smooth n := by
  unfold DefModule.Smooth
  rw [DefModule.manifold_reset, smoothParts_reset]

theorem smooth_joined (Ds : List (Deformable d G)) {ms : List (DefModule d)} (h : (DefModule.compound ms).Smooth n) :
    (DefModule.compound (Ds.map Deformable.silent ++ ms)).Smooth n := by
  unfold DefModule.Smooth at h ⊢
  have hJ : (DefModule.compound (Ds.map Deformable.silent ++ ms)).manifold.NoDirections ↔ (DefModule.compound ms).manifold.NoDirections := by
    rw [DefModule.manifold, DefModule.manifold, Mfd.NoDirections, Mfd.NoDirections]
    clear h
    induction Ds with
    | nil => rfl
    | cons D Ds ih =>
      rw [List.map_cons, List.cons_append, DefModule.manifolds, Mfd.AllNoDirections, ih, Deformable.silent, DefModule.manifold, Mfd.NoDirections, true_and]
  rw [propext hJ]
  generalize (DefModule.compound ms).manifold.NoDirections = J at h
  rw [DefModule.SmoothParts] at h ⊢
  refine ⟨by simp [h.1], ?_⟩
  clear hJ
  induction Ds with
  | nil => exact h.2
  | cons D Ds ih =>
    rw [List.map_cons, List.cons_append, DefModule.AllSmoothParts]
    refine ⟨?_, ih⟩
    rw [Deformable.silent, DefModule.SmoothParts, Mfd.NoEmptyCompound]
    trivial
end

/-! ## Deformables -/

theorem fill_move (D : Deformable d G) (man : Mfd d) : (D.move g).fill (man.move g) = (D.fill man).map (Deformable.move g) := by
  cases man <;> simp only [Mfd.move, Deformable.fill] <;> rfl

theorem fillDeformables_move : (Ds : List (Deformable d G)) → (mans : List (Mfd d)) →
    fillDeformables (Ds.map (Deformable.move g)) (Mfd.moveAll g mans) = (fillDeformables Ds mans).map (List.map (Deformable.move g))
  | [], mans => by simp [fillDeformables, Except.map]
  | D :: Ds, [] => by simp [fillDeformables, Mfd.moveAll, Except.map]
  | D :: Ds, man :: mans => by
    rw [List.map_cons, Mfd.moveAll, fillDeformables, fillDeformables, fill_move, fillDeformables_move Ds mans]
    cases D.fill man with
    | error e => rfl
    | ok D' =>
      simp only [Except.map]
      cases fillDeformables Ds mans <;> rfl

theorem pointsOf_move (m : DefModule d) : pointsOf (m.move g) = (pointsOf m).map (Points.move g) := by
  cases m with
  | silent man => cases man <;> simp only [DefModule.move, Mfd.move, pointsOf] <;> rfl
  | _ => simp only [DefModule.move, pointsOf]; rfl

theorem toGeometries_move {φ : G → G} : (Ds : List (Deformable d G)) → (∀ D ∈ Ds, D.Carries g φ) → (ms : List (DefModule d)) →
    toGeometries (Ds.map (Deformable.move g)) (DefModule.moveAll g ms) = (toGeometries Ds ms).map (List.map φ)
  | [], _, ms => by simp [toGeometries, Except.map]
  | D :: Ds, _, [] => by simp [toGeometries, DefModule.moveAll, Except.map]
  | D :: Ds, h, m :: ms => by
    rw [List.map_cons, DefModule.moveAll, toGeometries, toGeometries, pointsOf_move, toGeometries_move Ds (fun D hD => h D (List.mem_cons_of_mem _ hD)) ms]
    cases pointsOf m with
    | error e => rfl
    | ok p =>
      simp only [Except.map]
      rw [show (D.move g).toDeformed = D.toDeformed from rfl, h D (List.mem_cons_self ..) p]
      cases D.toDeformed p with
      | error e => rfl
      | ok x =>
        simp only [Except.map]
        cases toGeometries Ds ms <;> rfl

theorem backwardModules_move (Ds : List (Deformable d G)) : backwardModules (Ds.map (Deformable.move g)) = backwardModules Ds := by
  induction Ds with
  | nil => rfl
  | cons D Ds ih =>
    rw [List.map_cons, backwardModules, backwardModules, ih]
    rfl

/-! ## Costs -/

theorem totalLoop_move {states : List (Mfd d)} (controls : List (Ctrl d)) {m₀ : DefModule d} (h0 : m₀.Movable g)
    (hS : ∀ S ∈ states, S.SameKind m₀.manifold) (k : Nat) : ∀ (i : Nat) (m : DefModule d), Same m m₀ →
    totalLoop (states.map (Mfd.move g)) (controls.map (Ctrl.move g)) i k (m.move g) = (totalLoop states controls i k m).map fun r => (r.1, r.2.move g) := by
  induction k with
  | zero => intro i m _; rfl
  | succ k ih =>
    intro i m hm
    rw [totalLoop, totalLoop, List.getElem?_map, List.getElem?_map]
    cases h1 : states[i]? with
    | none => rfl
    | some S =>
      simp only [Option.map_some]
      have hk : S.SameKind m.manifold := (hS S (List.mem_of_getElem? h1)).trans (sameKind_same hm.symm)
      rw [fillGdFrom_move g hk]
      cases h2 : m.fillGdFrom S with
      | error e => rfl
      | ok m1 =>
        have s1 : Same m1 m₀ := (fillGdFrom_sameGd h2).same.trans hm
        simp only [Except.map]
        cases controls[i]? with
        | none => rfl
        | some c =>
          simp only [Option.map_some]
          rw [fillControls_move g m1 c ((movable_same g s1).2 h0)]
          cases h3 : m1.fillControls c with
          | error e => rfl
          | ok m2 =>
            have s2 : Same m2 m₀ := (same_of_reset (reset_fill _ h3)).trans s1
            simp only [Except.map]
            rw [cost_move g m2 ((movable_same g s2).2 h0)]
            cases m2.cost with
            | error e => rfl
            | ok a =>
              simp only
              rw [ih (i + 1) m2 s2]
              cases totalLoop states controls (i + 1) k m2 <;> rfl

theorem reduceCost_move (red : Reduce) (it : Nat) (costs : Option (List ℝ)) (controls : Option (List (Ctrl d))) {states : List (Mfd d)}
    {m : DefModule d} (h : m.Movable g) (hS : ∀ S ∈ states, S.SameKind m.manifold) :
    reduceCost red it costs (controls.map (List.map (Ctrl.move g))) (states.map (Mfd.move g)) (m.move g) =
      (reduceCost red it costs controls states m).map fun r => (r.1, r.2.move g) := by
  unfold reduceCost
  cases red with
  | sum => cases costs <;> rfl
  | previous =>
    dsimp only
    rw [manifold_move, geodesic_move g _ m h]
    cases h1 : m.geodesic m.manifold with
    | error e => rfl
    | ok m' =>
      simp only [Except.map]
      rw [cost_move g m' (movable_geodesic g _ m h1 h)]
      cases m'.cost <;> rfl
  | lastCompound =>
    dsimp only
    rw [cost_move g m h]
    cases m.cost <;> rfl
  | totalCompound =>
    cases controls with
    | none =>
      simp only [Option.map_none]
      split
      · rfl
      · rw [List.getElem?_map]
        cases h1 : states[0]? with
        | none => rfl
        | some S =>
          simp only [Option.map_some]
          rw [fillGdFrom_move g (hS S (List.mem_of_getElem? h1))]
          cases m.fillGdFrom S <;> rfl
    | some cs =>
      simp only [Option.map_some]
      rw [totalLoop_move g cs h hS it 0 m (Same.refl _)]
      cases totalLoop states cs 0 it m <;> rfl
  | other => rfl

theorem ctrlMoveAll_append : (a b : List (Ctrl d)) → Ctrl.moveAll g (a ++ b) = Ctrl.moveAll g a ++ Ctrl.moveAll g b
  | [], b => by rw [List.nil_append, Ctrl.moveAll, List.nil_append]
  | c :: a, b => by rw [List.cons_append, Ctrl.moveAll, Ctrl.moveAll, ctrlMoveAll_append a b, List.cons_append]

theorem ctrlMoveAll_none : (k : Nat) → Ctrl.moveAll g (List.replicate k (Ctrl.none : Ctrl d)) = List.replicate k .none
  | 0 => by rw [List.replicate_zero, Ctrl.moveAll]
  | k + 1 => by rw [List.replicate_succ, Ctrl.moveAll, Ctrl.move, ctrlMoveAll_none k]

theorem padControls_move (k : Nat) (controls : Option (List (List (Ctrl d)))) :
    padControls k (controls.map (List.map (Ctrl.moveAll g))) = (padControls k controls).map (List.map (Ctrl.move g)) := by
  cases controls with
  | none => rfl
  | some cs =>
    simp only [padControls, Option.map_some, List.map_map]
    congr 2
    funext c
    simp only [Function.comp_apply, Ctrl.move, ctrlMoveAll_append, ctrlMoveAll_none]

/-! ## Deforming -/

theorem computeDeformed_move {φ : G → G} {Ds : List (Deformable d G)} (hD : ∀ D ∈ Ds, D.Carries g φ) {ms : List (DefModule d)}
    (h : DefModule.AllMovable g ms) (hs : (DefModule.compound ms).Smooth 1) (s : SolverName) (it : Nat) (wantCosts : Bool)
    (controls : Option (List (List (Ctrl d)))) (t1 : ℝ) (red : Reduce) :
    computeDeformed (Ds.map (Deformable.move g)) (DefModule.moveAll g ms) s it wantCosts (controls.map (List.map (Ctrl.moveAll g))) t1 red =
      (computeDeformed Ds ms s it wantCosts controls t1 red).map (Deformed.move g φ) := by
  have hm := movable_joined g Ds h
  have hsm := smooth_joined Ds hs
  unfold computeDeformed
  dsimp only
  rw [silents_move, ← moveAll_append, ← DefModule.move.eq_11, List.length_map, padControls_move,
    C78_all g s it t1 _ hm hsm]
  cases h1 : shoot s it t1 (padControls Ds.length controls) (.compound (Ds.map Deformable.silent ++ ms)) with
  | error e => rfl
  | ok r =>
    obtain ⟨r, costs⟩ := r
    simp only [Except.map]
    have hb : ((Ds.map (Deformable.move g)).any fun D => D.backward.isSome) = Ds.any fun D => D.backward.isSome := by
      rw [List.any_map]; rfl
    rw [hb]
    split
    · rw [backwardModules_move]
      cases backwardModules Ds <;> rfl
    · have s1 := shoot_same h1
      have hr : (if wantCosts then reduceCost red it costs ((padControls Ds.length controls).map (List.map (Ctrl.move g))) (r.move g).states (r.move g).module
            else .ok (none, (r.move g).module)) =
          (if wantCosts then reduceCost red it costs (padControls Ds.length controls) r.states r.module else .ok (none, r.module)).map
            fun q => (q.1, q.2.move g) := by
        split
        · refine reduceCost_move g red it costs _ ((movable_same g s1).2 hm) fun S hS => ?_
          obtain ⟨m', e1, rfl⟩ := shoot_states h1 S hS
          exact sameKind_same (e1.trans s1.symm)
        · rfl
      rw [hr]
      cases (if wantCosts then reduceCost red it costs (padControls Ds.length controls) r.states r.module else .ok (none, r.module)) with
      | error e => rfl
      | ok q =>
        simp only [Except.map, Shot.move, members_move]
        rw [toGeometries_move g Ds hD]
        cases toGeometries Ds r.module.members <;> rfl

/-! ## The model -/

theorem leave_move (D : Deformable d G) (m : DefModule d) : (D.move g).leave (m.move g) = (D.leave m).move g := by
  unfold Deformable.leave
  rw [manifold_move, fill_move]
  cases D.fill m.manifold <;> rfl

theorem zipWith_leave_move : (Ds : List (Deformable d G)) → (ms : List (DefModule d)) →
    List.zipWith Deformable.leave (Ds.map (Deformable.move g)) (DefModule.moveAll g ms) = (List.zipWith Deformable.leave Ds ms).map (Deformable.move g)
  | [], _ => by simp
  | _ :: _, [] => by simp [DefModule.moveAll]
  | D :: Ds, m :: ms => by
    rw [List.map_cons, DefModule.moveAll, List.zipWith_cons_cons, List.zipWith_cons_cons, List.map_cons, leave_move, zipWith_leave_move Ds ms]

theorem RegModel.leave_move (M : RegModel d G T) (m : DefModule d) : (M.move g).leave (m.move g) = (M.leave m).move g := by
  unfold RegModel.leave RegModel.move
  simp only [members_move, zipWith_leave_move, List.length_map, moveAll_drop]

theorem allMovable_rowsMod {ms ms' : List (DefModule d)} {x : Row × Row} (e : rowsMod (.compound ms) x = .compound ms') (h : DefModule.AllMovable g ms) :
    DefModule.AllMovable g ms' := by
  have : (DefModule.compound ms').Movable g := by rw [← e, movable_rowsMod, DefModule.Movable]; exact h
  rwa [DefModule.Movable] at this

theorem carries_fill {φ : G → G} {Ds Ds' : List (Deformable d G)} {mans : List (Mfd d)} (h : fillDeformables Ds mans = .ok Ds')
    (hD : ∀ D ∈ Ds, D.Carries g φ) : ∀ D ∈ Ds', D.Carries g φ := by
  induction Ds generalizing mans Ds' with
  | nil => rw [fillDeformables] at h; cases h; simp; simp
  | cons D Ds ih =>
    cases mans with
    | nil => rw [fillDeformables] at h; cases h; exact hD; simp
    | cons man mans =>
      rw [fillDeformables] at h
      cases h1 : D.fill man with
      | error e => rw [h1] at h; cases h
      | ok D' =>
        rw [h1] at h
        dsimp only at h
        cases h2 : fillDeformables Ds mans with
        | error e => rw [h2] at h; cases h
        | ok Ds₂ =>
          rw [h2] at h
          cases h
          intro E hE
          rcases List.mem_cons.1 hE with rfl | hE
          · have : E.toDeformed = D.toDeformed := by
              cases man <;> simp only [Deformable.fill, reduceCtorEq, Except.ok.injEq] at h1
              rw [← h1]
            intro p
            rw [this]
            exact hD D (List.mem_cons_self ..) p
          · exact ih h2 (fun D hD' => hD D (List.mem_cons_of_mem _ hD')) E hE

theorem RegModel.computeDeformed_move {φ : G → G} {M : RegModel d G T} (hD : ∀ D ∈ M.deformables, D.Carries g φ) (hk : M.Kept)
    (h : DefModule.AllMovable g M.modules) (hs : (DefModule.compound M.modules).Smooth 1) (s : SolverName) (it : Nat) (wantCosts : Bool) (t1 : ℝ) :
    (M.move g).computeDeformed s it wantCosts t1 = (M.computeDeformed s it wantCosts t1).map fun r => (r.1.move g φ, r.2.move g) := by
  unfold RegModel.computeDeformed
  have e1 : (M.move g).init.drop (M.move g).deformables.length = Mfd.moveAll g (M.init.drop M.deformables.length) := by
    rw [mfdMoveAll_drop]; simp only [RegModel.move, List.length_map]
  have e2 : fillModules (M.move g).modules (Mfd.moveAll g (M.init.drop M.deformables.length)) =
      (fillModules M.modules (M.init.drop M.deformables.length)).map (DefModule.moveAll g) := fillModules_move g hk
  rw [e1, e2]
  obtain ⟨ms, r1, r2⟩ := fillModules_fits hk.fits
  rw [r2]
  simp only [Except.map]
  have e3 : fillDeformables (M.move g).deformables (M.move g).init = (fillDeformables M.deformables M.init).map (List.map (Deformable.move g)) :=
    fillDeformables_move g _ _
  rw [e3]
  cases h1 : fillDeformables M.deformables M.init with
  | error e => rfl
  | ok Ds =>
    simp only [Except.map]
    have e4 : (M.move g).steps it = M.steps it := by
      unfold RegModel.steps RegModel.move
      cases M.learned <;> rfl
    have e5 : (M.move g).learned.map Prod.snd = (M.learned.map Prod.snd).map (List.map (Ctrl.moveAll g)) := by
      unfold RegModel.move
      cases M.learned <;> rfl
    have hsm : (DefModule.compound ms).Smooth 1 := by rw [← r1, smooth_rowsMod]; exact hs
    rw [e4, e5, show (M.move g).reduce = M.reduce from rfl, Imodal.computeDeformed_move g (carries_fill g h1 hD) (allMovable_rowsMod g r1 h) hsm s
      (M.steps it) wantCosts (M.learned.map Prod.snd) t1 M.reduce]
    cases Imodal.computeDeformed Ds ms s (M.steps it) wantCosts (M.learned.map Prod.snd) t1 M.reduce with
    | error e => rfl
    | ok r =>
      simp only [Except.map, Except.ok.injEq, Prod.mk.injEq, true_and]
      exact RegModel.leave_move g ({ M with deformables := Ds, modules := ms }) r.compound

theorem attachmentCost_move {φ : G → G} {ψ : T → T} : (as : List (Attach G T)) → (∀ a ∈ as, a.Blind φ ψ) → (gs : List G) → (ts : List T) →
    attachmentCost as (gs.map φ) (ts.map ψ) = attachmentCost as gs ts
  | [], _, _, _ => by simp [attachmentCost]
  | _ :: _, _, [], _ => by simp [attachmentCost]
  | _ :: _, _, _ :: _, [] => by simp [attachmentCost]
  | a :: as, h, s :: gs, t :: ts => by
    rw [List.map_cons, List.map_cons, attachmentCost, attachmentCost, attachmentCost_move as (fun b hb => h b (List.mem_cons_of_mem _ hb))]
    unfold Attach.call
    rw [h a (List.mem_cons_self ..) s t]

theorem computeDeformed_attachments {M M' : RegModel d G T} {s : SolverName} {it : Nat} {wantCosts : Bool} {t1 : ℝ} {r : Deformed d G}
    (h : M.computeDeformed s it wantCosts t1 = .ok (r, M')) : M'.attachments = M.attachments := by
  unfold RegModel.computeDeformed at h
  cases h1 : fillModules M.modules (M.init.drop M.deformables.length) with
  | error e => rw [h1] at h; cases h
  | ok ms =>
    rw [h1] at h
    cases h2 : fillDeformables M.deformables M.init with
    | error e => rw [h2] at h; cases h
    | ok Ds =>
      rw [h2] at h
      dsimp only at h
      cases h3 : Imodal.computeDeformed Ds ms s (M.steps it) wantCosts (M.learned.map Prod.snd) t1 M.reduce with
      | error e => rw [h3] at h; cases h
      | ok r' => rw [h3] at h; cases h; rfl

theorem RegModel.evaluate_move {φ : G → G} {ψ : T → T} {M : RegModel d G T} (hD : ∀ D ∈ M.deformables, D.Carries g φ) (hk : M.Kept)
    (h : DefModule.AllMovable g M.modules) (hs : (DefModule.compound M.modules).Smooth 1) (ha : ∀ a ∈ M.attachments, a.Blind φ ψ)
    (targets : List T) (s : SolverName) (it : Nat) (costs : Dict CostKey ℝ) :
    (M.move g).evaluate none (targets.map ψ) s it costs = (M.evaluate none targets s it costs).map (Evaluated.move g) := by
  unfold RegModel.evaluate
  have e : (M.move g).deformables.length = M.deformables.length := by simp [RegModel.move]
  rw [List.length_map, e]
  split
  · rfl
  · dsimp only
    rw [RegModel.computeDeformed_move g hD hk h hs s it true 1]
    cases h1 : M.computeDeformed s it true 1 with
    | error e => rfl
    | ok r =>
      obtain ⟨r, N⟩ := r
      simp only [Except.map]
      have : attachmentCost (N.move g).attachments (r.move g φ).geometries (targets.map ψ) = attachmentCost N.attachments r.geometries targets :=
        attachmentCost_move _ (by have e : N.attachments = M.attachments := computeDeformed_attachments h1; rw [show (N.move g).attachments = N.attachments from rfl, e]; exact ha) _ _
      rw [this]
      cases attachmentCost N.attachments r.geometries targets with
      | error e => rfl
      | ok a => rfl

end
end Imodal
