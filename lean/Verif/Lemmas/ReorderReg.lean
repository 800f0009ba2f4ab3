import Verif.Lemmas.ReorderTwin
import Verif.Lemmas.RelabelReg
/-!
# Registration with the modules in another order
-/
set_option autoImplicit false
namespace Imodal
noncomputable section
variable {d : Nat} {G T α : Type}

/-! ## Orders that leave the first members alone -/

/-- The order `is` for the members after the first `n`. -/
def orderAfter (n : Nat) (is : List Nat) : List Nat := List.range n ++ is.map (n + ·)

theorem length_orderAfter (n : Nat) (is : List Nat) : (orderAfter n is).length = n + is.length := by
  rw [orderAfter, List.length_append, List.length_range, List.length_map]

theorem isOrder_after {is : List Nat} (hi : IsOrder is) (n : Nat) : IsOrder (orderAfter n is) := by
  unfold IsOrder
  rw [length_orderAfter, List.range_add]
  exact List.Perm.append_left _ (hi.map _)

theorem reorder_after (is : List Nat) {A : List α} {n : Nat} (hA : A.length = n) (B : List α) : reorder (orderAfter n is) (A ++ B) = A ++ reorder is B := by
  unfold reorder
  rw [length_orderAfter, List.length_append, hA]
  by_cases h : B.length = is.length
  · rw [if_pos (by omega), if_pos h, orderAfter, List.filterMap_append, List.filterMap_map]
    congr 1
    · conv_rhs => rw [← range_filterMap A, hA]
      refine List.filterMap_congr fun i hi => ?_
      rw [List.getElem?_append_left (by rw [hA]; exact List.mem_range.1 hi)]
    · refine List.filterMap_congr fun i _ => ?_
      rw [Function.comp_apply, List.getElem?_append_right (by omega), hA, Nat.add_sub_cancel_left]
  · rw [if_neg (by omega), if_neg h]

theorem reorder_split (is : List Nat) {n : Nat} {L : List α} (h : n ≤ L.length) : reorder (orderAfter n is) L = L.take n ++ reorder is (L.drop n) := by
  conv_lhs => rw [← List.take_append_drop n L]
  exact reorder_after is (by rw [List.length_take]; omega) _

theorem toGeometries_append : (Ds : List (Deformable d G)) → (A B B' : List (DefModule d)) → A.length = Ds.length → toGeometries Ds (A ++ B) = toGeometries Ds (A ++ B')
  | [], A, B, B', _ => by simp only [toGeometries]
  | D :: Ds, [], _, _, h => by simp at h
  | D :: Ds, m :: A, B, B', h => by
    rw [List.cons_append, List.cons_append, toGeometries, toGeometries, toGeometries_append Ds A B B' (by simpa using h)]
theorem leave_append (Ds : List (Deformable d G)) {A : List (DefModule d)} (h : A.length = Ds.length) (B B' : List (DefModule d)) :
    List.zipWith Deformable.leave Ds (A ++ B) = List.zipWith Deformable.leave Ds (A ++ B') := by
  have key : ∀ B, List.zipWith Deformable.leave Ds (A ++ B) = List.zipWith Deformable.leave Ds A := fun B => by
    have := List.zipWith_append (f := Deformable.leave) (l₁ := Ds) (l₁' := []) (l₂ := A) (l₂' := B) h.symm
    rwa [List.append_nil, List.zipWith_nil_left, List.append_nil] at this
  rw [key, key]

theorem fillDeformables_append : (Ds : List (Deformable d G)) → (A B B' : List (Mfd d)) → A.length = Ds.length → fillDeformables Ds (A ++ B) = fillDeformables Ds (A ++ B')
  | [], A, B, B', _ => by simp only [fillDeformables]
  | D :: Ds, [], _, _, h => by simp at h
  | D :: Ds, m :: A, B, B', h => by
    rw [List.cons_append, List.cons_append, fillDeformables, fillDeformables, fillDeformables_append Ds A B B' (by simpa using h)]

theorem geometries_reordered {Ds : List (Deformable d G)} {is : List Nat} {Z : List (List Nat)} (hZ : Ds.length ≤ Z.length) {a b : DefModule d}
    (h : Reordered (orderAfter Ds.length is) Z a b) : toGeometries Ds b.members = toGeometries Ds a.members := by
  obtain ⟨L, rfl, rfl, hL⟩ := h
  have hl := reordered_length hL
  rw [DefModule.members, DefModule.members, reorder_split is (by omega)]
  conv_rhs => rw [← List.take_append_drop Ds.length L]
  exact toGeometries_append Ds _ _ _ (by rw [List.length_take]; omega)

/-! ## Computing the deformed geometries -/

theorem pad_reorder (is : List Nat) (n : Nat) (cs : Option (List (List (Ctrl d)))) :
    Option.Rel (List.Forall₂ fun c c' : Ctrl d => c' = c.reorder (orderAfter n is)) (padControls n cs) (padControls n (cs.map (List.map (reorder is)))) := by
  cases cs with
  | none => exact Option.Rel.none
  | some cs =>
    refine Option.Rel.some ?_
    dsimp only
    rw [List.map_map, List.forall₂_map_left_iff, List.forall₂_map_right_iff, List.forall₂_same]
    intro c _
    rw [Ctrl.reorder, reorder_after is (List.length_replicate ..)]
    rfl

theorem deformed_reorder {is : List Nat} (hi : IsOrder is) (Ds : List (Deformable d G)) {ms : List (DefModule d)} (hl : ms.length = is.length) (s : SolverName) (it : Nat) (w : Bool)
    (cs : Option (List (List (Ctrl d)))) (t1 : ℝ) (red : Reduce) :
    PyRel (fun r r' : Deformed d G => r'.geometries = r.geometries ∧ r'.cost = r.cost ∧
        ∃ L, r.compound = .compound L ∧ r'.compound = .compound (L.take Ds.length ++ reorder is (L.drop Ds.length)) ∧ L.length = Ds.length + ms.length)
      (computeDeformed Ds ms s it w cs t1 red) (computeDeformed Ds (reorder is ms) s it w (cs.map (List.map (reorder is))) t1 red) := by
  have hlen : (Ds.map Deformable.silent).length = Ds.length := List.length_map _
  have h := reordered_self (is := orderAfter Ds.length is) (Ds.map Deformable.silent ++ ms)
  rw [reorder_after is hlen] at h
  have hZ : ((Ds.map Deformable.silent ++ ms).map shapeOf).length = Ds.length + ms.length := by
    rw [List.length_map, List.length_append, hlen]
  have W := reorder_twin (d := d) (isOrder_after hi Ds.length) (Z := (Ds.map Deformable.silent ++ ms).map shapeOf) (by rw [hZ, length_orderAfter, hl])
  refine (W.deformed (reorder_fits _ _) (Ds := Ds) (fun h => geometries_reordered (by omega) h) h (pad_reorder is Ds.length cs) s it w t1 red).mono fun r r' h => ?_
  obtain ⟨L, e, e', hL⟩ := h.2.2.2
  have hl' := reordered_length hL
  refine ⟨h.1, h.2.1, L, e, ?_, by rw [hl', hZ]⟩
  rw [e', reorder_split is (by omega)]

/-! ## Registration models -/

theorem blankAll_map : (Ms : List (Mfd d)) → Mfd.blankAll Ms = Ms.map Mfd.blank
  | [] => by rw [Mfd.blankAll]; rfl
  | M :: Ms => by rw [Mfd.blankAll, blankAll_map Ms]; rfl

theorem blank_shape (M : Mfd d) : M.blank.unrollGd.map List.length = M.unrollGd.map List.length := by
  rw [Mfd.blank_eq M 0, Mfd.unrollGd_withCot, Mfd.lengths_withGd]

theorem kept_shapes {mans : List (Mfd d)} {ms : List (DefModule d)} (h : (Mfd.compound mans).SameKind (DefModule.compound ms).manifold) :
    (mans.map fun M => M.unrollGd.map List.length) = ms.map shapeOf := by
  unfold Mfd.SameKind at h
  rw [DefModule.manifold, Mfd.blank, Mfd.blank] at h
  have h1 := Mfd.compound.inj h
  rw [blankAll_map, blankAll_map, manifolds_map, List.map_map] at h1
  have := congrArg (List.map fun M : Mfd d => M.unrollGd.map List.length) h1
  rw [List.map_map, List.map_map] at this
  have e1 : ((fun M : Mfd d => M.unrollGd.map List.length) ∘ Mfd.blank) = fun M => M.unrollGd.map List.length := funext fun M => blank_shape M
  have e2 : ((fun M : Mfd d => M.unrollGd.map List.length) ∘ Mfd.blank ∘ DefModule.manifold) = shapeOf := funext fun m => blank_shape _
  rwa [e1, e2] at this

theorem fillModules_reorder {is : List Nat} (hi : IsOrder is) {ms : List (DefModule d)} {mans : List (Mfd d)} (hl : ms.length = is.length)
    (h : (Mfd.compound mans).SameKind (DefModule.compound ms).manifold) :
    ∃ ms', fillModules ms mans = .ok ms' ∧ fillModules (reorder is ms) (reorder is mans) = .ok (reorder is ms') ∧ ms'.length = ms.length := by
  have hs := kept_shapes h
  have hZ : (ms.map shapeOf).length = is.length := by rw [List.length_map, hl]
  have W := reorder_twin (d := d) hi hZ
  obtain ⟨ms', h1, h2⟩ := fillModules_fits h.fits
  have hf : (Mfd.compound (reorder is mans)).Fits (.compound (reorder is ms)) := by
    have e := shape_compound (reorder is ms)
    rw [← reorder_map, ← hs] at e
    unfold Mfd.Fits
    refine Eq.trans ?_ e.symm
    rw [Mfd.unrollGd, reorder_map]
    induction reorder is mans with
    | nil => rw [Mfd.unrollGdAll]; rfl
    | cons M Ms ih => rw [Mfd.unrollGdAll, List.map_append, ih, List.map_cons, List.flatten_cons]
  obtain ⟨ms'', h3, h4⟩ := fillModules_fits hf
  have hS : (mans.map fun M : Mfd d => M.size) = (ms.map shapeOf).map List.sum := by
    rw [← hs, List.map_map]
    refine List.map_congr_left fun M _ => ?_
    rw [Function.comp_apply, ← List.length_flatten, Mfd.length_unrollGd]
  have hx : Along₂ ((ms.map shapeOf).map List.sum).sum (shuffle ((ms.map shapeOf).map List.sum) is) (Mfd.compound mans).rows (Mfd.compound (reorder is mans)).rows := by
    unfold Mfd.rows
    constructor
    · dsimp only
      rw [Mfd.unrollGd, Mfd.unrollGd, unrollGdAll_flatten, unrollGdAll_flatten, ← reorder_map]
      refine along_blocks hi ?_ (by rw [List.length_map, hZ])
      rw [← hS, List.map_map]
      exact List.map_congr_left fun m _ => Mfd.length_unrollGd _
    · dsimp only
      rw [Mfd.unrollCot, Mfd.unrollCot, unrollCotAll_flatten, unrollCotAll_flatten, ← reorder_map]
      refine along_blocks hi ?_ (by rw [List.length_map, hZ])
      rw [← hS, List.map_map]
      exact List.map_congr_left fun m _ => Mfd.length_unrollCot _
  obtain ⟨L, e, e', hL⟩ := W.setRows (reordered_self ms) hx
  rw [h1] at e
  rw [h3] at e'
  have e1 := DefModule.compound.inj e
  have e2 := DefModule.compound.inj e'
  subst e1
  refine ⟨ms', h2, by rw [h4, e2], by rw [reordered_length hL, List.length_map]⟩

theorem registration_reorder {is : List Nat} (hi : IsOrder is) {M : RegModel d G T} (hl : M.modules.length = is.length) (hM : M.Kept) (s : SolverName) (it : Nat) (w : Bool) (t1 : ℝ) :
    PyRel (fun r r' : Deformed d G × RegModel d G T => r'.1.geometries = r.1.geometries ∧ r'.1.cost = r.1.cost ∧ r'.2 = r.2.reorder is)
      (M.computeDeformed s it w t1) ((M.reorder is).computeDeformed s it w t1) := by
  obtain ⟨ms, h1, h2, h3⟩ := fillModules_reorder hi hl hM
  have hdrop : (M.init.take M.deformables.length ++ reorder is (M.init.drop M.deformables.length)).drop M.deformables.length = reorder is (M.init.drop M.deformables.length) := by
    by_cases h : M.deformables.length ≤ M.init.length
    · rw [List.drop_append, List.drop_take, List.length_take, Nat.min_eq_left h]; simp
    · have : M.init.drop M.deformables.length = [] := List.drop_eq_nil_of_le (by omega)
      rw [this]
      have hn : reorder is ([] : List (Mfd d)) = [] := List.length_eq_zero_iff.1 (by rw [length_reorder hi]; rfl)
      rw [hn]; simp
  have hfill : fillDeformables M.deformables (M.init.take M.deformables.length ++ reorder is (M.init.drop M.deformables.length)) = fillDeformables M.deformables M.init := by
    by_cases h : M.deformables.length ≤ M.init.length
    · conv_rhs => rw [← List.take_append_drop M.deformables.length M.init]
      exact fillDeformables_append _ _ _ _ (by rw [List.length_take]; omega)
    · have : M.init.drop M.deformables.length = [] := List.drop_eq_nil_of_le (by omega)
      rw [this]
      have hn : reorder is ([] : List (Mfd d)) = [] := List.length_eq_zero_iff.1 (by rw [length_reorder hi]; rfl)
      rw [hn, List.append_nil, List.take_of_length_le (by omega)]
  unfold RegModel.computeDeformed
  rw [h1]
  dsimp only [RegModel.reorder]
  rw [hdrop, h2, hfill]
  dsimp only
  cases hD : fillDeformables M.deformables M.init with
  | error _ => trivial
  | ok Ds =>
    dsimp only
    have hsteps : (M.learned.map fun l => (l.1, l.2.map (reorder is))).map Prod.snd = (M.learned.map Prod.snd).map (List.map (reorder is)) := by
      cases M.learned <;> rfl
    have hit : ∀ it, RegModel.steps ({ M with
        modules := reorder is M.modules
        init := M.init.take M.deformables.length ++ reorder is (M.init.drop M.deformables.length)
        learned := M.learned.map fun l => (l.1, l.2.map (reorder is)) } : RegModel d G T) it = M.steps it := fun it => by
      unfold RegModel.steps
      dsimp only
      cases M.learned <;> rfl
    rw [hsteps, hit]
    rcases (deformed_reorder hi Ds (h3.trans hl) s (M.steps it) w (M.learned.map Prod.snd) t1 M.reduce).both with ⟨r, r', e, e', g1, g2, L, g3, g4, g5⟩ | ⟨_, _, e, e'⟩
    · rw [e, e']
      refine PyRel.ok ⟨g1, g2, ?_⟩
      have hlD := length_fillDeformables _ _ hD
      have hT : (L.take Ds.length).length = Ds.length := by rw [List.length_take]; omega
      unfold RegModel.leave
      rw [g3, g4]
      dsimp only [RegModel.reorder]
      rw [DefModule.members, DefModule.members]
      have hz : (List.zipWith Deformable.leave Ds L).length = M.deformables.length := by
        rw [List.length_zipWith, g5, ← hlD]; omega
      have hd : (L.take Ds.length ++ reorder is (L.drop Ds.length)).drop Ds.length = reorder is (L.drop Ds.length) := by
        conv_lhs => arg 1; rw [← hT]
        rw [List.drop_left]
      rw [hz, leave_append Ds hT _ (L.drop Ds.length), List.take_append_drop, hd]
    · rw [e, e']; trivial

end
end Imodal
