import Verif.Lemmas.RelabelRows
import Verif.Lemmas.RigidReg
/-!
# Registration with the points of the modules listed in another order
-/
set_option autoImplicit false
namespace Imodal
noncomputable section
variable {d : Nat} {G T : Type}

/-! ## Shapes -/

mutual
theorem shape_relabel : (σ : Labels) → (M : Mfd d) → (M.relabel σ).unrollGd.map List.length = M.unrollGd.map List.length
  | _, .landmarks _ _ => by simp [Mfd.relabel, Mfd.unrollGd, length_flatVecs]
  | _, .direction .. => by simp [Mfd.relabel, Mfd.unrollGd, length_flatVecs]
  | _, .frame .. => by simp [Mfd.relabel, Mfd.unrollGd, length_flatVecs, length_flatMats]
  | _, .empty => by simp only [Mfd.relabel]
  | σ, .compound ms => by simp only [Mfd.relabel, Mfd.unrollGd]; exact shapeAll_relabel σ 0 ms
theorem shapeAll_relabel : (σ : Labels) → (k : Nat) → (ms : List (Mfd d)) →
    (Mfd.unrollGdAll (Mfd.relabelAll σ k ms)).map List.length = (Mfd.unrollGdAll ms).map List.length
  | _, _, [] => by simp only [Mfd.relabelAll]
  | σ, k, m :: ms => by
    simp only [Mfd.relabelAll, Mfd.unrollGdAll, List.map_append]
    rw [shape_relabel (σ.at k) m, shapeAll_relabel σ (k + 1) ms]
end

theorem relabel_fits (σ : Labels) (m : DefModule d) : FitTwin (Relabelled σ m) := by
  rintro a b a₀ b₀ ⟨rfl, -, h, -⟩ ⟨rfl, -, h₀, -⟩
  unfold Mfd.Fits at h h₀ ⊢
  rw [manifold_relabel, manifold_relabel, shape_relabel, shape_relabel, ← h, ← h₀]
  exact ⟨rfl, rfl⟩

theorem relabelled_self {σ : Labels} (m : DefModule d) : Relabelled σ m m (m.relabel σ) := ⟨rfl, rfl, rfl, rfl⟩

theorem facts_of_same (σ : Labels) {m m' : DefModule d} (h : Same m' m) : relabelFacts σ m' = relabelFacts σ m := by
  have h0 := facts_of_reset σ (h (0, 0))
  unfold rowsMod at h0
  rwa [facts_withCot, facts_withGd, facts_withCot, facts_withGd] at h0

theorem Mfd.SameKind.coords {S M : Mfd d} (h : S.SameKind M) (σ : Labels) : S.coords σ = M.coords σ := by
  have := congrArg (Mfd.coords σ) (h.rows (0, 0))
  rwa [coords_withCot, coords_withGd, coords_withCot, coords_withGd] at this

/-! ## Orders that leave the first members alone -/

/-- The orders of `τ` for the members after the first `n`. -/
def Labels.after (n : Nat) (τ : Labels) : Labels
  | [], _ => 1
  | k :: place, c => if k < n then 1 else τ ((k - n) :: place) c

theorem after_nil (n c : Nat) (τ : Labels) : τ.after n [] c = 1 := rfl
theorem after_lt {n k : Nat} (h : k < n) (τ : Labels) (place : List Nat) (c : Nat) : (τ.after n).at k place c = 1 := if_pos h
theorem after_ge (n k : Nat) (τ : Labels) : (τ.after n).at (n + k) = τ.at k := by
  funext place c
  unfold Labels.at Labels.after
  dsimp only
  rw [if_neg (by omega), Nat.add_sub_cancel_left]

theorem relabelAll_after (n : Nat) (τ : Labels) : (k : Nat) → (ms : List (DefModule d)) → DefModule.relabelAll (τ.after n) (n + k) ms = DefModule.relabelAll τ k ms
  | _, [] => by rw [DefModule.relabelAll, DefModule.relabelAll]
  | k, m :: ms => by rw [DefModule.relabelAll, DefModule.relabelAll, after_ge, Nat.add_assoc, relabelAll_after n τ (k + 1) ms]
theorem keepsAll_after (n : Nat) (τ : Labels) : (k : Nat) → (ms : List (DefModule d)) → (DefModule.KeepsAll (τ.after n) (n + k) ms ↔ DefModule.KeepsAll τ k ms)
  | _, [] => by rw [DefModule.KeepsAll, DefModule.KeepsAll]
  | k, m :: ms => by rw [DefModule.KeepsAll, DefModule.KeepsAll, after_ge, Nat.add_assoc, keepsAll_after n τ (k + 1) ms]
theorem relabelCtrls_after (n : Nat) (τ : Labels) : (k : Nat) → (ms : List (DefModule d)) → (hs : List (Ctrl d)) →
    DefModule.relabelCtrls (τ.after n) (n + k) ms hs = DefModule.relabelCtrls τ k ms hs
  | _, [], _ => by simp only [DefModule.relabelCtrls]
  | _, _ :: _, [] => by simp only [DefModule.relabelCtrls]
  | k, m :: ms, h :: hs => by rw [DefModule.relabelCtrls, DefModule.relabelCtrls, after_ge, Nat.add_assoc, relabelCtrls_after n τ (k + 1) ms hs]

theorem silent_relabel {σ : Labels} (h : ∀ c, σ [] c = 1) (D : Deformable d G) : D.silent.relabel σ = D.silent := by
  simp [Deformable.silent, DefModule.relabel, Mfd.relabel, h]

theorem relabelAll_silents {n : Nat} (τ : Labels) (ms : List (DefModule d)) : (Ds : List (Deformable d G)) → (j : Nat) → j + Ds.length = n →
    DefModule.relabelAll (τ.after n) j (Ds.map Deformable.silent ++ ms) = Ds.map Deformable.silent ++ DefModule.relabelAll τ 0 ms
  | [], j, h => by
    have : j = n + 0 := h
    rw [this, List.map_nil, List.nil_append, List.nil_append, relabelAll_after]
  | D :: Ds, j, h => by
    rw [List.length_cons] at h
    rw [List.map_cons, List.cons_append, DefModule.relabelAll, silent_relabel (fun c => after_lt (by omega) τ [] c), relabelAll_silents τ ms Ds (j + 1) (by omega),
      List.cons_append]
theorem keepsAll_silents {n : Nat} (τ : Labels) {ms : List (DefModule d)} (hk : DefModule.KeepsAll τ 0 ms) : (Ds : List (Deformable d G)) → (j : Nat) → j + Ds.length = n →
    DefModule.KeepsAll (τ.after n) j (Ds.map Deformable.silent ++ ms)
  | [], j, h => by
    have : j = n + 0 := h
    rw [this, List.map_nil, List.nil_append, keepsAll_after]
    exact hk
  | D :: Ds, j, h => by
    rw [List.length_cons] at h
    rw [List.map_cons, List.cons_append, DefModule.KeepsAll]
    exact ⟨by simp only [Deformable.silent, DefModule.Keeps], keepsAll_silents τ hk Ds (j + 1) (by omega)⟩
theorem relabelCtrls_silents {n : Nat} (τ : Labels) (ms : List (DefModule d)) (c : List (Ctrl d)) : (Ds : List (Deformable d G)) → (j : Nat) → j + Ds.length = n →
    DefModule.relabelCtrls (τ.after n) j (Ds.map Deformable.silent ++ ms) (List.replicate Ds.length .none ++ c) =
      List.replicate Ds.length .none ++ DefModule.relabelCtrls τ 0 ms c
  | [], j, h => by
    have : j = n + 0 := h
    rw [this, List.map_nil, List.nil_append, List.length_nil, List.replicate_zero, List.nil_append, List.nil_append, relabelCtrls_after]
  | D :: Ds, j, h => by
    rw [List.length_cons] at h
    rw [List.map_cons, List.cons_append, List.length_cons, List.replicate_succ, List.cons_append, DefModule.relabelCtrls,
      relabelCtrls_silents τ ms c Ds (j + 1) (by omega), List.cons_append]
    simp only [Deformable.silent, DefModule.relabelCtrl]

theorem pointsOf_relabel {σ : Labels} (h : ∀ c, σ [] c = 1) (m : DefModule d) : pointsOf (m.relabel σ) = pointsOf m := by
  cases m with
  | silent M => cases M <;> simp [DefModule.relabel, Mfd.relabel, pointsOf, h]
  | _ => simp only [DefModule.relabel, pointsOf]
theorem fill_relabel_id {σ : Labels} (h : ∀ c, σ [] c = 1) (D : Deformable d G) (M : Mfd d) : D.fill (M.relabel σ) = D.fill M := by
  cases M <;> simp [Mfd.relabel, Deformable.fill, h]
theorem leave_relabel {σ : Labels} (h : ∀ c, σ [] c = 1) (D : Deformable d G) (m : DefModule d) : D.leave (m.relabel σ) = D.leave m := by
  unfold Deformable.leave
  rw [manifold_relabel, fill_relabel_id h]

theorem toGeometries_relabel {n : Nat} (τ : Labels) : (Ds : List (Deformable d G)) → (j : Nat) → j + Ds.length = n → (l : List (DefModule d)) →
    toGeometries Ds (DefModule.relabelAll (τ.after n) j l) = toGeometries Ds l
  | [], _, _, l => by simp only [toGeometries]
  | _ :: _, _, _, [] => by rw [DefModule.relabelAll]
  | D :: Ds, j, h, m :: l => by
    rw [List.length_cons] at h
    rw [DefModule.relabelAll, toGeometries, toGeometries, pointsOf_relabel (fun c => after_lt (by omega) τ [] c), toGeometries_relabel τ Ds (j + 1) (by omega) l]
theorem leaveAll_relabel {n : Nat} (τ : Labels) : (Ds : List (Deformable d G)) → (j : Nat) → j + Ds.length = n → (l : List (DefModule d)) →
    List.zipWith Deformable.leave Ds (DefModule.relabelAll (τ.after n) j l) = List.zipWith Deformable.leave Ds l
  | [], _, _, l => by simp
  | _ :: _, _, _, [] => by rw [DefModule.relabelAll]
  | D :: Ds, j, h, m :: l => by
    rw [List.length_cons] at h
    rw [DefModule.relabelAll, List.zipWith_cons_cons, List.zipWith_cons_cons, leave_relabel (fun c => after_lt (by omega) τ [] c), leaveAll_relabel τ Ds (j + 1) (by omega) l]

theorem drop_relabel (σ : Labels) : (n k : Nat) → (l : List (DefModule d)) → (DefModule.relabelAll σ k l).drop n = DefModule.relabelAll σ (k + n) (l.drop n)
  | 0, k, l => by simp
  | n + 1, k, [] => by simp [DefModule.relabelAll]
  | n + 1, k, m :: l => by rw [DefModule.relabelAll, List.drop_succ_cons, List.drop_succ_cons, drop_relabel σ n (k + 1) l, Nat.add_assoc, Nat.add_comm 1 n]

theorem geometries_relabelled {Ds : List (Deformable d G)} (τ : Labels) {m a b : DefModule d} (h : Relabelled (τ.after Ds.length) m a b) :
    toGeometries Ds b.members = toGeometries Ds a.members := by
  rw [h.1]
  cases a with
  | compound l =>
    simp only [DefModule.relabel, DefModule.members]
    exact toGeometries_relabel τ Ds 0 (Nat.zero_add _) l
  | silent M =>
    simp only [DefModule.relabel, DefModule.members]
    cases Ds with
    | nil => simp only [toGeometries]
    | cons D Ds =>
      have := pointsOf_relabel (σ := τ.after (D :: Ds).length) (fun c => rfl) (.silent M)
      rw [DefModule.relabel] at this
      rw [toGeometries, toGeometries, this]
  | _ => cases Ds <;> simp only [DefModule.relabel, DefModule.members, toGeometries, pointsOf]

/-! ## Computing the deformed geometries -/

/-- The controls of a registration, listed in another order. -/
def relabelSteps (τ : Labels) (ms : List (DefModule d)) (cs : Option (List (List (Ctrl d)))) : Option (List (List (Ctrl d))) :=
  cs.map (List.map (DefModule.relabelCtrls τ 0 ms))

theorem pad_relabel (τ : Labels) (Ds : List (Deformable d G)) (ms : List (DefModule d)) (cs : Option (List (List (Ctrl d)))) :
    Option.Rel (List.Forall₂ fun c c' => c' = (DefModule.compound (Ds.map Deformable.silent ++ ms)).relabelCtrl (τ.after Ds.length) c)
      (padControls Ds.length cs) (padControls Ds.length (relabelSteps τ ms cs)) := by
  cases cs with
  | none => exact Option.Rel.none
  | some cs =>
    refine Option.Rel.some ?_
    dsimp only
    rw [List.map_map, List.forall₂_map_left_iff, List.forall₂_map_right_iff, List.forall₂_same]
    intro c _
    rw [DefModule.relabelCtrl, relabelCtrls_silents τ ms c Ds 0 (Nat.zero_add _)]
    rfl

theorem deformed_relabel (τ : Labels) (Ds : List (Deformable d G)) {ms : List (DefModule d)} (hk : DefModule.KeepsAll τ 0 ms) (s : SolverName) (it : Nat) (w : Bool)
    (cs : Option (List (List (Ctrl d)))) (t1 : ℝ) (red : Reduce) :
    PyRel (fun r r' : Deformed d G => r'.geometries = r.geometries ∧ r'.cost = r.cost ∧ r'.compound = r.compound.relabel (τ.after Ds.length))
      (computeDeformed Ds ms s it w cs t1 red) (computeDeformed Ds (DefModule.relabelAll τ 0 ms) s it w (relabelSteps τ ms cs) t1 red) := by
  have hk' : (DefModule.compound (Ds.map Deformable.silent ++ ms)).Keeps (τ.after Ds.length) := by
    rw [DefModule.Keeps]; exact keepsAll_silents τ hk Ds 0 (Nat.zero_add _)
  have h : Relabelled (τ.after Ds.length) (.compound (Ds.map Deformable.silent ++ ms)) (.compound (Ds.map Deformable.silent ++ ms))
      (.compound (Ds.map Deformable.silent ++ DefModule.relabelAll τ 0 ms)) := by
    have := relabelled_self (σ := τ.after Ds.length) (.compound (Ds.map Deformable.silent ++ ms))
    rwa [DefModule.relabel, relabelAll_silents τ ms Ds 0 (Nat.zero_add _)] at this
  exact ((relabel_twin _ _ hk').deformed (relabel_fits _ _) (Ds := Ds) (fun h => geometries_relabelled τ h) h (pad_relabel τ Ds ms cs) s it w t1 red).mono
    fun r r' h => ⟨h.1, h.2.1, h.2.2.2.1⟩

/-! ## Registration models -/

theorem fillModules_relabel (τ : Labels) {ms : List (DefModule d)} {mans : List (Mfd d)} (h : (Mfd.compound mans).SameKind (DefModule.compound ms).manifold) :
    ∃ ms', fillModules ms mans = .ok ms' ∧ fillModules (DefModule.relabelAll τ 0 ms) (Mfd.relabelAll τ 0 mans) = .ok (DefModule.relabelAll τ 0 ms') ∧
      Same (.compound ms') (.compound ms) := by
  obtain ⟨ms', h1, h2⟩ := fillModules_fits h.fits
  have hf : (Mfd.compound (Mfd.relabelAll τ 0 mans)).Fits (.compound (DefModule.relabelAll τ 0 ms)) := by
    have := h.fits
    unfold Mfd.Fits at this ⊢
    have e1 := shape_relabel τ (Mfd.compound mans)
    have e2 := shape_relabel τ (DefModule.compound ms).manifold
    rw [← manifold_relabel, DefModule.relabel] at e2
    rw [Mfd.relabel] at e1
    rw [e1, e2, this]
  obtain ⟨ms'', h3, h4⟩ := fillModules_fits hf
  refine ⟨ms', h2, ?_, h1 ▸ same_rowsMod _ _⟩
  rw [h4]
  have e : rowsMod (.compound (DefModule.relabelAll τ 0 ms)) (Mfd.compound (Mfd.relabelAll τ 0 mans)).rows
      = (rowsMod (.compound ms) (Mfd.compound mans).rows).relabel τ := by
    have hc := h.coords τ
    have hs := size_of_fits h.fits
    have ha := along_gd τ (Mfd.compound mans)
    have hb := along_cot τ (Mfd.compound mans)
    rw [Mfd.relabel, hc, ← hs] at ha hb
    unfold rowsMod
    have g1 := mod_withGd_relabel τ (.compound ms) 0 (along_at.2 ha)
    rw [DefModule.relabel] at g1
    unfold Mfd.rows
    rw [g1]
    refine mod_withCot_relabel τ _ 0 (along_at.2 ?_)
    rw [DefModule.manifold_withGd, coords_withGd, Mfd.size_withGd]
    exact hb
  rw [h1, h3, DefModule.relabel] at e
  rw [DefModule.compound.inj e]

theorem fillDeformables_relabel (σ : Labels) : (Ds : List (Deformable d G)) → (l : List (Mfd d)) →
    fillDeformables Ds (l.take Ds.length ++ Mfd.relabelAll σ 0 (l.drop Ds.length)) = fillDeformables Ds l
  | [], l => by simp only [fillDeformables]
  | D :: Ds, [] => by simp [Mfd.relabelAll]
  | D :: Ds, m :: l => by
    rw [List.length_cons, List.take_succ_cons, List.drop_succ_cons, List.cons_append, fillDeformables, fillDeformables, fillDeformables_relabel σ Ds l]

theorem length_fillDeformables : (Ds : List (Deformable d G)) → (l : List (Mfd d)) → {Ds' : List (Deformable d G)} → fillDeformables Ds l = .ok Ds' → Ds'.length = Ds.length
  | [], l, _, h => by simp only [fillDeformables] at h; cases h; rfl
  | D :: Ds, [], _, h => by simp only [fillDeformables] at h; cases h; rfl
  | D :: Ds, m :: l, Ds', h => by
    rw [fillDeformables] at h
    cases h1 : D.fill m with
    | error _ => rw [h1] at h; cases h
    | ok D' =>
      rw [h1] at h
      dsimp only at h
      cases h2 : fillDeformables Ds l with
      | error _ => rw [h2] at h; cases h
      | ok Ds'' =>
        rw [h2] at h
        cases h
        rw [List.length_cons, List.length_cons, length_fillDeformables Ds l h2]

theorem drop_relabel_init (σ : Labels) (n : Nat) (l : List (Mfd d)) : (l.take n ++ Mfd.relabelAll σ 0 (l.drop n)).drop n = Mfd.relabelAll σ 0 (l.drop n) := by
  by_cases h : n ≤ l.length
  · rw [List.drop_append, List.drop_take, List.length_take, Nat.min_eq_left h]; simp
  · rw [List.drop_eq_nil_of_le (by omega : l.length ≤ n), Mfd.relabelAll]
    simp

theorem registration_relabel (τ : Labels) {M : RegModel d G T} (hk : DefModule.KeepsAll τ 0 M.modules) (hM : M.Kept) (s : SolverName) (it : Nat) (w : Bool) (t1 : ℝ) :
    PyRel (fun r r' : Deformed d G × RegModel d G T => r'.1.geometries = r.1.geometries ∧ r'.1.cost = r.1.cost ∧ r'.2 = r.2.relabel τ)
      (M.computeDeformed s it w t1) ((M.relabel τ).computeDeformed s it w t1) := by
  obtain ⟨ms, h1, h2, h3⟩ := fillModules_relabel τ hM
  unfold RegModel.computeDeformed
  rw [h1]
  dsimp only [RegModel.relabel]
  rw [drop_relabel_init, h2, fillDeformables_relabel]
  dsimp only
  cases hD : fillDeformables M.deformables M.init with
  | error _ => trivial
  | ok Ds =>
    dsimp only
    have hfacts := facts_of_same τ h3
    have hk' : DefModule.KeepsAll τ 0 ms := by
      have := congrArg Prod.fst hfacts
      unfold relabelFacts at this
      simp only [DefModule.Keeps] at this
      rw [this]; exact hk
    have hctrl : ∀ {B : List (DefModule d)}, Same (.compound B) (.compound M.modules) → DefModule.relabelCtrls τ 0 B = DefModule.relabelCtrls τ 0 M.modules := fun hs => by
      funext c
      have := congrFun (congrArg Prod.snd (facts_of_same τ hs)) (.list c)
      unfold relabelFacts at this
      simp only [DefModule.relabelCtrl] at this
      exact Ctrl.list.inj this
    have hsteps : (M.learned.map fun l => (l.1, l.2.map (DefModule.relabelCtrls τ 0 M.modules))).map Prod.snd = relabelSteps τ ms (M.learned.map Prod.snd) := by
      unfold relabelSteps
      rw [hctrl h3]
      cases M.learned <;> rfl
    have hit : ∀ it, RegModel.steps ({ M with
        modules := DefModule.relabelAll τ 0 M.modules
        init := M.init.take M.deformables.length ++ Mfd.relabelAll τ 0 (M.init.drop M.deformables.length)
        learned := M.learned.map fun l => (l.1, l.2.map (DefModule.relabelCtrls τ 0 M.modules)) } : RegModel d G T) it = M.steps it := fun it => by
      unfold RegModel.steps
      dsimp only
      cases M.learned <;> rfl
    rw [hsteps, hit]
    rcases (deformed_relabel τ Ds hk' s (M.steps it) w (M.learned.map Prod.snd) t1 M.reduce).both with ⟨r, r', e, e', g1, g2, g3⟩ | ⟨_, _, e, e'⟩
    · rw [e, e']
      refine PyRel.ok ⟨g1, g2, ?_⟩
      obtain ⟨L, hL, hlen⟩ := same_compound (computeDeformed_same e)
      have hlD := length_fillDeformables _ _ hD
      rw [List.length_append, List.length_map] at hlen
      have hS := computeDeformed_same e
      rw [hL, ← List.take_append_drop Ds.length L] at hS
      have hB := (same_drop (by rw [List.length_take, List.length_map]; omega) hS).trans h3
      unfold RegModel.leave
      rw [g3, hL]
      dsimp only [RegModel.relabel]
      simp only [DefModule.relabel, DefModule.members]
      rw [leaveAll_relabel τ Ds 0 (Nat.zero_add _), drop_relabel, Nat.zero_add]
      have hz : (List.zipWith Deformable.leave Ds L).length = M.deformables.length := by
        rw [List.length_zipWith, hlen, ← hlD]; omega
      rw [hz, hctrl hB]
      have := relabelAll_after Ds.length τ 0 (L.drop Ds.length)
      rw [Nat.add_zero] at this
      rw [this]
    · rw [e, e']; trivial

end
end Imodal
