import Verif.Spec.DilReg
import Verif.Lemmas.RigidReg
import Verif.Props.C86
import Verif.Props.C100
/-!
# Registrations in another unit of length
-/
set_option autoImplicit false
namespace Imodal
noncomputable section
variable {d : Nat} {G T : Type} {s : ℝ}

theorem dilateAll_append : (A B : List (DefModule d)) → DefModule.dilateAll s (A ++ B) = DefModule.dilateAll s A ++ DefModule.dilateAll s B
  | [], B => by rw [List.nil_append, DefModule.dilateAll, List.nil_append]
  | m :: A, B => by rw [List.cons_append, DefModule.dilateAll, DefModule.dilateAll, dilateAll_append A B, List.cons_append]

theorem dilateAll_drop : (k : Nat) → (A : List (DefModule d)) → DefModule.dilateAll s (A.drop k) = (DefModule.dilateAll s A).drop k
  | 0, _ => rfl
  | k + 1, [] => by simp [DefModule.dilateAll]
  | k + 1, m :: A => by rw [DefModule.dilateAll, List.drop_succ_cons, List.drop_succ_cons, dilateAll_drop k A]

theorem mfdDilateAll_drop (k : Nat) (A : List (Mfd d)) : Mfd.dilateAll s (A.drop k) = (Mfd.dilateAll s A).drop k := by
  rw [mfdDilateAll_eq, mfdDilateAll_eq, List.map_drop]

theorem members_dil (m : DefModule d) : (m.dilate s).members = DefModule.dilateAll s m.members := by
  cases m <;> simp only [DefModule.dilate, DefModule.members, DefModule.dilateAll]

theorem silents_dil (Ds : List (Deformable d G)) :
    (Ds.map (Deformable.dilate s)).map Deformable.silent = DefModule.dilateAll s (Ds.map Deformable.silent) := by
  induction Ds with
  | nil => simp [DefModule.dilateAll]
  | cons D Ds ih =>
    rw [List.map_cons, List.map_cons, List.map_cons, DefModule.dilateAll, ih]
    unfold Deformable.silent Deformable.dilate
    rw [DefModule.dilate, Mfd.dilate]

/-! ## Filling -/

mutual
theorem units_blank : (M : Mfd d) → M.blank.units s = M.units s
  | .landmarks _ _ => by simp only [Mfd.blank, Mfd.units]
  | .direction _ _ _ _ _ => by simp only [Mfd.blank, Mfd.units]
  | .frame _ _ _ _ => by simp only [Mfd.blank, Mfd.units]
  | .empty => by simp only [Mfd.blank]
  | .compound Ms => by rw [Mfd.blank, Mfd.units, Mfd.units, unitsAll_blank Ms]
theorem unitsAll_blank : (Ms : List (Mfd d)) → Mfd.unitsAll s (Mfd.blankAll Ms) = Mfd.unitsAll s Ms
  | [] => by simp only [Mfd.blankAll]
  | M :: Ms => by rw [Mfd.blankAll, Mfd.unitsAll, Mfd.unitsAll, units_blank M, unitsAll_blank Ms]
end

mutual
theorem blank_dil : (M : Mfd d) → (M.dilate s).blank = M.blank
  | .landmarks _ _ => by simp only [Mfd.blank, Mfd.dilate]
  | .direction _ _ _ _ _ => by simp only [Mfd.blank, Mfd.dilate]
  | .frame _ _ _ _ => by simp only [Mfd.blank, Mfd.dilate]
  | .empty => by simp only [Mfd.dilate]
  | .compound Ms => by rw [Mfd.dilate, Mfd.blank, Mfd.blank, blankAll_dil Ms]
theorem blankAll_dil : (Ms : List (Mfd d)) → Mfd.blankAll (Mfd.dilateAll s Ms) = Mfd.blankAll Ms
  | [] => by simp only [Mfd.dilateAll]
  | M :: Ms => by rw [Mfd.dilateAll, Mfd.blankAll, Mfd.blankAll, blank_dil M, blankAll_dil Ms]
end

theorem Mfd.SameKind.dilate {S M : Mfd d} (h : S.SameKind M) : (S.dilate s).SameKind (M.dilate s) := by
  unfold Mfd.SameKind
  rw [blank_dil, blank_dil, h]

theorem Mfd.SameKind.units {S M : Mfd d} (h : S.SameKind M) : S.units s = M.units s := by
  rw [← units_blank S, h, units_blank]

theorem Mfd.SameKind.unitRow {S : Mfd d} {m : DefModule d} (h : S.SameKind m.manifold) : (DefModule.silent S).unitRow s = m.unitRow s := by
  unfold DefModule.unitRow
  rw [DefModule.manifold, h.units]

theorem rows_dil (hs : s ≠ 0) {S : Mfd d} {m : DefModule d} (h : S.SameKind m.manifold) :
    (S.dilate s).rows = (fun j => m.unitRow s j * S.rows.1 j, fun j => s ^ 2 / m.unitRow s j * S.rows.2 j) := by
  have h1 := gdRow_dil hs (DefModule.silent S)
  have h2 := cotRow_dil hs (DefModule.silent S)
  rw [h.unitRow] at h1 h2
  unfold gdRow at h1
  unfold cotRow at h2
  rw [DefModule.dilate, DefModule.manifold, DefModule.manifold] at h1 h2
  unfold Mfd.rows
  rw [h1, h2]

theorem fillGdFrom_dil (hs : s ≠ 0) {S : Mfd d} {m : DefModule d} (h : S.SameKind m.manifold) :
    (m.dilate s).fillGdFrom (S.dilate s) = (m.fillGdFrom S).map (DefModule.dilate s) := by
  have hm : (S.dilate s).Fits (m.dilate s) := Mfd.SameKind.fits (by rw [manifold_dil]; exact h.dilate)
  rw [fillGdFrom_fits hm, fillGdFrom_fits h.fits, rows_dil hs h, dil_withGd _ _ (starts_unitRow m)]
  rfl

theorem fillCotFrom_dil (hs : s ≠ 0) {S : Mfd d} {m : DefModule d} (h : S.SameKind m.manifold) :
    (m.dilate s).fillCotFrom (S.dilate s) = (m.fillCotFrom S).map (DefModule.dilate s) := by
  have hm : (S.dilate s).Fits (m.dilate s) := Mfd.SameKind.fits (by rw [manifold_dil]; exact h.dilate)
  rw [fillCotFrom_fits hm, fillCotFrom_fits h.fits, rows_dil hs h, dil_withCot hs _ _ (starts_unitRow m)]
  rfl

theorem fillModules_dil (hs : s ≠ 0) {ms : List (DefModule d)} {mans : List (Mfd d)} (h : (Mfd.compound mans).SameKind (DefModule.compound ms).manifold) :
    fillModules (DefModule.dilateAll s ms) (Mfd.dilateAll s mans) = (fillModules ms mans).map (DefModule.dilateAll s) := by
  have e1 : DefModule.compound (DefModule.dilateAll s ms) = (DefModule.compound ms).dilate s := by rw [DefModule.dilate]
  have e2 : Mfd.compound (Mfd.dilateAll s mans) = (Mfd.compound mans).dilate s := by rw [Mfd.dilate]
  unfold fillModules
  rw [e1, e2, fillGdFrom_dil hs h, fillGdFrom_fits h.fits]
  simp only [Except.map]
  have h' : (Mfd.compound mans).SameKind ((DefModule.compound ms).withGd (Mfd.compound mans).rows.1 0).manifold :=
    h.trans (sameKind_same (sameGd_withGd _ _).same.symm)
  rw [fillCotFrom_dil hs h', fillCotFrom_fits h'.fits]
  simp only [Except.map, members_dil]

/-! ## Deformables -/

theorem fill_dil (D : Deformable d G) (man : Mfd d) : (D.dilate s).fill (man.dilate s) = (D.fill man).map (Deformable.dilate s) := by
  cases man <;> simp only [Mfd.dilate, Deformable.fill] <;> rfl

theorem fillDeformables_dil : (Ds : List (Deformable d G)) → (mans : List (Mfd d)) →
    fillDeformables (Ds.map (Deformable.dilate s)) (Mfd.dilateAll s mans) = (fillDeformables Ds mans).map (List.map (Deformable.dilate s))
  | [], mans => by simp [fillDeformables, Except.map]
  | D :: Ds, [] => by simp [fillDeformables, Mfd.dilateAll, Except.map]
  | D :: Ds, man :: mans => by
    rw [List.map_cons, Mfd.dilateAll, fillDeformables, fillDeformables, fill_dil, fillDeformables_dil Ds mans]
    cases D.fill man with
    | error e => rfl
    | ok D' =>
      simp only [Except.map]
      cases fillDeformables Ds mans <;> rfl

theorem pointsOf_dil (m : DefModule d) : pointsOf (m.dilate s) = (pointsOf m).map (Points.dilate s) := by
  cases m with
  | silent man => cases man <;> simp only [DefModule.dilate, Mfd.dilate, pointsOf] <;> rfl
  | _ => simp only [DefModule.dilate, pointsOf]; rfl

theorem toGeometries_dil {φ : G → G} : (Ds : List (Deformable d G)) → (∀ D ∈ Ds, D.CarriesUnit s φ) → (ms : List (DefModule d)) →
    toGeometries (Ds.map (Deformable.dilate s)) (DefModule.dilateAll s ms) = (toGeometries Ds ms).map (List.map φ)
  | [], _, ms => by simp [toGeometries, Except.map]
  | D :: Ds, _, [] => by simp [toGeometries, DefModule.dilateAll, Except.map]
  | D :: Ds, h, m :: ms => by
    rw [List.map_cons, DefModule.dilateAll, toGeometries, toGeometries, pointsOf_dil, toGeometries_dil Ds (fun D hD => h D (List.mem_cons_of_mem _ hD)) ms]
    cases pointsOf m with
    | error e => rfl
    | ok p =>
      simp only [Except.map]
      rw [show (D.dilate s).toDeformed = D.toDeformed from rfl, h D (List.mem_cons_self ..) p]
      cases D.toDeformed p with
      | error e => rfl
      | ok x =>
        simp only [Except.map]
        cases toGeometries Ds ms <;> rfl

theorem backwardModules_dil (Ds : List (Deformable d G)) : backwardModules (Ds.map (Deformable.dilate s)) = backwardModules Ds := by
  induction Ds with
  | nil => rfl
  | cons D Ds ih =>
    rw [List.map_cons, backwardModules, backwardModules, ih]
    rfl

/-! ## Costs -/

theorem totalLoop_dil (hs : s ≠ 0) {states : List (Mfd d)} (controls : List (Ctrl d)) {m₀ : DefModule d}
    (hS : ∀ S ∈ states, S.SameKind m₀.manifold) (k : Nat) : ∀ (i : Nat) (m : DefModule d), Same m m₀ →
    totalLoop (states.map (Mfd.dilate s)) (controls.map (m₀.dilateCtrl s)) i k (m.dilate s)
      = (totalLoop states controls i k m).map fun r => (s ^ 2 * r.1, r.2.dilate s) := by
  induction k with
  | zero => intro i m _; rw [totalLoop, totalLoop]; simp only [Except.map, mul_zero]
  | succ k ih =>
    intro i m hm
    rw [totalLoop, totalLoop, List.getElem?_map, List.getElem?_map]
    cases h1 : states[i]? with
    | none => rfl
    | some S =>
      simp only [Option.map_some]
      have hk : S.SameKind m.manifold := (hS S (List.mem_of_getElem? h1)).trans (sameKind_same hm.symm)
      rw [fillGdFrom_dil hs hk]
      cases h2 : m.fillGdFrom S with
      | error e => rfl
      | ok m1 =>
        have s1 : Same m1 m₀ := (fillGdFrom_sameGd h2).same.trans hm
        simp only [Except.map]
        cases controls[i]? with
        | none => rfl
        | some c =>
          simp only [Option.map_some]
          rw [← s1.dilateCtrl, fillControls_dil hs m1 c]
          cases h3 : m1.fillControls c with
          | error e => rfl
          | ok m2 =>
            have s2 : Same m2 m₀ := (same_of_reset (reset_fill _ h3)).trans s1
            simp only [Except.map]
            rw [cost_dil hs m2]
            cases m2.cost with
            | error e => rfl
            | ok a =>
              simp only [Except.map]
              rw [s1.dilateCtrl, ih (i + 1) m2 s2]
              cases totalLoop states controls (i + 1) k m2 with
              | error e => rfl
              | ok r => simp only [Except.map, mul_add]

theorem sum_scale (a : ℝ) (l : List ℝ) : (l.map (a * ·)).sum = a * l.sum := by
  induction l with
  | nil => simp
  | cons x l ih => rw [List.map_cons, List.sum_cons, List.sum_cons, ih, mul_add]

theorem reduceCost_dil (hs : s ≠ 0) (red : Reduce) (it : Nat) (costs : Option (List ℝ)) (controls : Option (List (Ctrl d))) {states : List (Mfd d)}
    {m m₀ : DefModule d} (hm : Same m m₀) (hS : ∀ S ∈ states, S.SameKind m.manifold) :
    reduceCost red it (costs.map (List.map (s ^ 2 * ·))) (controls.map (List.map (m₀.dilateCtrl s))) (states.map (Mfd.dilate s)) (m.dilate s) =
      (reduceCost red it costs controls states m).map fun r => (r.1.map (s ^ 2 * ·), r.2.dilate s) := by
  unfold reduceCost
  cases red with
  | sum =>
    cases costs with
    | none => rfl
    | some cs => simp only [Option.map_some, Except.map, sum_scale]
  | previous =>
    dsimp only
    rw [manifold_dil, geodesic_dil hs]
    cases m.geodesic m.manifold with
    | error e => rfl
    | ok m' =>
      simp only [Except.map]
      rw [cost_dil hs m']
      cases m'.cost <;> rfl
  | lastCompound =>
    dsimp only
    rw [cost_dil hs m]
    cases m.cost <;> rfl
  | totalCompound =>
    cases controls with
    | none =>
      simp only [Option.map_none]
      split
      · simp only [Except.map, Option.map_some, mul_zero]
      · rw [List.getElem?_map]
        cases h1 : states[0]? with
        | none => rfl
        | some S =>
          simp only [Option.map_some]
          rw [fillGdFrom_dil hs (hS S (List.mem_of_getElem? h1))]
          cases m.fillGdFrom S <;> rfl
    | some cs =>
      simp only [Option.map_some]
      rw [totalLoop_dil hs cs (fun S h => (hS S h).trans (sameKind_same hm)) it 0 m hm]
      cases totalLoop states cs 0 it m <;> rfl
  | other => rfl

theorem dilateCtrls_silents (Ds : List (Deformable d G)) (ms : List (DefModule d)) (c : List (Ctrl d)) :
    DefModule.dilateCtrls s (Ds.map Deformable.silent ++ ms) (List.replicate Ds.length .none ++ c)
      = List.replicate Ds.length .none ++ DefModule.dilateCtrls s ms c := by
  induction Ds with
  | nil => rfl
  | cons D Ds ih =>
    rw [List.map_cons, List.cons_append, List.length_cons, List.replicate_succ, List.cons_append, DefModule.dilateCtrls, ih, List.cons_append]
    congr 1

theorem padControls_dil (Ds : List (Deformable d G)) (ms : List (DefModule d)) (controls : Option (List (List (Ctrl d)))) :
    padControls Ds.length (controls.map (List.map (DefModule.dilateCtrls s ms)))
      = (padControls Ds.length controls).map (List.map ((DefModule.compound (Ds.map Deformable.silent ++ ms)).dilateCtrl s)) := by
  cases controls with
  | none => rfl
  | some cs =>
    simp only [padControls, Option.map_some, List.map_map]
    congr 2
    funext c
    simp only [Function.comp_apply, DefModule.dilateCtrl, dilateCtrls_silents]

/-! ## Deforming -/

theorem computeDeformed_dil (hs : s ≠ 0) {φ : G → G} {Ds : List (Deformable d G)} (hD : ∀ D ∈ Ds, D.CarriesUnit s φ) (ms : List (DefModule d))
    (S : SolverName) (it : Nat) (wantCosts : Bool) (controls : Option (List (List (Ctrl d)))) (t1 : ℝ) (red : Reduce) :
    computeDeformed (Ds.map (Deformable.dilate s)) (DefModule.dilateAll s ms) S it wantCosts (controls.map (List.map (DefModule.dilateCtrls s ms))) t1 red =
      (computeDeformed Ds ms S it wantCosts controls t1 red).map (Deformed.dilate s φ (.compound (Ds.map Deformable.silent ++ ms))) := by
  unfold computeDeformed
  dsimp only
  rw [silents_dil, ← dilateAll_append, ← DefModule.dilate.eq_11, List.length_map, padControls_dil Ds ms, C100_unit hs]
  cases h1 : shoot S it t1 (padControls Ds.length controls) (.compound (Ds.map Deformable.silent ++ ms)) with
  | error e => rfl
  | ok r =>
    obtain ⟨r, costs⟩ := r
    simp only [Except.map]
    have hb : ((Ds.map (Deformable.dilate s)).any fun D => D.backward.isSome) = Ds.any fun D => D.backward.isSome := by
      rw [List.any_map]; rfl
    rw [hb]
    split
    · rw [backwardModules_dil]
      cases backwardModules Ds <;> rfl
    · have s1 := shoot_same h1
      have hr : (if wantCosts then reduceCost red it (costs.map (List.map (s ^ 2 * ·))) ((padControls Ds.length controls).map
              (List.map ((DefModule.compound (Ds.map Deformable.silent ++ ms)).dilateCtrl s)))
              (r.dilate s (.compound (Ds.map Deformable.silent ++ ms))).states (r.dilate s (.compound (Ds.map Deformable.silent ++ ms))).module
            else .ok (none, (r.dilate s (.compound (Ds.map Deformable.silent ++ ms))).module)) =
          (if wantCosts then reduceCost red it costs (padControls Ds.length controls) r.states r.module else .ok (none, r.module)).map
            fun q => (q.1.map (s ^ 2 * ·), q.2.dilate s) := by
        split
        · refine reduceCost_dil hs red it costs _ s1 fun S hS => ?_
          obtain ⟨m', e1, rfl⟩ := shoot_states h1 S hS
          exact sameKind_same (e1.trans s1.symm)
        · rfl
      rw [hr]
      cases (if wantCosts then reduceCost red it costs (padControls Ds.length controls) r.states r.module else .ok (none, r.module)) with
      | error e => rfl
      | ok q =>
        simp only [Except.map, Shot.dilate, members_dil]
        rw [toGeometries_dil Ds hD]
        cases toGeometries Ds r.module.members <;> rfl

/-! ## The model -/

theorem leave_dil (D : Deformable d G) (m : DefModule d) : (D.dilate s).leave (m.dilate s) = (D.leave m).dilate s := by
  unfold Deformable.leave
  rw [manifold_dil, fill_dil]
  cases D.fill m.manifold <;> rfl

theorem zipWith_leave_dil : (Ds : List (Deformable d G)) → (ms : List (DefModule d)) →
    List.zipWith Deformable.leave (Ds.map (Deformable.dilate s)) (DefModule.dilateAll s ms) = (List.zipWith Deformable.leave Ds ms).map (Deformable.dilate s)
  | [], _ => by simp
  | _ :: _, [] => by simp [DefModule.dilateAll]
  | D :: Ds, m :: ms => by
    rw [List.map_cons, DefModule.dilateAll, List.zipWith_cons_cons, List.zipWith_cons_cons, List.map_cons, leave_dil, zipWith_leave_dil Ds ms]

theorem members_drop_same {Ds : List (Deformable d G)} {ms : List (DefModule d)} {m : DefModule d} (h : Same m (.compound (Ds.map Deformable.silent ++ ms))) :
    Same (.compound (m.members.drop Ds.length)) (.compound ms) := by
  obtain ⟨L, rfl, hl⟩ := same_compound h
  rw [List.length_append, List.length_map] at hl
  rw [← List.take_append_drop Ds.length L] at h
  exact same_drop (by rw [List.length_take, List.length_map]; omega) h

theorem Same.dilateCtrls {ms ms' : List (DefModule d)} (h : Same (.compound ms) (.compound ms')) : DefModule.dilateCtrls s ms = DefModule.dilateCtrls s ms' := by
  funext c
  have := congrFun (h.dilateCtrl (s := s)) (.list c)
  rw [DefModule.dilateCtrl, DefModule.dilateCtrl] at this
  exact Ctrl.list.inj this

theorem RegModel.leave_dil (M : RegModel d G T) (as : List (Attach G T)) {m : DefModule d}
    (h : Same m (.compound (M.deformables.map Deformable.silent ++ M.modules))) : (M.dilate s as).leave (m.dilate s) = (M.leave m).dilate s as := by
  unfold RegModel.leave RegModel.dilate
  simp only [members_dil, zipWith_leave_dil, List.length_map, dilateAll_drop, (members_drop_same h).dilateCtrls]

theorem carriesUnit_fill {φ : G → G} {Ds Ds' : List (Deformable d G)} {mans : List (Mfd d)} (h : fillDeformables Ds mans = .ok Ds')
    (hD : ∀ D ∈ Ds, D.CarriesUnit s φ) : ∀ D ∈ Ds', D.CarriesUnit s φ := by
  intro E hE
  obtain ⟨D, hD', -, h1⟩ := forall₂_right (fillDeformables_ok h) hE
  intro p
  rw [← h1]
  exact hD D hD' p

theorem dilateCtrls_joined {ms ms' : List (DefModule d)} (h : DefModule.dilateCtrls s ms = DefModule.dilateCtrls s ms') :
    {A B : List (Deformable d G)} → A.length = B.length →
    DefModule.dilateCtrls s (A.map Deformable.silent ++ ms) = DefModule.dilateCtrls s (B.map Deformable.silent ++ ms')
  | [], [], _ => h
  | D :: A, E :: B, hl => by
    funext c
    cases c with
    | nil => simp only [List.map_cons, List.cons_append, DefModule.dilateCtrls]
    | cons c cs =>
      rw [List.map_cons, List.map_cons, List.cons_append, List.cons_append, DefModule.dilateCtrls, DefModule.dilateCtrls,
        dilateCtrls_joined h (Nat.succ.inj hl)]
      unfold Deformable.silent
      cases c <;> simp only [DefModule.dilateCtrl]

theorem dilateCtrl_compound {ms ms' : List (DefModule d)} (h : DefModule.dilateCtrls s ms = DefModule.dilateCtrls s ms') :
    (DefModule.compound ms).dilateCtrl s = (DefModule.compound ms').dilateCtrl s := by
  funext c
  cases c <;> simp only [DefModule.dilateCtrl, h]

theorem RegModel.computeDeformed_dil (hs : s ≠ 0) {φ : G → G} {M : RegModel d G T} (as : List (Attach G T)) (hD : ∀ D ∈ M.deformables, D.CarriesUnit s φ)
    (hk : M.Kept) (S : SolverName) (it : Nat) (wantCosts : Bool) (t1 : ℝ) :
    (M.dilate s as).computeDeformed S it wantCosts t1
      = (M.computeDeformed S it wantCosts t1).map fun r =>
        (r.1.dilate s φ (.compound (M.deformables.map Deformable.silent ++ M.modules)), r.2.dilate s as) := by
  unfold RegModel.computeDeformed
  have e1 : (M.dilate s as).init.drop (M.dilate s as).deformables.length = Mfd.dilateAll s (M.init.drop M.deformables.length) := by
    rw [mfdDilateAll_drop]; simp only [RegModel.dilate, List.length_map]
  have e2 : fillModules (M.dilate s as).modules (Mfd.dilateAll s (M.init.drop M.deformables.length)) =
      (fillModules M.modules (M.init.drop M.deformables.length)).map (DefModule.dilateAll s) := fillModules_dil hs hk
  rw [e1, e2]
  obtain ⟨ms, r1, r2⟩ := fillModules_fits hk.fits
  rw [r2]
  simp only [Except.map]
  have hms : Same (.compound ms) (.compound M.modules) := by rw [← r1]; exact same_rowsMod _ _
  have e3 : fillDeformables (M.dilate s as).deformables (M.dilate s as).init = (fillDeformables M.deformables M.init).map (List.map (Deformable.dilate s)) :=
    fillDeformables_dil _ _
  rw [e3]
  cases h1 : fillDeformables M.deformables M.init with
  | error e => rfl
  | ok Ds =>
    simp only [Except.map]
    have e4 : (M.dilate s as).steps it = M.steps it := by
      unfold RegModel.steps RegModel.dilate
      cases M.learned <;> rfl
    have e5 : (M.dilate s as).learned.map Prod.snd = (M.learned.map Prod.snd).map (List.map (DefModule.dilateCtrls s ms)) := by
      rw [hms.dilateCtrls]
      unfold RegModel.dilate
      cases M.learned <;> rfl
    rw [e4, e5, show (M.dilate s as).reduce = M.reduce from rfl, Imodal.computeDeformed_dil hs (carriesUnit_fill h1 hD) ms S
      (M.steps it) wantCosts (M.learned.map Prod.snd) t1 M.reduce]
    cases h2 : Imodal.computeDeformed Ds ms S (M.steps it) wantCosts (M.learned.map Prod.snd) t1 M.reduce with
    | error e => rfl
    | ok r =>
      simp only [Except.map, Except.ok.injEq, Prod.mk.injEq]
      refine ⟨?_, ?_⟩
      · unfold Deformed.dilate Shot.dilate
        rw [dilateCtrl_compound (dilateCtrls_joined hms.dilateCtrls (fillDeformables_ok h1).length_eq.symm)]
      · have := RegModel.leave_dil (s := s) ({ M with deformables := Ds, modules := ms }) as (computeDeformed_same h2)
        refine Eq.trans ?_ this
        unfold RegModel.dilate
        simp only [hms.dilateCtrls]
        rfl

theorem attachmentCost_dil {φ : G → G} {ψ : T → T} {as as' : List (Attach G T)} (h : List.Forall₂ (Attach.InUnit s φ ψ) as as') : ∀ (gs : List G) (ts : List T),
    attachmentCost as' (gs.map φ) (ts.map ψ) = (attachmentCost as gs ts).map (s ^ 2 * ·) := by
  induction h with
  | nil => intro gs ts; simp [attachmentCost, Except.map]
  | @cons a a' as as' h1 _ ih =>
    intro gs ts
    match gs, ts with
    | [], _ => simp [attachmentCost, Except.map]
    | _ :: _, [] => simp [attachmentCost, Except.map]
    | x :: gs, y :: ts =>
      rw [List.map_cons, List.map_cons, attachmentCost, attachmentCost, h1 x y, ih gs ts]
      cases a.call x y with
      | error e => rfl
      | ok v =>
        simp only [Except.map]
        cases attachmentCost as gs ts with
        | error e => rfl
        | ok v' => simp only [Except.map, mul_add]

theorem dilateCosts_set (D : Dict CostKey ℝ) (k : CostKey) (v : ℝ) : (dilateCosts s D).set k (s ^ 2 * v) = dilateCosts s (D.set k v) := by
  induction D with
  | nil => rfl
  | cons e D ih =>
    unfold dilateCosts at ih ⊢
    rw [List.map_cons, Dict.set, Dict.set]
    split
    · rw [List.map_cons]
    · rw [List.map_cons, ih]

theorem totalCost_dil (D : Dict CostKey ℝ) : totalCost (dilateCosts s D) = s ^ 2 * totalCost D := by
  unfold totalCost dilateCosts
  rw [List.map_map, ← sum_scale, List.map_map]
  rfl

theorem RegModel.evaluate_dil (hs : s ≠ 0) {φ : G → G} {ψ : T → T} {M : RegModel d G T} {as : List (Attach G T)} (hD : ∀ D ∈ M.deformables, D.CarriesUnit s φ)
    (hk : M.Kept) (ha : List.Forall₂ (Attach.InUnit s φ ψ) M.attachments as) (targets : List T) (S : SolverName) (it : Nat) (costs : Dict CostKey ℝ) :
    (M.dilate s as).evaluate none (targets.map ψ) S it (dilateCosts s costs) = (M.evaluate none targets S it costs).map (Evaluated.dilate s as) := by
  unfold RegModel.evaluate
  have e : (M.dilate s as).deformables.length = M.deformables.length := by simp [RegModel.dilate]
  rw [List.length_map, e]
  split
  · rfl
  · dsimp only
    rw [RegModel.computeDeformed_dil hs as hD hk S it true 1]
    cases h1 : M.computeDeformed S it true 1 with
    | error e => rfl
    | ok r =>
      obtain ⟨r, N⟩ := r
      simp only [Except.map]
      have : attachmentCost (N.dilate s as).attachments (r.dilate s φ (.compound (M.deformables.map Deformable.silent ++ M.modules))).geometries (targets.map ψ)
          = (attachmentCost N.attachments r.geometries targets).map (s ^ 2 * ·) :=
        attachmentCost_dil (by rw [computeDeformed_attachments h1]; exact ha) _ _
      rw [this]
      cases attachmentCost N.attachments r.geometries targets with
      | error e => rfl
      | ok a =>
        simp only [Except.map, Evaluated.dilate, Deformed.dilate, Except.ok.injEq, Evaluated.mk.injEq, and_true]
        have hl : (N.dilate s as).lam * (s ^ 2 * a) = s ^ 2 * (N.lam * a) := by
          rw [show (N.dilate s as).lam = N.lam from rfl]; ring
        rw [hl]
        cases r.cost with
        | none => simp only [Option.map_none, dilateCosts_set, totalCost_dil, and_self]
        | some c => simp only [Option.map_some, dilateCosts_set, totalCost_dil, and_self]

end
end Imodal
