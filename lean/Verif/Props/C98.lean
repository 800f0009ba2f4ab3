import Verif.Lemmas.Turns
import Verif.Props.C86
import Verif.Props.C92
import Verif.Props.C93
import Verif.Props.C95
/-!
# C98: gradient descent follows rigid motions and does not see orders
-/
set_option autoImplicit false
namespace Imodal
noncomputable section
variable {d : Nat} {G T : Type}

theorem atEntries_none (M : RegModel d G T) (a : List ℝ) : M.atEntries none [a] = M.setValues (Mfd.withCotAll (rowOf a) 0 M.init) none := by
  have : Mfd.withGdAll (rowOf (Mfd.unrollGdAll M.init).flatten) 0 M.init = M.init := Mfd.withGdAll_of_starts _ (starts_rowOf _)
  unfold RegModel.atEntries
  show M.setValues (Mfd.withCotAll (rowOf a) 0 (Mfd.withGdAll (rowOf (Mfd.compound M.init).unrollGd.flatten) 0 M.init)) none = _
  rw [Mfd.unrollGd, this]

theorem Fittable.differentiable {M : RegModel d G T} {targets : List T} (hM : Fittable M targets) (s : Solver) (it N : Nat) :
    Differentiable ℝ fun e : Fin N → ℝ => M.totalAt none targets (.fixed s) it [List.ofFn e] := by
  have key : ∀ (l : List ℝ) (n : Nat), [l].flatten.length = n → Differentiable ℝ fun e : Fin n → ℝ => M.totalAt none targets (.fixed s) it (gdFill [l] (List.ofFn e)) := by
    rintro l n rfl
    obtain ⟨f, hf, hv⟩ := hM.total none s it [l]
    have : (fun e : Fin [l].flatten.length → ℝ => M.totalAt none targets (.fixed s) it (gdFill [l] (List.ofFn e))) = f := funext fun e => by
      unfold RegModel.totalAt
      rw [show M.atEntries none (gdFill [l] (List.ofFn e)) = M.setValues (M.atEntries none (gdFill [l] (List.ofFn e))).init none from rfl, hv e]
    rw [this]
    exact hf.differentiable (by norm_num)
  have h := key (List.replicate N 0) N (by simp)
  have e : ∀ e : Fin N → ℝ, gdFill [List.replicate N (0 : ℝ)] (List.ofFn e) = [List.ofFn e] := fun e => gdFill_one _ _ (by simp)
  simpa only [e] using h

/-- Two models whose momenta are related: gradient descent runs alike. -/
theorem follows_of {M M' : RegModel d G T} {targets targets' : List T} (hM : Fittable M targets) {F : List (Mfd d) → List (Mfd d)} (hF : Turns F M.init)
    (hinit : M'.init = F M.init) (s : Solver) (it : Nat)
    (hval : ∀ a, PyRel Eq ((M.atEntries none [a]).value targets (.fixed s) it)
      ((M'.setValues (F (M.atEntries none [a]).init) none).value targets' (.fixed s) it)) :
    (∀ a, M'.atEntries none [turnMomenta F M.init a] = M'.setValues (F (M.atEntries none [a]).init) none) ∧
    Shadows (Mfd.sizeAll M.init) (turnMomenta F M.init) (M.descent none targets (.fixed s) it) (M'.descent none targets' (.fixed s) it) := by
  have hat : ∀ a, M'.atEntries none [turnMomenta F M.init a] = M'.setValues (F (M.atEntries none [a]).init) none := fun a => by
    rw [atEntries_none, atEntries_none, hinit, hF.write]
    rfl
  have hv : ∀ a, (M'.atEntries none [turnMomenta F M.init a]).value targets' (.fixed s) it = .ok (M.totalAt none targets (.fixed s) it [a]) := fun a => by
    have h := hval a
    rw [(hM.smooth none s it [a]).1] at h
    rw [hat a]
    rcases h.both with ⟨x, y, e, e', h⟩ | ⟨_, _, e, _⟩
    · cases e
      rw [e', h]
    · cases e
  refine ⟨hat, hF.preserves, fun a _ => ?_, fun a ha => ?_⟩
  · unfold RegModel.descent
    dsimp only
    rw [hv a, (hM.smooth none s it [a]).1]
  · refine hF.preserves.partials (f := M.totalAt none targets (.fixed s) it) (f' := M'.totalAt none targets' (.fixed s) it) ?_ (fun b _ => ?_) ha
    · exact hM.differentiable s it _
    · conv_lhs => unfold RegModel.totalAt
      rw [hv b]

/-- The descent on the second model, given the one on the first. -/
theorem run_of {M M' : RegModel d G T} {targets targets' : List T} (hM : Fittable M targets) {F : List (Mfd d) → List (Mfd d)} (hF : Turns F M.init)
    (hinit : M'.init = F M.init) (s : Solver) (it : Nat)
    (hval : ∀ a, PyRel Eq ((M.atEntries none [a]).value targets (.fixed s) it)
      ((M'.setValues (F (M.atEntries none [a]).init) none).value targets' (.fixed s) it))
    (cf : GDConf ℝ) (fuel : Nat → Nat) (run : Nat → GDState ℝ ℝ) (h0 : (run 0).params = M.entriesOf none)
    (hr : ∀ i, gdStep (M.descent none targets (.fixed s) it) cf (fuel i) (run i) = some (run (i + 1))) :
    ∃ run' : Nat → GDState ℝ ℝ, (run' 0).params = M'.entriesOf none ∧ ∀ i, (run' i).steps = (run i).steps ∧
      gdStep (M'.descent none targets' (.fixed s) it) cf (fuel i) (run' i) = some (run' (i + 1)) ∧
      M'.atEntries none (run' i).params = M'.setValues (F (M.atEntries none (run i).params).init) none ∧
      (M'.atEntries none (run' i).params).value targets' (.fixed s) it = (M.atEntries none (run i).params).value targets (.fixed s) it := by
  obtain ⟨hat, hfol⟩ := follows_of hM hF hinit s it hval
  have h0' : (run 0).One (Mfd.sizeAll M.init) := ⟨_, length_cots _, by rw [h0]; unfold RegModel.entriesOf; rw [Mfd.unrollCot]⟩
  have H := hfol.run cf fuel run h0' hr
  refine ⟨fun i => (run i).turn (turnMomenta F M.init), ?_, fun i => ⟨rfl, (H i).2, ?_⟩⟩
  · show (run 0).params.map _ = _
    rw [h0]
    unfold RegModel.entriesOf turnMomenta
    rw [List.map_cons, List.map_nil, hinit, Mfd.unrollCot, Mfd.unrollCot]
    rw [Mfd.withCotAll_of_starts M.init (starts_rowOf _)]
  · obtain ⟨a, -, ha⟩ := (H i).1
    have e : M'.atEntries none ((run i).turn (turnMomenta F M.init)).params = M'.setValues (F (M.atEntries none (run i).params).init) none := by
      rw [GDState.turn, ha]
      exact hat a
    refine ⟨e, ?_⟩
    rw [e, ha]
    have h := hval a
    rw [(hM.smooth none s it [a]).1] at h ⊢
    rcases h.both with ⟨x, y, e, e', h⟩ | ⟨_, _, e, _⟩
    · cases e
      rw [e', h]
    · cases e

theorem kept_at {M : RegModel d G T} (hk : M.Kept) (y : List (List ℝ)) : (M.atEntries none y).Kept := by
  unfold RegModel.Kept at hk ⊢
  exact (sameKind_all (List.forall₂_drop _ (atEntries_kinds M none y))).trans hk

/-- Rigid motions: gradient descent on the moved registration takes the same steps, from the moved momenta, and the model it has after each of
them is the moved model, with the same total. -/
theorem C98_rigid (g : Rigid d) {φ : G → G} {ψ : T → T} {M : RegModel d G T} {targets : List T} (hM : Fittable M targets) (hR : M.Ready g φ ψ) (s : Solver) (it : Nat)
    (cf : GDConf ℝ) (fuel : Nat → Nat) (run : Nat → GDState ℝ ℝ) (h0 : (run 0).params = M.entriesOf none)
    (hr : ∀ i, gdStep (M.descent none targets (.fixed s) it) cf (fuel i) (run i) = some (run (i + 1))) :
    ∃ run' : Nat → GDState ℝ ℝ, (run' 0).params = (M.move g).entriesOf none ∧ ∀ i, (run' i).steps = (run i).steps ∧
      gdStep ((M.move g).descent none (targets.map ψ) (.fixed s) it) cf (fuel i) (run' i) = some (run' (i + 1)) ∧
      (M.move g).atEntries none (run' i).params = (M.atEntries none (run i).params).move g ∧
      ((M.move g).atEntries none (run' i).params).value (targets.map ψ) (.fixed s) it = (M.atEntries none (run i).params).value targets (.fixed s) it := by
  refine run_of hM (turns_move g M.init) rfl s it (fun a => ?_) cf fuel run h0 hr
  have := value_move g (M := M.atEntries none [a]) ⟨hR.carries, kept_at hR.kept _, hR.movable, hR.smooth, hR.blind⟩ targets (.fixed s) it
  rw [show (M.move g).setValues (Mfd.moveAll g (M.atEntries none [a]).init) none = (M.atEntries none [a]).move g from rfl, this]
  cases (M.atEntries none [a]).value targets (.fixed s) it <;> first | exact rfl | trivial

theorem value_rel {M M' : RegModel d G T} {targets : List T} {s : SolverName} {it : Nat} {R : Evaluated d G T → Evaluated d G T → Prop}
    (h : PyRel R (M.evaluate none targets s it []) (M'.evaluate none targets s it [])) (hR : ∀ r r', R r r' → r'.total = r.total) :
    PyRel Eq (M.value targets s it) (M'.value targets s it) := by
  unfold RegModel.value
  rcases h.both with ⟨r, r', e, e', h⟩ | ⟨_, _, e, e'⟩
  · rw [e, e']
    exact (hR r r' h).symm
  · rw [e, e']
    trivial

/-- Points of the modules listed in another order. -/
theorem C98_points (σ : Labels) {M : RegModel d G T} {targets : List T} (hM : Fittable M targets) (hk : (DefModule.compound M.modules).Keeps σ) (hKept : M.Kept) (s : Solver) (it : Nat)
    (cf : GDConf ℝ) (fuel : Nat → Nat) (run : Nat → GDState ℝ ℝ) (h0 : (run 0).params = M.entriesOf none)
    (hr : ∀ i, gdStep (M.descent none targets (.fixed s) it) cf (fuel i) (run i) = some (run (i + 1))) :
    ∃ run' : Nat → GDState ℝ ℝ, (run' 0).params = (M.relabel σ).entriesOf none ∧ ∀ i, (run' i).steps = (run i).steps ∧
      gdStep ((M.relabel σ).descent none targets (.fixed s) it) cf (fuel i) (run' i) = some (run' (i + 1)) ∧
      (M.relabel σ).atEntries none (run' i).params = (M.atEntries none (run i).params).relabel σ ∧
      ((M.relabel σ).atEntries none (run' i).params).value targets (.fixed s) it = (M.atEntries none (run i).params).value targets (.fixed s) it := by
  refine run_of hM (turns_relabel M.deformables.length σ M.init) rfl s it (fun a => ?_) cf fuel run h0 hr
  exact value_rel (C92_evaluate σ (M := M.atEntries none [a]) hk (kept_at hKept _) targets (.fixed s) it []) fun _ _ h => h.2.1

/-- Modules listed in another order. -/
theorem C98_modules {is : List Nat} (hi : IsOrder is) {M : RegModel d G T} {targets : List T} (hM : Fittable M targets) (hl : M.modules.length = is.length)
    (hKept : M.Kept) (s : Solver) (it : Nat)
    (cf : GDConf ℝ) (fuel : Nat → Nat) (run : Nat → GDState ℝ ℝ) (h0 : (run 0).params = M.entriesOf none)
    (hr : ∀ i, gdStep (M.descent none targets (.fixed s) it) cf (fuel i) (run i) = some (run (i + 1))) :
    ∃ run' : Nat → GDState ℝ ℝ, (run' 0).params = (M.reorder is).entriesOf none ∧ ∀ i, (run' i).steps = (run i).steps ∧
      gdStep ((M.reorder is).descent none targets (.fixed s) it) cf (fuel i) (run' i) = some (run' (i + 1)) ∧
      (M.reorder is).atEntries none (run' i).params = (M.atEntries none (run i).params).reorder is ∧
      ((M.reorder is).atEntries none (run' i).params).value targets (.fixed s) it = (M.atEntries none (run i).params).value targets (.fixed s) it := by
  have hlen : (M.init.drop M.deformables.length).length = is.length := by
    rw [← hl]
    have := congrArg List.length (kept_shapes hKept)
    rwa [List.length_map, List.length_map] at this
  refine run_of hM (turns_reorder M.deformables.length hi hlen) rfl s it (fun a => ?_) cf fuel run h0 hr
  exact value_rel (C93_evaluate hi (M := M.atEntries none [a]) hl (kept_at hKept _) targets (.fixed s) it []) fun _ _ h => h.2.1

/-! ## Cases -/

/-- A module of two regularised translations. -/
def exampleTwo : DefModule 2 := .implicit0 ⟨.torch, (![![1, 0], ![0, 2]] : Fin 2 → Vec 2), ![![1, 1], ![3, 0]], 1, 1, 1, 0⟩

/-- One landmark, a module of one and a module of two regularised translations: the hypotheses of all three theorems hold, for every
rigid motion, with the points of the second module swapped, and with the modules swapped. -/
theorem C98_case (g : Rigid 2) (t : Vec 2) (s : Solver) (it : Nat) : ∃ M : RegModel 2 (Points 2) (Vec 2),
    RegModel.new [exampleLandmark] [exampleTranslation, exampleTwo] [exampleSquares] none 3 .sum = .ok M ∧ Fittable M [t] ∧
    M.Ready g (Points.move g) g.point ∧ (DefModule.compound M.modules).Keeps swapTwo ∧ IsOrder [1, 0] ∧ M.modules.length = [1, 0].length ∧
    ∃ (fuel : Nat → Nat) (run : Nat → GDState ℝ ℝ), (run 0).params = M.entriesOf none ∧
      ∀ i, gdStep (M.descent none [t] (.fixed s) it) ⟨1 / 5, 13 / 10, [⟨none, none, none⟩]⟩ (fuel i) (run i) = some (run (i + 1)) := by
  obtain ⟨M, hM⟩ : ∃ M, RegModel.new [exampleLandmark] [exampleTranslation, exampleTwo] [exampleSquares] none 3 .sum = .ok M := ⟨_, rfl⟩
  have hMe := new_eq hM
  have hfit : Fittable M [t] := by
    refine ⟨⟨_, _, _, _, hM⟩, ?_, ⟨exampleLandmark, ?_, by simp [exampleLandmark]⟩, ?_, ?_, ?_, ?_⟩
    all_goals rw [hMe]
    · simp [exampleLandmark]
    · exact List.mem_cons_self ..
    · simp [DefModule.AllRegular, DefModule.Regular, exampleTranslation, exampleTwo]
    · simp
    · intro m hm
      simp only [exampleTranslation, exampleTwo, DefModule.manifolds, DefModule.manifold, Implicit0.manifold, List.mem_cons, List.not_mem_nil, or_false] at hm
      rcases hm with rfl | rfl <;> exact Or.inr rfl
    · refine ⟨fun x => ⟨fun x => 1 * ∑ i, ∑ c, (x i c - t c) ^ 2, ?_, Filter.Eventually.of_forall fun x => rfl⟩, trivial⟩
      fun_prop
  have hready : M.Ready g (Points.move g) g.point := by
    refine C86_ready g hM .start ?_ ?_ ?_ ?_
    · intro D hD
      rw [List.mem_singleton.1 hD]
      exact fun p => rfl
    · simp [DefModule.AllMovable, DefModule.Movable, exampleTranslation, exampleTwo]
    · simp [DefModule.Smooth, DefModule.SmoothParts, DefModule.AllSmoothParts, exampleTranslation, exampleTwo]
    · intro a ha
      rw [List.mem_singleton.1 ha]
      refine blind_simple fun x y => ?_
      have e : ∀ i, ∑ c, (g.point (x.x i) c - g.point y c) ^ 2 = ∑ c, (x.x i c - y c) ^ 2 := fun i => by
        have h := turns_vec_dot g (x.x i - y) (x.x i - y)
        have h' : g.vec (x.x i - y) = g.point (x.x i) - g.point y := by
          unfold Rigid.vec Rigid.point
          rw [Matrix.mulVec_sub]
          abel
        rw [h'] at h
        simpa [dotProduct, pow_two] using h
      exact congrArg Except.ok (Finset.sum_congr rfl fun i _ => e i)
  obtain ⟨run, v, h1, -, h3⟩ := C95_fit hfit none s it ⟨1 / 5, 13 / 10, [⟨none, none, none⟩]⟩ 1 rfl (by simp [gdInitSteps]) (by simp; norm_num)
  choose bound hb using fun i => (h3 i).2.2
  exact ⟨M, hM, hfit, hready, by rw [hMe]; simp [DefModule.Keeps, DefModule.KeepsAll, exampleTranslation, exampleTwo],
    List.Perm.swap 0 1 [], by rw [hMe]; rfl, bound, run, by rw [h1], fun i => hb i _ le_rfl⟩

end
end Imodal
