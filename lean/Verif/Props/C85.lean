import Verif.Model.AtlasDeformed
import Verif.Props.C29
import Verif.Props.C32
import Verif.Props.C38
/-!
# C85: the deformed population of an atlas
-/
set_option autoImplicit false
namespace Imodal
noncomputable section
variable {d : Nat} {G T : Type}

/-- Deforming each model alone. -/
def DeformEach (s : SolverName) (it : Nat) (Ms : List (RegModel d G T)) (rs : List (Deformed d G)) (Ms' : List (RegModel d G T)) : Prop :=
  rs.length = Ms.length ∧ Ms'.length = Ms.length ∧ ∀ (i : Nat) (M : RegModel d G T), Ms[i]? = some M →
    ∃ r M', rs[i]? = some r ∧ Ms'[i]? = some M' ∧ M.computeDeformed s it false 1 = .ok (r, M')

/-- The list under a key, empty if there is none. -/
def listAt (D : Dict String (IVal d)) (k : String) : List (IEntry d) :=
  match D.get? k with
  | some (.list l) => l
  | _ => []

/-- The dictionary `D` after the trajectories `rs` have been added. -/
structure Extended (D D' : Dict String (IVal d)) (rs : List (Deformed d G)) : Prop where
  states : D'.get? "states" = some (.list (listAt D "states" ++ rs.map fun r => .states r.shot.states))
  controls : D'.get? "controls" = some (.list (listAt D "controls" ++ rs.map fun r => .controls r.shot.ctrls))
  rest : ∀ k, k ≠ "states" → k ≠ "controls" → D'.get? k = D.get? k

theorem listFor_get (k k' : String) (D : Dict String (IVal d)) : (listFor k D).get? k' = if k = k' then some (.list (listAt D k)) else D.get? k' := by
  unfold listFor listAt
  by_cases h : k = k'
  · subst h
    rw [if_pos rfl]
    cases hd : D.get? k with
    | none => simp [get?_set]
    | some v => cases v <;> simp [get?_set, hd]
  · rw [if_neg h]
    cases hd : D.get? k with
    | none => simp [get?_set, h]
    | some v => cases v <;> simp [get?_set, h]

theorem appendShot_ok {D : Dict String (IVal d)} {ls lc : List (IEntry d)} (h1 : D.get? "states" = some (.list ls)) (h2 : D.get? "controls" = some (.list lc))
    (r : Shot d) : ∃ D', appendShot (some D) r = .ok (some D') ∧ D'.get? "states" = some (.list (ls ++ [.states r.states])) ∧
      D'.get? "controls" = some (.list (lc ++ [.controls r.ctrls])) ∧ ∀ k, k ≠ "states" → k ≠ "controls" → D'.get? k = D.get? k := by
  have h3 : (D.set "states" (.list (ls ++ [.states r.states]))).get? "controls" = some (.list lc) := by
    rw [get?_set, if_neg (by decide), h2]
  refine ⟨(D.set "states" (.list (ls ++ [.states r.states]))).set "controls" (.list (lc ++ [.controls r.ctrls])), ?_, ?_, ?_, fun k hk hk' => ?_⟩
  · unfold appendShot
    simp only [appendIVal, h1, h3]
  · rw [get?_set, if_neg (by decide), get?_set, if_pos rfl]
  · rw [get?_set, if_pos rfl]
  · rw [get?_set, if_neg (Ne.symm hk'), get?_set, if_neg (Ne.symm hk)]

/-- The loop, whatever dictionary is filled. -/
theorem deformLoop_ok {s : SolverName} {it : Nat} : ∀ {Ms : List (RegModel d G T)} {D : Option (Dict String (IVal d))}
    {gs : List G} {D' : Option (Dict String (IVal d))} {Ms' : List (RegModel d G T)}, atlasDeformLoop none s it Ms D = .ok (gs, D', Ms') →
    ∃ rs, DeformEach s it Ms rs Ms' ∧ gs.map some = rs.map (fun r => r.geometries.head?) ∧ (D = none → D' = none) ∧
      ∀ D₀ ls lc, D = some D₀ → D₀.get? "states" = some (.list ls) → D₀.get? "controls" = some (.list lc) →
        ∃ D₁, D' = some D₁ ∧ D₁.get? "states" = some (.list (ls ++ rs.map fun r => .states r.shot.states)) ∧
          D₁.get? "controls" = some (.list (lc ++ rs.map fun r => .controls r.shot.ctrls)) ∧ ∀ k, k ≠ "states" → k ≠ "controls" → D₁.get? k = D₀.get? k
  | [], D, gs, D', Ms', h => by
    rw [atlasDeformLoop] at h
    cases h
    exact ⟨[], ⟨rfl, rfl, by simp⟩, rfl, id, fun D₀ ls lc e h1 h2 => ⟨D₀, e, by simpa using h1, by simpa using h2, fun _ _ _ => rfl⟩⟩
  | M :: Ms, D, gs, D', Ms', h => by
    rw [atlasDeformLoop, show useTemplate (none : Option (Hyper d)) false = .ok () from rfl] at h
    dsimp only at h
    cases h1 : M.computeDeformed s it false 1 with
    | error e => rw [h1] at h; cases h
    | ok q =>
      obtain ⟨r, M'⟩ := q
      rw [h1] at h
      dsimp only at h
      cases h2 : r.geometries.head? with
      | none => rw [h2] at h; cases h
      | some g =>
        rw [h2] at h
        dsimp only at h
        cases h3 : appendShot D r.shot with
        | error e => rw [h3] at h; cases h
        | ok D₁ =>
          rw [h3] at h
          dsimp only at h
          cases h4 : atlasDeformLoop none s it Ms D₁ with
          | error e => rw [h4] at h; cases h
          | ok q =>
            obtain ⟨gs₁, D₂, Ms₁⟩ := q
            rw [h4] at h
            cases h
            obtain ⟨rs, ⟨l1, l2, hE⟩, hg, hn, hs⟩ := deformLoop_ok h4
            refine ⟨r :: rs, ⟨by simp [l1], by simp [l2], fun i N hN => ?_⟩, by simp [hg, h2], ?_, ?_⟩
            · cases i with
              | zero =>
                simp only [List.getElem?_cons_zero, Option.some.injEq] at hN
                subst hN
                exact ⟨r, M', rfl, rfl, h1⟩
              | succ i =>
                simp only [List.getElem?_cons_succ] at hN ⊢
                exact hE i N hN
            · rintro rfl
              cases h3
              exact hn rfl
            · rintro D₀ ls lc rfl e1 e2
              obtain ⟨D₃, f1, f2, f3, f4⟩ := appendShot_ok e1 e2 r.shot
              rw [f1] at h3
              cases h3
              obtain ⟨D₄, k1, k2, k3, k4⟩ := hs _ _ _ rfl f2 f3
              exact ⟨D₄, k1, by simpa using k2, by simpa using k3, fun k a b => (k4 k a b).trans (f4 k a b)⟩

/-- **C85.** The deformed population: for each subject, in order, the first deformed geometry that
its model gives alone, whatever the other subjects are. A dictionary `intermediates` gets the
trajectory and the controls of each subject, in order and behind what its lists held, and keeps its
other entries. -/
theorem C85_deformed {Ms : List (RegModel d G T)} {s : SolverName} {it : Nat} {inter inter' : Inter d} {gs : List G} {Ms' : List (RegModel d G T)}
    (h : atlasComputeDeformed .sequential none Ms s it inter = .ok (gs, inter', Ms')) :
    ∃ rs, DeformEach s it Ms rs Ms' ∧ gs.map some = rs.map (fun r => r.geometries.head?) ∧ (inter = .none → inter' = .none) ∧
      ∀ D, inter = .dict D → ∃ D', inter' = .dict D' ∧ Extended D D' rs := by
  unfold atlasComputeDeformed at h
  cases inter with
  | other => cases h
  | none =>
    dsimp only at h
    cases h1 : atlasDeformLoop none s it Ms none with
    | error e => rw [h1] at h; cases h
    | ok q =>
      rw [h1] at h
      cases h
      obtain ⟨rs, hE, hg, -, -⟩ := deformLoop_ok h1
      exact ⟨rs, hE, hg, fun _ => rfl, by rintro D ⟨⟩⟩
  | dict D =>
    dsimp only at h
    cases h1 : atlasDeformLoop none s it Ms (some (listFor "controls" (listFor "states" D))) with
    | error e => rw [h1] at h; cases h
    | ok q =>
      rw [h1] at h
      cases h
      obtain ⟨rs, hE, hg, -, hs⟩ := deformLoop_ok h1
      have hc : listAt (listFor "states" D) "controls" = listAt D "controls" := by
        unfold listAt
        rw [listFor_get, if_neg (by decide)]
      obtain ⟨D', k1, k2, k3, k4⟩ := hs _ (listAt D "states") (listAt D "controls") rfl
        (by rw [listFor_get, if_neg (by decide), listFor_get, if_pos rfl]) (by rw [listFor_get, if_pos rfl, hc])
      refine ⟨rs, hE, hg, (by rintro ⟨⟩), ?_⟩
      rintro _ ⟨⟩
      refine ⟨D', by rw [k1]; rfl, k2, k3, fun k a b => (k4 k a b).trans ?_⟩
      rw [listFor_get, if_neg (Ne.symm b), listFor_get, if_neg (Ne.symm a)]

/-- **C85.** It returns if every subject can be deformed. -/
theorem C85_returns {Ms : List (RegModel d G T)} {s : SolverName} {it : Nat} {inter : Inter d} (hi : inter ≠ .other)
    (h : ∀ M ∈ Ms, ∃ r M' g, M.computeDeformed s it false 1 = .ok (r, M') ∧ r.geometries.head? = some g) :
    ∃ r, atlasComputeDeformed .sequential none Ms s it inter = .ok r := by
  have key : ∀ (Ms : List (RegModel d G T)), (∀ M ∈ Ms, ∃ r M' g, M.computeDeformed s it false 1 = .ok (r, M') ∧ r.geometries.head? = some g) →
      ∀ D : Option (Dict String (IVal d)), (∀ D₀, D = some D₀ → ∃ ls lc, D₀.get? "states" = some (.list ls) ∧ D₀.get? "controls" = some (.list lc)) →
        ∃ q, atlasDeformLoop none s it Ms D = .ok q := by
    intro Ms
    induction Ms with
    | nil => exact fun _ D _ => ⟨_, rfl⟩
    | cons M Ms ih =>
      intro hM D hD
      obtain ⟨r, M', g, h1, h2⟩ := hM M (List.mem_cons_self ..)
      obtain ⟨D', e, hD'⟩ : ∃ D', appendShot D r.shot = .ok D' ∧
          ∀ D₀, D' = some D₀ → ∃ ls lc, D₀.get? "states" = some (.list ls) ∧ D₀.get? "controls" = some (.list lc) := by
        cases D with
        | none => exact ⟨none, rfl, by rintro _ ⟨⟩⟩
        | some D =>
          obtain ⟨ls, lc, e1, e2⟩ := hD D rfl
          obtain ⟨D', f1, f2, f3, -⟩ := appendShot_ok e1 e2 r.shot
          exact ⟨_, f1, by rintro _ ⟨⟩; exact ⟨_, _, f2, f3⟩⟩
      obtain ⟨q, hq⟩ := ih (fun N hN => hM N (List.mem_cons_of_mem _ hN)) D' hD'
      refine ⟨(g :: q.1, q.2.1, M' :: q.2.2), ?_⟩
      rw [atlasDeformLoop, show useTemplate (none : Option (Hyper d)) false = .ok () from rfl]
      simp only [h1, h2, e, hq]
  unfold atlasComputeDeformed
  cases inter with
  | other => exact absurd rfl hi
  | none =>
    obtain ⟨q, hq⟩ := key Ms h none (by rintro _ ⟨⟩)
    dsimp only
    rw [hq]
    exact ⟨_, rfl⟩
  | dict D =>
    obtain ⟨q, hq⟩ := key Ms h (some (listFor "controls" (listFor "states" D))) (by
      rintro _ ⟨⟩
      exact ⟨_, _, by rw [listFor_get, if_neg (by decide), listFor_get, if_pos rfl], by rw [listFor_get, if_pos rfl]⟩)
    dsimp only
    rw [hq]
    exact ⟨_, rfl⟩

/-! ## Evaluating and deforming agree -/

/-- Asking for costs does not change the deformed geometries. -/
theorem computeDeformed_without_costs {M M₁ : RegModel d G T} {s : SolverName} {it : Nat} {t1 : ℝ} {r : Deformed d G}
    (h : M.computeDeformed s it true t1 = .ok (r, M₁)) :
    ∃ r' M₂, M.computeDeformed s it false t1 = .ok (r', M₂) ∧ r'.geometries = r.geometries ∧ r'.shot = r.shot := by
  unfold RegModel.computeDeformed at h ⊢
  cases h1 : fillModules M.modules (M.init.drop M.deformables.length) with
  | error e => rw [h1] at h; cases h
  | ok ms =>
    rw [h1] at h
    dsimp only at h ⊢
    cases h2 : fillDeformables M.deformables M.init with
    | error e => rw [h2] at h; cases h
    | ok Ds =>
      rw [h2] at h
      dsimp only at h ⊢
      suffices ∀ r, Imodal.computeDeformed Ds ms s (M.steps it) true (M.learned.map Prod.snd) t1 M.reduce = .ok r →
          ∃ r', Imodal.computeDeformed Ds ms s (M.steps it) false (M.learned.map Prod.snd) t1 M.reduce = .ok r' ∧ r'.geometries = r.geometries ∧ r'.shot = r.shot by
        cases h3 : Imodal.computeDeformed Ds ms s (M.steps it) true (M.learned.map Prod.snd) t1 M.reduce with
        | error e => rw [h3] at h; cases h
        | ok q =>
          rw [h3] at h
          cases h
          obtain ⟨r', e1, e2, e3⟩ := this _ h3
          exact ⟨r', _, by rw [e1], e2, e3⟩
      intro r hr
      unfold Imodal.computeDeformed at hr ⊢
      dsimp only at hr ⊢
      cases h4 : shoot s (M.steps it) t1 (padControls Ds.length (M.learned.map Prod.snd)) (.compound (Ds.map Deformable.silent ++ ms)) with
      | error e => rw [h4] at hr; cases hr
      | ok q =>
        obtain ⟨q, cs⟩ := q
        rw [h4] at hr
        dsimp only at hr ⊢
        split at hr
        · cases h5 : backwardModules Ds with
          | error e => rw [h5] at hr; cases hr
          | ok _ => rw [h5] at hr; cases hr
        · rename_i hb
          rw [if_neg hb]
          simp only [if_true, Bool.false_eq_true, if_false] at hr ⊢
          cases h5 : reduceCost M.reduce (M.steps it) cs (padControls Ds.length (M.learned.map Prod.snd)) q.states q.module with
          | error e => rw [h5] at hr; cases hr
          | ok c =>
            rw [h5] at hr
            dsimp only at hr
            cases h6 : toGeometries Ds q.module.members with
            | error e => rw [h6] at hr; cases hr
            | ok gs =>
              rw [h6] at hr
              cases hr
              exact ⟨_, rfl, rfl, rfl⟩

theorem evaluate_attach {M : RegModel d G T} {A : Attach G T} (hA : M.attachments = [A]) {t : T} {s : SolverName} {it : Nat} {R : Evaluated d G T}
    (h : M.evaluate none [t] s it [] = .ok R) : ∃ q N g a, M.computeDeformed s it false 1 = .ok (q, N) ∧ q.geometries.head? = some g ∧
      A.call g t = .ok a ∧ keyVal R.costs .attach = M.lam * a := by
  obtain ⟨hd, pre, M₁, q, a, hp, hq, ha, hc, -⟩ := evaluate_inv h
  obtain ⟨-, rfl, rfl⟩ | ⟨f, hf, -⟩ := hp
  · obtain ⟨ms, Ds, -, -, hDs, hcd, e1, e2, -⟩ := modelDeformed_inv hq
    obtain ⟨q', N, e, eg, -⟩ := computeDeformed_without_costs hq
    have hlen : q.geometries.length = 1 := by
      rw [(C33_partial hcd).1, hDs, ← hd]
      rfl
    obtain ⟨g, hg⟩ := List.length_eq_one_iff.1 hlen
    rw [e1, hA, hg] at ha
    refine ⟨q', N, g, a, e, by rw [eg, hg]; rfl, ?_, ?_⟩
    · rw [attachmentCost] at ha
      cases h1 : A.call g t with
      | error e => rw [h1] at ha; cases ha
      | ok x =>
        rw [h1] at ha
        dsimp only at ha
        rw [attachmentCost] at ha
        · cases ha; simp
        · simp
    · unfold keyVal
      rw [hc, get?_set, if_pos rfl, e2]
      rfl
  · cases hf

/-- **C85.** Evaluating an atlas and deforming its population agree: after an evaluation against
`targets` has returned, `compute_deformed` with the same solver returns geometries, and the
reported attachment is the sum of the subjects' `lam` times the attachment of its geometry to its
target. -/
theorem C85_attach {Ms : List (RegModel d G T)} {targets : List T} {s : SolverName} {it : Nat} {costs : Dict CostKey ℝ} {total : ℝ}
    {Ms' : List (RegModel d G T)} (hl : Ms.length = targets.length) (hA : ∀ M ∈ Ms, ∃ A, M.attachments = [A])
    (h : atlasEvaluate none Ms targets s it = .ok (costs, total, Ms')) :
    ∃ (gs : List G) (Ms'' : List (RegModel d G T)) (as : List ℝ), atlasComputeDeformed .sequential none Ms s it .none = .ok (gs, .none, Ms'') ∧ gs.length = Ms.length ∧ as.length = Ms.length ∧
      (∀ (i : Nat) (M : RegModel d G T) (g : G) (t : T), Ms[i]? = some M → gs[i]? = some g → targets[i]? = some t →
        ∃ A a, M.attachments = [A] ∧ A.call g t = .ok a ∧ as[i]? = some (M.lam * a)) ∧ keyVal costs .attach = as.sum := by
  obtain ⟨Rs, ⟨hRl, hE⟩, -, -, hk, -⟩ := C38_partial hl h
  have each : ∀ (i : Nat) (M : RegModel d G T), Ms[i]? = some M → ∃ t R q N g A a, targets[i]? = some t ∧ Rs[i]? = some R ∧
      M.computeDeformed s it false 1 = .ok (q, N) ∧ q.geometries.head? = some g ∧ M.attachments = [A] ∧ A.call g t = .ok a ∧
        keyVal R.costs .attach = M.lam * a := fun i M hM => by
    obtain ⟨hi, hi'⟩ := List.getElem?_eq_some_iff.1 hM
    obtain ⟨t, ht⟩ : ∃ t, targets[i]? = some t := ⟨_, List.getElem?_eq_getElem (by omega)⟩
    obtain ⟨R, hR, hev⟩ := hE i M t hM ht
    obtain ⟨A, hAM⟩ := hA M (hi' ▸ List.getElem_mem hi)
    obtain ⟨q, N, g, a, h1, h2, h3, h4⟩ := evaluate_attach hAM hev
    exact ⟨t, R, q, N, g, A, a, ht, hR, h1, h2, hAM, h3, h4⟩
  obtain ⟨⟨gs, inter', Ms''⟩, hr⟩ := C85_returns (Ms := Ms) (s := s) (it := it) (inter := .none) (by simp) fun M hM => by
    obtain ⟨i, hi⟩ := List.mem_iff_getElem?.1 hM
    obtain ⟨-, -, q, N, g, -, -, -, -, h1, h2, -⟩ := each i M hi
    exact ⟨q, N, g, h1, h2⟩
  obtain ⟨rs, ⟨l1, -, hD⟩, hg, hn, -⟩ := C85_deformed hr
  cases hn rfl
  have hgl : gs.length = Ms.length := by
    have := congrArg List.length hg
    simpa [l1] using this
  refine ⟨gs, Ms'', Rs.map fun R => keyVal R.costs .attach, hr, hgl, by simp [hRl], fun i M g t hM hgi ht => ?_, hk .attach⟩
  obtain ⟨t', R, q, N, g', A, a, e1, e2, e3, e4, e5, e6, e7⟩ := each i M hM
  obtain ⟨r, M', f1, -, f2⟩ := hD i M hM
  rw [e3] at f2
  cases f2
  have : some (some g) = some (some g') := by
    have h1 := congrArg (fun l => l[i]?) hg
    simp only [List.getElem?_map, hgi, f1, Option.map_some, e4] at h1
    exact h1
  cases this
  rw [ht] at e1
  cases e1
  exact ⟨A, a, e5, e6, by simp [e2, e7]⟩

/-! ## Repeating -/

/-- Any calls of an atlas whose parameters are left alone. A call that raises may leave any
descriptors, momenta and controls in the modules. -/
inductive AtlasHistory (Ms₀ : List (RegModel d G T)) : List (RegModel d G T) → Prop
  | start : AtlasHistory Ms₀ Ms₀
  | deformed {Ms Ms' : List (RegModel d G T)} {s : SolverName} {it : Nat} {inter inter' : Inter d} {gs : List G} :
    AtlasHistory Ms₀ Ms → atlasComputeDeformed .sequential none Ms s it inter = .ok (gs, inter', Ms') → AtlasHistory Ms₀ Ms'
  | evaluated {Ms Ms' : List (RegModel d G T)} {targets : List T} {s : SolverName} {it : Nat} {costs : Dict CostKey ℝ} {total : ℝ} :
    AtlasHistory Ms₀ Ms → atlasEvaluate none Ms targets s it = .ok (costs, total, Ms') → AtlasHistory Ms₀ Ms'
  | raised {Ms Ms' : List (RegModel d G T)} : AtlasHistory Ms₀ Ms → List.Forall₂ RegModel.Alike Ms Ms' → AtlasHistory Ms₀ Ms'

theorem alike_list_refl : ∀ Ms : List (RegModel d G T), List.Forall₂ RegModel.Alike Ms Ms
  | [] => .nil
  | M :: Ms => .cons (RegModel.Alike.refl M) (alike_list_refl Ms)

theorem alike_list_trans {Ms Ms' : List (RegModel d G T)} (h : List.Forall₂ RegModel.Alike Ms Ms') :
    ∀ {Ms'' : List (RegModel d G T)}, List.Forall₂ RegModel.Alike Ms' Ms'' → List.Forall₂ RegModel.Alike Ms Ms'' := by
  induction h with
  | nil => exact fun h' => h'
  | cons h _ ih =>
    intro Ms'' h'
    cases h' with
    | cons h1 h2 => exact .cons (h.trans h1) (ih h2)

theorem alike_list_symm {Ms Ms' : List (RegModel d G T)} (h : List.Forall₂ RegModel.Alike Ms Ms') : List.Forall₂ RegModel.Alike Ms' Ms := by
  induction h with
  | nil => exact .nil
  | cons h _ ih => exact .cons h.symm ih

theorem shaped_list {Ms Ms' : List (RegModel d G T)} (h : List.Forall₂ RegModel.Alike Ms Ms') : (∀ M ∈ Ms, M.Shaped) → ∀ M ∈ Ms', M.Shaped := by
  induction h with
  | nil => exact fun h => h
  | cons h _ ih =>
    intro hs M hM
    rcases List.mem_cons.1 hM with rfl | hM
    · exact shaped_alike h (hs _ (List.mem_cons_self ..))
    · exact ih (fun M hM => hs M (List.mem_cons_of_mem _ hM)) M hM

theorem atlasLoop_alike {s : SolverName} {it : Nat} : ∀ {Ms : List (RegModel d G T)} {ts : List T} {D : Dict CostKey (List ℝ)}
    {r : Dict CostKey (List ℝ) × List (RegModel d G T)}, (∀ M ∈ Ms, M.Shaped) → atlasLoop s it Ms ts D = .ok r → List.Forall₂ RegModel.Alike Ms r.2
  | [], ts, D, r, _, h => by
    rw [atlasLoop] at h
    · cases h; exact .nil
    · simp
  | M :: Ms, [], D, r, _, h => by
    rw [atlasLoop] at h
    · cases h; exact alike_list_refl _
    · simp
  | M :: Ms, t :: ts, D, r, hs, h => by
    rw [atlasLoop] at h
    cases h1 : M.evaluate none [t] s it [] with
    | error e => rw [h1] at h; cases h
    | ok R =>
      rw [h1] at h; dsimp only at h
      cases h2 : atlasLoop s it Ms ts (appendInDictOfList D R.costs) with
      | error e => rw [h2] at h; cases h
      | ok r' =>
        rw [h2] at h; cases h
        obtain ⟨q, hq⟩ := evaluate_ok h1
        exact .cons (alike_computeDeformed (hs M (List.mem_cons_self ..)) hq) (atlasLoop_alike (fun M hM => hs M (List.mem_cons_of_mem _ hM)) h2)

theorem forall₂_of_getElem? {α β : Type} {R : α → β → Prop} : ∀ {l : List α} {l' : List β}, l'.length = l.length →
    (∀ (i : Nat) (a : α), l[i]? = some a → ∃ b, l'[i]? = some b ∧ R a b) → List.Forall₂ R l l'
  | [], [], _, _ => .nil
  | a :: l, b :: l', hl, h => by
    obtain ⟨b', e, hr⟩ := h 0 a rfl
    cases e
    exact .cons hr (forall₂_of_getElem? (by simpa using hl) fun i a ha => h (i + 1) a (by simpa using ha))

theorem atlasHistory_alike {Ms₀ Ms : List (RegModel d G T)} (hs : ∀ M ∈ Ms₀, M.Shaped) (h : AtlasHistory Ms₀ Ms) : List.Forall₂ RegModel.Alike Ms₀ Ms := by
  induction h with
  | start => exact alike_list_refl _
  | deformed _ hr ih =>
    obtain ⟨rs, ⟨-, l2, hD⟩, -⟩ := C85_deformed hr
    refine alike_list_trans ih (forall₂_of_getElem? l2 fun i M hM => ?_)
    obtain ⟨r, M', -, h2, h3⟩ := hD i M hM
    exact ⟨M', h2, alike_computeDeformed (shaped_list ih hs M (List.mem_of_getElem? hM)) h3⟩
  | evaluated _ hr ih =>
    refine alike_list_trans ih ?_
    unfold atlasEvaluate at hr
    rw [show useTemplate (none : Option (Hyper d)) true = .ok () from rfl, ite_self] at hr
    dsimp only at hr
    split at hr
    · cases hr
    · rename_i r hl
      split at hr
      · cases hr
      · cases hr
        exact atlasLoop_alike (shaped_list ih hs) hl
  | raised _ hl ih => exact alike_list_trans ih hl

theorem deformLoop_alike {s : SolverName} {it : Nat} {Ms Ms' : List (RegModel d G T)} (h : List.Forall₂ RegModel.Alike Ms Ms') :
    (∀ M ∈ Ms, M.Shaped) → (∀ M ∈ Ms, M.steps it ≠ 0) → ∀ {D : Option (Dict String (IVal d))} {r : List G × Option (Dict String (IVal d)) × List (RegModel d G T)},
      atlasDeformLoop none s it Ms D = .ok r → atlasDeformLoop none s it Ms' D = .ok r := by
  induction h with
  | nil => exact fun _ _ _ _ h => h
  | @cons M M' Ms Ms' hM _ ih =>
    intro hs hit D r h
    rw [atlasDeformLoop, show useTemplate (none : Option (Hyper d)) false = .ok () from rfl] at h ⊢
    dsimp only at h ⊢
    cases h1 : M.computeDeformed s it false 1 with
    | error e => rw [h1] at h; cases h
    | ok q =>
      rw [h1] at h
      rw [computeDeformed_alike hM (hs M (List.mem_cons_self ..)) (hit M (List.mem_cons_self ..)) h1]
      dsimp only at h ⊢
      cases h2 : q.1.geometries.head? with
      | none => rw [h2] at h; cases h
      | some g =>
        rw [h2] at h
        dsimp only at h ⊢
        cases h3 : appendShot D q.1.shot with
        | error e => rw [h3] at h; cases h
        | ok D₁ =>
          rw [h3] at h
          dsimp only at h ⊢
          cases h4 : atlasDeformLoop none s it Ms D₁ with
          | error e => rw [h4] at h; cases h
          | ok q' =>
            rw [h4] at h
            rw [ih (fun M hM => hs M (List.mem_cons_of_mem _ hM)) (fun M hM => hit M (List.mem_cons_of_mem _ hM)) h4]
            exact h

theorem atlasComputeDeformed_alike {s : SolverName} {it : Nat} {Ms Ms' : List (RegModel d G T)} (h : List.Forall₂ RegModel.Alike Ms Ms')
    (hs : ∀ M ∈ Ms, M.Shaped) (hit : ∀ M ∈ Ms, M.steps it ≠ 0) {inter : Inter d} {r : List G × Inter d × List (RegModel d G T)}
    (hr : atlasComputeDeformed .sequential none Ms s it inter = .ok r) : atlasComputeDeformed .sequential none Ms' s it inter = .ok r := by
  unfold atlasComputeDeformed at hr ⊢
  cases inter with
  | other => cases hr
  | none =>
    dsimp only at hr ⊢
    cases h1 : atlasDeformLoop none s it Ms none with
    | error e => rw [h1] at hr; cases hr
    | ok q => rw [h1] at hr; rw [deformLoop_alike h hs hit h1]; exact hr
  | dict D =>
    dsimp only at hr ⊢
    cases h1 : atlasDeformLoop none s it Ms (some (listFor "controls" (listFor "states" D))) with
    | error e => rw [h1] at hr; cases hr
    | ok q => rw [h1] at hr; rw [deformLoop_alike h hs hit h1]; exact hr

/-- The models of an atlas, as they are built. -/
def BuiltFor (Ms : List (RegModel d G T)) : Prop := ∀ M ∈ Ms, ∃ Ds ms as fit lam red, RegModel.new Ds ms as fit lam red = .ok M

/-- **C85.** After any evaluations and deformations of the population, `compute_deformed` raises
exactly if it did on the new atlas, and otherwise returns the same. -/
theorem C85_repeatable {Ms₀ Ms : List (RegModel d G T)} (hb : BuiltFor Ms₀) (hist : AtlasHistory Ms₀ Ms) (s : SolverName) {it : Nat}
    (hit : ∀ M ∈ Ms₀, M.steps it ≠ 0) (inter : Inter d) :
    PyRel (fun r r₀ => r = r₀) (atlasComputeDeformed .sequential none Ms s it inter) (atlasComputeDeformed .sequential none Ms₀ s it inter) := by
  have hs : ∀ M ∈ Ms₀, M.Shaped := fun M hM => by
    obtain ⟨_, _, _, _, _, _, h⟩ := hb M hM
    exact new_shaped h
  have ha := atlasHistory_alike hs hist
  cases h1 : atlasComputeDeformed .sequential none Ms s it inter with
  | error e =>
    cases h2 : atlasComputeDeformed .sequential none Ms₀ s it inter with
    | error e' => trivial
    | ok r => rw [atlasComputeDeformed_alike ha hs hit h2] at h1; cases h1
  | ok r =>
    have hit' : ∀ M ∈ Ms, M.steps it ≠ 0 := fun M hM => by
      obtain ⟨i, hi⟩ := List.mem_iff_getElem?.1 hM
      have hlen := ha.length_eq
      obtain ⟨hi1, hi2⟩ := List.getElem?_eq_some_iff.1 hi
      have := (List.forall₂_iff_get.1 ha).2 i (by omega) hi1
      simp only [List.get_eq_getElem, hi2] at this
      rw [show M.steps it = (Ms₀[i]'(by omega)).steps it by unfold RegModel.steps; rw [this.learned]]
      exact hit _ (List.getElem_mem _)
    rw [atlasComputeDeformed_alike (alike_list_symm ha) (shaped_list ha hs) hit' h1]
    rfl

/-! ## Before any fit -/

/-- **C85.** Without momenta every subject is deformed into the template: the geometry it makes from
its own points. -/
theorem C85_template {D : Deformable d G} {ms : List (DefModule d)} {A : Attach G T} {lam : ℝ} {red : Reduce} {M : RegModel d G T}
    (hnew : RegModel.new [D] ms [A] none lam red = .ok M) (hw : DefModule.AllNonnegWeights ms) (h0 : ZeroMomenta (.compound (D.silent :: ms))) {n : Nat}
    {s : SolverName} {it : Nat} {inter inter' : Inter d} {gs : List G} {Ms' : List (RegModel d G T)}
    (h : atlasComputeDeformed .sequential none (List.replicate n M) s it inter = .ok (gs, inter', Ms')) :
    gs.length = n ∧ ∀ g ∈ gs, D.toDeformed ⟨D.n, D.gd⟩ = .ok g := by
  obtain ⟨rs, ⟨l1, -, hD⟩, hg, -⟩ := C85_deformed h
  have hgl : gs.length = rs.length := by
    have := congrArg List.length hg
    simpa using this
  refine ⟨by simpa [l1] using hgl, fun g hgm => ?_⟩
  obtain ⟨i, hi⟩ := List.mem_iff_getElem?.1 hgm
  have hin : i < n := by
    have := (List.getElem?_eq_some_iff.1 hi).1
    rw [hgl, l1] at this
    simpa using this
  obtain ⟨r, M', f1, -, f2⟩ := hD i M (by simp [hin])
  have hhead : r.geometries.head? = some g := by
    have h1 := congrArg (fun l => l[i]?) hg
    simp only [List.getElem?_map, hi, f1, Option.map_some, Option.some.injEq] at h1
    exact h1.symm
  have hM : M = ⟨[D], ms, [A], D.silent.manifold :: DefModule.manifolds ms, none, lam, red⟩ := by
    unfold RegModel.new at hnew
    simp only [List.length_cons, List.length_nil, ne_eq, not_true_eq_false, if_false] at hnew
    split at hnew
    · cases hnew; rfl
    · cases hnew
  subst hM
  obtain ⟨ms', Ds, e1, e2, -, hcd, -⟩ := modelDeformed_inv f2
  dsimp only at e1 e2 hcd
  rw [show List.drop [D].length (D.silent.manifold :: DefModule.manifolds ms) = DefModule.manifolds ms from rfl, fillModules_self] at e1
  cases e1
  rw [show D.silent.manifold :: DefModule.manifolds ms = [D].map (fun D => D.silent.manifold) ++ DefModule.manifolds ms from rfl, fillDeformables_self] at e2
  cases e2
  obtain ⟨-, hgeo, costs, hs, -⟩ := computeDeformed_inv hcd
  have hnw : (DefModule.compound (D.silent :: ms)).NonnegWeights := by
    simpa [Deformable.silent, DefModule.NonnegWeights, DefModule.AllNonnegWeights] using hw
  have hman : r.shot.module.manifold = (DefModule.compound (D.silent :: ms)).manifold := by
    rw [show padControls [D].length (Option.map Prod.snd (none : Option (Nat × List (List (Ctrl d))))) = none from rfl] at hs
    unfold shoot at hs
    cases s with
    | adaptive => cases hs
    | unknown => cases hs
    | torchEuler =>
      dsimp only at hs
      cases h1 : shootEuler (RegModel.steps ⟨[D], ms, [A], D.silent.manifold :: DefModule.manifolds ms, none, lam, red⟩ it) none
          (.compound ([D].map Deformable.silent ++ ms)) with
      | error e => rw [h1] at hs; cases hs
      | ok q => rw [h1] at hs; cases hs; exact (C29_euler _ hnw h0 h1).1
    | fixed s =>
      dsimp only [shootOde] at hs
      cases h1 : shootMoments s (RegModel.steps ⟨[D], ms, [A], D.silent.manifold :: DefModule.manifolds ms, none, lam, red⟩ it) 1
          (.compound ([D].map Deformable.silent ++ ms)) with
      | error e => rw [h1] at hs; cases hs
      | ok q => rw [h1] at hs; cases hs; exact (C29_solver _ hnw h0 h1).1
  obtain ⟨L, hL, hlen⟩ := same_compound (shoot_same hs)
  dsimp only at hL
  rw [hL] at hman hgeo
  obtain _ | ⟨m, L⟩ := L
  · simp at hlen
  · rw [DefModule.manifold, DefModule.manifold, DefModule.manifolds, DefModule.manifolds] at hman
    have hm : m.manifold = .landmarks D.gd D.cot := by
      have := (Mfd.compound.inj hman)
      exact (List.cons.inj this).1
    rw [DefModule.members, toGeometries] at hgeo
    cases hp : pointsOf m with
    | error e => rw [hp] at hgeo; cases hgeo
    | ok p =>
      rw [hp] at hgeo
      dsimp only at hgeo
      have hpe : p = ⟨D.n, D.gd⟩ := by
        unfold pointsOf at hp
        split at hp
        · cases hp
          rw [DefModule.manifold] at hm
          cases hm
          rfl
        · cases hp
      subst hpe
      cases hd : D.toDeformed ⟨D.n, D.gd⟩ with
      | error e => rw [hd] at hgeo; cases hgeo
      | ok g' =>
        rw [hd] at hgeo
        dsimp only at hgeo
        rw [toGeometries] at hgeo
        · dsimp only at hgeo
          rw [← Except.ok.inj hgeo] at hhead
          simpa using hhead
        · simp

/-! ## What is refused -/

/-- `intermediates` must be a dictionary or `None`. -/
theorem C85_intermediates (mode : AtlasMode) (ht : Option (Hyper d)) (Ms : List (RegModel d G T)) (s : SolverName) (it : Nat) :
    atlasComputeDeformed mode ht Ms s it .other = .error .assertion := rfl

/-- The mode `'parallel'`, accepted when the atlas is built, raises `TypeError`. -/
theorem C85_parallel_disagreement (ht : Option (Hyper d)) (Ms : List (RegModel d G T)) (s : SolverName) (it : Nat) {inter : Inter d} (hi : inter ≠ .other) :
    atlasComputeDeformed .parallel ht Ms s it inter = .error .type := by
  cases inter with
  | other => exact absurd rfl hi
  | none => rfl
  | dict D => rfl

/-- With the optimisation of the template deforming raises `TypeError`. -/
theorem C85_template_disagreement (H : Hyper d) {Ms : List (RegModel d G T)} (hM : Ms ≠ []) (mode : AtlasMode) (s : SolverName) (it : Nat) {inter : Inter d} (hi : inter ≠ .other) :
    atlasComputeDeformed mode (some H) Ms s it inter = .error .type := by
  obtain ⟨M, Ms, rfl⟩ := List.exists_cons_of_ne_nil hM
  cases mode with
  | parallel => exact C85_parallel_disagreement _ _ _ _ hi
  | sequential =>
    cases inter with
    | other => exact absurd rfl hi
    | none => rfl
    | dict D => rfl

/-! Non-vacuity: three subjects without momenta, after an evaluation. -/
example (x q : Vec 2) : ∃ (M : RegModel 2 (Points 2) ℝ) (Ms : List (RegModel 2 (Points 2) ℝ)) (gs : List (Points 2)) (D : Dict String (IVal 2))
    (Ms' : List (RegModel 2 (Points 2) ℝ)), M.deformables.length = 1 ∧ AtlasHistory (List.replicate 3 M) Ms ∧
      atlasComputeDeformed .sequential none Ms (.fixed .rk4) 4 (.dict [("controls", .list [.given 5])]) = .ok (gs, .dict D, Ms') ∧
      gs = List.replicate 3 ⟨1, fun _ => x⟩ ∧ (listAt D "states").length = 3 ∧ (listAt D "controls").length = 4 := by
  obtain ⟨M, R, hM, hR, -⟩ := C36_returns (Ds := [⟨1, fun _ => x, 0, none, fun p => .ok p⟩]) (by simp) (by simp)
    (List.mem_cons_self ..) (by norm_num) (ms := [.implicit0 (⟨.torch, fun _ => q, 0, 2, 1, 1, 0⟩ : Implicit0 2 1)]) (by simp [DefModule.AllRegular, DefModule.Regular])
    (fun m hm => by
      simp only [DefModule.manifolds, DefModule.manifold, Implicit0.manifold, List.mem_cons, List.not_mem_nil, or_false] at hm
      subst hm; exact Or.inr rfl) (by simp [DefModule.manifolds, DefModule.manifold, Implicit0.manifold, Mfd.canRequireGrad])
    (as := [.simple 2 fun (g : Points 2) (t : ℝ) => .ok (g.n - t)]) (targets := [5]) (fun a ha g t => by
        simp only [List.mem_cons, List.not_mem_nil, or_false] at ha
        subst ha
        exact ⟨_, rfl⟩) rfl rfl 10 .rk4 4 []
  have hb : BuiltFor (List.replicate 3 M) := fun N hN => by
    rw [List.eq_of_mem_replicate hN]
    exact ⟨_, _, _, _, _, _, hM⟩
  obtain ⟨hMd, hMa, -⟩ := (C36_counts _ _ _ _ _ _).2 M hM
  have hsteps : M.steps 4 ≠ 0 := by
    unfold RegModel.new at hM
    simp only [List.length_cons, List.length_nil, ne_eq, not_true_eq_false, if_false] at hM
    split at hM
    · cases hM; simp [RegModel.steps]
    · cases hM
  obtain ⟨r, hev⟩ := C38_returns (Ms := List.replicate 3 M) (targets := [5, 5, 5]) (s := .fixed .rk4) (it := 4) (by simp) (by simp) (fun N hN t ht => by
    rw [List.eq_of_mem_replicate hN, show t = 5 by simpa using ht]
    exact ⟨R, hR⟩)
  obtain ⟨c, tot, Ms⟩ := r
  have hist : AtlasHistory (List.replicate 3 M) Ms := .evaluated .start hev
  obtain ⟨q', N, g, a, k1, k2, -⟩ := evaluate_attach (M := M) hMa hR
  obtain ⟨⟨gs, inter', Ms'⟩, hr⟩ := C85_returns (Ms := List.replicate 3 M) (s := .fixed .rk4) (it := 4)
    (inter := .dict [("controls", .list [.given 5])]) (by simp) (fun N' hN => by
      rw [List.eq_of_mem_replicate hN]
      exact ⟨q', N, g, k1, k2⟩)
  obtain ⟨rs, ⟨l1, -⟩, -, -, hx⟩ := C85_deformed hr
  obtain ⟨D, rfl, hD⟩ := hx _ rfl
  have hrep := C85_repeatable hb hist (.fixed .rk4) (it := 4) (fun N hN => by rw [List.eq_of_mem_replicate hN]; exact hsteps) (.dict [("controls", .list [.given 5])])
  rw [hr] at hrep
  cases hMs : atlasComputeDeformed .sequential none Ms (.fixed .rk4) 4 (.dict [("controls", .list [.given 5])]) with
  | error e => rw [hMs] at hrep; exact absurd hrep (by simp [PyRel])
  | ok r' =>
    rw [hMs] at hrep
    cases (show r' = _ from hrep)
    obtain ⟨hl, hall⟩ := C85_template hM (by simp [DefModule.AllNonnegWeights, DefModule.NonnegWeights])
      (by
        intro l hl a ha
        simp only [DefModule.manifold, DefModule.manifolds, Deformable.silent, Implicit0.manifold, Mfd.unrollCot, Mfd.unrollCotAll, List.mem_append, List.mem_cons,
          List.not_mem_nil, or_false] at hl
        rcases hl with rfl | rfl <;> · simp [flatVecs] at ha; exact ha) hr
    refine ⟨M, Ms, gs, D, Ms', by rw [hMd]; rfl, hist, hMs, List.eq_replicate_iff.2 ⟨hl, fun g hg => ?_⟩, ?_, ?_⟩
    · exact (Except.ok.inj (hall g hg)).symm
    · unfold listAt
      rw [hD.states]
      simp [l1, listAt, Dict.get?]
    · unfold listAt
      rw [hD.controls]
      simp [l1, listAt, Dict.get?]

end
end Imodal
