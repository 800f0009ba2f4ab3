import Verif.Lemmas.Rest
import Verif.Props.C28
import Verif.Props.C36
import Verif.Props.C69
/-!
# C90: learned controls start at rest and fix the number of steps
-/
set_option autoImplicit false
namespace Imodal
noncomputable section
variable {d : Nat} {G T : Type}

/-- Shooting with controls that are all zero moves nothing: every state is the initial one, momenta included, and
every cost is zero. For every solver, whatever controls and momenta the modules hold. -/
theorem C90_shoot {ms : List (DefModule d)} {controls : List (Ctrl d)} (hz : ∀ c ∈ controls, c.IsZero) {s : SolverName} {it : Nat} {t1 : ℝ}
    {r : Shot d × Option (List ℝ)} (h : shoot s it t1 (some controls) (.compound ms) = .ok r) :
    r.1.states = List.replicate (it + 1) (DefModule.compound ms).manifold ∧ r.1.module.manifold = (DefModule.compound ms).manifold
      ∧ ∀ l, r.2 = some l → ∀ c ∈ l, c = 0 :=
  ⟨(shoot_rest hz h).1, (shoot_rest hz h).2.1, (shoot_rest hz h).2.2.1⟩

theorem totalLoop_rest {states : List (Mfd d)} {controls : List (Ctrl d)} (hz : ∀ c ∈ controls, c.IsZero) (k : Nat) : ∀ {i : Nat} {m : DefModule d}
    {r : ℝ × DefModule d}, totalLoop states controls i k m = .ok r → r.1 = 0 := by
  induction k with
  | zero => intro i m r h; rw [totalLoop] at h; rw [← Except.ok.inj h]
  | succ k ih =>
    intro i m r h
    rw [totalLoop] at h
    cases h1 : states[i]? with
    | none => rw [h1] at h; cases h
    | some S =>
      rw [h1] at h; dsimp only at h
      cases h2 : m.fillGdFrom S with
      | error e => rw [h2] at h; cases h
      | ok m1 =>
        rw [h2] at h; dsimp only at h
        cases h3 : controls[i]? with
        | none => rw [h3] at h; cases h
        | some c =>
          rw [h3] at h; dsimp only at h
          cases h4 : m1.fillControls c with
          | error e => rw [h4] at h; cases h
          | ok m2 =>
            rw [h4] at h; dsimp only at h
            cases h5 : m2.cost with
            | error e => rw [h5] at h; cases h
            | ok a =>
              rw [h5] at h; dsimp only at h
              cases h6 : totalLoop states controls (i + 1) k m2 with
              | error e => rw [h6] at h; cases h
              | ok q =>
                rw [h6] at h
                rw [← Except.ok.inj h]
                dsimp only
                rw [ih h6, (atRest_fill (hz c (List.mem_of_getElem? h3)) h4).cost h5, add_zero]

/-- The ways of reducing the costs that take them from the shooting or from the given controls. -/
def Reduce.OfControls (red : Reduce) (it : Nat) : Prop := red = .sum ∨ red = .totalCompound ∨ red = .lastCompound ∧ it ≠ 0

theorem reduceCost_rest {red : Reduce} {it : Nat} (hred : red.OfControls it) {costs : Option (List ℝ)} (hc : ∀ l, costs = some l → ∀ c ∈ l, c = 0)
    {controls : List (Ctrl d)} (hz : ∀ c ∈ controls, c.IsZero) {states : List (Mfd d)} {m : DefModule d} (hm : it ≠ 0 → m.AtRest)
    {q : Option ℝ × DefModule d} (h : reduceCost red it costs (some controls) states m = .ok q) : q.1 = some 0 := by
  rcases hred with rfl | rfl | ⟨rfl, hit⟩
  · unfold reduceCost at h
    cases costs with
    | none => cases h
    | some l =>
      rw [← Except.ok.inj h]
      exact congrArg some (List.sum_eq_zero (hc l rfl))
  · unfold reduceCost at h
    dsimp only at h
    cases h1 : totalLoop states controls 0 it m with
    | error e => rw [h1] at h; cases h
    | ok r =>
      rw [h1] at h
      rw [← Except.ok.inj h]
      exact congrArg some (totalLoop_rest hz it h1)
  · unfold reduceCost at h
    cases h1 : m.cost with
    | error e => rw [h1] at h; cases h
    | ok a =>
      rw [h1] at h
      rw [← Except.ok.inj h]
      exact congrArg some ((hm hit).cost h1)

theorem allZero_append : ∀ (A B : List (Ctrl d)), Ctrl.AllZero (A ++ B) ↔ Ctrl.AllZero A ∧ Ctrl.AllZero B
  | [], B => by simp [Ctrl.AllZero]
  | a :: A, B => by rw [List.cons_append, Ctrl.AllZero, Ctrl.AllZero, allZero_append A B, and_assoc]
theorem allZero_nones : ∀ k : Nat, Ctrl.AllZero (List.replicate k (Ctrl.none : Ctrl d))
  | 0 => by rw [List.replicate_zero, Ctrl.AllZero]; trivial
  | k + 1 => by rw [List.replicate_succ, Ctrl.AllZero, Ctrl.IsZero]; exact ⟨trivial, allZero_nones k⟩
theorem allZero_iff : ∀ cs : List (Ctrl d), Ctrl.AllZero cs ↔ ∀ c ∈ cs, c.IsZero
  | [] => by simp [Ctrl.AllZero]
  | c :: cs => by rw [Ctrl.AllZero, allZero_iff cs, List.forall_mem_cons]

/-- Computing the deformed geometries with controls that are all zero: each geometry is made from the points of its
own deformable, unmoved, and the deformation cost is zero. -/
theorem C90_deformed {Ds : List (Deformable d G)} {ms : List (DefModule d)} {s : SolverName} {it : Nat} {wantCosts : Bool}
    {controls : List (List (Ctrl d))} (hz : ∀ row ∈ controls, ∀ c ∈ row, c.IsZero) {t1 : ℝ} {red : Reduce} {r : Deformed d G}
    (h : computeDeformed Ds ms s it wantCosts (some controls) t1 red = .ok r) :
    r.geometries.length = Ds.length ∧
      (∀ (i : Nat) (D : Deformable d G), Ds[i]? = some D → ∃ g, r.geometries[i]? = some g ∧ D.toDeformed ⟨D.n, D.gd⟩ = .ok g) ∧
      (wantCosts = true → red.OfControls it → r.cost = some 0) := by
  have hz' : ∀ c ∈ controls.map fun c => Ctrl.list (List.replicate Ds.length .none ++ c), c.IsZero := by
    intro c hc
    obtain ⟨row, hrow, rfl⟩ := List.mem_map.1 hc
    rw [Ctrl.IsZero, allZero_append, allZero_iff row]
    exact ⟨allZero_nones _, hz row hrow⟩
  obtain ⟨-, hg, costs, hs, hcost, -⟩ := computeDeformed_inv h
  obtain ⟨-, hman, hc, hrest⟩ := shoot_rest (s := s) hz' hs
  obtain ⟨L, hL, hlen⟩ := same_compound (shoot_same hs)
  dsimp only at hL
  rw [hL, DefModule.members] at hg
  obtain ⟨hl, hget⟩ := toGeometries_ok hg
  have hlen' : L.length = Ds.length + ms.length := by rw [hlen]; simp
  refine ⟨by omega, fun i D hD => ?_, fun hw hred => reduceCost_rest hred hc hz' hrest (hcost hw)⟩
  have hi : i < Ds.length := (List.getElem?_eq_some_iff.1 hD).1
  obtain ⟨m, hmi⟩ : ∃ m, L[i]? = some m := ⟨_, List.getElem?_eq_getElem (by omega)⟩
  obtain ⟨p, g, hp, hgd, hgi⟩ := hget i D m hD hmi
  refine ⟨g, hgi, ?_⟩
  rw [hL, DefModule.manifold, DefModule.manifold] at hman
  have hm := congrArg (fun l : List (Mfd d) => l[i]?) (Mfd.compound.inj hman)
  rw [manifolds_getElem?, manifolds_getElem?, hmi, List.getElem?_append_left (by simpa using hi), List.getElem?_map, hD] at hm
  simp only [Option.map_some, Option.some.injEq, Deformable.silent, DefModule.manifold] at hm
  unfold pointsOf at hp
  split at hp
  · next n gd cot' =>
    cases hp
    rw [DefModule.manifold] at hm
    cases hm
    exact hgd
  · cases hp

/-- What the constructor stores when controls are to be fitted. -/
theorem new_learned {Ds : List (Deformable d G)} {ms : List (DefModule d)} {as : List (Attach G T)} {n : SolverName} {it₀ : Nat} {ones : Bool}
    {lam : ℝ} {red : Reduce} {M : RegModel d G T} (h : RegModel.new Ds ms as (some (n, it₀, ones)) lam red = .ok M) :
    ∃ cs, learnableControls n it₀ ones ms = .ok cs ∧
      M = ⟨Ds, ms, as, Ds.map (fun D => D.silent.manifold) ++ DefModule.manifolds ms, some (it₀, cs), lam, red⟩ := by
  unfold RegModel.new at h
  split at h
  · cases h
  · dsimp only at h
    cases h1 : learnableControls n it₀ ones ms with
    | error e => rw [h1] at h; cases h
    | ok cs =>
      rw [h1] at h
      dsimp only at h
      split at h
      · exact ⟨cs, rfl, (Except.ok.inj h).symm⟩
      · cases h

theorem learnable_zero {n : SolverName} {it₀ : Nat} {ms : List (DefModule d)} {cs : List (List (Ctrl d))}
    (h : learnableControls n it₀ false ms = .ok cs) : ∀ row ∈ cs, ∀ c ∈ row, c.IsZero := by
  unfold learnableControls at h
  cases h1 : controlsPerIt n with
  | error e => rw [h1] at h; cases h
  | ok k =>
    rw [h1] at h
    dsimp only at h
    split at h
    · cases h; intro row hr; cases hr
    · cases h2 : collectList (fun m : DefModule d => m.controls.like (if false then 1 else 0)) ms with
      | error e => rw [h2] at h; cases h
      | ok c =>
        rw [h2] at h
        cases h
        intro row hr x hx
        rw [List.eq_of_mem_replicate hr] at hx
        obtain ⟨m, hm⟩ : ∃ m : DefModule d, m.controls.like (if false then 1 else 0) = .ok x := by
          have hf := List.forall₂_iff_get.1 (collectList_forall h2)
          obtain ⟨k', hk', rfl⟩ := List.getElem_of_mem hx
          exact ⟨_, hf.2 k' (hf.1 ▸ hk') hk'⟩
        cases hc : m.controls with
        | list l => rw [hc, Ctrl.like] at hm; cases hm
        | _ => rw [hc, Ctrl.like] at hm; cases hm; simp [Ctrl.IsZero]

/-- Once controls are learned, the number of steps is the one the model was made with: the argument `it` of
`compute_deformed` has no effect. -/
theorem C90_steps {M : RegModel d G T} (h : M.learned ≠ none) (s : SolverName) (it it' : Nat) (wantCosts : Bool) (t1 : ℝ) :
    M.computeDeformed s it wantCosts t1 = M.computeDeformed s it' wantCosts t1 := by
  unfold RegModel.computeDeformed RegModel.steps
  cases hl : M.learned with
  | none => exact absurd hl h
  | some p => rfl

/-- The same for `evaluate`, with a callback that leaves a model with learned controls. -/
theorem C90_evaluate_steps {callback : Option (RegModel d G T → Py (Option ℝ × RegModel d G T))} {M : RegModel d G T} (h : M.learned ≠ none)
    (hc : ∀ f, callback = some f → ∀ p M', f M = .ok (p, M') → M'.learned ≠ none) (targets : List T) (s : SolverName) (it it' : Nat)
    (costs : Dict CostKey ℝ) : M.evaluate callback targets s it costs = M.evaluate callback targets s it' costs := by
  unfold RegModel.evaluate
  cases callback with
  | none => dsimp only; rw [C90_steps h s it it']
  | some f =>
    dsimp only
    cases hf : f M with
    | error e => rfl
    | ok q =>
      obtain ⟨p, M'⟩ := q
      dsimp only
      rw [C90_steps (hc f rfl p M' hf) s it it']

/-- Whatever controls `cs` have been learned, the model deforms as `deformables_compute_deformed` does from the
deformables and modules it was made of, with `cs` and the number of steps it was made with. -/
theorem C90_given {Ds : List (Deformable d G)} {ms : List (DefModule d)} {as : List (Attach G T)} {n : SolverName} {it₀ : Nat} {ones : Bool}
    {lam : ℝ} {red : Reduce} {M : RegModel d G T} (h : RegModel.new Ds ms as (some (n, it₀, ones)) lam red = .ok M) (cs : List (List (Ctrl d)))
    (s : SolverName) (it : Nat) (wantCosts : Bool) (t1 : ℝ) :
    (({ M with learned := some (it₀, cs) } : RegModel d G T).computeDeformed s it wantCosts t1).map Prod.fst
      = computeDeformed Ds ms s it₀ wantCosts (some cs) t1 red := by
  obtain ⟨cs₀, -, rfl⟩ := new_learned h
  unfold RegModel.computeDeformed
  dsimp only
  rw [List.drop_append_of_le_length (by simp), List.drop_of_length_le (by simp), List.nil_append, fillModules_self, fillDeformables_self]
  simp only [RegModel.steps, Option.map_some, Option.elim]
  cases computeDeformed Ds ms s it₀ wantCosts (some cs) t1 red <;> rfl

/-- A model that fits controls, made without ones, starts at the identity: before any optimisation the deformed
geometries are made from the points the deformables were given, and the deformation cost is zero. -/
theorem C90_start {Ds : List (Deformable d G)} {ms : List (DefModule d)} {as : List (Attach G T)} {n : SolverName} {it₀ : Nat}
    {lam : ℝ} {red : Reduce} {M M' : RegModel d G T} (h : RegModel.new Ds ms as (some (n, it₀, false)) lam red = .ok M) {s : SolverName} {it : Nat}
    {wantCosts : Bool} {t1 : ℝ} {r : Deformed d G} (hr : M.computeDeformed s it wantCosts t1 = .ok (r, M')) :
    r.geometries.length = Ds.length ∧
      (∀ (i : Nat) (D : Deformable d G), Ds[i]? = some D → ∃ g, r.geometries[i]? = some g ∧ D.toDeformed ⟨D.n, D.gd⟩ = .ok g) ∧
      (wantCosts = true → red.OfControls it₀ → r.cost = some 0) := by
  obtain ⟨cs, hcs, hM⟩ := new_learned h
  have h1 := C90_given h cs s it wantCosts t1
  have e : ({ M with learned := some (it₀, cs) } : RegModel d G T) = M := by rw [hM]
  rw [e, hr] at h1
  exact C90_deformed (learnable_zero hcs) h1.symm

/-- So the first evaluation reports no deformation cost and the attachments of the undeformed geometries. -/
theorem C90_evaluate {Ds : List (Deformable d G)} {ms : List (DefModule d)} {as : List (Attach G T)} {n : SolverName} {it₀ : Nat}
    {lam : ℝ} {red : Reduce} (hred : red.OfControls it₀) {M : RegModel d G T} (h : RegModel.new Ds ms as (some (n, it₀, false)) lam red = .ok M)
    {targets : List T} {s : SolverName} {it : Nat} {R : Evaluated d G T} (hR : M.evaluate none targets s it [] = .ok R) {gs : List G}
    (hg : List.Forall₂ (fun (D : Deformable d G) g => D.toDeformed ⟨D.n, D.gd⟩ = .ok g) Ds gs) :
    ∃ A, attachmentCost as gs targets = .ok A ∧ R.costs.get? .deformation = some 0 ∧ R.costs.get? .attach = some (lam * A) ∧ R.total = lam * A := by
  obtain ⟨-, pre, M₁, q, A, hpre, h1, h2, h3, h4⟩ := evaluate_inv hR
  rcases hpre with ⟨-, rfl, rfl⟩ | ⟨f, hf, -⟩
  swap
  · cases hf
  obtain ⟨e1, e2, e3⟩ := C90_start h h1
  have hq : q.geometries = gs := by
    refine List.ext_getElem? fun i => ?_
    rcases lt_or_ge i Ds.length with hi | hi
    · obtain ⟨g, x1, x2⟩ := e2 i Ds[i] (List.getElem?_eq_getElem hi)
      have hi' : i < gs.length := hg.length_eq ▸ hi
      have x3 := (List.forall₂_iff_get.1 hg).2 i hi hi'
      rw [x1, List.getElem?_eq_getElem hi']
      exact congrArg some (Except.ok.inj (x2.symm.trans x3))
    · rw [List.getElem?_eq_none (by omega), List.getElem?_eq_none (by have := hg.length_eq; omega)]
  obtain ⟨-, -, -, -, -, -, i1, i2, -⟩ := modelDeformed_inv h1
  obtain ⟨cs, -, hM⟩ := new_learned h
  have ea : M₁.attachments = as := by rw [hM]
  have el : M₁.lam = lam := by rw [hM]
  rw [e3 rfl hred] at h3
  rw [i1, ea, hq] at h2
  rw [i2, el] at h3
  refine ⟨A, h2, ?_, ?_, ?_⟩
  · rw [h3]; simp [Dict.set, Dict.get?]
  · rw [h3]; simp [Dict.set, Dict.get?]
  · rw [h4, h3]; simp [totalCost, Dict.set]

/-! ### Evaluating returns -/

theorem allSettable_append {A B : List (DefModule d)} (hA : DefModule.AllSettable A) (hB : DefModule.AllSettable B) : DefModule.AllSettable (A ++ B) := by
  induction A with
  | nil => exact hB
  | cons m A ih =>
    rw [DefModule.AllSettable] at hA
    rw [List.cons_append, DefModule.AllSettable]
    exact ⟨hA.1, ih hA.2⟩

theorem silents_settable (Ds : List (Deformable d G)) : DefModule.AllSettable (Ds.map Deformable.silent) := by
  induction Ds with
  | nil => rw [List.map_nil, DefModule.AllSettable]; trivial
  | cons D Ds ih =>
    rw [List.map_cons, DefModule.AllSettable]
    exact ⟨by simp [Deformable.silent, DefModule.Settable], ih⟩

theorem silents_fits (Ds : List (Deformable d G)) {ms : List (DefModule d)} {row : List (Ctrl d)} (h : List.Forall₂ DefModule.Fits ms row) :
    List.Forall₂ DefModule.Fits (Ds.map Deformable.silent ++ ms) (List.replicate Ds.length .none ++ row) := by
  induction Ds with
  | nil => exact h
  | cons D Ds ih =>
    rw [List.length_cons, List.replicate_succ, List.map_cons]
    exact .cons (by rw [Deformable.silent, DefModule.Fits]; trivial) ih

/-- With controls of the right shape, one per step or per evaluation, deforming returns. -/
theorem C90_deformed_returns {Ds : List (Deformable d G)} (hb : ∀ D ∈ Ds, D.backward = none) (ht : ∀ D ∈ Ds, ∀ p, ∃ g, D.toDeformed p = .ok g)
    {D : Deformable d G} (hD : D ∈ Ds) (hd : 0 < D.n * d) {ms : List (DefModule d)} (hr : DefModule.AllSettable ms) (hp : PlainMembers ms)
    (s : Solver) (it : Nat) {t1 : ℝ} (h1 : t1 ≠ 0) (wantCosts : Bool) {cs : List (List (Ctrl d))} (hcs : ∀ row ∈ cs, List.Forall₂ DefModule.Fits ms row)
    (hl : cs.length = it ∨ it < cs.length ∧ s.stages * it ≤ cs.length) :
    ∃ r, computeDeformed Ds ms (.fixed s) it wantCosts (some cs) t1 .sum = .ok r := by
  have hS : (DefModule.compound (Ds.map Deformable.silent ++ ms)).Settable := by
    rw [DefModule.Settable]
    refine ⟨fun h => ?_, allSettable_append (silents_settable Ds) hr⟩
    rw [List.append_eq_nil_iff, List.map_eq_nil_iff] at h
    rw [h.1] at hD
    cases hD
  obtain ⟨r, hr'⟩ := C69_controls _ hS (silents_plain Ds hp) (silents_numCoords hD hd ms) s it h1
    (cs.map fun c => Ctrl.list (List.replicate Ds.length .none ++ c)) (by rw [List.length_map]; exact hl) (fun c hc => by
      obtain ⟨row, hrow, rfl⟩ := List.mem_map.1 hc
      rw [DefModule.Fits]
      exact ⟨_, rfl, fitsAll_iff.2 (silents_fits Ds (hcs row hrow))⟩)
  exact computeDeformed_total hb ht (r := (r, some r.costs)) (by
    unfold padControls shoot shootOde
    dsimp only [Option.map_some]
    rw [hr']) (fun _ => ⟨_, rfl⟩)

/-- Whatever the optimiser has made of the learned controls, evaluating a model returns, with the method it was
made for. No regularisation is needed for translations, oriented and constrained translations, implicit modules
of order 0, global translations and linear deformations, and points may coincide. -/
theorem C90_returns {Ds : List (Deformable d G)} (hb : ∀ D ∈ Ds, D.backward = none) (ht : ∀ D ∈ Ds, ∀ p, ∃ g, D.toDeformed p = .ok g)
    {D : Deformable d G} (hD : D ∈ Ds) (hd : 0 < D.n * d) {ms : List (DefModule d)} (hr : DefModule.AllSettable ms) (hp : PlainMembers ms)
    {as : List (Attach G T)} (ha : ∀ a ∈ as, ∀ g t, ∃ l, a.loss g t = .ok l) {s : Solver} {it₀ : Nat} {ones : Bool} {lam : ℝ} {M : RegModel d G T}
    (h : RegModel.new Ds ms as (some (.fixed s, it₀, ones)) lam .sum = .ok M) {cs : List (List (Ctrl d))}
    (hcs : ∀ row ∈ cs, List.Forall₂ DefModule.Fits ms row) (hl : cs.length = s.stages * it₀) {targets : List T}
    (hT : targets.length = Ds.length) (it : Nat) (costs : Dict CostKey ℝ) :
    ∃ R, ({ M with learned := some (it₀, cs) } : RegModel d G T).evaluate none targets (.fixed s) it costs = .ok R := by
  obtain ⟨r, hr'⟩ := C90_deformed_returns hb ht hD hd hr hp s it₀ one_ne_zero true hcs (by
    rw [hl]
    cases s <;> simp only [Solver.stages] <;> omega)
  obtain ⟨cs₀, -, rfl⟩ := new_learned h
  obtain ⟨A, hA⟩ := attachmentCost_total ha r.geometries targets
  unfold RegModel.evaluate RegModel.computeDeformed
  simp only [hT, ne_eq, not_true_eq_false, if_false]
  rw [List.drop_append_of_le_length (by simp), List.drop_of_length_le (by simp), List.nil_append, fillModules_self, fillDeformables_self]
  simp only [RegModel.steps, Option.map_some, Option.elim, hr', RegModel.leave, hA]
  exact ⟨_, rfl⟩

/-- In particular before any optimisation. -/
theorem C90_start_returns {Ds : List (Deformable d G)} (hb : ∀ D ∈ Ds, D.backward = none) (ht : ∀ D ∈ Ds, ∀ p, ∃ g, D.toDeformed p = .ok g)
    {D : Deformable d G} (hD : D ∈ Ds) (hd : 0 < D.n * d) {ms : List (DefModule d)} (hr : DefModule.AllSettable ms) (hp : PlainMembers ms)
    {as : List (Attach G T)} (ha : ∀ a ∈ as, ∀ g t, ∃ l, a.loss g t = .ok l) {s : Solver} {it₀ : Nat} {ones : Bool} {lam : ℝ} {M : RegModel d G T}
    (h : RegModel.new Ds ms as (some (.fixed s, it₀, ones)) lam .sum = .ok M) {targets : List T}
    (hT : targets.length = Ds.length) (it : Nat) (costs : Dict CostKey ℝ) :
    ∃ R, M.evaluate none targets (.fixed s) it costs = .ok R := by
  obtain ⟨cs, h1, h2, h3, -⟩ := C28_learnt h
  have := C90_returns hb ht hD hd hr hp ha h (cs := cs) (fun row hrow => (h3 row hrow).imp fun m c hmc => fits_like hmc) h2 hT it costs
  rwa [show ({ M with learned := some (it₀, cs) } : RegModel d G T) = M by rw [← h1]] at this

/-! ### Examples -/

/-- A point and a global translation, three steps of `rk4`: the model can be made, and evaluating it returns. -/
example (lam : ℝ) (it : Nat) : ∃ (M : RegModel 1 (Points 1) Unit) (R : Evaluated 1 (Points 1) Unit),
    RegModel.new [⟨1, fun _ _ => 5, 1, none, fun q => .ok q⟩] [.globalTranslation ⟨1, 0⟩] [nullLoss] (some (.fixed .rk4, 3, false)) lam .sum = .ok M
      ∧ M.evaluate none [()] (.fixed .rk4) it [] = .ok R ∧ M.learned ≠ none := by
  obtain ⟨M, hM⟩ : ∃ M : RegModel 1 (Points 1) Unit, RegModel.new [⟨1, fun _ _ => 5, 1, none, fun q => .ok q⟩] [.globalTranslation ⟨1, 0⟩] [nullLoss]
      (some (.fixed .rk4, 3, false)) lam .sum = .ok M := by
    simp [RegModel.new, learnableControls, controlsPerIt, collectList, DefModule.controls, Ctrl.like, DefModule.manifolds, DefModule.manifold,
      GlobalTranslation.manifold, Deformable.silent, Mfd.canRequireGrad]
  obtain ⟨R, hR⟩ := C90_start_returns (by simp) (by simp) (List.mem_cons_self ..) (by norm_num) (by simp [DefModule.AllSettable, DefModule.Settable])
    (fun m hm => by
      simp only [DefModule.manifolds, DefModule.manifold, GlobalTranslation.manifold, List.mem_cons, List.not_mem_nil, or_false] at hm
      subst hm; exact Or.inl rfl) (by simp [nullLoss, Attach.loss]) hM rfl it [] (targets := [()])
  exact ⟨M, R, hM, hR, by obtain ⟨cs, -, rfl⟩ := new_learned hM; simp⟩

end
end Imodal
