import Verif.Props.C32
import Verif.Props.C34
/-!
# C36: the total cost is the sum of the reported costs
-/
set_option autoImplicit false
namespace Imodal
noncomputable section
variable {d : Nat} {G T : Type}

theorem attachmentCost_ok : ∀ {as : List (Attach G T)} {gs : List G} {ts : List T} {A : ℝ}, attachmentCost as gs ts = .ok A →
    as.length = gs.length → gs.length = ts.length →
    ∃ vs : List ℝ, A = vs.sum ∧ vs.length = ts.length ∧ ∀ (i : Nat) (a : Attach G T) (g : G) (t : T), as[i]? = some a → gs[i]? = some g →
      ts[i]? = some t → ∃ l, a.loss g t = .ok l ∧ vs[i]? = some (a.weight * l)
  | [], [], [], A, h, _, _ => by
    rw [attachmentCost] at h
    · cases h; exact ⟨[], by simp, rfl, by simp⟩
    · simp
  | a :: as, g :: gs, t :: ts, A, h, h1, h2 => by
    rw [attachmentCost] at h
    unfold Attach.call at h
    cases h3 : a.loss g t with
    | error e => rw [h3] at h; cases h
    | ok l =>
      rw [h3] at h
      dsimp only at h
      cases h4 : attachmentCost as gs ts with
      | error e => rw [h4] at h; cases h
      | ok B =>
        rw [h4] at h
        cases h
        obtain ⟨vs, rfl, hl, hv⟩ := attachmentCost_ok h4 (by simpa using h1) (by simpa using h2)
        refine ⟨a.weight * l :: vs, by simp, by simp [hl], fun i a' g' t' ha hg ht => ?_⟩
        cases i with
        | zero =>
          simp only [List.getElem?_cons_zero, Option.some.injEq] at ha hg ht
          subst ha hg ht
          exact ⟨l, h3, rfl⟩
        | succ i =>
          simp only [List.getElem?_cons_succ] at ha hg ht
          obtain ⟨l', e1, e2⟩ := hv i a' g' t' ha hg ht
          exact ⟨l', e1, by simpa using e2⟩

theorem fillDeformables_length : ∀ {Ds : List (Deformable d G)} {mans : List (Mfd d)} {Ds' : List (Deformable d G)},
    fillDeformables Ds mans = .ok Ds' → Ds'.length = Ds.length
  | [], _, _, h => by
    rw [fillDeformables] at h
    · cases h; rfl
    · simp
  | D :: Ds, [], _, h => by
    rw [fillDeformables] at h
    · cases h; rfl
    · simp
  | D :: Ds, man :: mans, Ds', h => by
    rw [fillDeformables] at h
    cases h1 : D.fill man with
    | error e => rw [h1] at h; cases h
    | ok D' =>
      rw [h1] at h; dsimp only at h
      cases h2 : fillDeformables Ds mans with
      | error e => rw [h2] at h; cases h
      | ok Ds'' =>
        rw [h2] at h
        cases h
        simp [fillDeformables_length h2]

/-- What a successful `compute_deformed` has done. -/
theorem modelDeformed_inv {M M' : RegModel d G T} {s : SolverName} {it : Nat} {wantCosts : Bool} {t1 : ℝ} {r : Deformed d G}
    (h : M.computeDeformed s it wantCosts t1 = .ok (r, M')) :
    ∃ ms Ds, fillModules M.modules (M.init.drop M.deformables.length) = .ok ms ∧ fillDeformables M.deformables M.init = .ok Ds ∧
      Ds.length = M.deformables.length ∧
      computeDeformed Ds ms s (M.steps it) wantCosts (M.learned.map Prod.snd) t1 M.reduce = .ok r ∧
      M'.attachments = M.attachments ∧ M'.lam = M.lam ∧ M'.reduce = M.reduce ∧ M'.init = M.init ∧ M'.learned = M.learned := by
  unfold RegModel.computeDeformed at h
  cases h1 : fillModules M.modules (M.init.drop M.deformables.length) with
  | error e => rw [h1] at h; cases h
  | ok ms =>
    rw [h1] at h; dsimp only at h
    cases h2 : fillDeformables M.deformables M.init with
    | error e => rw [h2] at h; cases h
    | ok Ds =>
      rw [h2] at h; dsimp only at h
      cases h3 : computeDeformed Ds ms s (M.steps it) wantCosts (M.learned.map Prod.snd) t1 M.reduce with
      | error e => rw [h3] at h; cases h
      | ok q =>
        rw [h3] at h
        obtain ⟨rfl, rfl⟩ := Prod.mk.inj (Except.ok.inj h)
        exact ⟨ms, Ds, rfl, rfl, fillDeformables_length h2, h3, rfl, rfl, rfl, rfl, rfl⟩

/-- Running the precompute callback, if there is one. -/
def Precomputed (callback : Option (RegModel d G T → Py (Option ℝ × RegModel d G T))) (M : RegModel d G T) (pre : Option ℝ) (M₁ : RegModel d G T) : Prop :=
  callback = none ∧ pre = none ∧ M₁ = M ∨ ∃ f, callback = some f ∧ f M = .ok (pre, M₁)

/-- What a successful `evaluate` has done. -/
theorem evaluate_inv {callback : Option (RegModel d G T → Py (Option ℝ × RegModel d G T))} {M : RegModel d G T} {targets : List T}
    {s : SolverName} {it : Nat} {costs : Dict CostKey ℝ} {R : Evaluated d G T} (h : M.evaluate callback targets s it costs = .ok R) :
    targets.length = M.deformables.length ∧ ∃ pre M₁ q A, Precomputed callback M pre M₁ ∧ M₁.computeDeformed s it true 1 = .ok (q, R.model) ∧
      attachmentCost R.model.attachments q.geometries targets = .ok A ∧
      R.costs = ((match q.cost with
        | none => (match pre with | none => costs | some p => costs.set .precompute p)
        | some c => (match pre with | none => costs | some p => costs.set .precompute p : Dict CostKey ℝ).set .deformation c : Dict CostKey ℝ)).set .attach (R.model.lam * A)
      ∧ R.total = totalCost R.costs := by
  unfold RegModel.evaluate at h
  split at h
  · cases h
  · next ht =>
    refine ⟨by simpa using ht, ?_⟩
    cases callback with
    | none =>
      dsimp only at h
      cases h1 : M.computeDeformed s it true 1 with
      | error e => rw [h1] at h; cases h
      | ok a =>
        obtain ⟨q, M₂⟩ := a
        rw [h1] at h
        dsimp only at h
        cases h2 : attachmentCost M₂.attachments q.geometries targets with
        | error e => rw [h2] at h; cases h
        | ok A =>
          rw [h2] at h
          dsimp only at h
          cases h
          exact ⟨none, M, q, A, Or.inl ⟨rfl, rfl, rfl⟩, h1, h2, rfl, rfl⟩
    | some f =>
      dsimp only at h
      cases h0 : f M with
      | error e => rw [h0] at h; cases h
      | ok a =>
        obtain ⟨pre, M₁⟩ := a
        rw [h0] at h
        dsimp only at h
        cases h1 : M₁.computeDeformed s it true 1 with
        | error e => rw [h1] at h; cases h
        | ok a =>
          obtain ⟨q, M₂⟩ := a
          rw [h1] at h
          dsimp only at h
          cases h2 : attachmentCost M₂.attachments q.geometries targets with
          | error e => rw [h2] at h; cases h
          | ok A =>
            rw [h2] at h
            dsimp only at h
            cases h
            exact ⟨pre, M₁, q, A, Or.inr ⟨f, rfl, h0⟩, h1, h2, rfl, rfl⟩

/-- **C36.** Whatever dictionary is given and whatever the callback does, the number `evaluate`
differentiates is the sum of all entries of the dictionary it returns. -/
theorem C36_total {callback : Option (RegModel d G T → Py (Option ℝ × RegModel d G T))} {M : RegModel d G T} {targets : List T}
    {s : SolverName} {it : Nat} {costs : Dict CostKey ℝ} {R : Evaluated d G T} (h : M.evaluate callback targets s it costs = .ok R) :
    R.total = (R.costs.map Prod.snd).sum := by
  obtain ⟨-, -, -, -, -, -, -, -, -, h⟩ := evaluate_inv h
  exact h

/-- **C36.** The entries are: what the callback returned, if anything; the deformation cost of the
shooting; and `lam` times the attachments, each applied to its own deformed geometry and target
and counted with its weight, every target used exactly once. The total is their sum. -/
theorem C36_entries {callback : Option (RegModel d G T → Py (Option ℝ × RegModel d G T))} {M : RegModel d G T} {targets : List T}
    {s : SolverName} {it : Nat} {R : Evaluated d G T} (h : M.evaluate callback targets s it [] = .ok R) :
    ∃ pre M₁, Precomputed callback M pre M₁ ∧ (M₁.attachments.length = M₁.deformables.length → M₁.deformables.length = M.deformables.length →
      M₁.reduce ≠ .other →
      ∃ (q : Deformed d G) (c : ℝ) (vs : List ℝ), M₁.computeDeformed s it true 1 = .ok (q, R.model) ∧ q.cost = some c ∧ q.geometries.length = targets.length ∧ vs.length = targets.length ∧
        (∀ (i : Nat) (a : Attach G T) (g : G) (t : T), M₁.attachments[i]? = some a → q.geometries[i]? = some g → targets[i]? = some t →
          ∃ l, a.loss g t = .ok l ∧ vs[i]? = some (a.weight * l)) ∧
        R.costs.get? .precompute = pre ∧ R.costs.get? .deformation = some c ∧ R.costs.get? .attach = some (M₁.lam * vs.sum) ∧
        (∀ k, k ≠ .precompute → k ≠ .deformation → k ≠ .attach → R.costs.get? k = none) ∧
        R.total = pre.getD 0 + c + M₁.lam * vs.sum) := by
  obtain ⟨ht, pre, M₁, q, A, hpre, hq, hA, hc, htot⟩ := evaluate_inv h
  refine ⟨pre, M₁, hpre, fun ha hl hr => ?_⟩
  obtain ⟨ms, Ds, -, -, hDs, hcd, e1, e2, -⟩ := modelDeformed_inv hq
  have hg := (C33_partial hcd).1
  obtain ⟨c, hcost, -⟩ := C34_partial hcd hr
  rw [e1] at hA
  obtain ⟨vs, rfl, hvl, hv⟩ := attachmentCost_ok hA (by omega) (by omega)
  refine ⟨q, c, vs, hq, hcost, by omega, by omega, hv, ?_⟩
  rw [htot, hc, hcost, e2]
  cases pre with
  | none =>
    simp only [Dict.set, reduceCtorEq, if_false, Dict.get?, totalCost]
    refine ⟨by simp, by simp, by simp, fun k h1 h2 h3 => ?_, by simp⟩
    simp [Ne.symm h2, Ne.symm h3]
  | some p =>
    simp only [Dict.set, reduceCtorEq, if_false, Dict.get?, totalCost]
    refine ⟨by simp, by simp, by simp, fun k h1 h2 h3 => ?_, by simp [add_assoc]⟩
    simp [Ne.symm h1, Ne.symm h2, Ne.symm h3]

/-- With an unknown reduction the deformation cost is left out of the total (compare
`C34_unknown_disagreement`). -/
theorem C36_unknown_reduction {M : RegModel d G T} {targets : List T} {s : SolverName} {it : Nat} {R : Evaluated d G T}
    (h : M.evaluate none targets s it [] = .ok R) (hr : M.reduce = .other) :
    ∃ A, R.costs = [(.attach, M.lam * A)] ∧ R.total = M.lam * A := by
  obtain ⟨ht, pre, M₁, q, A, hpre, hq, hA, hc, htot⟩ := evaluate_inv h
  obtain ⟨-, rfl, rfl⟩ | ⟨f, hf, -⟩ := hpre
  · obtain ⟨ms, Ds, -, -, hDs, hcd, e1, e2, -⟩ := modelDeformed_inv hq
    obtain ⟨-, -, costs, -, hred, -⟩ := computeDeformed_inv hcd
    have := hred rfl
    rw [hr, reduceCost] at this
    have e : q.cost = none := (congrArg Prod.fst (Except.ok.inj this)).symm
    rw [e, e2] at hc
    refine ⟨A, hc, ?_⟩
    rw [htot, hc]
    simp [totalCost, Dict.set]
  · cases hf

theorem fillModules_self (ms : List (DefModule d)) : fillModules ms (DefModule.manifolds ms) = .ok ms := by
  have hf : (Mfd.compound (DefModule.manifolds ms)).Fits (.compound ms) := unrollGdAll_manifolds_length _ _ rfl
  obtain ⟨ms', h1, h2⟩ := fillModules_fits hf
  have h3 : rowsMod (DefModule.compound ms) (Mfd.compound (DefModule.manifolds ms)).rows = .compound ms := rowsMod_self (.compound ms)
  rw [h3] at h1
  cases h1
  exact h2

theorem fillDeformables_self (rest : List (Mfd d)) : ∀ Ds : List (Deformable d G),
    fillDeformables Ds (Ds.map (fun D => D.silent.manifold) ++ rest) = .ok Ds
  | [] => by
    rw [fillDeformables]
    simp
  | D :: Ds => by
    rw [List.map_cons, List.cons_append, fillDeformables]
    have : D.fill D.silent.manifold = .ok D := rfl
    rw [this]
    dsimp only
    rw [fillDeformables_self rest Ds]

theorem attachmentCost_total : ∀ {as : List (Attach G T)}, (∀ a ∈ as, ∀ g t, ∃ l, a.loss g t = .ok l) → ∀ (gs : List G) (ts : List T),
    ∃ A, attachmentCost as gs ts = .ok A
  | [], _, gs, ts => ⟨0, by rw [attachmentCost]; simp⟩
  | a :: as, _, [], ts => ⟨0, by rw [attachmentCost]; simp⟩
  | a :: as, _, g :: gs, [] => ⟨0, by rw [attachmentCost]; simp⟩
  | a :: as, h, g :: gs, t :: ts => by
    obtain ⟨l, hl⟩ := h a (List.mem_cons_self ..) g t
    obtain ⟨A, hA⟩ := attachmentCost_total (fun a' ha' => h a' (List.mem_cons_of_mem _ ha')) gs ts
    rw [attachmentCost]
    unfold Attach.call
    rw [hl]
    dsimp only
    rw [hA]
    exact ⟨_, rfl⟩

/-- **C36.** The hypotheses of `C36_entries` are met by every model made of regularised modules,
of deformables that need no backward flow and of attachments that return: `evaluate` returns. -/
theorem C36_returns {Ds : List (Deformable d G)} (hb : ∀ D ∈ Ds, D.backward = none) (ht : ∀ D ∈ Ds, ∀ p, ∃ g, D.toDeformed p = .ok g)
    {D : Deformable d G} (hD : D ∈ Ds) (hd : 0 < D.n * d) {ms : List (DefModule d)} (hr : DefModule.AllRegular ms) (hp : PlainMembers ms)
    (hq : ∀ m ∈ DefModule.manifolds ms, m.canRequireGrad = true) {as : List (Attach G T)} (ha : ∀ a ∈ as, ∀ g t, ∃ l, a.loss g t = .ok l) (hl : as.length = Ds.length) {targets : List T}
    (hT : targets.length = Ds.length) (lam : ℝ) (s : Solver) (it : Nat) (costs : Dict CostKey ℝ) :
    ∃ M R, RegModel.new Ds ms as none lam .sum = .ok M ∧ M.evaluate none targets (.fixed s) it costs = .ok R ∧
      M.attachments.length = M.deformables.length ∧ M.reduce ≠ .other := by
  have hnew : RegModel.new Ds ms as none lam .sum
      = .ok ⟨Ds, ms, as, Ds.map (fun D => D.silent.manifold) ++ DefModule.manifolds ms, none, lam, .sum⟩ := by
    unfold RegModel.new
    rw [if_neg (by simp [hl])]
    dsimp only
    rw [if_pos]
    rw [List.all_eq_true]
    intro m hm
    rw [List.mem_append] at hm
    rcases hm with hm | hm
    · obtain ⟨D, -, rfl⟩ := List.mem_map.1 hm
      rfl
    · exact hq m hm
  obtain ⟨r, hr'⟩ := C33_returns hb ht hD hd hr hp s it one_ne_zero true
  obtain ⟨A, hA⟩ := attachmentCost_total ha r.geometries targets
  rw [hnew]
  refine ⟨⟨Ds, ms, as, Ds.map (fun D => D.silent.manifold) ++ DefModule.manifolds ms, none, lam, .sum⟩, ?_⟩
  unfold RegModel.evaluate RegModel.computeDeformed
  simp only [hT, ne_eq, not_true_eq_false, if_false]
  rw [List.drop_append_of_le_length (by simp), List.drop_of_length_le (by simp), List.nil_append, fillModules_self, fillDeformables_self]
  simp only [RegModel.steps, Option.map_none, Option.elim, hr', RegModel.leave, hA]
  exact ⟨_, trivial, rfl, hl, by simp⟩

/-- **C36.** Every deformable has its attachment: other numbers raise AssertionError when the model
is made, so no term of the sum can be left out. -/
theorem C36_counts (Ds : List (Deformable d G)) (ms : List (DefModule d)) (as : List (Attach G T)) (fit : Option (SolverName × Nat × Bool))
    (lam : ℝ) (red : Reduce) : (Ds.length ≠ as.length → RegModel.new Ds ms as fit lam red = .error .assertion) ∧
    ∀ M, RegModel.new Ds ms as fit lam red = .ok M → M.deformables = Ds ∧ M.attachments = as ∧ M.attachments.length = M.deformables.length := by
  unfold RegModel.new
  constructor
  · intro h; rw [if_pos h]
  · intro M h
    split at h
    · cases h
    · rename_i hl
      split at h
      · cases h
      · dsimp only at h
        split at h
        · cases h; exact ⟨rfl, rfl, (not_not.1 hl).symm⟩
        · cases h

/-! A silent curve and a regularised translation, the attachment being twice the difference of a number of points to the target. -/
example (a b : Fin 3 → Vec 2) (q p : Fin 4 → Vec 2) : ∃ M R, RegModel.new [⟨3, a, b, none, fun p => .ok p⟩] [.implicit0 ⟨.torch, q, p, 2, 1, 1, 0⟩]
    [.simple 2 fun (g : Points 2) (t : ℝ) => .ok (g.n - t)] none 10 .sum = .ok M
    ∧ M.evaluate none [5] (.fixed .rk4) 10 [] = .ok R ∧ M.attachments.length = M.deformables.length ∧ M.reduce ≠ .other :=
  C36_returns (Ds := [⟨3, a, b, none, fun p => .ok p⟩]) (by simp) (by simp)
    (List.mem_cons_self ..) (by norm_num) (ms := [.implicit0 ⟨.torch, q, p, 2, 1, 1, 0⟩]) (by simp [DefModule.AllRegular, DefModule.Regular])
    (fun m hm => by
      simp only [DefModule.manifolds, DefModule.manifold, Implicit0.manifold, List.mem_cons, List.not_mem_nil, or_false] at hm
      subst hm; exact Or.inr rfl) (by simp [DefModule.manifolds, DefModule.manifold, Implicit0.manifold, Mfd.canRequireGrad])
    (as := [.simple 2 fun (g : Points 2) (t : ℝ) => .ok (g.n - t)]) (targets := [5]) (fun a ha g t => by
        simp only [List.mem_cons, List.not_mem_nil, or_false] at ha
        subst ha
        exact ⟨_, rfl⟩) rfl rfl 10 .rk4 10 []

end
end Imodal
