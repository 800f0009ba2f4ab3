import Verif.Spec.FitAtlas
import Verif.Props.C38
import Verif.Props.C113
/-!
# C117: fitting an atlas by gradient descent ends, does not increase the total, and converges
-/
set_option autoImplicit false
namespace Imodal
noncomputable section
open Filter Topology
variable {d : Nat} {G T : Type}

/-! ## The total of an atlas -/

theorem regValue_ok {M : RegModel d G T} {targets : List T} {s : SolverName} {it : Nat} {v : ℝ} (h : M.value targets s it = .ok v) :
    ∃ R, M.evaluate none targets s it [] = .ok R ∧ R.total = v := by
  unfold RegModel.value at h
  cases hev : M.evaluate none targets s it [] with
  | error _ => rw [hev] at h; cases h
  | ok R => rw [hev] at h; cases h; exact ⟨R, rfl, rfl⟩

theorem atlasLoop_each {s : SolverName} {it : Nat} {Ms : List (RegModel d G T)} {ts : List T}
    (h : List.Forall₂ (fun M t => ∃ R, RegModel.evaluate none M [t] s it [] = .ok R) Ms ts) : ∀ D : Dict CostKey (List ℝ), ∃ r, atlasLoop s it Ms ts D = .ok r := by
  induction h with
  | nil => exact fun D => ⟨_, by rw [atlasLoop]; simp⟩
  | cons h _ ih =>
    intro D
    obtain ⟨R, hR⟩ := h
    obtain ⟨r, hr⟩ := ih (appendInDictOfList D R.costs)
    rw [atlasLoop, hR]
    dsimp only
    rw [hr]
    exact ⟨_, rfl⟩

/-- The values of the subjects, each with its own target. -/
def EachValue (s : SolverName) (it : Nat) : List (RegModel d G T) → List T → List ℝ → Prop
  | M :: Ms, t :: ts, v :: vs => M.value [t] s it = .ok v ∧ EachValue s it Ms ts vs
  | [], [], [] => True
  | _, _, _ => False

theorem EachValue.evaluates {s : SolverName} {it : Nat} : {Ms : List (RegModel d G T)} → {ts : List T} → {vs : List ℝ} → EachValue s it Ms ts vs →
    List.Forall₂ (fun M t => ∃ R, RegModel.evaluate none M [t] s it [] = .ok R) Ms ts
  | [], [], [], _ => .nil
  | M :: Ms, t :: ts, v :: vs, h => by
    obtain ⟨R, hR, -⟩ := regValue_ok h.1
    exact .cons ⟨R, hR⟩ h.2.evaluates
  | [], _ :: _, [], h => h.elim
  | [], [], _ :: _, h => h.elim
  | [], _ :: _, _ :: _, h => h.elim
  | _ :: _, [], _, h => h.elim
  | _ :: _, _ :: _, [], h => h.elim

theorem EachValue.totals {s : SolverName} {it : Nat} : {Ms : List (RegModel d G T)} → {ts : List T} → {vs : List ℝ} → EachValue s it Ms ts vs →
    {Rs : List (Evaluated d G T)} → EvaluateEach s it Ms ts Rs → Rs.map Evaluated.total = vs
  | [], [], [], _, Rs, hR => by
    obtain ⟨h, -⟩ := hR
    rw [List.length_eq_zero_iff.1 h]; rfl
  | M :: Ms, t :: ts, v :: vs, h, [], hR => by cases hR.1
  | M :: Ms, t :: ts, v :: vs, h, R :: Rs, hR => by
    obtain ⟨hl, hE⟩ := hR
    obtain ⟨R', h1, h2⟩ := hE 0 M t rfl rfl
    obtain ⟨R'', h3, h4⟩ := regValue_ok h.1
    rw [h2] at h3
    cases h3
    cases h1
    rw [List.map_cons, h4, h.2.totals (Rs := Rs) ⟨by simpa using hl, fun i M t hM ht => hE (i + 1) M t hM ht⟩]
  | [], _ :: _, [], h, _, _ => h.elim
  | [], [], _ :: _, h, _, _ => h.elim
  | [], _ :: _, _ :: _, h, _, _ => h.elim
  | _ :: _, [], _, h, _, _ => h.elim
  | _ :: _, _ :: _, [], h, _, _ => h.elim

/-- The total of an atlas is the sum of the totals of its subjects. -/
theorem atlasValue_sum {s : SolverName} {it : Nat} {Ms : List (RegModel d G T)} {ts : List T} {vs : List ℝ} (hM : Ms ≠ []) (h : EachValue s it Ms ts vs) :
    atlasValue Ms ts s it = .ok vs.sum := by
  have hE := h.evaluates
  have hlen : Ms.length = ts.length := hE.length_eq
  have hret : ∃ r, atlasEvaluate none Ms ts s it = .ok r := by
    obtain ⟨r, hr⟩ := atlasLoop_each hE []
    unfold atlasEvaluate
    rw [show useTemplate (none : Option (Hyper d)) true = .ok () from rfl, ite_self]
    dsimp only
    rw [hr]
    dsimp only
    rw [if_neg]
    · exact ⟨_, rfl⟩
    · cases hE with
      | nil => exact absurd rfl hM
      | @cons M t Ms ts h1 h2 =>
        obtain ⟨R, h1⟩ := h1
        rw [atlasLoop, h1] at hr
        dsimp only at hr
        cases h2 : atlasLoop s it Ms ts (appendInDictOfList [] R.costs) with
        | error e => rw [h2] at hr; cases hr
        | ok r' =>
          rw [h2] at hr; cases hr
          dsimp only
          rw [List.map_eq_nil_iff]
          refine atlasLoop_ne h2 ?_
          obtain ⟨-, pre, M₁, q, A, -, -, -, hc, -⟩ := evaluate_inv h1
          have hne : R.costs ≠ [] := by
            rw [hc]
            cases pre <;> cases q.cost <;> simp [Dict.set]
          cases hR : R.costs with
          | nil => exact absurd hR hne
          | cons e D' => exact foldl_appendEntry_ne D' (appendEntry_ne [] e)
  obtain ⟨⟨costs, total, Ms'⟩, hr⟩ := hret
  obtain ⟨Rs, h1, -, h2, -⟩ := C38_partial hlen hr
  unfold atlasValue
  rw [hr]
  show Except.ok total = _
  rw [h2, h.totals h1]

/-! ## The parameters -/

theorem length_subjectsAt : (fit : Option (List Nat)) → (Ms : List (RegModel d G T)) → (c g : List ℝ) → (subjectsAt fit Ms c g).length = Ms.length
  | _, [], _, _ => rfl
  | fit, M :: Ms, c, g => by rw [subjectsAt, List.length_cons, length_subjectsAt none Ms, List.length_cons]

theorem subjectsAt_start : (Ms : List (RegModel d G T)) → subjectsAt none Ms (Ms.map RegModel.momenta).flatten [] = Ms.map fun M => M.setValues M.init none
  | [] => rfl
  | M :: Ms => by
    rw [subjectsAt, List.map_cons, List.flatten_cons, List.take_left' rfl, List.drop_left' rfl, subjectsAt_start Ms, List.map_cons]
    congr 1
    exact C95_start M none

/-- The parameters of the atlas are where the descent starts: with them the subjects are as they are. -/
theorem C117_start (Ms : List (RegModel d G T)) (fit : Option (List Nat)) : atlasAt Ms fit (atlasEntries Ms fit) = Ms.map fun M => M.setValues M.init none := by
  cases fit with
  | none => exact subjectsAt_start Ms
  | some ps =>
    cases Ms with
    | nil => rfl
    | cons M Ms =>
      show subjectsAt _ (M :: Ms) ((M :: Ms).map RegModel.momenta).flatten (ps.map (rowOf (Mfd.compound M.init).unrollGd.flatten)) = _
      rw [subjectsAt, List.map_cons, List.flatten_cons, List.take_left' rfl, List.drop_left' rfl, subjectsAt_start Ms, List.map_cons]
      congr 1
      exact C95_start M (some ps)

section
variable {E : Type} [NormedAddCommGroup E] [NormedSpace ℝ E] {e₀ : E} {n : WithTop ℕ∞}

theorem SmList.take {l : E → List ℝ} (h : SmList n e₀ l) (c : Nat) : SmList n e₀ fun e => (l e).take c := by
  obtain ⟨⟨N, hN⟩, h⟩ := h
  refine ⟨⟨min c N, fun e => by rw [List.length_take, hN]⟩, fun j => ?_⟩
  simp only [List.getD_eq_getElem?_getD, List.getElem?_take]
  simp only [List.getD_eq_getElem?_getD] at h
  by_cases hj : j < c
  · simp only [if_pos hj]; exact h j
  · simp only [if_neg hj, Option.getD_none]; exact contDiffAt_const

theorem SmList.nil : SmList n e₀ fun _ : E => ([] : List ℝ) :=
  ⟨⟨0, fun _ => rfl⟩, fun j => by simp only [List.getD_nil]; exact contDiffAt_const⟩

end

/-! ## Smoothness -/

/-- The data of an atlas that can be fitted: there is a subject, and every subject can be fitted to its
target (C95). -/
structure FittableAtlas (Ms : List (RegModel d G T)) (targets : List T) : Prop where
  some_subject : Ms ≠ []
  subjects : List.Forall₂ (fun M t => Fittable M [t]) Ms targets

theorem subjects_total {E : Type} [NormedAddCommGroup E] [NormedSpace ℝ E] (s : Solver) (it : Nat) {Ms : List (RegModel d G T)} {ts : List T}
    (h : List.Forall₂ (fun M t => Fittable M [t]) Ms ts) : (fit : Option (List Nat)) → {c g : E → List ℝ} → (∀ e, SmList 1 e c) → (∀ e, SmList 1 e g) →
    ∃ f : E → List ℝ, (∀ e, EachValue (.fixed s) it (subjectsAt fit Ms (c e) (g e)) ts (f e)) ∧ ContDiff ℝ 1 fun e => (f e).sum := by
  induction h with
  | nil => exact fun fit c g _ _ => ⟨fun _ => [], fun _ => trivial, by simpa using contDiff_const⟩
  | @cons M t Ms ts hM _ ih =>
    intro fit c g hc hg
    obtain ⟨f, hf, hv⟩ := hM.total_of fit s it (y := fun e => [(c e).take M.momenta.length, g e]) (fun e => (hc e).take _) hg
    obtain ⟨F, hF, hS⟩ := ih none (fun e => (hc e).drop M.momenta.length) (fun _ => SmList.nil)
    refine ⟨fun e => f e :: F e, fun e => ⟨hv e, hF e⟩, ?_⟩
    simp only [List.sum_cons]
    exact hf.add hS

theorem subjectsAt_ne {fit : Option (List Nat)} {Ms : List (RegModel d G T)} (h : Ms ≠ []) (c g : List ℝ) : subjectsAt fit Ms c g ≠ [] := fun h' => by
  have := length_subjectsAt fit Ms c g
  rw [h'] at this
  exact h (List.length_eq_zero_iff.1 this.symm)

/-- The total is a differentiable function of the entries of the parameters. -/
theorem FittableAtlas.total {Ms : List (RegModel d G T)} {targets : List T} (hM : FittableAtlas Ms targets) (fit : Option (List Nat)) (s : Solver) (it : Nat) (y : List (List ℝ)) :
    ∃ f : (Fin y.flatten.length → ℝ) → ℝ, ContDiff ℝ 1 f ∧ ∀ e, atlasValue (atlasAt Ms fit (gdFill y (List.ofFn e))) targets (.fixed s) it = .ok (f e) := by
  obtain ⟨F, hF, hS⟩ := subjects_total (E := Fin y.flatten.length → ℝ) s it hM.subjects fit (fun e₀ => SmList.fill y (smList_ofFn e₀) 0) (fun e₀ => SmList.fill y (smList_ofFn e₀) 1)
  exact ⟨_, hS, fun e => atlasValue_sum (subjectsAt_ne hM.some_subject _ _) (hF e)⟩

/-- At all parameters the total is a number, and the gradient is made of its partial derivatives. -/
theorem FittableAtlas.smooth {Ms : List (RegModel d G T)} {targets : List T} (hM : FittableAtlas Ms targets) (fit : Option (List Nat)) (s : Solver) (it : Nat) (y : List (List ℝ)) :
    atlasValue (atlasAt Ms fit y) targets (.fixed s) it = .ok (atlasTotal Ms fit targets (.fixed s) it y) ∧
    Spec.IsGradient (atlasTotal Ms fit targets (.fixed s) it) y (partials (atlasTotal Ms fit targets (.fixed s) it) y) := by
  obtain ⟨f, hf, hv⟩ := hM.total fit s it y
  have hv' : ∀ e : Fin y.flatten.length → ℝ, atlasTotal Ms fit targets (.fixed s) it (gdFill y (List.ofFn e)) = f e := fun e => by
    unfold atlasTotal
    rw [hv e]
  refine ⟨?_, isGradient_partials ?_⟩
  · have h := hv fun i => y.flatten.getD i 0
    rw [ofFn_entries rfl, gdFill_flatten y y rfl] at h
    unfold atlasTotal
    rw [h]
  · rw [show (fun e : Fin y.flatten.length → ℝ => atlasTotal Ms fit targets (.fixed s) it (gdFill y (List.ofFn e))) = f from funext hv']
    exact (hf.differentiable (by norm_num)).differentiableAt

/-! ## The property -/

/-- **C117.** Gradient descent on an atlas: every step ends, none increases the total, evaluating the
atlas never raises on the way. -/
theorem C117_fit {Ms : List (RegModel d G T)} {targets : List T} (hM : FittableAtlas Ms targets) (fit : Option (List Nat)) (s : Solver) (it : Nat) (cf : GDConf ℝ) (initStep : ℝ)
    (ho : cf.opts.length = (atlasEntries Ms fit).length) (hsteps : ∀ a ∈ gdInitSteps initStep cf.opts, 0 ≤ a)
    (hγ : ∀ o ∈ cf.opts, 0 ≤ o.gamma1.getD cf.gamma1 ∧ o.gamma1.getD cf.gamma1 < 1 ∧ 0 ≤ o.gamma2.getD cf.gamma2) :
    ∃ (run : Nat → GDState ℝ ℝ) (v : Nat → ℝ), run 0 = ⟨atlasEntries Ms fit, gdInitSteps initStep cf.opts⟩ ∧ Antitone v ∧ ∀ i,
      SameShape (run i).params (atlasEntries Ms fit) ∧ (∃ costs Ms', atlasEvaluate none (atlasAt Ms fit (run i).params) targets (.fixed s) it = .ok (costs, v i, Ms')) ∧
      ∃ bound, ∀ fuel ≥ bound, gdStep (atlasDescent Ms fit targets (.fixed s) it) cf fuel (run i) = some (run (i + 1)) := by
  obtain ⟨run, h0, h⟩ := C95_run (atlasTotal Ms fit targets (.fixed s) it) (atlasDescent Ms fit targets (.fixed s) it) cf ⟨atlasEntries Ms fit, gdInitSteps initStep cf.opts⟩ ho
    (by rw [gdInitSteps, List.length_map, ho]) (fun y _ => by unfold atlasDescent; dsimp only; rw [(hM.smooth fit s it y).1])
    (fun y _ => ⟨gdFill_shape _ _, (hM.smooth fit s it y).2⟩) hsteps hγ
  refine ⟨run, fun i => atlasTotal Ms fit targets (.fixed s) it (run i).params, h0, antitone_nat_of_succ_le fun i => (h i).2.1, fun i => ⟨(h i).1, ?_, (h i).2.2⟩⟩
  have h1 := (hM.smooth fit s it (run i).params).1
  unfold atlasValue at h1
  split at h1
  · rename_i r hr
    obtain ⟨costs, total, Ms'⟩ := r
    cases h1
    exact ⟨costs, Ms', hr⟩
  · cases h1

theorem subjects_nonneg (s : Solver) (it : Nat) {Ms : List (RegModel d G T)} {ts : List T} (h : List.Forall₂ (fun M t => Fittable M [t]) Ms ts)
    (hlam : ∀ M ∈ Ms, 0 ≤ M.lam) (hloss : ∀ M ∈ Ms, ∀ a ∈ M.attachments, ∀ g t u, a.call g t = .ok u → 0 ≤ u) : (fit : Option (List Nat)) → (c g vs : List ℝ) →
    EachValue (.fixed s) it (subjectsAt fit Ms c g) ts vs → 0 ≤ vs.sum := by
  induction h with
  | nil =>
    intro fit c g vs hv
    cases vs with
    | nil => exact le_rfl
    | cons _ _ => exact hv.elim
  | @cons M t Ms ts hM _ ih =>
    intro fit c g vs hv
    rw [subjectsAt] at hv
    cases vs with
    | nil => exact hv.elim
    | cons v vs =>
      rw [List.sum_cons]
      refine add_nonneg ?_ (ih (fun M hM => hlam M (List.mem_cons_of_mem _ hM)) (fun M hM => hloss M (List.mem_cons_of_mem _ hM)) none _ _ vs hv.2)
      obtain ⟨Ds, ms, as, lam, hnew⟩ := hM.built
      have hMe := new_eq hnew
      refine value_nonneg (M := M.atEntries fit _) rfl (by rw [hMe]; rfl) (regular_nonnegAll _ hM.regular) hM.some_module ?_ (hlam M List.mem_cons_self) (hloss M List.mem_cons_self) hv.1
      refine (sameKind_all (List.forall₂_drop _ (atEntries_kinds M fit _))).trans ?_
      show (Mfd.compound (M.init.drop M.deformables.length)).SameKind (DefModule.compound M.modules).manifold
      rw [hMe]
      dsimp only
      rw [List.drop_left' (by simp)]
      rfl

/-- **C117.** If moreover no loss is negative, the optimiser reports convergence, provided enough
iterations are allowed, with a total that is not larger than at the start. -/
theorem C117_converges {Ms : List (RegModel d G T)} {targets : List T} (hM : FittableAtlas Ms targets) (hlam : ∀ M ∈ Ms, 0 ≤ M.lam)
    (hloss : ∀ M ∈ Ms, ∀ a ∈ M.attachments, ∀ g t u, a.call g t = .ok u → 0 ≤ u) (fit : Option (List Nat)) (s : Solver) (it : Nat) (run : Nat → GDState ℝ ℝ) (v : Nat → ℝ)
    (hrun : ∀ i, ∃ costs Ms', atlasEvaluate none (atlasAt Ms fit (run i).params) targets (.fixed s) it = .ok (costs, v i, Ms')) (hv : Antitone v)
    {tol : Option ℝ} (ht : 0 < tol.getD (1 / 10 ^ 10)) (miniter : Nat) :
    ∃ N, ∀ maxIter ≥ N, ∃ j < maxIter, (torchOptimize (fun i => .fin (v (i + 1))) tol miniter maxIter).2 = .ok ⟨true, .fin (v (j + 1)), .converged⟩ ∧ v (j + 1) ≤ v 0 := by
  have hB : ∀ i, 0 ≤ v (i + 1) := fun i => by
    obtain ⟨costs, Ms', hr⟩ := hrun (i + 1)
    obtain ⟨F, hF, -⟩ := subjects_total (E := ℝ) s it hM.subjects fit (c := fun _ => (run (i + 1)).params.getD 0 []) (g := fun _ => (run (i + 1)).params.getD 1 [])
      (fun e => ⟨⟨_, fun _ => rfl⟩, fun j => contDiffAt_const⟩) (fun e => ⟨⟨_, fun _ => rfl⟩, fun j => contDiffAt_const⟩)
    have h1 : atlasValue (atlasAt Ms fit (run (i + 1)).params) targets (.fixed s) it = .ok (F 0).sum := atlasValue_sum (subjectsAt_ne hM.some_subject _ _) (hF 0)
    unfold atlasValue at h1
    rw [hr] at h1
    have h2 : v (i + 1) = (F 0).sum := Except.ok.inj h1
    rw [h2]
    exact subjects_nonneg s it hM.subjects hlam hloss fit _ _ _ (hF 0)
  obtain ⟨N, hN⟩ := C95_converges (v := fun i => v (i + 1)) (fun i j h => hv (by omega)) hB ht miniter
  refine ⟨N, fun maxIter hmax => ?_⟩
  obtain ⟨j, h1, h2⟩ := hN maxIter hmax
  exact ⟨j, h1, h2, hv (by omega)⟩

/-! ## Without descriptors the subjects do not see each other -/

/-- The gradients of the subjects at their own momenta, each for its own total. -/
def ownGradients (s : SolverName) (it : Nat) : List (RegModel d G T) → List T → List (List ℝ) → List (List ℝ)
  | M :: Ms, t :: ts, p :: ps => (partials (M.totalAt none [t] s it) [p]).flatten :: ownGradients s it Ms ts ps
  | _, _, _ => []

theorem atlasOverwrite_full : (g ys : List ℝ) → ys.length = g.length → overwrite g ys = ys
  | [], [], _ => rfl
  | [], _ :: _, h => by cases h
  | _ :: _, [], h => by cases h
  | a :: g, b :: ys, h => by rw [overwrite, atlasOverwrite_full g ys (by simpa using h)]

theorem gdFill_single {c l : List ℝ} (h : l.length = c.length) : gdFill [c] l = [l] := by
  rw [gdFill, gdFill, atlasOverwrite_full c l h]

/-- The partial derivatives with respect to the entries of a single group. -/
theorem partials_single (f : List (List ℝ) → ℝ) (c : List ℝ) : partials f [c] = [List.ofFn fun i : Fin c.length => deriv (fun u => f [c.set i u]) (c.getD i 0)] := by
  unfold partials
  rw [gdFill_single (by simp)]
  congr 1
  refine List.ext_getElem (by simp) fun i h1 h2 => ?_
  simp only [List.getElem_ofFn, List.flatten_cons, List.flatten_nil, List.append_nil]
  congr 1
  funext u
  rw [gdFill_single (by simp)]
  rfl

theorem atlasTotal_each {s : SolverName} {it : Nat} {Ms : List (RegModel d G T)} {ts : List T} {c vs : List ℝ} (h : EachValue s it (subjectsAt none Ms c []) ts vs) :
    atlasTotal Ms none ts s it [c] = vs.sum := by
  unfold atlasTotal
  rw [show atlasAt Ms none [c] = subjectsAt none Ms c [] from rfl]
  cases Ms with
  | nil =>
    cases ts with
    | nil =>
      cases vs with
      | nil => rfl
      | cons _ _ => exact h.elim
    | cons _ _ => cases vs <;> exact h.elim
  | cons M Ms => rw [atlasValue_sum (subjectsAt_ne (by simp) _ _) h]

/-- The total is that of the first subject at its own momenta and that of the others at theirs. -/
theorem atlasTotal_cons (s : Solver) (it : Nat) {M : RegModel d G T} {t : T} (hM : Fittable M [t]) {Ms : List (RegModel d G T)} {ts : List T}
    (h : List.Forall₂ (fun M t => Fittable M [t]) Ms ts) {p : List ℝ} (hp : p.length = M.momenta.length) (c : List ℝ) :
    atlasTotal (M :: Ms) none (t :: ts) (.fixed s) it [p ++ c] = M.totalAt none [t] (.fixed s) it [p] + atlasTotal Ms none ts (.fixed s) it [c] := by
  obtain ⟨F, hF, -⟩ := subjects_total (E := ℝ) s it h none (c := fun _ => c) (g := fun _ => []) (fun e => ⟨⟨_, fun _ => rfl⟩, fun j => contDiffAt_const⟩) (fun _ => SmList.nil)
  have h1 := (hM.smooth none s it [p]).1
  have h2 : EachValue (.fixed s) it (subjectsAt none (M :: Ms) (p ++ c) []) (t :: ts) (M.totalAt none [t] (.fixed s) it [p] :: F 0) := by
    rw [subjectsAt, List.take_left' hp, List.drop_left' hp]
    exact ⟨h1, hF 0⟩
  rw [atlasTotal_each h2, atlasTotal_each (hF 0), List.sum_cons]

/-- **C117.** Without descriptors among the parameters, the gradient of the atlas consists of the gradients
of the subjects, each taken for its own total at its own momenta. -/
theorem C117_gradient {Ms : List (RegModel d G T)} {targets : List T} (hM : List.Forall₂ (fun M t => Fittable M [t]) Ms targets) (s : Solver) (it : Nat) {ps : List (List ℝ)}
    (hp : List.Forall₂ (fun M p => p.length = (RegModel.momenta M).length) Ms ps) :
    (atlasDescent Ms none targets (.fixed s) it).grad [ps.flatten] = [(ownGradients (.fixed s) it Ms targets ps).flatten] := by
  show partials _ _ = _
  induction hM generalizing ps with
  | nil => cases hp; rw [partials_single]; rfl
  | @cons M t Ms ts hM hMs ih =>
    cases hp with
    | @cons _ p _ ps hp hps =>
      have ih := ih hps
      rw [partials_single] at ih ⊢
      have ih' := (List.cons.inj ih).1
      rw [ownGradients, List.flatten_cons (l := p), List.flatten_cons, ← ih', partials_single, List.flatten_cons, List.flatten_nil, List.append_nil]
      congr 1
      refine List.ext_getElem (by simp) fun i h1 h2 => ?_
      rw [List.length_ofFn, List.length_append] at h1
      rw [List.getElem_ofFn]
      dsimp only
      by_cases hi : i < p.length
      · rw [List.getElem_append_left (by simpa using hi), List.getElem_ofFn]
        dsimp only
        rw [List.getD_append _ _ _ _ hi]
        simp only [List.set_append_left _ _ hi]
        have hs : (fun u => atlasTotal (M :: Ms) none (t :: ts) (.fixed s) it [p.set i u ++ ps.flatten]) =
            fun u => M.totalAt none [t] (.fixed s) it [p.set i u] + atlasTotal Ms none ts (.fixed s) it [ps.flatten] := by
          funext u
          rw [atlasTotal_cons s it hM hMs (by rw [List.length_set, hp])]
        rw [hs, deriv_add_const]
      · have hi' : p.length ≤ i := by omega
        rw [List.getElem_append_right (by simpa using hi'), List.getElem_ofFn]
        simp only [List.length_ofFn]
        rw [List.getD_append_right _ _ _ _ hi']
        simp only [List.set_append_right _ _ hi']
        have hs : (fun u => atlasTotal (M :: Ms) none (t :: ts) (.fixed s) it [p ++ ps.flatten.set (i - p.length) u]) =
            fun u => M.totalAt none [t] (.fixed s) it [p] + atlasTotal Ms none ts (.fixed s) it [ps.flatten.set (i - p.length) u] := by
          funext u
          rw [atlasTotal_cons s it hM hMs hp]
        rw [hs, deriv_const_add]

/-- **C117.** Gradient descent rests on the atlas exactly if it rests on every subject. -/
theorem C117_rests_iff {Ms : List (RegModel d G T)} {targets : List T} (hM : List.Forall₂ (fun M t => Fittable M [t]) Ms targets) (s : Solver) (it : Nat) {ps : List (List ℝ)}
    (hp : List.Forall₂ (fun M p => p.length = (RegModel.momenta M).length) Ms ps) :
    Spec.Vanishes ((atlasDescent Ms none targets (.fixed s) it).grad [ps.flatten]) ↔ ∀ (i : Nat) (M : RegModel d G T) (t : T) (p : List ℝ), Ms[i]? = some M →
      targets[i]? = some t → ps[i]? = some p → Spec.Vanishes ((M.descent none [t] (.fixed s) it).grad [p]) := by
  rw [C117_gradient hM s it hp]
  unfold Spec.Vanishes
  simp only [List.flatten_cons, List.flatten_nil, List.append_nil]
  induction hM generalizing ps with
  | nil => cases hp; simp [ownGradients]
  | @cons M t Ms ts hM hMs ih =>
    cases hp with
    | @cons _ p _ ps hp hps =>
      rw [ownGradients, List.flatten_cons]
      constructor
      · intro h i M' t' p' h1 h2 h3
        cases i with
        | zero => cases h1; cases h2; cases h3; exact fun v hv => h v (List.mem_append_left _ hv)
        | succ i => exact (ih hps).1 (fun v hv => h v (List.mem_append_right _ hv)) i M' t' p' h1 h2 h3
      · intro h v hv
        rcases List.mem_append.1 hv with hv | hv
        · exact h 0 M t p rfl rfl rfl v hv
        · exact (ih hps).2 (fun i M' t' p' h1 h2 h3 => h (i + 1) M' t' p' h1 h2 h3) v hv

/-- **C117.** At parameters of the atlas that cannot be improved nearby the gradient vanishes, and a step
of gradient descent ends with its first trial and changes nothing. -/
theorem C117_minimum {Ms : List (RegModel d G T)} {targets : List T} (hM : FittableAtlas Ms targets) (fit : Option (List Nat)) (s : Solver) (it : Nat) (cf : GDConf ℝ)
    {y : List (List ℝ)} {steps : List ℝ} (ho : cf.opts.length = y.length) (hl : steps.length = y.length) (hmin : Spec.LocalMin (atlasTotal Ms fit targets (.fixed s) it) y) :
    Spec.Vanishes ((atlasDescent Ms fit targets (.fixed s) it).grad y) ∧ ∀ fuel, gdStep (atlasDescent Ms fit targets (.fixed s) it) cf (fuel + 1) ⟨y, steps⟩ = some ⟨y, steps⟩ := by
  obtain ⟨h1, h2⟩ := hM.smooth fit s it y
  have hsh : SameShape (partials (atlasTotal Ms fit targets (.fixed s) it) y) y := gdFill_shape _ _
  have hz : Spec.Vanishes ((atlasDescent Ms fit targets (.fixed s) it).grad y) := C113_minimum hsh h2 hmin
  refine ⟨hz, fun fuel => C113_rests (v := atlasTotal Ms fit targets (.fixed s) it y) ⟨ho, hl, hsh⟩ ?_ hz fuel⟩
  unfold atlasDescent
  dsimp only
  rw [h1]

/-! ## Cases -/

theorem exampleSubject (t : Vec 2) : ∃ M : RegModel 2 (Points 2) (Vec 2), RegModel.new [exampleLandmark] [exampleTranslation] [exampleSquares] none 3 .sum = .ok M ∧ Fittable M [t] ∧
    0 ≤ M.lam ∧ (∀ a ∈ M.attachments, ∀ g t u, a.call g t = .ok u → 0 ≤ u) := by
  obtain ⟨M, hM⟩ : ∃ M, RegModel.new [exampleLandmark] [exampleTranslation] [exampleSquares] none 3 .sum = .ok M := ⟨_, rfl⟩
  have hMe := new_eq hM
  refine ⟨M, hM, ?_, by rw [hMe]; norm_num, ?_⟩
  · refine ⟨⟨_, _, _, _, hM⟩, ?_, ⟨exampleLandmark, ?_, by simp [exampleLandmark]⟩, ?_, ?_, ?_, ?_⟩
    all_goals rw [hMe]
    · simp [exampleLandmark]
    · exact List.mem_cons_self ..
    · simp [DefModule.AllRegular, DefModule.Regular, exampleTranslation]
    · simp
    · intro m hm
      simp only [exampleTranslation, DefModule.manifolds, DefModule.manifold, Implicit0.manifold, List.mem_cons, List.not_mem_nil, or_false] at hm
      subst hm; exact Or.inr rfl
    · refine ⟨fun x => ⟨fun x => 1 * ∑ i, ∑ c, (x i c - t c) ^ 2, ?_, Eventually.of_forall fun x => rfl⟩, trivial⟩
      fun_prop
  · rw [hMe]
    intro a ha g t u hu
    rw [List.mem_singleton.1 ha] at hu
    cases hu
    show 0 ≤ 1 * ∑ i, ∑ c, (g.x i c - t c) ^ 2
    positivity

/-- Two copies of a landmark with different targets, the momenta of both and the position of the first
being fitted with the default settings of the optimiser. -/
example (t t' : Vec 2) (s : Solver) (it : Nat) : ∃ Ms : List (RegModel 2 (Points 2) (Vec 2)), Ms.length = 2 ∧ FittableAtlas Ms [t, t'] ∧
    ∃ (run : Nat → GDState ℝ ℝ) (v : Nat → ℝ), (run 0).params = atlasEntries Ms (some [2, 3]) ∧ Antitone v ∧
      (∀ i, ∃ bound, ∀ fuel ≥ bound, gdStep (atlasDescent Ms (some [2, 3]) [t, t'] (.fixed s) it) ⟨1 / 5, 13 / 10, [⟨none, none, none⟩, ⟨none, none, none⟩]⟩ fuel (run i) = some (run (i + 1))) ∧
      ∃ N, ∀ maxIter ≥ N, ∃ j < maxIter, (torchOptimize (fun i => .fin (v (i + 1))) none 0 maxIter).2 = .ok ⟨true, .fin (v (j + 1)), .converged⟩ ∧ v (j + 1) ≤ v 0 := by
  obtain ⟨M, -, hM, hl, ha⟩ := exampleSubject t
  obtain ⟨M', -, hM', hl', ha'⟩ := exampleSubject t'
  have hF : FittableAtlas [M, M'] [t, t'] := ⟨by simp, .cons hM (.cons hM' .nil)⟩
  obtain ⟨run, v, h1, h2, h3⟩ := C117_fit hF (some [2, 3]) s it ⟨1 / 5, 13 / 10, [⟨none, none, none⟩, ⟨none, none, none⟩]⟩ 1 rfl (by simp [gdInitSteps]) (by simp; norm_num)
  refine ⟨[M, M'], rfl, hF, run, v, by rw [h1], h2, fun i => (h3 i).2.2, C117_converges hF ?_ ?_ _ s it run v (fun i => (h3 i).2.1) h2 (by norm_num) 0⟩
  · simp [hl, hl']
  · intro N hN
    simp only [List.mem_cons, List.not_mem_nil, or_false] at hN
    rcases hN with rfl | rfl
    · exact ha
    · exact ha'

/-- The gradients of the two subjects when only momenta are fitted: four entries each. -/
example (t t' : Vec 2) (s : Solver) (it : Nat) (a b c e : ℝ) (a' b' c' e' : ℝ) : ∃ M M' : RegModel 2 (Points 2) (Vec 2),
    (atlasDescent [M, M'] none [t, t'] (.fixed s) it).grad [[a, b, c, e, a', b', c', e']] =
      [(partials (M.totalAt none [t] (.fixed s) it) [[a, b, c, e]]).flatten ++ (partials (M'.totalAt none [t'] (.fixed s) it) [[a', b', c', e']]).flatten] := by
  obtain ⟨M, hN, hM, -⟩ := exampleSubject t
  obtain ⟨M', hN', hM', -⟩ := exampleSubject t'
  have hlen : ∀ N : RegModel 2 (Points 2) (Vec 2), RegModel.new [exampleLandmark] [exampleTranslation] [exampleSquares] none 3 .sum = .ok N → N.momenta.length = 4 := fun N hN => by
    cases hN; rfl
  have := C117_gradient (.cons hM (.cons hM' .nil)) s it (ps := [[a, b, c, e], [a', b', c', e']]) (.cons (by rw [hlen M hN]; rfl) (.cons (by rw [hlen M' hN']; rfl) .nil))
  simp only [ownGradients, List.flatten_cons, List.flatten_nil, List.append_nil] at this
  exact ⟨M, M', this⟩

end
end Imodal
