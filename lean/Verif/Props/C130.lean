import Verif.Model.Fitter
/-!
# C130: a fitter fits the model it was given, counts its iterations and calls the callback

A fitter whose optimiser is chosen by name, or left out, only ever evaluates its own model. The
numbers it prints count the iterations since it was made or reset, over as many fits as there are.

Two things do not hold: an optimiser that is handed over goes on with the model it was made for, and
the callback of the caller never runs.
-/
set_option autoImplicit false
namespace Imodal
variable {M K : Type}

namespace Spec

/-- The models that were evaluated. -/
def evaluatedModels : List (FitSeen M K) → List M
  | [] => []
  | .evaluated m :: l => m :: evaluatedModels l
  | _ :: l => evaluatedModels l

/-- The numbers that were printed. -/
def printedNumbers : List (FitSeen M K) → List Nat
  | [] => []
  | .iteration n :: l => n :: printedNumbers l
  | _ :: l => printedNumbers l

/-- How often a callback of the caller ran. -/
def callbackCount : List (FitSeen M K) → Nat
  | [] => 0
  | .called _ :: l => callbackCount l + 1
  | _ :: l => callbackCount l

/-- How often the optimiser was reset. -/
def resetCount : List (FitSeen M K) → Nat
  | [] => 0
  | .optimizerReset :: l => resetCount l + 1
  | _ :: l => resetCount l

/-- All iterations of some fits, one after the other, each with whether it is displayed. -/
def displayed (runs : List FitRun) : List Bool := runs.flatMap fun r => List.replicate r.iterations.length r.disp

/-- The numbers of the entries that are `true`, counted from zero. -/
def numbersOf (l : List Bool) : List Nat := l.zipIdx.filterMap fun e => if e.1 then some e.2 else none

end Spec

theorem evaluated_append (l l' : List (FitSeen M K)) : Spec.evaluatedModels (l ++ l') = Spec.evaluatedModels l ++ Spec.evaluatedModels l' := by
  induction l with
  | nil => rfl
  | cons e l ih => cases e <;> simp [Spec.evaluatedModels, ih]

theorem printed_append (l l' : List (FitSeen M K)) : Spec.printedNumbers (l ++ l') = Spec.printedNumbers l ++ Spec.printedNumbers l' := by
  induction l with
  | nil => rfl
  | cons e l ih => cases e <;> simp [Spec.printedNumbers, ih]

theorem callback_append (l l' : List (FitSeen M K)) : Spec.callbackCount (l ++ l') = Spec.callbackCount l + Spec.callbackCount l' := by
  induction l with
  | nil => simp [Spec.callbackCount]
  | cons e l ih => cases e <;> simp [Spec.callbackCount, ih] <;> omega

theorem resets_append (l l' : List (FitSeen M K)) : Spec.resetCount (l ++ l') = Spec.resetCount l + Spec.resetCount l' := by
  induction l with
  | nil => simp [Spec.resetCount]
  | cons e l ih => cases e <;> simp [Spec.resetCount, ih] <;> omega

theorem seen_replicate (m : M) (n : Nat) : Spec.evaluatedModels (List.replicate n (FitSeen.evaluated (K := K) m)) = List.replicate n m ∧
    Spec.printedNumbers (List.replicate n (FitSeen.evaluated (K := K) m)) = [] ∧
    Spec.callbackCount (List.replicate n (FitSeen.evaluated (K := K) m)) = 0 ∧
    Spec.resetCount (List.replicate n (FitSeen.evaluated (K := K) m)) = 0 := by
  induction n with
  | zero => exact ⟨rfl, rfl, rfl, rfl⟩
  | succ n ih => simp [List.replicate_succ, Spec.evaluatedModels, Spec.printedNumbers, Spec.callbackCount, Spec.resetCount, ih]

/-! ## One fit -/

variable (hasModules : M → Bool)

/-- What an iteration shows, and what it leaves. -/
theorem onIteration_seen (disp : Bool) (f : Fitter M K) :
    let r := f.onIteration hasModules disp
    r.2.1.model = f.model ∧ r.2.1.optimizer = f.optimizer ∧ r.2.1.callback = f.callback ∧ Spec.evaluatedModels r.2.2 = [] ∧
    Spec.callbackCount r.2.2 = 0 ∧ Spec.resetCount r.2.2 = 0 := by
  unfold Fitter.onIteration
  cases disp <;> cases h : hasModules f.optimizer.model <;> simp [Spec.evaluatedModels, Spec.callbackCount, Spec.resetCount]

theorem iterate_seen (run : FitRun) : ∀ (ns : List Nat) (f : Fitter M K),
    let r := f.iterate hasModules run ns
    r.2.1.model = f.model ∧ r.2.1.optimizer = f.optimizer ∧ (∀ m ∈ Spec.evaluatedModels r.2.2, m = f.optimizer.model) ∧
    Spec.callbackCount r.2.2 = 0 ∧ Spec.resetCount r.2.2 = 0
  | [], f => by
    obtain ⟨h1, h2, h3, h4⟩ := seen_replicate (K := K) f.optimizer.model run.after
    refine ⟨rfl, rfl, ?_, h3, h4⟩
    intro m hm
    change m ∈ Spec.evaluatedModels (List.replicate _ _) at hm
    rw [h1] at hm
    exact List.eq_of_mem_replicate hm
  | n :: ns, f => by
    obtain ⟨h1, h2, h3, h4⟩ := seen_replicate (K := K) f.optimizer.model n
    obtain ⟨g1, g2, -, g3, g4, g5⟩ := onIteration_seen hasModules run.disp f
    intro r
    rcases hi : f.onIteration hasModules run.disp with ⟨e | _, f', l⟩
    · rw [hi] at g1 g2 g3 g4 g5
      have hr : r = (.error e, f', List.replicate n (FitSeen.evaluated f.optimizer.model) ++ l) := by
        change Fitter.iterate hasModules run (n :: ns) f = _
        rw [Fitter.iterate, hi]
      rw [hr]
      refine ⟨g1, g2, ?_, ?_, ?_⟩
      · intro m hm
        dsimp only at hm
        rw [evaluated_append, h1, g3, List.append_nil] at hm
        exact List.eq_of_mem_replicate hm
      · dsimp only; rw [callback_append, h3, g4]
      · dsimp only; rw [resets_append, h4, g5]
    · rw [hi] at g1 g2 g3 g4 g5
      obtain ⟨k1, k2, k3, k4, k5⟩ := iterate_seen run ns f'
      have hr : r = ((f'.iterate hasModules run ns).1, (f'.iterate hasModules run ns).2.1,
          List.replicate n (FitSeen.evaluated f.optimizer.model) ++ l ++ (f'.iterate hasModules run ns).2.2) := by
        change Fitter.iterate hasModules run (n :: ns) f = _
        rw [Fitter.iterate, hi]
      rw [hr]
      refine ⟨k1.trans g1, k2.trans g2, ?_, ?_, ?_⟩
      · intro m hm
        dsimp only at hm
        rw [evaluated_append, evaluated_append, h1, g3, List.append_nil] at hm
        rcases List.mem_append.1 hm with h | h
        · exact List.eq_of_mem_replicate h
        · rw [k3 m h]
          exact congrArg _ g2
      · dsimp only; rw [callback_append, callback_append, h3, g4, k4]
      · dsimp only; rw [resets_append, resets_append, h4, g5, k5]

/-- Whether a fit evaluates the model first. -/
theorem fit_cases (run : FitRun) (f : Fitter M K) :
    let begun : List (FitSeen M K) := if run.costs || run.disp then [.evaluated f.model] else []
    (∃ e, f.fit hasModules run = (.error e, f, begun)) ∨
    f.fit hasModules run = ((f.iterate hasModules run run.iterations).1, (f.iterate hasModules run run.iterations).2.1,
      begun ++ (f.iterate hasModules run run.iterations).2.2) := by
  intro begun
  unfold Fitter.fit
  dsimp only
  cases (if (run.costs || run.disp) = true then run.first else .ok ()) with
  | error e => exact Or.inl ⟨e, rfl⟩
  | ok u =>
    dsimp only
    cases bindCall f.optimizer.params 7 ["miniter", "options"] with
    | error e => exact Or.inl ⟨e, rfl⟩
    | ok u => exact Or.inr rfl

theorem begun_seen (b : Bool) (m : M) :
    (∀ x ∈ Spec.evaluatedModels (if b then [FitSeen.evaluated (K := K) m] else []), x = m) ∧
    Spec.printedNumbers (if b then [FitSeen.evaluated (K := K) m] else []) = [] ∧
    Spec.callbackCount (if b then [FitSeen.evaluated (K := K) m] else []) = 0 ∧
    Spec.resetCount (if b then [FitSeen.evaluated (K := K) m] else []) = 0 := by
  cases b <;> simp [Spec.evaluatedModels, Spec.printedNumbers, Spec.callbackCount, Spec.resetCount]

theorem fit_seen (run : FitRun) (f : Fitter M K) :
    let r := f.fit hasModules run
    r.2.1.model = f.model ∧ r.2.1.optimizer = f.optimizer ∧
    (∀ m ∈ Spec.evaluatedModels r.2.2, m = f.optimizer.model ∨ ((run.costs || run.disp) = true ∧ m = f.model)) ∧
    Spec.callbackCount r.2.2 = 0 ∧ Spec.resetCount r.2.2 = 0 := by
  have hb : ∀ m ∈ Spec.evaluatedModels (if run.costs || run.disp then [FitSeen.evaluated (K := K) f.model] else []),
      (run.costs || run.disp) = true ∧ m = f.model := by
    cases hc : run.costs || run.disp <;> simp [Spec.evaluatedModels]
  obtain ⟨-, -, b3, b4⟩ := begun_seen (K := K) (run.costs || run.disp) f.model
  obtain ⟨i1, i2, i3, i4, i5⟩ := iterate_seen hasModules run run.iterations f
  intro r
  rcases fit_cases hasModules run f with ⟨e, h⟩ | h
  · have hr : r = _ := h
    rw [hr]
    exact ⟨rfl, rfl, fun m hm => Or.inr (hb m hm), b3, b4⟩
  · have hr : r = _ := h
    rw [hr]
    refine ⟨i1, i2, ?_, ?_, ?_⟩
    · intro m hm
      dsimp only at hm
      rw [evaluated_append] at hm
      rcases List.mem_append.1 hm with h | h
      · exact Or.inr (hb m h)
      · exact Or.inl (i3 m h)
    · dsimp only; rw [callback_append, b3, i4]
    · dsimp only; rw [resets_append, b4, i5]

/-! ## Histories -/

theorem calls_seen (cs : List FitterCall) : ∀ (f : Fitter M K),
    let r := f.calls hasModules cs
    r.1.model = f.model ∧ r.1.optimizer = f.optimizer ∧ (∀ m ∈ Spec.evaluatedModels r.2, m = f.optimizer.model ∨ m = f.model) ∧
    Spec.callbackCount r.2 = 0 ∧ Spec.resetCount r.2 = cs.countP fun c => match c with | .reset => true | .fit _ => false := by
  induction cs with
  | nil => intro f; exact ⟨rfl, rfl, by simp [Fitter.calls, Spec.evaluatedModels], rfl, rfl⟩
  | cons c cs ih =>
    intro f
    cases c with
    | fit run =>
      obtain ⟨h1, h2, h3, h4, h5⟩ := fit_seen hasModules run f
      obtain ⟨k1, k2, k3, k4, k5⟩ := ih (f.fit hasModules run).2.1
      refine ⟨k1.trans h1, k2.trans h2, ?_, ?_, ?_⟩
      · intro m hm
        simp only [Fitter.calls, evaluated_append] at hm
        rcases List.mem_append.1 hm with h | h
        · exact (h3 m h).imp_right And.right
        · have := k3 m h
          rwa [h1, h2] at this
      · simp only [Fitter.calls, callback_append, h4, k4]
      · simp only [Fitter.calls, resets_append, h5, k5]
        simp
    | reset =>
      obtain ⟨k1, k2, k3, k4, k5⟩ := ih f.reset.1
      refine ⟨k1, k2, ?_, ?_, ?_⟩
      · intro m hm
        simp only [Fitter.calls, Fitter.reset, List.cons_append, List.nil_append, Spec.evaluatedModels] at hm
        exact k3 m hm
      · simp only [Fitter.calls, Fitter.reset, List.cons_append, List.nil_append, Spec.callbackCount]
        exact k4
      · simp only [Fitter.calls, Fitter.reset, List.cons_append, List.nil_append, Spec.resetCount]
        rw [List.countP_cons_of_pos rfl]
        exact congrArg (· + 1) k5

/-- **C130.** A fitter made for a model, with the optimiser chosen by name or left out, only evaluates that
model, in whatever fits and resets follow and however they end. Every registered builder must make an
optimiser for the model it is called with. -/
theorem C130_own_model_partial (r : OptRegistry M (FitterOpt M)) (hr : ∀ s m o, r.create s m = .ok o → o.model = m) (model : M)
    (arg : OptArg M) (harg : ∀ o, arg ≠ .object o) (callback : Option K) (f : Fitter M K) (l : List (FitSeen M K))
    (hf : Fitter.new r model arg callback = .ok (f, l)) (cs : List FitterCall) :
    ∀ m ∈ Spec.evaluatedModels (l ++ (f.calls hasModules cs).2), m = model := by
  have key : ∃ o : FitterOpt M, o.model = model ∧ f = ⟨model, o, callback, 0⟩ ∧ l = [.optimizerReset] := by
    cases arg with
    | object o => exact absurd rfl (harg o)
    | name s =>
      simp only [Fitter.new] at hf
      cases h : r.create s model with
      | error e => rw [h] at hf; simp at hf
      | ok o =>
        rw [h] at hf
        simp only [Fitter.reset, Except.ok.injEq, Prod.mk.injEq] at hf
        exact ⟨o, hr _ _ _ h, hf.1.symm, hf.2.symm⟩
    | default =>
      simp only [Fitter.new] at hf
      cases h : r.create r.getDefault model with
      | error e => rw [h] at hf; simp at hf
      | ok o =>
        rw [h] at hf
        simp only [Fitter.reset, Except.ok.injEq, Prod.mk.injEq] at hf
        exact ⟨o, hr _ _ _ h, hf.1.symm, hf.2.symm⟩
  obtain ⟨o, ho, rfl, rfl⟩ := key
  intro m hm
  simp only [List.cons_append, List.nil_append, Spec.evaluatedModels] at hm
  rcases (calls_seen hasModules cs _).2.2.1 m hm with h | h
  · exact h.trans ho
  · exact h

/-- The builders registered on import do so. -/
theorem standard_builders (s : String) (m : M) (o : FitterOpt M) (h : standardRegistry.create s m = .ok o) : o.model = m := by
  unfold OptRegistry.create at h
  split_ifs at h
  cases hg : (standardRegistry (M := M)).optimizers.get? s with
  | none => rw [hg] at h; simp at h
  | some b =>
    rw [hg] at h
    dsimp only at h
    unfold Dict.get? at hg
    simp only [Option.map_eq_some_iff] at hg
    obtain ⟨e, he, rfl⟩ := hg
    have hmem := List.mem_of_find?_eq_some he
    obtain ⟨e', -, rfl⟩ := List.mem_map.1 hmem
    simp only [Except.ok.injEq] at h
    rw [← h]

/-- **C130.** So with the optimisers that come with the package only the given model is evaluated, and a
fitter can be made with each of their names and without one. -/
theorem C130_standard (model : M) (callback : Option K) (arg : OptArg M)
    (harg : arg = .default ∨ ∃ s ∈ ["scipy_nelder-mead", "scipy_powell", "scipy_cg", "scipy_bfgs", "scipy_newton-cg", "scipy_l-bfgs-b",
      "torch_sgd", "torch_lbfgs", "gd"], arg = .name s) :
    ∃ f l, Fitter.new standardRegistry model arg callback = .ok (f, l) ∧
      ∀ cs, ∀ m ∈ Spec.evaluatedModels (l ++ (f.calls hasModules cs).2), m = model := by
  have hne : ∀ o, arg ≠ .object o := by
    intro o ho
    rcases harg with h | ⟨s, -, h⟩ <;> rw [ho] at h <;> cases h
  have hex : ∃ f l, Fitter.new (K := K) standardRegistry model arg callback = .ok (f, l) := by
    rcases harg with rfl | ⟨s, hs, rfl⟩
    · exact ⟨_, _, rfl⟩
    · simp only [List.mem_cons, List.not_mem_nil, or_false] at hs
      rcases hs with rfl | rfl | rfl | rfl | rfl | rfl | rfl | rfl | rfl <;> exact ⟨_, _, rfl⟩
  obtain ⟨f, l, h⟩ := hex
  exact ⟨f, l, h, C130_own_model_partial hasModules standardRegistry standard_builders model arg hne callback f l h⟩

/-- **C130, where the code disagrees.** An optimiser that is handed over is taken as it is. Its iterations
evaluate the model it was made for; the model of the fitter is evaluated at most once in a fit, before
the first iteration, and not at all without costs and display. -/
theorem C130_other_model_disagreement (r : OptRegistry M (FitterOpt M)) (model : M) (o : FitterOpt M) (callback : Option K)
    (run : FitRun) (hrun : run.costs = false ∧ run.disp = false) (hb : bindCall o.params 7 ["miniter", "options"] = .ok ())
    (hne : o.model ≠ model) :
    ∃ f l, Fitter.new r model (.object o) callback = .ok (f, l) ∧
      Spec.evaluatedModels (f.fit hasModules run).2.2 = List.replicate (run.iterations.sum + run.after) o.model ∧
      model ∉ Spec.evaluatedModels (f.fit hasModules run).2.2 := by
  have key : ∀ (ns : List Nat) (f : Fitter M K), Spec.evaluatedModels (f.iterate hasModules run ns).2.2 =
      List.replicate (ns.sum + run.after) f.optimizer.model := by
    intro ns
    induction ns with
    | nil => intro f; simpa [Fitter.iterate] using (seen_replicate (K := K) f.optimizer.model run.after).1
    | cons n ns ih =>
      intro f
      have hi : f.onIteration hasModules run.disp = (.ok (), { f with it := f.it + 1 }, []) := by
        simp [Fitter.onIteration, hrun.2]
      rw [Fitter.iterate, hi]
      dsimp only
      rw [evaluated_append, evaluated_append, (seen_replicate (K := K) f.optimizer.model n).1, ih]
      simp [Spec.evaluatedModels, List.replicate_append_replicate, Nat.add_assoc]
  refine ⟨⟨model, o, callback, 0⟩, [.optimizerReset], rfl, ?_⟩
  have h : Spec.evaluatedModels (Fitter.fit (K := K) hasModules run ⟨model, o, callback, 0⟩).2.2 =
      List.replicate (run.iterations.sum + run.after) o.model := by
    simp only [Fitter.fit, hrun.1, hrun.2, hb]
    exact key run.iterations _
  refine ⟨h, ?_⟩
  rw [h]
  intro hm
  exact hne (List.eq_of_mem_replicate hm).symm

/-- **C130, where the code disagrees.** The callback given to a fitter never runs, in no fit and however
many iterations there are. -/
theorem C130_callback_disagreement (f : Fitter M K) (cs : List FitterCall) : Spec.callbackCount (f.calls hasModules cs).2 = 0 :=
  (calls_seen hasModules cs f).2.2.2.1

/-- **C130.** The optimiser is reset once when the fitter is made and once for every reset, by nothing else. -/
theorem C130_resets (r : OptRegistry M (FitterOpt M)) (model : M) (arg : OptArg M) (callback : Option K) (f : Fitter M K)
    (l : List (FitSeen M K)) (hf : Fitter.new r model arg callback = .ok (f, l)) (cs : List FitterCall) :
    Spec.resetCount (l ++ (f.calls hasModules cs).2) = 1 + cs.countP fun c => match c with | .reset => true | .fit _ => false := by
  have hl : l = [.optimizerReset] := by
    simp only [Fitter.new] at hf
    split at hf
    · simp at hf
    · simp only [Fitter.reset, Except.ok.injEq, Prod.mk.injEq] at hf
      exact hf.2.symm
  rw [resets_append, (calls_seen hasModules cs f).2.2.2.2, hl]
  rfl

/-! ## The printed numbers -/

theorem iterate_numbers (run : FitRun) : ∀ (ns : List Nat) (f : Fitter M K), (run.disp = true → hasModules f.optimizer.model = true) →
    (f.iterate hasModules run ns).2.1 = { f with it := f.it + ns.length } ∧
    Spec.printedNumbers (f.iterate hasModules run ns).2.2 = if run.disp then List.range' f.it ns.length else []
  | [], f, _ => by
    refine ⟨rfl, ?_⟩
    simpa [Fitter.iterate] using (seen_replicate (K := K) f.optimizer.model run.after).2.1
  | n :: ns, f, h => by
    have hi : f.onIteration hasModules run.disp = (.ok (), { f with it := f.it + 1 }, if run.disp then [.iteration f.it] else []) := by
      unfold Fitter.onIteration
      cases hd : run.disp with
      | false => simp
      | true => simp [h hd]
    obtain ⟨k1, k2⟩ := iterate_numbers run ns { f with it := f.it + 1 } h
    rw [Fitter.iterate, hi]
    dsimp only
    refine ⟨?_, ?_⟩
    · rw [k1]
      simp [Nat.add_assoc, Nat.add_comm 1]
    · rw [printed_append, printed_append, (seen_replicate (K := K) f.optimizer.model n).2.1, k2]
      cases run.disp <;> simp [Spec.printedNumbers, List.range'_succ]

theorem numbers_from (b : Bool) (k : Nat) : ∀ n, ((List.replicate k b).zipIdx n).filterMap (fun e => if e.1 then some e.2 else none) =
    if b then List.range' n k else [] := by
  induction k with
  | zero => intro n; simp
  | succ k ih =>
    intro n
    rw [List.replicate_succ, List.zipIdx_cons, List.filterMap_cons, ih]
    cases b <;> simp [List.range'_succ]

theorem calls_numbers (runs : List FitRun) : ∀ (f : Fitter M K),
    (∀ run ∈ runs, run.disp = true → hasModules f.optimizer.model = true) → (∀ run ∈ runs, run.first = .ok ()) →
    bindCall f.optimizer.params 7 ["miniter", "options"] = .ok () →
    Spec.printedNumbers (f.calls hasModules (runs.map .fit)).2 =
      ((Spec.displayed runs).zipIdx f.it).filterMap fun e => if e.1 then some e.2 else none := by
  induction runs with
  | nil => intro f _ _ _; rfl
  | cons run runs ih =>
    intro f hm hfst hb
    obtain ⟨k1, k2⟩ := iterate_numbers hasModules run run.iterations f (hm run List.mem_cons_self)
    have hfit : f.fit hasModules run = ((f.iterate hasModules run run.iterations).1, (f.iterate hasModules run run.iterations).2.1,
        (if run.costs || run.disp then [.evaluated f.model] else []) ++ (f.iterate hasModules run run.iterations).2.2) := by
      unfold Fitter.fit
      dsimp only
      rw [hfst run List.mem_cons_self, ite_self, hb]
    have ht := ih { f with it := f.it + run.iterations.length } (fun r h => hm r (List.mem_cons_of_mem _ h))
      (fun r h => hfst r (List.mem_cons_of_mem _ h)) hb
    simp only [List.map_cons, Fitter.calls, hfit, k1, printed_append, (begun_seen (K := K) (run.costs || run.disp) f.model).2.1, k2, ht,
      List.nil_append]
    simp only [Spec.displayed, List.flatMap_cons, List.zipIdx_append, List.filterMap_append, List.length_replicate]
    rw [numbers_from]

/-- **C130.** After a reset, the numbers printed by any fits that follow count all iterations of these fits from
zero, those of fits without display too. The fits may end with an exception; the optimiser must take
`miniter` (C44), and a model that is displayed must have deformation modules (C44). -/
theorem C130_numbers (f : Fitter M K) (runs : List FitRun)
    (hm : ∀ run ∈ runs, run.disp = true → hasModules f.optimizer.model = true) (hfst : ∀ run ∈ runs, run.first = .ok ())
    (hb : bindCall f.optimizer.params 7 ["miniter", "options"] = .ok ()) :
    Spec.printedNumbers (f.calls hasModules (.reset :: runs.map .fit)).2 = Spec.numbersOf (Spec.displayed runs) := by
  have h := calls_numbers hasModules runs f.reset.1 hm hfst hb
  simp only [Fitter.calls, Fitter.reset, List.cons_append, List.nil_append, Spec.printedNumbers]
  exact h

/-! ## Concrete cases -/

/-- Two fits: three iterations without display, then two with it. -/
def twoFits : List FitRun := [⟨false, false, .ok (), [1, 1, 2], 0, .ok ()⟩, ⟨true, true, .ok (), [1, 4], 1, .error .value⟩]

example : Spec.numbersOf (Spec.displayed twoFits) = [3, 4] := by decide

example : bindCall torchParams 7 ["miniter", "options"] = .ok () := by rfl

example : Spec.printedNumbers (Fitter.calls (fun _ => true) (.reset :: twoFits.map .fit) (⟨0, ⟨0, torchParams⟩, none, 7⟩ : Fitter Nat Unit)).2 = [3, 4] :=
  C130_numbers _ _ _ (by simp) (by simp [twoFits]) rfl

/-- A registry with one builder, which makes optimisers for the model it is given. -/
def oneBuilder : OptRegistry Nat (FitterOpt Nat) := ⟨[("gd", fun m => .ok ⟨m, torchParams⟩)], "gd"⟩

example : ∀ s m o, oneBuilder.create s m = .ok o → o.model = m := by
  intro s m o h
  unfold OptRegistry.create at h
  split_ifs at h with hv
  have hs : s = "gd" := by simpa [OptRegistry.isValid, oneBuilder, Dict.keys] using hv
  subst hs
  simp [oneBuilder, Dict.get?] at h
  rw [← h]

end Imodal
