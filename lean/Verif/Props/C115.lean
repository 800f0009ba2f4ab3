import Verif.Spec.FitCtrl
import Verif.Props.C108
import Verif.Props.C109
import Verif.Props.C113
import Verif.Props.C90
/-!
# C115: fitting learned controls by gradient descent
-/
set_option autoImplicit false
namespace Imodal
noncomputable section
open Filter Topology
variable {d : Nat} {G T : Type}

/-! ## The controls as numbers -/

theorem refill_fits {m : DefModule d} {c : Ctrl d} (off : Nat) (x : Row) (h : m.Fits c) : m.Fits (c.refill off x) := by
  cases m with
  | compound ms =>
    rw [DefModule.Fits] at h ⊢
    obtain ⟨cs, rfl, h⟩ := h
    exact ⟨cs, rfl, h⟩
  | silent s => rw [DefModule.Fits]; trivial
  | _ =>
    rw [DefModule.Fits] at h ⊢
    obtain ⟨h, rfl⟩ := h
    exact ⟨_, rfl⟩

theorem ctrlsAt_fits (x : Row) : {ms : List (DefModule d)} → {cs : List (Ctrl d)} → (off : Nat) → List.Forall₂ DefModule.Fits ms cs →
    List.Forall₂ DefModule.Fits ms ((ctrlsAt off cs).map fun c => c x)
  | [], _, _, h => by cases h; exact .nil
  | m :: ms, _, off, h => by
    cases h with
    | cons h1 h2 => exact .cons (refill_fits off x h1) (ctrlsAt_fits x _ h2)

theorem listsAt_fits (x : Row) {ms : List (DefModule d)} : {css : List (List (Ctrl d))} → (off : Nat) → (∀ l ∈ css, List.Forall₂ DefModule.Fits ms l) →
    ∀ l ∈ listsAt off css, List.Forall₂ DefModule.Fits ms (l.map fun c => c x)
  | [], _, _, l, hl => by cases hl
  | c :: css, off, h, l, hl => by
    rw [listsAt, List.mem_cons] at hl
    rcases hl with rfl | hl
    · exact ctrlsAt_fits x off (h c List.mem_cons_self)
    · exact listsAt_fits x _ (fun l hl => h l (List.mem_cons_of_mem _ hl)) l hl

theorem length_listsAt : (css : List (List (Ctrl d))) → (off : Nat) → (listsAt off css).length = css.length
  | [], _ => rfl
  | l :: css, off => by rw [listsAt, List.length_cons, length_listsAt css, List.length_cons]

/-- The controls are tensors. -/
def Ctrl.IsTensor : Ctrl d → Prop
  | .list _ => False
  | _ => True

section
variable {E : Type} [NormedAddCommGroup E] [NormedSpace ℝ E] {n : WithTop ℕ∞} {e₀ : E}

theorem refill_smooth {x : E → Row} (hx : SmRow n e₀ x) (off : Nat) : {c : Ctrl d} → c.IsTensor → SmCtrl n e₀ fun e => c.refill off (x e)
  | .vecs _, _ => .vecs _ fun _ _ => hx _
  | .scalars _, _ => .scalars _ fun _ => hx _
  | .scalar _, _ => .scalar _ (hx _)
  | .vec _, _ => .vec _ fun _ => hx _
  | .none, _ => .none
  | .list _, h => h.elim

theorem ctrlsAt_smooth {x : E → Row} (hx : SmRow n e₀ x) : {cs : List (Ctrl d)} → (off : Nat) → (∀ c ∈ cs, c.IsTensor) → ∀ c ∈ ctrlsAt off cs, SmCtrl n e₀ fun e => c (x e)
  | [], _, _, c, hc => by cases hc
  | c' :: cs, off, h, c, hc => by
    rw [ctrlsAt, List.mem_cons] at hc
    rcases hc with rfl | hc
    · exact refill_smooth hx off (h c' List.mem_cons_self)
    · exact ctrlsAt_smooth hx _ (fun c hc => h c (List.mem_cons_of_mem _ hc)) c hc

theorem listsAt_smooth {x : E → Row} (hx : SmRow n e₀ x) : {css : List (List (Ctrl d))} → (off : Nat) → (∀ l ∈ css, ∀ c ∈ l, c.IsTensor) →
    ∀ l ∈ listsAt off css, ∀ c ∈ l, SmCtrl n e₀ fun e => c (x e)
  | [], _, _, l, hl => by cases hl
  | l' :: css, off, h, l, hl => by
    rw [listsAt, List.mem_cons] at hl
    rcases hl with rfl | hl
    · exact ctrlsAt_smooth hx off (h l' List.mem_cons_self)
    · exact listsAt_smooth hx _ (fun l hl => h l (List.mem_cons_of_mem _ hl)) l hl

end

theorem refill_self {x : Row} {off : Nat} : {c : Ctrl d} → Starts x off c.entries → c.refill off x = c
  | .vecs h, hs => by rw [Ctrl.refill, view_of_starts hs]
  | .scalars h, hs => by
    rw [Ctrl.refill]
    congr 1
    funext i
    have := hs i (by simp [Ctrl.entries])
    simpa [Ctrl.entries] using this
  | .scalar h, hs => by
    have := hs 0 (by simp [Ctrl.entries])
    rw [Ctrl.refill]
    simpa [Ctrl.entries] using this
  | .vec h, hs => by
    rw [Ctrl.refill]
    congr 1
    funext i
    have := hs i (by simp [Ctrl.entries])
    simpa [Ctrl.entries] using this
  | .none, _ => rfl
  | .list _, _ => rfl

theorem ctrlsAt_self {x : Row} : {cs : List (Ctrl d)} → {off : Nat} → Starts x off (cs.flatMap Ctrl.entries) → ((ctrlsAt off cs).map fun c => c x) = cs
  | [], _, _ => rfl
  | c :: cs, off, h => by
    rw [List.flatMap_cons, Starts.append] at h
    rw [ctrlsAt, List.map_cons, ctrlsAt_self h.2]
    exact congrArg (· :: cs) (refill_self h.1)

theorem listsAt_self {x : Row} : {css : List (List (Ctrl d))} → {off : Nat} → Starts x off (css.flatMap fun l => l.flatMap Ctrl.entries) →
    ((listsAt off css).map fun l => l.map fun c => c x) = css
  | [], _, _ => rfl
  | l :: css, off, h => by
    rw [List.flatMap_cons, Starts.append] at h
    rw [listsAt, List.map_cons, ctrlsAt_self h.1, listsAt_self h.2]

theorem getD_last {l : List (List ℝ)} {a : List ℝ} (n : Nat) (h : n = l.length) : (l ++ [a]).getD n [] = a := by
  subst h
  simp [List.getD]

/-- The parameters of the model are where the descent starts: with them the model is as it is. -/
theorem C115_start (M : RegModel d G T) (fit : Option (List Nat)) : M.atLearned fit (M.learnedEntries fit) = M := by
  have h1 : (M.atEntries fit (M.learnedEntries fit)).init = M.init := by
    have h := congrArg RegModel.init (C95_start M fit)
    refine Eq.trans ?_ h
    unfold RegModel.atEntries RegModel.setValues RegModel.learnedEntries
    cases fit <;> rfl
  unfold RegModel.atLearned
  rw [h1]
  rw [show (M.learnedEntries fit).getD (M.entriesOf fit).length [] = _ from getD_last _ rfl]
  cases hl : M.learned with
  | none => unfold RegModel.setValues; rw [Option.map_none, ← hl]
  | some p =>
    rw [Option.map_some, Option.elim, listsAt_self (starts_rowOf _), ← hl]
    rfl

/-! ## The total -/

/-- A registration that learns controls and can be fitted from anywhere: it was built for the method
`s`, with modules that can take any controls of the right shape and deformables that are not to be
deformed backwards, and the losses are differentiable at all points. -/
structure Trainable (M : RegModel d G T) (s : Solver) (targets : List T) : Prop where
  built : ∃ Ds ms as it ones lam, RegModel.new Ds ms as (some (.fixed s, it, ones)) lam .sum = .ok M
  forward : ∀ D ∈ M.deformables, D.backward = none
  points : ∃ D ∈ M.deformables, 0 < D.n * d
  settable : DefModule.AllSettable M.modules
  smooth_modules : (DefModule.compound M.modules).Smooth 2
  plain : PlainMembers M.modules
  losses : SmoothEverywhere 1 M.deformables M.attachments targets

theorem tensor_like {a : ℝ} {c c' : Ctrl d} (h : c.like a = .ok c') : c'.IsTensor := by
  cases c with
  | list hs => cases h
  | _ => cases h; trivial

theorem new_plain {Ds : List (Deformable d G)} {ms : List (DefModule d)} {as : List (Attach G T)} {n : SolverName} {it : Nat} {ones : Bool}
    {lam : ℝ} {red : Reduce} {M : RegModel d G T} (h : RegModel.new Ds ms as (some (n, it, ones)) lam red = .ok M) :
    RegModel.new Ds ms as none lam red = .ok { M with learned := none } := by
  unfold RegModel.new at h ⊢
  split at h
  · cases h
  · rename_i hlen
    rw [if_neg hlen]
    split at h
    · cases h
    · dsimp only at h ⊢
      split at h
      · rename_i hg
        rw [if_pos hg]
        cases h
        rfl
      · cases h

/-- The total is a differentiable function of the entries of the parameters. -/
theorem Trainable.total {M : RegModel d G T} {s : Solver} {targets : List T} (hM : Trainable M s targets) (fit : Option (List Nat)) (it : Nat) (y : List (List ℝ)) :
    ∃ f : (Fin y.flatten.length → ℝ) → ℝ, ContDiff ℝ 1 f ∧
      ∀ e, (M.atLearned fit (gdFill y (List.ofFn e))).value targets (.fixed s) it = .ok (f e) := by
  obtain ⟨Ds, ms, as, N, ones, lam, hnew⟩ := hM.built
  obtain ⟨cs, hcs, hlen, hrow, hnum⟩ := C28_learnt hnew
  have h0 := new_plain hnew
  have hMe := new_eq h0
  have hD' : M.deformables = Ds := congrArg RegModel.deformables hMe
  have hm' : M.modules = ms := congrArg RegModel.modules hMe
  have ha' : M.attachments = as := congrArg RegModel.attachments hMe
  obtain ⟨D, hD, hd⟩ := hM.points
  have hx := hM.forward
  have hl := hM.losses
  have hr := hM.settable
  have hs := hM.smooth_modules
  have hp := hM.plain
  rw [hD'] at hD hx hl
  rw [hm'] at hr hs hp
  rw [ha'] at hl
  have hfits : ∀ l ∈ cs, List.Forall₂ DefModule.Fits ms l := fun l hl => (hrow l hl).imp fun _ _ h => fits_like h
  have htens : ∀ l ∈ cs, ∀ c ∈ l, c.IsTensor := fun l hl c hc => by
    obtain ⟨i, hi, rfl⟩ := List.getElem_of_mem hc
    have h2 := hrow l hl
    exact tensor_like ((List.forall₂_iff_get.1 h2).2 i (by rw [h2.length_eq]; exact hi) hi)
  set x : (Fin y.flatten.length → ℝ) → Row := fun e => rowOf ((gdFill y (List.ofFn e)).getD (M.entriesOf fit).length []) with hxdef
  have hxs : ∀ e, SmRow ((1 : Nat) : WithTop ℕ∞) e x := fun e j => (SmList.fill y (smList_ofFn e) _).2 j
  set F : List (List ((Fin y.flatten.length → ℝ) → Ctrl d)) := (listsAt 0 cs).map fun l => l.map fun c e => c (x e) with hF
  have hFe : ∀ e, (F.map fun l => l.map fun c => c e) = (listsAt 0 cs).map fun l => l.map fun c => c (x e) := fun e => by
    rw [hF, List.map_map]
    refine List.map_congr_left fun l _ => ?_
    rw [Function.comp_apply, List.map_map]
    rfl
  obtain ⟨f, hf, hfe⟩ := C94_learned (E := Fin y.flatten.length → ℝ) h0 hx hD hd hr (k := 1) (by simpa [one_add_one_eq_two] using hs) hp (targets := targets) (by simpa using hl)
    (init := fun e => (M.atEntries fit (gdFill y (List.ofFn e))).init) (fun e => atEntries_kinds M fit _) (fun e => atEntries_smooth M fit y e) (s := s) (N := N)
    (cs := F) (by rw [hF, List.length_map, length_listsAt]; exact hnum) (fun e l hl => by
      obtain ⟨l', hl', rfl⟩ := List.mem_map.1 hl
      rw [List.map_map, fitsAll_iff]
      exact listsAt_fits (x e) 0 hfits l' hl') (fun e l hl c hc => by
      obtain ⟨l', hl', rfl⟩ := List.mem_map.1 hl
      obtain ⟨c', hc', rfl⟩ := List.mem_map.1 hc
      exact listsAt_smooth (hxs e) 0 htens l' hl' c' hc') it
  refine ⟨f, by simpa using hf, fun e => ?_⟩
  rw [← hfe e, hFe]
  unfold RegModel.atLearned
  rw [hcs]
  rfl

/-- At all parameters the total is a number, and the gradient is made of its partial derivatives. -/
theorem Trainable.smooth {M : RegModel d G T} {s : Solver} {targets : List T} (hM : Trainable M s targets) (fit : Option (List Nat)) (it : Nat) (y : List (List ℝ)) :
    (M.atLearned fit y).value targets (.fixed s) it = .ok (M.learnedTotal fit targets (.fixed s) it y) ∧
    Spec.IsGradient (M.learnedTotal fit targets (.fixed s) it) y (partials (M.learnedTotal fit targets (.fixed s) it) y) := by
  obtain ⟨f, hf, hv⟩ := hM.total fit it y
  have hv' : ∀ e : Fin y.flatten.length → ℝ, M.learnedTotal fit targets (.fixed s) it (gdFill y (List.ofFn e)) = f e := fun e => by
    unfold RegModel.learnedTotal
    rw [hv e]
  refine ⟨?_, isGradient_partials ?_⟩
  · have h := hv fun i => y.flatten.getD i 0
    rw [ofFn_entries rfl, gdFill_flatten y y rfl] at h
    unfold RegModel.learnedTotal
    rw [h]
  · rw [show (fun e : Fin y.flatten.length → ℝ => M.learnedTotal fit targets (.fixed s) it (gdFill y (List.ofFn e))) = f from funext hv']
    exact (hf.differentiable (by norm_num)).differentiableAt

/-- **C115.** Gradient descent on a registration that learns controls, with the method it was built
for: every step ends, none increases the total, evaluating the model never raises on the way. -/
theorem C115_fit {M : RegModel d G T} {s : Solver} {targets : List T} (hM : Trainable M s targets) (fit : Option (List Nat)) (it : Nat) (cf : GDConf ℝ) (initStep : ℝ)
    (ho : cf.opts.length = (M.learnedEntries fit).length) (hsteps : ∀ a ∈ gdInitSteps initStep cf.opts, 0 ≤ a)
    (hγ : ∀ o ∈ cf.opts, 0 ≤ o.gamma1.getD cf.gamma1 ∧ o.gamma1.getD cf.gamma1 < 1 ∧ 0 ≤ o.gamma2.getD cf.gamma2) :
    ∃ (run : Nat → GDState ℝ ℝ) (v : Nat → ℝ), run 0 = ⟨M.learnedEntries fit, gdInitSteps initStep cf.opts⟩ ∧ M.value targets (.fixed s) it = .ok (v 0) ∧ Antitone v ∧ ∀ i,
      SameShape (run i).params (M.learnedEntries fit) ∧ (M.atLearned fit (run i).params).value targets (.fixed s) it = .ok (v i) ∧
      ∃ bound, ∀ fuel ≥ bound, gdStep (M.learnedDescent fit targets (.fixed s) it) cf fuel (run i) = some (run (i + 1)) := by
  obtain ⟨run, h0, h⟩ := C95_run (M.learnedTotal fit targets (.fixed s) it) (M.learnedDescent fit targets (.fixed s) it) cf ⟨M.learnedEntries fit, gdInitSteps initStep cf.opts⟩ ho
    (by rw [gdInitSteps, List.length_map, ho]) (fun y _ => by unfold RegModel.learnedDescent; dsimp only; rw [(hM.smooth fit it y).1])
    (fun y _ => ⟨gdFill_shape _ _, (hM.smooth fit it y).2⟩) hsteps hγ
  refine ⟨run, fun i => M.learnedTotal fit targets (.fixed s) it (run i).params, h0, ?_, antitone_nat_of_succ_le fun i => (h i).2.1, fun i => ⟨(h i).1, (hM.smooth fit it _).1, (h i).2.2⟩⟩
  have := (hM.smooth fit it (run 0).params).1
  rw [show M.atLearned fit (run 0).params = M by rw [h0]; exact C115_start M fit] at this
  exact this

/-- With costs and losses that are not negative the total is not negative. -/
theorem learned_nonneg {M : RegModel d G T} {N : Nat} {cs : List (List (Ctrl d))} (hM : M.learned = some (N, cs)) (hred : M.reduce = .sum)
    (hw : DefModule.AllPositiveWeights M.modules) (hne : M.modules ≠ []) (hkept : M.Kept) (hlam : 0 ≤ M.lam)
    (hloss : ∀ a ∈ M.attachments, ∀ g t u, a.call g t = .ok u → 0 ≤ u) {targets : List T} {s : Solver} {it : Nat} {v : ℝ}
    (h : M.value targets (.fixed s) it = .ok v) : 0 ≤ v := by
  unfold RegModel.value at h
  obtain ⟨R, hev, rfl⟩ := py_map_ok h
  obtain ⟨-, pre, M₁, q, A, hpre, hq, hA, hc, htot⟩ := evaluate_inv hev
  obtain ⟨-, rfl, rfl⟩ | ⟨f, hf, -⟩ := hpre
  swap
  · cases hf
  obtain ⟨ms, Ds, h1, -, -, hcd, e1, e2, -⟩ := modelDeformed_inv hq
  obtain ⟨c, k1, k2⟩ := C34_partial hcd (by rw [hred]; decide)
  rw [hred] at k2
  obtain ⟨-, -, costs, hs, -⟩ := computeDeformed_inv hcd
  obtain ⟨hs, -⟩ := fixed_shot hs
  rw [hM] at hs
  obtain ⟨ms', f1, f2, -⟩ := fillModules_kind hkept
  have e3 : ms' = ms := Except.ok.inj (f1.symm.trans h1)
  subst e3
  have hw1 : (DefModule.compound ms').PositiveWeights := by
    rw [f2]
    exact positive_withCot _ _ _ (positive_withGd _ _ _ (by rw [DefModule.PositiveWeights]; exact ⟨hne, hw⟩))
  rw [DefModule.PositiveWeights] at hw1
  have hw2 : (DefModule.compound (Ds.map Deformable.silent ++ ms')).PositiveWeights := by
    rw [DefModule.PositiveWeights]
    exact ⟨by simp [hw1.1], silents_positive Ds hw1.2⟩
  have hcn : 0 ≤ c := by
    rw [k2.2]
    exact List.sum_nonneg (costs_nonneg hw2 hs)
  rw [e1] at hA
  have hAn := attachmentCost_nonneg hloss hA
  rw [htot, hc, k1, e2]
  simp only [totalCost, Dict.set, List.map_cons, List.map_nil, List.sum_cons, List.sum_nil]
  have := mul_nonneg hlam hAn
  show 0 ≤ c + (M₁.lam * A + 0)
  linarith

/-- **C115.** If moreover the weights of the modules are positive and no loss is negative, the
optimiser reports convergence, provided enough iterations are allowed, with a total that is not larger
than at the start. -/
theorem C115_converges {M : RegModel d G T} {s : Solver} {targets : List T} (hM : Trainable M s targets) (hw : DefModule.AllPositiveWeights M.modules)
    (hne : M.modules ≠ []) (hlam : 0 ≤ M.lam) (hloss : ∀ a ∈ M.attachments, ∀ g t u, a.call g t = .ok u → 0 ≤ u) (fit : Option (List Nat)) (it : Nat)
    (run : Nat → GDState ℝ ℝ) (v : Nat → ℝ) (hrun : ∀ i, (M.atLearned fit (run i).params).value targets (.fixed s) it = .ok (v i)) (hv : Antitone v)
    {tol : Option ℝ} (ht : 0 < tol.getD (1 / 10 ^ 10)) (miniter : Nat) :
    ∃ N, ∀ maxIter ≥ N, ∃ j < maxIter, (torchOptimize (fun i => .fin (v (i + 1))) tol miniter maxIter).2 = .ok ⟨true, .fin (v (j + 1)), .converged⟩ ∧ v (j + 1) ≤ v 0 := by
  obtain ⟨Ds, ms, as, n, ones, lam, hnew⟩ := hM.built
  obtain ⟨cs, hcs, hMe⟩ := new_learned hnew
  have hB : ∀ i, 0 ≤ v (i + 1) := fun i => by
    refine learned_nonneg (M := M.atLearned fit (run (i + 1)).params) (N := n) (cs := (listsAt 0 cs).map fun l => l.map fun c => c (rowOf ((run (i + 1)).params.getD (M.entriesOf fit).length []))) ?_ ?_ hw hne ?_ hlam hloss (hrun (i + 1))
    · unfold RegModel.atLearned
      rw [show M.learned = some (n, cs) by rw [hMe]]
      rfl
    · rw [show (M.atLearned fit (run (i + 1)).params).reduce = M.reduce from rfl, hMe]
    · refine (sameKind_all (List.forall₂_drop _ (atEntries_kinds M fit _))).trans ?_
      show (Mfd.compound (M.init.drop M.deformables.length)).SameKind (DefModule.compound M.modules).manifold
      rw [hMe]
      dsimp only
      rw [List.drop_left' (by simp)]
      rfl
  obtain ⟨N, hN⟩ := C95_converges (v := fun i => v (i + 1)) (fun i j h => hv (by omega)) hB ht miniter
  refine ⟨N, fun maxIter hmax => ?_⟩
  obtain ⟨j, h1, h2⟩ := hN maxIter hmax
  exact ⟨j, h1, h2, hv (by omega)⟩

/-- **C115.** Where no parameters near by give a smaller total, the gradient vanishes, a step ends with
its first trial and leaves parameters and step lengths as they are. -/
theorem C115_rests {M : RegModel d G T} {s : Solver} {targets : List T} (hM : Trainable M s targets) (fit : Option (List Nat)) (it : Nat) (cf : GDConf ℝ)
    {y : List (List ℝ)} {steps : List ℝ} (ho : cf.opts.length = y.length) (hl : steps.length = y.length)
    (hmin : Spec.LocalMin (M.learnedTotal fit targets (.fixed s) it) y) :
    Spec.Vanishes ((M.learnedDescent fit targets (.fixed s) it).grad y) ∧
    ∀ fuel, gdStep (M.learnedDescent fit targets (.fixed s) it) cf (fuel + 1) ⟨y, steps⟩ = some ⟨y, steps⟩ := by
  obtain ⟨h1, h2⟩ := hM.smooth fit it y
  have hsh : SameShape (partials (M.learnedTotal fit targets (.fixed s) it) y) y := gdFill_shape _ _
  have hz : Spec.Vanishes ((M.learnedDescent fit targets (.fixed s) it).grad y) := C113_minimum hsh h2 hmin
  refine ⟨hz, fun fuel => C113_rests (v := M.learnedTotal fit targets (.fixed s) it y) ⟨ho, hl, hsh⟩ ?_ hz fuel⟩
  unfold RegModel.learnedDescent
  dsimp only
  rw [h1]

/-! ## A case -/

/-- The registration of one landmark with the controls of two steps of a method learned can be fitted. -/
theorem exampleLearned_trainable (t : Vec 2) {s : Solver} {ones : Bool} {M : RegModel 2 (Points 2) (Vec 2)}
    (hM : RegModel.new [exampleLandmark] [exampleTranslation] [exampleSquares] (some (.fixed s, 2, ones)) 3 .sum = .ok M) : Trainable M s [t] := by
  obtain ⟨cs, hcs, hMe⟩ := new_learned hM
  refine ⟨⟨_, _, _, _, _, _, hM⟩, ?_, ⟨exampleLandmark, ?_, by simp [exampleLandmark]⟩, ?_, ?_, ?_, ?_⟩
  all_goals rw [hMe]
  · simp [exampleLandmark]
  · exact List.mem_cons_self ..
  · simp [DefModule.AllSettable, DefModule.Settable, exampleTranslation]
  · simp [DefModule.Smooth, DefModule.SmoothParts, DefModule.AllSmoothParts, exampleTranslation]
  · intro m hm
    simp only [exampleTranslation, DefModule.manifolds, DefModule.manifold, Implicit0.manifold, List.mem_cons, List.not_mem_nil, or_false] at hm
    subst hm; exact Or.inr rfl
  · refine ⟨fun x => ⟨fun x => 1 * ∑ i, ∑ c, (x i c - t c) ^ 2, ?_, Eventually.of_forall fun x => rfl⟩, trivial⟩
    fun_prop

/-- The registration of one landmark with the controls of two steps of a method learned, with the
default settings of the optimiser. -/
example (t : Vec 2) (s : Solver) (ones : Bool) (it : Nat) : ∃ M : RegModel 2 (Points 2) (Vec 2),
    RegModel.new [exampleLandmark] [exampleTranslation] [exampleSquares] (some (.fixed s, 2, ones)) 3 .sum = .ok M ∧ Trainable M s [t] ∧
    ((M.learnedEntries none).getD 1 []).length = 4 * s.stages ∧
    ∃ (run : Nat → GDState ℝ ℝ) (v : Nat → ℝ), (run 0).params = M.learnedEntries none ∧ Antitone v ∧
      (∀ i, (M.atLearned none (run i).params).value [t] (.fixed s) it = .ok (v i) ∧
      ∃ bound, ∀ fuel ≥ bound, gdStep (M.learnedDescent none [t] (.fixed s) it) ⟨1 / 5, 13 / 10, [⟨none, none, none⟩, ⟨none, none, none⟩]⟩ fuel (run i) = some (run (i + 1))) ∧
      ∃ N, ∀ maxIter ≥ N, ∃ j < maxIter, (torchOptimize (fun i => .fin (v (i + 1))) none 0 maxIter).2 = .ok ⟨true, .fin (v (j + 1)), .converged⟩ ∧ v (j + 1) ≤ v 0 := by
  obtain ⟨M, hM⟩ : ∃ M, RegModel.new [exampleLandmark] [exampleTranslation] [exampleSquares] (some (.fixed s, 2, ones)) 3 .sum = .ok M := by
    cases s <;> exact ⟨_, rfl⟩
  obtain ⟨cs, hcs, hMe⟩ := new_learned hM
  have hfit := exampleLearned_trainable t hM
  have hlam : 0 ≤ M.lam := by rw [hMe]; norm_num
  have hloss : ∀ a ∈ M.attachments, ∀ g t u, a.call g t = .ok u → 0 ≤ u := by
    rw [hMe]
    intro a ha g t u hu
    rw [List.mem_singleton.1 ha] at hu
    cases hu
    show 0 ≤ 1 * ∑ i, ∑ c, (g.x i c - t c) ^ 2
    positivity
  obtain ⟨run, v, h1, -, h2, h3⟩ := C115_fit hfit none it ⟨1 / 5, 13 / 10, [⟨none, none, none⟩, ⟨none, none, none⟩]⟩ 1 rfl
    (by simp [gdInitSteps]) (by simp; norm_num)
  refine ⟨M, hM, hfit, ?_, run, v, by rw [h1], h2, fun i => (h3 i).2,
    C115_converges hfit (by rw [hMe]; simp [DefModule.AllPositiveWeights, DefModule.PositiveWeights, exampleTranslation]) (by rw [hMe]; simp) hlam hloss _ it run v
      (fun i => (h3 i).2.1) h2 (by norm_num) 0⟩
  cases s <;> cases ones <;> cases hM <;> simp [RegModel.learnedEntries, RegModel.entriesOf, Ctrl.entries, DefModule.controls, exampleTranslation, Solver.stages, flatVecs]

end
end Imodal
