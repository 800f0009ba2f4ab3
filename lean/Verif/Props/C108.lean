import Verif.Lemmas.Coercive
import Verif.Props.C94
import Verif.Props.C95
import Verif.Props.C91
import Mathlib.Topology.MetricSpace.ProperSpace
import Mathlib.Analysis.Normed.Module.FiniteDimension
/-!
# C108: a registration with learned controls has an optimum
-/
set_option autoImplicit false
namespace Imodal
noncomputable section
open Filter Topology
variable {d : Nat} {G T : Type}

theorem ctrlSq_padded (Ds : List (Deformable d G)) (ms : List (DefModule d)) (l : List (Ctrl d)) :
    ctrlSq (Ds.map Deformable.silent ++ ms) (List.replicate Ds.length .none ++ l) = ctrlSq ms l := by
  induction Ds with
  | nil => rfl
  | cons D Ds ih =>
    rw [List.length_cons, List.replicate_succ, List.map_cons, List.cons_append, List.cons_append, Deformable.silent, ctrlSq]
    exact ih

theorem model_eq {Ds : List (Deformable d G)} {ms : List (DefModule d)} {as : List (Attach G T)} {lam : ℝ} {M : RegModel d G T}
    (hnew : RegModel.new Ds ms as none lam .sum = .ok M) : M = ⟨Ds, ms, as, Ds.map (fun D => D.silent.manifold) ++ DefModule.manifolds ms, none, lam, .sum⟩ := by
  unfold RegModel.new at hnew
  split at hnew
  · cases hnew
  · dsimp only at hnew
    split at hnew
    · cases hnew; rfl
    · cases hnew

theorem sum_le_costs {α : Type} {f : α → ℝ} {κ : ℝ} {l : List α} {costs : List ℝ} (h : List.Forall₂ (fun x a => κ * f x ≤ a) l costs) :
    κ * (l.map f).sum ≤ costs.sum := by
  induction h with
  | nil => simp
  | cons h _ ih => rw [List.map_cons, List.sum_cons, List.sum_cons]; linarith

theorem length_withGd (y : Row) : (ms : List (DefModule d)) → (off : Nat) → (DefModule.withGdAll y off ms).length = ms.length
  | [], _ => rfl
  | m :: ms, off => by rw [DefModule.withGdAll, List.length_cons, List.length_cons, length_withGd y ms]

/-- **C108.** For modules whose costs grow with their controls, with losses and a weight that are not
negative: the total is at least a positive constant times the sum of the squares of the controls, whatever
the descriptors and momenta, the solver and the controls are, with one list of controls per step. -/
theorem C108_grows {Ds : List (Deformable d G)} {ms : List (DefModule d)} {as : List (Attach G T)} {lam : ℝ} {M : RegModel d G T}
    (hnew : RegModel.new Ds ms as none lam .sum = .ok M) (hco : ∀ m ∈ ms, m.Coercive)
    (hlam : 0 ≤ lam) (hloss : ∀ a ∈ as, ∀ g t u, a.call g t = .ok u → 0 ≤ u) :
    ∃ κ, 0 < κ ∧ ∀ (init : List (Mfd d)) (cs : List (List (Ctrl d))) (targets : List T) (s : Solver) (it : Nat) (v : ℝ),
      List.Forall₂ Mfd.SameKind init M.init →
      (M.setValues init (some (cs.length, cs))).value targets (.fixed s) it = .ok v → κ * (cs.map (ctrlSq ms)).sum ≤ v := by
  have hM := model_eq hnew
  subst hM
  set M : RegModel d G T := ⟨Ds, ms, as, Ds.map (fun D => D.silent.manifold) ++ DefModule.manifolds ms, none, lam, .sum⟩ with hMdef
  have hco' : ∀ m ∈ Ds.map Deformable.silent ++ ms, m.Coercive := by
    intro m hm
    rw [List.mem_append, List.mem_map] at hm
    rcases hm with ⟨D, -, rfl⟩ | hm
    · exact trivial
    · exact hco m hm
  obtain ⟨κ, hκ, hg⟩ := grows_all (Ds.map Deformable.silent ++ ms) hco'
  refine ⟨κ, hκ, fun init cs targets s it v hkind hv => ?_⟩
  have hdrop : M.init.drop M.deformables.length = DefModule.manifolds ms := by
    rw [hMdef]
    dsimp only
    rw [List.drop_append_of_le_length (by simp), List.drop_of_length_le (by simp), List.nil_append]
  have hkept : M.Kept := by
    unfold RegModel.Kept
    rw [hdrop, DefModule.manifold]
    rfl
  have hlen : M.deformables.length ≤ M.init.length := by rw [hMdef]; simp
  have h1 : fillModules M.modules (M.init.drop M.deformables.length) = .ok ms := by rw [hdrop]; exact fillModules_self ms
  have h2 : fillDeformables M.deformables M.init = .ok Ds := fillDeformables_self _ Ds
  obtain ⟨ms', Ds', a1, a2, a3, a4⟩ := joined_rows hkept hlen hkind h1 h2
  unfold RegModel.value at hv
  obtain ⟨R, hR, rfl⟩ := py_map_ok hv
  obtain ⟨-, pre, M₁, q, A, hpre, hq, hA, hc, htot⟩ := evaluate_inv hR
  obtain ⟨-, rfl, rfl⟩ | ⟨f, hf, -⟩ := hpre
  swap
  · cases hf
  obtain ⟨ms'', Ds'', b1, b2, -, hcd, e1, e2, -⟩ := modelDeformed_inv hq
  have e3 : ms'' = ms' := Except.ok.inj (b1.symm.trans a1)
  have e4 : Ds'' = Ds' := Except.ok.inj (b2.symm.trans a2)
  subst e3 e4
  obtain ⟨c, hcost, hcl, hcs⟩ := C34_partial hcd (by rw [show (M.setValues init (some (cs.length, cs))).reduce = .sum from rfl]; simp)
  obtain ⟨-, -, costs, hs, -⟩ := computeDeformed_inv hcd
  obtain ⟨hs, -⟩ := fixed_shot hs
  dsimp only at hs
  have hpad : padControls Ds''.length ((M.setValues init (some (cs.length, cs))).learned.map Prod.snd)
      = some (cs.map fun l => .list (List.replicate Ds.length .none ++ l)) := by rw [alike_length a3]; rfl
  have hst : (M.setValues init (some (cs.length, cs))).steps it = cs.length := rfl
  rw [hpad, hst, shootOde] at hs
  rw [hst] at hcl
  have key : List.Forall₂ (fun l a => κ * ctrlSq ms l ≤ a) cs q.shot.costs := by
    refine List.forall₂_iff_get.mpr ⟨hcl.symm, fun j h3 h4 => ?_⟩
    obtain ⟨ht, xs, -, -, -, -, hall⟩ := shootC_parts hs
    obtain ⟨y, a, p1, ⟨u, p2, m', p3, p4⟩, -⟩ := hall j h3
    rw [tToIt_grid one_ne_zero h3, pickControls] at p2
    simp only [List.length_map, if_true, Int.toNat_natCast, List.getElem?_map, List.getElem?_eq_getElem h3, Option.map_some] at p2
    obtain rfl := Except.ok.inj p2
    rw [a4, withGd_rowsMod, DefModule.withGd, DefModule.withCot] at p3
    obtain ⟨us, ms1, p5, p6, p7, rfl⟩ := fill_compound p3
    obtain rfl := Ctrl.list.inj p5
    rw [DefModule.cost] at p4
    have := hg y 0 _ 0 _ _ a (by rw [p6, length_withCotAll, length_withGd])  p7 p4
    rw [ctrlSq_padded] at this
    rw [List.getElem?_eq_getElem h4] at p1
    rw [List.get_eq_getElem, List.get_eq_getElem, Option.some.inj p1]
    exact this
  have hA' : 0 ≤ A := attachmentCost_nonneg (by rw [e1]; exact hloss) hA
  have htotal : R.total = c + lam * A := by
    rw [htot, hc, hcost, e2]
    rw [show (M.setValues init (some (cs.length, cs))).lam = lam from rfl]
    simp [totalCost, Dict.set]
  rw [htotal, hcs]
  have := sum_le_costs key
  nlinarith [mul_nonneg hlam hA']

/-! ### An optimum -/

theorem fitsAll_own : {ms : List (DefModule d)} → {cs : List (Ctrl d)} → OwnControls ms cs → DefModule.FitsAll ms cs
  | [], _, h => by cases h; rw [DefModule.FitsAll]
  | m :: ms, _, h => by
    cases h with
    | cons h1 h2 => rw [DefModule.FitsAll]; exact ⟨_, _, rfl, h1.1, fitsAll_own h2⟩

theorem settable_coercive : (ms : List (DefModule d)) → (∀ m ∈ ms, m.Coercive) → DefModule.AllSettable ms
  | [], _ => by rw [DefModule.AllSettable]; trivial
  | m :: ms, h => by
    rw [DefModule.AllSettable]
    refine ⟨?_, settable_coercive ms fun m hm => h m (List.mem_cons_of_mem _ hm)⟩
    have := h m List.mem_cons_self
    cases m with
    | silent s => rw [DefModule.Settable]; trivial
    | implicit0 m => rw [DefModule.Settable]; exact ⟨this.1.le, this.2.le⟩
    | globalTranslation m => rw [DefModule.Settable]; exact le_of_lt this
    | linear m => rw [DefModule.Settable]; exact le_of_lt this
    | divFree m => rw [DefModule.Settable]; exact ⟨this.1.le, this.2⟩
    | arap m => rw [DefModule.Settable]; exact ⟨this.1.le, this.2⟩
    | _ => exact this.elim

/-- A row from its first entries. -/
def rowOfFin {K : Nat} (x : Fin K → ℝ) : Row := fun j => if h : j < K then x ⟨j, h⟩ else 0

theorem norm_sq_le {N K : Nat} (e : Fin N → Fin K → ℝ) : ‖e‖ ^ 2 ≤ ∑ i, ∑ j, e i j ^ 2 := by
  have h : 0 ≤ ∑ i, ∑ j, e i j ^ 2 := Finset.sum_nonneg fun _ _ => Finset.sum_nonneg fun _ _ => sq_nonneg _
  have : ‖e‖ ≤ √(∑ i, ∑ j, e i j ^ 2) := by
    refine (pi_norm_le_iff_of_nonneg (Real.sqrt_nonneg _)).2 fun i => (pi_norm_le_iff_of_nonneg (Real.sqrt_nonneg _)).2 fun j => ?_
    refine Real.abs_le_sqrt ?_
    refine le_trans ?_ (Finset.single_le_sum (f := fun i => ∑ j, e i j ^ 2) (fun _ _ => Finset.sum_nonneg fun _ _ => sq_nonneg _) (Finset.mem_univ i))
    exact Finset.single_le_sum (f := fun j => e i j ^ 2) (fun _ _ => sq_nonneg _) (Finset.mem_univ j)
  calc ‖e‖ ^ 2 ≤ √(∑ i, ∑ j, e i j ^ 2) ^ 2 := pow_le_pow_left₀ (norm_nonneg _) this 2
    _ = _ := Real.sq_sqrt h

/-- **C108.** For deformables that need no backward flow, losses that are continuous, losses and a
weight that are not negative, and modules whose costs grow with their controls: for all initial
descriptors and all solvers the evaluation returns for all learned controls, with one list per step,
and some of them give the smallest total of all. Missing: one list of controls per evaluation, which a
model learns that is built for the midpoint method or `rk4` (`C108_free_disagreement`). -/
theorem C108_partial {Ds : List (Deformable d G)} {ms : List (DefModule d)} {as : List (Attach G T)} {lam : ℝ} {M : RegModel d G T}
    (hnew : RegModel.new Ds ms as none lam .sum = .ok M) (hb : ∀ D ∈ Ds, D.backward = none) {D : Deformable d G} (hD : D ∈ Ds) (hd : 0 < D.n * d)
    (hco : ∀ m ∈ ms, m.Coercive) (hsm : (DefModule.compound ms).Smooth 1) (hp : PlainMembers ms) (hlam : 0 ≤ lam)
    (hloss : ∀ a ∈ as, ∀ g t u, a.call g t = .ok u → 0 ≤ u) {targets : List T} (hcont : SmoothEverywhere 0 Ds as targets)
    {init : List (Mfd d)} (hkind : List.Forall₂ Mfd.SameKind init M.init) (s : Solver) (N it : Nat) :
    ∃ (best : List (List (Ctrl d))) (v : ℝ), best.length = N ∧ (∀ l ∈ best, OwnControls ms l) ∧
      (M.setValues init (some (N, best))).value targets (.fixed s) it = .ok v ∧
      ∀ cs : List (List (Ctrl d)), cs.length = N → (∀ l ∈ cs, OwnControls ms l) →
        ∃ v', (M.setValues init (some (N, cs))).value targets (.fixed s) it = .ok v' ∧ v ≤ v' := by
  obtain ⟨κ, hκ, hgrow⟩ := C108_grows hnew hco hlam hloss
  set K := ctrlSizes ms with hK
  have hrow : ∀ (i : Fin N) (e₀ : Fin N → Fin K → ℝ), SmRow ((0 : Nat) : WithTop ℕ∞) e₀ fun e : Fin N → Fin K → ℝ => rowOfFin (e i) := fun i e₀ j => by
    unfold rowOfFin
    by_cases hj : j < K
    · simp only [dif_pos hj]; fun_prop
    · simp only [dif_neg hj]; exact contDiffAt_const
  let F : List (List ((Fin N → Fin K → ℝ) → Ctrl d)) := List.ofFn fun i => (ctrlFns 0 ms).map fun f e => f (rowOfFin (e i))
  let at' : (Fin N → Fin K → ℝ) → List (List (Ctrl d)) := fun e => List.ofFn fun i => (ctrlFns 0 ms).map fun f => f (rowOfFin (e i))
  have hF : ∀ e, (F.map fun l => l.map fun c => c e) = at' e := fun e => by
    simp only [F, at', List.map_ofFn]
    refine congrArg List.ofFn (funext fun i => ?_)
    rw [Function.comp_apply, List.map_map]
    rfl
  have hown : ∀ e, ∀ l ∈ at' e, OwnControls ms l := fun e l hl => by
    obtain ⟨i, rfl⟩ := List.mem_ofFn.1 hl
    exact fits_ctrlFns _ ms hco 0
  obtain ⟨f, hf, hfe⟩ := C94_learned (E := Fin N → Fin K → ℝ) hnew hb hD hd (settable_coercive ms hco) (k := 0) (by simpa using hsm) hp (targets := targets)
    (by simpa using hcont) (init := fun _ => init) (fun _ => hkind) (fun _ _ => ⟨contDiffAt_const, contDiffAt_const⟩) (s := s) (N := N) (cs := F)
    (Or.inl (by simp [F])) (fun e l hl => by
      have : (l.map fun c => c e) ∈ at' e := by rw [← hF]; exact List.mem_map_of_mem hl
      exact fitsAll_own (hown e _ this)) (fun e l hl c hc => by
      obtain ⟨i, rfl⟩ := List.mem_ofFn.1 hl
      obtain ⟨g, hg, rfl⟩ := List.mem_map.1 hc
      exact smCtrl_fns (hrow i e) ms 0 g hg) it
  simp only [hF] at hfe
  have hlen : ∀ e, (at' e).length = N := fun e => by simp [at']
  have hsum : ∀ e, ((at' e).map (ctrlSq ms)).sum = ∑ i, ∑ j, e i j ^ 2 := fun e => by
    simp only [at', List.map_ofFn, List.sum_ofFn]
    refine Finset.sum_congr rfl fun i _ => ?_
    rw [Function.comp_apply, sq_ctrlFns, ← hK, Finset.sum_range]
    refine Finset.sum_congr rfl fun j _ => ?_
    simp [rowOfFin]
  have hlow : ∀ e, κ * ‖e‖ ^ 2 ≤ f e := fun e => by
    have h1 := hgrow init (at' e) targets s it (f e) hkind (by rw [hlen]; exact hfe e)
    rw [hsum] at h1
    exact (mul_le_mul_of_nonneg_left (norm_sq_le e) hκ.le).trans h1
  have htend : Tendsto f (cocompact _) atTop := by
    refine tendsto_atTop_mono hlow ?_
    exact Tendsto.const_mul_atTop hκ ((tendsto_pow_atTop two_ne_zero).comp (tendsto_norm_cocompact_atTop (E := Fin N → Fin K → ℝ)))
  obtain ⟨e₀, he₀⟩ := hf.continuous.exists_forall_le htend
  refine ⟨at' e₀, f e₀, hlen e₀, hown e₀, hfe e₀, fun cs hN hcs => ?_⟩
  have hx : ∀ i : Fin N, ∃ x : Row, ∀ y : Row, (∀ j < K, y (0 + j) = x (0 + j)) → (ctrlFns 0 ms).map (fun f => f y) = cs[i]'(by rw [hN]; exact i.2) := fun i =>
    ctrlFns_exists ms hco _ (hcs _ (List.getElem_mem _)) 0
  choose x hx using hx
  have hat : at' (fun i j => x i j) = cs := by
    refine List.ext_getElem (by rw [hlen, hN]) fun i h1 h2 => ?_
    simp only [at', List.getElem_ofFn]
    refine hx ⟨i, by rw [← hN]; exact h2⟩ _ fun j hj => ?_
    rw [Nat.zero_add]
    exact dif_pos hj
  rw [← hat]
  exact ⟨_, hfe _, he₀ _⟩

/-- One landmark and a module of one regularised translation, with three steps. -/
example (t : Vec 2) (s : Solver) (it : Nat) : ∃ M : RegModel 2 (Points 2) (Vec 2),
    RegModel.new [exampleLandmark] [exampleTranslation] [exampleSquares] none 3 .sum = .ok M ∧
    ∃ (best : List (List (Ctrl 2))) (v : ℝ), best.length = 3 ∧ (∀ l ∈ best, OwnControls [exampleTranslation] l) ∧
      (M.setValues M.init (some (3, best))).value [t] (.fixed s) it = .ok v ∧
      ∀ u : Fin 3 → Fin 1 → Vec 2, ∃ v',
        (M.setValues M.init (some (3, [[.vecs (u 0)], [.vecs (u 1)], [.vecs (u 2)]]))).value [t] (.fixed s) it = .ok v' ∧ v ≤ v' := by
  obtain ⟨M, hM⟩ : ∃ M, RegModel.new [exampleLandmark] [exampleTranslation] [exampleSquares] none 3 .sum = .ok M := ⟨_, rfl⟩
  refine ⟨M, hM, ?_⟩
  have hinit : M.init = [.landmarks (n := 1) 0 0, .landmarks (n := 1) 0 0] := by cases hM; rfl
  obtain ⟨best, v, h1, h2, h3, h4⟩ := C108_partial hM (by simp [exampleLandmark]) (List.mem_cons_self ..) (by simp [exampleLandmark])
    (by simp [exampleTranslation, DefModule.Coercive])
    (by simp [DefModule.Smooth, DefModule.SmoothParts, DefModule.AllSmoothParts, exampleTranslation])
    (by
      intro m hm
      simp only [exampleTranslation, DefModule.manifolds, DefModule.manifold, Implicit0.manifold, List.mem_cons, List.not_mem_nil, or_false] at hm
      subst hm; exact Or.inr rfl)
    (by norm_num) (by
      intro a ha g t u hu
      simp only [List.mem_cons, List.not_mem_nil, or_false] at ha
      subst ha
      have hu : Except.ok (1 * ∑ i, ∑ c, (g.x i c - t c) ^ 2) = (Except.ok u : Py ℝ) := hu
      rw [← Except.ok.inj hu]
      positivity)
    (targets := [t]) ⟨fun x => by
      refine ⟨fun x => 1 * ∑ i, ∑ c, (x i c - t c) ^ 2, ?_, Eventually.of_forall fun x => rfl⟩
      fun_prop, trivial⟩ (init := M.init) (by rw [hinit]; exact .cons rfl (.cons rfl .nil)) s 3 it
  refine ⟨best, v, h1, h2, h3, fun u => h4 _ rfl fun l hl => ?_⟩
  simp only [List.mem_cons, List.not_mem_nil, or_false] at hl
  rcases hl with rfl | rfl | rfl <;> exact .cons ⟨by simp [DefModule.Fits, exampleTranslation], by simp [exampleTranslation]⟩ .nil

/-! ### One control per evaluation -/

/-- A loss that is small far from the origin. -/
def farLoss : Attach (Points 1) Unit := .simple 1 fun g _ => .ok (1 / (1 + ∑ i, ∑ c, g.x i c ^ 2))

theorem farLoss_pos {g : Points 1} {u : Unit} {x : ℝ} (h : farLoss.call g u = .ok x) : 0 < x := by
  have h : Except.ok (1 * (1 / (1 + ∑ i, ∑ c, g.x i c ^ 2))) = (Except.ok x : Py ℝ) := h
  rw [← Except.ok.inj h]
  positivity

/-- Without one list of controls per step there need not be an optimum: a model that is built for the
midpoint method learns two lists per step, and here every total is undercut by another. -/
theorem C108_free_disagreement : ∃ M : RegModel 1 (Points 1) Unit,
    RegModel.new [speck] [.globalTranslation ⟨1, 0⟩] [farLoss] (some (.fixed .midpoint, 1, false)) 1 .sum = .ok M ∧
    M.learned = some (1, [[.vec fun _ => 0], [.vec fun _ => 0]]) ∧
    ∀ (cs : List (List (Ctrl 1))) (v : ℝ), (M.setValues M.init (some (1, cs))).value [()] (.fixed .midpoint) 1 = .ok v →
      ∃ (u v' : ℝ), (M.setValues M.init (some (1, [[.vec fun _ => 0], [.vec fun _ => u]]))).value [()] (.fixed .midpoint) 1 = .ok v' ∧ v' < v := by
  refine ⟨_, rfl, rfl, fun cs v hv => ?_⟩
  have f1 : fillModules [DefModule.globalTranslation ⟨1, 0⟩] (DefModule.manifolds [DefModule.globalTranslation (d := 1) ⟨1, 0⟩]) = .ok [.globalTranslation ⟨1, 0⟩] :=
    fillModules_self _
  have f2 : fillDeformables [speck] ([speck.silent.manifold] ++ DefModule.manifolds [DefModule.globalTranslation (d := 1) ⟨1, 0⟩]) = .ok [speck] :=
    fillDeformables_self _ [speck]
  have hpos : 0 < v := by
    unfold RegModel.value at hv
    obtain ⟨R, hR, rfl⟩ := py_map_ok hv
    obtain ⟨-, pre, M₁, q, A, hpre, hq, hA, hc, htot⟩ := evaluate_inv hR
    obtain ⟨-, rfl, rfl⟩ | ⟨f, hf, -⟩ := hpre
    swap
    · cases hf
    obtain ⟨ms'', Ds'', b1, b2, -, hcd, e1, e2, -⟩ := modelDeformed_inv hq
    obtain rfl : ms'' = _ := Except.ok.inj (b1.symm.trans f1)
    obtain rfl : Ds'' = _ := Except.ok.inj (b2.symm.trans f2)
    obtain ⟨c, hcost, hcl, hcs⟩ := C34_partial hcd (by simp [RegModel.setValues])
    have hlen := (C33_partial hcd).1
    have hc0 : 0 ≤ c := by
      obtain ⟨-, -, costs, hs, -⟩ := computeDeformed_inv hcd
      obtain ⟨hs, -⟩ := fixed_shot hs
      rw [hcs]
      refine List.sum_nonneg (costs_nonneg (ms := [speck.silent, .globalTranslation ⟨1, 0⟩]) ?_ hs)
      simp [DefModule.PositiveWeights, DefModule.AllPositiveWeights, Deformable.silent]
    have hA0 : 0 < A := by
      rw [e1] at hA
      match hg : q.geometries with
      | [] => rw [hg] at hlen; cases hlen
      | g :: gs =>
        rw [hg] at hA
        simp only [RegModel.setValues, attachmentCost] at hA
        cases hx : farLoss.call g () with
        | error e => rw [hx] at hA; cases hA
        | ok x =>
          rw [hx] at hA
          simp only [attachmentCost, add_zero, Except.ok.injEq] at hA
          rw [← hA]
          exact farLoss_pos hx
    rw [htot, hc, hcost, e2]
    simp [totalCost, Dict.set, RegModel.setValues]
    linarith
  obtain ⟨u, hu⟩ : ∃ u : ℝ, 1 / (1 + u ^ 2) < v := by
    refine ⟨1 / v, ?_⟩
    rw [div_lt_iff₀ (by positivity)]
    have : v * (1 + (1 / v) ^ 2) = v + 1 / v := by field_simp
    rw [this]
    by_cases h : v ≤ 1
    · have : 1 ≤ 1 / v := by rw [le_div_iff₀ hpos]; linarith
      linarith
    · have : 0 < 1 / v := by positivity
      linarith
  obtain ⟨r, hr, hc, hg⟩ := C91_free_disagreement u
  refine ⟨u, 1 / (1 + u ^ 2), ?_, hu⟩
  set M : RegModel 1 (Points 1) Unit := RegModel.setValues _ _ (some (1, [[.vec fun _ => 0], [.vec fun _ => u]])) with hM
  have g1 : fillModules M.modules (M.init.drop M.deformables.length) = .ok [.globalTranslation ⟨1, 0⟩] := f1
  have g2 : fillDeformables M.deformables M.init = .ok [speck] := f2
  have g3 : computeDeformed [speck] [.globalTranslation ⟨1, 0⟩] (.fixed .midpoint) (M.steps 1) true (M.learned.map Prod.snd) 1 M.reduce = .ok r := hr
  have g4 : attachmentCost [farLoss] [⟨1, fun _ _ => u⟩] [()] = .ok (1 / (1 + u ^ 2)) := by
    have : attachmentCost [farLoss] [⟨1, fun _ _ => u⟩] [()] = .ok (1 * (1 / (1 + ∑ i : Fin 1, ∑ c : Fin 1, u ^ 2)) + 0) := rfl
    rw [this]
    simp
  unfold RegModel.value RegModel.evaluate RegModel.computeDeformed
  rw [if_neg (by simp [hM, RegModel.setValues])]
  dsimp only
  rw [g1]
  dsimp only
  rw [g2]
  dsimp only
  rw [g3]
  dsimp only
  rw [hc, hg, show (RegModel.leave { M with deformables := [speck], modules := [.globalTranslation ⟨1, 0⟩] } r.compound).attachments = [farLoss] from rfl, g4]
  simp [Except.map, totalCost, Dict.set, RegModel.leave, hM, RegModel.setValues]

end
end Imodal
