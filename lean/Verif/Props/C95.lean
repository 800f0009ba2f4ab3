import Verif.Props.C94
import Verif.Props.C41
import Verif.Props.C81
import Verif.Props.C91
import Verif.Lemmas.GradList
/-!
# C95: fitting a registration by gradient descent ends, does not increase the total, and converges
-/
set_option autoImplicit false
namespace Imodal
noncomputable section
open Filter Topology
variable {d : Nat} {G T : Type}

/-! ## Gradient descent in general -/

section
variable {E : Type} [NormedAddCommGroup E] [InnerProductSpace ℝ E]

/-- For a cost that is a number and has gradients everywhere, every step ends and does not increase it. -/
theorem C95_run (f : List (List E) → ℝ) (pb : GDProblem ℝ E) (cf : GDConf ℝ) (s₀ : GDState ℝ E) (ho : cf.opts.length = s₀.params.length)
    (hl : s₀.steps.length = s₀.params.length) (hcost : ∀ y, SameShape y s₀.params → pb.cost y = .fin (f y))
    (hgrad : ∀ y, SameShape y s₀.params → SameShape (pb.grad y) y ∧ Spec.IsGradient f y (pb.grad y)) (hsteps : ∀ a ∈ s₀.steps, 0 ≤ a)
    (hγ : ∀ o ∈ cf.opts, 0 ≤ o.gamma1.getD cf.gamma1 ∧ o.gamma1.getD cf.gamma1 < 1 ∧ 0 ≤ o.gamma2.getD cf.gamma2) :
    ∃ run : Nat → GDState ℝ E, run 0 = s₀ ∧ ∀ i, SameShape (run i).params s₀.params ∧ f (run (i + 1)).params ≤ f (run i).params ∧
      ∃ bound, ∀ fuel ≥ bound, gdStep pb cf fuel (run i) = some (run (i + 1)) := by
  let Inv : GDState ℝ E → Prop := fun s => SameShape s.params s₀.params ∧ s.steps.length = s₀.params.length ∧ ∀ a ∈ s.steps, 0 ≤ a
  have hlen : ∀ s : GDState ℝ E, SameShape s.params s₀.params → s.params.length = s₀.params.length := fun s h => by
    simpa using congrArg List.length h
  have hnext : ∀ s : {s // Inv s}, ∃ s' : {s // Inv s}, f s'.1.params ≤ f s.1.params ∧ ∃ bound, ∀ fuel ≥ bound, gdStep pb cf fuel s.1 = some s'.1 := by
    rintro ⟨s, h1, h2, h3⟩
    have hf : GDFits pb cf s := ⟨by rw [ho, hlen s h1], by rw [h2, hlen s h1], (hgrad _ h1).1⟩
    obtain ⟨bound, s', hb, hle, hs⟩ := C73_step_ends f pb cf s hf (fun y hy => hcost y (hy.trans h1)) (hgrad _ h1).2 h3 (fun o ho => ⟨(hγ o ho).1, (hγ o ho).2.1⟩)
    obtain ⟨n, -, -, -, -, hst⟩ := C40_move pb cf bound s s' hf (hb bound le_rfl)
    refine ⟨⟨s', hs.trans h1, ?_, ?_⟩, hle, bound, hb⟩
    · rw [hst]
      split
      · rw [increasedSteps, List.length_zipWith, ho, h2, min_self]
      · rw [trialSteps, List.length_zipWith, ho, h2, min_self]
    · rw [hst]
      split
      · exact mem_zipWith_nonneg _ _ _ fun o ho a ha => mul_nonneg (hγ o ho).2.2 (h3 a ha)
      · exact mem_zipWith_nonneg _ _ _ fun o ho a ha => mul_nonneg (pow_nonneg (hγ o ho).1 _) (h3 a ha)
  choose next hn1 hn2 using hnext
  let run : Nat → {s // Inv s} := fun i => Nat.rec ⟨s₀, rfl, hl, hsteps⟩ (fun _ s => next s) i
  exact ⟨fun i => (run i).1, rfl, fun i => ⟨(run i).2.1, hn1 _, hn2 _⟩⟩

end

/-- Totals that do not increase and stay above a bound make the loop of `optimize` report convergence,
if enough iterations are allowed. -/
theorem C95_converges {v : Nat → ℝ} (hv : Antitone v) {B : ℝ} (hB : ∀ i, B ≤ v i) {tol : Option ℝ} (ht : 0 < tol.getD (1 / 10 ^ 10)) (miniter : Nat) :
    ∃ N, ∀ maxIter ≥ N, ∃ j < maxIter, (torchOptimize (fun i => .fin (v i)) tol miniter maxIter).2 = .ok ⟨true, .fin (v j), .converged⟩ := by
  obtain ⟨L, hL⟩ : ∃ L, Tendsto v atTop (𝓝 L) := ⟨_, tendsto_atTop_ciInf hv ⟨B, by rintro _ ⟨i, rfl⟩; exact hB i⟩⟩
  have hd : Tendsto (fun i => v i - v (i + 1)) atTop (𝓝 (L - L)) := hL.sub (hL.comp (tendsto_add_atTop_nat 1))
  rw [sub_self] at hd
  obtain ⟨K, hK⟩ := eventually_atTop.1 (hd.eventually (gt_mem_nhds ht))
  let J := max K miniter + 1
  have hstop : StopAt (fun i => XF.fin (v i)) (tol.getD (1 / 10 ^ 10)) miniter J := by
    refine ⟨by omega, by omega, Or.inl ⟨v (J - 1), v J, rfl, rfl, ?_⟩⟩
    have h1 := hK (J - 1) (by omega)
    rw [show J - 1 + 1 = J from by omega] at h1
    unfold Converged
    rw [div_le_iff₀ (lt_of_lt_of_le one_pos (le_max_right _ _))]
    have h2 := le_max_right (max (v J) (v (J - 1))) 1
    nlinarith
  refine ⟨J + 1, fun maxIter hmax => ?_⟩
  obtain ⟨j, hj, -, hlt, h⟩ := C41_optimize (fun i => XF.fin (v i)) tol miniter maxIter (by omega)
  refine ⟨j, hj, ?_⟩
  rcases h with ⟨h, -⟩ | ⟨-, -, h⟩ | ⟨-, h, hm, -⟩
  · cases h
  · exact h
  · exact absurd hstop (if hJ : J = j then hJ ▸ h else (hlt J (by omega)).2)

/-! ## The total is not negative -/

theorem nonneg_silents (Ds : List (Deformable d G)) {ms : List (DefModule d)} (h : DefModule.AllNonnegWeights ms) :
    DefModule.AllNonnegWeights (Ds.map Deformable.silent ++ ms) := by
  induction Ds with
  | nil => exact h
  | cons D Ds ih =>
    rw [List.map_cons, List.cons_append, DefModule.AllNonnegWeights]
    exact ⟨by rw [Deformable.silent, DefModule.NonnegWeights]; trivial, ih⟩

theorem attachmentCost_nonneg : {as : List (Attach G T)} → {gs : List G} → {ts : List T} → {v : ℝ} → (∀ a ∈ as, ∀ g t u, a.call g t = .ok u → 0 ≤ u) →
    attachmentCost as gs ts = .ok v → 0 ≤ v
  | a :: as, g :: gs, t :: ts, v, h, hv => by
    rw [attachmentCost] at hv
    cases h1 : a.call g t with
    | error _ => rw [h1] at hv; cases hv
    | ok x =>
      cases h2 : attachmentCost as gs ts with
      | error _ => rw [h1, h2] at hv; cases hv
      | ok y =>
        rw [h1, h2] at hv
        cases hv
        exact add_nonneg (h a (List.mem_cons_self ..) _ _ _ h1) (attachmentCost_nonneg (fun a ha => h a (List.mem_cons_of_mem _ ha)) h2)
  | [], _, _, v, _, hv => by rw [attachmentCost] at hv; cases hv; exact le_rfl; simp
  | _ :: _, [], _, v, _, hv => by rw [attachmentCost] at hv; cases hv; exact le_rfl; simp
  | _ :: _, _ :: _, [], v, _, hv => by rw [attachmentCost] at hv; cases hv; exact le_rfl; simp

theorem momentsCost_nonneg {ms : List (DefModule d)} (hw : (DefModule.compound ms).NonnegWeights) {s : Solver} {it : Nat} {t1 : ℝ} {r : Shot d}
    (h : shootMoments s it t1 (.compound ms) = .ok r) : ∀ a ∈ r.costs, 0 ≤ a := by
  intro a ha
  obtain ⟨xs, -, hx⟩ := C27_where ms h
  obtain ⟨hl, -⟩ := C27_moments ms h
  obtain ⟨l, hlt, rfl⟩ := List.getElem_of_mem ha
  obtain ⟨x, a, e, q, -⟩ := hx l (by omega)
  rw [List.getElem?_eq_getElem hlt] at e
  rw [Option.some.inj e, ← ham_cost hw q]
  exact ham_nonneg hw _ _

/-- With costs and losses that are not negative the total is not negative. -/
theorem value_nonneg {M : RegModel d G T} (hM : M.learned = none) (hred : M.reduce = .sum) (hw : DefModule.AllNonnegWeights M.modules) (hne : M.modules ≠ [])
    (hkept : M.Kept) (hlam : 0 ≤ M.lam) (hloss : ∀ a ∈ M.attachments, ∀ g t u, a.call g t = .ok u → 0 ≤ u) {targets : List T} {s : Solver} {it : Nat} {v : ℝ}
    (h : M.value targets (.fixed s) it = .ok v) : 0 ≤ v := by
  unfold RegModel.value at h
  cases hev : M.evaluate none targets (.fixed s) it [] with
  | error _ => rw [hev] at h; cases h
  | ok R =>
    rw [hev] at h
    cases h
    obtain ⟨-, pre, M₁, q, A, hpre, hq, hA, hc, htot⟩ := evaluate_inv hev
    obtain ⟨-, rfl, rfl⟩ | ⟨f, hf, -⟩ := hpre
    · obtain ⟨ms, Ds, h1, -, -, hcd, e1, e2, -⟩ := modelDeformed_inv hq
      obtain ⟨c, k1, k2⟩ := C34_partial hcd (by rw [hred]; decide)
      rw [hred] at k2
      obtain ⟨-, -, costs, hs, -⟩ := computeDeformed_inv hcd
      obtain ⟨hs, -⟩ := fixed_shot hs
      rw [hM] at hs
      obtain ⟨ms', f1, f2, -⟩ := fillModules_kind hkept
      have e3 : ms' = ms := Except.ok.inj (f1.symm.trans h1)
      subst e3
      have hw1 : (DefModule.compound ms').NonnegWeights := by
        rw [f2]
        exact nonneg_rowsMod (by rw [DefModule.NonnegWeights]; exact ⟨hne, hw⟩) _
      rw [DefModule.NonnegWeights] at hw1
      have hw2 : (DefModule.compound (Ds.map Deformable.silent ++ ms')).NonnegWeights := by
        rw [DefModule.NonnegWeights]
        exact ⟨by simp [hw1.1], nonneg_silents Ds hw1.2⟩
      have hcn : 0 ≤ c := by
        rw [k2.2]
        exact List.sum_nonneg (momentsCost_nonneg hw2 hs)
      rw [e1] at hA
      have hAn := attachmentCost_nonneg hloss hA
      rw [htot, hc, k1, e2]
      simp only [totalCost, Dict.set, List.map_cons, List.map_nil, List.sum_cons, List.sum_nil]
      have := mul_nonneg hlam hAn
      show 0 ≤ c + (M₁.lam * A + 0)
      linarith
    · cases hf

/-! ## The parameters of a registration -/

theorem Mfd.blank_withGd (x : Row) (m : Mfd d) (o : Nat) : (m.withGd x o).blank = m.blank := by
  rw [Mfd.blank_eq _ o, Mfd.blank_eq m o, Mfd.withGd_withGd]

theorem Mfd.blank_withCot (x : Row) (m : Mfd d) (o : Nat) : (m.withCot x o).blank = m.blank := by
  rw [Mfd.blank_eq _ o, Mfd.blank_eq m o, Mfd.withGd_withCot, Mfd.withCot_withCot]

theorem kinds_withGds (x : Row) : (Ms : List (Mfd d)) → (o : Nat) → List.Forall₂ Mfd.SameKind (Mfd.withGdAll x o Ms) Ms
  | [], _ => by rw [Mfd.withGdAll]; exact .nil
  | m :: Ms, o => by rw [Mfd.withGdAll]; exact .cons (Mfd.blank_withGd x m o) (kinds_withGds x Ms _)

theorem kinds_withCots (x : Row) : (Ms : List (Mfd d)) → (o : Nat) → List.Forall₂ Mfd.SameKind (Mfd.withCotAll x o Ms) Ms
  | [], _ => by rw [Mfd.withCotAll]; exact .nil
  | m :: Ms, o => by rw [Mfd.withCotAll]; exact .cons (Mfd.blank_withCot x m o) (kinds_withCots x Ms _)

theorem kinds_trans {A B C : List (Mfd d)} (h : List.Forall₂ Mfd.SameKind A B) (h' : List.Forall₂ Mfd.SameKind B C) : List.Forall₂ Mfd.SameKind A C := by
  induction h generalizing C with
  | nil => exact h'
  | cons h _ ih =>
    cases h' with
    | cons h1 h2 => exact .cons (h.trans h1) (ih h2)

theorem starts_getD {x : Row} {l : List ℝ} (h : Starts x 0 l) (j : Nat) : rowOf l j = if j < l.length then x j else 0 := by
  unfold rowOf
  split
  · rename_i hj
    rw [List.getD_eq_getElem _ _ hj, ← h j hj, Nat.zero_add]
  · rename_i hj
    rw [List.getD_eq_default _ _ (by omega)]

section
variable {E : Type} [NormedAddCommGroup E] [NormedSpace ℝ E] {e₀ : E} {n : WithTop ℕ∞}

/-- A list of constant length with entries depending smoothly on the parameters. -/
def SmList (n : WithTop ℕ∞) (e₀ : E) (l : E → List ℝ) : Prop :=
  (∃ N, ∀ e, (l e).length = N) ∧ ∀ j, ContDiffAt ℝ n (fun e => (l e).getD j 0) e₀

theorem SmList.drop {l : E → List ℝ} (h : SmList n e₀ l) (c : Nat) : SmList n e₀ fun e => (l e).drop c := by
  obtain ⟨⟨N, hN⟩, h⟩ := h
  refine ⟨⟨N - c, fun e => by rw [List.length_drop, hN]⟩, fun j => ?_⟩
  simp only [List.getD_eq_getElem?_getD, List.getElem?_drop]
  simp only [List.getD_eq_getElem?_getD] at h
  exact h (c + j)

theorem getD_overwrite : (g ys : List ℝ) → (j : Nat) → (overwrite g ys).getD j 0 = if j < g.length ∧ j < ys.length then ys.getD j 0 else g.getD j 0
  | [], ys, j => by cases ys <;> simp [overwrite]
  | a :: g, [], j => by simp [overwrite]
  | a :: g, b :: ys, 0 => by simp [overwrite]
  | a :: g, b :: ys, j + 1 => by
    have := getD_overwrite g ys j
    simpa [overwrite] using this

theorem length_overwrite : (g ys : List ℝ) → (overwrite g ys).length = g.length
  | [], ys => by cases ys <;> rfl
  | a :: g, [] => rfl
  | a :: g, b :: ys => by rw [overwrite, List.length_cons, length_overwrite g ys, List.length_cons]

theorem SmList.fill : (x : List (List ℝ)) → {l : E → List ℝ} → SmList n e₀ l → (k : Nat) → SmList n e₀ fun e => (gdFill x (l e)).getD k []
  | [], l, h, k => ⟨⟨0, fun e => by simp [gdFill]⟩, fun j => by simp only [gdFill, List.getD_nil]; exact contDiffAt_const⟩
  | g :: gs, l, h, 0 => by
    obtain ⟨⟨N, hN⟩, h⟩ := h
    refine ⟨⟨g.length, fun e => by simp only [gdFill, List.getD_cons_zero, length_overwrite]⟩, fun j => ?_⟩
    simp only [gdFill, List.getD_cons_zero, getD_overwrite, hN]
    by_cases hj : j < g.length ∧ j < N
    · simp only [if_pos hj]; exact h j
    · simp only [if_neg hj]; exact contDiffAt_const
  | g :: gs, l, h, k + 1 => by
    simp only [gdFill, List.getD_cons_succ]
    exact SmList.fill gs (h.drop g.length) k

theorem SmList.write {base : Row} : (ps : List Nat) → {l : E → List ℝ} → SmList n e₀ l → (j : Nat) → ContDiffAt ℝ n (fun e => writeAt base ps (l e) j) e₀
  | [], l, h, j => by simp only [writeAt]; exact contDiffAt_const
  | p :: ps, l, h, j => by
    have hd := SmList.write (base := base) ps (h.drop 1) j
    obtain ⟨⟨N, hN⟩, h⟩ := h
    have heq : ∀ l : List ℝ, writeAt base (p :: ps) l j = if l.length = 0 then base j else if j = p then l.getD 0 0 else writeAt base ps (l.drop 1) j := by
      intro l
      cases l with
      | nil => simp [writeAt]
      | cons v l => simp [writeAt, Function.update_apply]
    simp only [heq, hN]
    by_cases h0 : N = 0
    · simp only [if_pos h0]; exact contDiffAt_const
    · simp only [if_neg h0]
      by_cases hj : j = p
      · simp only [if_pos hj]; exact h 0
      · simp only [if_neg hj]; exact hd

end

theorem atEntries_kinds (M : RegModel d G T) (fit : Option (List Nat)) (y : List (List ℝ)) : List.Forall₂ Mfd.SameKind (M.atEntries fit y).init M.init :=
  kinds_trans (kinds_withCots _ _ _) (kinds_withGds _ _ _)

/-- The entries of the manifolds depend smoothly on whatever the parameters depend on smoothly. -/
theorem atEntries_smooth_of (M : RegModel d G T) (fit : Option (List Nat)) {E : Type} [NormedAddCommGroup E] [NormedSpace ℝ E] {n : WithTop ℕ∞} {e₀ : E}
    {y : E → List (List ℝ)} (h0 : SmList n e₀ fun e => (y e).getD 0 []) (h1 : SmList n e₀ fun e => (y e).getD 1 []) :
    SmoothEntries n e₀ fun e => (M.atEntries fit (y e)).init := by
  intro j
  unfold RegModel.atEntries RegModel.setValues
  dsimp only
  constructor
  · have h2 : ∀ (y y' : Row), rowOf (Mfd.compound (Mfd.withCotAll y' 0 (Mfd.withGdAll y 0 M.init))).unrollGd.flatten j = if j < Mfd.sizeAll M.init then y j else 0 := by
      intro y y'
      have h2 := Mfd.unrollGd_withCot y' (.compound (Mfd.withGdAll y 0 M.init)) 0
      rw [Mfd.withCot] at h2
      rw [h2, Mfd.unrollGd, starts_getD (Mfd.starts_withGdAll y M.init 0), Mfd.length_unrollGdAll, Mfd.size_withGdAll]
    simp only [h2]
    by_cases hj : j < Mfd.sizeAll M.init
    · simp only [if_pos hj]; exact SmList.write _ h1 j
    · simp only [if_neg hj]; exact contDiffAt_const
  · have h2 : ∀ (y y' : Row), rowOf (Mfd.compound (Mfd.withCotAll y' 0 (Mfd.withGdAll y 0 M.init))).unrollCot.flatten j = if j < Mfd.sizeAll M.init then y' j else 0 := by
      intro y y'
      rw [Mfd.unrollCot, starts_getD (Mfd.starts_withCotAll y' _ 0)]
      congr 1
      have h3 := congrArg List.sum (Mfd.lengths_unrollCot (.compound (Mfd.withCotAll y' 0 (Mfd.withGdAll y 0 M.init))))
      rw [← List.length_flatten, ← List.length_flatten, Mfd.length_unrollGd, Mfd.unrollCot, Mfd.size, Mfd.size_withCotAll, Mfd.size_withGdAll] at h3
      rw [h3]
    simp only [h2]
    by_cases hj : j < Mfd.sizeAll M.init
    · simp only [if_pos hj]; exact h0.2 j
    · simp only [if_neg hj]; exact contDiffAt_const

theorem smList_ofFn {N : Nat} {n : WithTop ℕ∞} (e₀ : Fin N → ℝ) : SmList n e₀ fun e : Fin N → ℝ => List.ofFn e := by
  refine ⟨⟨_, fun e => List.length_ofFn⟩, fun j => ?_⟩
  by_cases hj : j < N
  · have : ∀ e : Fin N → ℝ, (List.ofFn e).getD j 0 = e ⟨j, hj⟩ := fun e => by
      rw [List.getD_eq_getElem _ _ (by simpa using hj), List.getElem_ofFn]
    simp only [this]
    exact contDiffAt_pi.1 contDiffAt_id _
  · have : ∀ e : Fin N → ℝ, (List.ofFn e).getD j 0 = 0 := fun e => List.getD_eq_default _ _ (by rw [List.length_ofFn]; omega)
    simp only [this]
    exact contDiffAt_const

/-- The entries of the manifolds depend smoothly on the entries of the parameters. -/
theorem atEntries_smooth (M : RegModel d G T) (fit : Option (List Nat)) (x : List (List ℝ)) {n : WithTop ℕ∞} (e₀ : Fin x.flatten.length → ℝ) :
    SmoothEntries n e₀ fun e => (M.atEntries fit (gdFill x (List.ofFn e))).init :=
  atEntries_smooth_of M fit (SmList.fill x (smList_ofFn e₀) 0) (SmList.fill x (smList_ofFn e₀) 1)

theorem writeAt_self (base : Row) : (ps : List Nat) → writeAt base ps (ps.map base) = base
  | [] => rfl
  | p :: ps => by rw [List.map_cons, writeAt, writeAt_self base ps, Function.update_eq_self]

/-- The parameters of the model are where the descent starts: with them the model is as it is. -/
theorem C95_start (M : RegModel d G T) (fit : Option (List Nat)) : M.atEntries fit (M.entriesOf fit) = M.setValues M.init none := by
  have hg : writeAt (rowOf (Mfd.compound M.init).unrollGd.flatten) (fit.getD []) ((M.entriesOf fit).getD 1 []) = rowOf (Mfd.compound M.init).unrollGd.flatten := by
    cases fit with
    | none => rfl
    | some ps => exact writeAt_self _ ps
  have hc : (M.entriesOf fit).getD 0 [] = (Mfd.compound M.init).unrollCot.flatten := by cases fit <;> rfl
  unfold RegModel.atEntries
  rw [hg, hc]
  have := Mfd.rows_self (.compound M.init)
  rw [Mfd.withGd, Mfd.withCot] at this
  exact congrArg (fun i => M.setValues i none) (Mfd.compound.inj this)

/-! ## The property -/

/-- The data of a registration that can be fitted from anywhere: it was built from regular modules and
deformables that are not to be deformed backwards, and the losses are differentiable at all points. -/
structure Fittable (M : RegModel d G T) (targets : List T) : Prop where
  built : ∃ Ds ms as lam, RegModel.new Ds ms as none lam .sum = .ok M
  forward : ∀ D ∈ M.deformables, D.backward = none
  points : ∃ D ∈ M.deformables, 0 < D.n * d
  regular : DefModule.AllRegular M.modules
  some_module : M.modules ≠ []
  plain : PlainMembers M.modules
  losses : SmoothEverywhere 1 M.deformables M.attachments targets

theorem new_eq {Ds : List (Deformable d G)} {ms : List (DefModule d)} {as : List (Attach G T)} {lam : ℝ} {M : RegModel d G T}
    (h : RegModel.new Ds ms as none lam .sum = .ok M) : M = ⟨Ds, ms, as, Ds.map (fun D => D.silent.manifold) ++ DefModule.manifolds ms, none, lam, .sum⟩ := by
  unfold RegModel.new at h
  split at h
  · cases h
  · dsimp only at h
    split at h
    · cases h; rfl
    · cases h

/-- The total is a differentiable function of whatever the parameters depend on smoothly. -/
theorem Fittable.total_of {M : RegModel d G T} {targets : List T} (hM : Fittable M targets) (fit : Option (List Nat)) (s : Solver) (it : Nat) {E : Type}
    [NormedAddCommGroup E] [NormedSpace ℝ E] {y : E → List (List ℝ)} (h0 : ∀ e₀, SmList 1 e₀ fun e => (y e).getD 0 []) (h1 : ∀ e₀, SmList 1 e₀ fun e => (y e).getD 1 []) :
    ∃ f : E → ℝ, ContDiff ℝ 1 f ∧ ∀ e, (M.atEntries fit (y e)).value targets (.fixed s) it = .ok (f e) := by
  obtain ⟨Ds, ms, as, lam, hnew⟩ := hM.built
  have hMe := new_eq hnew
  have hD' : M.deformables = Ds := by rw [hMe]
  have hm' : M.modules = ms := by rw [hMe]
  have ha' : M.attachments = as := by rw [hMe]
  obtain ⟨D, hD, hd⟩ := hM.points
  have hx := hM.forward
  have hl := hM.losses
  have hr := hM.regular
  have hs := hM.some_module
  have hp := hM.plain
  rw [hD'] at hD hx hl
  rw [hm'] at hr hs hp
  rw [ha'] at hl
  exact C94_regular (E := E) (k := 1) hnew hx hD hd hr hs hp hl
    (init := fun e => (M.atEntries fit (y e)).init) (fun e => atEntries_kinds M fit _) (fun e => atEntries_smooth_of M fit (h0 e) (h1 e)) s it

/-- The total is a differentiable function of the entries of the parameters. -/
theorem Fittable.total {M : RegModel d G T} {targets : List T} (hM : Fittable M targets) (fit : Option (List Nat)) (s : Solver) (it : Nat) (y : List (List ℝ)) :
    ∃ f : (Fin y.flatten.length → ℝ) → ℝ, ContDiff ℝ 1 f ∧
      ∀ e, (M.setValues (M.atEntries fit (gdFill y (List.ofFn e))).init none).value targets (.fixed s) it = .ok (f e) :=
  hM.total_of fit s it (fun e₀ => SmList.fill y (smList_ofFn e₀) 0) (fun e₀ => SmList.fill y (smList_ofFn e₀) 1)

/-- At all parameters the total is a number, and the gradient is made of its partial derivatives. -/
theorem Fittable.smooth {M : RegModel d G T} {targets : List T} (hM : Fittable M targets) (fit : Option (List Nat)) (s : Solver) (it : Nat) (y : List (List ℝ)) :
    (M.atEntries fit y).value targets (.fixed s) it = .ok (M.totalAt fit targets (.fixed s) it y) ∧
    Spec.IsGradient (M.totalAt fit targets (.fixed s) it) y (partials (M.totalAt fit targets (.fixed s) it) y) := by
  obtain ⟨f, hf, hv⟩ := hM.total fit s it y
  have hv' : ∀ e : Fin y.flatten.length → ℝ, M.totalAt fit targets (.fixed s) it (gdFill y (List.ofFn e)) = f e := fun e => by
    unfold RegModel.totalAt
    rw [show M.atEntries fit (gdFill y (List.ofFn e)) = M.setValues (M.atEntries fit (gdFill y (List.ofFn e))).init none from rfl, hv e]
  refine ⟨?_, isGradient_partials ?_⟩
  · have h := hv fun i => y.flatten.getD i 0
    rw [ofFn_entries rfl, gdFill_flatten y y rfl] at h
    have h' : (M.atEntries fit y).value targets (.fixed s) it = .ok (f fun i => y.flatten.getD i 0) := h
    unfold RegModel.totalAt
    rw [h']
  · rw [show (fun e : Fin y.flatten.length → ℝ => M.totalAt fit targets (.fixed s) it (gdFill y (List.ofFn e))) = f from funext hv']
    exact (hf.differentiable (by norm_num)).differentiableAt

/-- Gradient descent on a registration: every step ends, none increases the total, evaluating the model
never raises on the way. -/
theorem C95_fit {M : RegModel d G T} {targets : List T} (hM : Fittable M targets) (fit : Option (List Nat)) (s : Solver) (it : Nat) (cf : GDConf ℝ) (initStep : ℝ)
    (ho : cf.opts.length = (M.entriesOf fit).length) (hsteps : ∀ a ∈ gdInitSteps initStep cf.opts, 0 ≤ a)
    (hγ : ∀ o ∈ cf.opts, 0 ≤ o.gamma1.getD cf.gamma1 ∧ o.gamma1.getD cf.gamma1 < 1 ∧ 0 ≤ o.gamma2.getD cf.gamma2) :
    ∃ (run : Nat → GDState ℝ ℝ) (v : Nat → ℝ), run 0 = ⟨M.entriesOf fit, gdInitSteps initStep cf.opts⟩ ∧ Antitone v ∧ ∀ i,
      SameShape (run i).params (M.entriesOf fit) ∧ (M.atEntries fit (run i).params).value targets (.fixed s) it = .ok (v i) ∧
      ∃ bound, ∀ fuel ≥ bound, gdStep (M.descent fit targets (.fixed s) it) cf fuel (run i) = some (run (i + 1)) := by
  obtain ⟨run, h0, h⟩ := C95_run (M.totalAt fit targets (.fixed s) it) (M.descent fit targets (.fixed s) it) cf ⟨M.entriesOf fit, gdInitSteps initStep cf.opts⟩ ho
    (by rw [gdInitSteps, List.length_map, ho]) (fun y _ => by unfold RegModel.descent; dsimp only; rw [(hM.smooth fit s it y).1])
    (fun y _ => ⟨gdFill_shape _ _, (hM.smooth fit s it y).2⟩) hsteps hγ
  refine ⟨run, fun i => M.totalAt fit targets (.fixed s) it (run i).params, h0, antitone_nat_of_succ_le fun i => (h i).2.1, fun i => ⟨(h i).1, (hM.smooth fit s it _).1, (h i).2.2⟩⟩

/-- If moreover no loss is negative, the optimiser reports convergence, provided enough iterations are
allowed, with a total that is not larger than at the start. -/
theorem C95_fit_converges {M : RegModel d G T} {targets : List T} (hM : Fittable M targets) (hlam : 0 ≤ M.lam)
    (hloss : ∀ a ∈ M.attachments, ∀ g t u, a.call g t = .ok u → 0 ≤ u) (fit : Option (List Nat)) (s : Solver) (it : Nat) (run : Nat → GDState ℝ ℝ) (v : Nat → ℝ)
    (hrun : ∀ i, (M.atEntries fit (run i).params).value targets (.fixed s) it = .ok (v i)) (hv : Antitone v) {tol : Option ℝ} (ht : 0 < tol.getD (1 / 10 ^ 10)) (miniter : Nat) :
    ∃ N, ∀ maxIter ≥ N, ∃ j < maxIter, (torchOptimize (fun i => .fin (v (i + 1))) tol miniter maxIter).2 = .ok ⟨true, .fin (v (j + 1)), .converged⟩ ∧ v (j + 1) ≤ v 0 := by
  obtain ⟨Ds, ms, as, lam, hnew⟩ := hM.built
  have hMe := new_eq hnew
  have hB : ∀ i, 0 ≤ v (i + 1) := fun i => by
    refine value_nonneg (M := M.atEntries fit (run (i + 1)).params) rfl (by rw [hMe]; rfl) (regular_nonnegAll _ hM.regular) hM.some_module ?_ hlam hloss (hrun (i + 1))
    refine (sameKind_all (List.forall₂_drop _ (atEntries_kinds M fit _))).trans ?_
    show (Mfd.compound (M.init.drop M.deformables.length)).SameKind (DefModule.compound M.modules).manifold
    rw [hMe]
    dsimp only
    rw [List.drop_left' (by simp)]
    rfl
  obtain ⟨N, hN⟩ := C95_converges (v := fun i => v (i + 1)) (fun i j h => hv (by omega)) hB ht miniter
  refine ⟨N, fun maxIter hmax => ?_⟩
  obtain ⟨j, h1, h2⟩ := hN maxIter hmax
  exact ⟨j, h1, h2, hv (by omega)⟩

/-! ## Cases -/

/-- The registration of one landmark (C94) with its momenta and position fitted, with the default
settings of the optimiser. -/
example (t : Vec 2) (s : Solver) (it : Nat) : ∃ M : RegModel 2 (Points 2) (Vec 2),
    RegModel.new [exampleLandmark] [exampleTranslation] [exampleSquares] none 3 .sum = .ok M ∧ Fittable M [t] ∧ 0 ≤ M.lam ∧
    (∀ a ∈ M.attachments, ∀ g t u, a.call g t = .ok u → 0 ≤ u) ∧
    ∃ (run : Nat → GDState ℝ ℝ) (v : Nat → ℝ), (run 0).params = M.entriesOf (some [0, 1]) ∧ Antitone v ∧
      (∀ i, (M.atEntries (some [0, 1]) (run i).params).value [t] (.fixed s) it = .ok (v i) ∧
      ∃ bound, ∀ fuel ≥ bound, gdStep (M.descent (some [0, 1]) [t] (.fixed s) it) ⟨1 / 5, 13 / 10, [⟨none, none, none⟩, ⟨none, none, none⟩]⟩ fuel (run i) = some (run (i + 1))) ∧
      ∃ N, ∀ maxIter ≥ N, ∃ j < maxIter, (torchOptimize (fun i => .fin (v (i + 1))) none 0 maxIter).2 = .ok ⟨true, .fin (v (j + 1)), .converged⟩ ∧ v (j + 1) ≤ v 0 := by
  obtain ⟨M, hM⟩ : ∃ M, RegModel.new [exampleLandmark] [exampleTranslation] [exampleSquares] none 3 .sum = .ok M := ⟨_, rfl⟩
  have hMe := new_eq hM
  have hfit : Fittable M [t] := by
    refine ⟨⟨_, _, _, _, hM⟩, ?_, ⟨exampleLandmark, ?_, by simp [exampleLandmark]⟩, ?_, ?_, ?_, ?_⟩
    all_goals rw [hMe]
    · simp [exampleLandmark]
    · exact List.mem_cons_self ..
    · simp [DefModule.AllRegular, DefModule.Regular, exampleTranslation]
    · simp
    · intro m hm
      simp only [exampleTranslation, DefModule.manifolds, DefModule.manifold, Implicit0.manifold, List.mem_cons, List.not_mem_nil, or_false] at hm
      subst hm; exact Or.inr rfl
    · refine ⟨fun x => ⟨fun x => 1 * ∑ i, ∑ c, (x i c - t c) ^ 2, ?_, Eventually.of_forall fun x => rfl⟩, trivial⟩
      fun_prop
  have hlam : 0 ≤ M.lam := by rw [hMe]; norm_num
  have hloss : ∀ a ∈ M.attachments, ∀ g t u, a.call g t = .ok u → 0 ≤ u := by
    rw [hMe]
    intro a ha g t u hu
    rw [List.mem_singleton.1 ha] at hu
    cases hu
    show 0 ≤ 1 * ∑ i, ∑ c, (g.x i c - t c) ^ 2
    positivity
  obtain ⟨run, v, h1, h2, h3⟩ := C95_fit hfit (some [0, 1]) s it ⟨1 / 5, 13 / 10, [⟨none, none, none⟩, ⟨none, none, none⟩]⟩ 1 rfl
    (by simp [gdInitSteps]) (by simp; norm_num)
  exact ⟨M, hM, hfit, hlam, hloss, run, v, by rw [h1], h2, fun i => (h3 i).2,
    C95_fit_converges hfit hlam hloss _ s it run v (fun i => (h3 i).2.1) h2 (by norm_num) 0⟩

end
end Imodal
