import Verif.Props.C113
import Verif.Props.C91
/-!
# C114: a registration starts from the undeformed shapes
-/
set_option autoImplicit false
namespace Imodal
noncomputable section
variable {d : Nat} {G T : Type}

/-- With zero momenta every recorded cost is zero. -/
theorem C114_costs {ms : List (DefModule d)} (hw : (DefModule.compound ms).NonnegWeights) (h0 : ZeroMomenta (.compound ms)) {s : Solver} {it : Nat} {t1 : ℝ} {r : Shot d}
    (h : shootMoments s it t1 (.compound ms) = .ok r) : ∀ a ∈ r.costs, a = 0 := by
  have zero : ∀ {x : Row × Row} {a : ℝ}, x.2 = 0 → GeodesicCostAt (.compound ms) x a → a = 0 := by
    rintro ⟨q, p⟩ a hp ⟨m', h1, h2⟩
    obtain rfl : p = 0 := hp
    obtain ⟨H, f, -, h3, -, h4, -⟩ := hamFn_geo hw h1
    rw [manifold_rowsMod] at h4
    have := Mfd.innerProd_zeroCot f _ 0 h4
    have := Except.ok.inj (h2.symm.trans h3)
    linarith
  obtain ⟨hp, hn⟩ := shoot_plain h
  obtain ⟨xs, h1, h2, h3, g, h4, h5, h6⟩ := shoot_ok hp hn h
  obtain ⟨a, cs, b, c, e⟩ := (clocked_moments ms t1 it).odeint (inv_init hp) h4
  have hall : ∀ x ∈ xs, x = (gdRow (.compound ms), cotRow (.compound ms)) := fun x hx => by
    obtain ⟨w, hw', e⟩ := (tangent_zero hw).orbit (cotRow_of_zero h0) h1 x hx
    rw [e, (Submodule.mem_bot ℝ).1 hw', add_zero]
  have hz : ∀ x ∈ xs, x.2 = 0 := fun x hx => by rw [hall x hx]; exact cotRow_of_zero h0
  have hcs : r.costs = cs := by rw [h5, b]; simp [GradObj.init]
  intro u hu
  rw [hcs] at hu
  obtain ⟨j, hj, rfl⟩ := List.getElem_of_mem hu
  obtain ⟨x, n, v, e1, e2, e3, e4⟩ := e j (by omega)
  rw [List.getElem?_eq_getElem hj, Option.some.injEq] at e1
  rw [e1]
  by_cases hs : s ≠ .rk4 ∨ j = 0
  · exact zero (hz x (List.mem_of_getElem? (e3 hs).1)) e2
  · push Not at hs
    obtain ⟨i, rfl⟩ := Nat.exists_eq_succ_of_ne_zero hs.2
    obtain ⟨-, y, hy, hx⟩ := e4 hs.1 i rfl
    have hy' := hz y (List.mem_of_getElem? hy)
    have : x = y := rk4End_rest (fun j _ k hk => (Submodule.mem_bot ℝ).1 ((tangent_zero hw).dir y hy' k hk)) hx
    exact zero (this ▸ hy') e2

/-- The geometries when shooting has left all points where they were. -/
theorem geometries_kept {Ds : List (Deformable d G)} {ms : List (DefModule d)} {s : SolverName} {it : Nat} {t1 : ℝ} {controls : Option (List (Ctrl d))}
    {r : Shot d} {costs : Option (List ℝ)} (hs : shoot s it t1 controls (.compound (Ds.map Deformable.silent ++ ms)) = .ok (r, costs))
    (hman : r.module.manifold = (DefModule.compound (Ds.map Deformable.silent ++ ms)).manifold) {gs : List G} (hg : toGeometries Ds r.module.members = .ok gs) :
    List.Forall₂ (fun (D : Deformable d G) g => D.toDeformed ⟨D.n, D.gd⟩ = .ok g) Ds gs := by
  obtain ⟨L, hL, hlen⟩ := same_compound (shoot_same hs)
  dsimp only at hL
  rw [hL, DefModule.members] at hg
  obtain ⟨hl, hget⟩ := toGeometries_ok hg
  have hlen' : L.length = Ds.length + ms.length := by rw [hlen]; simp
  refine List.forall₂_iff_get.2 ⟨by omega, fun i hi hi' => ?_⟩
  obtain ⟨m, hmi⟩ : ∃ m, L[i]? = some m := ⟨_, List.getElem?_eq_getElem (by omega)⟩
  obtain ⟨p, g, hp, hgd, hgi⟩ := hget i Ds[i] m (List.getElem?_eq_getElem hi) hmi
  rw [List.getElem?_eq_getElem hi', Option.some.injEq] at hgi
  simp only [List.get_eq_getElem]
  rw [hgi]
  rw [hL, DefModule.manifold, DefModule.manifold] at hman
  have hm := congrArg (fun l : List (Mfd d) => l[i]?) (Mfd.compound.inj hman)
  rw [manifolds_getElem?, manifolds_getElem?, hmi, List.getElem?_append_left (by simpa using hi), List.getElem?_map, List.getElem?_eq_getElem hi] at hm
  simp only [Option.map_some, Option.some.injEq, Deformable.silent, DefModule.manifold] at hm
  unfold pointsOf at hp
  split at hp
  · next n gd cot' =>
    cases hp
    rw [DefModule.manifold] at hm
    cases hm
    exact hgd
  · cases hp

/-- With zero momenta the deformed geometries are those of the given points, and the cost of the
deformation, if it is asked for as a sum or as the last one, is zero. -/
theorem C114_deformed {Ds : List (Deformable d G)} {ms : List (DefModule d)} (hw : (DefModule.compound (Ds.map Deformable.silent ++ ms)).NonnegWeights)
    (h0 : ZeroMomenta (.compound (Ds.map Deformable.silent ++ ms))) {s : SolverName} {it : Nat} {wantCosts : Bool} {t1 : ℝ} {red : Reduce} {r : Deformed d G}
    (h : computeDeformed Ds ms s it wantCosts none t1 red = .ok r) :
    List.Forall₂ (fun (D : Deformable d G) g => D.toDeformed ⟨D.n, D.gd⟩ = .ok g) Ds r.geometries ∧
      (wantCosts = true → red = .sum ∨ red = .previous → r.cost = some 0) := by
  obtain ⟨-, hg, costs, hs, hcost, -⟩ := computeDeformed_inv h
  have hs' := hs
  rw [show padControls Ds.length (none : Option (List (List (Ctrl d)))) = none from rfl] at hs'
  have key : r.shot.module.manifold = (DefModule.compound (Ds.map Deformable.silent ++ ms)).manifold ∧ ∀ l, costs = some l → ∀ a ∈ l, a = 0 := by
    unfold shoot at hs'
    cases s with
    | torchEuler =>
      dsimp only at hs'
      cases h1 : shootEuler it none (.compound (Ds.map Deformable.silent ++ ms)) with
      | error e => rw [h1] at hs'; cases hs'
      | ok q => rw [h1] at hs'; cases hs'; exact ⟨(C29_euler _ hw h0 h1).1, nofun⟩
    | fixed s =>
      dsimp only [shootOde] at hs'
      cases h1 : shootMoments s it t1 (.compound (Ds.map Deformable.silent ++ ms)) with
      | error e => rw [h1] at hs'; cases hs'
      | ok q =>
        rw [h1] at hs'; cases hs'
        exact ⟨(C29_solver _ hw h0 h1).1, fun l hl => by cases hl; exact C114_costs hw h0 h1⟩
    | adaptive => cases hs'
    | unknown => cases hs'
  refine ⟨geometries_kept hs key.1 hg, fun hwant hred => ?_⟩
  have hc := hcost hwant
  unfold reduceCost at hc
  rcases hred with rfl | rfl
  · cases costs with
    | none => cases hc
    | some l =>
      have := (Prod.mk.inj (Except.ok.inj hc)).1
      rw [← this]
      exact congrArg some (List.sum_eq_zero (key.2 l rfl))
  · dsimp only at hc
    cases h1 : r.shot.module.geodesic r.shot.module.manifold with
    | error e => rw [h1] at hc; cases hc
    | ok m' =>
      rw [h1] at hc
      dsimp only at hc
      cases h2 : m'.cost with
      | error e => rw [h2] at hc; cases hc
      | ok a =>
        rw [h2] at hc
        rw [← (Prod.mk.inj (Except.ok.inj hc)).1]
        have hwm : r.shot.module.NonnegWeights := by
          have hre := shoot_same hs (gdRow r.shot.module, cotRow r.shot.module)
          dsimp only at hre
          rw [rowsMod_self] at hre
          exact (nonneg_reset _).1 (hre ▸ (nonneg_reset _).2 (nonneg_rowsMod hw _))
        obtain ⟨H, f, -, h3, -, h4, -⟩ := C18_hamiltonian_is_cost _ _ _ hwm h1
        have hz : r.shot.module.manifold = ((DefModule.compound (Ds.map Deformable.silent ++ ms)).manifold.withGd (gdRow (.compound (Ds.map Deformable.silent ++ ms))) 0).withCot 0 0 := by
          rw [key.1, ← manifold_rowsMod _ (gdRow (.compound (Ds.map Deformable.silent ++ ms)), 0), ← cotRow_of_zero h0, rowsMod_self]
        rw [hz] at h4
        have := Mfd.innerProd_zeroCot f _ 0 h4
        have := Except.ok.inj (h2.symm.trans h3)
        congr 1
        linarith

/-! ## The model -/

/-- The momenta given to a model are zero. -/
def Spec.NoMomenta (Ds : List (Deformable d G)) (ms : List (DefModule d)) : Prop :=
  (∀ D ∈ Ds, D.cot = 0) ∧ ZeroMomenta (.compound ms)

theorem zeroMomenta_all {Ds : List (Deformable d G)} {ms : List (DefModule d)} (h : Spec.NoMomenta Ds ms) : ZeroMomenta (.compound (Ds.map Deformable.silent ++ ms)) := by
  obtain ⟨h1, h2⟩ := h
  induction Ds with
  | nil => exact h2
  | cons D Ds ih =>
    have := ih fun D' hD' => h1 D' (List.mem_cons_of_mem _ hD')
    unfold ZeroMomenta at this ⊢
    intro l hl
    rw [List.map_cons, List.cons_append, DefModule.manifold, DefModule.manifolds, Mfd.unrollCot, Mfd.unrollCotAll, List.mem_append] at hl
    rcases hl with hl | hl
    · rw [Deformable.silent, DefModule.manifold, h1 D List.mem_cons_self, Mfd.unrollCot] at hl
      rw [List.mem_singleton.1 hl]
      intro a ha
      simp [flatVecs] at ha
      exact ha.2
    · exact this l (by rw [DefModule.manifold, Mfd.unrollCot]; exact hl)

theorem new_momenta {Ds : List (Deformable d G)} {ms : List (DefModule d)} {as : List (Attach G T)} {lam : ℝ} {red : Reduce} {M : RegModel d G T}
    (h : RegModel.new Ds ms as none lam red = .ok M) : M = ⟨Ds, ms, as, Ds.map (fun D => D.silent.manifold) ++ DefModule.manifolds ms, none, lam, red⟩ := by
  unfold RegModel.new at h
  split at h
  · cases h
  · dsimp only at h
    split at h
    · cases h; rfl
    · cases h

/-- **C114.** A registration without learned controls and without momenta: its first evaluation reports
no cost of the deformation, and the losses of the undeformed shapes times the weight. -/
theorem C114_evaluate {Ds : List (Deformable d G)} {ms : List (DefModule d)} {as : List (Attach G T)} {lam : ℝ} {red : Reduce} (hred : red = .sum ∨ red = .previous)
    (hw : (DefModule.compound ms).NonnegWeights) (h0 : Spec.NoMomenta Ds ms) {M : RegModel d G T} (h : RegModel.new Ds ms as none lam red = .ok M)
    {targets : List T} {s : SolverName} {it : Nat} {R : Evaluated d G T} (hR : M.evaluate none targets s it [] = .ok R) :
    ∃ gs A, List.Forall₂ (fun (D : Deformable d G) g => D.toDeformed ⟨D.n, D.gd⟩ = .ok g) Ds gs ∧ attachmentCost as gs targets = .ok A ∧
      R.costs.get? .deformation = some 0 ∧ R.costs.get? .attach = some (lam * A) ∧ R.total = lam * A := by
  obtain ⟨-, pre, M₁, q, A, hpre, h1, h2, h3, h4⟩ := evaluate_inv hR
  rcases hpre with ⟨-, rfl, rfl⟩ | ⟨f, hf, -⟩
  swap
  · cases hf
  have hM := new_momenta h
  rw [DefModule.NonnegWeights] at hw
  have hw2 : (DefModule.compound (Ds.map Deformable.silent ++ ms)).NonnegWeights := by
    rw [DefModule.NonnegWeights]
    exact ⟨by simp [hw.1], nonneg_silents Ds hw.2⟩
  obtain ⟨ms', Ds', f1, f2, -, hcd, i1, i2, -⟩ := modelDeformed_inv h1
  have ems : ms' = ms := by
    rw [hM] at f1
    dsimp only at f1
    rw [List.drop_append_of_le_length (by simp), List.drop_of_length_le (by simp), List.nil_append, fillModules_self] at f1
    exact (Except.ok.inj f1).symm
  have eDs : Ds' = Ds := by
    rw [hM] at f2
    dsimp only at f2
    rw [fillDeformables_self] at f2
    exact (Except.ok.inj f2).symm
  have e1 : M₁.learned = none := by rw [hM]
  have e2 : M₁.reduce = red := by rw [hM]
  have e3 : M₁.attachments = as := by rw [hM]
  have e4 : M₁.lam = lam := by rw [hM]
  rw [ems, eDs, e1, e2] at hcd
  obtain ⟨hg, hc⟩ := C114_deformed hw2 (zeroMomenta_all h0) hcd
  rw [hc rfl hred, i2, e4] at h3
  rw [i1, e3] at h2
  refine ⟨q.geometries, A, hg, h2, ?_, ?_, ?_⟩
  · rw [h3]; simp [Dict.set, Dict.get?]
  · rw [h3]; simp [Dict.set, Dict.get?]
  · rw [h4, h3]; simp [totalCost, Dict.set]

theorem totalAt_nonneg {M : RegModel d G T} {targets : List T} (hM : Fittable M targets) (hlam : 0 ≤ M.lam)
    (hloss : ∀ a ∈ M.attachments, ∀ g t u, a.call g t = .ok u → 0 ≤ u) (fit : Option (List Nat)) (s : Solver) (it : Nat) (y : List (List ℝ)) :
    0 ≤ M.totalAt fit targets (.fixed s) it y := by
  obtain ⟨Ds, ms, as, lam, hnew⟩ := hM.built
  have hMe := new_eq hnew
  refine value_nonneg (M := M.atEntries fit y) rfl (by rw [hMe]; rfl) (regular_nonnegAll _ hM.regular) hM.some_module ?_ hlam hloss (hM.smooth fit s it y).1
  refine (sameKind_all (List.forall₂_drop _ (atEntries_kinds M fit _))).trans ?_
  show (Mfd.compound (M.init.drop M.deformables.length)).SameKind (DefModule.compound M.modules).manifold
  rw [hMe]
  dsimp only
  rw [List.drop_left' (by simp)]
  rfl

/-- The total where gradient descent starts. -/
theorem C114_start {M : RegModel d G T} {targets : List T} (hM : Fittable M targets) (h0 : Spec.NoMomenta M.deformables M.modules) {gs : List G}
    (hgs : List.Forall₂ (fun (D : Deformable d G) g => D.toDeformed ⟨D.n, D.gd⟩ = .ok g) M.deformables gs) {A : ℝ} (hA : attachmentCost M.attachments gs targets = .ok A)
    (fit : Option (List Nat)) (s : Solver) (it : Nat) : (M.atEntries fit (M.entriesOf fit)).value targets (.fixed s) it = .ok (M.lam * A) := by
  obtain ⟨Ds, ms, as, lam, hnew⟩ := hM.built
  have hMe := new_eq hnew
  have hself : M.atEntries fit (M.entriesOf fit) = M := by rw [C95_start, hMe]; rfl
  have hv := (hM.smooth fit s it (M.entriesOf fit)).1
  rw [hself] at hv ⊢
  rw [hv]
  unfold RegModel.value at hv
  cases hev : M.evaluate none targets (.fixed s) it [] with
  | error _ => rw [hev] at hv; cases hv
  | ok R =>
    rw [hev] at hv
    have hw : (DefModule.compound ms).NonnegWeights := by
      rw [DefModule.NonnegWeights]
      have h1 := regular_nonnegAll _ hM.regular
      have h2 := hM.some_module
      rw [hMe] at h1 h2
      exact ⟨h2, h1⟩
    have h0' : Spec.NoMomenta Ds ms := by rw [hMe] at h0; exact h0
    obtain ⟨gs', A', e1, e2, -, -, e3⟩ := C114_evaluate (.inl rfl) hw h0' hnew hev
    have e4 : gs' = gs := by
      rw [hMe] at hgs
      refine List.ext_getElem (e1.length_eq.symm.trans hgs.length_eq) fun i h1 h2 => ?_
      have hi : i < Ds.length := by rw [e1.length_eq]; exact h1
      exact Except.ok.inj (((List.forall₂_iff_get.1 e1).2 i hi h1).symm.trans ((List.forall₂_iff_get.1 hgs).2 i hi h2))
    have e5 : A' = A := by
      rw [e4] at e2
      rw [hMe] at hA
      exact Except.ok.inj (e2.symm.trans hA)
    have e6 : M.lam = lam := by rw [hMe]
    rw [← Except.ok.inj hv, show Evaluated.total R = lam * A' from e3, e5, e6]

/-- A registration that can be fitted and has no momenta: along every run of gradient descent as in C95
the total is at most the weighted loss of the undeformed shapes. -/
theorem C114_bound {M : RegModel d G T} {targets : List T} (hM : Fittable M targets) (h0 : Spec.NoMomenta M.deformables M.modules) {gs : List G}
    (hgs : List.Forall₂ (fun (D : Deformable d G) g => D.toDeformed ⟨D.n, D.gd⟩ = .ok g) M.deformables gs) {A : ℝ} (hA : attachmentCost M.attachments gs targets = .ok A)
    (fit : Option (List Nat)) (s : Solver) (it : Nat) (cf : GDConf ℝ) (initStep : ℝ) (ho : cf.opts.length = (M.entriesOf fit).length)
    (hstep : ∀ a ∈ gdInitSteps initStep cf.opts, 0 ≤ a) (hγ : ∀ o ∈ cf.opts, 0 ≤ o.gamma1.getD cf.gamma1 ∧ o.gamma1.getD cf.gamma1 < 1 ∧ 0 ≤ o.gamma2.getD cf.gamma2) :
    ∃ run : Nat → GDState ℝ ℝ, run 0 = ⟨M.entriesOf fit, gdInitSteps initStep cf.opts⟩ ∧ ∀ i, (∃ bound, ∀ fuel ≥ bound, gdStep (M.descent fit targets (.fixed s) it) cf fuel (run i) = some (run (i + 1))) ∧
      ∃ v, (M.atEntries fit (run i).params).value targets (.fixed s) it = .ok v ∧ v ≤ M.lam * A := by
  obtain ⟨run, v, h1, h2, h3⟩ := C95_fit hM fit s it cf initStep ho hstep hγ
  have hv0 := (h3 0).2.1
  rw [h1, C114_start hM h0 hgs hA fit s it] at hv0
  exact ⟨run, h1, fun i => ⟨(h3 i).2.2, v i, (h3 i).2.1, (h2 (Nat.zero_le i)).trans (Except.ok.inj hv0).ge⟩⟩

/-- If the undeformed shapes have no loss, gradient descent leaves the parameters and step lengths as
they are, and the optimiser reports convergence with the total zero. -/
theorem C114_fit {M : RegModel d G T} {targets : List T} (hM : Fittable M targets) (h0 : Spec.NoMomenta M.deformables M.modules) (hlam : 0 ≤ M.lam)
    (hloss : ∀ a ∈ M.attachments, ∀ g t u, a.call g t = .ok u → 0 ≤ u) {gs : List G}
    (hgs : List.Forall₂ (fun (D : Deformable d G) g => D.toDeformed ⟨D.n, D.gd⟩ = .ok g) M.deformables gs) (hzero : attachmentCost M.attachments gs targets = .ok 0)
    (fit : Option (List Nat)) (s : Solver) (it : Nat) (cf : GDConf ℝ) {steps : List ℝ} (ho : cf.opts.length = (M.entriesOf fit).length) (hl : steps.length = (M.entriesOf fit).length) :
    (M.atEntries fit (M.entriesOf fit)).value targets (.fixed s) it = .ok 0 ∧
    (∀ fuel, gdStep (M.descent fit targets (.fixed s) it) cf (fuel + 1) ⟨M.entriesOf fit, steps⟩ = some ⟨M.entriesOf fit, steps⟩) ∧
    (∀ (tol : Option ℝ) (miniter maxIter : Nat), 0 ≤ tol.getD (1 / 10 ^ 10) → 1 < maxIter → miniter < maxIter →
      (torchOptimize (fun _ => .fin (0 : ℝ)) tol miniter maxIter).2 = .ok ⟨true, .fin 0, .converged⟩) := by
  have hv := C114_start hM h0 hgs hzero fit s it
  rw [mul_zero] at hv
  have ht : M.totalAt fit targets (.fixed s) it (M.entriesOf fit) = 0 := Except.ok.inj ((hM.smooth fit s it (M.entriesOf fit)).1.symm.trans hv)
  obtain ⟨-, h2, v, h3, h4⟩ := C113_registration_partial hM fit s it cf ho hl (y := M.entriesOf fit) (steps := steps)
    ⟨1, one_pos, fun y _ _ => by rw [ht]; exact totalAt_nonneg hM hlam hloss fit s it y⟩
  obtain rfl : v = 0 := Except.ok.inj (h3.symm.trans hv)
  exact ⟨hv, h2, h4⟩

/-! ## A case -/

theorem exampleReg_fittable (t : Vec 2) {M : RegModel 2 (Points 2) (Vec 2)}
    (hM : RegModel.new [exampleLandmark] [exampleTranslation] [exampleSquares] none 3 .sum = .ok M) : Fittable M [t] := by
  have hMe := new_eq hM
  refine ⟨⟨_, _, _, _, hM⟩, ?_, ⟨exampleLandmark, ?_, by simp [exampleLandmark]⟩, ?_, ?_, ?_, ?_⟩
  all_goals rw [hMe]
  · simp [exampleLandmark]
  · exact List.mem_cons_self ..
  · simp [DefModule.AllRegular, DefModule.Regular, exampleTranslation]
  · simp
  · intro m hm
    simp only [exampleTranslation, DefModule.manifolds, DefModule.manifold, Implicit0.manifold, List.mem_cons, List.not_mem_nil, or_false] at hm
    subst hm; exact Or.inr rfl
  · refine ⟨fun x => ⟨fun x => 1 * ∑ i, ∑ c, (x i c - t c) ^ 2, ?_, Filter.Eventually.of_forall fun x => rfl⟩, trivial⟩
    fun_prop

theorem exampleReg_still : Spec.NoMomenta [exampleLandmark] [exampleTranslation] := by
  refine ⟨by simp [exampleLandmark], fun l hl a ha => ?_⟩
  simp only [exampleTranslation, DefModule.manifold, DefModule.manifolds, Implicit0.manifold, Mfd.unrollCot, Mfd.unrollCotAll, List.append_nil, List.mem_singleton] at hl
  subst hl
  simp [flatVecs] at ha
  exact ha

/-- The landmark of C94 lies at the origin. With a target elsewhere the first total is three times the
squared distance. With the origin as its target the fit stays where it is and reports convergence. -/
example (t : Vec 2) (s : Solver) (it : Nat) : ∃ M : RegModel 2 (Points 2) (Vec 2),
    RegModel.new [exampleLandmark] [exampleTranslation] [exampleSquares] none 3 .sum = .ok M ∧
    (M.atEntries none (M.entriesOf none)).value [t] (.fixed s) it = .ok (3 * ∑ c, t c ^ 2) ∧
    (∀ fuel, gdStep (M.descent none [0] (.fixed s) it) ⟨1 / 5, 13 / 10, [⟨none, none, none⟩]⟩ (fuel + 1) ⟨M.entriesOf none, [1]⟩ = some ⟨M.entriesOf none, [1]⟩) ∧
    (torchOptimize (fun _ => .fin (0 : ℝ)) none 0 50).2 = .ok ⟨true, .fin 0, .converged⟩ := by
  obtain ⟨M, hM⟩ : ∃ M, RegModel.new [exampleLandmark] [exampleTranslation] [exampleSquares] none 3 .sum = .ok M := ⟨_, rfl⟩
  have hMe := new_eq hM
  have hdef : M.deformables = [exampleLandmark] := by rw [hMe]
  have hst : Spec.NoMomenta M.deformables M.modules := by rw [hMe]; exact exampleReg_still
  have hgs : List.Forall₂ (fun (D : Deformable 2 (Points 2)) g => D.toDeformed ⟨D.n, D.gd⟩ = .ok g) M.deformables [⟨1, 0⟩] := by
    rw [hdef]
    exact .cons rfl .nil
  have hA : ∀ t : Vec 2, attachmentCost M.attachments [⟨1, 0⟩] [t] = .ok (∑ c, t c ^ 2) := by
    intro t
    rw [hMe]
    show (.ok (1 * (∑ i : Fin 1, ∑ c : Fin 2, ((0 : Fin 1 → Vec 2) i c - t c) ^ 2) + 0) : Py ℝ) = _
    simp
  refine ⟨M, hM, ?_, ?_⟩
  · rw [C114_start (exampleReg_fittable t hM) hst hgs (hA t) none s it, hMe]
  · have hloss : ∀ a ∈ M.attachments, ∀ g t u, a.call g t = .ok u → 0 ≤ u := by
      rw [hMe]
      intro a ha g t u hu
      rw [List.mem_singleton.1 ha] at hu
      cases hu
      show 0 ≤ 1 * ∑ i, ∑ c, (g.x i c - t c) ^ 2
      positivity
    obtain ⟨-, h2, h3⟩ := C114_fit (exampleReg_fittable 0 hM) hst (by rw [hMe]; norm_num) hloss hgs (by simpa using hA 0) none s it ⟨1 / 5, 13 / 10, [⟨none, none, none⟩]⟩ (steps := [1]) rfl rfl
    exact ⟨h2, h3 none 0 50 (by norm_num) (by norm_num) (by norm_num)⟩

end
end Imodal
