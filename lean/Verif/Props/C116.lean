import Verif.Props.C115
/-!
# C116: with learned controls the momenta play no part
-/
set_option autoImplicit false
namespace Imodal
noncomputable section
open Filter Topology
variable {d : Nat} {G T : Type}

/-! ## Shooting with given controls -/

theorem ctrlRhs_withCot (y : Row) (m : DefModule d) (c : Ctrl d) (x : Row) : ctrlRhs (m.withCot y 0) c x = ctrlRhs m c x := by
  unfold ctrlRhs ctrlEval
  rw [DefModule.withGd_withCot, fill_withCot]
  cases (m.withGd x 0).fillControls c with
  | error e => rfl
  | ok m' =>
    simp only [Except.map, cost_withCot, field_withCot, DefModule.manifold_withCot, action_withCot]
    cases m'.cost with
    | error e => rfl
    | ok a =>
      dsimp only
      cases m'.field with
      | error e => rfl
      | ok f =>
        dsimp only
        cases m'.manifold.action f with
        | error e => rfl
        | ok v => rfl

theorem costAt_withCot {y : Row} {m : DefModule d} {c : Ctrl d} {x : Row} {a a' : ℝ} (h : CtrlCostAt m c x a) (h' : CtrlCostAt (m.withCot y 0) c x a') : a' = a := by
  obtain ⟨m₁, h1, h2⟩ := h
  obtain ⟨m₂, h3, h4⟩ := h'
  rw [DefModule.withGd_withCot, fill_withCot, h1] at h3
  cases h3
  rw [cost_withCot, h2] at h4
  exact (Except.ok.inj h4).symm

/-- **C116.** With given controls the momenta have no part in the trajectory: shooting from other
momenta costs the same at each step and passes through the same descriptors, and the momenta stay as
they were given. -/
theorem C116_shoot {ms : List (DefModule d)} (y : Row) {s : Solver} {it : Nat} {t1 : ℝ} {controls : List (Ctrl d)} {r r' : Shot d}
    (h : shootControls s it t1 controls (.compound ms) = .ok r) (h' : shootControls s it t1 controls ((DefModule.compound ms).withCot y 0) = .ok r') :
    r'.costs = r.costs ∧ r'.states = r.states.map (fun M => M.withCot y 0) ∧ r'.module.reset = (r.module.withCot y 0).reset := by
  rw [DefModule.withCot] at h'
  obtain ⟨-, xs, h1, h2, h3, h4, h5⟩ := shootC_parts h
  obtain ⟨-, xs', h1', h2', h3', h4', h5'⟩ := shootC_parts h'
  rw [← DefModule.withCot] at h1' h2' h3' h5'
  have hrhs : pickRhs ((DefModule.compound ms).withCot y 0) controls t1 it = pickRhs (.compound ms) controls t1 it := by
    funext t n x
    unfold pickRhs
    simp only [ctrlRhs_withCot]
  rw [hrhs, gdRow_withCot, h1] at h1'
  obtain rfl := Except.ok.inj h1'
  refine ⟨List.ext_getElem (by rw [h4, h4']) fun j hj hj' => ?_, ?_, ?_⟩
  · rw [h4'] at hj
    obtain ⟨x, a, p1, ⟨c, p2, p3⟩, p4, p5⟩ := h5 j hj
    obtain ⟨x', a', p1', ⟨c', p2', p3'⟩, p4', p5'⟩ := h5' j hj
    rw [p2] at p2'
    obtain rfl := Except.ok.inj p2'
    have hx : x' = x := by
      by_cases hs : s ≠ .rk4 ∨ j = 0
      · exact Option.some.inj ((p4' hs).symm.trans (p4 hs))
      · push Not at hs
        obtain ⟨i, rfl⟩ := Nat.exists_eq_succ_of_ne_zero hs.2
        obtain ⟨u, q1, q2⟩ := p5 hs.1 i rfl
        obtain ⟨u', q1', q2'⟩ := p5' hs.1 i rfl
        rw [q1] at q1'
        obtain rfl := Option.some.inj q1'
        rw [hrhs, q2] at q2'
        exact (Except.ok.inj q2').symm
    subst hx
    rw [List.getElem?_eq_getElem (by omega)] at p1 p1'
    rw [Option.some.inj p1, Option.some.inj p1']
    exact costAt_withCot p3 p3'
  · rw [h2, h2', List.map_map]
    refine List.map_congr_left fun x _ => ?_
    rw [Function.comp_apply, DefModule.withGd_withCot, DefModule.manifold_withCot]
  · rw [h3', gdRow_withCot, DefModule.withGd_withCot, reset_withCot, reset_withCot, h3]

/-! ## Registration -/

theorem pointsOf_withCot (y : Row) (off : Nat) (m : DefModule d) : pointsOf (m.withCot y off) = pointsOf m := by
  cases m with
  | silent s => cases s <;> rw [DefModule.withCot] <;> rfl
  | _ => rw [DefModule.withCot] <;> rfl

theorem toGeometries_withCot (y : Row) : {Ds Ds' : List (Deformable d G)} → (off : Nat) → (ms : List (DefModule d)) → List.Forall₂ Alike Ds Ds' →
    toGeometries Ds' (DefModule.withCotAll y off ms) = toGeometries Ds ms
  | [], _, _, ms, h => by cases h; simp [toGeometries]
  | D :: Ds, _, off, [], h => by
    cases h
    rw [DefModule.withCotAll]
    simp [toGeometries]
  | D :: Ds, _, off, m :: ms, h => by
    cases h with
    | cons h1 h2 =>
      rw [DefModule.withCotAll, toGeometries, toGeometries, pointsOf_withCot, toGeometries_withCot y _ ms h2, h1.2.2]

theorem alike_refl (Ds : List (Deformable d G)) : List.Forall₂ Alike Ds Ds := List.forall₂_same.2 fun _ _ => ⟨rfl, rfl, rfl⟩

theorem alike_both {A B C : List (Deformable d G)} (h : List.Forall₂ Alike A B) (h' : List.Forall₂ Alike A C) : List.Forall₂ Alike B C := by
  induction h generalizing C with
  | nil => cases h'; exact .nil
  | cons h _ ih =>
    cases h' with
    | cons h1 h2 => exact .cons ⟨h1.1.trans h.1.symm, h1.2.1.trans h.2.1.symm, h1.2.2.trans h.2.2.symm⟩ (ih h2)

/-- **C116.** Evaluating a registration model with the same learned controls and descriptors and other
momenta gives the same total. -/
theorem C116_value {Ds : List (Deformable d G)} {ms : List (DefModule d)} {as : List (Attach G T)} {lam : ℝ} {M : RegModel d G T}
    (hnew : RegModel.new Ds ms as none lam .sum = .ok M) {init init' : List (Mfd d)} (hk : List.Forall₂ Mfd.SameKind init M.init)
    (hk' : List.Forall₂ Mfd.SameKind init' M.init) (hgd : (Mfd.compound init').unrollGd = (Mfd.compound init).unrollGd)
    (N : Nat) (cs : List (List (Ctrl d))) (targets : List T) (s : Solver) (it : Nat) {v v' : ℝ}
    (h : (M.setValues init (some (N, cs))).value targets (.fixed s) it = .ok v)
    (h' : (M.setValues init' (some (N, cs))).value targets (.fixed s) it = .ok v') : v' = v := by
  have hM := model_eq hnew
  subst hM
  set M : RegModel d G T := ⟨Ds, ms, as, Ds.map (fun D => D.silent.manifold) ++ DefModule.manifolds ms, none, lam, .sum⟩ with hMdef
  have hdrop : M.init.drop M.deformables.length = DefModule.manifolds ms := by
    rw [hMdef]
    dsimp only
    rw [List.drop_append_of_le_length (by simp), List.drop_of_length_le (by simp), List.nil_append]
  have hkept : M.Kept := by
    unfold RegModel.Kept
    rw [hdrop, DefModule.manifold]
    rfl
  have hlen : M.deformables.length ≤ M.init.length := by rw [hMdef]; simp
  have h1 : fillModules M.modules (M.init.drop M.deformables.length) = .ok ms := by rw [hdrop]; exact fillModules_self ms
  have h2 : fillDeformables M.deformables M.init = .ok Ds := fillDeformables_self _ Ds
  obtain ⟨ms₁, Ds₁, a1, a2, a3, a4⟩ := joined_rows hkept hlen hk h1 h2
  obtain ⟨ms₂, Ds₂, b1, b2, b3, b4⟩ := joined_rows hkept hlen hk' h1 h2
  have hrows : DefModule.compound (Ds₂.map Deformable.silent ++ ms₂) = (DefModule.compound (Ds₁.map Deformable.silent ++ ms₁)).withCot (Mfd.compound init').rows.2 0 := by
    rw [b4, a4]
    unfold rowsMod Mfd.rows
    dsimp only
    rw [DefModule.withCot_withCot, hgd]
  have halike := alike_both a3 b3
  unfold RegModel.value at h h'
  obtain ⟨R, hR, rfl⟩ := py_map_ok h
  obtain ⟨R', hR', rfl⟩ := py_map_ok h'
  obtain ⟨-, pre, M₁, q, A, hpre, hq, hA, hc, htot⟩ := evaluate_inv hR
  obtain ⟨-, pre', M₁', q', A', hpre', hq', hA', hc', htot'⟩ := evaluate_inv hR'
  obtain ⟨-, rfl, rfl⟩ | ⟨f, hf, -⟩ := hpre
  swap
  · cases hf
  obtain ⟨-, rfl, rfl⟩ | ⟨f, hf, -⟩ := hpre'
  swap
  · cases hf
  obtain ⟨ms₁', Ds₁', c1, c2, -, hcd, e1, e2, -⟩ := modelDeformed_inv hq
  obtain ⟨ms₂', Ds₂', d1, d2, -, hcd', e1', e2', -⟩ := modelDeformed_inv hq'
  obtain rfl : ms₁' = ms₁ := Except.ok.inj (c1.symm.trans a1)
  obtain rfl : Ds₁' = Ds₁ := Except.ok.inj (c2.symm.trans a2)
  obtain rfl : ms₂' = ms₂ := Except.ok.inj (d1.symm.trans b1)
  obtain rfl : Ds₂' = Ds₂ := Except.ok.inj (d2.symm.trans b2)
  obtain ⟨c, k1, -, k2⟩ := C34_partial hcd (by simp [RegModel.setValues, hMdef])
  obtain ⟨c', k1', -, k2'⟩ := C34_partial hcd' (by simp [RegModel.setValues, hMdef])
  obtain ⟨-, hg, costs, hs, -⟩ := computeDeformed_inv hcd
  obtain ⟨-, hg', costs', hs', -⟩ := computeDeformed_inv hcd'
  obtain ⟨hs, -⟩ := fixed_shot hs
  obtain ⟨hs', -⟩ := fixed_shot hs'
  have hpad : padControls Ds₁'.length (some cs) = some (cs.map fun l => .list (List.replicate Ds.length .none ++ l)) := by rw [alike_length a3]; rfl
  have hpad' : padControls Ds₂'.length (some cs) = some (cs.map fun l => .list (List.replicate Ds.length .none ++ l)) := by rw [alike_length b3]; rfl
  have hst : (M.setValues init (some (N, cs))).steps it = N := rfl
  have hst' : (M.setValues init' (some (N, cs))).steps it = N := rfl
  dsimp only at hs hs'
  rw [hst, show (M.setValues init (some (N, cs))).learned.map Prod.snd = some cs from rfl, hpad, shootOde] at hs
  rw [hst', show (M.setValues init' (some (N, cs))).learned.map Prod.snd = some cs from rfl, hpad', shootOde, hrows] at hs'
  obtain ⟨q1, -, q3⟩ := C116_shoot _ hs hs'
  have hgeo : q'.geometries = q.geometries := by
    rw [toGeometries_of_reset _ q3] at hg'
    obtain ⟨L, hL, -⟩ := same_compound (shoot_same (s := .fixed s) (it := N) (t1 := 1) (controls := some (cs.map fun l => .list (List.replicate Ds.length .none ++ l)))
      (r := (q.shot, some q.shot.costs)) (by unfold shoot shootOde; dsimp only; rw [hs]))
    dsimp only at hL
    rw [hL] at hg hg'
    rw [DefModule.withCot, DefModule.members, toGeometries_withCot _ _ _ halike] at hg'
    rw [DefModule.members, hg'] at hg
    exact Except.ok.inj hg
  have hAA : A' = A := by
    rw [e1', hgeo] at hA'
    rw [e1] at hA
    exact Except.ok.inj (hA'.symm.trans hA)
  have hcc : c' = c := by rw [k2', k2, q1]
  rw [htot, htot', hc, hc', k1, k1', e2, e2', hAA, hcc]
  rfl

/-! ## Fitting -/

theorem total_cons {M : RegModel d G T} {s : Solver} {targets : List T} (hM : Trainable M s targets) (fit : Option (List Nat)) (it : Nat) (a b : List ℝ) (y : List (List ℝ)) :
    M.learnedTotal fit targets (.fixed s) it (a :: y) = M.learnedTotal fit targets (.fixed s) it (b :: y) := by
  obtain ⟨Ds, ms, as, N, ones, lam, hnew⟩ := hM.built
  obtain ⟨cs, hcs, -⟩ := C28_learnt hnew
  have h0 := new_plain hnew
  have h1 := (hM.smooth fit it (a :: y)).1
  have h2 := (hM.smooth fit it (b :: y)).1
  have hlen : ∃ k, (M.entriesOf fit).length = k + 1 := by cases fit <;> exact ⟨_, rfl⟩
  obtain ⟨k, hk⟩ := hlen
  unfold RegModel.atLearned at h1 h2
  rw [hcs, hk, List.getD_cons_succ] at h1 h2
  refine (C116_value h0 (atEntries_kinds M fit _) (atEntries_kinds M fit _) ?_ _ _ targets s it h2 h1)
  have key : ∀ (x p : Row), (Mfd.compound (Mfd.withCotAll p 0 (Mfd.withGdAll x 0 M.init))).unrollGd = (Mfd.compound (Mfd.withGdAll x 0 M.init)).unrollGd := fun x p => by
    have := Mfd.unrollGd_withCot p (.compound (Mfd.withGdAll x 0 M.init)) 0
    rwa [Mfd.withCot] at this
  unfold RegModel.atEntries RegModel.setValues
  dsimp only
  rw [key, key]
  cases fit <;> rfl

/-- **C116.** The gradient with respect to the momenta is zero. -/
theorem C116_gradient {M : RegModel d G T} {s : Solver} {targets : List T} (hM : Trainable M s targets) (fit : Option (List Nat)) (it : Nat) (p : List ℝ) (y : List (List ℝ)) :
    ∃ g, (M.learnedDescent fit targets (.fixed s) it).grad (p :: y) = List.replicate p.length 0 :: g := by
  show ∃ g, partials _ (p :: y) = _
  unfold partials
  rw [gdFill]
  refine ⟨_, congrArg (· :: _) ?_⟩
  refine List.ext_getElem (by rw [length_overwrite, List.length_replicate]) fun i h1 h2 => ?_
  rw [List.getElem_replicate]
  rw [length_overwrite] at h1
  have h3 := getD_overwrite p (List.ofFn fun i : Fin (p :: y).flatten.length =>
    deriv (fun u => M.learnedTotal fit targets (.fixed s) it (gdFill (p :: y) ((p :: y).flatten.set i u))) ((p :: y).flatten.getD i 0)) i
  have hi : i < (p :: y).flatten.length := by rw [List.flatten_cons, List.length_append]; omega
  rw [List.getD_eq_getElem _ _ (by rwa [length_overwrite]), if_pos ⟨h1, by simpa using hi⟩, List.getD_eq_getElem _ _ (by simpa using hi), List.getElem_ofFn] at h3
  rw [h3]
  have hconst : (fun u => M.learnedTotal fit targets (.fixed s) it (gdFill (p :: y) ((p :: y).flatten.set i u))) = fun _ => M.learnedTotal fit targets (.fixed s) it (p :: y) := by
    funext u
    rw [gdFill, List.flatten_cons, List.set_append_left _ _ h1, List.drop_left' (by simp), gdFill_flatten y y rfl]
    exact total_cons hM fit it _ _ y
  dsimp only
  rw [hconst, deriv_const]

/-- **C116.** Gradient descent leaves the momenta as they are: they are the same at all its steps. -/
theorem C116_fit {M : RegModel d G T} {s : Solver} {targets : List T} (hM : Trainable M s targets) (fit : Option (List Nat)) (it : Nat) (cf : GDConf ℝ)
    (ho : cf.opts.length = (M.learnedEntries fit).length) {run : Nat → GDState ℝ ℝ} (h0 : (run 0).params = M.learnedEntries fit) (hl : (run 0).steps.length = (M.learnedEntries fit).length)
    (hrun : ∀ i, ∃ fuel, gdStep (M.learnedDescent fit targets (.fixed s) it) cf fuel (run i) = some (run (i + 1))) (i : Nat) :
    (run i).params.getD 0 [] = (Mfd.compound M.init).unrollCot.flatten ∧ (run i).params.length = (M.learnedEntries fit).length := by
  suffices h : (run i).params.getD 0 [] = (Mfd.compound M.init).unrollCot.flatten ∧ (run i).params.length = (M.learnedEntries fit).length ∧
      (run i).steps.length = (M.learnedEntries fit).length from ⟨h.1, h.2.1⟩
  induction i with
  | zero => rw [h0]; exact ⟨by cases fit <;> rfl, rfl, hl⟩
  | succ i ih =>
    obtain ⟨ih1, ih2, ih3⟩ := ih
    obtain ⟨fuel, hf⟩ := hrun i
    have hfits : GDFits (M.learnedDescent fit targets (.fixed s) it) cf (run i) := ⟨by rw [ho, ih2], by rw [ih3, ih2], gdFill_shape _ _⟩
    obtain ⟨n, -, -, -, hp, hst⟩ := C40_move _ cf fuel _ _ hfits hf
    have hlen : (trialSteps cf (run i).steps n).length = (run i).params.length := by simp [trialSteps, ho, ih3, ih2]
    have hpar : (run (i + 1)).params.length = (run i).params.length ∧ (run (i + 1)).params.getD 0 [] = (run i).params.getD 0 [] := by
      rw [hp, trial]
      have hg0 : (gdMove (run i).params ((M.learnedDescent fit targets (.fixed s) it).grad (run i).params) (trialSteps cf (run i).steps n)).length = (run i).params.length := by
        have := congrArg List.length (gdMove_shape (run i).params _ (trialSteps cf (run i).steps n) hfits.grad hlen)
        simpa using this.symm
      refine ⟨hg0, ?_⟩
      match hq : (run i).params, ht : trialSteps cf (run i).steps n with
      | [], _ => rw [hq] at ih2; cases fit <;> simp [RegModel.learnedEntries, RegModel.entriesOf] at ih2
      | p :: y, [] => rw [hq, ht] at hlen; cases hlen
      | p :: y, a :: t =>
        obtain ⟨g, hg⟩ := C116_gradient hM fit it p y
        rw [hg, gdMove, List.zip_cons_cons, List.zipWith_cons_cons, List.getD_cons_zero, List.getD_cons_zero]
        refine List.ext_getElem (by simp) fun j h1 h2 => ?_
        rw [List.getElem_zipWith, List.getElem_replicate, smul_zero, sub_zero]
    refine ⟨hpar.2.trans ih1, hpar.1.trans ih2, ?_⟩
    rw [hst]
    split
    · rw [increasedSteps, List.length_zipWith, ho, ih3, min_self]
    · rw [trialSteps, List.length_zipWith, ho, ih3, min_self]

/-! ## Cases -/

/-- A regularised translation shot with three controls, from two choices of momenta. -/
example (y : Row) (s : Solver) (u : Fin 3 → Fin 1 → Vec 2) : ∃ r r' : Shot 2,
    shootControls s 3 1 [.list [.vecs (u 0)], .list [.vecs (u 1)], .list [.vecs (u 2)]] (.compound [exampleTranslation]) = .ok r ∧
    shootControls s 3 1 [.list [.vecs (u 0)], .list [.vecs (u 1)], .list [.vecs (u 2)]] ((DefModule.compound [exampleTranslation]).withCot y 0) = .ok r' ∧
    r'.costs = r.costs := by
  have key : ∀ y, ∃ r, shootControls s 3 1 [.list [.vecs (u 0)], .list [.vecs (u 1)], .list [.vecs (u 2)]] ((DefModule.compound [exampleTranslation]).withCot y 0) = .ok r := fun y => by
    rw [DefModule.withCot]
    refine C69_controls _ ?_ ?_ ?_ s 3 one_ne_zero _ (Or.inl rfl) ?_
    · simp [DefModule.Settable, DefModule.AllSettable, DefModule.withCotAll, DefModule.withCot, exampleTranslation]
    · intro m hm
      simp only [exampleTranslation, DefModule.withCotAll, DefModule.withCot, DefModule.manifolds, DefModule.manifold, Implicit0.manifold, List.mem_cons, List.not_mem_nil, or_false] at hm
      subst hm; exact Or.inr rfl
    · rw [← DefModule.withCot]
      simp [numCoords, exampleTranslation, DefModule.withCot, DefModule.withCotAll, DefModule.manifold, DefModule.manifolds, Implicit0.manifold, Mfd.unrollGd, Mfd.unrollGdAll, flatVecs]
    · intro c hc
      simp only [List.mem_cons, List.not_mem_nil, or_false] at hc
      rcases hc with rfl | rfl | rfl <;> simp [DefModule.Fits, DefModule.FitsAll, DefModule.withCotAll, DefModule.withCot, exampleTranslation]
  obtain ⟨r, hr⟩ := key (cotRow (.compound [exampleTranslation]))
  rw [DefModule.withCot_cotRow] at hr
  obtain ⟨r', hr'⟩ := key y
  exact ⟨r, r', hr, hr', (C116_shoot y hr hr').1⟩

/-- The registration of one landmark with learned controls (C115): the descent moves no momenta. -/
example (t : Vec 2) (s : Solver) (ones : Bool) (it : Nat) : ∃ M : RegModel 2 (Points 2) (Vec 2),
    RegModel.new [exampleLandmark] [exampleTranslation] [exampleSquares] (some (.fixed s, 2, ones)) 3 .sum = .ok M ∧
    ∃ run : Nat → GDState ℝ ℝ, (run 0).params = M.learnedEntries none ∧
      (∀ i, ∃ fuel, gdStep (M.learnedDescent none [t] (.fixed s) it) ⟨1 / 5, 13 / 10, [⟨none, none, none⟩, ⟨none, none, none⟩]⟩ fuel (run i) = some (run (i + 1))) ∧
      ∀ i, (run i).params.getD 0 [] = (Mfd.compound M.init).unrollCot.flatten := by
  obtain ⟨M, hM⟩ : ∃ M, RegModel.new [exampleLandmark] [exampleTranslation] [exampleSquares] (some (.fixed s, 2, ones)) 3 .sum = .ok M := by
    cases s <;> exact ⟨_, rfl⟩
  have hfit := exampleLearned_trainable t hM
  obtain ⟨run, v, h1, -, -, h3⟩ := C115_fit hfit none it ⟨1 / 5, 13 / 10, [⟨none, none, none⟩, ⟨none, none, none⟩]⟩ 1 rfl
    (by simp [gdInitSteps]) (by simp; norm_num)
  have hrun : ∀ i, ∃ fuel, gdStep (M.learnedDescent none [t] (.fixed s) it) ⟨1 / 5, 13 / 10, [⟨none, none, none⟩, ⟨none, none, none⟩]⟩ fuel (run i) = some (run (i + 1)) := fun i => by
    obtain ⟨b, hb⟩ := (h3 i).2.2
    exact ⟨b, hb b le_rfl⟩
  exact ⟨M, hM, run, by rw [h1], hrun, fun i => (C116_fit hfit none it _ rfl (by rw [h1]) (by rw [h1]; rfl) hrun i).1⟩

end
end Imodal
