import Verif.Props.C114
import Verif.Model.RegFrom
/-!
# C125: what a registration model may be built from, and what moves without modules

Deformables, modules and attachments may be given as any container. Iterators of deformables or
attachments are refused. An iterator of modules is accepted and used up while the model is built: its
initial state, and so the parameters for the optimiser, belong to all modules, but nothing is deformed,
since shapes without modules stay where they are whatever the momenta.
-/
set_option autoImplicit false
namespace Imodal
noncomputable section
variable {d : Nat} {G T : Type}

/-! ## Without modules nothing moves -/

/-- A compound of silent modules, at least one. -/
def Quiet (m : DefModule d) : Prop := ∃ S : List (Mfd d), S ≠ [] ∧ m = .compound (S.map .silent)

theorem quiet_withGd : (S : List (Mfd d)) → (x : Row) → (off : Nat) → ∃ S' : List (Mfd d), S'.length = S.length ∧ DefModule.withGdAll x off (S.map .silent) = S'.map .silent
  | [], _, _ => ⟨[], rfl, rfl⟩
  | M :: S, x, off => by
    obtain ⟨S', h1, h2⟩ := quiet_withGd S x (off + (DefModule.silent M).manifold.size)
    exact ⟨M.withGd x off :: S', by simp [h1], by simp only [List.map_cons, DefModule.withGdAll, h2]; rfl⟩

theorem quiet_withCot : (S : List (Mfd d)) → (x : Row) → (off : Nat) → ∃ S' : List (Mfd d), S'.length = S.length ∧ DefModule.withCotAll x off (S.map .silent) = S'.map .silent
  | [], _, _ => ⟨[], rfl, rfl⟩
  | M :: S, x, off => by
    obtain ⟨S', h1, h2⟩ := quiet_withCot S x (off + (DefModule.silent M).manifold.size)
    exact ⟨M.withCot x off :: S', by simp [h1], by simp only [List.map_cons, DefModule.withCotAll, h2]; rfl⟩

theorem Quiet.rowsMod {m : DefModule d} (h : Quiet m) (x : Row × Row) : Quiet (rowsMod m x) := by
  obtain ⟨S, hS, rfl⟩ := h
  obtain ⟨S1, a1, b1⟩ := quiet_withGd S x.1 0
  obtain ⟨S2, a2, b2⟩ := quiet_withCot S1 x.2 0
  refine ⟨S2, ?_, ?_⟩
  · rintro rfl
    apply hS
    apply List.eq_nil_of_length_eq_zero
    rw [← a1, ← a2]; rfl
  · rw [Imodal.rowsMod, DefModule.withGd, b1, DefModule.withCot, b2]

theorem geodesics_silents (man : Mfd d) : (S : List (Mfd d)) → DefModule.geodesics man (S.map .silent) = .ok (S.map .silent)
  | [] => rfl
  | M :: S => by
    rw [List.map_cons, DefModule.geodesics, DefModule.geodesic]
    dsimp only
    rw [geodesics_silents man S]

theorem costs_silents : (S : List (Mfd d)) → DefModule.costs (S.map .silent) = .ok (0 : ℝ)
  | [] => rfl
  | M :: S => by
    rw [List.map_cons, DefModule.costs, DefModule.cost]
    dsimp only
    rw [costs_silents S]
    dsimp only
    rw [add_zero]

theorem Quiet.geodesic {m : DefModule d} (h : Quiet m) (man : Mfd d) : m.geodesic man = .ok m := by
  obtain ⟨S, -, rfl⟩ := h
  rw [DefModule.geodesic, geodesics_silents]

theorem Quiet.cost {m : DefModule d} (h : Quiet m) : m.cost = .ok 0 := by
  obtain ⟨S, -, rfl⟩ := h
  rw [DefModule.cost, costs_silents]

theorem Quiet.nonneg {m : DefModule d} (h : Quiet m) : m.NonnegWeights := by
  obtain ⟨S, hS, rfl⟩ := h
  rw [DefModule.NonnegWeights]
  refine ⟨by simpa using hS, ?_⟩
  clear hS
  induction S with
  | nil => trivial
  | cons M S ih => exact ⟨trivial, ih⟩

theorem Quiet.ham {m : DefModule d} (h : Quiet m) (q p : Row) : ham m q p = 0 := by
  unfold Imodal.ham
  obtain ⟨H, f, h1, h2, -⟩ := hamFn_geo h.nonneg (q := q) (p := p) ((h.rowsMod (q, p)).geodesic _)
  rw [h1]
  exact (Except.ok.inj ((h.rowsMod (q, p)).cost.symm.trans h2)).symm

theorem Quiet.gradH {m : DefModule d} (h : Quiet m) : gradH Hamiltonian.geodesicControls m = (0, 0) := by
  have hF : (fun q p => valD (hamFn Hamiltonian.geodesicControls m q p)) = Imodal.ham m := rfl
  unfold Imodal.gradH
  rw [hF]
  have hq : partialQ (Imodal.ham m) (gdRow m) (cotRow m) = 0 := by
    funext j
    unfold partialQ
    simp only [h.ham]
    exact deriv_const _ _
  have hp : partialP (Imodal.ham m) (gdRow m) (cotRow m) = 0 := by
    funext j
    unfold partialP
    simp only [h.ham]
    exact deriv_const _ _
  dsimp only
  rw [hq, hp]
  ext j <;> simp [cut]

theorem Quiet.tangent {m : DefModule d} (h : Quiet m) : Tangent (rhs m) Set.univ ⊥ where
  add _ _ _ _ := Set.mem_univ _
  dir y _ k hk := by
    unfold rhs at hk
    cases h1 : evalAt m y with
    | error e => rw [h1] at hk; cases hk
    | ok m' =>
      rw [h1] at hk
      cases hk
      unfold hamVec
      rw [(h.rowsMod y).gradH]
      simp

theorem Quiet.solver {ms : List (DefModule d)} (hq : Quiet (.compound ms)) {s : Solver} {it : Nat} {t1 : ℝ} {r : Shot d}
    (h : shootMoments s it t1 (.compound ms) = .ok r) :
    r.module.manifold = (DefModule.compound ms).manifold ∧ (∀ S ∈ r.states, S = (DefModule.compound ms).manifold) ∧ ∀ a ∈ r.costs, a = 0 := by
  obtain ⟨hp, hn⟩ := shoot_plain h
  obtain ⟨xs, h1, h2, h3, g, h4, h5, h6⟩ := shoot_ok hp hn h
  obtain ⟨a, cs, b, c, e⟩ := (clocked_moments ms t1 it).odeint (inv_init hp) h4
  have hall : ∀ x ∈ xs, x = (gdRow (.compound ms), cotRow (.compound ms)) := fun x hx => by
    obtain ⟨w, hw', e⟩ := hq.tangent.orbit (Set.mem_univ _) h1 x hx
    rw [e, (Submodule.mem_bot ℝ).1 hw', add_zero]
  refine ⟨?_, ?_, ?_⟩
  · have hl : xs.getLastD (gdRow (.compound ms), cotRow (.compound ms)) = (gdRow (.compound ms), cotRow (.compound ms)) := by
      rcases xs.eq_nil_or_concat with rfl | ⟨l, x, rfl⟩
      · rfl
      · rw [List.concat_eq_append, List.getLastD_concat]
        exact hall x (by simp)
    rw [manifold_of_reset h3, hl, rowsMod_self]
  · intro S hS
    rw [h2] at hS
    obtain ⟨x, hx, rfl⟩ := List.mem_map.1 hS
    rw [hall x hx, rowsMod_self]
  · have hcs : r.costs = cs := by rw [h5, b]; simp [GradObj.init]
    intro u hu
    rw [hcs] at hu
    obtain ⟨j, hj, rfl⟩ := List.getElem_of_mem hu
    obtain ⟨x, n, v, e1, e2, e3, e4⟩ := e j (by omega)
    rw [List.getElem?_eq_getElem hj, Option.some.injEq] at e1
    rw [e1]
    obtain ⟨m', f1, f2⟩ := e2
    have hm' : m' = Imodal.rowsMod (.compound ms) x := (Except.ok.inj (((hq.rowsMod x).geodesic _).symm.trans f1)).symm
    rw [hm'] at f2
    exact (Except.ok.inj ((hq.rowsMod x).cost.symm.trans f2)).symm

theorem Quiet.euler {step : ℝ} {k : Nat} : ∀ {i : Nat} {m : DefModule d} {r : Shot d}, Quiet m →
    eulerLoop step none i k m = .ok r → r.module.manifold = m.manifold ∧ ∀ S ∈ r.states, S = m.manifold := by
  induction k with
  | zero => intro i m r _ h; cases h; exact ⟨rfl, by simp⟩
  | succ k ih =>
    intro i m r hq h
    rw [eulerLoop] at h
    cases h1 : eulerStep step none i m with
    | error e => rw [h1] at h; cases h
    | ok m' =>
      rw [h1] at h
      dsimp only at h
      obtain ⟨m1, v, e1, -, rfl⟩ := eulerStep_ok h1
      have hm1 : m1 = m := (Except.ok.inj ((hq.geodesic _).symm.trans e1)).symm
      subst hm1
      have hz : Imodal.gradH (setControls none i) m1 = (0, 0) := hq.gradH
      rw [hz] at h h1
      simp only [smul_zero, add_zero] at h
      rw [rowsMod_self] at h
      cases h2 : eulerLoop step none (i + 1) k m1 with
      | error e => rw [h2] at h; cases h
      | ok r' =>
        rw [h2] at h
        cases h
        obtain ⟨a, b⟩ := ih hq h2
        refine ⟨a, fun S hS => ?_⟩
        rcases List.mem_cons.1 hS with rfl | hS
        · rfl
        · exact b S hS

/-- Deformables without any deformation module, shot from momenta: every deformed geometry is that of
the points the deformable holds, whatever its momenta, and the cost as a sum is zero. -/
theorem C125_still {Ds : List (Deformable d G)} {s : SolverName} {it : Nat} {wantCosts : Bool} {t1 : ℝ} {red : Reduce} {r : Deformed d G}
    (h : computeDeformed Ds [] s it wantCosts none t1 red = .ok r) :
    List.Forall₂ (fun (D : Deformable d G) g => D.toDeformed ⟨D.n, D.gd⟩ = .ok g) Ds r.geometries ∧
      (wantCosts = true → red = .sum → r.cost = some 0) := by
  obtain ⟨-, hg, costs, hs, hcost, -⟩ := computeDeformed_inv h
  have hs' := hs
  rw [show padControls Ds.length (none : Option (List (List (Ctrl d)))) = none from rfl] at hs'
  have key : r.shot.module.manifold = (DefModule.compound (Ds.map Deformable.silent ++ [])).manifold ∧ ∀ l, costs = some l → ∀ a ∈ l, a = 0 := by
    rcases eq_or_ne Ds [] with rfl | hne
    · -- the solver path refuses the empty compound; the Euler loop needs a field
      unfold shoot at hs'
      cases s with
      | torchEuler =>
        dsimp only at hs'
        cases h1 : shootEuler it none (.compound (([] : List (Deformable d G)).map Deformable.silent ++ [])) with
        | error e => rw [h1] at hs'; cases hs'
        | ok q =>
          rw [h1] at hs'; cases hs'
          refine ⟨?_, nofun⟩
          obtain ⟨L, hL, hlen⟩ := same_compound (shoot_same hs)
          have : L = [] := List.eq_nil_of_length_eq_zero (by rw [hlen]; rfl)
          subst this
          rw [hL]; rfl
      | fixed s =>
        dsimp only [shootOde] at hs'
        cases h1 : shootMoments s it t1 (.compound (([] : List (Deformable d G)).map Deformable.silent ++ [])) with
        | error e => rw [h1] at hs'; cases hs'
        | ok q =>
          obtain ⟨hp, hn⟩ := shoot_plain h1
          exact absurd hn (by simp [numCoords_eq, DefModule.manifold, DefModule.manifolds, Mfd.size, Mfd.sizeAll])
      | adaptive => cases hs'
      | unknown => cases hs'
    · have hq : Quiet (.compound (Ds.map Deformable.silent ++ [])) := by
        refine ⟨Ds.map fun D => D.silent.manifold, by simpa using hne, ?_⟩
        rw [List.append_nil, List.map_map]
        rfl
      unfold shoot at hs'
      cases s with
      | torchEuler =>
        dsimp only at hs'
        cases h1 : shootEuler it none (.compound (Ds.map Deformable.silent ++ [])) with
        | error e => rw [h1] at hs'; cases hs'
        | ok q =>
          rw [h1] at hs'; cases hs'
          refine ⟨?_, nofun⟩
          unfold shootEuler at h1
          split at h1
          · cases h1
          · exact (hq.euler h1).1
      | fixed s =>
        dsimp only [shootOde] at hs'
        cases h1 : shootMoments s it t1 (.compound (Ds.map Deformable.silent ++ [])) with
        | error e => rw [h1] at hs'; cases hs'
        | ok q =>
          rw [h1] at hs'; cases hs'
          obtain ⟨a, -, b⟩ := hq.solver h1
          exact ⟨a, fun l hl => by cases hl; exact b⟩
      | adaptive => cases hs'
      | unknown => cases hs'
  refine ⟨geometries_kept hs key.1 hg, ?_⟩
  rintro hwant rfl
  have hc := hcost hwant
  unfold reduceCost at hc
  cases costs with
  | none => cases hc
  | some l =>
    have := (Prod.mk.inj (Except.ok.inj hc)).1
    rw [← this]
    exact congrArg some (List.sum_eq_zero (key.2 l rfl))

/-! ## What a model is built from -/

theorem learnFrom_container (a : ℝ) (ms : List (DefModule d)) : (n : Nat) → learnFrom a n (.container ms) =
    if n = 0 then .ok ([], .container ms)
    else match collectList (fun m : DefModule d => m.controls.like a) ms with
      | .error e => .error e
      | .ok c => .ok (List.replicate n c, .container ms)
  | 0 => rfl
  | n + 1 => by
    rw [learnFrom, if_neg (Nat.succ_ne_zero n), Iter.items]
    cases h : collectList (fun m : DefModule d => m.controls.like a) ms with
    | error e => rfl
    | ok c =>
      dsimp only
      rw [Iter.spent, learnFrom_container a ms n, h]
      by_cases h0 : n = 0
      · subst h0; rfl
      · rw [if_neg h0]
        rfl

/-- From containers a model is built as from the lists of their items, and is the same. -/
theorem C125_lists (Ds : List (Deformable d G)) (ms : List (DefModule d)) (as : List (Attach G T)) (fit : Option (SolverName × Nat × Bool)) (lam : ℝ) (red : Reduce) :
    RegModel.newFrom (.container Ds) (.container ms) (.container as) fit lam red = RegModel.new Ds ms as fit lam red := by
  unfold RegModel.newFrom RegModel.new
  dsimp only
  by_cases hl : Ds.length ≠ as.length
  · rw [if_pos hl, if_pos hl]
  rw [if_neg hl, if_neg hl]
  cases fit with
  | none => rfl
  | some f =>
    obtain ⟨s, it, ones⟩ := f
    dsimp only
    unfold learnableControls
    cases hk : controlsPerIt s with
    | error e => rfl
    | ok k =>
      have hk0 : k ≠ 0 := by
        unfold controlsPerIt at hk
        split at hk <;> cases hk <;> decide
      dsimp only
      rw [learnFrom_container]
      by_cases h0 : it = 0
      · subst h0
        rw [Nat.zero_mul, if_pos rfl, if_pos rfl]
        rfl
      · rw [if_neg (Nat.mul_ne_zero h0 hk0), if_neg h0]
        cases collectList (fun m : DefModule d => m.controls.like (if ones then 1 else 0)) ms <;> rfl

/-- Iterators of deformables or of attachments are refused. -/
theorem C125_refused (Ds : Iter (Deformable d G)) (ms : Iter (DefModule d)) (as : Iter (Attach G T)) (fit : Option (SolverName × Nat × Bool)) (lam : ℝ) (red : Reduce)
    (h : (∃ l, Ds = .once l) ∨ ∃ l, as = .once l) : RegModel.newFrom Ds ms as fit lam red = .error .type := by
  rcases h with ⟨l, rfl⟩ | ⟨l, rfl⟩
  · cases as <;> rfl
  · cases Ds <;> rfl

/-- An iterator of modules: wherever a model is built from the list of the modules, one is built from
the iterator, with the same initial state. But with whatever initial state it is then used, its
deformed shapes are the undeformed ones, and the cost of the deformation as a sum is zero. -/
theorem C125_iterator_disagreement {Ds : List (Deformable d G)} {ms : List (DefModule d)} {as : List (Attach G T)} {lam : ℝ} {red : Reduce} {M : RegModel d G T}
    (h : RegModel.new Ds ms as none lam red = .ok M) :
    ∃ M', RegModel.newFrom (.container Ds) (.once ms) (.container as) none lam red = .ok M' ∧ M'.init = M.init ∧
      ∀ (init : List (Mfd d)) (s : SolverName) (it : Nat) (wantCosts : Bool) (t1 : ℝ) (r : Deformed d G) (M'' : RegModel d G T),
        ({ M' with init := init } : RegModel d G T).computeDeformed s it wantCosts t1 = .ok (r, M'') →
        ∃ Ds', fillDeformables Ds init = .ok Ds' ∧ List.Forall₂ (fun (D : Deformable d G) g => D.toDeformed ⟨D.n, D.gd⟩ = .ok g) Ds' r.geometries ∧
          (wantCosts = true → red = .sum → r.cost = some 0) := by
  have hM := new_momenta h
  unfold RegModel.new at h
  split at h
  · cases h
  rename_i hl
  dsimp only at h
  split at h
  · rename_i hall
    refine ⟨⟨Ds, [], as, Ds.map (fun D => D.silent.manifold) ++ DefModule.manifolds ms, none, lam, red⟩, ?_, by rw [hM], ?_⟩
    · unfold RegModel.newFrom
      dsimp only
      rw [if_neg hl]
      exact if_pos hall
    · intro init s it wantCosts t1 r M'' hc
      unfold RegModel.computeDeformed at hc
      dsimp only at hc
      cases h1 : fillModules ([] : List (DefModule d)) (init.drop Ds.length) with
      | error e => rw [h1] at hc; cases hc
      | ok ms' =>
        have hms' : ms' = [] := by
          unfold fillModules at h1
          cases h2 : (DefModule.compound ([] : List (DefModule d))).fillGdFrom (.compound (init.drop Ds.length)) with
          | error e => rw [h2] at h1; cases h1
          | ok m =>
            rw [h2] at h1
            have hm : m = .compound [] := by
              unfold DefModule.fillGdFrom at h2
              rw [DefModule.rollFillGd, DefModule.rollFillGdAll] at h2
              exact (Except.ok.inj h2).symm
            subst hm
            dsimp only at h1
            cases h3 : (DefModule.compound ([] : List (DefModule d))).fillCotFrom (.compound (init.drop Ds.length)) with
            | error e => rw [h3] at h1; cases h1
            | ok m =>
              rw [h3] at h1
              have hm : m = .compound [] := by
                unfold DefModule.fillCotFrom at h3
                rw [DefModule.rollFillCot, DefModule.rollFillCotAll] at h3
                exact (Except.ok.inj h3).symm
              subst hm
              exact (Except.ok.inj h1).symm
        subst hms'
        rw [h1] at hc
        dsimp only at hc
        cases h2 : fillDeformables Ds init with
        | error e => rw [h2] at hc; cases hc
        | ok Ds' =>
          rw [h2] at hc
          dsimp only at hc
          cases h3 : Imodal.computeDeformed Ds' [] s (RegModel.steps ⟨Ds, [], as, init, none, lam, red⟩ it) wantCosts none t1 red with
          | error e => simp only [Option.map_none, h3] at hc; cases hc
          | ok r' =>
            simp only [Option.map_none, h3] at hc
            cases hc
            obtain ⟨a, b⟩ := C125_still h3
            exact ⟨Ds', rfl, a, b⟩
  · cases h

-- three points with momenta and no modules: the call returns the three points, at no cost
example (q p : Fin 3 → Vec 2) : ∃ r, computeDeformed [(⟨3, q, p, none, fun x => .ok x⟩ : Deformable 2 (Points 2))] [] (.fixed .rk4) 10 true none 1 .sum = .ok r ∧
    r.geometries = [⟨3, q⟩] ∧ r.cost = some 0 := by
  obtain ⟨r, hr⟩ := C33_returns (Ds := [(⟨3, q, p, none, fun x => .ok x⟩ : Deformable 2 (Points 2))]) (by simp) (by simp)
    (List.mem_cons_self ..) (by norm_num) (ms := []) (by simp [DefModule.AllRegular])
    (fun m hm => by simp [DefModule.manifolds] at hm) .rk4 10 one_ne_zero true
  obtain ⟨a, b⟩ := C125_still hr
  refine ⟨r, hr, ?_, b rfl rfl⟩
  match hg : r.geometries, a with
  | [g], .cons h .nil => rw [Except.ok.inj h]

-- an iterator with one module: the model has momenta for it, as from the list, and no module
example : ∃ M M' : RegModel 2 (Points 2) (Vec 2), RegModel.new [exampleLandmark] [exampleTranslation] [exampleSquares] none 3 .sum = .ok M ∧
    RegModel.newFrom (.container [exampleLandmark]) (.once [exampleTranslation]) (.container [exampleSquares]) none 3 .sum = .ok M' ∧
      M'.init = M.init ∧ M.init.length = 2 ∧ M.modules.length = 1 ∧ M'.modules.length = 0 :=
  ⟨_, _, rfl, rfl, rfl, rfl, rfl, rfl⟩

end
end Imodal
