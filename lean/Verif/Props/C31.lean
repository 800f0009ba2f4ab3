import Verif.Lemmas.SilentRows
import Verif.Props.C70
/-!
# C31: a silent module only follows
-/
set_option autoImplicit false
namespace Imodal
noncomputable section
variable {d : Nat}

variable {i n₁ n : Nat} {big small : DefModule d}

/-! ## `_shoot_euler` -/

theorem eulerStep_eq (step : ℝ) (k : Nat) (m : DefModule d) : eulerStep step none k m =
    match Hamiltonian.geodesicControls m with
    | .error e => .error e
    | .ok m1 =>
      match Hamiltonian.value m1 with
      | .error e => .error e
      | .ok _ => .ok (rowsMod m1 (gdRow m + step • (gradH Hamiltonian.geodesicControls m).2,
          cotRow m + -step • (gradH Hamiltonian.geodesicControls m).1)) := by
  have : setControls (none : Option (List (Ctrl d))) k = Hamiltonian.geodesicControls := rfl
  unfold eulerStep
  rw [this]
  cases Hamiltonian.geodesicControls m with
  | error e => rfl
  | ok m1 =>
    dsimp only
    cases Hamiltonian.value m1 with
    | error e => rfl
    | ok v => dsimp only; rw [withRows_eq]; rfl

theorem Ins.eulerStep (h : Ins i n₁ n big small) (step : ℝ) (k : Nat) :
    PyRel (fun m m' => Ins i n₁ n m m') (eulerStep step none k big) (eulerStep step none k small) := by
  rw [eulerStep_eq, eulerStep_eq]
  obtain ⟨g1, g2, g3⟩ := h.grad
  have h1 := h.geo
  cases hb : Hamiltonian.geodesicControls big with
  | error e =>
    rw [hb] at h1
    cases hs : Hamiltonian.geodesicControls small with
    | error e' => trivial
    | ok m => rw [hs] at h1; exact h1.elim
  | ok m =>
    rw [hb] at h1
    cases hs : Hamiltonian.geodesicControls small with
    | error e' => rw [hs] at h1; exact h1.elim
    | ok m' =>
      rw [hs] at h1
      dsimp only
      have h1' : Ins i n₁ n m m' := h1
      have h2 := h1'.value fun g => geo_avail hs
      cases hv : Hamiltonian.value m with
      | error e =>
        rw [hv] at h2
        cases hv' : Hamiltonian.value m' with
        | error e' => trivial
        | ok a => rw [hv'] at h2; exact h2.elim
      | ok a =>
        rw [hv] at h2
        cases hv' : Hamiltonian.value m' with
        | error e' => rw [hv'] at h2; exact h2.elim
        | ok b =>
          dsimp only [PyRel]
          rw [h.gdRow, h.cotRow, ← g1, ← g2, ← map_smul, ← map_smul, ← map_add, ← map_add]
          refine h1'.rows (x := (Imodal.gdRow big + step • (gradH Hamiltonian.geodesicControls big).2,
            Imodal.cotRow big + -step • (gradH Hamiltonian.geodesicControls big).1)) fun j j1 j2 => ?_
          simp only [Pi.add_apply, Pi.smul_apply, h.cot_zero j j1 j2, g3 j j1 j2, smul_zero, add_zero]

theorem Ins.eulerLoop (step : ℝ) (k : Nat) : ∀ {j : Nat} {big small : DefModule d}, Ins i n₁ n big small →
    PyRel (Shot.Without i) (eulerLoop step none j k big) (eulerLoop step none j k small) := by
  induction k with
  | zero =>
    intro j big small h
    rw [Imodal.eulerLoop, Imodal.eulerLoop]
    exact ⟨h.without, rfl, by simp [h.manifold], rfl⟩
  | succ k ih =>
    intro j big small h
    rw [Imodal.eulerLoop, Imodal.eulerLoop]
    have h1 := h.eulerStep step j
    cases hb : Imodal.eulerStep step none j big with
    | error e =>
      rw [hb] at h1
      cases hs : Imodal.eulerStep step none j small with
      | error e' => trivial
      | ok m => rw [hs] at h1; exact h1.elim
    | ok m =>
      rw [hb] at h1
      cases hs : Imodal.eulerStep step none j small with
      | error e' => rw [hs] at h1; exact h1.elim
      | ok m' =>
        rw [hs] at h1
        have h1' : Ins i n₁ n m m' := h1
        have h2 := ih (j := j + 1) h1'
        dsimp only
        cases hb' : Imodal.eulerLoop step none (j + 1) k m with
        | error e =>
          rw [hb'] at h2
          cases hs' : Imodal.eulerLoop step none (j + 1) k m' with
          | error e' => trivial
          | ok r => rw [hs'] at h2; exact h2.elim
        | ok r =>
          rw [hb'] at h2
          cases hs' : Imodal.eulerLoop step none (j + 1) k m' with
          | error e' => rw [hs'] at h2; exact h2.elim
          | ok r' =>
            rw [hs'] at h2
            have h2' : Shot.Without i r r' := h2
            exact ⟨h2'.module, rfl, by simp [h2'.states, h.manifold], by simp [h2'.ctrls, h1'.controls]⟩

theorem ins_of {ms₁ ms₂ : List (DefModule d)} {M : Mfd d} (hM : M.Passive (.compound (ms₁ ++ ms₂))) (hne : ms₁ ++ ms₂ ≠ []) :
    Ins ms₁.length (Mfd.sizeAll (DefModule.manifolds ms₁)) M.size (.compound (ms₁ ++ .silent M :: ms₂)) (.compound (ms₁ ++ ms₂)) :=
  ⟨ms₁, M, ms₂, rfl, rfl, rfl, hM, hne, rfl, rfl⟩

/-- **C31, Euler.** Insert a silent module without momentum anywhere in the list of modules. Shooting
with the Euler method raises exactly when it raised before; otherwise the final modules, the
intermediate states and the intermediate controls are the same, the silent one left out. -/
theorem C31_euler_partial {ms₁ ms₂ : List (DefModule d)} {M : Mfd d} (hM : M.Passive (.compound (ms₁ ++ ms₂))) (hne : ms₁ ++ ms₂ ≠ []) (it : Nat) :
    PyRel (Shot.Without ms₁.length) (shootEuler it none (.compound (ms₁ ++ .silent M :: ms₂)))
      (shootEuler it none (.compound (ms₁ ++ ms₂))) := by
  unfold shootEuler
  split
  · trivial
  · exact (ins_of hM hne).eulerLoop _ it

/-! ## The ODE solvers -/

/-- Momenta without a block. -/
def blockSub (n₁ n : Nat) : Submodule ℝ (Row × Row) where
  carrier := {x | BlockZero n₁ n x.2}
  add_mem' ha hb j h1 h2 := by
    rw [Prod.snd_add, Pi.add_apply, ha j h1 h2, hb j h1 h2, add_zero]
  zero_mem' _ _ _ := rfl
  smul_mem' c x hx j h1 h2 := by
    rw [Prod.smul_snd, Pi.smul_apply, hx j h1 h2, smul_zero]

/-- The callbacks of two runs. -/
structure CallRel (i n₁ n : Nat) (ms ms' : List (DefModule d)) (g g' : GradObj d) : Prop where
  inv : Inv ms g
  inv' : Inv ms' g'
  ins : Ins i n₁ n g.module g'.module
  trueIt : g'.trueIt = g.trueIt
  costs : g'.costs = g.costs
  ctrls : g'.ctrls = g.ctrls.map (Ctrl.without i)

theorem hamVec_ins (h : Ins i n₁ n big small) {x : Row × Row} (hx : BlockZero n₁ n x.2) :
    hamVec small (dropBlock n₁ n x.1, dropBlock n₁ n x.2) = (dropBlock n₁ n).prodMap (dropBlock n₁ n) (hamVec big x) ∧
      BlockZero n₁ n (hamVec big x).2 := by
  obtain ⟨g1, g2, g3⟩ := (h.rows hx).grad
  constructor
  · unfold hamVec
    rw [LinearMap.prodMap_apply]
    dsimp only
    rw [← g1, ← g2, map_neg]
  · intro j h1 h2
    unfold hamVec
    dsimp only
    rw [Pi.neg_apply, g3 j h1 h2, neg_zero]

theorem mapsTo_forward {ms ms' : List (DefModule d)} (h : Ins i n₁ n (.compound ms) (.compound ms')) (t1 : ℝ) (it : Nat) :
    MapsTo {x | BlockZero n₁ n x.2} (blockSub n₁ n) ((dropBlock n₁ n).prodMap (dropBlock n₁ n)) (CallRel i n₁ n ms ms')
      (forwardMoments t1 it) (forwardMoments t1 it) where
  add y hy w hw := (blockSub n₁ n).add_mem hy hw
  run t y hy := by
    intro g g' hg
    rw [forward_run hg.inv, forward_run hg.inv', LinearMap.prodMap_apply]
    have h1 := h.eval hy
    obtain ⟨h2, h3⟩ := hamVec_ins h hy
    cases hb : evalAt (.compound ms) y with
    | error e =>
      rw [hb] at h1
      cases hs : evalAt (.compound ms') (dropBlock n₁ n y.1, dropBlock n₁ n y.2) with
      | error e' => exact Or.inr ⟨_, _, _, _, rfl, rfl⟩
      | ok m => rw [hs] at h1; exact h1.elim
    | ok m =>
      rw [hb] at h1
      cases hs : evalAt (.compound ms') (dropBlock n₁ n y.1, dropBlock n₁ n y.2) with
      | error e' => rw [hs] at h1; exact h1.elim
      | ok m' =>
        rw [hs] at h1
        have h1' : Ins i n₁ n m m' := h1
        refine Or.inl ⟨_, _, _, _, rfl, rfl, ⟨h3, h2⟩, inv_after hg.inv hb .., inv_after hg.inv' hs .., h1', rfl, ?_, ?_⟩
        · unfold GradObj.after
          dsimp only
          rw [hg.trueIt, hg.costs, h1'.cost]
        · unfold GradObj.after
          dsimp only
          rw [hg.ctrls, h1'.controls, List.map_append]; rfl

/-- The result of shooting from the result of the solver. -/
theorem shoot_of_odeint {ms : List (DefModule d)} (hp : PlainMembers ms) (hn : 0 < numCoords (.compound ms)) (s : Solver) (it : Nat) (t1 : ℝ) :
    (∀ {xs g}, odeint s (forwardMoments t1 it) t1 it (gdRow (.compound ms), cotRow (.compound ms)) (GradObj.init (.compound ms)) = (.ok xs, g) →
      shootMoments s it t1 (.compound ms) = .ok ⟨rowsMod g.module (xs.getLastD (gdRow (.compound ms), cotRow (.compound ms))), g.costs,
        xs.map (fun x => (rowsMod (.compound ms) x).manifold), g.ctrls⟩) ∧
    (∀ {e g}, odeint s (forwardMoments t1 it) t1 it (gdRow (.compound ms), cotRow (.compound ms)) (GradObj.init (.compound ms)) = (.error e, g) →
      shootMoments s it t1 (.compound ms) = .error e) := by
  have h0 := (sim_odeint (sim_forward ms t1 it) t1 it s (gdRow (.compound ms), cotRow (.compound ms)) _ () (inv_init hp)).1
  have h1 := shoot_cases hp hn s it t1
  rw [show orbit s (rhs (.compound ms)) t1 it (gdRow (.compound ms), cotRow (.compound ms)) = _ from h0.symm] at h1
  constructor
  · intro xs g h
    rw [h] at h1
    dsimp only at h1
    obtain ⟨g', e, -, h3⟩ := h1
    cases e
    exact h3
  · intro e g h
    rw [h] at h1
    exact h1

theorem plainMembers_insert {ms₁ ms₂ : List (DefModule d)} {M : Mfd d} (hM : M.Plain) :
    PlainMembers (ms₁ ++ .silent M :: ms₂) ↔ PlainMembers (ms₁ ++ ms₂) := by
  unfold PlainMembers
  rw [manifolds_append, manifolds_append, DefModule.manifolds, DefModule.manifold]
  constructor
  · intro h m hm
    rcases List.mem_append.1 hm with h1 | h1
    · exact h m (List.mem_append.2 (Or.inl h1))
    · exact h m (List.mem_append.2 (Or.inr (List.mem_cons_of_mem _ h1)))
  · intro h m hm
    rcases List.mem_append.1 hm with h1 | h1
    · exact h m (List.mem_append.2 (Or.inl h1))
    · rcases List.mem_cons.1 h1 with rfl | h2
      · exact hM
      · exact h m (List.mem_append.2 (Or.inr h2))

theorem getLastD_mem {α : Type} (l : List α) (a : α) : l.getLastD a = a ∨ l.getLastD a ∈ l := by
  cases l with
  | nil => exact Or.inl rfl
  | cons b l =>
    right
    rw [List.getLastD_cons]
    rcases getLastD_mem l b with e | e
    · rw [e]; exact List.mem_cons_self
    · exact List.mem_cons_of_mem _ e

theorem getLastD_map {α β : Type} (f : α → β) (l : List α) (a : α) : (l.map f).getLastD (f a) = f (l.getLastD a) := by
  induction l generalizing a with
  | nil => rfl
  | cons b l ih => rw [List.map_cons, List.getLastD_cons, List.getLastD_cons, ih]

/-- **C31, ODE solvers.** Insert a silent module without momentum anywhere in the list of modules.
Shooting with any fixed-step solver raises exactly when it raised before; otherwise the final
modules, the costs, the intermediate states and the intermediate controls are the same, the silent
one left out. -/
theorem C31_solver_partial {ms₁ ms₂ : List (DefModule d)} {M : Mfd d} (hM : M.Passive (.compound (ms₁ ++ ms₂))) (hpl : M.Plain) (hn : 0 < numCoords (.compound (ms₁ ++ ms₂)))
    (s : Solver) (it : Nat) (t1 : ℝ) :
    PyRel (Shot.Without ms₁.length) (shootMoments s it t1 (.compound (ms₁ ++ .silent M :: ms₂)))
      (shootMoments s it t1 (.compound (ms₁ ++ ms₂))) := by
  have hne : ms₁ ++ ms₂ ≠ [] := by
    intro h; rw [h] at hn; simp [numCoords, DefModule.manifold, DefModule.manifolds, Mfd.unrollGd, Mfd.unrollGdAll] at hn
  have h := ins_of hM hne
  by_cases hp : PlainMembers (ms₁ ++ ms₂)
  · have hp' := (plainMembers_insert (ms₁ := ms₁) (ms₂ := ms₂) hpl).mpr hp
    have hn' : 0 < numCoords (.compound (ms₁ ++ .silent M :: ms₂)) := by rw [h.numCoords.2]; omega
    obtain ⟨a1, a2⟩ := shoot_of_odeint hp' hn' s it t1
    obtain ⟨b1, b2⟩ := shoot_of_odeint hp hn s it t1
    have hy : ((gdRow (.compound (ms₁ ++ .silent M :: ms₂)), cotRow (.compound (ms₁ ++ .silent M :: ms₂))) : Row × Row) ∈
        {x : Row × Row | BlockZero (Mfd.sizeAll (DefModule.manifolds ms₁)) M.size x.2} := h.cot_zero
    have key := (mapsTo_forward h t1 it).odeint s t1 it hy (GradObj.init _) (GradObj.init _)
      ⟨inv_init hp', inv_init hp, h, rfl, rfl, rfl⟩
    rw [LinearMap.prodMap_apply] at key
    dsimp only at key
    rw [← h.gdRow, ← h.cotRow] at key
    rcases key with ⟨xs, xs', g, g', e1, e2, ⟨hxs, rfl⟩, hg⟩ | ⟨e, e', g, g', e1, e2⟩
    · rw [a1 e1, b1 e2]
      have hl : BlockZero (Mfd.sizeAll (DefModule.manifolds ms₁)) M.size
          (xs.getLastD (gdRow (.compound (ms₁ ++ .silent M :: ms₂)), cotRow (.compound (ms₁ ++ .silent M :: ms₂)))).2 := by
        rcases getLastD_mem xs (gdRow (.compound (ms₁ ++ .silent M :: ms₂)), cotRow (.compound (ms₁ ++ .silent M :: ms₂))) with e | e
        · rw [e]; exact h.cot_zero
        · exact hxs _ e
      have e0 : ((gdRow (.compound (ms₁ ++ ms₂)), cotRow (.compound (ms₁ ++ ms₂))) : Row × Row) =
          (dropBlock (Mfd.sizeAll (DefModule.manifolds ms₁)) M.size).prodMap (dropBlock (Mfd.sizeAll (DefModule.manifolds ms₁)) M.size)
            (gdRow (.compound (ms₁ ++ .silent M :: ms₂)), cotRow (.compound (ms₁ ++ .silent M :: ms₂))) := by
        rw [LinearMap.prodMap_apply, h.gdRow, h.cotRow]
      refine ⟨?_, hg.costs, ?_, hg.ctrls⟩
      · dsimp only
        rw [e0, getLastD_map]
        exact (hg.ins.rows hl).without
      · dsimp only
        rw [List.map_map, List.map_map]
        refine List.map_congr_left fun x hx => ?_
        exact (h.rows (hxs x hx)).manifold
    · rw [a2 e1, b2 e2]; trivial
  · cases hb : shootMoments s it t1 (.compound (ms₁ ++ .silent M :: ms₂)) with
    | ok r => exact absurd ((plainMembers_insert hpl).mp (shoot_plain hb).1) hp
    | error e =>
      cases hs : shootMoments s it t1 (.compound (ms₁ ++ ms₂)) with
      | ok r => exact absurd (shoot_plain hs).1 hp
      | error e' => trivial

/-! ## The silent module follows -/

theorem actionAll_append {f : FieldExpr d} : (l₁ l₂ : List (Mfd d)) → {ws : List (Tan d)} → Mfd.actionAll f (l₁ ++ l₂) = .ok ws →
    ∃ a b, Mfd.actionAll f l₁ = .ok a ∧ Mfd.actionAll f l₂ = .ok b ∧ ws = a ++ b
  | [], l₂, ws, h => ⟨[], ws, by rw [Mfd.actionAll], h, rfl⟩
  | m :: l₁, l₂, ws, h => by
    rw [List.cons_append, Mfd.actionAll] at h
    cases h1 : Mfd.action f m with
    | error e => rw [h1] at h; cases h
    | ok t =>
      rw [h1] at h
      dsimp only at h
      cases h2 : Mfd.actionAll f (l₁ ++ l₂) with
      | error e => rw [h2] at h; cases h
      | ok ts =>
        rw [h2] at h
        cases h
        obtain ⟨a, b, ha, hb, rfl⟩ := actionAll_append l₁ l₂ h2
        exact ⟨t :: a, b, by rw [Mfd.actionAll, h1]; dsimp only; rw [ha], hb, rfl⟩

theorem tan_unrollAll_append (a b : List (Tan d)) : Tan.unrollAll (a ++ b) = Tan.unrollAll a ++ Tan.unrollAll b := by
  induction a with
  | nil => simp [Tan.unrollAll]
  | cons m l ih => rw [List.cons_append, Tan.unrollAll, Tan.unrollAll, ih, List.append_assoc]

/-- The part of the action that belongs to one member. -/
theorem action_member {f : FieldExpr d} {l₁ l₂ : List (Mfd d)} {M : Mfd d} {w : Tan d} (h : (Mfd.compound (l₁ ++ M :: l₂)).action f = .ok w) :
    ∃ v, M.action f = .ok v ∧ ∀ j < M.size, w.unroll.flatten.getD (Mfd.sizeAll l₁ + j) 0 = v.unroll.flatten.getD j 0 := by
  rw [Mfd.action] at h
  cases h1 : Mfd.actionAll f (l₁ ++ M :: l₂) with
  | error e => rw [h1] at h; cases h
  | ok ws =>
    rw [h1] at h
    cases h
    obtain ⟨a, b, ha, hb, rfl⟩ := actionAll_append l₁ _ h1
    rw [Mfd.actionAll] at hb
    cases h2 : M.action f with
    | error e => rw [h2] at hb; cases hb
    | ok v =>
      rw [h2] at hb
      dsimp only at hb
      cases h3 : Mfd.actionAll f l₂ with
      | error e => rw [h3] at hb; cases hb
      | ok c =>
        rw [h3] at hb
        cases hb
        refine ⟨v, rfl, fun j hj => ?_⟩
        have la : (Tan.unrollAll a).flatten.length = Mfd.sizeAll l₁ := by
          have : (Mfd.compound l₁).action f = .ok (.compound a) := by rw [Mfd.action, ha]
          have := length_unroll_action this
          rwa [Tan.unroll, Mfd.size] at this
        have lv := length_unroll_action h2
        rw [Tan.unroll, tan_unrollAll_append, Tan.unrollAll, List.flatten_append, List.flatten_append, List.getD_eq_getElem?_getD,
          List.getD_eq_getElem?_getD, List.getElem?_append_right (by omega), List.getElem?_append_left (by omega)]
        congr 2; omega

theorem member_insert (A B : List (DefModule d)) (M : Mfd d) :
    Mfd.member A.length (DefModule.compound (A ++ .silent M :: B)).manifold = M := by
  rw [DefModule.manifold, manifolds_append, DefModule.manifolds, DefModule.manifold, Mfd.member, ← length_manifolds A]
  simp

theorem member_rows (A B : List (DefModule d)) (M : Mfd d) (x : Row × Row) :
    Mfd.member A.length (rowsMod (.compound (A ++ .silent M :: B)) x).manifold =
      (M.withGd x.1 (Mfd.sizeAll (DefModule.manifolds A))).withCot x.2 (Mfd.sizeAll (DefModule.manifolds A)) := by
  rw [rowsMod_compound, DefModule.withGdAll_append, DefModule.withCotAll_append, DefModule.manifolds_withGd, Mfd.size_withGdAll,
    DefModule.withGdAll, DefModule.withCotAll, DefModule.withGd, DefModule.withCot, Nat.zero_add]
  have := member_insert (DefModule.withCotAll x.2 0 (DefModule.withGdAll x.1 0 A))
    (DefModule.withCotAll x.2 (Mfd.sizeAll (DefModule.manifolds A) + (DefModule.silent (M.withGd x.1 (Mfd.sizeAll (DefModule.manifolds A)))).manifold.size)
      (DefModule.withGdAll x.1 (Mfd.sizeAll (DefModule.manifolds A) + (DefModule.silent M).manifold.size) B))
    ((M.withGd x.1 (Mfd.sizeAll (DefModule.manifolds A))).withCot x.2 (Mfd.sizeAll (DefModule.manifolds A)))
  rw [length_withCots, length_withGds] at this
  exact this

theorem Ins.member_size (h : Ins i n₁ n big small) : (big.manifold.member i).size = n := by
  obtain ⟨A, M, B, rfl, rfl, rfl, -, -, rfl, rfl⟩ := h
  rw [member_insert]

theorem Ins.member_row (h : Ins i n₁ n big small) {j : Nat} (hj : j < n) :
    Imodal.gdRow big (n₁ + j) = (big.manifold.member i).unrollGd.flatten.getD j 0 := by
  obtain ⟨A, M, B, rfl, rfl, rfl, -, -, rfl, rfl⟩ := h
  rw [member_insert]
  unfold Imodal.gdRow
  have e := Mfd.length_unrollGdAll (DefModule.manifolds A)
  have e' := Mfd.length_unrollGd M
  rw [DefModule.manifold, manifolds_append, DefModule.manifolds, DefModule.manifold, Mfd.unrollGd, unrollGdAll_append, Mfd.unrollGdAll,
    List.flatten_append, List.flatten_append, rowOf, List.getD_eq_getElem?_getD, List.getD_eq_getElem?_getD,
    List.getElem?_append_right (by omega), List.getElem?_append_left (by omega)]
  congr 2; omega

/-- The field the other modules generate is the field of all modules, and acts on the silent one. -/
theorem Ins.action (h : Ins i n₁ n big small) {f : FieldExpr d} (hf : big.field = .ok f) {w : Tan d} (hw : big.manifold.action f = .ok w) :
    ∃ g v, small.field = .ok g ∧ (big.manifold.member i).action g = .ok v ∧
      ∀ j < n, w.unroll.flatten.getD (n₁ + j) 0 = v.unroll.flatten.getD j 0 := by
  obtain ⟨A, M, B, rfl, rfl, rfl, -, hne, rfl, rfl⟩ := h
  rcases field_insert M hne with ⟨f', g, e1, e2, e3⟩ | ⟨e, e1, -⟩
  · rw [hf] at e1
    cases e1
    rw [member_insert]
    rw [DefModule.manifold, manifolds_append, DefModule.manifolds, DefModule.manifold] at hw
    obtain ⟨v, h1, h2⟩ := action_member hw
    exact ⟨g, v, e2, by rw [← e3.action]; exact h1, h2⟩
  · rw [hf] at e1; cases e1

theorem Ins.follow (h : Ins i n₁ n big small) {step : ℝ} {k : Nat} {m' : DefModule d} (hb : Imodal.eulerStep step none k big = .ok m') :
    ∃ m1 f v, Hamiltonian.geodesicControls small = .ok m1 ∧ m1.field = .ok f ∧ (big.manifold.member i).action f = .ok v ∧
      m'.controls.without i = m1.controls ∧
      ∀ j < n, (m'.manifold.member i).unrollGd.flatten.getD j 0 =
        (big.manifold.member i).unrollGd.flatten.getD j 0 + step * v.unroll.flatten.getD j 0 := by
  obtain ⟨s', -, hs'⟩ := (h.eulerStep step k).left hb
  obtain ⟨m1, f, w, h1, h2, h3, h4, h5⟩ := C70_euler_step hb
  obtain ⟨m1', h6, h7⟩ := h.geo.left h1
  have h7' : Ins i n₁ n m1 m1' := h7
  rw [← geodesic_manifold h1] at h4
  obtain ⟨g, v, a, b, c⟩ := h7'.action h3 h4
  refine ⟨m1', g, v, h6, a, by rw [← geodesic_manifold h1]; exact b, by rw [h2, h7'.controls], fun j hj => ?_⟩
  rw [← hs'.member_row hj, ← h.member_row hj, h5 _ (by have := h.numCoords; omega), c j hj]

theorem eulerLoop_follow (step : ℝ) (k : Nat) : ∀ {j : Nat} {big small : DefModule d} {r r' : Shot d}, Ins i n₁ n big small →
    eulerLoop step none j k big = .ok r → eulerLoop step none j k small = .ok r' →
    r.states[0]? = some big.manifold ∧ ∀ a < k, ∃ S S' s m1 f v, r.states[a]? = some S ∧ r.states[a + 1]? = some S' ∧
      r'.states[a]? = some (DefModule.manifold s) ∧ Hamiltonian.geodesicControls s = .ok m1 ∧ r'.ctrls[a]? = some m1.controls ∧
      m1.field = .ok f ∧ (S.member i).action f = .ok v ∧
      ∀ b < n, (S'.member i).unrollGd.flatten.getD b 0 = (S.member i).unrollGd.flatten.getD b 0 + step * v.unroll.flatten.getD b 0 := by
  induction k with
  | zero =>
    intro j big small r r' h hb hs
    rw [eulerLoop] at hb
    cases hb
    exact ⟨rfl, fun a ha => absurd ha (by omega)⟩
  | succ k ih =>
    intro j big small r r' h hb hs
    rw [eulerLoop] at hb hs
    have h1 := h.eulerStep step j
    cases hb1 : eulerStep step none j big with
    | error e => rw [hb1] at hb; cases hb
    | ok m =>
      obtain ⟨m', hs1, h2⟩ := h1.left hb1
      have h2' : Ins i n₁ n m m' := h2
      rw [hb1] at hb
      rw [hs1] at hs
      dsimp only at hb hs
      cases hb2 : eulerLoop step none (j + 1) k m with
      | error e => rw [hb2] at hb; cases hb
      | ok q =>
        cases hs2 : eulerLoop step none (j + 1) k m' with
        | error e => rw [hs2] at hs; cases hs
        | ok q' =>
          rw [hb2] at hb
          rw [hs2] at hs
          cases hb
          cases hs
          obtain ⟨e0, ih'⟩ := ih h2' hb2 hs2
          refine ⟨rfl, fun a ha => ?_⟩
          cases a with
          | zero =>
            obtain ⟨m1, f, v, c1, c2, c3, c4, c5⟩ := h.follow hb1
            refine ⟨big.manifold, m.manifold, small, m1, f, v, rfl, by simpa using e0, rfl, c1, ?_, c2, c3, c5⟩
            rw [← c4, ← h2'.controls]; rfl
          | succ a =>
            obtain ⟨S, S', s, m1, f, v, c1, c2, c3, c4, c5, c6⟩ := ih' a (by omega)
            exact ⟨S, S', s, m1, f, v, by simpa using c1, by simpa using c2, by simpa using c3, c4, by simpa using c5, c6⟩

/-- **C31, the silent module follows.** At every Euler step, the descriptors of the silent module
move by the step times the action of the field that the other modules generate, with the controls
they have when shooting without the silent module. -/
theorem C31_follows_partial {ms₁ ms₂ : List (DefModule d)} {M : Mfd d} (hM : M.Passive (.compound (ms₁ ++ ms₂))) (hne : ms₁ ++ ms₂ ≠ []) {it : Nat} {r r' : Shot d}
    (h : shootEuler it none (.compound (ms₁ ++ .silent M :: ms₂)) = .ok r) (h' : shootEuler it none (.compound (ms₁ ++ ms₂)) = .ok r') :
    (∃ S, r.states[0]? = some S ∧ S.member ms₁.length = M) ∧
    ∀ a < it, ∃ S S' s m1 f v, r.states[a]? = some S ∧ r.states[a + 1]? = some S' ∧
      r'.states[a]? = some (DefModule.manifold s) ∧ Hamiltonian.geodesicControls s = .ok m1 ∧ r'.ctrls[a]? = some m1.controls ∧
      m1.field = .ok f ∧ (S.member ms₁.length).action f = .ok v ∧
      ∀ b < M.size, (S'.member ms₁.length).unrollGd.flatten.getD b 0 =
        (S.member ms₁.length).unrollGd.flatten.getD b 0 + 1 / it * v.unroll.flatten.getD b 0 := by
  unfold shootEuler at h h'
  split at h
  · cases h
  · next hit =>
    rw [if_neg hit] at h'
    obtain ⟨e0, e1⟩ := eulerLoop_follow _ it (ins_of hM hne) h h'
    exact ⟨⟨_, e0, member_insert _ _ _⟩, e1⟩

/-- **C31, right-hand side of the solvers.** At any state whose silent momenta are zero, the
velocity of the silent coordinates is the action of the field the other modules generate at the
state without the silent coordinates, and the silent momenta stay zero. -/
theorem C31_velocity_partial {ms₁ ms₂ : List (DefModule d)} {M : Mfd d} (hM : M.Passive (.compound (ms₁ ++ ms₂))) (hne : ms₁ ++ ms₂ ≠ []) {x y : Row × Row}
    (hx : BlockZero (Mfd.sizeAll (DefModule.manifolds ms₁)) M.size x.2)
    (h : rhs (.compound (ms₁ ++ .silent M :: ms₂)) x = .ok y) :
    ∃ m1 f v, Hamiltonian.geodesicControls (rowsMod (.compound (ms₁ ++ ms₂))
        (dropBlock (Mfd.sizeAll (DefModule.manifolds ms₁)) M.size x.1, dropBlock (Mfd.sizeAll (DefModule.manifolds ms₁)) M.size x.2)) = .ok m1 ∧
      m1.field = .ok f ∧ (M.withGd x.1 (Mfd.sizeAll (DefModule.manifolds ms₁))).action f = .ok v ∧
      (∀ j < M.size, y.1 (Mfd.sizeAll (DefModule.manifolds ms₁) + j) = v.unroll.flatten.getD j 0) ∧
      ∀ j < M.size, y.2 (Mfd.sizeAll (DefModule.manifolds ms₁) + j) = 0 := by
  have hi := ins_of hM hne
  obtain ⟨m1, f, w, h1, h2, h3, h4⟩ := C70_rhs h
  have hr := hi.rows hx
  obtain ⟨m1', h6, h7⟩ := hr.geo.left h1
  have h7' : Ins ms₁.length (Mfd.sizeAll (DefModule.manifolds ms₁)) M.size m1 m1' := h7
  rw [← geodesic_manifold h1] at h3
  obtain ⟨g, v, a, b, c⟩ := h7'.action h2 h3
  refine ⟨m1', g, v, h6, a, ?_, fun j hj => ?_, fun j hj => ?_⟩
  · rw [geodesic_manifold h1, manifold_rowsMod] at b
    rw [← manifold_rowsMod, member_rows, action_withCot] at b
    exact b
  · rw [h4, ← c j hj]; rfl
  · have hy : y = hamVec (.compound (ms₁ ++ .silent M :: ms₂)) x := by
      unfold rhs at h
      cases he : evalAt (.compound (ms₁ ++ .silent M :: ms₂)) x with
      | error e => rw [he] at h; cases h
      | ok m => rw [he] at h; exact (Except.ok.inj h).symm
    rw [hy]
    exact (hamVec_ins hi hx).2 _ (by omega) (by omega)

/-! ## Silent landmarks beside two translations -/

theorem passive_landmarks {k : Nat} (x : Fin k → Vec d) (m : DefModule d) : (Mfd.landmarks x 0).Passive m where
  zero a ha := by
    simp only [Mfd.unrollCot, List.flatten_cons, List.flatten_nil, List.append_nil, flatVecs, List.mem_ofFn] at ha
    obtain ⟨_, rfl⟩ := ha
    rfl
  noEmpty := by rw [Mfd.NoEmptyCompound]; trivial
  dir _ _ := by rw [Mfd.NoDirections]; trivial

example {k : Nat} (x : Fin k → Vec 2) (p q : Vec 2) :
    ∃ r, shootEuler 10 none (.compound (pairModule p q ++ [.silent (.landmarks x 0)])) = .ok r := by
  obtain ⟨r', h⟩ := regular_shootEuler (pairModule_regular p q) (show 10 ≠ 0 by norm_num)
  have h' := C31_euler_partial (ms₁ := pairModule p q) (ms₂ := []) (passive_landmarks x _) (by rw [pairModule]; simp) 10
  rw [List.append_nil] at h'
  obtain ⟨r, h1, -⟩ := h'.right h
  exact ⟨r, h1⟩

example {k : Nat} (x : Fin k → Vec 2) (p q : Vec 2) :
    (Mfd.landmarks x 0).Plain ∧ 0 < numCoords (.compound (pairModule p q ++ [])) :=
  ⟨Or.inr rfl, by rw [List.append_nil, pairModule_numCoords]; norm_num⟩

/-! ## Silent directions beside two translations -/

/-- Translations read no Jacobians, so that a silent module with directions changes nothing. -/
theorem passive_directions {k : Nat} (t : Transport) (x u : Fin k → Vec 2) (p q : Vec 2) :
    (Mfd.direction t x u 0 0).Passive (.compound (pairModule p q ++ [])) where
  zero a ha := by
    simp only [Mfd.unrollCot, List.flatten_cons, List.flatten_nil, List.append_nil, flatVecs, List.mem_append, List.mem_ofFn] at ha
    rcases ha with ⟨_, rfl⟩ | ⟨_, rfl⟩ <;> rfl
  noEmpty := by rw [Mfd.NoEmptyCompound]; trivial
  dir h _ := by simp [pairModule, DefModule.ReadsJac, DefModule.SomeReadsJac] at h

example {k : Nat} (t : Transport) (x u : Fin k → Vec 2) (p q : Vec 2) :
    ∃ r, shootEuler 10 none (.compound (pairModule p q ++ [.silent (.direction t x u 0 0)])) = .ok r := by
  obtain ⟨r', h⟩ := regular_shootEuler (pairModule_regular p q) (show 10 ≠ 0 by norm_num)
  have h' := C31_euler_partial (ms₁ := pairModule p q) (ms₂ := []) (passive_directions t x u p q) (by rw [pairModule]; simp) 10
  rw [List.append_nil] at h'
  obtain ⟨r, h1, -⟩ := h'.right h
  exact ⟨r, h1⟩

/-! ## Silent modules with directions -/

theorem sum_jac_error (f g : FieldExpr d) (r : Reduction) {k n : Nat} (gd mom dir : Fin k → Vec d) (σ : ℝ) (pts : Fin n → Vec d) :
    ∃ e, (FieldExpr.sum [f, .sum [g, .f0u r gd mom dir σ]]).jacobians pts = .error e := by
  have hu : ∃ e, (FieldExpr.f0u r gd mom dir σ).eval 1 (fun _ => 0) = .error e := by
    cases r <;> exact ⟨_, by rw [FieldExpr.eval]; rfl⟩
  obtain ⟨e, he⟩ := hu
  unfold FieldExpr.jacobians FieldExpr.batch
  rw [FieldExpr.eval, FieldExpr.evalSum, FieldExpr.evalSum, FieldExpr.eval, FieldExpr.evalSum, FieldExpr.evalSum,
    FieldExpr.evalSum, he]
  cases f.eval 1 fun _ => 0 with
  | error e => exact ⟨e, rfl⟩
  | ok a =>
    cases g.eval 1 fun _ => 0 with
    | error e => exact ⟨e, rfl⟩
    | ok b => exact ⟨e, rfl⟩

/-- **C31, disagreement.** A silent module whose manifold has directions, also one without momentum,
stops every divergence free module: the dual field is asked for its Jacobian, which
`StructuredField_0_u` (used by `cot_to_vs` for directions) does not have. This is the only case left
out above. -/
theorem C31_directions_disagreement {N P k : Nat} (m : DivFree d N P) (hν : 0 < m.ν) (hc : 0 < m.coeff) (t : Transport)
    (gd dir : Fin k → Vec d) {it : Nat} (hit : it ≠ 0) :
    (∃ r, shootEuler it none (.compound [.divFree m]) = .ok r) ∧
    ∃ e, shootEuler it none (.compound [.divFree m, .silent (.direction t gd dir 0 0)]) = .error e := by
  refine ⟨regular_shootEuler ?_ hit, ?_⟩
  · simp [DefModule.Regular, DefModule.AllRegular, hν, hc]
  · have hg : ∃ e, Hamiltonian.geodesicControls (.compound [.divFree m, .silent (.direction t gd dir 0 0)]) = .error e := by
      cases h : Hamiltonian.geodesicControls (.compound [.divFree m, .silent (.direction t gd dir 0 0)]) with
      | error e => exact ⟨e, rfl⟩
      | ok m' =>
        exfalso
        obtain ⟨C, h1, -⟩ := geodesic_compound h
        have hv : ∃ u v, (DefModule.compound [.divFree m, .silent (.direction t gd dir 0 0)]).manifold.cotToVs m.σ .torch =
            .ok (.sum [.f0 .torch m.gd m.cot m.σ, .sum [.f0 .torch gd 0 m.σ, .f0u .torch gd u v m.σ]]) := by
          cases t <;>
          simp [DefModule.manifold, DefModule.manifolds, DivFree.manifold, Mfd.cotToVs, Mfd.cotToVsAll, mkSumField]
        obtain ⟨u, v, hv⟩ := hv
        obtain ⟨e, he⟩ := sum_jac_error (.f0 .torch m.gd m.cot m.σ) (.f0 .torch gd 0 m.σ) .torch gd u v m.σ m.X
        rw [DefModule.geodesics, DefModule.geodesic, DivFree.geodesic, hv] at h1
        dsimp only at h1
        rw [he] at h1
        cases h1
    obtain ⟨e, he⟩ := hg
    obtain ⟨j, rfl⟩ := Nat.exists_eq_succ_of_ne_zero hit
    refine ⟨e, ?_⟩
    rw [shootEuler, if_neg hit, eulerLoop, eulerStep_eq, he]

mutual
/-- Geodesic controls of modules that read Jacobians need a manifold without directions. -/
theorem noDir_of_geodesic {man : Mfd d} : (m : DefModule d) → m.ReadsJac → {m' : DefModule d} → m.geodesic man = .ok m' → man.NoDirections
  | .translations _, hr, _, _ => by rw [DefModule.ReadsJac] at hr; exact hr.elim
  | .implicit0 _, hr, _, _ => by rw [DefModule.ReadsJac] at hr; exact hr.elim
  | .oriented _, hr, _, _ => by rw [DefModule.ReadsJac] at hr; exact hr.elim
  | .constrained _, hr, _, _ => by rw [DefModule.ReadsJac] at hr; exact hr.elim
  | .globalTranslation _, hr, _, _ => by rw [DefModule.ReadsJac] at hr; exact hr.elim
  | .linear _, hr, _, _ => by rw [DefModule.ReadsJac] at hr; exact hr.elim
  | .implicit1 m, _, _, h => by
    rw [DefModule.geodesic] at h
    obtain ⟨a, h, -⟩ := wrap_ok h
    unfold Implicit1.geodesic at h
    cases h1 : man.cotToVs m.σ m.r with
    | error e => rw [h1] at h; cases h
    | ok vs =>
      rw [h1] at h; dsimp only at h
      cases h2 : vs.jacobians m.gd with
      | error e => rw [h2] at h; cases h
      | ok V => exact noDir_of_avail man h1 (jacobians_ok h2).1
  | .divFree m, _, _, h => by
    rw [DefModule.geodesic] at h
    obtain ⟨a, h, -⟩ := wrap_ok h
    unfold DivFree.geodesic at h
    cases h1 : man.cotToVs m.σ .torch with
    | error e => rw [h1] at h; cases h
    | ok vs =>
      rw [h1] at h; dsimp only at h
      cases h2 : vs.jacobians m.X with
      | error e => rw [h2] at h; cases h
      | ok V => exact noDir_of_avail man h1 (jacobians_ok h2).1
  | .arap m, _, _, h => by
    rw [DefModule.geodesic] at h
    obtain ⟨a, h, -⟩ := wrap_ok h
    unfold Arap.geodesic at h
    cases h1 : man.cotToVs m.σ .torch with
    | error e => rw [h1] at h; cases h
    | ok vs =>
      rw [h1] at h; dsimp only at h
      cases h2 : vs.jacobians m.X with
      | error e => rw [h2] at h; cases h
      | ok V => exact noDir_of_avail man h1 (jacobians_ok h2).1
  | .silent _, hr, _, _ => by rw [DefModule.ReadsJac] at hr; exact hr.elim
  | .compound ms, hr, _, h => by
    obtain ⟨ms', h1, -⟩ := geodesic_compound h
    rw [DefModule.ReadsJac] at hr
    exact noDir_of_geodesics ms hr h1
theorem noDir_of_geodesics {man : Mfd d} : (ms : List (DefModule d)) → DefModule.SomeReadsJac ms → {ms' : List (DefModule d)} →
    DefModule.geodesics man ms = .ok ms' → man.NoDirections
  | [], hr, _, _ => by rw [DefModule.SomeReadsJac] at hr; exact hr.elim
  | m :: ms, hr, ms', h => by
    rw [DefModule.SomeReadsJac] at hr
    rw [DefModule.geodesics] at h
    cases h1 : m.geodesic man with
    | error e => rw [h1] at h; cases h
    | ok a =>
      rw [h1] at h; dsimp only at h
      cases h2 : DefModule.geodesics man ms with
      | error e => rw [h2] at h; cases h
      | ok b =>
        rcases hr with hr | hr
        · exact noDir_of_geodesic m hr h1
        · exact noDir_of_geodesics ms hr h2
end

/-- **C31, disagreement in general.** The condition on directions is exact: if some module reads
Jacobians of the dual field, then every silent module with directions makes shooting raise, with the
Euler method and with the solvers. -/
theorem C31_readers_disagreement {ms₁ ms₂ : List (DefModule d)} {M : Mfd d} (hr : (DefModule.compound (ms₁ ++ ms₂)).ReadsJac)
    (hd : ¬ M.NoDirections) {it : Nat} (hit : it ≠ 0) :
    (∃ e, shootEuler it none (.compound (ms₁ ++ .silent M :: ms₂)) = .error e) ∧
    ∀ x, ∃ e, rhs (.compound (ms₁ ++ .silent M :: ms₂)) x = .error e := by
  have key : ∀ (A B : List (DefModule d)) (N : Mfd d), DefModule.SomeReadsJac (A ++ B) → ¬ N.NoDirections →
      ∃ e, Hamiltonian.geodesicControls (.compound (A ++ .silent N :: B)) = .error e := by
    intro A B N hr hN
    cases h : Hamiltonian.geodesicControls (.compound (A ++ .silent N :: B)) with
    | error e => exact ⟨e, rfl⟩
    | ok m' =>
      exfalso
      have h1 := noDir_of_geodesic _ (by
        rw [DefModule.ReadsJac, someReadsJac_append, DefModule.SomeReadsJac, DefModule.ReadsJac]
        rw [someReadsJac_append] at hr
        exact hr.imp id Or.inr) h
      rw [DefModule.manifold, Mfd.NoDirections, manifolds_append, allNoDir_append, DefModule.manifolds, DefModule.manifold,
        Mfd.AllNoDirections] at h1
      exact hN h1.2.1
  rw [DefModule.ReadsJac] at hr
  constructor
  · obtain ⟨e, he⟩ := key ms₁ ms₂ M hr hd
    obtain ⟨j, rfl⟩ := Nat.exists_eq_succ_of_ne_zero hit
    refine ⟨e, ?_⟩
    rw [shootEuler, if_neg hit, eulerLoop, eulerStep_eq, he]
  · intro x
    have e1 : rowsMod (.compound (ms₁ ++ .silent M :: ms₂)) x = .compound
        (DefModule.withCotAll x.2 0 (DefModule.withGdAll x.1 0 ms₁) ++
          .silent ((M.withGd x.1 (Mfd.sizeAll (DefModule.manifolds ms₁))).withCot x.2 (Mfd.sizeAll (DefModule.manifolds ms₁))) ::
          DefModule.withCotAll x.2 (Mfd.sizeAll (DefModule.manifolds ms₁) + M.size)
            (DefModule.withGdAll x.1 (Mfd.sizeAll (DefModule.manifolds ms₁) + M.size) ms₂)) := by
      rw [rowsMod_compound, DefModule.withGdAll_append, DefModule.withCotAll_append, DefModule.manifolds_withGd, Mfd.size_withGdAll,
        DefModule.withGdAll, DefModule.withCotAll, DefModule.manifold, DefModule.manifold_withGd, DefModule.manifold, Mfd.size_withGd,
        DefModule.withGd, DefModule.withCot]
      simp only [Nat.zero_add]
    obtain ⟨e, he⟩ : ∃ e, Hamiltonian.geodesicControls (rowsMod (.compound (ms₁ ++ .silent M :: ms₂)) x) = .error e := by
      rw [e1]
      refine key _ _ _ ?_ ?_
      · rw [someReadsJac_append, someReadsJac_withCot, someReadsJac_withGd, someReadsJac_withCot, someReadsJac_withGd,
          ← someReadsJac_append]
        exact hr
      · rw [Mfd.noDirections_withCot, Mfd.noDirections_withGd]; exact hd
    exact ⟨e, by unfold rhs evalAt; rw [he]⟩

example {N P k : Nat} (m : DivFree d N P) (t : Transport) (gd dir cot cot' : Fin k → Vec d) :
    (DefModule.compound ([.divFree m] ++ [])).ReadsJac ∧ ¬ (Mfd.direction t gd dir cot cot').NoDirections := by
  simp [DefModule.ReadsJac, DefModule.SomeReadsJac, Mfd.NoDirections]

end
end Imodal
