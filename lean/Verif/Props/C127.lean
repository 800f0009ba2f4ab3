import Verif.Props.C121
import Verif.Props.C116
import Verif.Props.C28
import Verif.Props.C123
/-!
# C127: with given controls the two Euler methods carry descriptors alike

The momenta differ: `torch_euler` moves them along the Hamiltonian with the controls held, the solver path leaves them as they are.
-/
set_option autoImplicit false
namespace Imodal
noncomputable section
variable {d : Nat} {G : Type}

/-- The control that step `i` of the solver method `euler` uses, if there are at least as many as steps. -/
theorem pick_own {cs : List (Ctrl d)} {it i : Nat} (hi : i < it) (hl : it ≤ cs.length) {t1 : ℝ} (ht : t1 ≠ 0) {c : Ctrl d} (hc : cs[i]? = some c) :
    pickControls cs it (tToIt t1 it (gridTime t1 it i)) i = .ok c := by
  unfold pickControls
  rw [tToIt_grid ht hi]
  dsimp only
  by_cases h : cs.length = it
  · rw [if_pos h, Int.toNat_natCast, hc]
  · rw [if_neg h, if_pos (by omega), hc]

/-- The module `m` is `A` with other descriptors, momenta and controls. -/
def Carries (A : DefModule d) (p : Row) (m : DefModule d) : Prop := (m.withCot p 0).reset = (A.withGd (gdRow m) 0).reset

theorem Carries.fill {A m : DefModule d} {p : Row} (h : Carries A p m) (c : Ctrl d) :
    (A.withGd (gdRow m) 0).fillControls c = (m.fillControls c).map (·.withCot p 0) := by
  rw [← fill_of_reset h, fill_withCot]

theorem Carries.rows {A m m1 : DefModule d} {p : Row} (h : Carries A p m) {c : Ctrl d} (h1 : m.fillControls c = .ok m1) (x : Row × Row) :
    Carries A p (rowsMod m1 x) := by
  unfold Carries
  have e1 : ((rowsMod m1 x).withCot p 0).reset = ((m.withCot p 0).withGd x.1 0).reset := by
    unfold rowsMod
    rw [DefModule.withCot_withCot, ← DefModule.withGd_withCot, reset_withGd, reset_withGd, reset_withCot, reset_withCot, reset_fill _ h1]
  rw [e1, reset_withGd, h, ← reset_withGd, DefModule.withGd_withGd]
  have e3 : numCoords m1 = numCoords A := by
    have a1 : numCoords m1 = numCoords m := by rw [numCoords_eq, numCoords_eq, fill_manifold _ h1]
    have a2 := congrArg Mfd.size (manifold_of_reset h)
    rw [DefModule.manifold_withCot, Mfd.size_withCot, DefModule.manifold_withGd, Mfd.size_withGd, ← numCoords_eq, ← numCoords_eq] at a2
    rw [a1, a2]
  have e4 := DefModule.withGd_gdRow (A.withGd x.1 0)
  rw [DefModule.withGd_withGd] at e4
  rw [gdRow_rowsMod, e3, ← gdRow_withGd, e4]

/-- One step of either method. -/
theorem step_given {A m : DefModule d} {p : Row} (h : Carries A p m) {cs : List (Ctrl d)} {i : Nat} {c : Ctrl d} (hc : cs[i]? = some c) (step : ℝ) :
    match eulerStep step (some cs) i m, ctrlRhs A c (gdRow m) with
    | .ok m', .ok k => gdRow m' = gdRow m + step • k ∧ Carries A p m'
    | .error _, .error _ => True
    | _, _ => False := by
  have hset : setControls (some cs) i m = m.fillControls c := by
    unfold setControls
    dsimp only
    rw [hc]
  cases h1 : m.fillControls c with
  | error e =>
    have a1 : eulerStep step (some cs) i m = .error e := by
      unfold eulerStep
      rw [hset, h1]
    have a2 : ctrlRhs A c (gdRow m) = .error e := by
      unfold ctrlRhs ctrlEval
      rw [h.fill c, h1]
      rfl
    rw [a1, a2]
    trivial
  | ok m1 =>
    have b : ctrlRhs A c (gdRow m) = (match m1.cost with
        | .error e => .error e
        | .ok _ => match m1.field with
          | .error e => .error e
          | .ok f => match m1.manifold.action f with
            | .error e => .error e
            | .ok v => .ok (rowOf v.unroll.flatten)) := by
      unfold ctrlRhs ctrlEval
      rw [h.fill c, h1]
      simp only [Except.map, cost_withCot, field_withCot, DefModule.manifold_withCot, action_withCot]
      cases m1.cost with
      | error e => rfl
      | ok a =>
        cases m1.field with
        | error e => rfl
        | ok f => cases h5 : m1.manifold.action f <;> simp only [h5]
    cases h2 : eulerStep step (some cs) i m with
    | error e =>
      cases h3 : ctrlRhs A c (gdRow m) with
      | error e' => trivial
      | ok k =>
        exfalso
        rw [b] at h3
        cases h4 : m1.cost with
        | error e' => rw [h4] at h3; cases h3
        | ok a =>
          cases h5 : m1.field with
          | error e' => rw [h4, h5] at h3; cases h3
          | ok f =>
            cases h6 : m1.manifold.action f with
            | error e' => rw [h4, h5] at h3; dsimp only at h3; rw [h6] at h3; cases h3
            | ok w =>
              have h7 := innerProd_row (cotRow m1) m1.manifold 0 h6
              rw [← DefModule.manifold_withCot, DefModule.withCot_cotRow] at h7
              unfold eulerStep at h2
              rw [hset, h1] at h2
              simp only [Hamiltonian.value, hamiltonianOn, h5, h7, h4, withRows_eq] at h2
              cases h2
    | ok m' =>
      obtain ⟨m1', v, k1, k2, k3⟩ := eulerStep_ok h2
      obtain ⟨f, w, l1, l2, l3, -, l4⟩ := C70_velocity k1 k2
      obtain ⟨f', a, q, n1, -, n2, -⟩ := value_ok k2
      rw [hset, h1] at k1
      cases k1
      have e : ctrlRhs A c (gdRow m) = .ok (rowOf w.unroll.flatten) := by
        rw [b, n2, l1]
        dsimp only
        rw [fill_manifold _ h1, l2]
      rw [e]
      dsimp only
      refine ⟨?_, k3 ▸ h.rows h1 _⟩
      have hn : numCoords m1 = numCoords m := by rw [numCoords_eq, numCoords_eq, fill_manifold _ h1]
      rw [k3, gdRow_rowsMod, l4, hn]
      refine cut_eq_self fun j hj => ?_
      show gdRow m j + step • rowOf w.unroll.flatten j = 0
      rw [gdRow_of_le m hj, rowOf, List.getD_eq_default _ _ (by omega)]
      simp

theorem Carries.state {A m : DefModule d} {p : Row} (h : Carries A p m) : m.manifold.withCot p 0 = (A.withGd (gdRow m) 0).manifold := by
  rw [← DefModule.manifold_withCot, manifold_of_reset h]

/-- The loops of both methods. -/
theorem loop_given {A : DefModule d} {p : Row} {cs : List (Ctrl d)} {it : Nat} (hl : it ≤ cs.length) : ∀ (k i : Nat) (m : DefModule d),
    Carries A p m → i + k = it →
    match eulerLoop (1 / it) (some cs) i k m, orbitWith .euler (fun i j => pickRhs A cs 1 it (Solver.euler.stageTime (gridTime 1 it i) (gridTime 1 it (i + 1)) j)
        (Solver.euler.stages * i + j)) (1 / it) i k (gdRow m) with
    | .ok r, .ok xs => r.states.map (fun S => S.withCot p 0) = xs.map (fun x => (A.withGd x 0).manifold) ∧
        Carries A p r.module ∧ ∀ x, xs.getLastD x = gdRow r.module
    | .error _, .error _ => True
    | _, _ => False
  | 0, i, m, hm, _ => by
    rw [eulerLoop, orbitWith]
    refine ⟨?_, hm, fun x => rfl⟩
    simp only [List.map_cons, List.map_nil, hm.state]
  | k + 1, i, m, hm, hi => by
    obtain ⟨c, hc⟩ : ∃ c, cs[i]? = some c := ⟨_, List.getElem?_eq_getElem (show i < cs.length by omega)⟩
    have hY : stepWith .euler ((fun i j => pickRhs A cs 1 it (Solver.euler.stageTime (gridTime 1 it i) (gridTime 1 it (i + 1)) j)
        (Solver.euler.stages * i + j)) i) (1 / it) (gdRow m) = (ctrlRhs A c (gdRow m)).map fun k => gdRow m + ((1 : ℝ) / it) • k := by
      have e : pickRhs A cs 1 it (gridTime 1 it i) i (gdRow m) = ctrlRhs A c (gdRow m) := by
        unfold pickRhs
        rw [pick_own (show i < it by omega) hl one_ne_zero hc]
        rfl
      rw [← e]
      show (pickRhs A cs 1 it (gridTime 1 it i) (1 * i + 0) (gdRow m)).map _ = _
      rw [one_mul, add_zero]
    have hs := step_given hm hc ((1 : ℝ) / it)
    rw [eulerLoop, orbitWith, hY]
    cases h1 : eulerStep (1 / it) (some cs) i m with
    | error e =>
      rw [h1] at hs
      cases h2 : ctrlRhs A c (gdRow m) with
      | error e' => trivial
      | ok q => rw [h2] at hs; exact hs.elim
    | ok m' =>
      rw [h1] at hs
      cases h2 : ctrlRhs A c (gdRow m) with
      | error e' => rw [h2] at hs; exact hs.elim
      | ok q =>
        rw [h2] at hs
        obtain ⟨g1, g2⟩ := hs
        have ih := loop_given hl k (i + 1) m' g2 (by omega)
        rw [g1] at ih
        simp only [Except.map]
        cases h3 : eulerLoop (1 / it) (some cs) (i + 1) k m' with
        | error e =>
          rw [h3] at ih
          generalize orbitWith .euler _ ((1 : ℝ) / it) (i + 1) k (gdRow m + ((1 : ℝ) / it) • q) = o at ih ⊢
          cases o with
          | error e' => trivial
          | ok xs => exact ih.elim
        | ok r =>
          rw [h3] at ih
          generalize orbitWith .euler _ ((1 : ℝ) / it) (i + 1) k (gdRow m + ((1 : ℝ) / it) • q) = o at ih ⊢
          cases o with
          | error e' => exact ih.elim
          | ok xs =>
            obtain ⟨j1, j2, j3⟩ := ih
            refine ⟨?_, j2, fun x => ?_⟩
            · simp only [List.map_cons, hm.state, j1]
            · rw [List.getLastD_cons, j3]

/-- **C127.** With at least one control per step, `torch_euler` returns exactly if the solver method `euler` on `[0, 1]` does. Every state
has then the same descriptors: the states differ only in that the momenta of the second are the initial ones throughout. The modules that are
left differ in nothing else but the controls they keep. -/
theorem C127_agrees {ms : List (DefModule d)} (hp : PlainMembers ms) (hn : 0 < numCoords (.compound ms)) {it : Nat} (hit : it ≠ 0)
    {cs : List (Ctrl d)} (hl : it ≤ cs.length) :
    match shootEuler it (some cs) (.compound ms), shootControls .euler it 1 cs (.compound ms) with
    | .ok r, .ok r' => r'.states = r.states.map (fun S => S.withCot (cotRow (.compound ms)) 0) ∧
        r'.module.reset = (r.module.withCot (cotRow (.compound ms)) 0).reset
    | .error _, .error _ => True
    | _, _ => False := by
  have h0 : Carries (.compound ms) (cotRow (.compound ms)) (.compound ms) := by
    unfold Carries
    rw [DefModule.withCot_cotRow, DefModule.withGd_gdRow]
  have key := loop_given hl it 0 _ h0 (Nat.zero_add it)
  have hc := shootC_cases hp hn .euler it 1 cs
  rw [if_neg (fun h => one_ne_zero h.2)] at hc
  rw [shootEuler, if_neg hit]
  cases h1 : orbitWith .euler (fun i j => pickRhs (.compound ms) cs 1 it (Solver.euler.stageTime (gridTime 1 it i) (gridTime 1 it (i + 1)) j)
        (Solver.euler.stages * i + j)) (1 / it) 0 it (gdRow (.compound ms)) with
  | error e =>
    rw [h1] at hc key
    dsimp only at hc
    rw [hc]
    cases h2 : eulerLoop (1 / it) (some cs) 0 it (.compound ms) with
    | error e' => trivial
    | ok r => rw [h2] at key; exact key.elim
  | ok xs =>
    rw [h1] at hc key
    obtain ⟨g, -, -, hs⟩ := hc
    cases h2 : eulerLoop (1 / it) (some cs) 0 it (.compound ms) with
    | error e' => rw [h2] at key; exact key.elim
    | ok r =>
      rw [h2] at key
      obtain ⟨k1, k2, k3⟩ := key
      have hr := hs
      rw [hs]
      refine ⟨k1.symm, ?_⟩
      obtain ⟨-, xs', o1, -, o2, -⟩ := shootC_ok hr
      rw [h1] at o1
      cases o1
      rw [k2, ← k3 (gdRow (.compound ms))]
      exact o2

/-- With fewer controls than steps `torch_euler` never returns. -/
theorem C127_short {it : Nat} {cs : List (Ctrl d)} (hl : cs.length < it) (m : DefModule d) : ∃ e, shootEuler it (some cs) m = .error e := by
  have key : ∀ (k i : Nat) (m : DefModule d), cs.length < i + k → i ≤ cs.length → ∃ e, eulerLoop ((1 : ℝ) / it) (some cs) i k m = .error e := by
    intro k
    induction k with
    | zero => intro i m h1 h2; omega
    | succ k ih =>
      intro i m h1 h2
      rw [eulerLoop]
      cases h3 : eulerStep ((1 : ℝ) / it) (some cs) i m with
      | error e => exact ⟨e, rfl⟩
      | ok m' =>
        by_cases h4 : i = cs.length
        · obtain ⟨m1, v, k1, -⟩ := eulerStep_ok h3
          unfold setControls at k1
          dsimp only at k1
          rw [h4, List.getElem?_eq_none le_rfl] at k1
          cases k1
        · obtain ⟨e, he⟩ := ih (i + 1) m' (by omega) (by omega)
          dsimp only
          rw [he]
          exact ⟨e, rfl⟩
  rw [shootEuler, if_neg (by omega)]
  exact key it 0 m (by omega) (Nat.zero_le _)

/-- **C127 does not hold for fewer controls than steps.** The solver path then uses the first control for the whole time and ignores the
others, whatever they are, where `torch_euler` raises. -/
theorem C127_short_disagreement {it : Nat} {c : Ctrl d} {cs : List (Ctrl d)} (hl : (c :: cs).length < it) (s : Solver) (t1 : ℝ) (m : DefModule d) :
    shootControls s it t1 (c :: cs) m = shootControls s it t1 [c] m ∧ ∃ e, shootEuler it (some (c :: cs)) m = .error e := by
  refine ⟨?_, C127_short hl m⟩
  rw [List.length_cons] at hl
  have e : ∀ cur calls, pickControls (c :: cs) it cur calls = pickControls [c] it cur calls := by
    intro cur calls
    unfold pickControls
    rw [List.length_cons, List.length_singleton]
    dsimp only
    rw [if_neg (show cs.length + 1 ≠ it by omega), if_neg (show ¬ it < cs.length + 1 by omega), if_neg (show (1 : Nat) ≠ it by omega),
      if_neg (show ¬ it < 1 by omega)]
    rfl
  have e2 : forwardControl (c :: cs) t1 it = forwardControl [c] t1 it := by
    funext t x
    unfold forwardControl
    simp only [e]
  unfold shootControls
  rw [e2]

/-- With as many controls as steps or more, what a call with `torch_euler` makes of the shapes, whatever its duration, is what the solver
method `euler` makes of them on `[0, 1]`. -/
theorem C127_deformed {Ds : List (Deformable d G)} {ms : List (DefModule d)} (hp : PlainMembers ms) {D : Deformable d G} (hD : D ∈ Ds) (hd : 0 < D.n * d)
    {it : Nat} {controls : List (List (Ctrl d))} {t1 : ℝ} {want : Bool} {red : Reduce} {r : Deformed d G}
    (h : computeDeformed Ds ms .torchEuler it want (some controls) t1 red = .ok r) :
    ∃ r', computeDeformed Ds ms (.fixed .euler) it false (some controls) 1 red = .ok r' ∧ r'.geometries = r.geometries ∧
      r'.shot.states.map Mfd.unrollGd = r.shot.states.map Mfd.unrollGd := by
  obtain ⟨hb, hg, costs, hs, -⟩ := computeDeformed_inv h
  set cs : List (Ctrl d) := controls.map fun c => .list (List.replicate Ds.length .none ++ c) with hcs
  have hpad : padControls Ds.length (some controls) = some cs := rfl
  rw [hpad] at hs
  have hsame := shoot_same hs
  have hs : shootEuler it (some cs) (.compound (Ds.map Deformable.silent ++ ms)) = .ok r.shot := by
    unfold shoot at hs
    dsimp only at hs
    cases h1 : shootEuler it (some cs) (.compound (Ds.map Deformable.silent ++ ms)) with
    | error e => rw [h1] at hs; cases hs
    | ok q => rw [h1] at hs; cases hs; rfl
  have hit : it ≠ 0 := by
    rintro rfl
    rw [C26_no_steps] at hs
    cases hs
  have hl : it ≤ cs.length := by
    by_contra hlt
    obtain ⟨e, he⟩ := C127_short (not_le.1 hlt) (.compound (Ds.map Deformable.silent ++ ms))
    rw [he] at hs
    cases hs
  have ha := C127_agrees (silents_plain Ds hp) (silents_numCoords hD hd ms) hit hl
  rw [hs] at ha
  cases h2 : shootControls .euler it 1 cs (.compound (Ds.map Deformable.silent ++ ms)) with
  | error e => rw [h2] at ha; exact ha.elim
  | ok q =>
    rw [h2] at ha
    obtain ⟨a1, a2⟩ := ha
    have hsh : shoot (.fixed .euler) it 1 (padControls Ds.length (some controls)) (.compound (Ds.map Deformable.silent ++ ms))
        = .ok (q, some q.costs) := by
      unfold shoot
      rw [hpad]
      simp only [shootOde, h2]
    have hgeo : toGeometries Ds q.module.members = .ok r.geometries := by
      obtain ⟨L, hL, -⟩ := same_compound hsame
      dsimp only at hL
      rw [toGeometries_of_reset Ds a2, hL, DefModule.withCot, DefModule.members, toGeometries_withCot _ _ _ (alike_refl Ds), ← hg, hL,
        DefModule.members]
    refine ⟨⟨r.geometries, none, q, q.module⟩, ?_, rfl, ?_⟩
    · unfold computeDeformed
      dsimp only
      rw [hsh]
      dsimp only
      rw [if_neg (by
        intro hany
        obtain ⟨E, hE, e⟩ := List.any_eq_true.1 hany
        rw [hb E hE] at e
        cases e)]
      simp only [Bool.false_eq_true, if_false]
      rw [hgeo]
    · dsimp only
      rw [a1, List.map_map]
      exact List.map_congr_left fun S _ => Mfd.unrollGd_withCot _ S 0

/-- **C127, space.** With given controls the modules, the number of steps and the controls decide one smooth map of the whole space, and
`torch_euler` takes every point of every shape where that map takes it, whatever other shapes there are and whatever momenta they have. -/
theorem C127_carried {ms : List (DefModule d)} (hp : PlainMembers ms) (hne : ms ≠ []) (it : Nat) (controls : List (List (Ctrl d))) :
    ∃ Φ : Vec d → Vec d, (∀ n, ContDiff ℝ n Φ) ∧
      ∀ (G : Type) (Ds : List (Deformable d G)) (t1 : ℝ) (want : Bool) (red : Reduce) (r : Deformed d G), (∃ D ∈ Ds, 0 < D.n * d) →
        computeDeformed Ds ms .torchEuler it want (some controls) t1 red = .ok r →
        ∀ (i : Nat) (D : Deformable d G), Ds[i]? = some D → ∃ g, r.geometries[i]? = some g ∧ D.toDeformed ⟨D.n, fun p => Φ (D.gd p)⟩ = .ok g := by
  obtain ⟨Φ, h1, h2⟩ := C121_carried hne .euler it 1 controls
  refine ⟨Φ, h1, fun G Ds t1 want red r ⟨D, hD, hd⟩ h => ?_⟩
  obtain ⟨r', k1, k2, -⟩ := C127_deformed hp hD hd h
  rw [← k2]
  exact (h2 G Ds false red r' k1).1

/-- If the solver path returns, so does `torch_euler`, with the same descriptors. -/
theorem given_returns {ms : List (DefModule d)} (hp : PlainMembers ms) (hn : 0 < numCoords (.compound ms)) {it : Nat} (hit : it ≠ 0)
    {cs : List (Ctrl d)} (hl : it ≤ cs.length) {r' : Shot d} (h : shootControls .euler it 1 cs (.compound ms) = .ok r') :
    ∃ r, shootEuler it (some cs) (.compound ms) = .ok r ∧ r'.states = r.states.map (fun S => S.withCot (cotRow (.compound ms)) 0) := by
  have := C127_agrees hp hn hit hl
  rw [h] at this
  cases h1 : shootEuler it (some cs) (.compound ms) with
  | error e => rw [h1] at this; exact this.elim
  | ok r => rw [h1] at this; exact ⟨r, rfl, this.1⟩

/-- A point pushed by any controls, one for each step: both methods return. -/
example (us : List ℝ) (hne : us.length ≠ 0) : ∃ r r', shootEuler us.length (some (us.map push)) (.compound carried) = .ok r ∧
    shootControls .euler us.length 1 (us.map push) (.compound carried) = .ok r' ∧
    r'.states = r.states.map (fun S => S.withCot (cotRow (.compound carried)) 0) := by
  have hn : 0 < numCoords (.compound carried) := by rw [carried_numCoords]; norm_num
  obtain ⟨r', hr'⟩ := C28_in_range carried carried_plain hn .euler us.length one_ne_zero (us.map push) (Or.inl (by simp)) (by
    intro c hc x
    obtain ⟨u, -, rfl⟩ := List.mem_map.1 hc
    exact ⟨_, carried_rhs _ x⟩)
  obtain ⟨r, hr, h⟩ := given_returns carried_plain hn hne (by simp) hr'
  exact ⟨r, r', hr, hr', h⟩

/-- Two controls for three steps: the solver path returns, and pays no heed to the second. -/
example (u v : ℝ) : (∃ r, shootControls .euler 3 1 [push u, push v] (.compound carried) = .ok r) ∧
    ∃ e, shootEuler 3 (some [push u, push v]) (.compound carried) = .error e := by
  obtain ⟨h1, h2⟩ := C127_short_disagreement (it := 3) (c := push u) (cs := [push v]) (by simp) .euler 1 (.compound carried)
  refine ⟨?_, h2⟩
  rw [h1]
  have hc := shootC_cases carried_plain (by rw [carried_numCoords]; norm_num) .euler 3 1 [push u]
  rw [if_neg fun h => one_ne_zero h.2] at hc
  obtain ⟨l, hl⟩ := orbitWith_total (s := .euler) (u := (1 : ℝ) / (3 : Nat)) (k := 3) (i := 0) (y := gdRow (.compound carried))
    (Y := fun i j => pickRhs (.compound carried) [push u] 1 3 (Solver.euler.stageTime (gridTime 1 3 i) (gridTime 1 3 (i + 1)) j) (Solver.euler.stages * i + j))
    (fun i _ j _ x => ⟨_, by rw [pickRhs_one _ _ _ (by norm_num)]; exact carried_rhs u x⟩)
  rw [hl] at hc
  obtain ⟨g, -, -, h⟩ := hc
  exact ⟨_, h⟩

end
end Imodal
