import Verif.Lemmas.ShootCtrl
import Verif.Model.Registration
/-!
# C28: prescribed controls are used for the interval they belong to
-/
set_option autoImplicit false
namespace Imodal
noncomputable section
variable {d : Nat}

theorem stepWith_congr {V : Type} [AddCommGroup V] [Module ℝ V] {s : Solver} {Y Y' : Nat → V → Py V} (h : ∀ j < s.stages, Y j = Y' j)
    (u : ℝ) (y : V) : stepWith s Y u y = stepWith s Y' u y := by
  cases s with
  | euler => simp only [stepWith, h 0 (by decide)]
  | midpoint => simp only [stepWith, h 0 (by decide), h 1 (by decide)]
  | rk4 => simp only [stepWith, h 0 (by decide), h 1 (by decide), h 2 (by decide), h 3 (by decide)]

/-- A step that returned picked something for each of its evaluations. -/
theorem stepWith_picks {V C : Type} [AddCommGroup V] [Module ℝ V] {s : Solver} {pick : Nat → Py C} {X : C → V → Py V} {u : ℝ} {y b : V}
    (h : stepWith s (fun j x => (pick j).bind fun c => X c x) u y = .ok b) :
    ∃ cs : Nat → C, (∀ j < s.stages, pick j = .ok (cs j)) ∧ stepWith s (fun j => X (cs j)) u y = .ok b := by
  have key : ∀ j < s.stages, ∃ c, pick j = .ok c := by
    intro j hj
    cases hp : pick j with
    | ok c => exact ⟨c, rfl⟩
    | error e =>
      exfalso
      cases s with
      | euler =>
        obtain rfl : j = 0 := by simp [Solver.stages] at hj; exact hj
        simp [stepWith, hp, Except.bind, Except.map] at h
      | midpoint =>
        simp only [stepWith] at h
        match j, hj with
        | 0, _ => simp [hp, Except.bind] at h
        | 1, _ =>
          rw [hp] at h
          cases h1 : (pick 0).bind fun c => X c y with
          | error e => rw [h1] at h; cases h
          | ok k => rw [h1] at h; simp [Except.bind, Except.map] at h
      | rk4 =>
        simp only [stepWith] at h
        cases h1 : (pick 0).bind fun c => X c y with
        | error e => rw [h1] at h; cases h
        | ok k₁ =>
          rw [h1] at h
          dsimp only [Except.bind] at h
          cases h2 : (pick 1).bind fun c => X c (y + (u * (1 / 3)) • k₁) with
          | error e => unfold Except.bind at h2; rw [h2] at h; cases h
          | ok k₂ =>
            have h2' := h2
            unfold Except.bind at h2
            rw [h2] at h
            dsimp only at h
            cases h3 : (pick 2).bind fun c => X c (y + u • (k₂ - (1 / 3 : ℝ) • k₁)) with
            | error e => unfold Except.bind at h3; rw [h3] at h; cases h
            | ok k₃ =>
              have h3' := h3
              unfold Except.bind at h3
              rw [h3] at h
              dsimp only at h
              match j, hj with
              | 0, _ => rw [hp] at h1; cases h1
              | 1, _ => rw [hp] at h2'; cases h2'
              | 2, _ => rw [hp] at h3'; cases h3'
              | 3, _ => rw [hp] at h; cases h
  haveI : Nonempty C := ⟨(key 0 (by cases s <;> decide)).choose⟩
  choose! cs hcs using key
  have : stepWith s (fun j x => (pick j).bind fun c => X c x) u y = stepWith s (fun j => X (cs j)) u y :=
    stepWith_congr (fun j hj => by funext x; rw [hcs j hj]; rfl) u y
  exact ⟨cs, hcs, by rw [← this]; exact h⟩

/-- The states `xs` of a shooting with controls, and what happened in each step. -/
def Follows (m : DefModule d) (r : Shot d) (it : Nat) (step : Nat → Row → Row → Prop) : Prop :=
  ∃ xs : List Row, xs.length = it + 1 ∧ xs[0]? = some (gdRow m) ∧ r.states = xs.map (fun x => (m.withGd x 0).manifold) ∧
    r.module.manifold = (m.withGd (xs.getLastD (gdRow m)) 0).manifold ∧
    ∀ i < it, ∃ a b, xs[i]? = some a ∧ xs[i + 1]? = some b ∧ step i a b

theorem shootC_follows {ms : List (DefModule d)} {s : Solver} {it : Nat} {t1 : ℝ} {controls : List (Ctrl d)} {r : Shot d}
    (h : shootControls s it t1 controls (.compound ms) = .ok r) :
    Follows (.compound ms) r it fun i a b => ∃ cs : Nat → Ctrl d,
      (∀ j < s.stages, pickControls controls it (s.stageIt it i j) (s.stages * i + j) = .ok (cs j)) ∧
      stepWith s (fun j => ctrlRhs (.compound ms) (cs j)) (t1 / it) a = .ok b := by
  obtain ⟨ht, xs, h1, h2, h3, -⟩ := shootC_ok h
  obtain ⟨a, b, c⟩ := orbitWith_steps h1
  refine ⟨xs, a, b, h2, manifold_of_reset h3, fun i hi => ?_⟩
  obtain ⟨x, y, e1, e2, e3⟩ := c i hi
  refine ⟨x, y, e1, e2, ?_⟩
  rw [Nat.zero_add] at e3
  have ht' : t1 ≠ 0 := ht.resolve_left (by omega)
  have : stepWith s (fun j => pickRhs (.compound ms) controls t1 it (s.stageTime (gridTime t1 it i) (gridTime t1 it (i + 1)) j) (s.stages * i + j)) (t1 / it) x
      = stepWith s (fun j x => (pickControls controls it (s.stageIt it i j : Nat) (s.stages * i + j)).bind fun c => ctrlRhs (.compound ms) c x) (t1 / it) x :=
    stepWith_congr (fun j hj => by funext x; unfold pickRhs; rw [tToIt_stage ht' hi s hj]) _ _
  rw [this] at e3
  exact stepWith_picks e3

theorem pick_step {controls : List (Ctrl d)} {it i n : Nat} {c : Ctrl d} (hl : controls.length = it)
    (h : pickControls controls it (i : Nat) n = .ok c) : controls[i]? = some c := by
  unfold pickControls at h
  dsimp only at h
  rw [if_pos hl, Int.toNat_natCast] at h
  split at h
  · cases h
  · next heq => rw [← Except.ok.inj h]; exact heq

theorem pick_eval {controls : List (Ctrl d)} {it n : Nat} {i : Int} {c : Ctrl d} (hl : it < controls.length)
    (h : pickControls controls it i n = .ok c) : controls[n]? = some c := by
  unfold pickControls at h
  dsimp only at h
  rw [if_neg (by omega), if_pos hl] at h
  split at h
  · cases h
  · next heq => rw [← Except.ok.inj h]; exact heq

theorem pick_const {controls : List (Ctrl d)} {it n : Nat} {i : Int} {c : Ctrl d} (hl : controls.length < it)
    (h : pickControls controls it i n = .ok c) : controls[0]? = some c := by
  unfold pickControls at h
  dsimp only at h
  rw [if_neg (by omega), if_neg (by omega)] at h
  split at h
  · cases h
  · next heq => rw [← Except.ok.inj h]; exact heq

/-- One control per step, methods `euler` and `midpoint`: step `i` is a step of the field
`controls[i]` generates. -/
theorem C28_per_step_partial (ms : List (DefModule d)) {s : Solver} (hs : s ≠ .rk4) {it : Nat} {t1 : ℝ} {controls : List (Ctrl d)} {r : Shot d}
    (hl : controls.length = it) (h : shootControls s it t1 controls (.compound ms) = .ok r) :
    Follows (.compound ms) r it fun i a b => ∃ c, controls[i]? = some c ∧
      stepWith s (fun _ => ctrlRhs (.compound ms) c) (t1 / it) a = .ok b := by
  obtain ⟨xs, e1, e2, e3, e4, e5⟩ := shootC_follows h
  refine ⟨xs, e1, e2, e3, e4, fun i hi => ?_⟩
  obtain ⟨a, b, q1, q2, cs, q3, q4⟩ := e5 i hi
  have hst : ∀ j < s.stages, s.stageIt it i j = i := fun j _ => by cases s <;> first | rfl | exact absurd rfl hs
  have hc : ∀ j < s.stages, controls[i]? = some (cs j) := fun j hj => by
    have := q3 j hj
    rw [hst j hj] at this
    exact pick_step hl this
  have h0 : 0 < s.stages := by cases s <;> decide
  refine ⟨a, b, q1, q2, cs 0, hc 0 h0, ?_⟩
  rw [← q4]
  refine stepWith_congr (fun j hj => ?_) _ _
  rw [Option.some.inj ((hc 0 h0).symm.trans (hc j hj))]

/-- One control per step, method `rk4`: the last of the four evaluations of step `i` uses the
controls of step `i + 1`, except in the last step. -/
theorem C28_rk4 (ms : List (DefModule d)) {it : Nat} {t1 : ℝ} {controls : List (Ctrl d)} {r : Shot d}
    (hl : controls.length = it) (h : shootControls .rk4 it t1 controls (.compound ms) = .ok r) :
    Follows (.compound ms) r it fun i a b => ∃ c c', controls[i]? = some c ∧ controls[min (i + 1) (it - 1)]? = some c' ∧
      stepWith .rk4 (fun j => ctrlRhs (.compound ms) (if j < 3 then c else c')) (t1 / it) a = .ok b := by
  obtain ⟨xs, e1, e2, e3, e4, e5⟩ := shootC_follows h
  refine ⟨xs, e1, e2, e3, e4, fun i hi => ?_⟩
  obtain ⟨a, b, q1, q2, cs, q3, q4⟩ := e5 i hi
  have c0 : controls[i]? = some (cs 0) := pick_step hl (q3 0 (by decide))
  have c1 : controls[i]? = some (cs 1) := pick_step hl (q3 1 (by decide))
  have c2 : controls[i]? = some (cs 2) := pick_step hl (q3 2 (by decide))
  refine ⟨a, b, q1, q2, cs 0, cs 3, c0, pick_step hl (q3 3 (by decide)), ?_⟩
  rw [← q4]
  refine stepWith_congr (fun j hj => ?_) _ _
  match j, hj with
  | 0, _ => rfl
  | 1, _ => rw [if_pos (by decide), Option.some.inj (c0.symm.trans c1)]
  | 2, _ => rw [if_pos (by decide), Option.some.inj (c0.symm.trans c2)]
  | 3, _ => rfl

/-- One control per evaluation: evaluation `j` of step `i`, which is evaluation number
`stages * i + j` in all, uses the entry of this number; the list is long enough. -/
theorem C28_per_evaluation (ms : List (DefModule d)) {s : Solver} {it : Nat} {t1 : ℝ} {controls : List (Ctrl d)} {r : Shot d}
    (hl : it < controls.length) (h : shootControls s it t1 controls (.compound ms) = .ok r) :
    s.stages * it ≤ controls.length ∧
    Follows (.compound ms) r it fun i a b => ∃ cs : Nat → Ctrl d, (∀ j < s.stages, controls[s.stages * i + j]? = some (cs j)) ∧
      stepWith s (fun j => ctrlRhs (.compound ms) (cs j)) (t1 / it) a = .ok b := by
  obtain ⟨xs, e1, e2, e3, e4, e5⟩ := shootC_follows h
  have key : ∀ i < it, ∃ a b, xs[i]? = some a ∧ xs[i + 1]? = some b ∧ ∃ cs : Nat → Ctrl d,
      (∀ j < s.stages, controls[s.stages * i + j]? = some (cs j)) ∧
      stepWith s (fun j => ctrlRhs (.compound ms) (cs j)) (t1 / it) a = .ok b := fun i hi => by
    obtain ⟨a, b, q1, q2, cs, q3, q4⟩ := e5 i hi
    exact ⟨a, b, q1, q2, cs, fun j hj => pick_eval hl (q3 j hj), q4⟩
  refine ⟨?_, xs, e1, e2, e3, e4, key⟩
  cases it with
  | zero => simp
  | succ k =>
    obtain ⟨a, b, -, -, cs, q, -⟩ := key k (by omega)
    have h0 : 0 < s.stages := by cases s <;> decide
    have := q (s.stages - 1) (by omega)
    obtain ⟨hlt, -⟩ := List.getElem?_eq_some_iff.1 this
    rw [show s.stages * k + (s.stages - 1) = s.stages * (k + 1) - 1 by rw [Nat.mul_add]; omega] at hlt
    omega

/-- A shorter list stands for the same controls at all times. -/
theorem C28_constant (ms : List (DefModule d)) {s : Solver} {it : Nat} {t1 : ℝ} {controls : List (Ctrl d)} {r : Shot d}
    (hl : controls.length < it) (h : shootControls s it t1 controls (.compound ms) = .ok r) :
    ∃ c, controls[0]? = some c ∧ Follows (.compound ms) r it fun _ a b =>
      stepWith s (fun _ => ctrlRhs (.compound ms) c) (t1 / it) a = .ok b := by
  obtain ⟨xs, e1, e2, e3, e4, e5⟩ := shootC_follows h
  have h0 : 0 < s.stages := by cases s <;> decide
  obtain ⟨-, -, -, -, cs, q, -⟩ := e5 0 (by omega)
  refine ⟨cs 0, pick_const hl (q 0 h0), xs, e1, e2, e3, e4, fun i hi => ?_⟩
  obtain ⟨a, b, q1, q2, cs', q3, q4⟩ := e5 i hi
  refine ⟨a, b, q1, q2, ?_⟩
  dsimp only
  rw [← q4]
  refine stepWith_congr (fun j hj => ?_) _ _
  rw [Option.some.inj ((pick_const hl (q 0 h0)).symm.trans (pick_const hl (q3 j hj)))]

theorem stepWith_total {V : Type} [AddCommGroup V] [Module ℝ V] {s : Solver} {Y : Nat → V → Py V} (h : ∀ j < s.stages, ∀ x, ∃ k, Y j x = .ok k)
    (u : ℝ) (y : V) : ∃ b, stepWith s Y u y = .ok b := by
  cases s with
  | euler =>
    obtain ⟨k, hk⟩ := h 0 (by decide) y
    simp only [stepWith, hk]; exact ⟨_, rfl⟩
  | midpoint =>
    obtain ⟨k, hk⟩ := h 0 (by decide) y
    obtain ⟨k', hk'⟩ := h 1 (by decide) (y + (0.5 * u) • k)
    simp only [stepWith, hk, Except.bind, hk']; exact ⟨_, rfl⟩
  | rk4 =>
    obtain ⟨k₁, h₁⟩ := h 0 (by decide) y
    obtain ⟨k₂, h₂⟩ := h 1 (by decide) (y + (u * (1 / 3)) • k₁)
    obtain ⟨k₃, h₃⟩ := h 2 (by decide) (y + u • (k₂ - (1 / 3 : ℝ) • k₁))
    obtain ⟨k₄, h₄⟩ := h 3 (by decide) (y + u • (k₁ - k₂ + k₃))
    simp only [stepWith, h₁, Except.bind, h₂, h₃, h₄]; exact ⟨_, rfl⟩

theorem orbitWith_total {V : Type} [AddCommGroup V] [Module ℝ V] {s : Solver} {Y : Nat → Nat → V → Py V} {u : ℝ} {k : Nat} :
    ∀ {i : Nat} {y : V}, (∀ i' < i + k, ∀ j < s.stages, ∀ x, ∃ v, Y i' j x = .ok v) → ∃ l, orbitWith s Y u i k y = .ok l := by
  induction k with
  | zero => intro i y _; exact ⟨_, rfl⟩
  | succ k ih =>
    intro i y h
    obtain ⟨b, hb⟩ := stepWith_total (h i (by omega)) u y
    obtain ⟨l, hl⟩ := ih (i := i + 1) (y := b) fun i' hi' => h i' (by omega)
    rw [orbitWith, hb]
    dsimp only
    rw [hl]
    exact ⟨_, rfl⟩

/-- No index leaves the list, for a list with one entry per step or per evaluation: if the
controls can be evaluated at all, shooting returns. -/
theorem C28_in_range (ms : List (DefModule d)) (hp : PlainMembers ms) (hn : 0 < numCoords (.compound ms)) (s : Solver) (it : Nat) {t1 : ℝ}
    (ht : t1 ≠ 0) (controls : List (Ctrl d)) (hl : controls.length = it ∨ it < controls.length ∧ s.stages * it ≤ controls.length)
    (hev : ∀ c ∈ controls, ∀ x, ∃ v, ctrlRhs (.compound ms) c x = .ok v) :
    ∃ r, shootControls s it t1 controls (.compound ms) = .ok r := by
  have := shootC_cases hp hn s it t1 controls
  rw [if_neg fun h => ht h.2] at this
  have htot : ∃ l, orbitWith s (fun i j => pickRhs (.compound ms) controls t1 it
      (s.stageTime (gridTime t1 it i) (gridTime t1 it (i + 1)) j) (s.stages * i + j)) (t1 / it) 0 it (gdRow (.compound ms)) = .ok l := by
    refine orbitWith_total fun i hi j hj x => ?_
    rw [Nat.zero_add] at hi
    unfold pickRhs
    rw [tToIt_stage ht hi s hj]
    have hidx : ∃ c, pickControls controls it (s.stageIt it i j : Nat) (s.stages * i + j) = .ok c ∧ c ∈ controls := by
      unfold pickControls
      dsimp only
      have hlt : (if controls.length = it then ((s.stageIt it i j : Nat) : Int).toNat
          else if it < controls.length then s.stages * i + j else 0) < controls.length := by
        rw [Int.toNat_natCast]
        rcases hl with hl | hl
        · rw [if_pos hl, hl]
          unfold Solver.stageIt
          split <;> omega
        · rw [if_neg (by omega), if_pos hl.1]
          have : s.stages * (i + 1) ≤ s.stages * it := Nat.mul_le_mul_left _ hi
          rw [Nat.mul_add, Nat.mul_one] at this
          omega
      rw [List.getElem?_eq_getElem hlt]
      exact ⟨_, rfl, List.getElem_mem hlt⟩
    obtain ⟨c, hc, hmem⟩ := hidx
    rw [hc]
    exact hev c hmem x
  obtain ⟨l, hl'⟩ := htot
  rw [hl'] at this
  obtain ⟨g, -, -, h⟩ := this
  exact ⟨_, h⟩

/-! ## One moving point -/

/-- A global translation and a point that follows it. -/
def carried : List (DefModule 1) := [.globalTranslation ⟨1, 0⟩, .silent (.landmarks (fun _ : Fin 1 => 0) 0)]
/-- Its controls. -/
def push (u : ℝ) : Ctrl 1 := .list [.vec fun _ => u, .none]

theorem carried_plain : PlainMembers carried := by
  intro m hm
  simp only [carried, DefModule.manifolds, DefModule.manifold, GlobalTranslation.manifold, List.mem_cons, List.not_mem_nil, or_false] at hm
  rcases hm with rfl | rfl
  · exact Or.inl rfl
  · exact Or.inr rfl

theorem carried_numCoords : numCoords (.compound carried) = 1 := by
  simp [numCoords_eq, carried, DefModule.manifold, DefModule.manifolds, GlobalTranslation.manifold, Mfd.size, Mfd.sizeAll]

theorem carried_rhs (u : ℝ) (x : Row) : ctrlRhs (.compound carried) (push u) x = .ok fun j => if j = 0 then u else 0 := by
  unfold ctrlRhs ctrlEval
  have h1 : ((DefModule.compound carried).withGd x 0).fillControls (push u)
      = .ok (.compound [.globalTranslation ⟨1, fun _ => u⟩, .silent (.landmarks (viewVecs x : Fin 1 → Vec 1) 0)]) := by
    simp only [carried, push, DefModule.withGd, DefModule.withGdAll, Mfd.withGd, DefModule.fillControls, DefModule.fillAll,
      DefModule.manifold, GlobalTranslation.manifold, Mfd.size, List.length_cons, List.length_nil]
    simp
  rw [h1]
  simp only [DefModule.cost, DefModule.costs, DefModule.field, DefModule.fields, mkSumField, DefModule.manifold, DefModule.manifolds, GlobalTranslation.manifold,
    Mfd.action, Mfd.actionAll, actLandmarks, FieldExpr.eval, FieldExpr.evalSum, GlobalTranslation.field]
  have hv : (FieldExpr.sum [FieldExpr.const fun _ => u, FieldExpr.null] : FieldExpr 1).values (viewVecs x : Fin 1 → Vec 1) = .ok fun _ _ => u := by
    simp only [FieldExpr.values, FieldExpr.batch, FieldExpr.eval, FieldExpr.evalSum]
    congr 1
    funext i b
    simp [fieldConst]
  rw [hv]
  simp only [Except.map, Tan.unroll, Tan.unrollAll]
  congr 1
  funext j
  simp only [rowOf, flatVecs, fieldConst]
  cases j with
  | zero => simp
  | succ j => simp

theorem carried_gdRow (x : Row) : gdRow ((DefModule.compound carried).withGd x 0) = cut 1 x := by
  rw [gdRow_withGd, carried_numCoords]

/-- With `rk4` and one control per step, a point moves during the first step although the
controls of this step generate no motion anywhere. -/
theorem C28_rk4_disagreement : ∃ r, shootControls .rk4 2 1 [push 0, push 1] (.compound carried) = .ok r ∧
    (∀ x, ctrlRhs (.compound carried) (push 0) x = .ok 0) ∧ r.states[0]? ≠ r.states[1]? := by
  obtain ⟨r, hr⟩ := C28_in_range carried carried_plain (by rw [carried_numCoords]; norm_num) .rk4 2 one_ne_zero [push 0, push 1] (Or.inl rfl) (by
    intro c hc x
    simp only [List.mem_cons, List.not_mem_nil, or_false] at hc
    rcases hc with rfl | rfl <;> exact ⟨_, carried_rhs _ x⟩)
  refine ⟨r, hr, fun x => ?_, ?_⟩
  · rw [carried_rhs]; congr 1; funext j; simp
  · obtain ⟨xs, -, hx0, hst, -, hstep⟩ := C28_rk4 carried rfl hr
    obtain ⟨a, b, ha, hb, c, c', hc, hc', hs⟩ := hstep 0 (by norm_num)
    obtain rfl : a = gdRow (.compound carried) := by rw [hx0] at ha; exact (Option.some.inj ha).symm
    obtain rfl : c = push 0 := by simpa using hc.symm
    obtain rfl : c' = push 1 := by simpa using hc'.symm
    rw [hst, List.getElem?_map, List.getElem?_map, ha, hb]
    simp only [Option.map_some, ne_eq, Option.some.injEq]
    intro heq
    have h0 := congrArg (fun man : Mfd 1 => rowOf man.unrollGd.flatten 0) heq
    have e1 := congrFun (carried_gdRow (gdRow (.compound carried))) 0
    have e2 := congrFun (carried_gdRow b) 0
    unfold gdRow at e1 e2 h0
    rw [e1, e2] at h0
    simp only [stepWith, Nat.reduceLT, if_true, if_false, carried_rhs, Except.bind, Except.map] at hs
    have hb0 := congrFun (Except.ok.inj hs) 0
    simp only [cut, Nat.lt_one_iff, if_true] at h0
    simp at hb0
    unfold gdRow at hb0
    rw [← hb0] at h0
    simp at h0
    norm_num at h0

/-! Non-vacuity of the other theorems: the same point with constant, per-step and per-evaluation
controls. -/
example (s : Solver) : ∃ r, shootControls s 3 1 [push 1, push 2, push 3] (.compound carried) = .ok r :=
  C28_in_range carried carried_plain (by rw [carried_numCoords]; norm_num) s 3 one_ne_zero _ (Or.inl rfl) (by
    intro c hc x
    simp only [List.mem_cons, List.not_mem_nil, or_false] at hc
    rcases hc with rfl | rfl | rfl <;> exact ⟨_, carried_rhs _ x⟩)
example : ∃ r, shootControls .midpoint 2 1 [push 1, push 2, push 3, push 4] (.compound carried) = .ok r :=
  C28_in_range carried carried_plain (by rw [carried_numCoords]; norm_num) .midpoint 2 one_ne_zero _
    (Or.inr ⟨by simp, by simp [Solver.stages]⟩) (by
    intro c hc x
    simp only [List.mem_cons, List.not_mem_nil, or_false] at hc
    rcases hc with rfl | rfl | rfl | rfl <;> exact ⟨_, carried_rhs _ x⟩)

/-! ## The lists a registration model builds -/

theorem collectList_forall {α β : Type} {f : α → Py β} : ∀ {l : List α} {bs : List β}, collectList f l = .ok bs →
    List.Forall₂ (fun a b => f a = .ok b) l bs
  | [], bs, h => by cases h; exact .nil
  | a :: l, bs, h => by
    unfold collectList at h
    split at h
    · cases h
    · rename_i b hb
      split at h
      · cases h
      · rename_i bs' hbs
        cases h
        exact .cons hb (collectList_forall hbs)

/-- **C28.** The controls a registration model learns are a list made for its solver: one entry for
each evaluation of the right-hand side, each with one control per deformation module, in their
order. So their number is one that `C28_in_range` allows. -/
theorem C28_learnt {G T : Type} {Ds : List (Deformable d G)} {ms : List (DefModule d)} {as : List (Attach G T)} {s : Solver} {it : Nat} {ones : Bool}
    {lam : ℝ} {red : Reduce} {M : RegModel d G T} (h : RegModel.new Ds ms as (some (.fixed s, it, ones)) lam red = .ok M) :
    ∃ cs, M.learned = some (it, cs) ∧ cs.length = s.stages * it ∧
      (∀ row ∈ cs, List.Forall₂ (fun (m : DefModule d) c => m.controls.like (if ones then 1 else 0) = .ok c) ms row) ∧
      (cs.length = it ∨ it < cs.length ∧ s.stages * it ≤ cs.length) := by
  have key : ∀ cs, learnableControls (.fixed s) it ones ms = .ok cs → cs.length = s.stages * it ∧
      ∀ row ∈ cs, List.Forall₂ (fun (m : DefModule d) c => m.controls.like (if ones then 1 else 0) = .ok c) ms row := by
    intro cs hc
    have hk : controlsPerIt (.fixed s) = .ok s.stages := by cases s <;> rfl
    unfold learnableControls at hc
    rw [hk] at hc
    dsimp only at hc
    split at hc
    · rename_i h0
      cases hc
      simp [h0]
    · split at hc
      · cases hc
      · rename_i c hcc
        cases hc
        refine ⟨by simp [Nat.mul_comm], fun row hr => ?_⟩
        rw [List.eq_of_mem_replicate hr]
        exact collectList_forall hcc
  unfold RegModel.new at h
  split at h
  · cases h
  · split at h
    · cases h
    · rename_i learned hl
      dsimp only at h hl
      split at hl
      · cases hl
      · rename_i cs hcs
        cases hl
        split at h
        · cases h
          obtain ⟨h1, h2⟩ := key cs hcs
          refine ⟨cs, rfl, h1, h2, ?_⟩
          cases s <;> simp only [Solver.stages] at h1 ⊢ <;> omega
        · cases h

/-- A solver that is none of the three raises KeyError. -/
theorem C28_learnt_unknown {G T : Type} {Ds : List (Deformable d G)} (ms : List (DefModule d)) {as : List (Attach G T)} (hl : Ds.length = as.length)
    {n : SolverName} (hn : ∀ s, n ≠ .fixed s) (it : Nat) (ones : Bool) (lam : ℝ) (red : Reduce) :
    RegModel.new Ds ms as (some (n, it, ones)) lam red = .error .key := by
  have hk : controlsPerIt n = .error .key := by
    unfold controlsPerIt
    split
    · exact absurd rfl (hn _)
    · exact absurd rfl (hn _)
    · exact absurd rfl (hn _)
    · rfl
  simp [RegModel.new, hl, learnableControls, hk]

/-! A carried point with three steps of `rk4`: twelve learnt controls. -/
example : ∃ M : RegModel 1 (Points 1) Unit, RegModel.new [⟨1, 0, 1, none, fun q => .ok q⟩] [.globalTranslation ⟨1, 0⟩] [nullLoss]
    (some (.fixed .rk4, 3, true)) 1 .sum = .ok M ∧ ∃ cs, M.learned = some (3, cs) ∧ cs.length = 12 := by
  have : ∃ M : RegModel 1 (Points 1) Unit, RegModel.new [⟨1, 0, 1, none, fun q => .ok q⟩] [.globalTranslation ⟨1, 0⟩] [nullLoss]
      (some (.fixed .rk4, 3, true)) 1 .sum = .ok M := by
    simp [RegModel.new, learnableControls, controlsPerIt, collectList, DefModule.controls, Ctrl.like, Deformable.silent, DefModule.manifold,
      DefModule.manifolds, GlobalTranslation.manifold, Mfd.canRequireGrad]
  obtain ⟨M, hM⟩ := this
  obtain ⟨cs, h1, h2, -⟩ := C28_learnt hM
  exact ⟨M, hM, cs, h1, h2⟩

end
end Imodal
