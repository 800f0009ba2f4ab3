import Verif.Lemmas.Carried
import Verif.Props.C69
/-!
# C33: deformed geometries come back in the order of the deformables
-/
set_option autoImplicit false
namespace Imodal
noncomputable section
variable {d : Nat} {G : Type}

/-- What a successful call has done. -/
theorem computeDeformed_inv {Ds : List (Deformable d G)} {ms : List (DefModule d)} {s : SolverName} {it : Nat} {wantCosts : Bool}
    {controls : Option (List (List (Ctrl d)))} {t1 : ℝ} {red : Reduce} {r : Deformed d G}
    (h : computeDeformed Ds ms s it wantCosts controls t1 red = .ok r) :
    (∀ D ∈ Ds, D.backward = none) ∧ toGeometries Ds r.shot.module.members = .ok r.geometries ∧
    ∃ costs, shoot s it t1 (padControls Ds.length controls) (.compound (Ds.map Deformable.silent ++ ms)) = .ok (r.shot, costs) ∧
      (wantCosts = true → reduceCost red it costs (padControls Ds.length controls) r.shot.states r.shot.module = .ok (r.cost, r.compound)) ∧
      (wantCosts = false → r.cost = none ∧ r.compound = r.shot.module) := by
  unfold computeDeformed at h
  dsimp only at h
  cases h1 : shoot s it t1 (padControls Ds.length controls) (.compound (Ds.map Deformable.silent ++ ms)) with
  | error e => rw [h1] at h; cases h
  | ok a =>
    obtain ⟨sh, costs⟩ := a
    rw [h1] at h
    dsimp only at h
    by_cases hb : (Ds.any fun D => D.backward.isSome) = true
    · rw [if_pos hb] at h
      split at h <;> cases h
    · rw [if_neg hb] at h
      have hb' : ∀ D ∈ Ds, D.backward = none := by
        simpa using hb
      cases hw : wantCosts with
      | true =>
        rw [hw, if_pos rfl] at h
        cases h2 : reduceCost red it costs (padControls Ds.length controls) sh.states sh.module with
        | error e => rw [h2] at h; cases h
        | ok b =>
          obtain ⟨c, m⟩ := b
          rw [h2] at h
          dsimp only at h
          cases h3 : toGeometries Ds sh.module.members with
          | error e => rw [h3] at h; cases h
          | ok gs =>
            rw [h3] at h
            cases h
            exact ⟨hb', h3, costs, rfl, fun _ => h2, fun h => by cases h⟩
      | false =>
        rw [hw] at h
        simp only [Bool.false_eq_true, if_false] at h
        cases h3 : toGeometries Ds sh.module.members with
        | error e => rw [h3] at h; cases h
        | ok gs =>
          rw [h3] at h
          cases h
          exact ⟨hb', h3, costs, rfl, fun h => by simp at h, fun _ => ⟨rfl, rfl⟩⟩

theorem toGeometries_ok : ∀ {Ds : List (Deformable d G)} {ms : List (DefModule d)} {gs : List G}, toGeometries Ds ms = .ok gs →
    gs.length = min Ds.length ms.length ∧ ∀ (i : Nat) (D : Deformable d G) (m : DefModule d), Ds[i]? = some D → ms[i]? = some m →
      ∃ p g, pointsOf m = .ok p ∧ D.toDeformed p = .ok g ∧ gs[i]? = some g
  | [], ms, gs, h => by
    rw [toGeometries] at h
    · cases h; exact ⟨by simp, by simp⟩
    · simp
  | D :: Ds, [], gs, h => by
    rw [toGeometries] at h
    · cases h; exact ⟨by simp, by simp⟩
    · simp
  | D :: Ds, m :: ms, gs, h => by
    rw [toGeometries] at h
    cases h1 : pointsOf m with
    | error e => rw [h1] at h; cases h
    | ok p =>
      rw [h1] at h; dsimp only at h
      cases h2 : D.toDeformed p with
      | error e => rw [h2] at h; cases h
      | ok g =>
        rw [h2] at h; dsimp only at h
        cases h3 : toGeometries Ds ms with
        | error e => rw [h3] at h; cases h
        | ok gs' =>
          rw [h3] at h
          cases h
          obtain ⟨a, b⟩ := toGeometries_ok h3
          refine ⟨by simp only [List.length_cons, a]; omega, fun i D' m' hD hm => ?_⟩
          cases i with
          | zero =>
            simp only [List.getElem?_cons_zero, Option.some.injEq] at hD hm
            subst hD hm
            exact ⟨p, g, h1, h2, rfl⟩
          | succ i =>
            simp only [List.getElem?_cons_succ] at hD hm
            obtain ⟨p, g, x1, x2, x3⟩ := b i D' m' hD hm
            exact ⟨p, g, x1, x2, x3⟩

theorem manifolds_getElem? (ms : List (DefModule d)) (i : Nat) : (DefModule.manifolds ms)[i]? = ms[i]?.map DefModule.manifold := by
  rw [show DefModule.manifolds ms = ms.map DefModule.manifold from ?_, List.getElem?_map]
  induction ms with
  | nil => rfl
  | cons m ms ih => rw [DefModule.manifolds, ih]; rfl

theorem at_getElem? {l : List (Mfd d)} {i n : Nat} {x : Fin n → Vec d} :
    (Mfd.compound l).At i x ↔ ∃ cot, l[i]? = some (.landmarks x cot) := by
  constructor
  · rintro ⟨l₁, l₂, cot, e, hi⟩
    refine ⟨cot, ?_⟩
    rw [Mfd.compound.inj e, List.getElem?_append_right hi.le, hi, Nat.sub_self, List.getElem?_cons_zero]
  · rintro ⟨cot, h⟩
    obtain ⟨hi, he⟩ := List.getElem?_eq_some_iff.1 h
    refine ⟨l.take i, l.drop (i + 1), cot, ?_, by rw [List.length_take]; omega⟩
    rw [← he, List.getElem_cons_drop, List.take_append_drop]

/-- Shooting carries the points of every member that is points. -/
theorem shoot_at {ms : List (DefModule d)} {s : SolverName} {it : Nat} {t1 : ℝ} {controls : Option (List (Ctrl d))}
    {r : Shot d × Option (List ℝ)} (h : shoot s it t1 controls (.compound ms) = .ok r) : ∃ F : Nat → Nat → FieldExpr d,
      (∀ l < it, ∀ j, GeneratedBy (.compound ms) (F l j)) ∧
      ∀ (i n : Nat) (x : Fin n → Vec d), (DefModule.compound ms).manifold.At i x → ∃ X : Nat → Fin n → Vec d, X 0 = x ∧
        (∀ l < it, Moves s.method (s.endTime t1 / it) (F l) (X l) (X (l + 1))) ∧ r.1.module.manifold.At i (X it) := by
  unfold shoot at h
  cases s with
  | adaptive => cases h
  | unknown => cases h
  | torchEuler =>
    dsimp only at h
    cases h1 : shootEuler it controls (.compound ms) with
    | error e => rw [h1] at h; cases h
    | ok r' =>
      rw [h1] at h
      cases h
      unfold shootEuler at h1
      split at h1
      · cases h1
      · exact eulerLoop_at h1 (Same.refl _)
  | fixed s =>
    dsimp only at h
    cases h1 : shootOde s it t1 controls (.compound ms) with
    | error e => rw [h1] at h; cases h
    | ok r' =>
      rw [h1] at h
      cases h
      cases controls with
      | some cs => exact shootControls_at h1
      | none =>
        rw [shootOde] at h1
        obtain ⟨-, r'', h2, -, h3, -⟩ := C71_solver ms s it t1 h1
        obtain ⟨F, hF, hX⟩ := shootControls_at h2
        refine ⟨F, hF, fun i n x hx => ?_⟩
        obtain ⟨X, h0, hm, he⟩ := hX i n x hx
        refine ⟨X, h0, hm, ?_⟩
        -- the two runs end at the same descriptors
        obtain ⟨hp, hn⟩ := shoot_plain h1
        obtain ⟨xs, -, -, h5, -⟩ := shoot_ok hp hn h1
        have e := manifold_of_reset h5
        have ha := At_rowsMod hx (xs.getLastD (gdRow (.compound ms), cotRow (.compound ms)))
        rw [← e] at ha
        have q1 := ha.row
        have q2 := he.row
        have o1 : r'.module.manifold.off i = (DefModule.compound ms).manifold.off i := by
          rw [e, rowsMod, DefModule.manifold_withCot, DefModule.manifold_withGd, ((hx.withGd _).1.withCot _).2, (hx.withGd _).2]
        have o2 : r''.module.manifold.off i = (DefModule.compound ms).manifold.off i := by
          obtain ⟨-, ys, -, -, k, -⟩ := shootC_ok h2
          rw [manifold_of_reset k, DefModule.manifold_withGd, (hx.withGd _).2]
        rw [o1, ← h3] at q1
        rw [o2] at q2
        rw [show X it = block (n := n) ((DefModule.compound ms).manifold.off i)
          (xs.getLastD (gdRow (.compound ms), cotRow (.compound ms))).1 by rw [← q2, q1]]
        exact ha

/-- **C33**, for a call that returns. One geometry comes back per deformable, in the same order.
The fields `F k j` are generated by the modules, the same for all deformables; the points of each
deformable start where they are and are carried through all the steps of the solver by these
fields, and the geometry is made from where they end. Missing: deformables that need the backward
flow, for which the call never returns (`C33_backward_disagreement`). -/
theorem C33_partial {Ds : List (Deformable d G)} {ms : List (DefModule d)} {s : SolverName} {it : Nat} {wantCosts : Bool}
    {controls : Option (List (List (Ctrl d)))} {t1 : ℝ} {red : Reduce} {r : Deformed d G}
    (h : computeDeformed Ds ms s it wantCosts controls t1 red = .ok r) :
    r.geometries.length = Ds.length ∧
    ∃ F : Nat → Nat → FieldExpr d, (∀ k < it, ∀ j, GeneratedBy (.compound (Ds.map Deformable.silent ++ ms)) (F k j)) ∧
      ∀ (i : Nat) (D : Deformable d G), Ds[i]? = some D →
        ∃ X : Nat → Fin D.n → Vec d, X 0 = D.gd ∧ (∀ k < it, Moves s.method (s.endTime t1 / it) (F k) (X k) (X (k + 1))) ∧
          ∃ g, r.geometries[i]? = some g ∧ D.toDeformed ⟨D.n, X it⟩ = .ok g := by
  obtain ⟨-, hg, costs, hs, -⟩ := computeDeformed_inv h
  obtain ⟨L, hL, hlen⟩ := same_compound (shoot_same hs)
  dsimp only at hL
  rw [hL, DefModule.members] at hg
  obtain ⟨hl, hget⟩ := toGeometries_ok hg
  have hlen' : L.length = Ds.length + ms.length := by rw [hlen]; simp
  refine ⟨by omega, ?_⟩
  obtain ⟨F, hF, hX⟩ := shoot_at hs
  refine ⟨F, hF, fun i D hD => ?_⟩
  have hi : i < Ds.length := (List.getElem?_eq_some_iff.1 hD).1
  have hat : (DefModule.compound (Ds.map Deformable.silent ++ ms)).manifold.At i D.gd := by
    rw [DefModule.manifold, at_getElem?]
    refine ⟨D.cot, ?_⟩
    rw [manifolds_getElem?, List.getElem?_append_left (by simpa using hi), List.getElem?_map, hD]
    rfl
  obtain ⟨X, h0, hm, he⟩ := hX i D.n D.gd hat
  dsimp only at he
  refine ⟨X, h0, hm, ?_⟩
  obtain ⟨m, hmi⟩ : ∃ m, L[i]? = some m := ⟨_, List.getElem?_eq_getElem (by omega)⟩
  obtain ⟨p, g, hp, hgd, hgi⟩ := hget i D m hD hmi
  refine ⟨g, hgi, ?_⟩
  rw [hL, DefModule.manifold, at_getElem?] at he
  obtain ⟨cot, hc⟩ := he
  rw [manifolds_getElem?, hmi] at hc
  simp only [Option.map_some, Option.some.injEq] at hc
  unfold pointsOf at hp
  split at hp
  · next n gd cot' =>
    cases hp
    rw [DefModule.manifold] at hc
    cases hc
    exact hgd
  · cases hp

/-- As soon as one deformable needs the backward flow the call raises: `shoot` is called without
its argument `costs` (deformable.py 334). -/
theorem C33_backward_disagreement {Ds : List (Deformable d G)} {D : Deformable d G} (hD : D ∈ Ds) (hb : D.backward.isSome = true)
    (ms : List (DefModule d)) (s : SolverName) (it : Nat) (wantCosts : Bool) (controls : Option (List (List (Ctrl d)))) (t1 : ℝ)
    (red : Reduce) : ∃ e, computeDeformed Ds ms s it wantCosts controls t1 red = .error e := by
  cases h : computeDeformed Ds ms s it wantCosts controls t1 red with
  | error e => exact ⟨e, rfl⟩
  | ok r =>
    have := (computeDeformed_inv h).1 D hD
    rw [this] at hb
    cases hb

theorem backwardModules_ok : ∀ {Ds : List (Deformable d G)}, (∀ D ∈ Ds, ∀ p, D.backward = some p → ∃ x, p = .ok x) →
    ∃ ps, backwardModules Ds = .ok ps
  | [], _ => ⟨[], rfl⟩
  | D :: Ds, h => by
    obtain ⟨ps, hps⟩ := backwardModules_ok (Ds := Ds) fun D' hD' => h D' (List.mem_cons_of_mem _ hD')
    unfold backwardModules
    cases hb : D.backward with
    | none => exact ⟨ps, hps⟩
    | some p =>
      obtain ⟨x, rfl⟩ := h D (List.mem_cons_self ..) p hb
      exact ⟨x :: ps, by simp only [hps]⟩

/-- If the forward shooting returns and the backward points can be made, what is raised is
TypeError. -/
theorem C33_backward_type_disagreement {Ds : List (Deformable d G)} {D : Deformable d G} (hD : D ∈ Ds) (hb : D.backward.isSome = true)
    (hbs : ∀ D ∈ Ds, ∀ p, D.backward = some p → ∃ x, p = .ok x) {ms : List (DefModule d)} {s : SolverName} {it : Nat} {t1 : ℝ}
    {a : Shot d × Option (List ℝ)} (hs : shoot s it t1 none (.compound (Ds.map Deformable.silent ++ ms)) = .ok a) (wantCosts : Bool) (red : Reduce) :
    computeDeformed Ds ms s it wantCosts none t1 red = .error .type := by
  unfold computeDeformed
  dsimp only [padControls, Option.map_none]
  rw [hs]
  obtain ⟨ps, hps⟩ := backwardModules_ok hbs
  have hany : (Ds.any fun D => D.backward.isSome) = true := List.any_eq_true.2 ⟨D, hD, hb⟩
  obtain ⟨r, costs⟩ := a
  dsimp only
  rw [if_pos hany, hps]

/-- **C33**, for a call with controls that returns: the flow is the one of the silent modules and the
given modules, where the k-th controls give nothing to the silent modules and the j-th entry to the
j-th given module. -/
theorem C33_controls {Ds : List (Deformable d G)} {ms : List (DefModule d)} {s : SolverName} {it : Nat} {wantCosts : Bool}
    {controls : List (List (Ctrl d))} {t1 : ℝ} {red : Reduce} {r : Deformed d G}
    (h : computeDeformed Ds ms s it wantCosts (some controls) t1 red = .ok r) :
    ∃ (given : List (Ctrl d)) (costs : Option (List ℝ)),
      shoot s it t1 (some given) (.compound (Ds.map Deformable.silent ++ ms)) = .ok (r.shot, costs) ∧ given.length = controls.length ∧
      ∀ (k : Nat) (c : List (Ctrl d)), controls[k]? = some c → ∃ l, given[k]? = some (.list l) ∧
        (∀ i < Ds.length, l[i]? = some .none) ∧ ∀ j, l[Ds.length + j]? = c[j]? := by
  obtain ⟨-, -, costs, hs, -⟩ := computeDeformed_inv h
  refine ⟨_, costs, hs, by simp, fun k c hc => ⟨List.replicate Ds.length .none ++ c, by simp [hc], fun i hi => ?_, fun j => ?_⟩⟩
  · rw [List.getElem?_append_left (by simpa using hi)]
    simp [hi]
  · rw [List.getElem?_append_right (by simp)]
    simp

/-! ## Such calls return -/

theorem getElem?_resetAll (l : List (DefModule d)) (i : Nat) : (DefModule.resetAll l)[i]? = l[i]?.map DefModule.reset := by
  induction l generalizing i with
  | nil => simp [DefModule.resetAll]
  | cons m l ih =>
    rw [DefModule.resetAll]
    cases i with
    | zero => simp
    | succ i => simpa using ih i
theorem getElem?_withGds (x : Row) (l : List (DefModule d)) (off i : Nat) :
    ∃ off', (DefModule.withGdAll x off l)[i]? = l[i]?.map fun m => m.withGd x off' := by
  induction l generalizing off i with
  | nil => exact ⟨0, by simp [DefModule.withGdAll]⟩
  | cons m l ih =>
    rw [DefModule.withGdAll]
    cases i with
    | zero => exact ⟨off, by simp⟩
    | succ i =>
      obtain ⟨o, ho⟩ := ih (off + m.manifold.size) i
      exact ⟨o, by simpa using ho⟩
theorem getElem?_withCots (x : Row) (l : List (DefModule d)) (off i : Nat) :
    ∃ off', (DefModule.withCotAll x off l)[i]? = l[i]?.map fun m => m.withCot x off' := by
  induction l generalizing off i with
  | nil => exact ⟨0, by simp [DefModule.withCotAll]⟩
  | cons m l ih =>
    rw [DefModule.withCotAll]
    cases i with
    | zero => exact ⟨off, by simp⟩
    | succ i =>
      obtain ⟨o, ho⟩ := ih (off + m.manifold.size) i
      exact ⟨o, by simpa using ho⟩

/-- The members that were silent points still are. -/
theorem same_points {L L₀ : List (DefModule d)} (h : Same (.compound L) (.compound L₀)) {i n : Nat} {x p : Fin n → Vec d}
    (hi : L₀[i]? = some (.silent (.landmarks x p))) : ∃ q, L[i]?.map pointsOf = some (.ok q) := by
  have h0 := h (0, 0)
  rw [rowsMod_compound, rowsMod_compound, DefModule.reset, DefModule.reset] at h0
  have h0 := congrArg (fun l => l[i]?) (DefModule.compound.inj h0)
  dsimp only at h0
  rw [getElem?_resetAll, getElem?_resetAll] at h0
  obtain ⟨o1, e1⟩ := getElem?_withCots 0 (DefModule.withGdAll 0 0 L) 0 i
  obtain ⟨o2, e2⟩ := getElem?_withGds 0 L 0 i
  obtain ⟨o3, e3⟩ := getElem?_withCots 0 (DefModule.withGdAll 0 0 L₀) 0 i
  obtain ⟨o4, e4⟩ := getElem?_withGds 0 L₀ 0 i
  rw [e1, e2, e3, e4, hi] at h0
  cases hL : L[i]? with
  | none => rw [hL] at h0; simp at h0
  | some m =>
    rw [hL] at h0
    simp only [Option.map_some, Option.some.injEq, DefModule.withGd, DefModule.withCot, Mfd.withGd, Mfd.withCot, DefModule.reset] at h0
    cases m with
    | silent man =>
      simp only [DefModule.withGd, DefModule.withCot, DefModule.reset] at h0
      cases man with
      | landmarks gd cot => exact ⟨⟨_, gd⟩, rfl⟩
      | _ => simp [Mfd.withGd, Mfd.withCot] at h0
    | _ => simp [DefModule.withGd, DefModule.withCot, DefModule.reset] at h0

theorem toGeometries_total : ∀ {Ds : List (Deformable d G)} {ms : List (DefModule d)},
    (∀ D ∈ Ds, ∀ p, ∃ g, D.toDeformed p = .ok g) → (∀ i < Ds.length, ∃ q, ms[i]?.map pointsOf = some (.ok q)) →
    ∃ gs, toGeometries Ds ms = .ok gs
  | [], ms, _, _ => ⟨[], by rw [toGeometries]; simp⟩
  | D :: Ds, [], _, _ => ⟨[], by rw [toGeometries]; simp⟩
  | D :: Ds, m :: ms, h, h' => by
    obtain ⟨q, hq⟩ := h' 0 (by simp)
    simp only [List.getElem?_cons_zero, Option.map_some, Option.some.injEq] at hq
    obtain ⟨g, hg⟩ := h D (by simp) q
    obtain ⟨gs, hgs⟩ := toGeometries_total (Ds := Ds) (ms := ms) (fun D hD => h D (by simp [hD])) fun i hi => by
      simpa using h' (i + 1) (by simpa using hi)
    exact ⟨g :: gs, by rw [toGeometries, hq]; dsimp only; rw [hg]; dsimp only; rw [hgs]⟩

theorem computeDeformed_total {Ds : List (Deformable d G)} (hb : ∀ D ∈ Ds, D.backward = none) (ht : ∀ D ∈ Ds, ∀ p, ∃ g, D.toDeformed p = .ok g)
    {ms : List (DefModule d)} {s : SolverName} {it : Nat} {wantCosts : Bool} {controls : Option (List (List (Ctrl d)))} {t1 : ℝ} {red : Reduce}
    {r : Shot d × Option (List ℝ)} (h : shoot s it t1 (padControls Ds.length controls) (.compound (Ds.map Deformable.silent ++ ms)) = .ok r)
    (hr : wantCosts = true → ∃ c, reduceCost red it r.2 (padControls Ds.length controls) r.1.states r.1.module = .ok c) :
    ∃ q, computeDeformed Ds ms s it wantCosts controls t1 red = .ok q := by
  obtain ⟨L, hL, -⟩ := same_compound (shoot_same h)
  obtain ⟨gs, hgs⟩ := toGeometries_total (ms := L) ht fun i hi => by
    have hs := shoot_same h
    rw [hL] at hs
    refine same_points hs (x := Ds[i].gd) (p := Ds[i].cot) ?_
    rw [List.getElem?_append_left (by simpa using hi), List.getElem?_map, List.getElem?_eq_getElem hi]
    rfl
  unfold computeDeformed
  dsimp only
  rw [h]
  obtain ⟨sh, costs⟩ := r
  dsimp only at hL hr ⊢
  rw [if_neg (by simpa using hb)]
  cases wantCosts with
  | true =>
    obtain ⟨⟨c, m⟩, hc⟩ := hr rfl
    rw [if_pos rfl, hc]
    dsimp only
    rw [hL, DefModule.members, hgs]
    exact ⟨_, rfl⟩
  | false =>
    simp only [Bool.false_eq_true, if_false]
    rw [hL, DefModule.members, hgs]
    exact ⟨_, rfl⟩

theorem allRegular_append {A B : List (DefModule d)} (hA : DefModule.AllRegular A) (hB : DefModule.AllRegular B) : DefModule.AllRegular (A ++ B) := by
  induction A with
  | nil => exact hB
  | cons m A ih =>
    rw [DefModule.AllRegular] at hA
    rw [List.cons_append, DefModule.AllRegular]
    exact ⟨hA.1, ih hA.2⟩

theorem silents_regular (Ds : List (Deformable d G)) : DefModule.AllRegular (Ds.map Deformable.silent) := by
  induction Ds with
  | nil => rw [List.map_nil, DefModule.AllRegular]; trivial
  | cons D Ds ih =>
    rw [List.map_cons, DefModule.AllRegular]
    exact ⟨by simp [Deformable.silent, DefModule.Regular, Mfd.NoEmptyCompound, Mfd.NoDirections], ih⟩

theorem silents_plain (Ds : List (Deformable d G)) {ms : List (DefModule d)} (hp : PlainMembers ms) :
    PlainMembers (Ds.map Deformable.silent ++ ms) := by
  intro m hm
  rw [manifolds_append, List.mem_append] at hm
  rcases hm with hm | hm
  · induction Ds with
    | nil => simp [DefModule.manifolds] at hm
    | cons D Ds ih =>
      rw [List.map_cons, DefModule.manifolds, List.mem_cons] at hm
      rcases hm with rfl | hm
      · exact Or.inr rfl
      · exact ih hm
  · exact hp m hm

theorem silents_numCoords {Ds : List (Deformable d G)} {D : Deformable d G} (hD : D ∈ Ds) (hd : 0 < D.n * d) (ms : List (DefModule d)) :
    0 < numCoords (.compound (Ds.map Deformable.silent ++ ms)) := by
  rw [numCoords_eq, DefModule.manifold, Mfd.size, manifolds_append, Mfd.sizeAll_append]
  suffices 0 < Mfd.sizeAll (DefModule.manifolds (Ds.map Deformable.silent)) by omega
  induction Ds with
  | nil => cases hD
  | cons E Ds ih =>
    rw [List.map_cons, DefModule.manifolds, Mfd.sizeAll]
    rcases List.mem_cons.1 hD with rfl | hD
    · have : D.silent.manifold.size = D.n * d := by rw [Deformable.silent, DefModule.manifold, Mfd.size]
      omega
    · have := ih hD; omega

/-- **C33.** With regularised modules the call does return, whatever the points, momenta, number
of steps and method, for deformables that need no backward flow and can be made from any points. -/
theorem C33_returns {Ds : List (Deformable d G)} (hb : ∀ D ∈ Ds, D.backward = none) (ht : ∀ D ∈ Ds, ∀ p, ∃ g, D.toDeformed p = .ok g)
    {D : Deformable d G} (hD : D ∈ Ds) (hd : 0 < D.n * d) {ms : List (DefModule d)} (hr : DefModule.AllRegular ms) (hp : PlainMembers ms)
    (s : Solver) (it : Nat) {t1 : ℝ} (h1 : t1 ≠ 0) (wantCosts : Bool) :
    ∃ r, computeDeformed Ds ms (.fixed s) it wantCosts none t1 .sum = .ok r := by
  have hreg : (DefModule.compound (Ds.map Deformable.silent ++ ms)).Regular := by
    rw [DefModule.Regular]
    refine ⟨fun h => ?_, allRegular_append (silents_regular Ds) hr⟩
    rw [List.append_eq_nil_iff, List.map_eq_nil_iff] at h
    rw [h.1] at hD; cases hD
  obtain ⟨r, hs, -⟩ := C69_solver _ hreg (silents_plain Ds hp) (silents_numCoords hD hd ms) s it h1
  refine computeDeformed_total hb ht (r := (r, some r.costs)) ?_ fun _ => ⟨_, rfl⟩
  simp only [padControls, Option.map_none, shoot, shootOde, hs]

/-! Two deformables of different sizes and a regularised translation. -/
example (a b : Fin 1 → Vec 2) (c e : Fin 3 → Vec 2) (q p : Fin 4 → Vec 2) : ∃ r, computeDeformed
    [⟨1, a, b, none, fun p => .ok p⟩, ⟨3, c, e, none, fun p => .ok p⟩] [.implicit0 ⟨.torch, q, p, 2, 1, 1, 0⟩] (.fixed .rk4) 10 true none 1 .sum
      = .ok r ∧ r.geometries.length = 2 := by
  obtain ⟨r, hr⟩ := C33_returns (Ds := [⟨1, a, b, none, fun p => .ok p⟩, ⟨3, c, e, none, fun p => .ok p⟩]) (by simp) (by simp)
    (List.mem_cons_self ..) (by norm_num) (ms := [.implicit0 ⟨.torch, q, p, 2, 1, 1, 0⟩]) (by simp [DefModule.AllRegular, DefModule.Regular])
    (fun m hm => by
      simp only [DefModule.manifolds, DefModule.manifold, Implicit0.manifold, List.mem_cons, List.not_mem_nil, or_false] at hm
      subst hm; exact Or.inr rfl) .rk4 10 one_ne_zero true
  exact ⟨r, hr, (C33_partial hr).1⟩

/-! An image needs the backward flow, and the call raises TypeError. -/
example (a b : Fin 4 → Vec 2) : computeDeformed [⟨4, a, b, some (.ok ⟨4, a⟩), fun p => .ok p⟩] [] (.fixed .euler) 3 false none 1 .sum = .error .type := by
  obtain ⟨r, hs, -⟩ := C69_solver [DefModule.silent (.landmarks a b)] (by
    simp [DefModule.Regular, DefModule.AllRegular, Mfd.NoEmptyCompound, Mfd.NoDirections])
    (by simpa [Deformable.silent] using silents_plain [(⟨4, a, b, none, fun p => .ok p⟩ : Deformable 2 (Points 2))] (ms := []) (by intro m hm; simp [DefModule.manifolds] at hm))
    (silents_numCoords (Ds := [(⟨4, a, b, none, fun p => .ok p⟩ : Deformable 2 (Points 2))]) (List.mem_cons_self ..) (by norm_num) []) .euler 3 one_ne_zero
  refine C33_backward_type_disagreement (List.mem_cons_self ..) rfl (by simp) (a := (r, some r.costs)) ?_ _ _
  simp only [shoot, shootOde, List.map_cons, List.map_nil, List.append_nil, Deformable.silent, hs]

/-! A control for a global translation behind one deformable reaches the translation. -/
example (a b : Fin 1 → Vec 2) (c : Ctrl 2) {r : Deformed 2 (Points 2)}
    (h : computeDeformed [⟨1, a, b, none, fun p => .ok p⟩] [.globalTranslation ⟨0, 1⟩] (.fixed .euler) 1 false (some [[c]]) 1 .sum = .ok r) :
    ∃ costs, shoot (.fixed .euler) 1 1 (some [.list [.none, c]]) (.compound [.silent (.landmarks a b), .globalTranslation ⟨0, 1⟩]) = .ok (r.shot, costs) := by
  obtain ⟨given, costs, hs, hl, hk⟩ := C33_controls h
  obtain ⟨l, hg, h0, h1⟩ := hk 0 [c] rfl
  refine ⟨costs, ?_⟩
  have hl' : l = [.none, c] := by
    refine List.ext_getElem? fun i => ?_
    rcases i with _ | i
    · simpa using h0 0 (by simp)
    · have := h1 i
      simp only [List.length_singleton, Nat.add_comm 1 i] at this
      rw [this]; rfl
  have : given = [.list l] := by
    refine List.ext_getElem? fun i => ?_
    rcases i with _ | i
    · simpa using hg
    · rw [List.getElem?_eq_none (by simp at hl; omega)]; rfl
  rw [this, hl'] at hs
  exact hs

/-! An image needs the backward flow. -/
example (a b : Fin 4 → Vec 2) : ∃ e, computeDeformed [⟨4, a, b, some (.ok ⟨4, a⟩), fun p => .ok p⟩] [] .torchEuler 3 false none 1 .sum = .error e :=
  C33_backward_disagreement (List.mem_cons_self ..) rfl ..

end
end Imodal
