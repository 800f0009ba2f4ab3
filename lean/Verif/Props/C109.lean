import Verif.Props.C108
/-!
# C109: a registration moves points no further than its loss allows
-/
set_option autoImplicit false
namespace Imodal
noncomputable section
variable {d : Nat} {G T : Type}

mutual
theorem positive_withCot (x : Row) : (m : DefModule d) → (o : Nat) → m.PositiveWeights → (m.withCot x o).PositiveWeights
  | .translations _, _, h => by simpa only [DefModule.withCot, DefModule.PositiveWeights] using h
  | .implicit0 _, _, h => by simpa only [DefModule.withCot, DefModule.PositiveWeights] using h
  | .oriented _, _, h => by simpa only [DefModule.withCot, DefModule.PositiveWeights] using h
  | .constrained _, _, h => by simpa only [DefModule.withCot, DefModule.PositiveWeights] using h
  | .globalTranslation _, _, h => by simpa only [DefModule.withCot, DefModule.PositiveWeights] using h
  | .linear _, _, h => by simpa only [DefModule.withCot, DefModule.PositiveWeights] using h
  | .implicit1 _, _, h => by simpa only [DefModule.withCot, DefModule.PositiveWeights] using h
  | .divFree _, _, h => by simpa only [DefModule.withCot, DefModule.PositiveWeights] using h
  | .arap _, _, h => by simpa only [DefModule.withCot, DefModule.PositiveWeights] using h
  | .silent _, _, h => by simpa only [DefModule.withCot, DefModule.PositiveWeights] using h
  | .compound ms, o, h => by
    rw [DefModule.PositiveWeights] at h; rw [DefModule.withCot, DefModule.PositiveWeights]
    refine ⟨?_, positive_withCotAll x ms o h.2⟩
    cases ms with
    | nil => exact absurd rfl h.1
    | cons m ms => rw [DefModule.withCotAll]; exact List.cons_ne_nil _ _
theorem positive_withCotAll (x : Row) : (ms : List (DefModule d)) → (o : Nat) → DefModule.AllPositiveWeights ms → DefModule.AllPositiveWeights (DefModule.withCotAll x o ms)
  | [], _, _ => by rw [DefModule.withCotAll, DefModule.AllPositiveWeights]; trivial
  | m :: ms, o, h => by
    rw [DefModule.AllPositiveWeights] at h; rw [DefModule.withCotAll, DefModule.AllPositiveWeights]
    exact ⟨positive_withCot x m o h.1, positive_withCotAll x ms _ h.2⟩
end

mutual
theorem noLinear_withCot (x : Row) : (m : DefModule d) → (o : Nat) → m.NoLinear → (m.withCot x o).NoLinear
  | .translations _, _, h => by simpa only [DefModule.withCot, DefModule.NoLinear] using h
  | .implicit0 _, _, h => by simpa only [DefModule.withCot, DefModule.NoLinear] using h
  | .oriented _, _, h => by simpa only [DefModule.withCot, DefModule.NoLinear] using h
  | .constrained _, _, h => by simpa only [DefModule.withCot, DefModule.NoLinear] using h
  | .globalTranslation _, _, h => by simpa only [DefModule.withCot, DefModule.NoLinear] using h
  | .linear _, _, h => by simpa only [DefModule.withCot, DefModule.NoLinear] using h
  | .implicit1 _, _, h => by simpa only [DefModule.withCot, DefModule.NoLinear] using h
  | .divFree _, _, h => by simpa only [DefModule.withCot, DefModule.NoLinear] using h
  | .arap _, _, h => by simpa only [DefModule.withCot, DefModule.NoLinear] using h
  | .silent _, _, h => by simpa only [DefModule.withCot, DefModule.NoLinear] using h
  | .compound ms, o, h => by
    rw [DefModule.NoLinear] at h; rw [DefModule.withCot, DefModule.NoLinear]
    exact noLinear_withCotAll x ms o h
theorem noLinear_withCotAll (x : Row) : (ms : List (DefModule d)) → (o : Nat) → DefModule.AllNoLinear ms → DefModule.AllNoLinear (DefModule.withCotAll x o ms)
  | [], _, _ => by rw [DefModule.withCotAll, DefModule.AllNoLinear]; trivial
  | m :: ms, o, h => by
    rw [DefModule.AllNoLinear] at h; rw [DefModule.withCotAll, DefModule.AllNoLinear]
    exact ⟨noLinear_withCot x m o h.1, noLinear_withCotAll x ms _ h.2⟩
end

mutual
theorem mobility_withCot (x : Row) : (m : DefModule d) → (o : Nat) → (m.withCot x o).mobility = m.mobility
  | .translations _, _ => by simp only [DefModule.withCot, DefModule.mobility]
  | .implicit0 _, _ => by simp only [DefModule.withCot, DefModule.mobility]
  | .oriented _, _ => by simp only [DefModule.withCot, DefModule.mobility]
  | .constrained _, _ => by simp only [DefModule.withCot, DefModule.mobility]
  | .globalTranslation _, _ => by simp only [DefModule.withCot, DefModule.mobility]
  | .linear _, _ => by simp only [DefModule.withCot, DefModule.mobility]
  | .implicit1 _, _ => by simp only [DefModule.withCot, DefModule.mobility]
  | .divFree _, _ => by simp only [DefModule.withCot, DefModule.mobility]
  | .arap _, _ => by simp only [DefModule.withCot, DefModule.mobility]
  | .silent _, _ => by simp only [DefModule.withCot, DefModule.mobility]
  | .compound ms, o => by rw [DefModule.withCot, DefModule.mobility, DefModule.mobility, mobility_withCotAll x ms o]
theorem mobility_withCotAll (x : Row) : (ms : List (DefModule d)) → (o : Nat) → DefModule.mobilities (DefModule.withCotAll x o ms) = DefModule.mobilities ms
  | [], _ => by rw [DefModule.withCotAll]
  | m :: ms, o => by rw [DefModule.withCotAll, DefModule.mobilities, DefModule.mobilities, mobility_withCot x m o, mobility_withCotAll x ms]
end


theorem positive_drop : (Ds : List (Deformable d G)) → {ms : List (DefModule d)} → DefModule.AllPositiveWeights (Ds.map Deformable.silent ++ ms) →
    DefModule.AllPositiveWeights ms
  | [], _, h => h
  | D :: Ds, _, h => by
    rw [List.map_cons, List.cons_append, DefModule.AllPositiveWeights] at h
    exact positive_drop Ds h.2

theorem noLinear_drop : (Ds : List (Deformable d G)) → {ms : List (DefModule d)} → DefModule.AllNoLinear (Ds.map Deformable.silent ++ ms) →
    DefModule.AllNoLinear ms
  | [], _, h => h
  | D :: Ds, _, h => by
    rw [List.map_cons, List.cons_append, DefModule.AllNoLinear] at h
    exact noLinear_drop Ds h.2

theorem built_eq {Ds : List (Deformable d G)} {ms : List (DefModule d)} {as : List (Attach G T)} {fit : Option (SolverName × Nat × Bool)} {lam : ℝ} {red : Reduce}
    {M : RegModel d G T} (hnew : RegModel.new Ds ms as fit lam red = .ok M) :
    ∃ L, M = ⟨Ds, ms, as, Ds.map (fun D => D.silent.manifold) ++ DefModule.manifolds ms, L, lam, red⟩ := by
  unfold RegModel.new at hnew
  split at hnew
  · cases hnew
  · split at hnew
    · cases hnew
    · dsimp only at hnew
      split at hnew
      · cases hnew; exact ⟨_, rfl⟩
      · cases hnew

/-- The filled deformable at a place has the values that were given there. -/
theorem filled_at : {Ds Ds' : List (Deformable d G)} → List.Forall₂ Alike Ds Ds' → {l : List (Mfd d)} →
    DefModule.manifolds (Ds'.map Deformable.silent) = l.take Ds.length → {i n : Nat} → {x c : Fin n → Vec d} → {D : Deformable d G} →
    l[i]? = some (.landmarks x c) → Ds[i]? = some D → ∃ D', Ds'[i]? = some D' ∧ D'.toDeformed = D.toDeformed ∧ ∃ h : D'.n = n, HEq D'.gd x
  | _, _, .nil, _, _, i, _, _, _, _, _, hD => by simp at hD
  | D₀ :: Ds, D₀' :: Ds', .cons h hs, [], e, i, _, _, _, _, hx, hD => by simp at hx
  | D₀ :: Ds, D₀' :: Ds', .cons h hs, man :: l, e, i, n, x, c, D, hx, hD => by
    rw [List.map_cons, DefModule.manifolds, List.length_cons, List.take_succ_cons, List.cons.injEq] at e
    cases i with
    | succ i =>
      rw [List.getElem?_cons_succ] at hx hD ⊢
      exact filled_at hs e.2 hx hD
    | zero =>
      simp only [List.getElem?_cons_zero, Option.some.injEq] at hx hD
      subst hx hD
      refine ⟨D₀', rfl, h.2.2, ?_⟩
      have := e.1
      rw [Deformable.silent, DefModule.manifold] at this
      injection this with e1 e2 e3
      exact ⟨e1, e2⟩

/-- **C109.** The evaluation with Euler's method of a model with modules of positive weights, without
linear modules, and with losses and a weight that are not negative, from momenta or with learned
controls: its total `v` is at least the weighted loss, and bounds how far each point of each deformable
was moved. The square of its displacement, times the number of steps, is at most twice the sum of the
inverse coefficients of the modules, times `v`. -/
theorem C109_bound {Ds : List (Deformable d G)} {ms : List (DefModule d)} {as : List (Attach G T)} {fit : Option (SolverName × Nat × Bool)} {lam : ℝ}
    {M : RegModel d G T} (hnew : RegModel.new Ds ms as fit lam .sum = .ok M) (hne : Ds ≠ []) (hw : DefModule.AllPositiveWeights ms)
    (hn : DefModule.AllNoLinear ms) (hlam : 0 ≤ lam) (hloss : ∀ a ∈ as, ∀ g t u, a.call g t = .ok u → 0 ≤ u) {init : List (Mfd d)}
    (hkind : List.Forall₂ Mfd.SameKind init M.init) (L : Option (Nat × List (List (Ctrl d)))) {targets : List T} {it : Nat} {v : ℝ}
    (hv : (M.setValues init L).value targets (.fixed .euler) it = .ok v) :
    ∃ r M', (M.setValues init L).computeDeformed (.fixed .euler) it true 1 = .ok (r, M') ∧
      (∃ A, attachmentCost as r.geometries targets = .ok A ∧ lam * A ≤ v) ∧
      ∀ (i n : Nat) (x c : Fin n → Vec d) (D : Deformable d G), init[i]? = some (.landmarks x c) → Ds[i]? = some D →
        ∃ (y : Fin n → Vec d) (g : G), r.geometries[i]? = some g ∧ D.toDeformed ⟨n, y⟩ = .ok g ∧
          ∀ p, (L.elim it Prod.fst : Nat) * ∑ b, (y p b - x p b) ^ 2 ≤ 2 * DefModule.mobilities ms * v := by
  obtain ⟨L₀, rfl⟩ := built_eq hnew
  set M : RegModel d G T := ⟨Ds, ms, as, Ds.map (fun D => D.silent.manifold) ++ DefModule.manifolds ms, L₀, lam, .sum⟩ with hMdef
  have hdrop : M.init.drop M.deformables.length = DefModule.manifolds ms := by
    rw [hMdef]
    dsimp only
    rw [List.drop_append_of_le_length (by simp), List.drop_of_length_le (by simp), List.nil_append]
  have hkept : M.Kept := by
    unfold RegModel.Kept
    rw [hdrop, DefModule.manifold]
    rfl
  have hlen : M.deformables.length ≤ M.init.length := by rw [hMdef]; simp
  have h1 : fillModules M.modules (M.init.drop M.deformables.length) = .ok ms := by rw [hdrop]; exact fillModules_self ms
  have h2 : fillDeformables M.deformables M.init = .ok Ds := fillDeformables_self _ Ds
  obtain ⟨ms', Ds', a1, a2, a3, a4⟩ := joined_rows hkept hlen hkind h1 h2
  obtain ⟨Ds₁, a5, -, a6⟩ := fillDeformables_kind M.deformables hkind h2 hlen
  obtain rfl : Ds₁ = Ds' := Except.ok.inj (a5.symm.trans a2)
  have w0 : (DefModule.compound (Ds.map Deformable.silent ++ ms)).PositiveWeights := by
    rw [DefModule.PositiveWeights]
    exact ⟨fun e => by simp [List.append_eq_nil_iff] at e; tauto, silents_positive Ds hw⟩
  have n0 : (DefModule.compound (Ds.map Deformable.silent ++ ms)).NoLinear := by
    rw [DefModule.NoLinear]; exact silents_noLinear Ds hn
  have hw' : DefModule.AllPositiveWeights ms' := by
    have : (DefModule.compound (Ds₁.map Deformable.silent ++ ms')).PositiveWeights := by
      rw [a4, rowsMod]; exact positive_withCot _ _ _ (positive_withGd _ _ _ w0)
    rw [DefModule.PositiveWeights] at this
    exact positive_drop Ds₁ this.2
  have hn' : DefModule.AllNoLinear ms' := by
    have : (DefModule.compound (Ds₁.map Deformable.silent ++ ms')).NoLinear := by
      rw [a4, rowsMod]; exact noLinear_withCot _ _ _ (noLinear_withGd _ _ _ n0)
    rw [DefModule.NoLinear] at this
    exact noLinear_drop Ds₁ this
  have hmob : DefModule.mobilities ms' = DefModule.mobilities ms := by
    have := congrArg DefModule.mobility a4
    rwa [rowsMod, mobility_withCot, mobility_withGd, DefModule.mobility, DefModule.mobility, silents_mobility, silents_mobility] at this
  unfold RegModel.value at hv
  obtain ⟨R, hR, rfl⟩ := py_map_ok hv
  obtain ⟨-, pre, M₁, q, A, hpre, hq, hA, hc, htot⟩ := evaluate_inv hR
  obtain ⟨-, rfl, rfl⟩ | ⟨f, hf, -⟩ := hpre
  swap
  · cases hf
  obtain ⟨ms'', Ds'', b1, b2, -, hcd, e1, e2, -⟩ := modelDeformed_inv hq
  obtain rfl : ms'' = ms' := Except.ok.inj (b1.symm.trans a1)
  obtain rfl : Ds'' = Ds₁ := Except.ok.inj (b2.symm.trans a2)
  have hne' : Ds'' ≠ [] := fun e => hne (by have := alike_length a3; rw [e] at this; exact List.length_eq_zero_iff.1 this.symm)
  obtain ⟨c, c1, c2, c3⟩ := C91_bound (Or.inl hne') hw' hn' (show computeDeformed Ds'' ms'' (.fixed .euler) (L.elim it Prod.fst) true (L.map Prod.snd) 1 .sum = .ok q from hcd)
  have hA0 : 0 ≤ A := attachmentCost_nonneg (by rw [e1]; exact hloss) hA
  have htotal : R.total = c + lam * A := by
    rw [htot, hc, c1, e2]
    rw [show (M.setValues init L).lam = lam from rfl]
    simp [totalCost, Dict.set]
  have hlA := mul_nonneg hlam hA0
  refine ⟨q, R.model, hq, ⟨A, by rw [e1] at hA; exact hA, by rw [htotal]; linarith⟩, fun i n x c' D hx hD => ?_⟩
  obtain ⟨D', d1, d2, d3, d4⟩ := filled_at a3 (l := init) a6 hx hD
  subst d3
  obtain rfl := eq_of_heq d4
  obtain ⟨y, g, g1, g2, g3⟩ := c3 i D' d1
  refine ⟨y, g, g1, by rw [← d2]; exact g2, fun p => (g3 p).trans ?_⟩
  rw [hmob, one_pow, mul_one, htotal]
  exact mul_le_mul_of_nonneg_left (by linarith) (mul_nonneg zero_le_two (mobilities_nonneg ms hw))

/-- **C109.** A registration with controls that are learned from rest: controls whose total is not
larger than at the start move no point of a deformable further than the loss of the undeformed shapes
allows. -/
theorem C109_reach {Ds : List (Deformable d G)} {ms : List (DefModule d)} {as : List (Attach G T)} {n : SolverName} {it₀ : Nat} {lam : ℝ}
    {M : RegModel d G T} (hnew : RegModel.new Ds ms as (some (n, it₀, false)) lam .sum = .ok M) (hne : Ds ≠ []) (hw : DefModule.AllPositiveWeights ms)
    (hn : DefModule.AllNoLinear ms) (hlam : 0 ≤ lam) (hloss : ∀ a ∈ as, ∀ g t u, a.call g t = .ok u → 0 ≤ u) {targets : List T} {gs : List G} {A₀ : ℝ}
    (hg : List.Forall₂ (fun (D : Deformable d G) g => D.toDeformed ⟨D.n, D.gd⟩ = .ok g) Ds gs) (hA₀ : attachmentCost as gs targets = .ok A₀)
    {it : Nat} {v₀ v : ℝ} (hv₀ : M.value targets (.fixed .euler) it = .ok v₀) {cs : List (List (Ctrl d))}
    (hv : (M.setValues M.init (some (it₀, cs))).value targets (.fixed .euler) it = .ok v) (hle : v ≤ v₀) :
    ∃ r M', (M.setValues M.init (some (it₀, cs))).computeDeformed (.fixed .euler) it true 1 = .ok (r, M') ∧
      (∃ A, attachmentCost as r.geometries targets = .ok A ∧ lam * A ≤ lam * A₀) ∧
      ∀ (i : Nat) (D : Deformable d G), Ds[i]? = some D →
        ∃ (y : Fin D.n → Vec d) (g : G), r.geometries[i]? = some g ∧ D.toDeformed ⟨D.n, y⟩ = .ok g ∧
          ∀ p, it₀ * ∑ b, (y p b - D.gd p b) ^ 2 ≤ 2 * DefModule.mobilities ms * (lam * A₀) := by
  have hstart : v₀ = lam * A₀ := by
    unfold RegModel.value at hv₀
    obtain ⟨R, hR, rfl⟩ := py_map_ok hv₀
    obtain ⟨A, h1, -, -, h4⟩ := C90_evaluate (by simp [Reduce.OfControls]) hnew hR hg
    rw [h4, Except.ok.inj (h1.symm.trans hA₀)]
  have hinit : M.init = Ds.map (fun D => D.silent.manifold) ++ DefModule.manifolds ms := by
    obtain ⟨L₀, rfl⟩ := built_eq hnew; rfl
  obtain ⟨r, M', h1, ⟨A, h2, h3⟩, h4⟩ := C109_bound hnew hne hw hn hlam hloss (init := M.init) (List.forall₂_same.2 fun _ _ => rfl) _ hv
  refine ⟨r, M', h1, ⟨A, h2, by rw [← hstart]; linarith⟩, fun i D hD => ?_⟩
  have hi : i < Ds.length := (List.getElem?_eq_some_iff.1 hD).1
  obtain ⟨y, g, g1, g2, g3⟩ := h4 i D.n D.gd D.cot D (by
    rw [hinit, List.getElem?_append_left (by simpa using hi), List.getElem?_map, hD]; rfl) hD
  refine ⟨y, g, g1, g2, fun p => (g3 p).trans ?_⟩
  rw [← hstart]
  exact mul_le_mul_of_nonneg_left hle (mul_nonneg zero_le_two (mobilities_nonneg ms hw))

/-- The squared distance of one point of the line to the origin of the targets. -/
def lineLoss : Attach (Points 1) ℝ := .simple 1 fun g t => .ok (∑ i, ∑ c, (g.x i c - t) ^ 2)

theorem line_value (cs : List (List (Ctrl 1))) (u t c : ℝ) {M : RegModel 1 (Points 1) ℝ}
    (hM : RegModel.new [speck] [.globalTranslation ⟨1, 0⟩] [lineLoss] (some (.fixed .euler, 1, false)) 1 .sum = .ok M)
    {r : Deformed 1 (Points 1)} (hr : computeDeformed [speck] [.globalTranslation ⟨1, 0⟩] (.fixed .euler) 1 true (some cs) 1 .sum = .ok r)
    (hg : r.geometries = [⟨1, fun _ _ => u⟩]) (hc : r.cost = some c) :
    (M.setValues M.init (some (1, cs))).value [t] (.fixed .euler) 1 = .ok (c + (u - t) ^ 2) := by
  obtain ⟨L₀, rfl⟩ := built_eq hM
  set M : RegModel 1 (Points 1) ℝ := RegModel.setValues _ _ (some (1, cs)) with hM
  have g1 : fillModules M.modules (M.init.drop M.deformables.length) = .ok [.globalTranslation ⟨1, 0⟩] :=
    fillModules_self [DefModule.globalTranslation (d := 1) ⟨1, 0⟩]
  have g2 : fillDeformables M.deformables M.init = .ok [speck] := fillDeformables_self _ [speck]
  have g3 : computeDeformed [speck] [.globalTranslation ⟨1, 0⟩] (.fixed .euler) (M.steps 1) true (M.learned.map Prod.snd) 1 M.reduce = .ok r := hr
  have g4 : attachmentCost [lineLoss] [⟨1, fun _ _ => u⟩] [t] = .ok ((u - t) ^ 2) := by
    have : attachmentCost [lineLoss] [⟨1, fun _ _ => u⟩] [t] = .ok (1 * (∑ i : Fin 1, ∑ c : Fin 1, (u - t) ^ 2) + 0) := rfl
    rw [this]
    simp
  unfold RegModel.value RegModel.evaluate RegModel.computeDeformed
  rw [if_neg (by simp [hM, RegModel.setValues])]
  dsimp only
  rw [g1]
  dsimp only
  rw [g2]
  dsimp only
  rw [g3]
  dsimp only
  rw [hc, hg, show (RegModel.leave { M with deformables := [speck], modules := [.globalTranslation ⟨1, 0⟩] } r.compound).attachments = [lineLoss] from rfl, g4]
  simp [Except.map, totalCost, Dict.set, RegModel.leave, hM, RegModel.setValues]

/-- One point of the line with its target at `t`, and one step: the control that moves it to `t` is
better than rest, so the hypotheses of `C109_reach` are met, and no better controls can move the point
further than `√2 t`. -/
example (t : ℝ) : ∃ (M : RegModel 1 (Points 1) ℝ) (v₀ v : ℝ),
    RegModel.new [speck] [.globalTranslation ⟨1, 0⟩] [lineLoss] (some (.fixed .euler, 1, false)) 1 .sum = .ok M ∧
    M.value [t] (.fixed .euler) 1 = .ok v₀ ∧ (M.setValues M.init (some (1, [[.vec fun _ => t]]))).value [t] (.fixed .euler) 1 = .ok v ∧ v ≤ v₀ ∧
    ∀ cs v, (M.setValues M.init (some (1, cs))).value [t] (.fixed .euler) 1 = .ok v → v ≤ v₀ →
      ∃ r M' y, (M.setValues M.init (some (1, cs))).computeDeformed (.fixed .euler) 1 true 1 = .ok (r, M') ∧
        r.geometries[0]? = some ⟨1, y⟩ ∧ y 0 0 ^ 2 ≤ 2 * t ^ 2 := by
  obtain ⟨M, hM⟩ : ∃ M, RegModel.new [speck] [.globalTranslation ⟨1, 0⟩] [lineLoss] (some (.fixed .euler, 1, false)) 1 .sum = .ok M := ⟨_, rfl⟩
  obtain ⟨r₀, h1, h2, c₀, h3, h4⟩ := C91_tight 0
  obtain ⟨r₁, k1, k2, c₁, k3, k4⟩ := C91_tight t
  have hmob : DefModule.mobilities [.globalTranslation (⟨1, 0⟩ : GlobalTranslation 1)] = 1 := by simp [DefModule.mobilities, DefModule.mobility]
  rw [hmob] at h4 k4
  have v0 := line_value _ 0 t c₀ hM h1 h2 h3
  have v1 := line_value _ t t c₁ hM k1 k2 k3
  have hself : M.setValues M.init (some (1, [[.vec fun _ => 0]])) = M := by cases hM; rfl
  rw [hself] at v0
  refine ⟨M, _, _, hM, v0, v1, by nlinarith, fun cs v hv hle => ?_⟩
  obtain ⟨r, M', e1, -, e2⟩ := C109_reach hM (by simp) (by simp [DefModule.AllPositiveWeights, DefModule.PositiveWeights])
    (by simp [DefModule.AllNoLinear, DefModule.NoLinear]) zero_le_one (by
      intro a ha g t u hu
      simp only [List.mem_cons, List.not_mem_nil, or_false] at ha
      subst ha
      have hu : Except.ok (1 * ∑ i, ∑ c, (g.x i c - t) ^ 2) = (Except.ok u : Py ℝ) := hu
      rw [← Except.ok.inj hu]
      positivity) (gs := [⟨1, fun _ _ => 0⟩]) (A₀ := t ^ 2) (.cons rfl .nil) (by
      have : attachmentCost [lineLoss] [⟨1, fun _ _ => 0⟩] [t] = .ok (1 * (∑ i : Fin 1, ∑ c : Fin 1, (0 - t) ^ 2) + 0) := rfl
      rw [this]
      simp) v0 hv hle
  obtain ⟨y, g, q1, q2, q3⟩ := e2 0 speck rfl
  refine ⟨r, M', y, e1, ?_, ?_⟩
  · rw [q1]
    have : Except.ok (⟨1, y⟩ : Points 1) = (Except.ok g : Py (Points 1)) := q2
    rw [← Except.ok.inj this]
  · have := q3 (0 : Fin 1)
    rw [hmob] at this
    simpa [speck] using this

end
end Imodal
