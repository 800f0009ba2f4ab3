import Verif.Lemmas.Rows
/-!
# What controls do not influence

`reset` forgets the controls of a module and what it has cached. Setting controls, and
geodesic controls, depend on the rest only, and do not change it.
-/
set_option autoImplicit false
namespace Imodal
noncomputable section
variable {d : Nat}

mutual
/-- The module with zero controls and empty caches. -/
def DefModule.reset : DefModule d → DefModule d
  | .translations m => .translations { m with ctrl := fun _ _ => 0 }
  | .implicit0 m => .implicit0 { m with ctrl := fun _ _ => 0 }
  | .oriented m => .oriented { m with ctrl := fun _ => 0 }
  | .constrained m => .constrained { m with ctrl := 0 }
  | .globalTranslation m => .globalTranslation { m with ctrl := fun _ => 0 }
  | .linear m => .linear { m with ctrl := 0 }
  | .implicit1 m => .implicit1 { m with ctrl := fun _ => 0, cache := none }
  | .divFree m => .divFree { m with ctrl := fun _ _ => 0, lambdas := none }
  | .arap m => .arap { m with ctrl := fun _ _ => 0, lambdas := none }
  | .silent man => .silent man
  | .compound ms => .compound (DefModule.resetAll ms)
def DefModule.resetAll : List (DefModule d) → List (DefModule d)
  | [] => []
  | m :: ms => m.reset :: DefModule.resetAll ms
end

mutual
theorem DefModule.manifold_reset : (m : DefModule d) → m.reset.manifold = m.manifold
  | .translations m => by rw [DefModule.reset, DefModule.manifold, DefModule.manifold]; rfl
  | .implicit0 m => by rw [DefModule.reset, DefModule.manifold, DefModule.manifold]; rfl
  | .oriented m => by rw [DefModule.reset, DefModule.manifold, DefModule.manifold]; rfl
  | .constrained m => by rw [DefModule.reset, DefModule.manifold, DefModule.manifold]; rfl
  | .globalTranslation m => by rw [DefModule.reset, DefModule.manifold, DefModule.manifold]; rfl
  | .linear m => by rw [DefModule.reset, DefModule.manifold, DefModule.manifold]; rfl
  | .implicit1 m => by rw [DefModule.reset, DefModule.manifold, DefModule.manifold]; rfl
  | .divFree m => by rw [DefModule.reset, DefModule.manifold, DefModule.manifold]; rfl
  | .arap m => by rw [DefModule.reset, DefModule.manifold, DefModule.manifold]; rfl
  | .silent man => by rw [DefModule.reset]
  | .compound ms => by rw [DefModule.reset, DefModule.manifold, DefModule.manifold, DefModule.manifolds_reset ms]
theorem DefModule.manifolds_reset : (ms : List (DefModule d)) → DefModule.manifolds (DefModule.resetAll ms) = DefModule.manifolds ms
  | [] => by rw [DefModule.resetAll]
  | m :: ms => by
    rw [DefModule.resetAll, DefModule.manifolds, DefModule.manifolds, DefModule.manifold_reset m, DefModule.manifolds_reset ms]
end

mutual
theorem DefModule.reset_reset : (m : DefModule d) → m.reset.reset = m.reset
  | .translations m => by rw [DefModule.reset, DefModule.reset]
  | .implicit0 m => by rw [DefModule.reset, DefModule.reset]
  | .oriented m => by rw [DefModule.reset, DefModule.reset]
  | .constrained m => by rw [DefModule.reset, DefModule.reset]
  | .globalTranslation m => by rw [DefModule.reset, DefModule.reset]
  | .linear m => by rw [DefModule.reset, DefModule.reset]
  | .implicit1 m => by rw [DefModule.reset, DefModule.reset]
  | .divFree m => by rw [DefModule.reset, DefModule.reset]
  | .arap m => by rw [DefModule.reset, DefModule.reset]
  | .silent man => by rw [DefModule.reset, DefModule.reset]
  | .compound ms => by rw [DefModule.reset, DefModule.reset, DefModule.resetAll_resetAll ms]
theorem DefModule.resetAll_resetAll : (ms : List (DefModule d)) → DefModule.resetAll (DefModule.resetAll ms) = DefModule.resetAll ms
  | [] => by rw [DefModule.resetAll, DefModule.resetAll]
  | m :: ms => by rw [DefModule.resetAll, DefModule.resetAll, DefModule.reset_reset m, DefModule.resetAll_resetAll ms]
end

theorem DefModule.length_resetAll : (ms : List (DefModule d)) → (DefModule.resetAll ms).length = ms.length
  | [] => by rw [DefModule.resetAll]
  | m :: ms => by rw [DefModule.resetAll, List.length_cons, List.length_cons, DefModule.length_resetAll ms]

mutual
theorem geodesic_reset (man : Mfd d) : (m : DefModule d) → m.reset.geodesic man = m.geodesic man
  | .translations m => by rw [DefModule.reset, DefModule.geodesic, DefModule.geodesic]; rfl
  | .implicit0 m => by rw [DefModule.reset, DefModule.geodesic, DefModule.geodesic]; rfl
  | .oriented m => by rw [DefModule.reset, DefModule.geodesic, DefModule.geodesic]; rfl
  | .constrained m => by rw [DefModule.reset, DefModule.geodesic, DefModule.geodesic]; rfl
  | .globalTranslation m => by rw [DefModule.reset, DefModule.geodesic, DefModule.geodesic]; rfl
  | .linear m => by rw [DefModule.reset, DefModule.geodesic, DefModule.geodesic]; rfl
  | .implicit1 m => by rw [DefModule.reset, DefModule.geodesic, DefModule.geodesic]; rfl
  | .divFree m => by rw [DefModule.reset, DefModule.geodesic, DefModule.geodesic]; rfl
  | .arap m => by rw [DefModule.reset, DefModule.geodesic, DefModule.geodesic]; rfl
  | .silent _ => by rw [DefModule.reset]
  | .compound ms => by rw [DefModule.reset, DefModule.geodesic, DefModule.geodesic, geodesics_reset man ms]
theorem geodesics_reset (man : Mfd d) : (ms : List (DefModule d)) →
    DefModule.geodesics man (DefModule.resetAll ms) = DefModule.geodesics man ms
  | [] => by rw [DefModule.resetAll]
  | m :: ms => by
    rw [DefModule.resetAll, DefModule.geodesics, DefModule.geodesics, geodesic_reset man m, geodesics_reset man ms]
end

mutual
theorem fill_reset : (m : DefModule d) → (c : Ctrl d) → m.reset.fillControls c = m.fillControls c
  | .translations m, c => by cases c <;> simp [DefModule.reset, DefModule.fillControls] <;> rfl
  | .implicit0 m, c => by cases c <;> simp [DefModule.reset, DefModule.fillControls] <;> rfl
  | .oriented m, c => by cases c <;> simp [DefModule.reset, DefModule.fillControls] <;> rfl
  | .constrained m, c => by cases c <;> simp [DefModule.reset, DefModule.fillControls] <;> rfl
  | .globalTranslation m, c => by cases c <;> simp [DefModule.reset, DefModule.fillControls] <;> rfl
  | .linear m, c => by cases c <;> simp [DefModule.reset, DefModule.fillControls] <;> rfl
  | .implicit1 m, c => by cases c <;> simp [DefModule.reset, DefModule.fillControls, Implicit1.fill, Implicit1.computeMoments] <;> rfl
  | .divFree m, c => by cases c <;> simp [DefModule.reset, DefModule.fillControls, DivFree.fill, DivFree.computeMoments] <;> rfl
  | .arap m, c => by cases c <;> simp [DefModule.reset, DefModule.fillControls, Arap.fill, Arap.computeMoments] <;> rfl
  | .silent _, c => by rw [DefModule.reset]
  | .compound ms, c => by
    cases c <;> simp [DefModule.reset, DefModule.fillControls, DefModule.length_resetAll, fillAll_reset ms]
theorem fillAll_reset : (ms : List (DefModule d)) → (cs : List (Ctrl d)) →
    DefModule.fillAll (DefModule.resetAll ms) cs = DefModule.fillAll ms cs
  | [], cs => by rw [DefModule.resetAll]
  | m :: ms, [] => by simp [DefModule.resetAll, DefModule.fillAll]
  | m :: ms, c :: cs => by
    rw [DefModule.resetAll, DefModule.fillAll, DefModule.fillAll, fill_reset m c, fillAll_reset ms cs]
end

mutual
theorem reset_fill : (m : DefModule d) → {c : Ctrl d} → {m' : DefModule d} → m.fillControls c = .ok m' → m'.reset = m.reset
  | .translations m, _, _, h => by
    obtain ⟨k, -, rfl⟩ := fill_translations h
    rw [DefModule.reset, DefModule.reset]
  | .implicit0 m, _, _, h => by
    obtain ⟨k, -, rfl⟩ := fill_implicit0 h
    rw [DefModule.reset, DefModule.reset]
  | .oriented m, _, _, h => by
    obtain ⟨k, -, rfl⟩ := fill_oriented h
    rw [DefModule.reset, DefModule.reset]
  | .constrained m, _, _, h => by
    obtain ⟨k, -, rfl⟩ := fill_constrained h
    rw [DefModule.reset, DefModule.reset]
  | .globalTranslation m, _, _, h => by
    obtain ⟨k, -, rfl⟩ := fill_global h
    rw [DefModule.reset, DefModule.reset]
  | .linear m, _, _, h => by
    obtain ⟨k, -, rfl⟩ := fill_linear h
    rw [DefModule.reset, DefModule.reset]
  | .implicit1 m, _, _, h => by
    obtain ⟨k, a, -, ha, rfl⟩ := fill_implicit1 h
    rw [(Implicit1.fill_ok ha).2, DefModule.reset, DefModule.reset]; rfl
  | .divFree m, _, _, h => by
    obtain ⟨k, a, -, ha, rfl⟩ := fill_divFree h
    rw [(DivFree.fill_ok ha).2, DefModule.reset, DefModule.reset]; rfl
  | .arap m, _, _, h => by
    obtain ⟨k, a, -, ha, rfl⟩ := fill_arap h
    rw [(Arap.fill_ok ha).2, DefModule.reset, DefModule.reset]; rfl
  | .silent s, c, m', h => by
    have : (DefModule.silent s).fillControls c = .ok (.silent s) := by cases c <;> rw [DefModule.fillControls]
    rw [this] at h
    rw [← Except.ok.inj h]
  | .compound ms, _, _, h => by
    obtain ⟨cs, ms', -, hl, h1, rfl⟩ := fill_compound h
    rw [DefModule.reset, DefModule.reset, resetAll_fill ms hl h1]
theorem resetAll_fill : (ms : List (DefModule d)) → {cs : List (Ctrl d)} → {ms' : List (DefModule d)} →
    cs.length = ms.length → DefModule.fillAll ms cs = .ok ms' → DefModule.resetAll ms' = DefModule.resetAll ms
  | [], cs, ms', _, h => by rw [fillAll_nil] at h; rw [← Except.ok.inj h]
  | m :: ms, [], ms', hl, _ => by cases hl
  | m :: ms, c :: cs, ms', hl, h => by
    rw [DefModule.fillAll] at h
    cases h1 : m.fillControls c with
    | error e => rw [h1] at h; cases h
    | ok m' =>
      rw [h1] at h
      dsimp only at h
      cases h2 : DefModule.fillAll ms cs with
      | error e => rw [h2] at h; cases h
      | ok ms'' =>
        rw [h2] at h
        rw [← Except.ok.inj h, DefModule.resetAll, DefModule.resetAll, reset_fill m h1,
          resetAll_fill ms (Nat.succ.inj hl) h2]
end

theorem reset_geodesic {man : Mfd d} {m m' : DefModule d} (h : m.geodesic man = .ok m') : m'.reset = m.reset :=
  reset_fill m (geodesic_fill man m h)

mutual
theorem reset_withGd (x : Row) : (m : DefModule d) → (off : Nat) → (m.withGd x off).reset = m.reset.withGd x off
  | .translations m, _ => by simp only [DefModule.withGd, DefModule.reset]
  | .implicit0 m, _ => by simp only [DefModule.withGd, DefModule.reset]
  | .oriented m, _ => by simp only [DefModule.withGd, DefModule.reset]
  | .constrained m, _ => by simp only [DefModule.withGd, DefModule.reset]
  | .globalTranslation m, _ => by simp only [DefModule.withGd, DefModule.reset]
  | .linear m, _ => by simp only [DefModule.withGd, DefModule.reset]
  | .implicit1 m, _ => by simp only [DefModule.withGd, DefModule.reset]
  | .divFree m, _ => by simp only [DefModule.withGd, DefModule.reset]
  | .arap m, _ => by simp only [DefModule.withGd, DefModule.reset]
  | .silent _, _ => by simp only [DefModule.withGd, DefModule.reset]
  | .compound ms, _ => by rw [DefModule.withGd, DefModule.reset, DefModule.reset, DefModule.withGd, resetAll_withGd x ms]
theorem resetAll_withGd (x : Row) : (ms : List (DefModule d)) → (off : Nat) →
    DefModule.resetAll (DefModule.withGdAll x off ms) = DefModule.withGdAll x off (DefModule.resetAll ms)
  | [], _ => by simp only [DefModule.withGdAll, DefModule.resetAll]
  | m :: ms, off => by
    rw [DefModule.withGdAll, DefModule.resetAll, DefModule.resetAll, DefModule.withGdAll, reset_withGd x m,
      resetAll_withGd x ms, DefModule.manifold_reset]
end

mutual
theorem reset_withCot (x : Row) : (m : DefModule d) → (off : Nat) → (m.withCot x off).reset = m.reset.withCot x off
  | .translations m, _ => by simp only [DefModule.withCot, DefModule.reset]
  | .implicit0 m, _ => by simp only [DefModule.withCot, DefModule.reset]
  | .oriented m, _ => by simp only [DefModule.withCot, DefModule.reset]
  | .constrained m, _ => by simp only [DefModule.withCot, DefModule.reset]
  | .globalTranslation m, _ => by simp only [DefModule.withCot, DefModule.reset]
  | .linear m, _ => by simp only [DefModule.withCot, DefModule.reset]
  | .implicit1 m, _ => by simp only [DefModule.withCot, DefModule.reset]
  | .divFree m, _ => by simp only [DefModule.withCot, DefModule.reset]
  | .arap m, _ => by simp only [DefModule.withCot, DefModule.reset]
  | .silent _, _ => by simp only [DefModule.withCot, DefModule.reset]
  | .compound ms, _ => by rw [DefModule.withCot, DefModule.reset, DefModule.reset, DefModule.withCot, resetAll_withCot x ms]
theorem resetAll_withCot (x : Row) : (ms : List (DefModule d)) → (off : Nat) →
    DefModule.resetAll (DefModule.withCotAll x off ms) = DefModule.withCotAll x off (DefModule.resetAll ms)
  | [], _ => by simp only [DefModule.withCotAll, DefModule.resetAll]
  | m :: ms, off => by
    rw [DefModule.withCotAll, DefModule.resetAll, DefModule.resetAll, DefModule.withCotAll, reset_withCot x m,
      resetAll_withCot x ms, DefModule.manifold_reset]
end

mutual
/-- Controls read from the module after setting controls give the same module. -/
theorem fill_controls_self : (m : DefModule d) → {c : Ctrl d} → {m' : DefModule d} → m.fillControls c = .ok m' →
    m.fillControls m'.controls = .ok m'
  | .translations m, _, _, h => by
    obtain ⟨k, -, rfl⟩ := fill_translations h
    rw [DefModule.controls, DefModule.fillControls, dif_pos rfl]
  | .implicit0 m, _, _, h => by
    obtain ⟨k, -, rfl⟩ := fill_implicit0 h
    rw [DefModule.controls, DefModule.fillControls, dif_pos rfl]
  | .oriented m, _, _, h => by
    obtain ⟨k, -, rfl⟩ := fill_oriented h
    rw [DefModule.controls, DefModule.fillControls, dif_pos rfl]
  | .constrained m, _, _, h => by
    obtain ⟨k, -, rfl⟩ := fill_constrained h
    rw [DefModule.controls, DefModule.fillControls]
  | .globalTranslation m, _, _, h => by
    obtain ⟨k, -, rfl⟩ := fill_global h
    rw [DefModule.controls, DefModule.fillControls]
  | .linear m, _, _, h => by
    obtain ⟨k, -, rfl⟩ := fill_linear h
    rw [DefModule.controls, DefModule.fillControls]
  | .implicit1 m, _, _, h => by
    obtain ⟨k, a, -, ha, rfl⟩ := fill_implicit1 h
    rw [(Implicit1.fill_ok ha).2, DefModule.controls, DefModule.fillControls, dif_pos rfl]
    show wrap _ (m.fill k) = _
    rw [Implicit1.fill_of_det (Implicit1.fill_ok ha).1]; rfl
  | .divFree m, _, _, h => by
    obtain ⟨k, a, -, ha, rfl⟩ := fill_divFree h
    rw [(DivFree.fill_ok ha).2, DefModule.controls, DefModule.fillControls, dif_pos rfl]
    show wrap _ (m.fill k) = _
    rw [DivFree.fill_of_det (DivFree.fill_ok ha).1]; rfl
  | .arap m, _, _, h => by
    obtain ⟨k, a, -, ha, rfl⟩ := fill_arap h
    rw [(Arap.fill_ok ha).2, DefModule.controls, DefModule.fillControls, dif_pos rfl]
    show wrap _ (m.fill k) = _
    rw [Arap.fill_of_det (Arap.fill_ok ha).1]; rfl
  | .silent s, c, m', h => by
    have : (DefModule.silent s).fillControls c = .ok (.silent s) := by cases c <;> rw [DefModule.fillControls]
    rw [this] at h
    rw [← Except.ok.inj h, DefModule.controls, DefModule.fillControls]
  | .compound ms, _, _, h => by
    obtain ⟨cs, ms', -, hl, h1, rfl⟩ := fill_compound h
    obtain ⟨e1, e2⟩ := fillAll_controls_self ms hl h1
    rw [DefModule.controls, DefModule.fillControls, if_pos e1, e2]
theorem fillAll_controls_self : (ms : List (DefModule d)) → {cs : List (Ctrl d)} → {ms' : List (DefModule d)} →
    cs.length = ms.length → DefModule.fillAll ms cs = .ok ms' →
    (DefModule.controlsAll ms').length = ms.length ∧ DefModule.fillAll ms (DefModule.controlsAll ms') = .ok ms'
  | [], cs, ms', _, h => by
    rw [fillAll_nil] at h
    rw [← Except.ok.inj h, DefModule.controlsAll, fillAll_nil]
    exact ⟨rfl, rfl⟩
  | m :: ms, [], ms', hl, _ => by cases hl
  | m :: ms, c :: cs, ms', hl, h => by
    rw [DefModule.fillAll] at h
    cases h1 : m.fillControls c with
    | error e => rw [h1] at h; cases h
    | ok m' =>
      rw [h1] at h
      dsimp only at h
      cases h2 : DefModule.fillAll ms cs with
      | error e => rw [h2] at h; cases h
      | ok ms'' =>
        rw [h2] at h
        obtain ⟨e1, e2⟩ := fillAll_controls_self ms (Nat.succ.inj hl) h2
        rw [← Except.ok.inj h, DefModule.controlsAll, DefModule.fillAll, fill_controls_self m h1]
        dsimp only
        rw [e2, List.length_cons, e1]
        exact ⟨rfl, rfl⟩
end

/-- After controls have been set, setting the same controls again changes nothing. -/
theorem fill_again {m : DefModule d} {c : Ctrl d} {m' : DefModule d} (h : m.fillControls c = .ok m') :
    m'.fillControls m'.controls = .ok m' := by
  rw [← fill_reset m', reset_fill m h, fill_reset]
  exact fill_controls_self m h

end
end Imodal
