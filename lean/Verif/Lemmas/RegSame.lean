import Verif.Lemmas.ShootSame
import Verif.Lemmas.SilentRows
/-!
# Registration models up to what `compute_deformed` sets
-/
set_option autoImplicit false
namespace Imodal
noncomputable section
variable {d : Nat} {G T : Type}

/-! ## Filling descriptors -/

mutual
theorem Mfd.withGd_rollFill (x : Row) : (m : Mfd d) → (l : List Row) → (r : Mfd d × List Row) → m.rollFillGd l = .ok r →
    (off : Nat) → r.1.withGd x off = m.withGd x off
  | .landmarks gd cot, [], r, h, off => by simp [Mfd.rollFillGd] at h
  | .landmarks gd cot, s :: l, r, h, off => by rw [Mfd.rollFillGd] at h; cases h; simp only [Mfd.withGd]
  | .direction t gd dir cot cdir, [], r, h, off => by simp [Mfd.rollFillGd] at h
  | .direction t gd dir cot cdir, [s], r, h, off => by simp [Mfd.rollFillGd] at h
  | .direction t gd dir cot cdir, s :: s' :: l, r, h, off => by rw [Mfd.rollFillGd] at h; cases h; simp only [Mfd.withGd]
  | .frame gd R cot cR, [], r, h, off => by simp [Mfd.rollFillGd] at h
  | .frame gd R cot cR, [s], r, h, off => by simp [Mfd.rollFillGd] at h
  | .frame gd R cot cR, s :: s' :: l, r, h, off => by rw [Mfd.rollFillGd] at h; cases h; simp only [Mfd.withGd]
  | .empty, l, r, h, off => by rw [Mfd.rollFillGd] at h; cases h; rfl
  | .compound ms, l, r, h, off => by
    rw [Mfd.rollFillGd] at h
    cases h1 : Mfd.rollFillGdAll ms l with
    | error e => rw [h1] at h; cases h
    | ok r' => rw [h1] at h; cases h; rw [Mfd.withGd, Mfd.withGd, Mfd.withGdAll_rollFill x ms l r' h1 off]
theorem Mfd.withGdAll_rollFill (x : Row) : (ms : List (Mfd d)) → (l : List Row) → (r : List (Mfd d) × List Row) →
    Mfd.rollFillGdAll ms l = .ok r → (off : Nat) → Mfd.withGdAll x off r.1 = Mfd.withGdAll x off ms
  | [], l, r, h, off => by rw [Mfd.rollFillGdAll] at h; cases h; rfl
  | m :: ms, l, r, h, off => by
    rw [Mfd.rollFillGdAll] at h
    cases h1 : m.rollFillGd l with
    | error e => rw [h1] at h; cases h
    | ok r' =>
      rw [h1] at h
      dsimp only at h
      cases h2 : Mfd.rollFillGdAll ms r'.2 with
      | error e => rw [h2] at h; cases h
      | ok r'' =>
        rw [h2] at h
        cases h
        have hs : r'.1.size = m.size := by
          rw [← Mfd.size_withGd x r'.1 0, Mfd.withGd_rollFill x m l r' h1, Mfd.size_withGd]
        rw [Mfd.withGdAll, Mfd.withGdAll, Mfd.withGd_rollFill x m l r' h1, Mfd.withGdAll_rollFill x ms _ r'' h2, hs]
end

mutual
theorem DefModule.withGd_rollFill (x : Row) : (m : DefModule d) → (l : List Row) → (r : DefModule d × List Row) → m.rollFillGd l = .ok r →
    (off : Nat) → r.1.withGd x off = m.withGd x off
  | .translations m, [], r, h, off => by simp [DefModule.rollFillGd] at h
  | .translations m, s :: l, r, h, off => by rw [DefModule.rollFillGd] at h; cases h; simp only [DefModule.withGd]
  | .implicit0 m, [], r, h, off => by simp [DefModule.rollFillGd] at h
  | .implicit0 m, s :: l, r, h, off => by rw [DefModule.rollFillGd] at h; cases h; simp only [DefModule.withGd]
  | .oriented m, [], r, h, off => by simp [DefModule.rollFillGd] at h
  | .oriented m, [s], r, h, off => by simp [DefModule.rollFillGd] at h
  | .oriented m, s :: s' :: l, r, h, off => by rw [DefModule.rollFillGd] at h; cases h; simp only [DefModule.withGd]
  | .constrained m, [], r, h, off => by simp [DefModule.rollFillGd] at h
  | .constrained m, s :: l, r, h, off => by rw [DefModule.rollFillGd] at h; cases h; simp only [DefModule.withGd]
  | .linear m, [], r, h, off => by simp [DefModule.rollFillGd] at h
  | .linear m, s :: l, r, h, off => by rw [DefModule.rollFillGd] at h; cases h; simp only [DefModule.withGd]
  | .implicit1 m, [], r, h, off => by simp [DefModule.rollFillGd] at h
  | .implicit1 m, [s], r, h, off => by simp [DefModule.rollFillGd] at h
  | .implicit1 m, s :: s' :: l, r, h, off => by rw [DefModule.rollFillGd] at h; cases h; simp only [DefModule.withGd]
  | .divFree m, [], r, h, off => by simp [DefModule.rollFillGd] at h
  | .divFree m, s :: l, r, h, off => by rw [DefModule.rollFillGd] at h; cases h; simp only [DefModule.withGd]
  | .arap m, [], r, h, off => by simp [DefModule.rollFillGd] at h
  | .arap m, s :: l, r, h, off => by rw [DefModule.rollFillGd] at h; cases h; simp only [DefModule.withGd]
  | .globalTranslation m, l, r, h, off => by rw [DefModule.rollFillGd] at h; cases h; rfl
  | .silent man, l, r, h, off => by
    rw [DefModule.rollFillGd] at h
    cases h1 : man.rollFillGd l with
    | error e => rw [h1] at h; cases h
    | ok r' => rw [h1] at h; cases h; rw [DefModule.withGd, DefModule.withGd, Mfd.withGd_rollFill x man l r' h1 off]
  | .compound ms, l, r, h, off => by
    rw [DefModule.rollFillGd] at h
    cases h1 : DefModule.rollFillGdAll ms l with
    | error e => rw [h1] at h; cases h
    | ok r' => rw [h1] at h; cases h; rw [DefModule.withGd, DefModule.withGd, DefModule.withGdAll_rollFill x ms l r' h1 off]
theorem DefModule.withGdAll_rollFill (x : Row) : (ms : List (DefModule d)) → (l : List Row) → (r : List (DefModule d) × List Row) →
    DefModule.rollFillGdAll ms l = .ok r → (off : Nat) → DefModule.withGdAll x off r.1 = DefModule.withGdAll x off ms
  | [], l, r, h, off => by rw [DefModule.rollFillGdAll] at h; cases h; rfl
  | m :: ms, l, r, h, off => by
    rw [DefModule.rollFillGdAll] at h
    cases h1 : m.rollFillGd l with
    | error e => rw [h1] at h; cases h
    | ok r' =>
      rw [h1] at h
      dsimp only at h
      cases h2 : DefModule.rollFillGdAll ms r'.2 with
      | error e => rw [h2] at h; cases h
      | ok r'' =>
        rw [h2] at h
        cases h
        have hs : r'.1.manifold.size = m.manifold.size := by
          rw [← Mfd.size_withGd x r'.1.manifold 0, ← DefModule.manifold_withGd, DefModule.withGd_rollFill x m l r' h1,
            DefModule.manifold_withGd, Mfd.size_withGd]
        rw [DefModule.withGdAll, DefModule.withGdAll, DefModule.withGd_rollFill x m l r' h1, DefModule.withGdAll_rollFill x ms _ r'' h2, hs]
end

theorem fillGdFrom_sameGd {m m' : DefModule d} {man : Mfd d} (h : m.fillGdFrom man = .ok m') : SameGd m' m := by
  unfold DefModule.fillGdFrom at h
  cases h1 : m.rollFillGd (slicesOf (rowOf man.unrollGd.flatten) man) with
  | error e => rw [h1] at h; cases h
  | ok r => rw [h1] at h; cases h; exact fun x => by rw [DefModule.withGd_rollFill x m _ r h1 0]

/-- The sizes of the tensors of two manifolds agree. -/
def Mfd.Fits (man : Mfd d) (m : DefModule d) : Prop := man.unrollGd.map List.length = m.manifold.unrollGd.map List.length

/-- The entries of a manifold as state vector. -/
def Mfd.rows (man : Mfd d) : Row × Row := (rowOf man.unrollGd.flatten, rowOf man.unrollCot.flatten)

theorem fits_of_sameGd {m m' : DefModule d} {man : Mfd d} (hs : Same m m') (h : man.Fits m) : man.Fits m' := by
  have := congrArg (fun m : Mfd d => m.unrollGd.map List.length) (manifold_of_reset (hs (0, 0)))
  simp only [manifold_rowsMod, Mfd.unrollGd_withCot, Mfd.lengths_withGd] at this
  unfold Mfd.Fits at h ⊢
  rw [h, this]

theorem fillGdFrom_fits {m : DefModule d} {man : Mfd d} (h : man.Fits m) : m.fillGdFrom man = .ok (m.withGd man.rows.1 0) := by
  have h1 := DefModule.rollFillGd_slices man.rows.1 m 0 []
  rw [List.append_nil] at h1
  unfold DefModule.fillGdFrom
  rw [slicesOf, h]
  unfold slicesAt Mfd.rows at h1
  rw [h1]
  rfl

theorem fillCotFrom_fits {m : DefModule d} {man : Mfd d} (h : man.Fits m) : m.fillCotFrom man = .ok (m.withCot man.rows.2 0) := by
  have h1 := DefModule.rollFillCot_slices man.rows.2 m 0 []
  rw [List.append_nil] at h1
  unfold DefModule.fillCotFrom
  rw [slicesOf, h]
  unfold slicesAt Mfd.rows at h1
  rw [h1]
  rfl

theorem fillModules_fits {ms : List (DefModule d)} {mans : List (Mfd d)} (h : (Mfd.compound mans).Fits (.compound ms)) :
    ∃ ms', rowsMod (.compound ms) (Mfd.compound mans).rows = .compound ms' ∧ fillModules ms mans = .ok ms' := by
  refine ⟨_, rowsMod_compound _ _, ?_⟩
  unfold fillModules
  rw [fillGdFrom_fits h]
  dsimp only
  rw [fillCotFrom_fits (fits_of_sameGd (sameGd_withGd _ _).symm.same h)]
  dsimp only
  rw [DefModule.withGd, DefModule.withCot, DefModule.members]

theorem resetAll_append : (A B : List (DefModule d)) → DefModule.resetAll (A ++ B) = DefModule.resetAll A ++ DefModule.resetAll B
  | [], B => by rw [List.nil_append, DefModule.resetAll, List.nil_append]
  | m :: A, B => by rw [List.cons_append, DefModule.resetAll, DefModule.resetAll, resetAll_append A B, List.cons_append]

theorem compound_reset_append {A B B' : List (DefModule d)} (h : (DefModule.compound B).reset = (DefModule.compound B').reset) :
    (DefModule.compound (A ++ B)).reset = (DefModule.compound (A ++ B')).reset := by
  rw [DefModule.reset, DefModule.reset] at h ⊢
  rw [resetAll_append, resetAll_append, DefModule.compound.inj h]

/-- A module that is the same as a compound is a compound of as many modules. -/
theorem same_compound {m : DefModule d} {L : List (DefModule d)} (h : Same m (.compound L)) :
    ∃ L', m = .compound L' ∧ L'.length = L.length := by
  have h0 := h (0, 0)
  rw [rowsMod_compound, DefModule.reset] at h0
  cases m with
  | compound L' =>
    refine ⟨L', rfl, ?_⟩
    rw [rowsMod_compound, DefModule.reset] at h0
    have := congrArg List.length (DefModule.compound.inj h0)
    simpa only [DefModule.length_resetAll, length_withCots, length_withGds] using this
  | _ => simp only [rowsMod, DefModule.withGd, DefModule.withCot, DefModule.reset] at h0; cases h0

/-- The last members of the same compounds are the same. -/
theorem same_drop {A A' B B' : List (DefModule d)} (hA : A'.length = A.length)
    (h : Same (.compound (A' ++ B')) (.compound (A ++ B))) : Same (.compound B') (.compound B) := by
  have split : ∀ (A B : List (DefModule d)) (x : Row × Row), (rowsMod (.compound (A ++ B)) x).reset
      = .compound (DefModule.resetAll (DefModule.withCotAll x.2 0 (DefModule.withGdAll x.1 0 A))
        ++ DefModule.resetAll (DefModule.withCotAll x.2 (Mfd.sizeAll (DefModule.manifolds A))
          (DefModule.withGdAll x.1 (Mfd.sizeAll (DefModule.manifolds A)) B))) := fun A B x => by
    rw [rowsMod_compound, DefModule.withGdAll_append, DefModule.withCotAll_append, DefModule.reset, resetAll_append,
      DefModule.manifolds_withGd, Mfd.size_withGdAll]
    simp only [Nat.zero_add]
  have key : ∀ x : Row × Row, DefModule.resetAll (DefModule.withCotAll x.2 0 (DefModule.withGdAll x.1 0 A'))
        = DefModule.resetAll (DefModule.withCotAll x.2 0 (DefModule.withGdAll x.1 0 A))
      ∧ DefModule.resetAll (DefModule.withCotAll x.2 (Mfd.sizeAll (DefModule.manifolds A')) (DefModule.withGdAll x.1 (Mfd.sizeAll (DefModule.manifolds A')) B'))
        = DefModule.resetAll (DefModule.withCotAll x.2 (Mfd.sizeAll (DefModule.manifolds A)) (DefModule.withGdAll x.1 (Mfd.sizeAll (DefModule.manifolds A)) B)) :=
    fun x => by
    have hx := h x
    rw [split, split] at hx
    exact List.append_inj (DefModule.compound.inj hx) (by
      simp only [DefModule.length_resetAll, length_withCots, length_withGds, hA])
  have hsz : Mfd.sizeAll (DefModule.manifolds A') = Mfd.sizeAll (DefModule.manifolds A) := by
    have := congrArg (fun l => Mfd.sizeAll (DefModule.manifolds l)) (key (0, 0)).1
    simpa only [DefModule.manifolds_reset, DefModule.manifolds_withCot, DefModule.manifolds_withGd, Mfd.size_withGdAll, Mfd.size_withCotAll]
      using this
  intro x
  have hk := (key (fun j => x.1 (j - Mfd.sizeAll (DefModule.manifolds A)), fun j => x.2 (j - Mfd.sizeAll (DefModule.manifolds A)))).2
  rw [hsz] at hk
  dsimp only at hk
  have mv : ∀ L : List (DefModule d), DefModule.withCotAll (fun j => x.2 (j - Mfd.sizeAll (DefModule.manifolds A))) (Mfd.sizeAll (DefModule.manifolds A))
      (DefModule.withGdAll (fun j => x.1 (j - Mfd.sizeAll (DefModule.manifolds A))) (Mfd.sizeAll (DefModule.manifolds A)) L)
      = DefModule.withCotAll x.2 0 (DefModule.withGdAll x.1 0 L) := fun L => by
    rw [DefModule.withGdAll_congr (x := fun j => x.1 (j - Mfd.sizeAll (DefModule.manifolds A))) (off := Mfd.sizeAll (DefModule.manifolds A)) L (y := x.1) (off' := 0) (fun j _ => congrArg x.1 (show Mfd.sizeAll (DefModule.manifolds A) + j - Mfd.sizeAll (DefModule.manifolds A) = 0 + j by omega)),
      DefModule.withCotAll_congr (x := fun j => x.2 (j - Mfd.sizeAll (DefModule.manifolds A))) (off := Mfd.sizeAll (DefModule.manifolds A)) _ (y := x.2) (off' := 0) (fun j _ => congrArg x.2 (show Mfd.sizeAll (DefModule.manifolds A) + j - Mfd.sizeAll (DefModule.manifolds A) = 0 + j by omega))]
  rw [mv, mv] at hk
  rw [rowsMod_compound, rowsMod_compound, DefModule.reset, DefModule.reset, hk]

/-! ## The deformation cost leaves the modules the same -/

theorem totalLoop_same {states : List (Mfd d)} {controls : List (Ctrl d)} (k : Nat) : ∀ {i : Nat} {m : DefModule d} {r : ℝ × DefModule d},
    totalLoop states controls i k m = .ok r → Same r.2 m := by
  induction k with
  | zero => intro i m r h; rw [totalLoop] at h; cases h; exact Same.refl _
  | succ k ih =>
    intro i m r h
    rw [totalLoop] at h
    cases h1 : states[i]? with
    | none => rw [h1] at h; cases h
    | some S =>
      rw [h1] at h
      dsimp only at h
      cases h2 : m.fillGdFrom S with
      | error e => rw [h2] at h; cases h
      | ok m1 =>
        rw [h2] at h
        dsimp only at h
        cases h3 : controls[i]? with
        | none => rw [h3] at h; cases h
        | some c =>
          rw [h3] at h
          dsimp only at h
          cases h4 : m1.fillControls c with
          | error e => rw [h4] at h; cases h
          | ok m2 =>
            rw [h4] at h
            dsimp only at h
            cases h5 : m2.cost with
            | error e => rw [h5] at h; cases h
            | ok a =>
              rw [h5] at h
              dsimp only at h
              cases h6 : totalLoop states controls (i + 1) k m2 with
              | error e => rw [h6] at h; cases h
              | ok r' =>
                rw [h6] at h
                cases h
                exact (ih h6).trans ((same_of_reset (reset_fill _ h4)).trans (fillGdFrom_sameGd h2).same)

theorem reduceCost_same {red : Reduce} {it : Nat} {costs : Option (List ℝ)} {controls : Option (List (Ctrl d))} {states : List (Mfd d)}
    {m : DefModule d} {r : Option ℝ × DefModule d} (h : reduceCost red it costs controls states m = .ok r) : Same r.2 m := by
  unfold reduceCost at h
  cases red with
  | sum => cases costs with
    | none => cases h
    | some cs => cases h; exact Same.refl _
  | previous =>
    dsimp only at h
    cases h1 : m.geodesic m.manifold with
    | error e => rw [h1] at h; cases h
    | ok m' =>
      rw [h1] at h
      dsimp only at h
      cases h2 : m'.cost with
      | error e => rw [h2] at h; cases h
      | ok a => rw [h2] at h; cases h; exact same_of_reset (reset_geodesic h1)
  | lastCompound =>
    dsimp only at h
    cases h2 : m.cost with
    | error e => rw [h2] at h; cases h
    | ok a => rw [h2] at h; cases h; exact Same.refl _
  | totalCompound =>
    cases controls with
    | none =>
      dsimp only at h
      split at h
      · cases h; exact Same.refl _
      · split at h
        · cases h
        · split at h <;> cases h
    | some cs =>
      dsimp only at h
      cases h1 : totalLoop states cs 0 it m with
      | error e => rw [h1] at h; cases h
      | ok r' => rw [h1] at h; cases h; exact totalLoop_same it h1
  | other => cases h; exact Same.refl _

theorem computeDeformed_same {Ds : List (Deformable d G)} {ms : List (DefModule d)} {s : SolverName} {it : Nat} {wantCosts : Bool}
    {controls : Option (List (List (Ctrl d)))} {t1 : ℝ} {red : Reduce} {r : Deformed d G}
    (h : computeDeformed Ds ms s it wantCosts controls t1 red = .ok r) : Same r.compound (.compound (Ds.map Deformable.silent ++ ms)) := by
  unfold computeDeformed at h
  dsimp only at h
  cases h1 : shoot s it t1 (padControls Ds.length controls) (.compound (Ds.map Deformable.silent ++ ms)) with
  | error e => rw [h1] at h; cases h
  | ok q =>
    obtain ⟨q, costs⟩ := q
    rw [h1] at h
    dsimp only at h
    have hs := shoot_same h1
    split at h
    · split at h <;> cases h
    · cases h2 : (if wantCosts then reduceCost red it costs (padControls Ds.length controls) q.states q.module else .ok (none, q.module)) with
      | error e => rw [h2] at h; cases h
      | ok c =>
        obtain ⟨c, m⟩ := c
        rw [h2] at h
        dsimp only at h
        cases h3 : toGeometries Ds q.module.members with
        | error e => rw [h3] at h; cases h
        | ok gs =>
          rw [h3] at h
          cases h
          dsimp only
          refine Same.trans ?_ hs
          split at h2
          · exact reduceCost_same h2
          · cases h2; exact Same.refl _

theorem computeDeformed_of_reset {Ds : List (Deformable d G)} {ms ms' : List (DefModule d)}
    (hr : (DefModule.compound ms).reset = (DefModule.compound ms').reset) {s : SolverName} {it : Nat} (hit : it ≠ 0) {wantCosts : Bool}
    {controls : Option (List (List (Ctrl d)))} {t1 : ℝ} {red : Reduce} {r : Deformed d G}
    (h : computeDeformed Ds ms s it wantCosts controls t1 red = .ok r) : computeDeformed Ds ms' s it wantCosts controls t1 red = .ok r := by
  unfold computeDeformed at h ⊢
  dsimp only at h ⊢
  cases h1 : shoot s it t1 (padControls Ds.length controls) (.compound (Ds.map Deformable.silent ++ ms)) with
  | error e => rw [h1] at h; cases h
  | ok q =>
    rw [h1] at h
    rw [shoot_of_reset (compound_reset_append hr) s hit t1 _ h1]
    exact h

end
end Imodal
