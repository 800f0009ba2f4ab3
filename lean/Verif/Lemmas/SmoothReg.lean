import Verif.Lemmas.SmoothShoot
import Verif.Spec.SmoothReg
import Verif.Lemmas.RelabelReg
/-!
# A registration evaluated at nearby initial values
-/
set_option autoImplicit false
namespace Imodal
noncomputable section
open Filter Topology
variable {d : Nat} {G T : Type}

/-! ## Filling other values of the same kind -/

/-- Deformables that turn as many points into geometries in the same way. -/
def Alike (D D' : Deformable d G) : Prop := D'.n = D.n ∧ D'.backward = D.backward ∧ D'.toDeformed = D.toDeformed

theorem alike_silents {Ds Ds' : List (Deformable d G)} (h : List.Forall₂ Alike Ds Ds') (x y : Row) : (off : Nat) →
    DefModule.withCotAll y off (DefModule.withGdAll x off (Ds'.map Deformable.silent)) = DefModule.withCotAll y off (DefModule.withGdAll x off (Ds.map Deformable.silent)) := by
  induction h with
  | nil => intro; rfl
  | @cons D D' Ds Ds' h _ ih =>
    intro off
    obtain ⟨n, gd, cot, b, t⟩ := D
    obtain ⟨n', gd', cot', b', t'⟩ := D'
    obtain ⟨h1, -, -⟩ := h
    dsimp only at h1
    subst h1
    simp only [List.map_cons, Deformable.silent, DefModule.withGdAll, DefModule.withCotAll, DefModule.withGd, DefModule.withCot, DefModule.manifold, Mfd.withGd, Mfd.withCot,
      Mfd.size, ih]

theorem alike_sizes {Ds Ds' : List (Deformable d G)} (h : List.Forall₂ Alike Ds Ds') :
    Mfd.sizeAll (DefModule.manifolds (Ds'.map Deformable.silent)) = Mfd.sizeAll (DefModule.manifolds (Ds.map Deformable.silent)) := by
  have := congrArg (fun l => Mfd.sizeAll (DefModule.manifolds l)) (alike_silents h 0 0 0)
  simpa only [DefModule.manifolds_withCot, DefModule.manifolds_withGd, Mfd.size_withGdAll, Mfd.size_withCotAll] using this

theorem alike_geometries {Ds Ds' : List (Deformable d G)} (h : List.Forall₂ Alike Ds Ds') : (L : List (DefModule d)) → toGeometries Ds' L = toGeometries Ds L := by
  induction h with
  | nil => intro; rfl
  | cons h _ ih =>
    intro L
    cases L with
    | nil => rfl
    | cons m L => rw [toGeometries, toGeometries, h.2.2, ih]

theorem alike_backward {Ds Ds' : List (Deformable d G)} (h : List.Forall₂ Alike Ds Ds') :
    (Ds'.any fun D => D.backward.isSome) = Ds.any fun D => D.backward.isSome := by
  induction h with
  | nil => rfl
  | cons h _ ih => rw [List.any_cons, List.any_cons, h.2.1, ih]

theorem alike_length {Ds Ds' : List (Deformable d G)} (h : List.Forall₂ Alike Ds Ds') : Ds'.length = Ds.length := h.length_eq.symm

theorem fillDeformables_kind : (Ds : List (Deformable d G)) → {l l' : List (Mfd d)} → List.Forall₂ Mfd.SameKind l' l → {Ds₀ : List (Deformable d G)} →
    fillDeformables Ds l = .ok Ds₀ → Ds.length ≤ l.length →
    ∃ Ds₁, fillDeformables Ds l' = .ok Ds₁ ∧ List.Forall₂ Alike Ds₀ Ds₁ ∧ DefModule.manifolds (Ds₁.map Deformable.silent) = l'.take Ds.length
  | [], l, l', _, Ds₀, h0, _ => by
    rw [fillDeformables] at h0 ⊢
    cases h0
    exact ⟨[], rfl, .nil, by simp [DefModule.manifolds]⟩
    all_goals simp
  | D :: Ds, [], _, _, _, _, hl => absurd hl (by simp)
  | D :: Ds, m :: l, m' :: l', h, Ds₀, h0, hl => by
    obtain ⟨hm, hll⟩ := List.forall₂_cons.1 h
    rw [fillDeformables] at h0
    cases h1 : D.fill m with
    | error _ => rw [h1] at h0; cases h0
    | ok D₀ =>
      rw [h1] at h0
      dsimp only at h0
      cases h2 : fillDeformables Ds l with
      | error _ => rw [h2] at h0; cases h0
      | ok Ds₁ =>
        rw [h2] at h0
        cases h0
        obtain ⟨Ds₂, e1, e2, e3⟩ := fillDeformables_kind Ds hll h2 (by simpa using hl)
        cases m with
        | @landmarks n gd cot =>
          cases m' with
          | @landmarks n' gd' cot' =>
            simp only [Mfd.SameKind, Mfd.blank] at hm
            have hn : n' = n := by injection hm
            rw [Deformable.fill] at h1
            cases h1
            refine ⟨{ D with n := n', gd := gd', cot := cot' } :: Ds₂, ?_, .cons ⟨hn, rfl, rfl⟩ e2, ?_⟩
            · rw [fillDeformables, Deformable.fill, e1]
            · rw [List.map_cons, DefModule.manifolds, e3]; rfl
          | _ => simp only [Mfd.SameKind, Mfd.blank] at hm; cases hm
        | _ => rw [Deformable.fill] at h1; cases h1; all_goals simp

theorem Mfd.rows_self (M : Mfd d) : (M.withGd M.rows.1 0).withCot M.rows.2 0 = M := by
  have := rowsMod_self (DefModule.silent M)
  rw [rowsMod, DefModule.withGd, DefModule.withCot] at this
  exact DefModule.silent.inj this

theorem fillModules_kind {ms : List (DefModule d)} {mans : List (Mfd d)} (h : (Mfd.compound mans).SameKind (DefModule.compound ms).manifold) :
    ∃ ms', fillModules ms mans = .ok ms' ∧ DefModule.compound ms' = rowsMod (.compound ms) (Mfd.compound mans).rows ∧ DefModule.manifolds ms' = mans := by
  obtain ⟨ms', h1, h2⟩ := fillModules_fits h.fits
  refine ⟨ms', h2, h1.symm, ?_⟩
  have := congrArg DefModule.manifold h1
  rw [manifold_rowsMod, ← h.rows, Mfd.rows_self, DefModule.manifold] at this
  exact (Mfd.compound.inj this).symm

/-- The compound that is shot, for other initial values of the same kind. -/
theorem joined_rows {M : RegModel d G T} (hk : M.Kept) (hl : M.deformables.length ≤ M.init.length) {init : List (Mfd d)}
    (h : List.Forall₂ Mfd.SameKind init M.init) {ms : List (DefModule d)} {Ds : List (Deformable d G)}
    (h1 : fillModules M.modules (M.init.drop M.deformables.length) = .ok ms) (h2 : fillDeformables M.deformables M.init = .ok Ds) :
    ∃ ms' Ds', fillModules M.modules (init.drop M.deformables.length) = .ok ms' ∧ fillDeformables M.deformables init = .ok Ds' ∧ List.Forall₂ Alike Ds Ds' ∧
      DefModule.compound (Ds'.map Deformable.silent ++ ms') = rowsMod (.compound (Ds.map Deformable.silent ++ ms)) (Mfd.compound init).rows := by
  obtain ⟨Ds', a1, a2, a3⟩ := fillDeformables_kind M.deformables h h2 hl
  obtain ⟨ms₀, b1, b2, -⟩ := fillModules_kind hk
  have e : ms₀ = ms := Except.ok.inj (b1.symm.trans h1)
  subst e
  have hd : (Mfd.compound (init.drop M.deformables.length)).SameKind (DefModule.compound M.modules).manifold :=
    (sameKind_all (List.forall₂_drop M.deformables.length h)).trans hk
  obtain ⟨ms', c1, c2, c3⟩ := fillModules_kind hd
  refine ⟨ms', Ds', c1, a1, a2, ?_⟩
  have hman : (DefModule.compound (Ds'.map Deformable.silent ++ ms')).manifold = Mfd.compound init := by
    rw [DefModule.manifold, manifolds_append, a3, c3, List.take_append_drop]
  have hrows : ∀ x, rowsMod (.compound (Ds'.map Deformable.silent ++ ms')) x = rowsMod (.compound (Ds.map Deformable.silent ++ ms₀)) x := fun x => by
    have hover : ∀ (L : List (DefModule d)) (y : Row × Row), DefModule.compound L = rowsMod (.compound M.modules) y → ∀ off,
        DefModule.withCotAll x.2 off (DefModule.withGdAll x.1 off L) = DefModule.withCotAll x.2 off (DefModule.withGdAll x.1 off M.modules) := fun L y hL off => by
      rw [rowsMod_compound] at hL
      rw [DefModule.compound.inj hL, DefModule.withGdAll_withCotAll, DefModule.withGdAll_withGdAll, DefModule.withCotAll_withCotAll]
    rw [rowsMod_compound, rowsMod_compound]
    congr 1
    rw [DefModule.withGdAll_append, DefModule.withGdAll_append, DefModule.withCotAll_append, DefModule.withCotAll_append, alike_silents a2,
      DefModule.manifolds_withGd, DefModule.manifolds_withGd, Mfd.size_withGdAll, Mfd.size_withGdAll, alike_sizes a2, hover _ _ b2, hover _ _ c2]
  have := rowsMod_self (DefModule.compound (Ds'.map Deformable.silent ++ ms'))
  rw [hrows] at this
  rw [← this]
  congr 1
  rw [gdRow, cotRow, hman]
  rfl

/-- As many deformables as attachments and targets. -/
def SmoothShape : List (Deformable d G) → List (Attach G T) → List T → Prop
  | _ :: Ds, _ :: as, _ :: ts => SmoothShape Ds as ts
  | [], [], [] => True
  | _, _, _ => False

/-! ## The losses, as functions of the final row -/

/-- The deformables with the points and momenta read from rows. -/
def readAll (x y : Row) : Nat → List (Deformable d G) → List (Deformable d G)
  | _, [] => []
  | off, D :: Ds => { D with gd := viewVecs fun j => x (off + j), cot := viewVecs fun j => y (off + j) } :: readAll x y (off + D.n * d) Ds

/-- The sum of the losses at points read from a row. -/
def lossAt (x : Row) : Nat → List (Deformable d G) → List (Attach G T) → List T → Py ℝ
  | off, D :: Ds, a :: as, t :: ts =>
    ((D.toDeformed ⟨D.n, viewVecs fun j => x (off + j)⟩).bind fun g => a.call g t).bind fun u => (lossAt x (off + D.n * d) Ds as ts).map fun v => u + v
  | _, _, _, _ => .ok 0

theorem silent_read (D : Deformable d G) (x y : Row) (off : Nat) :
    (D.silent.withGd x off).withCot y off = .silent (.landmarks (n := D.n) (viewVecs fun j => x (off + j)) (viewVecs fun j => y (off + j))) := by
  rw [Deformable.silent, DefModule.withGd, DefModule.withCot, Mfd.withGd, Mfd.withCot]

theorem silents_cons (D : Deformable d G) (Ds : List (Deformable d G)) (x y : Row) (off : Nat) :
    DefModule.withCotAll y off (DefModule.withGdAll x off ((D :: Ds).map Deformable.silent))
      = .silent (.landmarks (n := D.n) (viewVecs fun j => x (off + j)) (viewVecs fun j => y (off + j)))
        :: DefModule.withCotAll y (off + D.n * d) (DefModule.withGdAll x (off + D.n * d) (Ds.map Deformable.silent)) := by
  rw [List.map_cons, DefModule.withGdAll, DefModule.withCotAll, silent_read, DefModule.manifold_withGd, Mfd.size_withGd]
  rfl

theorem lossAt_spec : (Ds : List (Deformable d G)) → (as : List (Attach G T)) → (ts : List T) → SmoothShape Ds as ts → (x y : Row) → (off : Nat) →
    (L : List (DefModule d)) → {v : ℝ} → lossAt x off Ds as ts = .ok v →
    ∃ gs, toGeometries Ds (DefModule.withCotAll y off (DefModule.withGdAll x off (Ds.map Deformable.silent)) ++ L) = .ok gs ∧ attachmentCost as gs ts = .ok v
  | D :: Ds, a :: as, t :: ts, h, x, y, off, L, v, hv => by
    rw [lossAt] at hv
    rw [silents_cons, List.cons_append, toGeometries, pointsOf]
    dsimp only
    cases h1 : D.toDeformed ⟨D.n, viewVecs fun j => x (off + j)⟩ with
    | error _ => rw [h1] at hv; cases hv
    | ok g =>
      rw [h1] at hv
      dsimp only [Except.bind] at hv ⊢
      cases h2 : a.call g t with
      | error _ => rw [h2] at hv; cases hv
      | ok u =>
        rw [h2] at hv
        dsimp only at hv
        cases h3 : lossAt x (off + D.n * d) Ds as ts with
        | error _ => rw [h3] at hv; cases hv
        | ok w =>
          rw [h3] at hv
          cases hv
          obtain ⟨gs, e1, e2⟩ := lossAt_spec Ds as ts h x y (off + D.n * d) L h3
          refine ⟨g :: gs, by rw [e1], ?_⟩
          rw [attachmentCost, h2, e2]
  | [], [], [], _, x, y, off, L, v, hv => by
    rw [lossAt] at hv
    · cases hv
      exact ⟨[], by rw [toGeometries]; all_goals simp, by rw [attachmentCost]; all_goals simp⟩
    all_goals simp
  | [], [], _ :: _, h, _, _, _, _, _, _ => h.elim
  | [], _ :: _, _, h, _, _, _, _, _, _ => h.elim
  | _ :: _, [], _, h, _, _, _, _, _, _ => h.elim
  | _ :: _, _ :: _, [], h, _, _, _, _, _, _ => h.elim

theorem shape_of_losses {n : WithTop ℕ∞} : (Ds : List (Deformable d G)) → (as : List (Attach G T)) → (ts : List T) → SmoothLosses n Ds as ts → SmoothShape Ds as ts
  | D :: Ds, a :: as, t :: ts, h => shape_of_losses Ds as ts h.2
  | [], [], [], _ => trivial
  | [], [], _ :: _, h => h.elim
  | [], _ :: _, _, h => h.elim
  | _ :: _, [], _, h => h.elim
  | _ :: _, _ :: _, [], h => h.elim

theorem shape_readAll (x y : Row) : (Ds : List (Deformable d G)) → (as : List (Attach G T)) → (ts : List T) → (off : Nat) →
    (SmoothShape (readAll x y off Ds) as ts ↔ SmoothShape Ds as ts)
  | D :: Ds, a :: as, t :: ts, off => shape_readAll x y Ds as ts _
  | [], [], [], _ => Iff.rfl
  | [], [], _ :: _, _ => Iff.rfl
  | [], _ :: _, _, _ => Iff.rfl
  | _ :: _, [], _, _ => Iff.rfl
  | _ :: _, _ :: _, [], _ => Iff.rfl

theorem lossAt_smooth {E : Type} [NormedAddCommGroup E] [NormedSpace ℝ E] {e₀ : E} {n : WithTop ℕ∞} {x : E → Row}
    (hx : ∀ j, ContDiffAt ℝ n (fun e => x e j) e₀) (y : Row) : (Ds : List (Deformable d G)) → (as : List (Attach G T)) → (ts : List T) → (off : Nat) →
    SmoothLosses n (readAll (x e₀) y off Ds) as ts → SmPy n e₀ fun e => lossAt (x e) off Ds as ts
  | D :: Ds, a :: as, t :: ts, off, h => by
    obtain ⟨h1, h2⟩ := h
    have i2 := lossAt_smooth hx y Ds as ts _ h2
    obtain ⟨g, hg, hge⟩ := h1
    obtain ⟨u, hu, hue⟩ := i2
    dsimp only at hg hge
    have hv : ContDiffAt ℝ n (fun e => (viewVecs fun j => x e (off + j) : Fin D.n → Vec d)) e₀ :=
      contDiffAt_pi.2 fun i => contDiffAt_pi.2 fun c => hx _
    refine ⟨fun e => g (viewVecs fun j => x e (off + j)) + u e, (ContDiffAt.comp e₀ hg hv).add hu, ?_⟩
    filter_upwards [hue, hv.continuousAt.eventually hge] with e e1 e2
    rw [lossAt, e2, e1]
    rfl
  | [], [], [], off, _ => ⟨fun _ => 0, contDiffAt_const, Eventually.of_forall fun e => rfl⟩
  | [], [], _ :: _, _, h => h.elim
  | [], _ :: _, _, _, h => h.elim
  | _ :: _, [], _, _, h => h.elim
  | _ :: _, _ :: _, [], _, h => h.elim

theorem leave_read (x y : Row) : (Ds : List (Deformable d G)) → (off : Nat) → (L : List (DefModule d)) → {B : List (Mfd d)} →
    DefModule.manifolds L = DefModule.manifolds (DefModule.withCotAll y off (DefModule.withGdAll x off (Ds.map Deformable.silent))) ++ B →
    List.zipWith Deformable.leave Ds L = readAll x y off Ds
  | [], off, L, _, _ => rfl
  | D :: Ds, off, L, B, h => by
    rw [silents_cons, DefModule.manifolds, List.cons_append] at h
    cases L with
    | nil => rw [DefModule.manifolds] at h; cases h
    | cons m L =>
      rw [DefModule.manifolds] at h
      obtain ⟨h1, h2⟩ := List.cons.inj h
      rw [List.zipWith_cons_cons, leave_read x y Ds _ L h2, readAll, Deformable.leave, h1]
      rfl

/-! ## Evaluating -/

theorem members_of_reset {m m' : DefModule d} (h : m.reset = m'.reset) : DefModule.resetAll m.members = DefModule.resetAll m'.members := by
  cases m with
  | compound L => cases m' with
    | compound L' => rw [DefModule.reset, DefModule.reset] at h; exact DefModule.compound.inj h
    | _ => simp only [DefModule.reset] at h; cases h
  | _ => cases m' with
    | compound L' => simp only [DefModule.reset] at h; cases h
    | _ => simp only [DefModule.members, DefModule.resetAll, h]

theorem pointsOf_reset (m : DefModule d) : pointsOf m.reset = pointsOf m := by
  cases m with
  | silent M => rw [DefModule.reset]
  | _ => simp only [DefModule.reset, pointsOf]

theorem toGeometries_resetAll : (Ds : List (Deformable d G)) → (L : List (DefModule d)) → toGeometries Ds (DefModule.resetAll L) = toGeometries Ds L
  | [], L => by simp [toGeometries]
  | D :: Ds, [] => by rw [DefModule.resetAll]
  | D :: Ds, m :: L => by rw [DefModule.resetAll, toGeometries, toGeometries, pointsOf_reset, toGeometries_resetAll Ds L]

theorem toGeometries_of_reset (Ds : List (Deformable d G)) {m m' : DefModule d} (h : m.reset = m'.reset) : toGeometries Ds m.members = toGeometries Ds m'.members := by
  rw [← toGeometries_resetAll Ds m.members, members_of_reset h, toGeometries_resetAll]

/-- The total, from the parts of the evaluation. -/
theorem value_parts {M : RegModel d G T} (hM : M.learned = none) {targets : List T} (ht : targets.length = M.deformables.length) {s : Solver} {it : Nat}
    {ms : List (DefModule d)} {Ds : List (Deformable d G)} (h1 : fillModules M.modules (M.init.drop M.deformables.length) = .ok ms)
    (h2 : fillDeformables M.deformables M.init = .ok Ds) {r : Shot d} (h3 : shootMoments s it 1 (.compound (Ds.map Deformable.silent ++ ms)) = .ok r)
    (h4 : (Ds.any fun D => D.backward.isSome) = false) {c : Option ℝ} {m : DefModule d}
    (h5 : reduceCost M.reduce it (some r.costs) none r.states r.module = .ok (c, m)) {gs : List G} (h6 : toGeometries Ds r.module.members = .ok gs)
    {a : ℝ} (h7 : attachmentCost M.attachments gs targets = .ok a) : M.value targets (.fixed s) it = .ok (c.getD 0 + M.lam * a) := by
  have hs : M.steps it = it := by rw [RegModel.steps, hM]; rfl
  unfold RegModel.value RegModel.evaluate
  rw [if_neg (by simp [ht])]
  dsimp only
  unfold RegModel.computeDeformed
  rw [h1, h2]
  dsimp only
  unfold Imodal.computeDeformed
  rw [hs, hM]
  simp only [Option.map_none, padControls, shoot, shootOde, h3, h4, Bool.false_eq_true, if_false, if_true, h5, h6]
  unfold RegModel.leave
  dsimp only
  rw [h7]
  cases c with
  | none => simp [Except.map, totalCost, Dict.set]
  | some c => simp [Except.map, totalCost, Dict.set]

/-- What an evaluation that returns went through. -/
theorem evaluate_parts {M : RegModel d G T} (hM : M.learned = none) {targets : List T} {s : Solver} {it : Nat} {r₀ : Evaluated d G T}
    (h : M.evaluate none targets (.fixed s) it [] = .ok r₀) :
    targets.length = M.deformables.length ∧ ∃ ms Ds, fillModules M.modules (M.init.drop M.deformables.length) = .ok ms ∧ fillDeformables M.deformables M.init = .ok Ds ∧
      ∃ r, shootMoments s it 1 (.compound (Ds.map Deformable.silent ++ ms)) = .ok r ∧ (Ds.any fun D => D.backward.isSome) = false ∧
      ∃ c m, reduceCost M.reduce it (some r.costs) none r.states r.module = .ok (c, m) ∧
        r₀.model.deformables = List.zipWith Deformable.leave Ds m.members := by
  have hs : M.steps it = it := by rw [RegModel.steps, hM]; rfl
  unfold RegModel.evaluate at h
  by_cases ht : targets.length ≠ M.deformables.length
  · rw [if_pos ht] at h; cases h
  rw [if_neg ht] at h
  refine ⟨not_not.1 ht, ?_⟩
  dsimp only at h
  unfold RegModel.computeDeformed at h
  cases h1 : fillModules M.modules (M.init.drop M.deformables.length) with
  | error _ => rw [h1] at h; cases h
  | ok ms =>
  cases h2 : fillDeformables M.deformables M.init with
  | error _ => rw [h1, h2] at h; cases h
  | ok Ds =>
  rw [h1, h2] at h
  dsimp only at h
  unfold Imodal.computeDeformed at h
  rw [hs, hM] at h
  simp only [Option.map_none, padControls, shoot, shootOde] at h
  cases h3 : shootMoments s it 1 (.compound (Ds.map Deformable.silent ++ ms)) with
  | error _ => rw [h3] at h; cases h
  | ok r =>
  rw [h3] at h
  dsimp only at h
  by_cases h4 : (Ds.any fun D => D.backward.isSome) = true
  · simp only [if_pos h4] at h
    cases h5 : backwardModules Ds with
    | error _ => rw [h5] at h; cases h
    | ok _ => rw [h5] at h; cases h
  simp only [if_neg h4, if_true] at h
  cases h5 : reduceCost M.reduce it (some r.costs) none r.states r.module with
  | error _ => rw [h5] at h; cases h
  | ok cm =>
  obtain ⟨c, m⟩ := cm
  rw [h5] at h
  dsimp only at h
  cases h6 : toGeometries Ds r.module.members with
  | error _ => rw [h6] at h; cases h
  | ok gs =>
  rw [h6] at h
  dsimp only at h
  refine ⟨ms, Ds, rfl, rfl, r, h3, by simpa using h4, c, m, h5, ?_⟩
  split at h
  · cases h
  · cases h; rfl

variable {E : Type} [NormedAddCommGroup E] [NormedSpace ℝ E] {e₀ : E} {n : WithTop ℕ∞}

/-- The deformation cost near a shooting where it was returned. -/
theorem reduceCost_smooth {m : DefModule d} {k : Nat} (hm : m.Smooth n) (hk : (k : WithTop ℕ∞) + 1 ≤ n) {red : Reduce} (hred : red ≠ .lastCompound) {it : Nat}
    {w : E → Fins (numCoords m)} {c : E → ℝ} (hw : ContDiffAt ℝ k w e₀) (hc : ContDiffAt ℝ k c e₀) {r₀ : Shot d}
    (hr₀ : r₀.module.reset = (rowsMod m (finRows (w e₀))).reset)
    (hok : ∃ q, reduceCost red it (some r₀.costs) none r₀.states r₀.module = .ok q) :
    ∃ u : E → ℝ, ContDiffAt ℝ k u e₀ ∧ ∀ᶠ e in 𝓝 e₀, ∀ r : Shot d, r.costs.sum = c e → r.module.reset = (rowsMod m (finRows (w e))).reset →
      ∃ x m', reduceCost red it (some r.costs) none r.states r.module = .ok (x, m') ∧ x.getD 0 = u e := by
  cases red with
  | sum => exact ⟨c, hc, Eventually.of_forall fun e r h1 h2 => ⟨_, _, rfl, h1⟩⟩
  | other => exact ⟨fun _ => 0, contDiffAt_const, Eventually.of_forall fun e r h1 h2 => ⟨_, _, rfl, rfl⟩⟩
  | lastCompound => exact absurd rfl hred
  | totalCompound =>
    by_cases hit : it = 0
    · exact ⟨fun _ => 0, contDiffAt_const, Eventually.of_forall fun e r h1 h2 => ⟨some 0, r.module, by simp [reduceCost, hit], rfl⟩⟩
    · obtain ⟨q, hq⟩ := hok
      simp only [reduceCost, if_neg hit] at hq
      split at hq
      · cases hq
      · split at hq <;> cases hq
  | previous =>
    obtain ⟨q, hq⟩ := hok
    simp only [reduceCost] at hq
    have hgeo : ∃ m', Hamiltonian.geodesicControls (rowsMod m (finRows (w e₀))) = .ok m' := by
      rw [← geodesicControls_of_reset hr₀]
      unfold Hamiltonian.geodesicControls
      cases h1 : r₀.module.geodesic r₀.module.manifold with
      | error _ => rw [h1] at hq; cases hq
      | ok m' => exact ⟨m', rfl⟩
    refine ⟨fun e => hamV m (w e), ((hamV_smooth hm hgeo).of_le (le_self_add.trans hk)).comp e₀ hw, ?_⟩
    have hev := (hamField_contDiffAt hm hk hgeo).2
    filter_upwards [hw.continuousAt.eventually hev] with e he r h1 h2
    obtain ⟨m', hm'⟩ := rhsV_geodesic he
    have hcost := geodesicCost_at hm hm'
    rw [← geodesicControls_of_reset h2] at hm'
    unfold Hamiltonian.geodesicControls at hm'
    refine ⟨some (hamV m (w e)), m', ?_, rfl⟩
    simp only [reduceCost, hm', hcost]
    rfl

theorem finRows_smooth {N : Nat} {w : E → Fins N} (hw : ContDiffAt ℝ n w e₀) (j : Nat) : ContDiffAt ℝ n (fun e => (finRows (w e)).1 j) e₀ := by
  unfold finRows extRow
  by_cases hj : j < N
  · simp only [dif_pos hj]
    exact contDiffAt_pi.1 (contDiffAt_fst.comp e₀ hw) _
  · simp only [dif_neg hj]
    exact contDiffAt_const

theorem value_smooth {M : RegModel d G T} {k : Nat} (hm : (DefModule.compound M.modules).Smooth n) (hk : (k : WithTop ℕ∞) + 1 ≤ n) (hred : M.reduce ≠ .lastCompound)
    {init : E → List (Mfd d)} (hkind : ∀ e, List.Forall₂ Mfd.SameKind (init e) (init e₀)) (hinit : SmoothEntries k e₀ init) (hlen : M.deformables.length ≤ (init e₀).length)
    (hkept : (M.setValues (init e₀) none).Kept) {targets : List T} {s : Solver} {it : Nat} {r₀ : Evaluated d G T}
    (h₀ : (M.setValues (init e₀) none).evaluate none targets (.fixed s) it [] = .ok r₀) (hloss : SmoothLosses k r₀.model.deformables M.attachments targets) :
    SmPy k e₀ fun e => (M.setValues (init e) none).value targets (.fixed s) it := by
  obtain ⟨ht, ms, Ds, h1, h2, r, h3, h4, x₀, m₀, h5, h6⟩ := evaluate_parts rfl h₀
  obtain ⟨ms₁, hf, hfr, -⟩ := fillModules_kind hkept
  have e1 : ms₁ = ms := Except.ok.inj (hf.symm.trans h1)
  subst e1
  have hsm : (DefModule.compound (Ds.map Deformable.silent ++ ms₁)).Smooth n := smooth_joined Ds (by rw [hfr, smooth_rowsMod]; exact hm)
  set m := DefModule.compound (Ds.map Deformable.silent ++ ms₁) with hmdef
  have hall : ∀ e, ∃ ms' Ds', fillModules M.modules ((init e).drop M.deformables.length) = .ok ms' ∧ fillDeformables M.deformables (init e) = .ok Ds' ∧
      List.Forall₂ Alike Ds Ds' ∧ DefModule.compound (Ds'.map Deformable.silent ++ ms') = rowsMod m (finRows (entries (numCoords m) (Mfd.compound (init e)).rows)) := fun e => by
    rw [rowsMod_entries]
    exact joined_rows (M := M.setValues (init e₀) none) hkept hlen (hkind e) h1 h2
  have hv : ContDiffAt ℝ k (fun e => entries (numCoords m) (Mfd.compound (init e)).rows) e₀ :=
    ContDiffAt.prodMk (contDiffAt_pi.2 fun j => (hinit j).1) (contDiffAt_pi.2 fun j => (hinit j).2)
  have hm0 : rowsMod m (finRows (entries (numCoords m) (Mfd.compound (init e₀)).rows)) = m := by
    obtain ⟨ms', Ds', a1, a2, a3, a4⟩ := hall e₀
    have b1 : ms' = ms₁ := Except.ok.inj (a1.symm.trans h1)
    have b2 : Ds' = Ds := Except.ok.inj (a2.symm.trans h2)
    rw [← a4, b1, b2]
  obtain ⟨hp, hn⟩ := shoot_plain h3
  obtain ⟨w, c, hw, hc, hwc⟩ := shoot_smooth hsm hk hp hn s it 1 hv ⟨r, by rw [hm0]; exact h3⟩
  have hwc0 := hwc.self_of_nhds
  obtain ⟨r', g1, g2, g3⟩ := hwc0
  rw [hm0] at g1
  have e2 : r' = r := Except.ok.inj (g1.symm.trans h3)
  subst e2
  obtain ⟨u, hu, hue⟩ := reduceCost_smooth hsm hk hred hw hc g3 ⟨_, h5⟩
  -- the points reached at `e₀`
  have hread : r₀.model.deformables = readAll (finRows (w e₀)).1 (finRows (w e₀)).2 0 Ds := by
    rw [h6]
    have hm₀ : m₀.manifold = (rowsMod m (finRows (w e₀))).manifold := by
      rw [← manifold_of_reset g3]
      have hq := h5
      change reduceCost M.reduce it _ _ _ _ = _ at hq
      clear * - hq hred
      cases hr : M.reduce with
      | sum => rw [hr] at hq; cases hq; rfl
      | other => rw [hr] at hq; cases hq; rfl
      | lastCompound => exact absurd hr hred
      | previous =>
        rw [hr] at hq
        simp only [reduceCost] at hq
        cases h1 : r'.module.geodesic r'.module.manifold with
        | error _ => rw [h1] at hq; cases hq
        | ok m' =>
          rw [h1] at hq
          dsimp only at hq
          cases h2 : m'.cost with
          | error _ => rw [h2] at hq; cases hq
          | ok a => rw [h2] at hq; cases hq; exact geodesic_manifold h1
      | totalCompound =>
        rw [hr] at hq
        by_cases hit : it = 0
        · simp only [reduceCost, if_pos hit] at hq; cases hq; rfl
        · simp only [reduceCost, if_neg hit] at hq
          split at hq
          · cases hq
          · split at hq <;> cases hq
    have hS : Same m₀ m := (reduceCost_same h5).trans ((same_of_reset g3).trans (same_rowsMod _ _))
    obtain ⟨L, hL, -⟩ := same_compound hS
    rw [hL, DefModule.members]
    have := hm₀
    rw [hL, hmdef, rowsMod_compound, DefModule.withGdAll_append, DefModule.withCotAll_append, DefModule.manifold, DefModule.manifold, manifolds_append] at this
    exact leave_read _ _ Ds 0 L (Mfd.compound.inj this)
  rw [hread] at hloss
  obtain ⟨a, ha, hae⟩ := lossAt_smooth (x := fun e => (finRows (w e)).1) (finRows_smooth hw) (finRows (w e₀)).2 Ds M.attachments targets 0 hloss
  refine ⟨fun e => u e + M.lam * a e, hu.add (contDiffAt_const.mul ha), ?_⟩
  filter_upwards [hwc, hue, hae] with e ⟨r, f1, f2, f3⟩ hu' ha'
  obtain ⟨x, m', f4, f5⟩ := hu' r f2 f3
  obtain ⟨ms', Ds', a1, a2, a3, a4⟩ := hall e
  rw [← f5]
  obtain ⟨gs, b1, b2⟩ := lossAt_spec Ds M.attachments targets ((shape_readAll _ _ _ _ _ _).1 (shape_of_losses _ _ _ hloss)) (finRows (w e)).1 (finRows (w e)).2 0 
    (DefModule.withCotAll (finRows (w e)).2 (Mfd.sizeAll (DefModule.manifolds (Ds.map Deformable.silent)))
      (DefModule.withGdAll (finRows (w e)).1 (Mfd.sizeAll (DefModule.manifolds (Ds.map Deformable.silent))) ms₁)) ha'
  refine value_parts (M := M.setValues (init e) none) rfl ht a1 a2 (by rw [a4]; exact f1) (by rw [alike_backward a3]; exact h4) f4 (gs := gs) ?_ b2
  rw [alike_geometries a3, toGeometries_of_reset Ds f3, rowsMod_compound, DefModule.members, DefModule.withGdAll_append, DefModule.withCotAll_append,
    DefModule.manifolds_withGd, Mfd.size_withGdAll, Nat.zero_add]
  exact b1

end
end Imodal
