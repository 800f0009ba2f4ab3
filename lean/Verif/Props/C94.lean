import Mathlib.Data.List.GetD
import Verif.Lemmas.SmoothReg
import Verif.Lemmas.SmoothTotal
import Verif.Props.C69
import Verif.Props.C90
import Verif.Props.C36
import Mathlib.Analysis.SpecialFunctions.Sqrt
import Mathlib.Analysis.Calculus.Deriv.Abs
/-!
# C94: the total cost of a registration is a smooth function of what is optimised
-/
set_option autoImplicit false
namespace Imodal
noncomputable section
open Filter Topology
variable {d : Nat} {G T : Type} {E : Type} [NormedAddCommGroup E] [NormedSpace ℝ E] {e₀ : E} {n : WithTop ℕ∞}

/-- If `evaluate` returns for some initial descriptors and momenta, and the losses are smooth near the
points it reached, then it returns for all values nearby, and the total is `k` times continuously
differentiable there: as a function of whatever the descriptors and momenta depend on. -/
theorem C94_partial {M : RegModel d G T} {k : Nat} (hm : (DefModule.compound M.modules).Smooth (k + 1)) (hred : M.reduce ≠ .lastCompound)
    {init : E → List (Mfd d)} (hkind : ∀ e, List.Forall₂ Mfd.SameKind (init e) (init e₀)) (hinit : SmoothEntries k e₀ init)
    (hlen : M.deformables.length ≤ (init e₀).length) (hkept : (M.setValues (init e₀) none).Kept) {targets : List T} {s : Solver} {it : Nat}
    {r₀ : Evaluated d G T} (h₀ : (M.setValues (init e₀) none).evaluate none targets (.fixed s) it [] = .ok r₀)
    (hloss : SmoothLosses k r₀.model.deformables M.attachments targets) :
    SmPy k e₀ fun e => (M.setValues (init e) none).value targets (.fixed s) it :=
  value_smooth hm le_rfl hred hkind hinit hlen hkept h₀ hloss

/-- The same for a model with learned controls, for whatever the controls, the descriptors and the
momenta depend on. The losses have to be smooth near the points where the shooting ends. -/
theorem C94_controls {M : RegModel d G T} {k : Nat} (hm : (DefModule.compound M.modules).Smooth (k + 1)) (hred : M.reduce ≠ .lastCompound)
    {init : E → List (Mfd d)} (hkind : ∀ e, List.Forall₂ Mfd.SameKind (init e) (init e₀)) (hinit : SmoothEntries k e₀ init)
    (hlen : M.deformables.length ≤ (init e₀).length) {N : Nat} {cs : List (List (E → Ctrl d))} (hcs : ∀ l ∈ cs, ∀ c ∈ l, SmCtrl k e₀ c)
    {values : E → RegModel d G T} (hval : ∀ e, values e = M.setValues (init e) (some (N, cs.map fun l => l.map fun c => c e)))
    (hkept : (values e₀).Kept) {targets : List T} {s : Solver} {it : Nat} {r₀ : Evaluated d G T}
    (h₀ : (values e₀).evaluate none targets (.fixed s) it [] = .ok r₀) {D₀ : Deformed d G × RegModel d G T}
    (hD₀ : (values e₀).computeDeformed (.fixed s) it false 1 = .ok D₀) (hloss : SmoothLosses k D₀.2.deformables M.attachments targets) :
    SmPy k e₀ fun e => (values e).value targets (.fixed s) it :=
  valueC_smooth hm le_rfl hred hkind hinit hlen hcs hval hkept h₀ hD₀ hloss

/-! ## Regularised modules: everywhere -/

theorem moments_same {s : Solver} {it : Nat} {t1 : ℝ} {ms : List (DefModule d)} {r : Shot d} (h : shootMoments s it t1 (.compound ms) = .ok r) :
    Same r.module (.compound ms) :=
  shoot_same (s := .fixed s) (it := it) (t1 := t1) (controls := none) (ms := ms) (r := (r, some r.costs)) (by simp only [shoot, shootOde, h])

theorem leave_same {Ds : List (Deformable d G)} {ms : List (DefModule d)} {m : DefModule d} (h : Same m (.compound (Ds.map Deformable.silent ++ ms))) :
    ∃ x y, List.zipWith Deformable.leave Ds m.members = readAll x y 0 Ds := by
  obtain ⟨L, rfl, -⟩ := same_compound h
  have h1 := h (gdRow (.compound L), cotRow (.compound L))
  rw [rowsMod_self] at h1
  have h2 := manifold_of_reset h1
  rw [rowsMod_compound, DefModule.withGdAll_append, DefModule.withCotAll_append, DefModule.manifold, DefModule.manifold, manifolds_append] at h2
  exact ⟨_, _, leave_read _ _ Ds 0 L (Mfd.compound.inj h2)⟩

theorem everywhere_alike {Ds Ds' : List (Deformable d G)} (h : List.Forall₂ Alike Ds Ds') : (as : List (Attach G T)) → (ts : List T) → SmoothEverywhere n Ds as ts →
    SmoothEverywhere n Ds' as ts := by
  induction h with
  | nil => exact fun _ _ h => h
  | @cons D D' Ds Ds' h _ ih =>
    intro as ts hs
    cases as with
    | nil => cases hs
    | cons a as =>
      cases ts with
      | nil => cases hs
      | cons t ts =>
        refine ⟨?_, ih as ts hs.2⟩
        obtain ⟨n, gd, cot, b, t⟩ := D
        obtain ⟨n', gd', cot', b', t'⟩ := D'
        obtain ⟨h1, -, h3⟩ := h
        dsimp only at h1 h3
        subst h1 h3
        exact hs.1

theorem everywhere_read (x y : Row) : (Ds : List (Deformable d G)) → (as : List (Attach G T)) → (ts : List T) → (off : Nat) → SmoothEverywhere n Ds as ts →
    SmoothLosses n (readAll x y off Ds) as ts
  | D :: Ds, a :: as, t :: ts, off, h => ⟨h.1 _, everywhere_read x y Ds as ts _ h.2⟩
  | [], [], [], _, _ => trivial
  | [], [], _ :: _, _, h => h.elim
  | [], _ :: _, _, _, h => h.elim
  | _ :: _, [], _, _, h => h.elim
  | _ :: _, _ :: _, [], _, h => h.elim

theorem everywhere_length : (Ds : List (Deformable d G)) → (as : List (Attach G T)) → (ts : List T) → SmoothEverywhere n Ds as ts → ts.length = Ds.length
  | D :: Ds, a :: as, t :: ts, h => by rw [List.length_cons, List.length_cons, everywhere_length Ds as ts h.2]
  | [], [], [], _ => rfl
  | [], [], _ :: _, h => h.elim
  | [], _ :: _, _, h => h.elim
  | _ :: _, [], _, h => h.elim
  | _ :: _, _ :: _, [], h => h.elim

/-- For a model made of regularised modules and of deformables that need no backward flow, with losses
that are smooth for all points: the total is defined and smooth for all values of the descriptors and
momenta. -/
theorem C94_regular {Ds : List (Deformable d G)} {ms : List (DefModule d)} {as : List (Attach G T)} {lam : ℝ} {M : RegModel d G T}
    (hnew : RegModel.new Ds ms as none lam .sum = .ok M) (hb : ∀ D ∈ Ds, D.backward = none) {D : Deformable d G} (hD : D ∈ Ds) (hd : 0 < D.n * d)
    (hr : DefModule.AllRegular ms) (hms : ms ≠ []) (hp : PlainMembers ms) {k : Nat} {targets : List T} (hloss : SmoothEverywhere k Ds as targets)
    {init : E → List (Mfd d)} (hkind : ∀ e, List.Forall₂ Mfd.SameKind (init e) M.init) (hinit : ∀ e, SmoothEntries k e init) (s : Solver) (it : Nat) :
    ∃ f : E → ℝ, ContDiff ℝ k f ∧ ∀ e, (M.setValues (init e) none).value targets (.fixed s) it = .ok (f e) := by
  have hM : M = ⟨Ds, ms, as, Ds.map (fun D => D.silent.manifold) ++ DefModule.manifolds ms, none, lam, .sum⟩ := by
    unfold RegModel.new at hnew
    split at hnew
    · cases hnew
    · dsimp only at hnew
      split at hnew
      · cases hnew; rfl
      · cases hnew
  subst hM
  dsimp only at hkind
  set M : RegModel d G T := ⟨Ds, ms, as, Ds.map (fun D => D.silent.manifold) ++ DefModule.manifolds ms, none, lam, .sum⟩ with hMdef
  have hrm : (DefModule.compound ms).Regular := by rw [DefModule.Regular]; exact ⟨hms, hr⟩
  have hreg : (DefModule.compound (Ds.map Deformable.silent ++ ms)).Regular := by
    rw [DefModule.Regular]
    refine ⟨fun h => ?_, allRegular_append (silents_regular Ds) hr⟩
    rw [List.append_eq_nil_iff, List.map_eq_nil_iff] at h
    rw [h.1] at hD; cases hD
  have hdrop : M.init.drop M.deformables.length = DefModule.manifolds ms := by
    rw [hMdef]
    dsimp only
    rw [List.drop_append_of_le_length (by simp), List.drop_of_length_le (by simp), List.nil_append]
  have hkept : M.Kept := by
    unfold RegModel.Kept
    rw [hdrop, DefModule.manifold]
    rfl
  have hlen : M.deformables.length ≤ M.init.length := by
    rw [hMdef]; simp
  have h1 : fillModules M.modules (M.init.drop M.deformables.length) = .ok ms := by
    rw [hdrop]; exact fillModules_self ms
  have h2 : fillDeformables M.deformables M.init = .ok Ds := by
    rw [hMdef]; exact fillDeformables_self _ Ds
  have hall : ∀ e, SmPy k e fun e => (M.setValues (init e) none).value targets (.fixed s) it := fun e => by
    obtain ⟨ms', Ds', a1, a2, a3, a4⟩ := joined_rows hkept hlen (hkind e) h1 h2
    have hreg' := regular_rowsMod hreg (Mfd.compound (init e)).rows
    have hpl : PlainMembers (Ds'.map Deformable.silent ++ ms') := by
      rw [rowsMod_compound] at a4
      rw [DefModule.compound.inj a4]
      exact plainMembers_withCot _ _ (plainMembers_withGd _ _ (silents_plain Ds hp))
    have hN : 0 < numCoords (.compound (Ds'.map Deformable.silent ++ ms')) := by
      rw [a4, numCoords_rowsMod]; exact silents_numCoords hD hd ms
    obtain ⟨r, hs, -⟩ := C69_solver _ (by rw [a4]; exact hreg') hpl hN s it one_ne_zero
    have hl' := everywhere_alike a3 _ _ hloss
    obtain ⟨a, -, ha⟩ := lossAt_smooth (E := E) (e₀ := e) (n := k) (x := fun _ => gdRow r.module) (fun _ => contDiffAt_const) 0 Ds' as targets 0 (everywhere_read _ _ _ _ _ _ hl')
    have hv : ∃ v, (M.setValues (init e) none).value targets (.fixed s) it = .ok v := by
      obtain ⟨L, hL, -⟩ := same_compound (moments_same hs)
      have h3 := moments_same hs (gdRow r.module, cotRow r.module)
      rw [rowsMod_self] at h3
      obtain ⟨gs, b1, b2⟩ := lossAt_spec Ds' as targets ((shape_readAll _ _ _ _ _ _).1 (shape_of_losses _ _ _ (everywhere_read 0 0 _ _ _ 0 hl'))) (gdRow r.module) (cotRow r.module) 0
        (DefModule.withCotAll (cotRow r.module) (Mfd.sizeAll (DefModule.manifolds (Ds'.map Deformable.silent)))
          (DefModule.withGdAll (gdRow r.module) (Mfd.sizeAll (DefModule.manifolds (Ds'.map Deformable.silent))) ms')) ha.self_of_nhds
      refine ⟨_, value_parts (M := M.setValues (init e) none) rfl (everywhere_length _ _ _ hloss) a1 a2 hs ?_ (c := some r.costs.sum) (m := r.module) rfl (gs := gs) ?_ b2⟩
      · rw [alike_backward a3, List.any_eq_false]
        intro D hD
        rw [hb D hD]; simp
      · rw [toGeometries_of_reset Ds' h3, rowsMod_compound, DefModule.members, DefModule.withGdAll_append, DefModule.withCotAll_append,
          DefModule.manifolds_withGd, Mfd.size_withGdAll, Nat.zero_add]
        exact b1
    obtain ⟨v, hv⟩ := hv
    cases hev : (M.setValues (init e) none).evaluate none targets (.fixed s) it [] with
    | error _ => rw [RegModel.value, hev] at hv; cases hv
    | ok r₀ =>
      have hk0 : (Mfd.compound ((init e).drop M.deformables.length)).SameKind (DefModule.compound M.modules).manifold :=
        (sameKind_all (List.forall₂_drop _ (hkind e))).trans hkept
      have hflip : ∀ {A B : List (Mfd d)}, List.Forall₂ Mfd.SameKind A B → List.Forall₂ Mfd.SameKind B A := fun h => h.flip.imp fun _ _ h => Eq.symm h
      have htr : ∀ {A B C : List (Mfd d)}, List.Forall₂ Mfd.SameKind A B → List.Forall₂ Mfd.SameKind B C → List.Forall₂ Mfd.SameKind A C := by
        intro A B C h
        induction h generalizing C with
        | nil => exact id
        | cons h _ ih =>
          intro h'
          cases h' with
          | cons h1 h2 => exact .cons (h.trans h1) (ih h2)
      refine C94_partial (M := M) (k := k) (hrm.smooth _) (by rw [hMdef]; simp) (fun e' => htr (hkind e') (hflip (hkind e))) (hinit e)
        (by rw [(hkind e).length_eq]; exact hlen) hk0 hev ?_
      obtain ⟨-, ms'', Ds'', c1, c2, r', c3, -, c, m, c5, c6⟩ := evaluate_parts rfl hev
      have e1 : Ds'' = Ds' := Except.ok.inj (c2.symm.trans a2)
      subst e1
      obtain ⟨x, y, hxy⟩ := leave_same ((reduceCost_same c5).trans (moments_same c3))
      rw [c6, hxy]
      exact everywhere_read _ _ _ _ _ _ hl'
  have hv : ∀ e, ∃ v, (M.setValues (init e) none).value targets (.fixed s) it = .ok v := fun e => by
    obtain ⟨g, -, h⟩ := hall e
    exact ⟨_, h.self_of_nhds⟩
  choose f hf using hv
  refine ⟨f, contDiff_iff_contDiffAt.2 fun e => ?_, hf⟩
  obtain ⟨g, hg, hge⟩ := hall e
  refine hg.congr_of_eventuallyEq ?_
  filter_upwards [hge] with e' he'
  exact Except.ok.inj ((hf e').symm.trans he')

/-! ## Learned controls: everywhere -/

theorem fitsAll_padded (Ds : List (Deformable d G)) {ms : List (DefModule d)} {l : List (Ctrl d)} (h : DefModule.FitsAll ms l) :
    DefModule.FitsAll (Ds.map Deformable.silent ++ ms) (List.replicate Ds.length .none ++ l) := by
  induction Ds with
  | nil => exact h
  | cons D Ds ih =>
    rw [List.map_cons, List.length_cons, List.replicate_succ, List.cons_append, List.cons_append, DefModule.FitsAll]
    exact ⟨_, _, rfl, by rw [Deformable.silent, DefModule.Fits]; trivial, ih⟩

/-- For deformables that need no backward flow and modules that can take any controls of the right
shape, with losses that are smooth for all points: the total is defined and smooth for all values of
the learned controls, the descriptors and the momenta. -/
theorem C94_learned {Ds : List (Deformable d G)} {ms : List (DefModule d)} {as : List (Attach G T)} {lam : ℝ} {M : RegModel d G T}
    (hnew : RegModel.new Ds ms as none lam .sum = .ok M) (hb : ∀ D ∈ Ds, D.backward = none) {D : Deformable d G} (hD : D ∈ Ds) (hd : 0 < D.n * d)
    (hr : DefModule.AllSettable ms) {k : Nat} (hsm : (DefModule.compound ms).Smooth (k + 1)) (hp : PlainMembers ms) {targets : List T}
    (hloss : SmoothEverywhere k Ds as targets) {init : E → List (Mfd d)} (hkind : ∀ e, List.Forall₂ Mfd.SameKind (init e) M.init)
    (hinit : ∀ e, SmoothEntries k e init) {s : Solver} {N : Nat} {cs : List (List (E → Ctrl d))}
    (hl : cs.length = N ∨ N < cs.length ∧ s.stages * N ≤ cs.length) (hfit : ∀ e, ∀ l ∈ cs, DefModule.FitsAll ms (l.map fun c => c e))
    (hcs : ∀ e, ∀ l ∈ cs, ∀ c ∈ l, SmCtrl k e c) (it : Nat) :
    ∃ f : E → ℝ, ContDiff ℝ k f ∧ ∀ e, (M.setValues (init e) (some (N, cs.map fun l => l.map fun c => c e))).value targets (.fixed s) it = .ok (f e) := by
  have hM : M = ⟨Ds, ms, as, Ds.map (fun D => D.silent.manifold) ++ DefModule.manifolds ms, none, lam, .sum⟩ := by
    unfold RegModel.new at hnew
    split at hnew
    · cases hnew
    · dsimp only at hnew
      split at hnew
      · cases hnew; rfl
      · cases hnew
  obtain ⟨values, hval⟩ : ∃ values : E → RegModel d G T, ∀ e, values e = M.setValues (init e) (some (N, cs.map fun l => l.map fun c => c e)) := ⟨_, fun _ => rfl⟩
  simp only [← hval]
  have hdef : M.deformables = Ds := by rw [hM]
  have hmod : M.modules = ms := by rw [hM]
  have hatt : M.attachments = as := by rw [hM]
  have hred : M.reduce = .sum := by rw [hM]
  have hdrop : M.init.drop M.deformables.length = DefModule.manifolds ms := by
    rw [hM]
    dsimp only
    rw [List.drop_append_of_le_length (by simp), List.drop_of_length_le (by simp), List.nil_append]
  have hkept : M.Kept := by
    unfold RegModel.Kept
    rw [hdrop, hmod, DefModule.manifold]
    rfl
  have hlen : M.deformables.length ≤ M.init.length := by rw [hM]; simp
  have h1 : fillModules M.modules (M.init.drop M.deformables.length) = .ok ms := by rw [hdrop, hmod]; exact fillModules_self ms
  have h2 : fillDeformables M.deformables M.init = .ok Ds := by rw [hM]; exact fillDeformables_self _ Ds
  have hset : (DefModule.compound (Ds.map Deformable.silent ++ ms)).Settable := by
    rw [DefModule.Settable]
    refine ⟨fun h => ?_, allSettable_append (silents_settable Ds) hr⟩
    rw [List.append_eq_nil_iff, List.map_eq_nil_iff] at h
    rw [h.1] at hD; cases hD
  have hflip : ∀ {A B : List (Mfd d)}, List.Forall₂ Mfd.SameKind A B → List.Forall₂ Mfd.SameKind B A := fun h => h.flip.imp fun _ _ h => Eq.symm h
  have htr : ∀ {A B C : List (Mfd d)}, List.Forall₂ Mfd.SameKind A B → List.Forall₂ Mfd.SameKind B C → List.Forall₂ Mfd.SameKind A C := by
    intro A B C h
    induction h generalizing C with
    | nil => exact id
    | cons h _ ih =>
      intro h'
      cases h' with
      | cons h1 h2 => exact .cons (h.trans h1) (ih h2)
  have hall : ∀ e, SmPy k e fun e => (values e).value targets (.fixed s) it := fun e => by
    obtain ⟨ms', Ds', a1, a2, a3, a4⟩ := joined_rows hkept hlen (hkind e) h1 h2
    have a4' := a4
    rw [rowsMod_compound] at a4'
    have hL := DefModule.compound.inj a4'
    have hpl : PlainMembers (Ds'.map Deformable.silent ++ ms') := by
      rw [hL]; exact plainMembers_withCot _ _ (plainMembers_withGd _ _ (silents_plain Ds hp))
    have hN : 0 < numCoords (.compound (Ds'.map Deformable.silent ++ ms')) := by
      rw [a4, numCoords_rowsMod]; exact silents_numCoords hD hd ms
    have hset' : (DefModule.compound (Ds'.map Deformable.silent ++ ms')).Settable := by
      rw [a4, rowsMod]; exact settable_withCot _ _ _ (settable_withGd _ _ _ hset)
    have hpad : padControls Ds'.length ((values e).learned.map Prod.snd)
        = some ((cs.map fun l => l.map fun c => c e).map fun l => .list (List.replicate Ds.length .none ++ l)) := by
      rw [hval, alike_length a3]; rfl
    have hst : (values e).steps it = N := by rw [hval]; rfl
    obtain ⟨r, hs⟩ := C69_controls _ hset' hpl hN s N one_ne_zero
      ((cs.map fun l => l.map fun c => c e).map fun l => .list (List.replicate Ds.length .none ++ l)) (by simpa using hl) (fun c hc => by
        obtain ⟨l', hl', rfl⟩ := List.mem_map.1 hc
        obtain ⟨l, hmem, rfl⟩ := List.mem_map.1 hl'
        rw [DefModule.Fits]
        refine ⟨_, rfl, ?_⟩
        rw [hL]
        exact fits_withCotAll _ _ _ _ (fits_withGdAll _ _ _ _ (fitsAll_padded Ds (hfit e l hmem))))
    have hsame : Same r.module (.compound (Ds'.map Deformable.silent ++ ms')) :=
      shoot_same (s := .fixed s) (it := N) (t1 := 1)
        (controls := some ((cs.map fun l => l.map fun c => c e).map fun l => .list (List.replicate Ds.length .none ++ l))) (r := (r, some r.costs))
        (by unfold shoot shootOde; dsimp only; rw [hs])
    have hl' := everywhere_alike a3 _ _ hloss
    obtain ⟨a, -, ha⟩ := lossAt_smooth (E := E) (e₀ := e) (n := k) (x := fun _ => gdRow r.module) (fun _ => contDiffAt_const) 0 Ds' as targets 0 (everywhere_read _ _ _ _ _ _ hl')
    have hgeo : ∃ gs, toGeometries Ds' r.module.members = .ok gs ∧ attachmentCost as gs targets = .ok (a e) := by
      have h3 := hsame (gdRow r.module, cotRow r.module)
      rw [rowsMod_self] at h3
      obtain ⟨gs, b1, b2⟩ := lossAt_spec Ds' as targets ((shape_readAll _ _ _ _ _ _).1 (shape_of_losses _ _ _ (everywhere_read 0 0 _ _ _ 0 hl'))) (gdRow r.module) (cotRow r.module) 0
        (DefModule.withCotAll (cotRow r.module) (Mfd.sizeAll (DefModule.manifolds (Ds'.map Deformable.silent)))
          (DefModule.withGdAll (gdRow r.module) (Mfd.sizeAll (DefModule.manifolds (Ds'.map Deformable.silent))) ms')) ha.self_of_nhds
      refine ⟨gs, ?_, b2⟩
      rw [toGeometries_of_reset Ds' h3, rowsMod_compound, DefModule.members, DefModule.withGdAll_append, DefModule.withCotAll_append,
          DefModule.manifolds_withGd, Mfd.size_withGdAll, Nat.zero_add]
      exact b1
    obtain ⟨gs, b1, b2⟩ := hgeo
    have hback : (Ds'.any fun D => D.backward.isSome) = false := by
      rw [alike_backward a3, List.any_eq_false]
      intro D hD
      rw [hb D hD]; simp
    have q1 : fillModules (values e).modules ((values e).init.drop (values e).deformables.length) = .ok ms' := by rw [hval]; exact a1
    have q2 : fillDeformables (values e).deformables (values e).init = .ok Ds' := by rw [hval]; exact a2
    have q3 : shootOde s ((values e).steps it) 1 (padControls Ds'.length ((values e).learned.map Prod.snd)) (.compound (Ds'.map Deformable.silent ++ ms')) = .ok r := by
      rw [hpad, hst, shootOde]; exact hs
    have qred : (values e).reduce = .sum := by rw [hval]; exact hred
    have q0 : targets.length = (values e).deformables.length := by rw [hval]; exact (everywhere_length _ _ _ hloss).trans (by rw [← hdef]; rfl)
    have q7 : attachmentCost (values e).attachments gs targets = .ok (a e) := by rw [hval]; exact hatt ▸ b2
    have hv := valueC_parts (it := it) q0 q1 q2 q3 hback (c := some r.costs.sum) (m := r.module) (by rw [qred]; rfl) b1 q7
    cases hev : (values e).evaluate none targets (.fixed s) it [] with
    | error _ => rw [RegModel.value, hev] at hv; cases hv
    | ok r₀ =>
      obtain ⟨D₀, hD₀⟩ : ∃ D₀, (values e).computeDeformed (.fixed s) it false 1 = .ok D₀ := by
        unfold RegModel.computeDeformed
        rw [q1, q2]
        dsimp only
        unfold Imodal.computeDeformed
        simp only [shoot, q3, hback, Bool.false_eq_true, if_false, b1]
        exact ⟨_, rfl⟩
      refine C94_controls (M := M) (k := k) (by rw [hmod]; exact hsm) (by rw [hred]; simp) (fun e' => htr (hkind e') (hflip (hkind e))) (hinit e)
        (by rw [(hkind e).length_eq]; exact hlen) (hcs e) hval ?_ hev hD₀ ?_
      · rw [hval]
        exact (sameKind_all (List.forall₂_drop _ (hkind e))).trans hkept
      · obtain ⟨ms'', Ds'', c1, c2, r', c3, -, -, c6⟩ := deformed_parts hD₀
        have e1 : Ds'' = Ds' := Except.ok.inj (c2.symm.trans q2)
        have e2 : ms'' = ms' := Except.ok.inj (c1.symm.trans q1)
        subst e1 e2
        have e3 : r' = r := Except.ok.inj (c3.symm.trans q3)
        subst e3
        obtain ⟨x, y, hxy⟩ := leave_same hsame
        rw [c6 rfl, hxy, hatt]
        exact everywhere_read _ _ _ _ _ _ hl'
  have hv : ∀ e, ∃ v, (values e).value targets (.fixed s) it = .ok v := fun e => by
    obtain ⟨g, -, h⟩ := hall e
    exact ⟨_, h.self_of_nhds⟩
  choose f hf using hv
  refine ⟨f, contDiff_iff_contDiffAt.2 fun e => ?_, hf⟩
  obtain ⟨g, hg, hge⟩ := hall e
  refine hg.congr_of_eventuallyEq ?_
  filter_upwards [hge] with e' he'
  exact Except.ok.inj ((hf e').symm.trans he')

/-! ## The pointwise distance -/

/-- A deformable that hands its points on as they are. -/
def Deformable.Plainly (D : Deformable d (List (Vec d))) : Prop := ∀ x : Fin D.n → Vec d, D.toDeformed ⟨D.n, x⟩ = .ok (List.ofFn x)

theorem tdist_pos {x y : Vec d} (h : x ≠ y) : 0 < sqDistance x y := by
  unfold sqDistance
  obtain ⟨c, hc⟩ := Function.ne_iff.1 h
  exact Finset.sum_pos' (fun _ _ => sq_nonneg _) ⟨c, Finset.mem_univ _, by have := sub_ne_zero.2 hc; positivity⟩

theorem pointAttach_call {N : Nat} (w : ℝ) (x t : Fin N → Vec d) : (pointAttach w).call (List.ofFn x) (List.ofFn t) = .ok (w * ∑ i, tdist (x i) (t i)) := by
  have h : pointwiseLoss (List.ofFn x) (List.ofFn t) = .ok (∑ i, tdist (x i) (t i)) := by
    unfold pointwiseLoss
    rw [if_pos (by simp), show List.zipWith tdist (List.ofFn x) (List.ofFn t) = List.ofFn fun i => tdist (x i) (t i) from
      List.ext_getElem (by simp) fun i _ _ => by simp, List.sum_ofFn]
  unfold pointAttach Attach.call
  rw [Attach.loss, h]
  rfl

/-- The weighted pointwise distance is smooth where no point is on its target. -/
theorem C94_pointwise (D : Deformable d (List (Vec d))) (hD : D.Plainly) (w : ℝ) (t : Fin D.n → Vec d) (ht : ∀ i, D.gd i ≠ t i) :
    SmPy n D.gd fun x => (D.toDeformed ⟨D.n, x⟩).bind fun g => (pointAttach w).call g (List.ofFn t) := by
  refine ⟨fun x => w * ∑ i, Real.sqrt (∑ c, (x i c - t i c) ^ 2), ?_, Eventually.of_forall fun x => ?_⟩
  · refine contDiffAt_const.mul (ContDiffAt.sum fun i _ => ?_)
    refine ContDiffAt.sqrt (ContDiffAt.sum fun c _ => ?_) (tdist_pos (ht i)).ne'
    have h1 : ContDiffAt ℝ n (fun x : Fin D.n → Vec d => x i c) D.gd :=
      contDiffAt_pi.1 (contDiffAt_pi.1 contDiffAt_id i) c
    exact (h1.sub contDiffAt_const).pow 2
  · dsimp only
    rw [hD x]
    exact pointAttach_call w x t

/-- On the target it is not even differentiable. -/
theorem C94_pointwise_corner (D : Deformable (d + 1) (List (Vec (d + 1)))) (hD : D.Plainly) {w : ℝ} (hw : w ≠ 0) (i : Fin D.n) :
    ¬SmPy 1 D.gd fun x => (D.toDeformed ⟨D.n, x⟩).bind fun g => (pointAttach w).call g (List.ofFn D.gd) := by
  rintro ⟨g, hg, hge⟩
  let line : ℝ → Fin D.n → Vec (d + 1) := fun u j c => D.gd j c + if j = i ∧ c = 0 then u else 0
  have hline : DifferentiableAt ℝ line 0 := by
    refine differentiableAt_pi.2 fun j => differentiableAt_pi.2 fun c => ?_
    by_cases h : j = i ∧ c = 0
    · simp only [line, if_pos h]; fun_prop
    · simp only [line, if_neg h]; fun_prop
  have h0 : line 0 = D.gd := by funext j c; simp [line]
  have hd : DifferentiableAt ℝ (fun u => g (line u)) 0 := DifferentiableAt.comp (g := g) 0 (by rw [h0]; exact hg.differentiableAt one_ne_zero) hline
  have hev : (fun u => g (line u)) =ᶠ[𝓝 0] fun u => w * |u| := by
    have hc : Tendsto line (𝓝 0) (𝓝 D.gd) := by rw [← h0]; exact hline.continuousAt
    filter_upwards [hc.eventually hge] with u hu
    rw [hD (line u)] at hu
    rw [← Except.ok.inj ((pointAttach_call w (line u) D.gd).symm.trans hu)]
    congr 1
    have hone : ∀ j, tdist (line u j) (D.gd j) = if j = i then |u| else 0 := fun j => by
      unfold tdist sqDistance
      by_cases hj : j = i
      · rw [if_pos hj, Fin.sum_univ_succ]
        have : ∀ c : Fin d, (line u j c.succ - D.gd j c.succ) ^ 2 = 0 := fun c => by
          simp [line, Fin.succ_ne_zero]
        simp only [this, Finset.sum_const_zero, add_zero]
        simp [line, hj, Real.sqrt_sq_eq_abs]
      · rw [if_neg hj]
        simp [line, hj]
    simp only [hone, Finset.sum_ite_eq', Finset.mem_univ, if_true]
  have h2 : DifferentiableAt ℝ (fun u : ℝ => w * |u|) 0 := hd.congr_of_eventuallyEq hev.symm
  have h3 : DifferentiableAt ℝ (fun u : ℝ => w⁻¹ * (w * |u|)) 0 := h2.const_mul _
  simp only [inv_mul_cancel_left₀ hw] at h3
  exact not_differentiableAt_abs_zero h3

/-! ## Cases -/

theorem sm_flatVecs {N : Nat} {g : E → Fin N → Vec d} (hg : ∀ i c, ContDiffAt ℝ n (fun e => g e i c) e₀) (j : Nat) :
    ContDiffAt ℝ n (fun e => (flatVecs (g e)).getD j 0) e₀ := by
  by_cases hj : j < N * d
  · have : ∀ e, (flatVecs (g e)).getD j 0 = g e (Fin.divNat ⟨j, hj⟩) (Fin.modNat ⟨j, hj⟩) := fun e => by
      rw [List.getD_eq_getElem _ _ (by rw [length_flatVecs]; exact hj)]
      simp [flatVecs]
    simp only [this]
    exact hg _ _
  · have : ∀ e, (flatVecs (g e)).getD j 0 = 0 := fun e => List.getD_eq_default _ _ (by rw [length_flatVecs]; omega)
    simp only [this]
    exact contDiffAt_const

theorem sm_appendD {a b : E → List ℝ} {N : Nat} (hN : ∀ e, (a e).length = N) (ha : ∀ j, ContDiffAt ℝ n (fun e => (a e).getD j 0) e₀)
    (hb : ∀ j, ContDiffAt ℝ n (fun e => (b e).getD j 0) e₀) (j : Nat) : ContDiffAt ℝ n (fun e => (a e ++ b e).getD j 0) e₀ := by
  by_cases hj : j < N
  · have : ∀ e, (a e ++ b e).getD j 0 = (a e).getD j 0 := fun e => List.getD_append _ _ _ _ (by rw [hN]; exact hj)
    simp only [this]
    exact ha j
  · have : ∀ e, (a e ++ b e).getD j 0 = (b e).getD (j - N) 0 := fun e => by
      rw [List.getD_append_right _ _ _ _ (by rw [hN]; omega), hN]
    simp only [this]
    exact hb _

/-- One landmark, and a loss which is the squared distance to its target. -/
def exampleLandmark : Deformable 2 (Points 2) := ⟨1, 0, 0, none, fun p => .ok p⟩
def exampleSquares : Attach (Points 2) (Vec 2) := .simple 1 fun g t => .ok (∑ i, ∑ c, (g.x i c - t c) ^ 2)
def exampleTranslation : DefModule 2 := .implicit0 ⟨.torch, (0 : Fin 1 → Vec 2), 0, 1, 1, 1, 0⟩

/-- One landmark carried by a module of one regularised translation, compared with its target by the
squared distance: the total is a smooth function of the four vectors of momenta and positions. -/
example (t : Vec 2) (s : Solver) (it : Nat) : ∃ M : RegModel 2 (Points 2) (Vec 2),
    RegModel.new [exampleLandmark] [exampleTranslation] [exampleSquares] none 3 .sum = .ok M ∧
    ∃ f : ((Fin 1 → Vec 2) × (Fin 1 → Vec 2)) × ((Fin 1 → Vec 2) × (Fin 1 → Vec 2)) → ℝ, ContDiff ℝ (5 : Nat) f ∧
      ∀ e, (M.setValues [.landmarks e.1.1 e.1.2, .landmarks e.2.1 e.2.2] none).value [t] (.fixed s) it = .ok (f e) := by
  obtain ⟨M, hM⟩ : ∃ M, RegModel.new [exampleLandmark] [exampleTranslation] [exampleSquares] none 3 .sum = .ok M := ⟨_, rfl⟩
  refine ⟨M, hM, ?_⟩
  have hr : DefModule.AllRegular [exampleTranslation] := by simp [DefModule.AllRegular, DefModule.Regular, exampleTranslation]
  have hd : 0 < exampleLandmark.n * 2 := by simp [exampleLandmark]
  have hb : ∀ D ∈ [exampleLandmark], D.backward = none := by simp [exampleLandmark]
  have hinit : M.init = [.landmarks (n := 1) 0 0, .landmarks (n := 1) 0 0] := by cases hM; rfl
  have key := C94_regular (E := ((Fin 1 → Vec 2) × (Fin 1 → Vec 2)) × ((Fin 1 → Vec 2) × (Fin 1 → Vec 2))) hM hb (List.mem_cons_self ..) hd hr
    (by simp) (k := 5) (targets := [t]) (init := fun e => [.landmarks e.1.1 e.1.2, .landmarks e.2.1 e.2.2])
  refine key ?_ ⟨fun x => ?_, trivial⟩ (fun e => ?_) (fun e j => ?_) s it
  · intro m hm
    simp only [exampleTranslation, DefModule.manifolds, DefModule.manifold, Implicit0.manifold, List.mem_cons, List.not_mem_nil, or_false] at hm
    subst hm; exact Or.inr rfl
  · refine ⟨fun x => 1 * ∑ i, ∑ c, (x i c - t c) ^ 2, ?_, Eventually.of_forall fun x => rfl⟩
    fun_prop
  · rw [hinit]; exact .cons rfl (.cons rfl .nil)
  · simp only [Mfd.unrollGd, Mfd.unrollGdAll, Mfd.unrollCot, Mfd.unrollCotAll, rowOf]
    constructor
    · simp only [List.flatten_append, List.flatten_cons, List.flatten_nil, List.append_nil]
      exact sm_appendD (fun e => length_flatVecs _) (sm_flatVecs fun i c => by fun_prop) (sm_flatVecs fun i c => by fun_prop) j
    · simp only [List.flatten_append, List.flatten_cons, List.flatten_nil, List.append_nil]
      exact sm_appendD (fun e => length_flatVecs _) (sm_flatVecs fun i c => by fun_prop) (sm_flatVecs fun i c => by fun_prop) j

/-- The same landmark and module, carried by controls that are learned: three steps, with one vector
for each. -/
example (t : Vec 2) (s : Solver) (it : Nat) : ∃ M : RegModel 2 (Points 2) (Vec 2),
    RegModel.new [exampleLandmark] [exampleTranslation] [exampleSquares] none 3 .sum = .ok M ∧
    ∃ f : (Fin 3 → Fin 1 → Vec 2) → ℝ, ContDiff ℝ (5 : Nat) f ∧
      ∀ u, (M.setValues [.landmarks (n := 1) 0 0, .landmarks (n := 1) 0 0] (some (3, [[.vecs (u 0)], [.vecs (u 1)], [.vecs (u 2)]]))).value [t] (.fixed s) it
        = .ok (f u) := by
  obtain ⟨M, hM⟩ : ∃ M, RegModel.new [exampleLandmark] [exampleTranslation] [exampleSquares] none 3 .sum = .ok M := ⟨_, rfl⟩
  refine ⟨M, hM, ?_⟩
  have hr : DefModule.AllSettable [exampleTranslation] := by simp [DefModule.AllSettable, DefModule.Settable, exampleTranslation]
  have hd : 0 < exampleLandmark.n * 2 := by simp [exampleLandmark]
  have hb : ∀ D ∈ [exampleLandmark], D.backward = none := by simp [exampleLandmark]
  have hinit : M.init = [.landmarks (n := 1) 0 0, .landmarks (n := 1) 0 0] := by cases hM; rfl
  have key := C94_learned (E := Fin 3 → Fin 1 → Vec 2) hM hb (List.mem_cons_self ..) hd hr (k := 5)
    (by simp [DefModule.Smooth, DefModule.SmoothParts, DefModule.AllSmoothParts, exampleTranslation]) (targets := [t])
    (init := fun _ => [.landmarks (n := 1) 0 0, .landmarks (n := 1) 0 0]) (s := s) (N := 3)
    (cs := [[fun u => .vecs (u 0)], [fun u => .vecs (u 1)], [fun u => .vecs (u 2)]])
  refine key ?_ ⟨fun x => ?_, trivial⟩ (fun e => ?_) (fun e j => ⟨contDiffAt_const, contDiffAt_const⟩) (Or.inl rfl) (fun e l hl => ?_) (fun e l hl c hc => ?_) it
  · intro m hm
    simp only [exampleTranslation, DefModule.manifolds, DefModule.manifold, Implicit0.manifold, List.mem_cons, List.not_mem_nil, or_false] at hm
    subst hm; exact Or.inr rfl
  · refine ⟨fun x => 1 * ∑ i, ∑ c, (x i c - t c) ^ 2, ?_, Eventually.of_forall fun x => rfl⟩
    fun_prop
  · rw [hinit]; exact .cons rfl (.cons rfl .nil)
  · simp only [List.mem_cons, List.not_mem_nil, or_false] at hl
    rcases hl with rfl | rfl | rfl <;> simp [DefModule.FitsAll, DefModule.Fits, exampleTranslation]
  · simp only [List.mem_cons, List.not_mem_nil, or_false] at hl
    rcases hl with rfl | rfl | rfl <;>
    · simp only [List.mem_cons, List.not_mem_nil, or_false] at hc
      subst hc
      exact .vecs _ fun i c => by fun_prop

end
end Imodal
