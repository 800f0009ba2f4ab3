import Verif.Lemmas.SmoothLearn
import Verif.Props.C34
/-!
# Registrations with learned controls, near some values of the controls
-/
set_option autoImplicit false
namespace Imodal
noncomputable section
open Matrix Filter Topology
variable {d : Nat} {G T : Type} {E : Type} [NormedAddCommGroup E] [NormedSpace ℝ E] {n : WithTop ℕ∞} {e₀ : E}

mutual
theorem smoothParts_le {J : Prop} {k : WithTop ℕ∞} (hk : k ≤ n) : (m : DefModule d) → m.SmoothParts n J → m.SmoothParts k J
  | .translations _, h => h
  | .implicit0 _, h => h
  | .oriented _, h => h
  | .constrained _, h => ⟨h.1.of_le hk, h.2.of_le hk⟩
  | .globalTranslation _, h => h
  | .linear _, h => h
  | .implicit1 _, h => h
  | .divFree _, h => h
  | .arap _, h => h
  | .silent _, h => h
  | .compound ms, h => ⟨h.1, allSmoothParts_le hk ms h.2⟩
theorem allSmoothParts_le {J : Prop} {k : WithTop ℕ∞} (hk : k ≤ n) : (ms : List (DefModule d)) → DefModule.AllSmoothParts n J ms → DefModule.AllSmoothParts k J ms
  | [], h => h
  | m :: ms, h => ⟨smoothParts_le hk m h.1, allSmoothParts_le hk ms h.2⟩
end

/-! ## The costs added up after shooting -/

theorem fill_at_state {m μ : DefModule d} (hμ : SameGd μ m) (q : Row) :
    μ.fillGdFrom (m.withGd q 0).manifold = .ok (μ.withGd (m.withGd q 0).manifold.rows.1 0) ∧
    (μ.withGd (m.withGd q 0).manifold.rows.1 0).reset = (m.withGd q 0).reset := by
  refine ⟨fillGdFrom_fits (fits_of_sameGd ((sameGd_withGd m q).trans hμ.symm).same (fits_self _)), ?_⟩
  rw [hμ]
  congr 1
  refine DefModule.withGd_congr _ fun j hj => ?_
  have := congrFun (gdRow_withGd m q) (0 + j)
  rw [gdRow] at this
  refine Eq.trans this ?_
  rw [cut, if_pos (by rw [numCoords_eq]; omega)]

theorem totalLoop_smooth {J : Prop} {m : DefModule d} (hm : m.SmoothParts n J) (x : E → Row × Row) {L : List (E → Row)} (hL : ∀ g ∈ L, SmRow n e₀ g)
    {cs : List (E → Ctrl d)} (hcs : ∀ c ∈ cs, SmCtrl n e₀ c) (k : Nat) : ∀ (i : Nat) {μ₀ : DefModule d}, SameGd μ₀ (rowsMod m (x e₀)) →
    (∃ r, totalLoop (L.map fun g => ((rowsMod m (x e₀)).withGd (g e₀) 0).manifold) (cs.map fun c => c e₀) i k μ₀ = .ok r) →
    ∃ a : E → ℝ, ContDiffAt ℝ n a e₀ ∧ ∀ᶠ e in 𝓝 e₀, ∀ μ, SameGd μ (rowsMod m (x e)) →
      ∃ m', totalLoop (L.map fun g => ((rowsMod m (x e)).withGd (g e) 0).manifold) (cs.map fun c => c e) i k μ = .ok (a e, m') := by
  induction k with
  | zero => exact fun i μ₀ _ _ => ⟨fun _ => 0, contDiffAt_const, .of_forall fun e μ _ => ⟨μ, by rw [totalLoop]⟩⟩
  | succ k ih =>
    intro i μ₀ hμ₀ hok
    obtain ⟨r, hok⟩ := hok
    rw [totalLoop, List.getElem?_map, List.getElem?_map] at hok
    cases h1 : L[i]? with
    | none => rw [h1] at hok; cases hok
    | some g =>
      cases h2 : cs[i]? with
      | none =>
        rw [h1, h2] at hok
        simp only [Option.map_some, Option.map_none, (fill_at_state hμ₀ _).1] at hok
        cases hok
      | some c =>
        rw [h1, h2] at hok
        simp only [Option.map_some, (fill_at_state hμ₀ _).1, fill_of_reset (fill_at_state hμ₀ _).2] at hok
        cases h3 : ((rowsMod m (x e₀)).withGd (g e₀) 0).fillControls (c e₀) with
        | error _ => rw [h3] at hok; cases hok
        | ok m₂ =>
          rw [h3] at hok
          dsimp only at hok
          cases h4 : m₂.cost with
          | error _ => rw [h4] at hok; cases hok
          | ok a₀ =>
            rw [h4] at hok
            dsimp only at hok
            have hs2 : SameGd m₂ (rowsMod m (x e₀)) := (sameGd_of_reset (reset_fill _ h3)).trans (sameGd_withGd _ _)
            have hrest : ∃ r, totalLoop (L.map fun g => ((rowsMod m (x e₀)).withGd (g e₀) 0).manifold) (cs.map fun c => c e₀) (i + 1) k m₂ = .ok r := by
              cases h5 : totalLoop (L.map fun g => ((rowsMod m (x e₀)).withGd (g e₀) 0).manifold) (cs.map fun c => c e₀) (i + 1) k m₂ with
              | error _ => rw [h5] at hok; cases hok
              | ok r' => exact ⟨r', rfl⟩
            obtain ⟨b, hb, hbe⟩ := ih (i + 1) hs2 hrest
            obtain ⟨v, a, -, ha, hae⟩ := ctrlEval_smooth hm (hcs c (List.mem_of_getElem? h2)) x (hL g (List.mem_of_getElem? h1)) ⟨m₂, h3⟩
            refine ⟨fun e => a e + b e, ha.add hb, ?_⟩
            filter_upwards [hbe, hae] with e hb' ⟨m', h6, h7⟩ μ hμ
            have h6 := (ctrlEval_ok h6).1
            obtain ⟨m3, h8⟩ := hb' m' ((sameGd_of_reset (reset_fill _ h6)).trans (sameGd_withGd _ _))
            refine ⟨m3, ?_⟩
            rw [totalLoop, List.getElem?_map, List.getElem?_map, h1, h2]
            simp only [Option.map_some, (fill_at_state hμ _).1, fill_of_reset (fill_at_state hμ _).2, h6, h7, h8]

/-! ## The parts of an evaluation -/

/-- The total, from the parts of the evaluation. -/
theorem valueC_parts {M : RegModel d G T} {targets : List T} (ht : targets.length = M.deformables.length) {s : Solver} {it : Nat}
    {ms : List (DefModule d)} {Ds : List (Deformable d G)} (h1 : fillModules M.modules (M.init.drop M.deformables.length) = .ok ms)
    (h2 : fillDeformables M.deformables M.init = .ok Ds) {r : Shot d}
    (h3 : shootOde s (M.steps it) 1 (padControls Ds.length (M.learned.map Prod.snd)) (.compound (Ds.map Deformable.silent ++ ms)) = .ok r)
    (h4 : (Ds.any fun D => D.backward.isSome) = false) {c : Option ℝ} {m : DefModule d}
    (h5 : reduceCost M.reduce (M.steps it) (some r.costs) (padControls Ds.length (M.learned.map Prod.snd)) r.states r.module = .ok (c, m)) {gs : List G}
    (h6 : toGeometries Ds r.module.members = .ok gs)
    {a : ℝ} (h7 : attachmentCost M.attachments gs targets = .ok a) : M.value targets (.fixed s) it = .ok (c.getD 0 + M.lam * a) := by
  unfold RegModel.value RegModel.evaluate
  rw [if_neg (by simp [ht])]
  dsimp only
  unfold RegModel.computeDeformed
  rw [h1, h2]
  dsimp only
  unfold Imodal.computeDeformed
  simp only [shoot, h3, h4, Bool.false_eq_true, if_false, if_true, h5, h6]
  unfold RegModel.leave
  dsimp only
  rw [h7]
  cases c with
  | none => simp [Except.map, totalCost, Dict.set]
  | some c => simp [Except.map, totalCost, Dict.set]

/-- What a computation of deformed geometries that returns went through. -/
theorem deformed_parts {M : RegModel d G T} {s : Solver} {it : Nat} {w : Bool} {D : Deformed d G × RegModel d G T} (h : M.computeDeformed (.fixed s) it w 1 = .ok D) :
    ∃ ms Ds, fillModules M.modules (M.init.drop M.deformables.length) = .ok ms ∧ fillDeformables M.deformables M.init = .ok Ds ∧
      ∃ r, shootOde s (M.steps it) 1 (padControls Ds.length (M.learned.map Prod.snd)) (.compound (Ds.map Deformable.silent ++ ms)) = .ok r ∧
      (Ds.any fun D => D.backward.isSome) = false ∧
      (w = true → ∃ q, reduceCost M.reduce (M.steps it) (some r.costs) (padControls Ds.length (M.learned.map Prod.snd)) r.states r.module = .ok q) ∧
      (w = false → D.2.deformables = List.zipWith Deformable.leave Ds r.module.members) := by
  unfold RegModel.computeDeformed at h
  cases h1 : fillModules M.modules (M.init.drop M.deformables.length) with
  | error _ => rw [h1] at h; cases h
  | ok ms =>
  cases h2 : fillDeformables M.deformables M.init with
  | error _ => rw [h1, h2] at h; cases h
  | ok Ds =>
  rw [h1, h2] at h
  dsimp only at h
  cases h3 : Imodal.computeDeformed Ds ms (.fixed s) (M.steps it) w (M.learned.map Prod.snd) 1 M.reduce with
  | error _ => rw [h3] at h; cases h
  | ok r =>
  rw [h3] at h
  obtain ⟨a1, -, costs, a2, a3, a4⟩ := computeDeformed_inv h3
  unfold shoot at a2
  dsimp only at a2
  cases h4 : shootOde s (M.steps it) 1 (padControls Ds.length (M.learned.map Prod.snd)) (.compound (Ds.map Deformable.silent ++ ms)) with
  | error _ => rw [h4] at a2; cases a2
  | ok r' =>
  rw [h4] at a2
  obtain ⟨e1, e2⟩ := Prod.mk.inj (Except.ok.inj a2)
  subst e1 e2
  refine ⟨ms, Ds, rfl, rfl, _, h4, ?_, fun hw => ⟨_, a3 hw⟩, fun hw => ?_⟩
  · rw [List.any_eq_false]
    intro D hD
    rw [a1 D hD]; simp
  · cases h
    unfold RegModel.leave
    dsimp only
    rw [(a4 hw).2]

theorem evaluate_deformed {M : RegModel d G T} {targets : List T} {s : SolverName} {it : Nat} {r₀ : Evaluated d G T}
    (h : M.evaluate none targets s it [] = .ok r₀) : targets.length = M.deformables.length ∧ ∃ D, M.computeDeformed s it true 1 = .ok D := by
  unfold RegModel.evaluate at h
  by_cases ht : targets.length ≠ M.deformables.length
  · rw [if_pos ht] at h; cases h
  rw [if_neg ht] at h
  refine ⟨not_not.1 ht, ?_⟩
  dsimp only at h
  cases h1 : M.computeDeformed s it true 1 with
  | error _ => rw [h1] at h; cases h
  | ok D => exact ⟨D, rfl⟩

/-! ## The deformation cost -/

theorem reduceCost_controls {red : Reduce} (h : red ≠ .totalCompound) (it : Nat) (costs : Option (List ℝ)) (cs cs' : Option (List (Ctrl d))) (states : List (Mfd d))
    (m : DefModule d) : reduceCost red it costs cs states m = reduceCost red it costs cs' states m := by
  cases red with
  | totalCompound => exact absurd rfl h
  | _ => rfl

/-- The deformation cost near a shooting with controls where it was returned. -/
theorem reduceC_smooth {m : DefModule d} {k : Nat} (hm : m.Smooth n) (hk : (k : WithTop ℕ∞) + 1 ≤ n) {red : Reduce} (hred : red ≠ .lastCompound) {it : Nat}
    {x : E → Row × Row} (hx : SmRow k e₀ fun e => (x e).2) {L : List (E → Row)} (hL : ∀ g ∈ L, SmRow k e₀ g) {w : E → Row} (hw : SmRow k e₀ w)
    {c : E → ℝ} (hc : ContDiffAt ℝ k c e₀) {cs : List (E → Ctrl d)} (hcs : ∀ c ∈ cs, SmCtrl k e₀ c) {r₀ : Shot d}
    (hs₀ : r₀.states = L.map (fun g => ((rowsMod m (x e₀)).withGd (g e₀) 0).manifold)) (hr₀ : r₀.module.reset = ((rowsMod m (x e₀)).withGd (w e₀) 0).reset)
    (hok : ∃ q, reduceCost red it (some r₀.costs) (some (cs.map fun c => c e₀)) r₀.states r₀.module = .ok q) :
    ∃ u : E → ℝ, ContDiffAt ℝ k u e₀ ∧ ∀ᶠ e in 𝓝 e₀, ∀ r : Shot d, r.costs.sum = c e →
      r.states = L.map (fun g => ((rowsMod m (x e)).withGd (g e) 0).manifold) → r.module.reset = ((rowsMod m (x e)).withGd (w e) 0).reset →
      ∃ y m', reduceCost red it (some r.costs) (some (cs.map fun c => c e)) r.states r.module = .ok (y, m') ∧ y.getD 0 = u e := by
  have hrow : ∀ e, (rowsMod m (x e)).withGd (w e) 0 = rowsMod m (finRows (entries (numCoords m) (w e, (x e).2))) := fun e => by
    rw [rowsMod_entries, withGd_rowsMod]; rfl
  by_cases htot : red = .totalCompound
  · subst htot
    obtain ⟨q, hok⟩ := hok
    simp only [reduceCost] at hok
    have hle : (k : WithTop ℕ∞) ≤ n := le_self_add.trans hk
    have hok' : ∃ r, totalLoop (L.map fun g => ((rowsMod m (x e₀)).withGd (g e₀) 0).manifold) (cs.map fun c => c e₀) 0 it r₀.module = .ok r := by
      rw [← hs₀]
      cases h1 : totalLoop r₀.states (cs.map fun c => c e₀) 0 it r₀.module with
      | error _ => rw [h1] at hok; cases hok
      | ok r => exact ⟨r, rfl⟩
    obtain ⟨a, ha, hae⟩ := totalLoop_smooth (n := k) (smoothParts_le hle m hm) x hL hcs it 0 ((sameGd_of_reset hr₀).trans (sameGd_withGd _ _)) hok'
    refine ⟨a, ha, ?_⟩
    filter_upwards [hae] with e he r _ h2 h3
    obtain ⟨m', h4⟩ := he r.module ((sameGd_of_reset h3).trans (sameGd_withGd _ _))
    refine ⟨some (a e), m', ?_, rfl⟩
    simp only [reduceCost, h2, h4]
  · have hw' : ContDiffAt ℝ k (fun e => entries (numCoords m) (w e, (x e).2)) e₀ :=
      ContDiffAt.prodMk (contDiffAt_pi.2 fun j => hw j) (contDiffAt_pi.2 fun j => hx j)
    simp only [reduceCost_controls htot it _ (some _) none] at hok ⊢
    obtain ⟨u, hu, hue⟩ := reduceCost_smooth hm hk hred hw' hc (by rw [hr₀, hrow]) hok
    refine ⟨u, hu, ?_⟩
    filter_upwards [hue] with e he r h1 _ h3
    exact he r h1 (by rw [h3, hrow])

/-! ## The total -/

theorem padded_smooth (k : Nat) {cs : List (List (E → Ctrl d))} (hcs : ∀ l ∈ cs, ∀ c ∈ l, SmCtrl n e₀ c) :
    ∃ us : List (E → Ctrl d), (∀ c ∈ us, SmCtrl n e₀ c) ∧ ∀ e, padControls k (some (cs.map fun l => l.map fun c => c e)) = some (us.map fun u => u e) := by
  refine ⟨cs.map fun l e => .list ((List.replicate k (fun _ => .none) ++ l).map fun c => c e), fun u hu => ?_, fun e => ?_⟩
  · obtain ⟨l, hl, rfl⟩ := List.mem_map.1 hu
    refine .list _ fun c hc => ?_
    rcases List.mem_append.1 hc with hc | hc
    · rw [List.eq_of_mem_replicate hc]; exact .none
    · exact hcs l hl c hc
  · simp [padControls, Function.comp_def]

theorem valueC_smooth {M : RegModel d G T} {k : Nat} (hm : (DefModule.compound M.modules).Smooth n) (hk : (k : WithTop ℕ∞) + 1 ≤ n) (hred : M.reduce ≠ .lastCompound)
    {init : E → List (Mfd d)} (hkind : ∀ e, List.Forall₂ Mfd.SameKind (init e) (init e₀)) (hinit : SmoothEntries k e₀ init) (hlen : M.deformables.length ≤ (init e₀).length)
    {N : Nat} {cs : List (List (E → Ctrl d))} (hcs : ∀ l ∈ cs, ∀ c ∈ l, SmCtrl k e₀ c) {values : E → RegModel d G T}
    (hval : ∀ e, values e = M.setValues (init e) (some (N, cs.map fun l => l.map fun c => c e)))
    (hkept : (values e₀).Kept) {targets : List T} {s : Solver} {it : Nat} {r₀ : Evaluated d G T}
    (h₀ : (values e₀).evaluate none targets (.fixed s) it [] = .ok r₀) {D₀ : Deformed d G × RegModel d G T}
    (hD₀ : (values e₀).computeDeformed (.fixed s) it false 1 = .ok D₀) (hloss : SmoothLosses k D₀.2.deformables M.attachments targets) :
    SmPy k e₀ fun e => (values e).value targets (.fixed s) it := by
  simp only [hval] at hkept h₀ hD₀
  obtain ⟨ht, D₁, hD₁⟩ := evaluate_deformed h₀
  obtain ⟨ms, Ds, h1, h2, r, h3, h4, -, h6⟩ := deformed_parts hD₀
  have h6 := h6 rfl
  obtain ⟨ms', Ds', g1, g2, r', g3, -, h5, -⟩ := deformed_parts hD₁
  have e1 : ms' = ms := Except.ok.inj (g1.symm.trans h1)
  have e2 : Ds' = Ds := Except.ok.inj (g2.symm.trans h2)
  subst e1 e2
  have e3 : r' = r := Except.ok.inj (g3.symm.trans h3)
  subst e3
  have h5 := h5 rfl
  clear g1 g2 g3 hD₁
  obtain ⟨ms₁, hf, hfr, -⟩ := fillModules_kind hkept
  have e1 : ms₁ = ms' := Except.ok.inj (hf.symm.trans h1)
  subst e1
  have hsm : (DefModule.compound (Ds'.map Deformable.silent ++ ms₁)).Smooth n := smooth_joined Ds' (by rw [hfr, smooth_rowsMod]; exact hm)
  have hle : (k : WithTop ℕ∞) ≤ n := le_self_add.trans hk
  have hall : ∀ e, ∃ ms' Ds'', fillModules M.modules ((init e).drop M.deformables.length) = .ok ms' ∧ fillDeformables M.deformables (init e) = .ok Ds'' ∧
      List.Forall₂ Alike Ds' Ds'' ∧ DefModule.compound (Ds''.map Deformable.silent ++ ms')
        = rowsMod (.compound (Ds'.map Deformable.silent ++ ms₁)) (Mfd.compound (init e)).rows := fun e =>
    joined_rows (M := M.setValues (init e₀) (some (N, cs.map fun l => l.map fun c => c e₀))) hkept hlen (hkind e) h1 h2
  have hm0 : rowsMod (.compound (Ds'.map Deformable.silent ++ ms₁)) (Mfd.compound (init e₀)).rows = .compound (Ds'.map Deformable.silent ++ ms₁) := by
    obtain ⟨ms', Ds'', a1, a2, a3, a4⟩ := hall e₀
    have b1 : ms' = ms₁ := Except.ok.inj (a1.symm.trans h1)
    have b2 : Ds'' = Ds' := Except.ok.inj (a2.symm.trans h2)
    rw [← a4, b1, b2]
  obtain ⟨us, hus, hpad⟩ := padded_smooth (d := d) Ds'.length hcs
  have hctl : ∀ e, padControls Ds'.length ((M.setValues (init e) (some (N, cs.map fun l => l.map fun c => c e))).learned.map Prod.snd) = some (us.map fun u => u e) := hpad
  have hst : ∀ e, (M.setValues (init e) (some (N, cs.map fun l => l.map fun c => c e))).steps it = N := fun e => rfl
  rw [hctl, hst] at h3 h5
  rw [shootOde] at h3
  obtain ⟨hp, hn⟩ := shootC_plain h3
  have hx : SmRow k e₀ fun e => (Mfd.compound (init e)).rows.1 := fun j => (hinit j).1
  have hy : SmRow k e₀ fun e => (Mfd.compound (init e)).rows.2 := fun j => (hinit j).2
  obtain ⟨L, w, c, -, hL, hw, hc, hwc⟩ := shootC_smooth (smoothParts_le hle _ hsm) hp hn s N 1 hx hus ⟨r', by rw [hm0]; exact h3⟩
  obtain ⟨r, g1, -, g3, g4⟩ := hwc.self_of_nhds
  rw [hm0] at g1
  have e2 : r = r' := Except.ok.inj (g1.symm.trans h3)
  subst e2
  obtain ⟨u, hu, hue⟩ := reduceC_smooth hsm hk hred hy hL hw hc hus g3 g4 h5
  have hrow : ∀ e, (rowsMod (.compound (Ds'.map Deformable.silent ++ ms₁)) (Mfd.compound (init e)).rows).withGd (w e) 0
      = rowsMod (.compound (Ds'.map Deformable.silent ++ ms₁)) (w e, (Mfd.compound (init e)).rows.2) := fun e => by
    rw [withGd_rowsMod]; rfl
  have hread : D₀.2.deformables = readAll (w e₀) (Mfd.compound (init e₀)).rows.2 0 Ds' := by
    rw [h6]
    rw [hrow] at g4
    obtain ⟨L', hL', -⟩ := same_compound ((same_of_reset g4).trans (same_rowsMod _ _))
    rw [hL', DefModule.members]
    have := manifold_of_reset g4
    rw [hL', rowsMod_compound, DefModule.withGdAll_append, DefModule.withCotAll_append, DefModule.manifold, DefModule.manifold, manifolds_append] at this
    exact leave_read _ _ Ds' 0 L' (Mfd.compound.inj this)
  rw [hread] at hloss
  obtain ⟨a, ha, hae⟩ := lossAt_smooth hw (Mfd.compound (init e₀)).rows.2 Ds' M.attachments targets 0 hloss
  refine ⟨fun e => u e + M.lam * a e, hu.add (contDiffAt_const.mul ha), ?_⟩
  filter_upwards [hwc, hue, hae] with e ⟨r, f1, f2, f3, f4⟩ hu' ha'
  obtain ⟨x, m', f5, f6⟩ := hu' r f2 f3 f4
  obtain ⟨ms', Ds'', a1, a2, a3, a4⟩ := hall e
  rw [← f6]
  have hctl' : padControls Ds''.length ((M.setValues (init e) (some (N, cs.map fun l => l.map fun c => c e))).learned.map Prod.snd) = some (us.map fun u => u e) := by
    rw [alike_length a3]; exact hctl e
  obtain ⟨gs, b1, b2⟩ := lossAt_spec Ds' M.attachments targets ((shape_readAll _ _ _ _ _ _).1 (shape_of_losses _ _ _ hloss)) (w e) (Mfd.compound (init e)).rows.2 0
    (DefModule.withCotAll (Mfd.compound (init e)).rows.2 (Mfd.sizeAll (DefModule.manifolds (Ds'.map Deformable.silent)))
      (DefModule.withGdAll (w e) (Mfd.sizeAll (DefModule.manifolds (Ds'.map Deformable.silent))) ms₁)) ha'
  have q1 : fillModules (values e).modules ((values e).init.drop (values e).deformables.length) = .ok ms' := by rw [hval]; exact a1
  have q2 : fillDeformables (values e).deformables (values e).init = .ok Ds'' := by rw [hval]; exact a2
  have q3 : shootOde s ((values e).steps it) 1 (padControls Ds''.length ((values e).learned.map Prod.snd)) (.compound (Ds''.map Deformable.silent ++ ms')) = .ok r := by
    rw [hval, hctl', hst, a4]; exact f1
  have q5 : reduceCost (values e).reduce ((values e).steps it) (some r.costs) (padControls Ds''.length ((values e).learned.map Prod.snd)) r.states r.module = .ok (x, m') := by
    rw [hval, hctl', hst]; exact f5
  have q6 : toGeometries Ds'' r.module.members = .ok gs := by
    rw [hrow] at f4
    rw [alike_geometries a3, toGeometries_of_reset Ds' f4, rowsMod_compound, DefModule.members, DefModule.withGdAll_append, DefModule.withCotAll_append,
      DefModule.manifolds_withGd, Mfd.size_withGdAll, Nat.zero_add]
    exact b1
  have q0 : targets.length = (values e).deformables.length := by rw [hval]; exact ht
  have q7 : attachmentCost (values e).attachments gs targets = .ok (a e) := by rw [hval]; exact b2
  have q4 : (Ds''.any fun D => D.backward.isSome) = false := by rw [alike_backward a3]; exact h4
  have ql : (values e).lam = M.lam := by rw [hval]; rfl
  rw [valueC_parts q0 q1 q2 q3 q4 q5 q6 q7, ql]

end
end Imodal
