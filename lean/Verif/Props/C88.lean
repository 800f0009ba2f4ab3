import Verif.Lemmas.ScaleShoot
import Verif.Lemmas.ShootSame
import Verif.Model.Registration
/-!
# C88: scaling momenta or controls is the same as scaling the time
-/
set_option autoImplicit false
namespace Imodal
noncomputable section
variable {d : Nat}

/-- From momenta or with given controls: multiplying the momenta (the controls) by `a` and integrating up to `t1`
passes through the same descriptors as integrating up to `a * t1`; the momenta and controls are `a` times, the costs
`a ^ 2` times those of the longer shooting, and the exceptions are the same. -/
theorem C88_scale {a : ℝ} (ha : a ≠ 0) (s : Solver) (it : Nat) (t1 : ℝ) (controls : Option (List (Ctrl d))) (ms : List (DefModule d)) :
    shoot (.fixed s) it t1 (controls.map (List.map (Ctrl.scale a))) ((DefModule.compound ms).scale a)
      = (shoot (.fixed s) it (a * t1) controls (.compound ms)).map fun r => (r.1.scale a, r.2.map (List.map (a ^ 2 * ·))) := by
  unfold shoot shootOde
  cases controls with
  | none =>
    dsimp only [Option.map]
    rw [shootMoments_scale a ha]
    cases shootMoments s it (a * t1) (.compound ms) <;> rfl
  | some cs =>
    dsimp only [Option.map]
    rw [shootControls_scale a ha]
    cases shootControls s it (a * t1) cs (.compound ms) <;> rfl

/-- The observable part, whatever controls and cached results the modules held: every state has the descriptors of
the longer shooting and `a` times its momenta. -/
theorem C88_states {a : ℝ} (ha : a ≠ 0) (s : Solver) {it : Nat} (hit : it ≠ 0) (t1 : ℝ) (controls : Option (List (Ctrl d)))
    {ms ms' : List (DefModule d)} (hm : ((DefModule.compound ms).scale a).reset = (DefModule.compound ms').reset) {r : Shot d × Option (List ℝ)}
    (hr : shoot (.fixed s) it (a * t1) controls (.compound ms) = .ok r) :
    ∃ r', shoot (.fixed s) it t1 (controls.map (List.map (Ctrl.scale a))) (.compound ms') = .ok r'
      ∧ r'.1.states = r.1.states.map (Mfd.scale a) ∧ r'.1.states.map Mfd.unrollGd = r.1.states.map Mfd.unrollGd
      ∧ r'.1.module.manifold.unrollGd = r.1.module.manifold.unrollGd
      ∧ r'.1.ctrls = r.1.ctrls.map (Ctrl.scale a) ∧ r'.2 = r.2.map (List.map (a ^ 2 * ·)) := by
  have h1 := C88_scale ha s it t1 controls ms
  rw [hr, DefModule.scale] at h1
  rw [DefModule.scale] at hm
  refine ⟨_, shoot_of_reset hm _ hit t1 _ h1, rfl, ?_, ?_, rfl, rfl⟩
  · show (r.1.states.map (Mfd.scale a)).map Mfd.unrollGd = _
    rw [List.map_map]
    exact List.map_congr_left fun M _ => unrollGd_scale a M
  · show (r.1.module.scale a).manifold.unrollGd = _
    rw [manifold_scale, unrollGd_scale]

/-- Any end time can be replaced by 1: shooting up to `t1` is shooting up to 1 from `t1` times the momenta. -/
theorem C88_unit_time {t1 : ℝ} (ht : t1 ≠ 0) (s : Solver) (it : Nat) (controls : Option (List (Ctrl d))) (ms : List (DefModule d)) :
    shoot (.fixed s) it 1 (controls.map (List.map (Ctrl.scale t1))) ((DefModule.compound ms).scale t1)
      = (shoot (.fixed s) it t1 controls (.compound ms)).map fun r => (r.1.scale t1, r.2.map (List.map (t1 ^ 2 * ·))) := by
  have := C88_scale ht s it 1 controls ms
  rwa [mul_one] at this

/-- Shooting backwards in time is shooting forwards with opposite momenta or controls, at the same cost. -/
theorem C88_backward (s : Solver) (it : Nat) (t1 : ℝ) (controls : Option (List (Ctrl d))) (ms : List (DefModule d)) :
    shoot (.fixed s) it t1 (controls.map (List.map (Ctrl.scale (-1)))) ((DefModule.compound ms).scale (-1))
      = (shoot (.fixed s) it (-t1) controls (.compound ms)).map fun r => (r.1.scale (-1), r.2) := by
  have := C88_scale (by norm_num : (-1 : ℝ) ≠ 0) s it t1 controls ms
  rw [neg_one_mul] at this
  rw [this]
  cases shoot (.fixed s) it (-t1) controls (.compound ms) with
  | error e => rfl
  | ok r =>
    refine congrArg Except.ok (Prod.ext rfl ?_)
    dsimp only
    cases r.2 with
    | none => rfl
    | some c => simp

/-- At a single state: `a` times the momenta make geodesic controls `a` times as large and the Hamiltonian `a ^ 2`
times as large. -/
theorem C88_hamiltonian (a : ℝ) (m : DefModule d) :
    Hamiltonian.geodesicControls (m.scale a) = (Hamiltonian.geodesicControls m).map (DefModule.scale a)
      ∧ Hamiltonian.value (m.scale a) = (Hamiltonian.value m).map (a ^ 2 * ·) ∧ (m.scale a).cost = m.cost.map (a ^ 2 * ·)
      ∧ (m.scale a).manifold.unrollGd = m.manifold.unrollGd :=
  ⟨geodesicControls_scale a m, value_scale a m, cost_scale a m, by rw [manifold_scale, unrollGd_scale]⟩

/-! ### Examples -/

/-- One point moved by a local translation: the momenta `(3, 0)`, whatever control the module still held, are three
times `(1, 0)`. -/
example (h : Fin 1 → Vec 2) (r : Reduction) :
    ((DefModule.compound [.translations (⟨r, 0, fun _ => ![1, 0], 1, 0⟩ : Translations 2 1)]).scale 3).reset
      = (DefModule.compound [.translations (⟨r, 0, fun _ => ![3, 0], 1, h⟩ : Translations 2 1)]).reset := by
  simp only [DefModule.scale, DefModule.scaleAll, DefModule.reset, DefModule.resetAll]
  have e : (fun (_ : Fin 1) (c : Fin 2) => 3 * (![1, 0] : Vec 2) c) = fun _ => ![3, 0] := by
    funext _ c; fin_cases c <;> simp
  rw [e]

end
end Imodal
