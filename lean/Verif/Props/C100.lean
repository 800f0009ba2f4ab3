import Verif.Lemmas.DilShoot
import Verif.Lemmas.ShootSame
import Verif.Model.Registration
import Verif.Model.Local
/-!
# C100: the unit of length does not matter
-/
set_option autoImplicit false
namespace Imodal
noncomputable section
variable {d : Nat} {s : ℝ}

/-- Expressing every length in another unit expresses the whole trajectory in that unit: positions `s` times, costs
`s ^ 2` times, directions and frames unchanged, with the same exceptions. For every solver, from momenta and with
given controls. -/
theorem C100_unit (hs : s ≠ 0) (S : SolverName) (it : Nat) (t1 : ℝ) (controls : Option (List (Ctrl d))) (ms : List (DefModule d)) :
    shoot S it t1 (controls.map (List.map ((DefModule.compound ms).dilateCtrl s))) ((DefModule.compound ms).dilate s)
      = (shoot S it t1 controls (.compound ms)).map fun r => (r.1.dilate s (.compound ms), r.2.map (List.map (s ^ 2 * ·))) := by
  cases S with
  | torchEuler =>
    unfold shoot
    dsimp only
    rw [shootEuler_dil hs controls it]
    cases shootEuler it controls (.compound ms) <;> rfl
  | fixed S =>
    unfold shoot shootOde
    cases controls with
    | none =>
      dsimp only [Option.map]
      rw [shootMoments_dil hs]
      cases shootMoments S it t1 (.compound ms) <;> rfl
    | some cs =>
      dsimp only [Option.map]
      rw [shootControls_dil hs]
      cases shootControls S it t1 cs (.compound ms) <;> rfl
  | adaptive => rfl
  | unknown => rfl

/-- The observable part, whatever controls and cached results the modules held. -/
theorem C100_states (hs : s ≠ 0) (S : SolverName) {it : Nat} (hit : it ≠ 0) (t1 : ℝ) (controls : Option (List (Ctrl d)))
    {ms ms' : List (DefModule d)} (hm : ((DefModule.compound ms).dilate s).reset = (DefModule.compound ms').reset) {r : Shot d × Option (List ℝ)}
    (hr : shoot S it t1 controls (.compound ms) = .ok r) :
    ∃ r', shoot S it t1 (controls.map (List.map ((DefModule.compound ms).dilateCtrl s))) (.compound ms') = .ok r'
      ∧ r'.1.states = r.1.states.map (Mfd.dilate s) ∧ r'.1.module.manifold = r.1.module.manifold.dilate s
      ∧ r'.1.ctrls = r.1.ctrls.map ((DefModule.compound ms).dilateCtrl s) ∧ r'.2 = r.2.map (List.map (s ^ 2 * ·)) := by
  have h1 := C100_unit hs S it t1 controls ms
  rw [hr, DefModule.dilate] at h1
  rw [DefModule.dilate] at hm
  exact ⟨_, shoot_of_reset hm _ hit t1 _ h1, rfl, manifold_dil _, rfl, rfl⟩

/-- At a single state: the velocity of a point, the cost, the geodesic controls and the Hamiltonian in the new unit.
The velocity is a length, its derivative has no unit. -/
theorem C100_instant (hs : s ≠ 0) (m : DefModule d) :
    (m.dilate s).cost = m.cost.map (s ^ 2 * ·)
      ∧ Hamiltonian.geodesicControls (m.dilate s) = (Hamiltonian.geodesicControls m).map (DefModule.dilate s)
      ∧ Hamiltonian.value (m.dilate s) = (Hamiltonian.value m).map (s ^ 2 * ·)
      ∧ (m.dilate s).controls = m.dilateCtrl s m.controls ∧ (m.dilate s).manifold = m.manifold.dilate s
      ∧ ∀ f, m.field = .ok f → ∃ f', (m.dilate s).field = .ok f' ∧ ∀ (n : Nat) (pts : Fin n → Vec d),
        f'.values (fun i c => s * pts i c) = (f.values pts).map (fun v i c => s * v i c)
          ∧ f'.jacobians (fun i c => s * pts i c) = f.jacobians pts := by
  refine ⟨cost_dil hs m, geodesicControls_dil hs m, value_dil hs m, controls_dil m, manifold_dil m, fun f hf => ?_⟩
  rcases field_dil hs m with ⟨e, h1, -⟩ | ⟨g, f', h1, h2, h3⟩
  · rw [hf] at h1; cases h1
  · rw [hf] at h1
    cases h1
    refine ⟨f', h2, fun n pts => ⟨h3.values pts, ?_⟩⟩
    rw [h3.jacobians, mul_inv_cancel₀ hs]
    cases f.jacobians pts with
    | error e => rfl
    | ok J => exact congrArg Except.ok (scM_one J)

/-- Geodesic controls exist in one unit when they exist in the other. -/
theorem C100_exists (hs : s ≠ 0) (m : DefModule d) :
    (∃ m', Hamiltonian.geodesicControls (m.dilate s) = .ok m') ↔ ∃ m', Hamiltonian.geodesicControls m = .ok m' := by
  rw [geodesicControls_dil hs]
  cases Hamiltonian.geodesicControls m with
  | error e => exact Iff.intro (fun h => by obtain ⟨_, h⟩ := h; cases h) (fun h => by obtain ⟨_, h⟩ := h; cases h)
  | ok m' => exact ⟨fun _ => ⟨m', rfl⟩, fun _ => ⟨_, rfl⟩⟩

/-- A local scaling stays a local scaling, of `s` times the size, about `s` times the centre. -/
theorem C100_localScaling (hs : s ≠ 0) (σ coeff : ℝ) (gd cot : Fin 1 → Vec 2) (h : ℝ) :
    (DefModule.constrained (localScaling σ coeff gd cot h)).dilate s
      = .constrained (localScaling (s * σ) coeff (fun i c => s * gd i c) (fun i c => s * cot i c) (s * h)) := by
  rw [DefModule.dilate]
  unfold localScaling
  dsimp only
  congr 2
  funext g i c
  unfold support3
  rw [mul_add, mul_inv_cancel_left₀ hs]
  ring

/-- A local rotation of the plane stays a local rotation, of `s` times the size, about `s` times the centre. -/
theorem C100_localRotation (hs : s ≠ 0) (σ coeff : ℝ) (gd cot : Fin 1 → Vec 2) (h : ℝ) :
    (DefModule.constrained (localRotation2 σ coeff gd cot h)).dilate s
      = .constrained (localRotation2 (s * σ) coeff (fun i c => s * gd i c) (fun i c => s * cot i c) (s * h)) := by
  rw [DefModule.dilate]
  unfold localRotation2
  dsimp only
  congr 2
  funext g i c
  unfold support3
  rw [mul_add, mul_inv_cancel_left₀ hs]
  ring

/-! ### Examples -/

/-- One point moved by a local translation, in metres and in centimetres, whatever control the module still held. -/
example (h : Fin 1 → Vec 2) (r : Reduction) :
    ((DefModule.compound [.translations (⟨r, fun _ => ![2, 0], fun _ => ![1, 0], 3, 0⟩ : Translations 2 1)]).dilate 100).reset
      = (DefModule.compound [.translations (⟨r, fun _ => ![200, 0], fun _ => ![100, 0], 300, h⟩ : Translations 2 1)]).reset := by
  simp only [DefModule.dilate, DefModule.dilateAll, DefModule.reset, DefModule.resetAll]
  have e : (fun (_ : Fin 1) (c : Fin 2) => 100 * (![2, 0] : Vec 2) c) = fun _ => ![200, 0] := by
    funext _ c; fin_cases c <;> norm_num
  have e' : (fun (_ : Fin 1) (c : Fin 2) => 100 * (![1, 0] : Vec 2) c) = fun _ => ![100, 0] := by
    funext _ c; fin_cases c <;> norm_num
  rw [e, e', show (100 : ℝ) * 3 = 300 by norm_num]

/-- A growth module: its control is a rate, which has no unit, and its regularisation is the inverse of an area. -/
example (r : Reduction) (R C cR) :
    (DefModule.implicit1 (⟨r, fun _ => ![1, 0], R, 0, cR, C, 1, 4, 1, fun _ => 3, none⟩ : Implicit1 2 1 1)).dilate 2
      = .implicit1 ⟨r, fun _ => ![2, 0], R, 0, fun i b c => 4 * cR i b c, C, 2, 1, 1, fun _ => 3, none⟩ := by
  rw [DefModule.dilate]
  have e : (fun (_ : Fin 1) (c : Fin 2) => 2 * (![1, 0] : Vec 2) c) = fun _ => ![2, 0] := by
    funext _ c; fin_cases c <;> norm_num
  dsimp only
  rw [e, show (fun (i : Fin 1) (c : Fin 2) => (2 : ℝ) * (0 : Fin 1 → Vec 2) i c) = 0 from funext fun _ => funext fun _ => mul_zero _,
    show (2 : ℝ) ^ 2 = 4 by norm_num, show (2 : ℝ) * 1 = 2 by norm_num, show (4 : ℝ) / 4 = 1 by norm_num]
  rfl

end
end Imodal
