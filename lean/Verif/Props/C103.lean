import Verif.Model.PairLandmarks
import Mathlib.Tactic.NormNum
/-!
# C103: a manifold of two groups of points computes with its own points

`CompoundLandmarks` claims to be the compound of two `Landmarks`. Only its dual field is.
-/
set_option autoImplicit false
namespace Imodal
noncomputable section
variable {d n m : Nat}

/-- What the object should be: the compound of the two groups. -/
def landmarkPair (x p : Fin n → Vec d) (y q : Fin m → Vec d) : Mfd d := .compound [.landmarks x p, .landmarks y q]

/-- The object after its points and momenta were filled, in either order, whatever happened before. -/
def PairFilled (P : PairLandmarks d n m) (x p : Fin n → Vec d) (y q : Fin m → Vec d) : Prop :=
  ∃ P₀ : PairLandmarks d n m, ∃ ops, P = P₀.run ops ∧
    (ops = [.fillGd x y, .fillCotan p q] ∨ ops = [.fillCotan p q, .fillGd x y])

theorem PairFilled.eq {P : PairLandmarks d n m} {x p : Fin n → Vec d} {y q : Fin m → Vec d} (h : PairFilled P x p y q) :
    P = ⟨some (x, y), some (p, q)⟩ := by
  obtain ⟨P₀, ops, rfl, rfl | rfl⟩ := h <;> rfl

/-- **C103, the part that holds.** The dual field is the one of the two groups. Missing: pairing and action (below). -/
theorem C103_dual_partial {P : PairLandmarks d n m} {x p : Fin n → Vec d} {y q : Fin m → Vec d} (h : PairFilled P x p y q) (σ : ℝ) (r : Reduction) :
    P.cotToVs σ r = (landmarkPair x p y q).cotToVs σ r := by
  rw [h.eq]
  simp only [PairLandmarks.cotToVs, landmarkPair, Mfd.cotToVs, Mfd.cotToVsAll]

/-- **C103, pairing.** The pairing with any field that can be evaluated is zero, whatever was filled in. -/
theorem C103_inner (P : PairLandmarks d n m) (ops : List (PairOp d n m)) (f : FieldExpr d) {v : Fin n → Vec d} {w : Fin m → Vec d}
    (hv : f.values (n := n) 0 = .ok v) (hw : f.values (n := m) 0 = .ok w) : (P.run ops).innerProd f = .ok 0 := by
  simp only [PairLandmarks.innerProd, PairLandmarks.manifolds, Mfd.innerProd, actLandmarks, hv, hw]
  simp [dotFlat]

/-- So it is not the one of the two groups: for a translation and momenta along it. -/
theorem C103_inner_disagreement (hd : 0 < d) (hn : 0 < n) :
    ¬ ∀ (P : PairLandmarks d n m) (x p : Fin n → Vec d) (y q : Fin m → Vec d) (f : FieldExpr d), PairFilled P x p y q →
      P.innerProd f = (landmarkPair x p y q).innerProd f := by
  intro h
  have := h _ 0 (fun _ _ => 1) 0 0 (.const fun _ => 1) ⟨⟨none, none⟩, _, rfl, Or.inl rfl⟩
  have hv : ∀ (k : Nat) (z : Fin k → Vec d), (FieldExpr.const fun _ => (1 : ℝ)).values z = .ok fun _ _ => 1 := fun k z => by
    simp [FieldExpr.values, FieldExpr.batch, FieldExpr.eval, fieldConst]
  rw [C103_inner _ _ _ (hv n 0) (hv m 0)] at this
  simp only [landmarkPair, Mfd.innerProd, Mfd.innerProdAll, actLandmarks, hv] at this
  have h2 := Except.ok.inj this
  simp [dotFlat] at h2
  omega

/-- **C103, action.** Applying a field always raises; the compound of the two groups moves. -/
theorem C103_action_disagreement (P : PairLandmarks d n m) (ops : List (PairOp d n m)) (f : FieldExpr d) :
    (P.run ops).action f = .error .attribute ∧
      ∀ (x p : Fin n → Vec d) (y q : Fin m → Vec d) (u : Vec d), ∃ w, (landmarkPair x p y q).action (.const u) = .ok w := by
  refine ⟨rfl, fun x p y q u => ?_⟩
  simp [landmarkPair, Mfd.action, Mfd.actionAll, actLandmarks, FieldExpr.values, FieldExpr.batch, FieldExpr.eval]

/-- **C103, sizes.** The numbers of entries it tells are those of its tensors only if the groups have the same number of points. -/
theorem C103_sizes (P : PairLandmarks d n m) (hd : 0 < d) : P.numelGd = [n * d, m * d] ↔ n = m := by
  simp [PairLandmarks.numelGd, PairLandmarks.shapeGd, hd.ne']

/-- Two points and one point in the plane. -/
example (x p : Fin 2 → Vec 2) (y q : Fin 1 → Vec 2) : PairFilled ((⟨none, none⟩ : PairLandmarks 2 2 1).run [.fillGd x y, .fillCotan p q]) x p y q :=
  ⟨_, _, rfl, Or.inl rfl⟩
example : (⟨none, none⟩ : PairLandmarks 2 2 1).numelGd ≠ [2 * 2, 1 * 2] := by
  rw [Ne, C103_sizes _ (by norm_num)]; norm_num

end
end Imodal
