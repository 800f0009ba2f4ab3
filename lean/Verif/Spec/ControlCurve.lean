import Verif.Lemmas.Rows
/-!
# Motions under a constant control
-/
set_option autoImplicit false
namespace Imodal
noncomputable section
open Set
variable {d : Nat}

/-- The descriptors `q t` move, for times from 0 to `T`, as the field says that the module `m` generates at the descriptors it has at that time, when
its controls are set to `c`. -/
def ControlCurve (m : DefModule d) (c : Ctrl d) (T : ℝ) (q : ℝ → Row) : Prop :=
  ∀ t ∈ Icc 0 T, ∃ m' f v, (m.withGd (q t) 0).fillControls c = .ok m' ∧ m'.field = .ok f ∧ m'.manifold.action f = .ok v ∧
    ∀ j < numCoords m, HasDerivWithinAt (fun u => q u j) (rowOf v.unroll.flatten j) (Icc 0 T) t

/-- The first `N` entries of the descriptors of two manifolds differ by at most `ε`. -/
def Mfd.Near (N : Nat) (ε : ℝ) (S S' : Mfd d) : Prop := ∀ j < N, |rowOf S'.unrollGd.flatten j - rowOf S.unrollGd.flatten j| ≤ ε

end
end Imodal
