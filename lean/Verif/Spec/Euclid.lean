import Mathlib.Analysis.InnerProductSpace.PiL2
import Mathlib.Analysis.Calculus.FDeriv.Basic
/-! Euclidean vocabulary for the statements about kernels and fields, in Mathlib's terms. -/
set_option autoImplicit false
namespace Imodal.Spec
noncomputable section

/-- Euclidean distance of two points given by coordinates. -/
def euclid {d : Nat} (x y : Fin d → ℝ) : ℝ :=
  dist (WithLp.toLp 2 x : EuclideanSpace ℝ (Fin d)) (WithLp.toLp 2 y)

/-- A map of coordinate vectors that preserves Euclidean distances. -/
def IsIsometry {d e : Nat} (T : (Fin d → ℝ) → Fin e → ℝ) : Prop :=
  ∀ x y, euclid (T x) (T y) = euclid x y

/-- `g` lists the partial derivatives of `f` at `x`, in the sense of Fréchet. -/
def HasGradient {d : Nat} (f : (Fin d → ℝ) → ℝ) (g : Fin d → ℝ) (x : Fin d → ℝ) : Prop :=
  HasFDerivAt f (∑ c, g c • (ContinuousLinearMap.proj c : (Fin d → ℝ) →L[ℝ] ℝ)) x

end
end Imodal.Spec
