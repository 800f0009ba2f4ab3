import Mathlib.Algebra.Order.Field.Basic
/-!
# Extended numbers

Cost values as they are compared by the optimisers: a finite number of an arbitrary
linearly ordered field, `±inf` or `nan`, with the comparison, subtraction, division and
`max` of Python floats (rounding is not modelled).
-/
set_option autoImplicit false
namespace Imodal

inductive XF (𝕜 : Type)
  | fin (x : 𝕜)
  | pinf
  | ninf
  | nan

namespace XF
variable {𝕜 : Type} [Field 𝕜] [LinearOrder 𝕜]

/-- `a < b`. -/
def lt : XF 𝕜 → XF 𝕜 → Prop
  | fin a, fin b => a < b
  | fin _, pinf => True
  | ninf, fin _ => True
  | ninf, pinf => True
  | _, _ => False

/-- `a == b`. -/
def eq : XF 𝕜 → XF 𝕜 → Prop
  | fin a, fin b => a = b
  | pinf, pinf => True
  | ninf, ninf => True
  | _, _ => False

/-- `a <= b`. -/
def le (a b : XF 𝕜) : Prop := lt a b ∨ eq a b

instance (a b : XF 𝕜) : Decidable (lt a b) := by
  cases a <;> cases b <;> unfold lt <;> infer_instance
instance (a b : XF 𝕜) : Decidable (eq a b) := by
  cases a <;> cases b <;> unfold eq <;> infer_instance
instance (a b : XF 𝕜) : Decidable (le a b) := by unfold le; infer_instance

/-- `math.isfinite`. -/
def isFinite : XF 𝕜 → Bool
  | fin _ => true
  | _ => false

/-- `math.isnan`. -/
def isNan : XF 𝕜 → Bool
  | nan => true
  | _ => false

/-- `a - b`. -/
def sub : XF 𝕜 → XF 𝕜 → XF 𝕜
  | fin a, fin b => fin (a - b)
  | nan, _ => nan
  | _, nan => nan
  | pinf, pinf => nan
  | pinf, _ => pinf
  | ninf, ninf => nan
  | ninf, _ => ninf
  | fin _, pinf => ninf
  | fin _, ninf => pinf

/-- `a / b` for `b` not zero (the code only divides by something `>= 1`). A zero divisor
gives `nan` here. -/
def div : XF 𝕜 → XF 𝕜 → XF 𝕜
  | fin a, fin b => if b = 0 then nan else fin (a / b)
  | fin _, pinf => fin 0
  | fin _, ninf => fin 0
  | pinf, fin b => if b = 0 then nan else if 0 < b then pinf else ninf
  | ninf, fin b => if b = 0 then nan else if 0 < b then ninf else pinf
  | _, _ => nan

/-- Python's `max(a, b, c)`: keep the current best unless a later one is greater. -/
def max3 (a b c : XF 𝕜) : XF 𝕜 :=
  let m := if lt a b then b else a
  if lt m c then c else m

end XF
end Imodal
