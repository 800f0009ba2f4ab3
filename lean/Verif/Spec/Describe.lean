import Verif.Model.Describe
/-!
# What describing a module should give
-/
set_option autoImplicit false
namespace Imodal

/-- The text `s` occurs in the text `t`. -/
def Occurs (s t : String) : Prop := ∃ a b : String, t = a ++ s ++ b

/-- A label that is a text, or empty. -/
def ModLabel.Text : ModLabel → Prop
  | .none => True
  | .str _ => True
  | .names l => l = []

mutual
/-- Neither a linear nor an as-rigid-as-possible module occurs, and every printed label is a text. -/
def Labelled.Printable : Labelled → Prop
  | .leaf _ (.linear ..) => False
  | .leaf _ (.arap ..) => False
  | .leaf _ (.divFree ..) => True
  | .leaf l (.translations ..) => l.Text
  | .leaf l (.implicit0 ..) => l.Text
  | .leaf l (.oriented ..) => l.Text
  | .leaf l (.constrained ..) => l.Text
  | .leaf l (.globalTranslation ..) => l.Text
  | .leaf l (.implicit1 ..) => l.Text
  | .leaf l (.silent ..) => l.Text
  | .compound l ms => l.Text ∧ Labelled.AllPrintable ms
def Labelled.AllPrintable : List Labelled → Prop
  | [] => True
  | m :: ms => m.Printable ∧ Labelled.AllPrintable ms
end

/-- `x` is `m`, or a member of `m`, or a member of a member, and so on. -/
inductive Labelled.Inside (x : Labelled) : Labelled → Prop
  | refl : Labelled.Inside x x
  | step (l : ModLabel) (ms : List Labelled) (m : Labelled) : m ∈ ms → Labelled.Inside x m → Labelled.Inside x (.compound l ms)

/-- The module carries the text `s` as label. -/
def Labelled.HasLabel (s : String) : Labelled → Prop
  | .leaf (.str t) _ => t = s
  | .compound (.str t) _ => t = s
  | .leaf .none _ => False
  | .leaf (.names _) _ => False
  | .compound .none _ => False
  | .compound (.names _) _ => False

/-- The module is a divergence-free implicit module. -/
def Labelled.IsDivFree : Labelled → Prop
  | .leaf _ (.divFree ..) => True
  | .leaf _ (.translations ..) => False
  | .leaf _ (.implicit0 ..) => False
  | .leaf _ (.oriented ..) => False
  | .leaf _ (.constrained ..) => False
  | .leaf _ (.globalTranslation ..) => False
  | .leaf _ (.linear ..) => False
  | .leaf _ (.implicit1 ..) => False
  | .leaf _ (.arap ..) => False
  | .leaf _ (.silent ..) => False
  | .compound .. => False

/-- The name of the kind of module, as the text should give it. -/
def Labelled.kind : Labelled → String
  | .leaf _ (.translations ..) => "Local translation module"
  | .leaf _ (.implicit0 ..) => "Implicit module of order 0"
  | .leaf _ (.oriented ..) => "Oriented translation"
  | .leaf _ (.constrained ..) => "Local constrained translation module"
  | .leaf _ (.globalTranslation ..) => "Global translation"
  | .leaf _ (.linear ..) => "Linear deformation module"
  | .leaf _ (.implicit1 ..) => "Implicit module of order 1"
  | .leaf _ (.divFree ..) => "ImplicitDivFree"
  | .leaf _ (.arap ..) => "ARAP"
  | .leaf _ (.silent ..) => "Silent module"
  | .compound .. => "Compound Module"

/-- The parameters of a module that its text should show, as names and values: widths, regularisations, weights, and numbers
of points and controls. `showR` is `str` of a number. -/
def Labelled.params (showR : ℝ → String) : Labelled → List (String × String)
  | .leaf _ (.translations _ n σ) => [("Sigma", showR σ), ("Nb pts", toString n)]
  | .leaf _ (.implicit0 _ n σ ν coeff) => [("Sigma", showR σ), ("Nu", showR ν), ("Coeff", showR coeff), ("Nb pts", toString n)]
  | .leaf _ (.oriented _ n σ coeff) => [("Sigma", showR σ), ("Coeff", showR coeff), ("Nb pts", toString n)]
  | .leaf _ (.constrained _ _ desc σ coeff) => [("Type", desc), ("Sigma", showR σ), ("Coeff", showR coeff)]
  | .leaf _ (.globalTranslation _ coeff) => [("Coeff", showR coeff)]
  | .leaf _ (.linear _ coeff) => [("Coeff", showR coeff)]
  | .leaf _ (.implicit1 _ n p σ ν coeff) =>
    [("Sigma", showR σ), ("Nu", showR ν), ("Coeff", showR coeff), ("Dim controls", toString p), ("Nb pts", toString n)]
  | .leaf _ (.divFree _ N P) => [("Nb pts", toString (N + P))]
  | .leaf _ (.arap _ N P) => [("Nb pts", toString (N + P))]
  | .leaf _ (.silent _ n cls) => [("Manifold type", cls), ("Nb pts", toString n)]
  | .compound .. => []

end Imodal
