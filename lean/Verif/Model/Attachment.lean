import Verif.Model.Field
/-!
# Attachments, `imodal/Attachment/attachment.py`

The geometries compared are opaque here: a simple attachment is its weight and its `loss`.
-/
set_option autoImplicit false
namespace Imodal
noncomputable section

/-- An attachment: a subclass with its own `loss`, or a `CompoundAttachment`
(attachment.py 10-11, 50-54). -/
inductive Attach (S T : Type)
  | simple (weight : ℝ) (loss : S → T → Py ℝ)
  | compound (weight : ℝ) (members : List (Attach S T))

variable {S T : Type}

/-- The property `weight` (attachment.py 19-21). -/
def Attach.weight : Attach S T → ℝ
  | .simple w _ => w
  | .compound w _ => w

mutual
/-- `loss(source, target)` (attachment.py 44-45, 56-57): a compound adds the `loss` of its
members. -/
def Attach.loss (s : S) (t : T) : Attach S T → Py ℝ
  | .simple _ f => f s t
  | .compound _ as => Attach.lossAll s t as
def Attach.lossAll (s : S) (t : T) : List (Attach S T) → Py ℝ
  | [] => .ok 0
  | a :: as =>
    match a.loss s t with
    | .error e => .error e
    | .ok x =>
      match Attach.lossAll s t as with
      | .error e => .error e
      | .ok y => .ok (x + y)
end

/-- `attachment(source, target)` (attachment.py 38-39). -/
def Attach.call (a : Attach S T) (s : S) (t : T) : Py ℝ :=
  match a.loss s t with
  | .error e => .error e
  | .ok x => .ok (a.weight * x)

/-- `NullLoss()` (attachment.py 72-77). -/
def nullLoss : Attach S T := .simple 0 fun _ _ => .ok 0

end
end Imodal
