import Verif.Model.Image
/-!
# Greyscale images from files, `imodal/Utilities/sampling.py` 10-43 and 105-109

What `matplotlib.image.imread` returns is given: an array of numbers in `[0, 1]` for PNG files and of
integers for other formats. Number types are not modelled.
-/
set_option autoImplicit false
namespace Imodal
noncomputable section

/-- The array that `imread` returns: two axes, three axes, or another number of axes. -/
inductive ImageArray
  | grey (h w : Nat) (I : Nat → Nat → ℝ)
  | colour (h w c : Nat) (I : Nat → Nat → Nat → ℝ)
  | other

/-- `_set_origin` (sampling.py 29-33) of an image with `h` rows; `flip(0)` reverses the rows. -/
def setOrigin (origin : String) (h : Nat) (I : Nat → Nat → ℝ) : Nat → Nat → ℝ :=
  if origin = "upper" then I else fun i j => I (h - 1 - i) j

/-- `load_greyscale_image` (sampling.py 10-43), `file` being the result of `imread`. -/
def loadGreyscale (origin : String) (file : Py ImageArray) : Py (Nat × Nat × (Nat → Nat → ℝ)) :=
  if origin ≠ "upper" ∧ origin ≠ "lower" then .error .runtime
  else
    match file with
    | .error e => .error e
    | .ok (.grey h w I) => .ok (h, w, setOrigin origin h fun i j => 1 - I i j)
    | .ok (.colour h w c I) => if c = 0 then .error .index else .ok (h, w, setOrigin origin h fun i j => 1 - I i j 0)
    | .ok .other => .error .notImplemented

/-- `load_and_sample_greyscale` (sampling.py 105-109) without centring and normalised weights. -/
def loadAndSample (file : Py ImageArray) (threshold : ℝ) : Py (List ((ℝ × ℝ) × ℝ)) :=
  match loadGreyscale "lower" file with
  | .error e => .error e
  | .ok r => sampleFromGreyscale r.1 r.2.1 r.2.2 threshold true

/-- `DeformableImage.load_from_file` (deformable_image2d.py 51-53). -/
def DefImage.load (origin : String) (file : Py ImageArray) : Py DefImage :=
  match loadGreyscale origin file with
  | .error e => .error e
  | .ok r => DefImage.mkOutput r.1 r.2.1 r.2.2 .bitmap .none

end
end Imodal
