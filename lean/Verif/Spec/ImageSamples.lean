import Verif.Spec.Image
import Mathlib.Algebra.Order.Field.Rat
import Mathlib.Data.Rat.Floor

/-!
# Concrete images and interpolators used by the `example`s
-/

namespace PyEMD

/-- One step of the dilation of `seed` with the 3×3 square, kept below `mask`. -/
def dilateUnder (mask seed : Img ℚ) : Img ℚ :=
  Img.ofFn mask.rows mask.cols (fun r c => min (mask.px r c) (npMax (EMD2D.window seed r c)))

/-- Morphological reconstruction by dilation: enough steps to reach the fixed point on small images. -/
def sampleReconstruction (seed mask : Img ℚ) : Img ℚ := (dilateUnder mask)^[mask.rows + mask.cols] seed

/-- The surface of constant height `1/4`. -/
def flatSurface : Surface ℚ := fun _ _ _ => .ok (fun _ _ => 1 / 4)

/-- A surface whose height depends on the values: their mean. -/
def meanSurface : Surface ℚ := fun _ _ Z => .ok (fun _ _ => Z.sum / Z.length)

/-- A board with 13 interior maxima and 12 interior minima. -/
def board : Img ℚ := Img.ofFn 7 7 (fun r c => if (r + c) % 2 = 0 then 1 else 0)

/-- A 4 × 4 image with peaks at `[1, 2]` and `[3, 0]` (values 5 and 7). -/
def hills : Img ℚ :=
  { rows := 4, cols := 4, data :=
    [0, 0, 0, 0,
     0, 0, 5, 0,
     0, 0, 0, 0,
     7, 0, 0, 0] }

/-- skimage and scipy stand-ins. -/
def sampleExt : BEMD.Ext ℚ := { reconstruction := sampleReconstruction, rbf := meanSurface }

end PyEMD
