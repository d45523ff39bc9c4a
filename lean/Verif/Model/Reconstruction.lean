import Verif.Model.Image

/-!
# `skimage.morphology.reconstruction(seed, mask, method="dilation")` as called by `PyEMD/BEMD.py`

`Model/Image.lean` takes this function as a parameter.  Here it is its definition: the seed is dilated with the 3×3 square (the
default footprint) and cut off at the mask, again and again until nothing changes.  skimage is not part of /repo and computes the
same by another procedure (`skimage/morphology/grayreconstruct.py`).
-/

namespace PyEMD
namespace Skimage

variable {α : Type} [Add α] [Sub α] [Mul α] [Div α] [Neg α] [LT α] [LE α] [BEq α]
  [DecidableLT α] [DecidableLE α] [NpScalar α]

/-- One dilation with the 3×3 square, cut off at the mask.  Outside the image nothing is seen: the window repeats border pixels.
Definition of `reconstruction`, called from /repo/PyEMD/BEMD.py:119. -/
def dilate (mask im : Img α) : Img α :=
  Img.ofFn mask.rows mask.cols (fun r c =>
    let m := npMax (EMD2D.window im r c)
    if m ≤ mask.px r c then m else mask.px r c)

/-- `reconstruction(seed, mask, method="dilation")`.  As many dilations as there are pixels; nothing changes after that (no path
without repetition is longer).  Called from /repo/PyEMD/BEMD.py:119. -/
def reconstruct (seed mask : Img α) : Img α := (dilate mask)^[mask.rows * mask.cols] seed

/-- External code of `BEMD` with this reconstruction.  /repo/PyEMD/BEMD.py:12-15. -/
def ext (rbf : Surface α) : BEMD.Ext α := { reconstruction := reconstruct, rbf }

end Skimage
end PyEMD
