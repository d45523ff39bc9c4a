import Mathlib.LinearAlgebra.Matrix.NonsingularInverse
import Verif.Model.Image

/-!
# `scipy.interpolate.Rbf(X, Y, Z, function="cubic")` as called by `PyEMD/BEMD.py`

`Model/Image.lean` takes this function as a parameter.  Here are its formulas, from scipy's sources
(`scipy/interpolate/_rbf.py`): exact arithmetic, `smooth = 0`; `root` stands for the square root in the Euclidean norm.  The width `epsilon`
is computed there but plays no part for `function="cubic"`.
-/

namespace PyEMD
namespace Scipy

variable {K : Type} [Field K]

/-- The cube of the distance of two points.  Called from /repo/PyEMD/BEMD.py:87-88. -/
def cubicKernel (root : K → K) (p q : Nat × Nat) : K :=
  let r := root (((p.1 : K) - q.1) * (p.1 - q.1) + ((p.2 : K) - q.2) * (p.2 - q.2))
  r * r * r

/-- The matrix of the kernel for a list of points.  Called from /repo/PyEMD/BEMD.py:87. -/
def kernelMatrix (root : K → K) (P : List (Nat × Nat)) : Matrix (Fin P.length) (Fin P.length) K :=
  Matrix.of (fun i j => cubicKernel root (P.get i) (P.get j))

open Classical in
/-- `Rbf(X, Y, Z, function="cubic")`: the weights solve the linear system (`LinAlgError`, a `ValueError`, if it is singular), the surface is
the weighted sum of the kernels.  Simplification: a single point raises `ZeroDivisionError` in scipy (BEMD passes at least two).
Called from /repo/PyEMD/BEMD.py:87-88. -/
noncomputable def rbf (root : K → K) : Surface K := fun X Y Z =>
  let P := X.zip Y
  if X.length ≠ Z.length ∨ Y.length ≠ Z.length then .error .valueError
  else if (kernelMatrix root P).det = 0 then .error .valueError
  else
    let w := (kernelMatrix root P)⁻¹.mulVec (fun i => Z.getD i 0)
    .ok (fun x y => ∑ j, cubicKernel root (x, y) (P.get j) * w j)

end Scipy
end PyEMD
