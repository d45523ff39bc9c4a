import Verif.Spec.Interp

/-!
# What the theorems on offsets and scale assume about scipy's interpolators
-/

namespace PyEMD
namespace EMD
namespace Spec

variable {K : Type}

/-- The interpolator commutes with increasing affine maps of the ordinates. -/
def AffineInterp [Zero K] [Add K] [Mul K] [LT K] (f : Interp K) : Prop :=
  ∀ c b : K, 0 < c → ∀ X Y t : List K, f X (Y.map (fun y => c * y + b)) t = (f X Y t).map (fun q => q.map (fun y => c * y + b))

/-- Every interpolator does. -/
def AffineAll [Zero K] [Add K] [Mul K] [LT K] (sp : SciPy K) : Prop :=
  AffineInterp sp.akima ∧ AffineInterp sp.cubic ∧ AffineInterp sp.pchip ∧ AffineInterp sp.cubicHermite ∧ AffineInterp sp.slinear ∧
    AffineInterp sp.quadratic ∧ AffineInterp sp.linear

/-- Piecewise linear interpolation that rejects an empty set of knots; used as a witness. -/
def strictLin {α : Type} [Add α] [Sub α] [Mul α] [Div α] [Neg α] [LT α] [LE α] [BEq α] [DecidableLT α] [DecidableLE α] [NpScalar α] :
    Interp α :=
  fun X Y t => if (X.zip Y).isEmpty then none else some (t.map (linAt (X.zip Y)))

/-- The same interpolation in place of every scipy routine. -/
def strictLinSciPy {α : Type} [Add α] [Sub α] [Mul α] [Div α] [Neg α] [LT α] [LE α] [BEq α] [DecidableLT α] [DecidableLE α] [NpScalar α] :
    SciPy α where
  akima := strictLin
  cubic := strictLin
  pchip := strictLin
  cubicHermite := strictLin
  slinear := strictLin
  quadratic := strictLin
  linear := strictLin

end Spec
end EMD
end PyEMD
