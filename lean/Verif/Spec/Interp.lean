import Verif.Model.Emd
import Mathlib.Algebra.Order.Ring.Rat
import Mathlib.Data.Rat.Floor

/-!
# A concrete interpolator

The model takes scipy's interpolators as parameters.  For examples and witnesses we need one concrete
instance: piecewise linear interpolation, used for every kind.
-/

namespace PyEMD

variable {α : Type} [Add α] [Sub α] [Mul α] [Div α] [Neg α] [LT α] [LE α] [BEq α]
  [DecidableLT α] [DecidableLE α] [NpScalar α]

/-- Piecewise linear interpolation at one point; constant extrapolation on the right. -/
def linAt : List (α × α) → α → α
  | [], _ => lit 0
  | [p], _ => p.2
  | p :: q :: r, t =>
    if t ≤ q.1 then p.2 + (q.2 - p.2) / (q.1 - p.1) * (t - p.1) else linAt (q :: r) t

/-- Linear interpolation in place of every scipy routine. -/
def linSciPy : SciPy α where
  akima X Y t := some (t.map (linAt (X.zip Y)))
  cubic X Y t := some (t.map (linAt (X.zip Y)))
  pchip X Y t := some (t.map (linAt (X.zip Y)))
  cubicHermite X Y t := some (t.map (linAt (X.zip Y)))
  slinear X Y t := some (t.map (linAt (X.zip Y)))
  quadratic X Y t := some (t.map (linAt (X.zip Y)))
  linear X Y t := some (t.map (linAt (X.zip Y)))

end PyEMD
