import Mathlib.Algebra.Field.Defs

/-!
# Specification vocabulary for splines: cubic polynomials and natural splines through three points

None of these definitions is used by the model.
-/

namespace PyEMD
namespace Spec

variable {K : Type} [Field K]

/-- `c0 + c1 t + c2 t² + c3 t³` -/
structure Cubic (K : Type) where
  c0 : K
  c1 : K
  c2 : K
  c3 : K

/-- Value. -/
def Cubic.val (p : Cubic K) (t : K) : K := p.c0 + p.c1 * t + p.c2 * t ^ 2 + p.c3 * t ^ 3
/-- First derivative. -/
def Cubic.d1 (p : Cubic K) (t : K) : K := p.c1 + 2 * p.c2 * t + 3 * p.c3 * t ^ 2
/-- Second derivative. -/
def Cubic.d2 (p : Cubic K) (t : K) : K := 2 * p.c2 + 6 * p.c3 * t

/-- The cubics `p` on `[x0, x1]` and `q` on `[x1, x2]` form the natural cubic spline through the three points:
interpolation, continuous first and second derivative, vanishing second derivative at both ends. -/
structure IsNatural (x0 x1 x2 y0 y1 y2 : K) (p q : Cubic K) : Prop where
  v0 : p.val x0 = y0
  v1 : p.val x1 = y1
  v1' : q.val x1 = y1
  v2 : q.val x2 = y2
  smooth1 : p.d1 x1 = q.d1 x1
  smooth2 : p.d2 x1 = q.d2 x1
  nat0 : p.d2 x0 = 0
  nat2 : q.d2 x2 = 0

end Spec
end PyEMD
