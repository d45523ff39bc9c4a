import Verif.Model.Spline
import Verif.Spec.Spline
import Mathlib.Order.Defs.LinearOrder

/-!
# What one expects of an interpolator

Stated for any function of the type `Interp`; nothing here refers to the formulas of the model.
-/

namespace PyEMD
namespace Spec

variable {K : Type}

/-- One value per point and, at a knot, the value given there. -/
def PassesThrough [LT K] (f : Interp K) : Prop :=
  ∀ X Y t q : List K, X.Pairwise (· < ·) → X.length = Y.length → f X Y t = some q → q.length = t.length ∧
    ∀ i j, i < X.length → j < t.length → X[i]? = t[j]? → q[j]? = Y[i]?

/-- Between two neighbouring knots the values stay between the values at these knots. -/
def NoOvershoot [LinearOrder K] (f : Interp K) : Prop :=
  ∀ X Y t q : List K, X.Pairwise (· < ·) → X.length = Y.length → f X Y t = some q →
    ∀ (i j : ℕ) (x0 x1 y0 y1 τ v : K), X[i]? = some x0 → X[i + 1]? = some x1 → Y[i]? = some y0 → Y[i + 1]? = some y1 →
      t[j]? = some τ → x0 ≤ τ → τ ≤ x1 → q[j]? = some v → min y0 y1 ≤ v ∧ v ≤ max y0 y1

/-- Knots on a straight line are interpolated by the line. -/
def KeepsLines [Field K] [LinearOrder K] (f : Interp K) : Prop :=
  ∀ (X t q : List K) (a b : K), X.Pairwise (· < ·) → f X (X.map (fun x => a * x + b)) t = some q → q = t.map (fun τ => a * τ + b)

/-- Change of the unit and of the origin of time has no influence. -/
def TimeFree [Field K] [LinearOrder K] (f : Interp K) : Prop :=
  ∀ (c b : K), 0 < c → ∀ X Y t : List K, f (X.map (fun x => c * x + b)) Y (t.map (fun x => c * x + b)) = f X Y t

/-- The cubics `p 0, …, p (n - 2)` on the intervals between the `n` knots form the not-a-knot spline: they interpolate, two derivatives
are continuous and the third one is at the second and the last but one knot. -/
structure NotAKnot [Field K] (n : ℕ) (x y : ℕ → K) (p : ℕ → Cubic K) : Prop where
  left : ∀ i < n - 1, (p i).val (x i) = y i
  right : ∀ i < n - 1, (p i).val (x (i + 1)) = y (i + 1)
  smooth1 : ∀ i < n - 2, (p i).d1 (x (i + 1)) = (p (i + 1)).d1 (x (i + 1))
  smooth2 : ∀ i < n - 2, (p i).d2 (x (i + 1)) = (p (i + 1)).d2 (x (i + 1))
  first : (p 0).c3 = (p 1).c3
  last : (p (n - 3)).c3 = (p (n - 2)).c3

/-- The cubics `p 0, …, p (n - 2)` form the natural spline: they interpolate, two derivatives are continuous and the second one vanishes at
both ends. -/
structure NaturalSpline [Field K] (n : ℕ) (x y : ℕ → K) (p : ℕ → Cubic K) : Prop where
  left : ∀ i < n - 1, (p i).val (x i) = y i
  right : ∀ i < n - 1, (p i).val (x (i + 1)) = y (i + 1)
  smooth1 : ∀ i < n - 2, (p i).d1 (x (i + 1)) = (p (i + 1)).d1 (x (i + 1))
  smooth2 : ∀ i < n - 2, (p i).d2 (x (i + 1)) = (p (i + 1)).d2 (x (i + 1))
  first : (p 0).d2 (x 0) = 0
  last : (p (n - 2)).d2 (x (n - 1)) = 0

/-- The polynomials `p 1, …, p (n - 2)` around the inner knots form the quadratic spline with breaks half way between the inner knots: they
interpolate, and value and derivative are continuous at the breaks. -/
structure HalfWay [Field K] (n : ℕ) (x y : ℕ → K) (p : ℕ → Cubic K) : Prop where
  quadratic : ∀ i, 0 < i → i < n - 1 → (p i).c3 = 0
  knot : ∀ i, 0 < i → i < n - 1 → (p i).val (x i) = y i
  first : (p 1).val (x 0) = y 0
  last : (p (n - 2)).val (x (n - 1)) = y (n - 1)
  joined : ∀ i, 0 < i → i + 1 < n - 1 → (p i).val ((x i + x (i + 1)) / 2) = (p (i + 1)).val ((x i + x (i + 1)) / 2)
  smooth : ∀ i, 0 < i → i + 1 < n - 1 → (p i).d1 ((x i + x (i + 1)) / 2) = (p (i + 1)).d1 ((x i + x (i + 1)) / 2)

/-- All interpolators pass through their knots. -/
def PassesAll [LT K] (sp : SciPy K) : Prop :=
  PassesThrough sp.akima ∧ PassesThrough sp.cubic ∧ PassesThrough sp.pchip ∧ PassesThrough sp.cubicHermite ∧ PassesThrough sp.slinear ∧
    PassesThrough sp.quadratic ∧ PassesThrough sp.linear

end Spec
end PyEMD
