import Verif.Model.Emd

/-!
# What the theorems assume about scipy's interpolators

Each assumption is a hypothesis of the theorems that need it; none is an axiom.
-/

namespace PyEMD
namespace EMD
namespace Spec

variable {K : Type}

/-- The interpolator returns one value per evaluation point whenever it gets at least three strictly increasing knots,
one ordinate per knot and evaluation points within the range of the knots. -/
def Accepts [LT K] [LE K] (f : Interp K) : Prop :=
  ∀ X Y t : List K, 3 ≤ X.length → X.length = Y.length → X.Pairwise (· < ·) →
    (∀ τ ∈ t, ∃ a b, X.head? = some a ∧ X.getLast? = some b ∧ a ≤ τ ∧ τ ≤ b) →
    ∃ q, f X Y t = some q ∧ q.length = t.length

/-- Every interpolator accepts good knots. -/
def AcceptsAll [LT K] [LE K] (sp : SciPy K) : Prop :=
  Accepts sp.akima ∧ Accepts sp.cubic ∧ Accepts sp.pchip ∧ Accepts sp.cubicHermite ∧ Accepts sp.slinear ∧
    Accepts sp.quadratic ∧ Accepts sp.linear

/-- The interpolator commutes with negation of the ordinates. -/
def Odd [Neg K] (f : Interp K) : Prop :=
  ∀ X Y t : List K, f X (Y.map (fun y => -y)) t = (f X Y t).map (fun q => q.map (fun y => -y))

/-- Every interpolator is odd. -/
def OddAll [Neg K] (sp : SciPy K) : Prop :=
  Odd sp.akima ∧ Odd sp.cubic ∧ Odd sp.pchip ∧ Odd sp.cubicHermite ∧ Odd sp.slinear ∧ Odd sp.quadratic ∧ Odd sp.linear

end Spec
end EMD
end PyEMD
