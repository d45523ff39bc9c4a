import Verif.Model.Points

/-!
# Specification vocabulary for envelope knots

None of these definitions is used by the model.
-/

namespace PyEMD
namespace EMD
namespace Spec

variable {K : Type} [LT K] [LE K]

/-- Knots (position, value) fit for an interpolation over the time stamps `T` of a signal `S` with extrema at `pos`
with values `val`: at least three, strictly increasing positions, from at or before the first to at or after the last
time stamp; every extremum is a knot; every value is a sample of the signal. -/
structure GoodKnots (T S pos val : List K) (knots : List (K × K)) : Prop where
  three : 3 ≤ knots.length
  increasing : knots.Pairwise (fun p q => p.1 < q.1)
  first : ∃ p t, knots.head? = some p ∧ T.head? = some t ∧ p.1 ≤ t
  last : ∃ p t, knots.getLast? = some p ∧ T.getLast? = some t ∧ t ≤ p.1
  extrema : ∀ p ∈ pos.zip val, p ∈ knots
  values : ∀ p ∈ knots, p.2 ∈ S

end Spec
end EMD
end PyEMD
