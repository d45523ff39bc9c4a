import Mathlib.Order.Basic

/-!
# Tops of a list of samples
-/

namespace PyEMD
namespace Checks
namespace Spec

/-- The samples `l … r` of `x` all have the value `v` and both neighbours exist and are lower. -/
structure Top {α : Type} [LT α] (x : List α) (l r : Nat) (v : α) : Prop where
  /-- there is a sample on the left -/
  left : 1 ≤ l
  /-- the plateau is not empty -/
  le : l ≤ r
  /-- it is flat -/
  flat : ∀ k, l ≤ k → k ≤ r → x[k]? = some v
  /-- lower on the left -/
  before : ∃ p, x[l - 1]? = some p ∧ p < v
  /-- lower on the right -/
  after : ∃ q, x[r + 1]? = some q ∧ q < v

end Spec
end Checks
end PyEMD
