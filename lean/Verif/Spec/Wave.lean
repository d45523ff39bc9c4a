import Verif.Spec.Extrema
import Mathlib.Algebra.Order.Field.Basic

/-!
# Specification vocabulary: waves with equal peaks

None of these definitions is used by the model.
-/

namespace PyEMD
namespace EMD
namespace Spec

variable {K : Type} [LinearOrder K]

/-- Samples `l..r` are a top or a bottom. -/
def IsTurn (S : List K) (l r : Nat) : Prop := IsTop S l r ∨ IsBottom S l r

/-- A signal between `lo` and `hi` whose tops all reach `hi` and whose bottoms all reach `lo`, which is not flat at its first two steps and which
turns at least three times. -/
structure Wave (S : List K) (lo hi : K) : Prop where
  lt : lo < hi
  within : ∀ s ∈ S, lo ≤ s ∧ s ≤ hi
  tops : ∀ l r, IsTop S l r → S[l]? = some hi
  bottoms : ∀ l r, IsBottom S l r → S[l]? = some lo
  start : S[0]? ≠ S[1]?
  second : S[1]? ≠ S[2]?
  turns : ∃ l1 r1 l2 r2 l3 r3, IsTurn S l1 r1 ∧ IsTurn S l2 r2 ∧ IsTurn S l3 r3 ∧ r1 < l2 ∧ r2 < l3

end Spec
end EMD
end PyEMD
