import Verif.Model.Extrema

/-!
# Specification vocabulary for extrema and zero crossings

None of these definitions is used by the model.
-/

namespace PyEMD
namespace EMD
namespace Spec

variable {K : Type} [LT K]

/-- Samples `l..r` have one common value, both neighbours `l - 1` and `r + 1` exist, and both are smaller. -/
def IsTop (S : List K) (l r : Nat) : Prop :=
  1 ≤ l ∧ l ≤ r ∧ ∃ v a b, (∀ i, l ≤ i → i ≤ r → S[i]? = some v) ∧ S[l - 1]? = some a ∧ S[r + 1]? = some b ∧ a < v ∧ b < v

/-- Samples `l..r` have one common value, both neighbours `l - 1` and `r + 1` exist, and both are larger. -/
def IsBottom (S : List K) (l r : Nat) : Prop :=
  1 ≤ l ∧ l ≤ r ∧ ∃ v a b, (∀ i, l ≤ i → i ≤ r → S[i]? = some v) ∧ S[l - 1]? = some a ∧ S[r + 1]? = some b ∧ v < a ∧ v < b

/-- Middle of the interval `[l, r]`, a half rounded to the even neighbour. -/
def IsMiddle (l r m : Nat) : Prop := l + r = 2 * m ∨ (m % 2 = 0 ∧ (l + r + 1 = 2 * m ∨ l + r = 2 * m + 1))

/-- The signal starts with a flat piece `0..r` of at least two samples, then falls, and its last step is a rise. -/
def FlatStartFalls (S : List K) (r : Nat) : Prop :=
  1 ≤ r ∧ (∃ v b, (∀ i, i ≤ r → S[i]? = some v) ∧ S[r + 1]? = some b ∧ b < v) ∧
    ∃ y z, S[S.length - 2]? = some y ∧ S[S.length - 1]? = some z ∧ y < z

/-- The signal starts with a flat piece `0..r` of at least two samples, then rises, and its last step is a fall. -/
def FlatStartRises (S : List K) (r : Nat) : Prop :=
  1 ≤ r ∧ (∃ v b, (∀ i, i ≤ r → S[i]? = some v) ∧ S[r + 1]? = some b ∧ v < b) ∧
    ∃ y z, S[S.length - 2]? = some y ∧ S[S.length - 1]? = some z ∧ z < y

/-- Samples `i` and `i + 1` have opposite strict signs. -/
def IsSignChange [Zero K] (S : List K) (i : Nat) : Prop :=
  ∃ x y, S[i]? = some x ∧ S[i + 1]? = some y ∧ ((x < 0 ∧ 0 < y) ∨ (0 < x ∧ y < 0))

/-- `l..r` is a maximal run of zero samples. -/
def IsZeroRun [Zero K] (S : List K) (l r : Nat) : Prop :=
  l ≤ r ∧ (∀ i, l ≤ i → i ≤ r → S[i]? = some 0) ∧ (l = 0 ∨ S[l - 1]? ≠ some 0) ∧ S[r + 1]? ≠ some 0

end Spec
end EMD
end PyEMD
