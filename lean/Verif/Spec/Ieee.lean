import Verif.Model.Ieee
import Mathlib.Data.Real.Basic

/-!
# The numbers that floats stand for
-/

namespace PyEMD
namespace Ieee
variable {f e E : ℕ}

/-- The number a float stands for. -/
noncomputable def val : Ieee f e E → ℝ
  | num m _ => m / 2 ^ e
  | _ => 0

/-- What is asked of the signal: consecutive steps that are not zero have a product of at least the smallest positive number. -/
def StepsResolved (S : List (Ieee f e E)) : Prop :=
  ∀ i x y z, S[i]? = some x → S[i + 1]? = some y → S[i + 2]? = some z →
    (y.val - x.val) * (z.val - y.val) = 0 ∨ 1 / 2 ^ e ≤ |(y.val - x.val) * (z.val - y.val)|

/-- The same for consecutive samples. -/
def SamplesResolved (S : List (Ieee f e E)) : Prop :=
  ∀ i x y, S[i]? = some x → S[i + 1]? = some y → x.val * y.val = 0 ∨ 1 / 2 ^ e ≤ |x.val * y.val|

end Ieee
end PyEMD
