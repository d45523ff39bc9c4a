import Verif.Model.Checks
import Verif.Lemmas.Exact
import Mathlib.Analysis.SpecialFunctions.Log.Basic
import Mathlib.Analysis.SpecialFunctions.Sqrt
import Mathlib.Data.Real.Archimedean

/-!
# Vocabulary for `PyEMD/checks.py` over the real numbers
-/

namespace PyEMD
namespace Checks

/-- The real logarithm, exponential and square root; the logarithm of a non-positive number raises `ValueError`, as `math.log` does.
The normal quantile and the peak counter remain parameters.  Real numbers are never NaN. -/
noncomputable def realFns (ppf : ℝ → ℝ) (peaks : List ℝ → ℕ) : MathFns ℝ where
  log x := if 0 < x then .ok (Real.log x) else .error .valueError
  exp x := .ok (Real.exp x)
  sqrt := Real.sqrt
  ppf := ppf
  peaks := peaks
  isnan _ := false

/-- What is used of the quantile function of the normal distribution. -/
structure NormalQuantile (ppf : ℝ → ℝ) : Prop where
  increasing : ∀ p q, 0 < p → p < q → q < 1 → ppf p < ppf q
  median : ppf (1 / 2) = 0

namespace Spec

/-- The mean square of a component. -/
noncomputable def density (imf : List ℝ) (N : ℕ) : ℝ := (imf.map (fun x => x ^ 2)).sum / N

/-- Samples per peak; the whole length when there is no peak. -/
noncomputable def period (peaks : List ℝ → ℕ) (imf : List ℝ) : ℝ :=
  if peaks imf = 0 then imf.length else imf.length / peaks imf

/-- Two-sided quantile belonging to the confidence level `a`. -/
noncomputable def width (ppf : ℝ → ℝ) (a : ℝ) : ℝ := |ppf ((1 - a) / 2)|

/-- A component lies outside the white-noise band: `log E + log P` deviates from zero by more than `k √(2/N) √P`. -/
def OutsideBand (k : ℝ) (N : ℕ) (P E : ℝ) : Prop := k * (√(2 / N) * √P) < |Real.log E + Real.log P|

/-- A component lies above the white-noise band. -/
def AboveBand (k : ℝ) (N : ℕ) (P E : ℝ) : Prop := k * (√(2 / N) * √P) < Real.log E + Real.log P

/-- Some sample differs from zero. -/
def NonZero (imf : List ℝ) : Prop := ∃ x ∈ imf, x ≠ 0

/-- All rows have the same positive length. -/
def Rectangular (imfs : List (List ℝ)) (N : ℕ) : Prop := 0 < N ∧ imfs ≠ [] ∧ ∀ imf ∈ imfs, imf.length = N

end Spec
end Checks
end PyEMD
