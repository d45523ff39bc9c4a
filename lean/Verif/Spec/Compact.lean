import Mathlib.Algebra.Field.Basic

/-!
# Tridiagonal systems, polynomials of low degree

Nothing here refers to the model.
-/

namespace Spec

/-- `x` satisfies row `i` of the tridiagonal system of size `n` with sub-diagonal `a`, diagonal `b`, super-diagonal `c` and
right-hand side `d`, for every `i`. -/
def SolvesTridiagonal {K : Type} [Field K] (a b c d : ℕ → K) (n : ℕ) (x : ℕ → K) : Prop :=
  ∀ i < n, (if 0 < i then a i * x (i - 1) else 0) + b i * x i + (if i + 1 < n then c i * x (i + 1) else 0) = d i

/-- Determinant of the leading `i × i` block of the tridiagonal matrix (continuant recurrence: expansion along the last row). -/
def leadingMinor {K : Type} [Field K] (a b c : ℕ → K) : ℕ → K
  | 0 => 1
  | 1 => b 0
  | i + 2 => b (i + 1) * leadingMinor a b c (i + 1) - a (i + 1) * c i * leadingMinor a b c i

/-- Value at `x` of the polynomial with the given coefficients, constant term first. -/
def polyVal {K : Type} [Field K] : List K → K → K
  | [], _ => 0
  | c :: cs, x => c + x * polyVal cs x

/-- Coefficients of the derivative of `x ^ k * Σ cᵢ xⁱ / x ^ k`, that is `Σ (i + k) cᵢ x ^ i`. -/
def scaled {K : Type} [Field K] (k : ℕ) : List K → List K
  | [] => []
  | c :: cs => (k : K) * c :: scaled (k + 1) cs

/-- Coefficients of the derivative. -/
def polyDeriv {K : Type} [Field K] : List K → List K
  | [] => []
  | _ :: cs => scaled 1 cs

/-- The values of `p` at `0, 1, …, n - 1`. -/
def samples {K : Type} (n : ℕ) (p : ℕ → K) : List K := (List.range n).map p

end Spec
