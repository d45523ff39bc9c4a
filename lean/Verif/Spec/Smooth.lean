import Verif.Spec.Surface
import Mathlib.Algebra.BigOperators.Group.Finset.Basic

/-!
# What `SmoothBivariateSpline` promises

Its documentation: the smoothing factor `s` is the number of points unless given, and the sum of squared misses must not exceed it.
FITPACK's `surfit`, which it calls, returns the least-squares polynomial of degree three in each variable if that meets the bound
(return code -2), and evaluates it inside the box spanned by the points.  None of these definitions is used by the model.
-/

namespace PyEMD

open Finset

variable {K : Type} [Field K] [LinearOrder K]

/-- A polynomial of degree at most three in each of two variables. -/
def Bicubic (p : K → K → K) : Prop :=
  ∃ a : Nat → Nat → K, ∀ x y, p x y = ∑ i ∈ range 4, ∑ j ∈ range 4, a i j * (x ^ i * y ^ j)

/-- The sum of the squared distances of the points from a surface. -/
def missed (p : K → K → K) (P : List ((Nat × Nat) × K)) : K := (P.map (fun q => (q.2 - p q.1.1 q.1.2) ^ 2)).sum

/-- Row `x` and column `y` lie inside the box spanned by the points. -/
def InBox (P : List ((Nat × Nat) × K)) (x y : Nat) : Prop :=
  (∃ q ∈ P, q.1.1 ≤ x) ∧ (∃ q ∈ P, x ≤ q.1.1) ∧ (∃ q ∈ P, q.1.2 ≤ y) ∧ ∃ q ∈ P, y ≤ q.1.2

/-- If some bicubic polynomial misses the points by no more than their number, the surface is the best such polynomial. -/
def LeastSquares (sbs : Surface K) : Prop :=
  ∀ (P : List ((Nat × Nat) × K)) s, sbs (P.map (·.1.1)) (P.map (·.1.2)) (P.map (·.2)) = .ok s →
    (∃ q, Bicubic q ∧ missed q P ≤ P.length) →
    ∃ p, Bicubic p ∧ (∀ q, Bicubic q → missed p P ≤ missed q P) ∧ ∀ x y, InBox P x y → s x y = p x y

end PyEMD
