import Verif.Model.Spline
import Verif.Model.Compact

/-!
# The interpolators behind /repo/PyEMD/splines.py

`SciPy` makes the interpolators parameters of the model.  This file is one concrete choice of the parameters: what the
documentation and sources of scipy and numpy say `Akima1DInterpolator`, `CubicSpline`, `PchipInterpolator`,
`CubicHermiteSpline`, `np.gradient` and `interp1d(kind="linear"/"slinear")` compute.  The cubic ones differ only in the rule for the slopes at the
knots.  Arrays are read by index.

Simplifications: the tridiagonal system of `CubicSpline` is solved by elimination without pivoting (the solution is unique), `Akima1DInterpolator`
needs three knots (with two scipy reads memory it has not written), points outside of the knots are evaluated by the
first or last piece (`EMD.spline_points` never asks for them), `np.gradient` always uses the formula for unequal steps,
`interp1d` refuses knots which are not increasing (scipy sorts them; `EMD.spline_points` hands over increasing ones).
`interp1d(kind="quadratic")` is the quadratic spline with breaks half way between the knots, without the first and the last of these.
scipy finds its B-spline coefficients; here the slopes at the breaks are the unknowns.
-/

namespace PyEMD
namespace Scipy

variable {α : Type} [Add α] [Sub α] [Mul α] [Div α] [Neg α] [LT α] [LE α] [BEq α]
  [DecidableLT α] [DecidableLE α] [NpScalar α]

/-- `np.diff(X)[i]`.  Used by all functions of /repo/PyEMD/splines.py:46-64. -/
def dx (x : Nat → α) (i : Nat) : α := x (i + 1) - x i

/-- `np.diff(Y)[i] / np.diff(X)[i]`.  Used by all functions of /repo/PyEMD/splines.py:46-64. -/
def secant (x y : Nat → α) (i : Nat) : α := (y (i + 1) - y i) / dx x i

/-- Piece `i` of `CubicHermiteSpline(X, Y, dydx)`.  /repo/PyEMD/splines.py:53-54 and the base class of the splines at 47, 58, 63. -/
def piece (x y d : Nat → α) (i : Nat) (t : α) : α :=
  let h := dx x i
  let m := secant x y i
  let w := (d i + d (i + 1) - lit 2 * m) / h
  let u := t - x i
  ((w / h * u + ((m - d i) / h - w)) * u + d i) * u + y i

/-- The last of the intervals `0 … k` which does not start after `t` (the first if there is none).
/repo/PyEMD/splines.py:48, 54, 59, 64. -/
def interval (x : Nat → α) (t : α) : Nat → Nat
  | 0 => 0
  | k + 1 => if x (k + 1) ≤ t then k + 1 else interval x t k

/-- `spl(x)` at one point.  /repo/PyEMD/splines.py:48, 54, 59, 64. -/
def cubicAt (x y d : Nat → α) (n : Nat) (t : α) : α := piece x y d (interval x t (n - 2)) t

/-- `interp1d(X, Y, kind="linear")` at one point.  /repo/PyEMD/EMD.py:495. -/
def linearAt (x y : Nat → α) (n : Nat) (t : α) : α :=
  let i := interval x t (n - 2)
  secant x y i * (t - x i) + y i

/-- `np.gradient(Y, X)[i]`.  /repo/PyEMD/splines.py:52. -/
def gradient (x y : Nat → α) (n i : Nat) : α :=
  if i = 0 then secant x y 0
  else if i = n - 1 then secant x y (n - 2)
  else
    let hs := dx x (i - 1)
    let hd := dx x i
    let a := -hd / (hs * (hd + hs))
    let b := (hd - hs) / (hd * hs)
    let c := hs / (hd * (hd + hs))
    a * y (i - 1) + b * y i + c * y (i + 1)

/-- `np.sign`.  Used by `PchipInterpolator`, /repo/PyEMD/splines.py:63. -/
def sgn (a : α) : Int := if lit 0 < a then 1 else if a < lit 0 then -1 else 0

/-- Slope of `PchipInterpolator` at an end.  /repo/PyEMD/splines.py:63. -/
def pchipEnd (h0 h1 m0 m1 : α) : α :=
  let d := ((lit 2 * h0 + h1) * m0 - h0 * m1) / (h0 + h1)
  if sgn d ≠ sgn m0 then lit 0
  else if sgn m0 ≠ sgn m1 ∧ lit 3 * pyAbs m0 < pyAbs d then lit 3 * m0
  else d

/-- Slope of `PchipInterpolator` at knot `i`.  /repo/PyEMD/splines.py:63. -/
def pchipSlope (x y : Nat → α) (n i : Nat) : α :=
  if n = 2 then secant x y 0
  else if i = 0 then pchipEnd (dx x 0) (dx x 1) (secant x y 0) (secant x y 1)
  else if i = n - 1 then pchipEnd (dx x (n - 2)) (dx x (n - 3)) (secant x y (n - 2)) (secant x y (n - 3))
  else
    let h0 := dx x (i - 1)
    let h1 := dx x i
    let m0 := secant x y (i - 1)
    let m1 := secant x y i
    if sgn m0 ≠ sgn m1 ∨ (m1 == lit 0) = true ∨ (m0 == lit 0) = true then lit 0
    else
      let w1 := lit 2 * h1 + h0
      let w2 := h1 + lit 2 * h0
      lit 1 / ((w1 / m0 + w2 / m1) / (w1 + w2))

/-- The slopes of the segments, continued by two on either side, of `Akima1DInterpolator`: `m[j]`.  /repo/PyEMD/splines.py:47. -/
def akimaM (x y : Nat → α) (n j : Nat) : α :=
  let m := secant x y
  let l1 := lit 2 * m 0 - m 1
  let r1 := lit 2 * m (n - 2) - m (n - 3)
  if j = 0 then lit 2 * l1 - m 0
  else if j = 1 then l1
  else if j = n + 1 then r1
  else if j = n + 2 then lit 2 * r1 - m (n - 2)
  else m (j - 2)

/-- `f1[i]` of `Akima1DInterpolator`.  /repo/PyEMD/splines.py:47. -/
def akimaF1 (x y : Nat → α) (n i : Nat) : α := pyAbs (akimaM x y n (i + 3) - akimaM x y n (i + 2))

/-- `f2[i]` of `Akima1DInterpolator`.  /repo/PyEMD/splines.py:47. -/
def akimaF2 (x y : Nat → α) (n i : Nat) : α := pyAbs (akimaM x y n (i + 1) - akimaM x y n i)

/-- Slope of `Akima1DInterpolator` at knot `i`.  /repo/PyEMD/splines.py:47. -/
def akimaSlope (x y : Nat → α) (n i : Nat) : α :=
  let f12 := fun i => akimaF1 x y n i + akimaF2 x y n i
  if lit (1 / 1000000000) * npMax ((List.range n).map f12) < f12 i then
    (akimaF1 x y n i * akimaM x y n (i + 1) + akimaF2 x y n i * akimaM x y n (i + 2)) / f12 i
  else lit (1 / 2) * (akimaM x y n (i + 3) + akimaM x y n i)

/-- Sub-diagonal of the system for the slopes of `CubicSpline`.  /repo/PyEMD/splines.py:58. -/
def cubicA (x : Nat → α) (n i : Nat) : α :=
  if n = 3 then (if i = 2 then lit 1 else dx x 1)
  else if i = n - 1 then x (n - 1) - x (n - 3)
  else dx x i

/-- Diagonal of the system for the slopes of `CubicSpline`.  /repo/PyEMD/splines.py:58. -/
def cubicB (x : Nat → α) (n i : Nat) : α :=
  if n = 3 then (if i = 1 then lit 2 * (dx x 0 + dx x 1) else lit 1)
  else if i = 0 then dx x 1
  else if i = n - 1 then dx x (n - 3)
  else lit 2 * (dx x (i - 1) + dx x i)

/-- Super-diagonal of the system for the slopes of `CubicSpline`.  /repo/PyEMD/splines.py:58. -/
def cubicC (x : Nat → α) (n i : Nat) : α :=
  if n = 3 then (if i = 0 then lit 1 else dx x 0)
  else if i = 0 then x 2 - x 0
  else dx x (i - 1)

/-- Right-hand side of the system for the slopes of `CubicSpline`.  /repo/PyEMD/splines.py:58. -/
def cubicD (x y : Nat → α) (n i : Nat) : α :=
  let m := secant x y
  let h := dx x
  if n = 3 then
    (if i = 0 then lit 2 * m 0 else if i = 2 then lit 2 * m 1 else lit 3 * (h 0 * m 1 + h 1 * m 0))
  else if i = 0 then
    let d := x 2 - x 0
    ((h 0 + lit 2 * d) * h 1 * m 0 + h 0 * h 0 * m 1) / d
  else if i = n - 1 then
    let d := x (n - 1) - x (n - 3)
    (h (n - 2) * h (n - 2) * m (n - 3) + (lit 2 * d + h (n - 2)) * h (n - 3) * m (n - 2)) / d
  else lit 3 * (h i * m (i - 1) + h (i - 1) * m i)

/-- Slopes of `CubicSpline(X, Y)` (not-a-knot; a parabola for three knots).  /repo/PyEMD/splines.py:58. -/
def cubicSlopes (x y : Nat → α) (n : Nat) : PyM (List α) :=
  Compact.tdma (cubicA x n) (cubicB x n) (cubicC x n) (cubicD x y n) n

/-- The knots are refused: too few, of different number than values, or not increasing.  /repo/PyEMD/splines.py:46-64. -/
def refuses (least : Nat) (X Y : List α) : Bool :=
  decide (X.length < least) || X.length != Y.length || !(X.zip X.tail).all (fun p => decide (p.1 < p.2))

/-- Entries of an array.  /repo/PyEMD/splines.py:46-64. -/
def entry (X : List α) (i : Nat) : α := X.getD i (lit 0)

/-- `akima(X, Y, x)`.  /repo/PyEMD/splines.py:46-48. -/
def akima : Interp α := fun X Y t =>
  if refuses 3 X Y then none
  else some (t.map (cubicAt (entry X) (entry Y) (akimaSlope (entry X) (entry Y) X.length) X.length))

/-- `cubic_hermite(X, Y, x)`.  /repo/PyEMD/splines.py:51-54. -/
def cubicHermite : Interp α := fun X Y t =>
  if refuses 2 X Y then none
  else some (t.map (cubicAt (entry X) (entry Y) (gradient (entry X) (entry Y) X.length) X.length))

/-- `cubic(X, Y, x)`.  /repo/PyEMD/splines.py:57-59. -/
def cubic : Interp α := fun X Y t =>
  if refuses 3 X Y then none
  else match cubicSlopes (entry X) (entry Y) X.length with
    | .error _ => none
    | .ok d => some (t.map (cubicAt (entry X) (entry Y) (entry d) X.length))

/-- `pchip(X, Y, x)`.  /repo/PyEMD/splines.py:62-64. -/
def pchip : Interp α := fun X Y t =>
  if refuses 2 X Y then none
  else some (t.map (cubicAt (entry X) (entry Y) (pchipSlope (entry X) (entry Y) X.length) X.length))

/-- `interp1d(X, Y, kind="linear")(t)` and `interp1d(X, Y, kind="slinear")(t)`.  /repo/PyEMD/EMD.py:495. -/
def linear : Interp α := fun X Y t =>
  if refuses 2 X Y then none
  else some (t.map (linearAt (entry X) (entry Y) X.length))

/-- Half way between the knots `i` and `i + 1`.  /repo/PyEMD/EMD.py:495. -/
def half (x : Nat → α) (i : Nat) : α := (x i + x (i + 1)) / lit 2

/-- Sub-diagonal of the system for the slopes of the quadratic spline half way between the knots.  /repo/PyEMD/EMD.py:495. -/
def quadA (x : Nat → α) (n i : Nat) : α :=
  if i = 0 ∨ i = n - 2 then lit 0 else dx x i / (dx x (i - 1) + dx x i)

/-- Diagonal of the system.  /repo/PyEMD/EMD.py:495. -/
def quadB (x : Nat → α) (n i : Nat) : α :=
  if i = 0 ∨ i = n - 2 then lit 1
  else lit 2 + dx x (i - 1) / (dx x (i - 1) + dx x i) + dx x (i + 1) / (dx x i + dx x (i + 1))

/-- Super-diagonal of the system.  /repo/PyEMD/EMD.py:495. -/
def quadC (x : Nat → α) (n i : Nat) : α :=
  if i = 0 ∨ i = n - 2 then lit 0 else dx x i / (dx x i + dx x (i + 1))

/-- Right-hand side of the system.  /repo/PyEMD/EMD.py:495. -/
def quadD (x y : Nat → α) (n i : Nat) : α :=
  if i = 0 ∨ i = n - 2 then secant x y i else lit 4 * secant x y i

/-- Slopes of the quadratic spline half way between the knots.  /repo/PyEMD/EMD.py:495. -/
def quadSlopes (x y : Nat → α) (n : Nat) : PyM (List α) :=
  Compact.tdma (quadA x n) (quadB x n) (quadC x n) (quadD x y n) (n - 1)

/-- The piece of the quadratic spline around knot `i`; `u` are the slopes half way between the knots.  /repo/PyEMD/EMD.py:495. -/
def quadPiece (x y u : Nat → α) (i : Nat) (t : α) : α :=
  let h0 := dx x (i - 1)
  let h1 := dx x i
  let s := t - x i
  ((u i - u (i - 1)) / (h0 + h1) * s + (h1 * u (i - 1) + h0 * u i) / (h0 + h1)) * s + y i

/-- `interp1d(X, Y, kind="quadratic")` at one point.  /repo/PyEMD/EMD.py:495. -/
def quadAt (x y u : Nat → α) (n : Nat) (t : α) : α := quadPiece x y u (interval (half x) t (n - 3) + 1) t

/-- `interp1d(X, Y, kind="quadratic")(t)`.  /repo/PyEMD/EMD.py:495. -/
def quadratic : Interp α := fun X Y t =>
  if refuses 3 X Y then none
  else match quadSlopes (entry X) (entry Y) X.length with
    | .error _ => none
    | .ok u => some (t.map (quadAt (entry X) (entry Y) (entry u) X.length))

/-- All interpolators.  /repo/PyEMD/splines.py:46-64, /repo/PyEMD/EMD.py:495. -/
def scipy : SciPy α where
  akima := akima
  cubic := cubic
  pchip := pchip
  cubicHermite := cubicHermite
  slinear := linear
  quadratic := quadratic
  linear := linear

end Scipy
end PyEMD
