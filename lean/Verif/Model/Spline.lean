import Verif.Model.Points

/-!
# Envelopes

Transcription of /repo/PyEMD/splines.py and `EMD.spline_points`, `EMD.extract_max_min_spline`.
-/

namespace PyEMD

variable {α : Type} [Add α] [Sub α] [Mul α] [Div α] [Neg α] [LT α] [LE α] [BEq α]
  [DecidableLT α] [DecidableLE α] [NpScalar α]

/-- A scipy interpolator: knot positions, knot values, evaluation points ↦ values; `none` when it raises. -/
abbrev Interp (α : Type) := List α → List α → List α → Option (List α)

/-- The scipy interpolators called in /repo/PyEMD/splines.py:46-48, 51-54, 57-59, 62-64 and /repo/PyEMD/EMD.py:495, as parameters. -/
structure SciPy (α : Type) where
  akima : Interp α
  cubic : Interp α
  pchip : Interp α
  cubicHermite : Interp α
  /-- `interp1d(kind="slinear")` -/
  slinear : Interp α
  /-- `interp1d(kind="quadratic")` -/
  quadratic : Interp α
  /-- `interp1d(kind="linear")` -/
  linear : Interp α

/-- An exception raised inside scipy (`ValueError` for bad knots). -/
def ofScipy {β : Type} : Option β → PyM β
  | some x => .ok x
  | none => .error .valueError

/-- 3x3 determinant. -/
def det3 (m11 m12 m13 m21 m22 m23 m31 m32 m33 : α) : α :=
  m11 * (m22 * m33 - m23 * m32) - m12 * (m21 * m33 - m23 * m31) + m13 * (m21 * m32 - m22 * m31)

/-- `np.linalg.solve` of a 3x3 system, modelled by Cramer's rule (the exact solution); numpy raises
`LinAlgError` (a `ValueError` subclass) for singular matrices. Used at /repo/PyEMD/splines.py:26. -/
def solve3 (m11 m12 m13 m21 m22 m23 m31 m32 m33 v1 v2 v3 : α) : PyM (α × α × α) :=
  let D := det3 m11 m12 m13 m21 m22 m23 m31 m32 m33
  if D == lit 0 then .error .valueError
  else .ok (det3 v1 m12 m13 v2 m22 m23 v3 m32 m33 / D,
            det3 m11 v1 m13 m21 v2 m23 m31 v3 m33 / D,
            det3 m11 m12 v1 m21 m22 v2 m31 m32 v3 / D)

/-- Coefficients of the three-point spline: slopes `k` at the knots.  /repo/PyEMD/splines.py:10-26. -/
def spline3Slopes (x0 x1 x2 y0 y1 y2 : α) : PyM (α × α × α) :=
  let x1x0 := x1 - x0
  let x2x1 := x2 - x1
  let y1y0 := y1 - y0
  let y2y1 := y2 - y1
  let _x1x0 := lit 1 / x1x0
  let _x2x1 := lit 1 / x2x1
  let v1 := lit 3 * y1y0 * _x1x0 * _x1x0
  let v3 := lit 3 * y2y1 * _x2x1 * _x2x1
  solve3 (lit 2 * _x1x0) _x1x0 (lit 0)
    _x1x0 (lit 2 * (_x1x0 + _x2x1)) _x2x1
    (lit 0) _x2x1 (lit 2 * _x2x1)
    v1 (v1 + v3) v3

/-- Value on one segment in the local coordinate `t` of that segment.  /repo/PyEMD/splines.py:28-40. -/
def spline3Seg (ya yb a b t : α) : α :=
  let t' := lit 1 - t
  t' * ya + t * yb + t * t' * (a * t' + b * t)

/-- `cubic_spline_3pts(x, y, T)`.  /repo/PyEMD/splines.py:5-43. -/
def cubicSpline3pts (x y T : List α) : PyM (List α × List α) :=
  match x, y with
  | [x0, x1, x2], [y0, y1, y2] => do
    let x1x0 := x1 - x0
    let x2x1 := x2 - x1
    let y1y0 := y1 - y0
    let y2y1 := y2 - y1
    let (k0, k1, k2) ← spline3Slopes x0 x1 x2 y0 y1 y2
    let a1 := k0 * x1x0 - y1y0
    let b1 := -k1 * x1x0 + y1y0
    let a2 := k1 * x2x1 - y2y1
    let b2 := -k2 * x2x1 + y2y1
    let t := T.filter (fun τ => decide (x0 ≤ τ) && decide (τ ≤ x2))
    let t1 := (T.filter (fun τ => decide (x0 ≤ τ) && decide (τ < x1))).map (fun τ => (τ - x0) / x1x0)
    let t2 := (T.filter (fun τ => decide (x1 ≤ τ) && decide (τ ≤ x2))).map (fun τ => (τ - x1) / x2x1)
    let q1 := t1.map (spline3Seg y0 y1 a1 b1)
    let q2 := t2.map (spline3Seg y1 y2 a2 b2)
    return (t, q1 ++ q2)
  | _, _ => .error .valueError

namespace EMD

/-- Values of the attribute `spline_kind` after `.lower()`; `unknown` is any other string.
/repo/PyEMD/EMD.py:476-498. -/
inductive SplineKind
  | akima
  | cubic
  | pchip
  | cubicHermite
  | slinear
  | quadratic
  | linear
  | unknown
  deriving DecidableEq, Repr

/-- `EMD.spline_points(T, extrema)`.  /repo/PyEMD/EMD.py:457-498. -/
def splinePoints (sp : SciPy α) (kind : SplineKind) (T : List α) (extrema : List (α × α)) :
    PyM (List α × List α) := do
  let X := extrema.map (·.1)
  let Y := extrema.map (·.2)
  let x0 ← pyGet X 0
  let xL ← pyGet X (-1)
  let t := T.filter (fun τ => decide (x0 ≤ τ) && decide (τ ≤ xL))
  match kind with
  | .akima => return (t, ← ofScipy (sp.akima X Y t))
  | .cubic =>
    if extrema.length > 3 then return (t, ← ofScipy (sp.cubic X Y t))
    else cubicSpline3pts X Y t
  | .pchip => return (t, ← ofScipy (sp.pchip X Y t))
  | .cubicHermite => return (t, ← ofScipy (sp.cubicHermite X Y t))
  | .slinear => return (T, ← ofScipy (sp.slinear X Y t))
  | .quadratic => return (T, ← ofScipy (sp.quadratic X Y t))
  | .linear => return (T, ← ofScipy (sp.linear X Y t))
  | .unknown => .error .valueError

/-- Envelopes and knots returned by `extract_max_min_spline`, /repo/PyEMD/EMD.py:163. -/
structure Envelopes (α : Type) where
  maxEnv : List α
  minEnv : List α
  eMax : List (α × α)
  eMin : List (α × α)

/-- `EMD.extract_max_min_spline(T, S)`; `none` stands for the return value `[-1] * 4` when there are fewer than
three extrema.  /repo/PyEMD/EMD.py:122-163. -/
def extractMaxMinSpline (sp : SciPy α) (detection : Detection) (kind : SplineKind) (nbsym : Int) (T S : List α) :
    PyM (Option (Envelopes α)) := do
  let e ← findExtrema detection T S
  if e.maxPos.length + e.minPos.length < 3 then return none
  else
    let (eMax, eMin) ← preparePoints detection nbsym T S e
    let (_, maxEnv) ← splinePoints sp kind T eMax
    let (_, minEnv) ← splinePoints sp kind T eMin
    return some { maxEnv, minEnv, eMax, eMin }

end EMD
end PyEMD
