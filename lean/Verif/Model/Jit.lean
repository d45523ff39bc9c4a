import Verif.Model.Emd

/-!
# `JitEMD`

Transcription of /repo/PyEMD/experimental/jitemd.py.  numba compiles the same Python text, so the model is of that text, with
numba's own rule that a division of two scalars by zero raises `ZeroDivisionError`.  The values of the configuration dictionary
(floats) that count something are integers here.  Simplification: compiled code does not check array bounds; where it would read
past the end of an array the model raises `IndexError`.

Helpers whose text is that of the reference are not transcribed twice: `np_round` (/repo/PyEMD/experimental/jitemd.py:84-87) is
`np.round`, `_not_duplicate` (/repo/PyEMD/experimental/jitemd.py:90-100) and `_find_extrema_parabol`
(/repo/PyEMD/experimental/jitemd.py:230-287) are those of `EMD.findExtremaParabol`, `cubic_spline_3pts`
(/repo/PyEMD/experimental/jitemd.py:103-142) is `cubicSpline3pts`, `akima` (/repo/PyEMD/experimental/jitemd.py:145-148) is the
field of `SciPy`, `nb_diff` (/repo/PyEMD/experimental/jitemd.py:151-153) is `npDiff`, `_prepare_points_parabol`
(/repo/PyEMD/experimental/jitemd.py:374-484) is `EMD.preparePointsParabol`, `get_timeline` and `smallest_inclusive_dtype`
(/repo/PyEMD/experimental/jitemd.py:927-942, 945-973) are those of `Model/Utils.lean`.  `_normalize_time`
(/repo/PyEMD/experimental/jitemd.py:767-775) is never called.
-/

namespace PyEMD
namespace Jit
open EMD (Extrema Detection SplineKind Cfg Envelopes Sift SiftEnd SiftStep Round Mirror Mirrored)

variable {α : Type} [Add α] [Sub α] [Mul α] [Div α] [Neg α] [LT α] [LE α] [BEq α]
  [DecidableLT α] [DecidableLE α] [NpScalar α]

/-- Zero-crossing indices.  /repo/PyEMD/experimental/jitemd.py:162-176 (and 236-249). -/
def zeroCrossings (S : List α) : List Nat :=
  let S1 := S.dropLast
  let S2 := S.tail
  let indzer := nonzero (List.zipWith (fun a b => decide (a * b < lit 0)) S1 S2)
  let zer := S.map (fun s => s == lit 0)
  if zer.any id then
    let indz := nonzero zer
    let indz :=
      if (npDiff (indz.map (fun k : Nat => (k : Int)))).any (fun x => x == 1) then
        let dz := runDiff zer
        let debz := nonzero (dz.map (fun x => x == 1))
        let finz := (nonzero (dz.map (fun x => x == -1))).map (fun k => k - 1)
        List.zipWith (fun a b => roundHalf (a + b)) debz finz
      else indz
    npSort (indzer ++ indz)
  else indzer

/-- First and one-past-last indices of the runs of equal samples, without a run that starts at index 1 and one that reaches the end.
/repo/PyEMD/experimental/jitemd.py:190-201. -/
def usedRuns (n : Nat) (d : List α) : List Nat × List Nat :=
  let same_values := d.map (fun x => x == lit 0)
  let dd := runDiff same_values
  let left := nonzero (dd.map (fun x => x == 1))
  let right := nonzero (dd.map (fun x => x == -1))
  let lr := if left.head? = some 1 then (left.tail, right.tail) else (left, right)
  if lr.1.length > 0 ∧ lr.2.getLast? = some (n - 1) then (lr.1.dropLast, lr.2.dropLast) else lr

/-- The loop over the runs; collects the middles of tops and bottoms.  /repo/PyEMD/experimental/jitemd.py:203-210.  Every run has a
first and a last index, so the two arrays are walked together. -/
def runLoop (d : List α) : List (Nat × Nat) → PyM (List Nat × List Nat)
  | [] => .ok ([], [])
  | (l, r) :: rest => do
    let left_value ← pyGet d ((l : Int) - 1)
    let right_value ← pyGet d (r : Int)
    let mid := roundHalf (l + r)
    let (imax, imin) ← runLoop d rest
    if lit 0 < left_value ∧ right_value < lit 0 then return (mid :: imax, imin)
    else if left_value < lit 0 ∧ lit 0 < right_value then return (imax, mid :: imin)
    else return (imax, imin)

/-- Indices of maxima and minima.  /repo/PyEMD/experimental/jitemd.py:178-218. -/
def extremaIdx (S : List α) : PyM (List Nat × List Nat) := do
  let d := npDiff S
  let d1 := d.dropLast
  let d2 := d.tail
  let indmin := (nonzero (List.zipWith (fun a b => decide (a * b < lit 0) && decide (a < lit 0)) d1 d2)).map (· + 1)
  let indmax := (nonzero (List.zipWith (fun a b => decide (a * b < lit 0) && decide (lit 0 < a)) d1 d2)).map (· + 1)
  if d.any (fun x => x == lit 0) then
    let lr := usedRuns S.length d
    let (imax, imin) ← runLoop d (lr.1.zip lr.2)
    let indmax := if imax.length > 0 then npSort (indmax ++ imax) else indmax
    let indmin := if imin.length > 0 then npSort (indmin ++ imin) else indmin
    return (indmax, indmin)
  else return (indmax, indmin)

/-- `_find_extrema_simple(T, S)`: positions are indices, whatever `T`.  /repo/PyEMD/experimental/jitemd.py:160-227. -/
def findExtremaSimple (S : List α) : PyM (Extrema α) := do
  let indzer := zeroCrossings S
  let (indmax, indmin) ← extremaIdx S
  let maxVal ← pyTake S (indmax.map (fun k : Nat => (k : Int)))
  let minVal ← pyTake S (indmin.map (fun k : Nat => (k : Int)))
  return { maxPos := indmax.map (fun k : Nat => lit (k : ℚ)), maxVal,
           minPos := indmin.map (fun k : Nat => lit (k : ℚ)), minVal, indzer }

/-- `find_extrema`.  /repo/PyEMD/experimental/jitemd.py:290-324.  The text of `_find_extrema_parabol` (230-287) is that of
/repo/PyEMD/EMD.py:552-610, whose transcription is used. -/
def findExtrema (detection : Detection) (T S : List α) : PyM (Extrema α) :=
  match detection with
  | .parabol => EMD.findExtremaParabol T S
  | .simple => findExtremaSimple S
  | .unknown => .error .valueError

/-- The knots kept after the predecessor `p`: those whose position differs from that of the knot before them.
/repo/PyEMD/experimental/jitemd.py:602-606, 608-612. -/
def keepAfter (p : α × α) : List (α × α) → List (α × α)
  | [] => []
  | q :: r => if q.1 == p.1 then keepAfter q r else q :: keepAfter q r

/-- Removal of repeated positions.  /repo/PyEMD/experimental/jitemd.py:600-612. -/
def dropDup : List (α × α) → List (α × α)
  | [] => []
  | p :: r => p :: keepAfter p r

/-- `_prepare_points_simple`.  /repo/PyEMD/experimental/jitemd.py:487-614.  The text of lines 502-585 is that of
/repo/PyEMD/EMD.py:350-434, whose transcription is used. -/
def preparePointsSimple (nbsym : Int) (T S : List α) (maxPos minPos : List α) :
    PyM (List (α × α) × List (α × α)) := do
  let ind_min := minPos.map toInt
  let ind_max := maxPos.map toInt
  let l ← EMD.leftBound nbsym S ind_max ind_min
  let r ← EMD.rightBound nbsym S ind_max ind_min
  let l := EMD.fillMissing ind_max ind_min l
  let r := EMD.fillMissing ind_max ind_min r
  let l ← EMD.leftMirror nbsym T ind_max ind_min l
  let r ← EMD.rightMirror nbsym T S.length ind_max ind_min r
  let zlmax ← pyTake S l.mx
  let zlmin ← pyTake S l.mn
  let zrmax ← pyTake S r.mx
  let zrmin ← pyTake S r.mn
  let tcmin ← pyTake T ind_min
  let tcmax ← pyTake T ind_max
  let zcmin ← pyTake S ind_min
  let zcmax ← pyTake S ind_max
  let tmin := l.tmn ++ (tcmin ++ r.tmn)
  let tmax := l.tmx ++ (tcmax ++ r.tmx)
  let zmin := zlmin ++ (zcmin ++ zrmin)
  let zmax := zlmax ++ (zcmax ++ zrmax)
  return (dropDup (tmax.zip zmax), dropDup (tmin.zip zmin))

/-- `prepare_points`.  /repo/PyEMD/experimental/jitemd.py:327-371.  The text of `_prepare_points_parabol` (374-484) is that of
/repo/PyEMD/EMD.py:209-325, whose transcription is used. -/
def preparePoints (detection : Detection) (nbsym : Int) (T S : List α) (e : Extrema α) :
    PyM (List (α × α) × List (α × α)) :=
  match detection with
  | .parabol => EMD.preparePointsParabol nbsym T S e.maxPos e.maxVal e.minPos e.minVal
  | .simple => preparePointsSimple nbsym T S e.maxPos e.minPos
  | .unknown => .error .valueError

/-- `spline_points`.  /repo/PyEMD/experimental/jitemd.py:617-640.  `sp.cubic` is `interp1d(kind="cubic")` here.  For three knots,
`cubic_spline_3pts` (103-142) is the text of /repo/PyEMD/splines.py:5-43 with `inv(M).dot(v)` for `solve(M, v)`: the same exact
solution. -/
def splinePoints (sp : SciPy α) (kind : SplineKind) (T : List α) (extrema : List (α × α)) :
    PyM (List α × List α) := do
  let X := extrema.map (·.1)
  let Y := extrema.map (·.2)
  let x0 ← pyGet X 0
  let xL ← pyGet X (-1)
  let t := T.filter (fun τ => decide (x0 ≤ τ) && decide (τ ≤ xL))
  match kind with
  | .akima => return (t, ← ofScipy (sp.akima X Y t))
  | .cubic =>
    if extrema.length > 3 then return (t, ← ofScipy (sp.cubic X Y t))
    else cubicSpline3pts X Y t
  | .slinear => return (T, ← ofScipy (sp.slinear X Y t))
  | .quadratic => return (T, ← ofScipy (sp.quadratic X Y t))
  | .linear => return (T, ← ofScipy (sp.linear X Y t))
  | _ => .error .valueError

/-- `extract_max_min_extrema`; `none` stands for the pair of 1x1 arrays returned for fewer than three extrema.
/repo/PyEMD/experimental/jitemd.py:643-688. -/
def extractMaxMinExtrema (detection : Detection) (nbsym : Int) (T S : List α) :
    PyM (Option (List (α × α) × List (α × α))) := do
  let e ← findExtrema detection T S
  if e.maxPos.length + e.minPos.length < 3 then return none
  else return some (← preparePoints detection nbsym T S e)

/-- `end_condition`.  /repo/PyEMD/experimental/jitemd.py:691-719. -/
def endCondition (cfg : Cfg α) (S : List α) (IMF : List (List α)) : PyM Bool := do
  let tmp := vsub S (sumRows S.length IMF)
  let mx ← npMaxE tmp
  let mn ← npMinE tmp
  if mx - mn < cfg.rangeThr then return true
  else if npSum (tmp.map pyAbs) < cfg.totalPowerThr then return true
  else return false

/-- Division of two scalars in compiled code: `ZeroDivisionError`, not inf or NaN. -/
def scalarDiv (a b : α) : PyM α := if b == lit 0 then .error .zeroDivisionError else .ok (a / b)

/-- `check_imf`.  /repo/PyEMD/experimental/jitemd.py:722-764. -/
def checkImf (cfg : Cfg α) (imfNew imfOld : List α) (eMax eMin : List (α × α)) : PyM Bool := do
  if (eMax.filter (fun p => decide (p.2 < lit 0))).length + (eMin.filter (fun p => decide (lit 0 < p.2))).length > 0 then
    return false
  else if npSum (imfNew.map (fun x => x * x)) < lit (1 / 10000000000) then return false
  else
    let imfDiff := vsub imfNew imfOld
    let imfDiffSqrdSum := npSum (imfDiff.map (fun x => x * x))
    let mx ← pyMax imfOld
    let mn ← pyMin imfOld
    let svar ← scalarDiv imfDiffSqrdSum (mx - mn)
    if svar < cfg.svarThr then return true
    else if (!imfNew.any (fun x => x == lit 0)) &&
        decide (npSum ((List.zipWith (fun a b => a / b) imfDiff imfNew).map (fun x => x * x)) < cfg.stdThr) then
      return true
    else
      let energy_ratio ← scalarDiv imfDiffSqrdSum (npSum (imfOld.map (fun x => x * x)))
      if energy_ratio < cfg.energyRatioThr then return true
      else return false

/-- Number of extrema and number of zero crossings.  /repo/PyEMD/experimental/jitemd.py:847-850, 869-871, 885-888. -/
def countExt (cfg : Cfg α) (T S : List α) : PyM (Int × Int) := do
  let e ← findExtrema cfg.detection T S
  return ((e.minPos.length : Int) + (e.maxPos.length : Int), (e.indzer.length : Int))

/-- One subtraction of the envelope mean.  /repo/PyEMD/experimental/jitemd.py:853-859.  `mean` is a new array, subtracted with
broadcasting.  The `none` case is unreachable: the extrema have been counted just before. -/
def siftOnce (sp : SciPy α) (cfg : Cfg α) (T imf : List α) :
    PyM (List α × List (α × α) × List (α × α)) := do
  match ← extractMaxMinExtrema cfg.detection cfg.nbsym T imf with
  | none => .error .typeError
  | some (eMax, eMin) =>
    let (_, maxEnv) ← splinePoints sp cfg.splineKind T eMax
    let (_, minEnv) ← splinePoints sp cfg.splineKind T eMin
    let s ← bcast (fun a b => a + b) maxEnv minEnv
    let mean := s.map (fun x => lit (1 / 2) * x)
    return (← bcast (fun a b => a - b) imf mean, eMax, eMin)

/-- Body of the inner loop.  /repo/PyEMD/experimental/jitemd.py:842-902.  `if imf_old is np.nan: continue` (890-891) is dead code. -/
def siftBody (sp : SciPy α) (cfg : Cfg α) (T : List α) (s : Sift α) : PyM (SiftStep α) := do
  let n := s.n + 1
  if cfg.MAX_ITERATION ≤ n then return .brk { s with n } .maxIter
  else
    let (extNo, _) ← countExt cfg T s.imf
    if extNo > 2 then
      let (imf, eMax, eMin) ← siftOnce sp cfg T s.imf
      let subs := s.subs + 1
      if cfg.FIXE ≠ 0 then
        if cfg.FIXE ≤ n then return .brk { s with n, extNo, imf, subs } .fixe
        else return .cont { s with n, extNo, imf, subs }
      else if cfg.FIXE_H ≠ 0 then
        let (extNo, nzm) ← countExt cfg T imf
        if n = 1 then return .cont { s with n, extNo, imf, subs }
        else
          let nh := if |extNo - nzm| < 2 then s.nh + 1 else 0
          if cfg.FIXE_H ≤ nh then return .brk { n, nh, extNo, imf, subs } .fixeH
          else return .cont { n, nh, extNo, imf, subs }
      else
        let (extNo, nzm) ← countExt cfg T imf
        let f1 ← checkImf cfg imf s.imf eMax eMin
        let f2 := decide (|extNo - nzm| < 2)
        if f1 && f2 then return .brk { s with n, extNo, imf, subs } .converged
        else return .cont { s with n, extNo, imf, subs }
    else return .brk { s with n, extNo } .trend

/-- The inner `while True` loop.  /repo/PyEMD/experimental/jitemd.py:842-903. -/
def siftLoop (sp : SciPy α) (cfg : Cfg α) (T : List α) : Nat → Sift α → PyM (Sift α × SiftEnd)
  | 0, _ => .error .outOfFuel
  | fuel + 1, s => do
    match ← siftBody sp cfg T s with
    | .brk s' why => return (s', why)
    | .cont s' => siftLoop sp cfg T fuel s'

/-- One round of the outer loop.  /repo/PyEMD/experimental/jitemd.py:834-903; the fuel is that of the reference, which suffices for
the same reason: the counter reaches `MAX_ITERATION`. -/
def emdRound (sp : SciPy α) (cfg : Cfg α) (T S : List α) (IMF : List (List α)) (extNo : Int) :
    PyM (Sift α × SiftEnd) :=
  let residue := vsub S (sumRows S.length IMF)
  siftLoop sp cfg T (EMD.siftFuel cfg) { n := 0, nh := 0, extNo, imf := residue, subs := 0 }

/-- `np.vstack((IMF, row))` for a 2-D array with `n` columns.  /repo/PyEMD/experimental/jitemd.py:905, 922. -/
def vstack (n : Nat) (IMF : List (List α)) (row : List α) : PyM (List (List α)) :=
  if row.length = n then .ok (IMF ++ [row]) else .error .valueError

/-- The outer `while not finished` loop: the rows found and the final `extNo`.  /repo/PyEMD/experimental/jitemd.py:833-910. -/
def emdLoop (sp : SciPy α) (cfg : Cfg α) (T S : List α) (max_imf : Int) :
    Nat → List (List α) → Int → PyM (List (List α) × Int)
  | 0, _, _ => .error .outOfFuel
  | fuel + 1, IMF, extNo => do
    let (s, why) ← emdRound sp cfg T S IMF extNo
    let IMF ← vstack S.length IMF s.imf
    let fin ← endCondition cfg S IMF
    if fin || decide ((IMF.length : Int) = max_imf) || why == .trend then return (IMF, s.extNo)
    else emdLoop sp cfg T S max_imf fuel IMF s.extNo

/-- The module function `emd`.  /repo/PyEMD/experimental/jitemd.py:778-924. -/
def emd (fuel : Nat) (sp : SciPy α) (cfg : Cfg α) (S T : List α) (max_imf : Int) : PyM (List (List α)) := do
  if S.length ≠ T.length then .error .valueError
  else
    let (IMF, extNo) ← emdLoop sp cfg T S max_imf fuel [] (-1)
    let imfs := if extNo ≤ 2 then IMF.dropLast else IMF
    let residue := vsub S (sumRows S.length imfs)
    if !allclose0 residue then vstack S.length imfs residue
    else return imfs

/-- A `JitEMD` object.  /repo/PyEMD/experimental/jitemd.py:53-60.  The residue is a 2-D array with at most one row. -/
structure Obj (α : Type) where
  cfg : Cfg α
  imfs : Option (List (List α))
  residue : Option (List (List α))

/-- `JitEMD.__init__`: nothing is checked.  /repo/PyEMD/experimental/jitemd.py:54-60. -/
def Obj.new (cfg : Cfg α) : Obj α := { cfg, imfs := none, residue := none }

/-- `JitEMD.emd`.  /repo/PyEMD/experimental/jitemd.py:67-78. -/
def Obj.emd (fuel : Nat) (sp : SciPy α) (o : Obj α) (S T : List α) (max_imf : Int) : PyM (List (List α)) × Obj α :=
  match Jit.emd fuel sp o.cfg S T max_imf with
  | .ok R => (.ok R, { o with imfs := some (pySlice R 0 (-1)), residue := some (pySliceFrom R (-1)) })
  | .error e => (.error e, o)

/-- `JitEMD.get_imfs_and_trend`: components and rows of the trend.  /repo/PyEMD/experimental/jitemd.py:62-65.  Before the first call
of `emd`, `np.allclose(None, 0)` raises `TypeError`.  In the first branch the trend is one row of the components, here as a list of
one row. -/
def Obj.getImfsAndTrend (o : Obj α) : PyM (List (List α) × List (List α)) :=
  match o.imfs, o.residue with
  | some imfs, some residue =>
    if residue.all allclose0 then do
      let last ← pyGet imfs (-1)
      return (pySlice imfs 0 (-1), [last])
    else .ok (imfs, residue)
  | _, _ => .error .typeError

end Jit
end PyEMD
