import Verif.Model.Emd

/-!
# `EMD_matlab`

Transcription of the class `EMD` of /repo/PyEMD/EMD_matlab.py.  Logging and timing are not modelled; the common division and
multiplication by `scale = 1.0` (474-475, 621-622) are.  Of the data types only the conversions of the knots and envelopes to
`self.DTYPE` are modelled, by the function `convert`: the identity for floating samples, for signed integers see
`Verif/Model/MatlabInt.lean`.
-/

namespace PyEMD
namespace Matlab
open EMD (Extrema SplineKind)

variable {α : Type} [Add α] [Sub α] [Mul α] [Div α] [Neg α] [LT α] [LE α] [BEq α]
  [DecidableLT α] [DecidableLE α] [NpScalar α]

/-- Attributes read by `emd`.  /repo/PyEMD/EMD_matlab.py:45-63. -/
structure Cfg (α : Type) where
  splineKind : SplineKind
  nbsym : Int
  reduceScale : α
  maxIteration : Int
  FIXE : Int
  FIXE_H : Int
  stop1 : α
  stop2 : α
  stop3 : α
  MAX_ITERATION : Int
  /-- conversion of a floating value to `self.DTYPE` (217-218, 254, 259, 303, 471) -/
  convert : α → α

/-- `EMD()`.  /repo/PyEMD/EMD_matlab.py:45-63. -/
def Cfg.default : Cfg α where
  splineKind := .cubic
  nbsym := 2
  reduceScale := lit 1
  maxIteration := 500
  FIXE := 0
  FIXE_H := 0
  stop1 := lit (1 / 20)
  stop2 := lit (1 / 2)
  stop3 := lit (1 / 20)
  MAX_ITERATION := 1000
  convert := id

/-- First and one-past-last indices of the runs of equal samples, without a run that starts at index 1 and one that reaches the end.
/repo/PyEMD/EMD_matlab.py:351-366.  `debs` and `fins` have the same length, and `debs[0]` exists because some difference is zero. -/
def usedRuns (n : Nat) (d : List α) : List Nat × List Nat :=
  let bad := d.map (fun x => x == lit 0)
  let dd := runDiff bad
  let debs := nonzero (dd.map (fun x => x == 1))
  let fins := nonzero (dd.map (fun x => x == -1))
  let df :=
    if debs.head? = some 1 then (if debs.length > 1 then (debs.tail, fins.tail) else ([], []))
    else (debs, fins)
  if df.1.length > 0 then
    if df.2.getLast? = some (n - 1) then (if df.1.length > 1 then (df.1.dropLast, df.2.dropLast) else ([], []))
    else df
  else df

/-- The loop over the runs: middles of tops and bottoms.  /repo/PyEMD/EMD_matlab.py:368-376.  A run whose preceding difference is
not positive counts as a bottom if the signal rises after it. -/
def runLoop (d : List α) : List (Nat × Nat) → PyM (List Nat × List Nat)
  | [] => .ok ([], [])
  | (b, f) :: rest => do
    let before ← pyGet d ((b : Int) - 1)
    let after ← pyGet d (f : Int)
    let (imax, imin) ← runLoop d rest
    if lit 0 < before then
      if after < lit 0 then return (roundHalf (f + b) :: imax, imin)
      else return (imax, imin)
    else
      if lit 0 < after then return (imax, roundHalf (f + b) :: imin)
      else return (imax, imin)

/-- Indices of maxima and minima.  /repo/PyEMD/EMD_matlab.py:341-388. -/
def extremaIdx (s : List α) : PyM (List Nat × List Nat) := do
  let d := npDiff s
  let d1 := d.dropLast
  let d2 := d.tail
  let indmin := (nonzero (List.zipWith (fun a b => decide (a * b < lit 0) && decide (a < lit 0)) d1 d2)).map (· + 1)
  let indmax := (nonzero (List.zipWith (fun a b => decide (a * b < lit 0) && decide (lit 0 < a)) d1 d2)).map (· + 1)
  if d.any (fun x => x == lit 0) then
    let df := usedRuns s.length d
    let (imax, imin) ← runLoop d (df.1.zip df.2)
    let indmax := if imax.length > 0 then npSort (indmax ++ imax) else indmax
    let indmin := if imin.length > 0 then npSort (indmin ++ imin) else indmin
    return (indmax, indmin)
  else return (indmax, indmin)

/-- `findExtrema(t, s)`.  /repo/PyEMD/EMD_matlab.py:305-395.  The zero crossings (324-339) are computed by the statements of
/repo/PyEMD/EMD.py:622-633, whose transcription is used. -/
def findExtrema (t s : List α) : PyM (Extrema α) := do
  let indzer := EMD.zeroCrossings s
  let (indmax, indmin) ← extremaIdx s
  let imax := indmax.map (fun k : Nat => (k : Int))
  let imin := indmin.map (fun k : Nat => (k : Int))
  let maxPos ← pyTake t imax
  let maxVal ← pyTake s imax
  let minPos ← pyTake t imin
  let minVal ← pyTake s imin
  return { maxPos, maxVal, minPos, minVal, indzer }

/-- Indices of the time stamps `pos`: `np.array([np.nonzero(T == t)[0] for t in pos]).flatten()`.
/repo/PyEMD/EMD_matlab.py:115-116.  numpy refuses rows of different lengths. -/
def timeIdx (T pos : List α) : PyM (List Int) :=
  let rows := pos.map (fun t => nonzero (T.map (fun τ => τ == t)))
  if rows.all (fun r => decide (r.length = (rows.headD []).length)) then
    .ok (rows.flatten.map (fun k : Nat => (k : Int)))
  else .error .valueError

/-- The message of the bare exceptions is "bug".  /repo/PyEMD/EMD_matlab.py:188, 201. -/
def asBug {β : Type} : PyM β → PyM β
  | .error (.exception _) => .error (.exception "bug")
  | x => x

/-- `preparePoints`.  /repo/PyEMD/EMD_matlab.py:94-224.  The statements of lines 118-205 are those of /repo/PyEMD/EMD.py:350-434
(up to the message of the exceptions), whose transcription is used.  `convert` is the conversion of the values at the knots to
`self.DTYPE` (217-218); the times are of that type already. -/
def preparePoints (convert : α → α) (nbsym : Int) (S T : List α) (maxPos minPos : List α) : PyM (List (α × α) × List (α × α)) := do
  let indmin ← timeIdx T minPos
  let indmax ← timeIdx T maxPos
  let l ← EMD.leftBound nbsym S indmax indmin
  let r ← EMD.rightBound nbsym S indmax indmin
  let l := EMD.fillMissing indmax indmin l
  let r := EMD.fillMissing indmax indmin r
  let l ← asBug (EMD.leftMirror nbsym T indmax indmin l)
  let r ← asBug (EMD.rightMirror nbsym T S.length indmax indmin r)
  let zlmax ← pyTake S l.mx
  let zlmin ← pyTake S l.mn
  let zrmax ← pyTake S r.mx
  let zrmin ← pyTake S r.mn
  let tcmin ← pyTake T indmin
  let tcmax ← pyTake T indmax
  let zcmin ← pyTake S indmin
  let zcmax ← pyTake S indmax
  let tmin := l.tmn ++ (tcmin ++ r.tmn)
  let tmax := l.tmx ++ (tcmax ++ r.tmx)
  let zmin := zlmin ++ (zcmin ++ zrmin)
  let zmax := zlmax ++ (zcmax ++ zrmax)
  return (EMD.dropDupKnots (tmax.zip (zmax.map convert)), EMD.dropDupKnots (tmin.zip (zmin.map convert)))

/-- `splinePoints`.  /repo/PyEMD/EMD_matlab.py:226-262.  `sp.cubic` is `interp1d(kind="cubic")` here.  `cubicSpline_3points`
(/repo/PyEMD/EMD_matlab.py:264-303) is the text of /repo/PyEMD/splines.py:5-43 with `inv(M) * v` for `solve(M, v)`: the same exact solution.
`convert` is `.astype(self.DTYPE)` (254, 259, 303); the values of the Akima spline are not converted (250). -/
def splinePoints (convert : α → α) (sp : SciPy α) (T : List α) (extrema : List (α × α)) (kind : SplineKind) :
    PyM (List α × List α) := do
  let X := extrema.map (·.1)
  let Y := extrema.map (·.2)
  let x0 ← pyGet X 0
  let xL ← pyGet X (-1)
  let t := T.filter (fun τ => decide (x0 ≤ τ) && decide (τ ≤ xL))
  match kind with
  | .akima => return (t, ← ofScipy (sp.akima X Y t))
  | .cubic =>
    if extrema.length > 3 then return (t, (← ofScipy (sp.cubic X Y t)).map convert)
    else
      let (t, q) ← cubicSpline3pts X Y T
      return (t, q.map convert)
  | .slinear => return (T, (← ofScipy (sp.slinear X Y t)).map convert)
  | .quadratic => return (T, (← ofScipy (sp.quadratic X Y t)).map convert)
  | .linear => return (T, (← ofScipy (sp.linear X Y t)).map convert)
  | _ => .error .valueError

/-- `extractMaxMinSpline`: upper and lower envelope; `none` is the list `[-1] * 4` returned for fewer than three extrema.
/repo/PyEMD/EMD_matlab.py:65-92. -/
def extractMaxMinSpline (sp : SciPy α) (cfg : Cfg α) (T S : List α) : PyM (Option (List α × List α)) := do
  let e ← findExtrema T S
  if e.maxPos.length + e.minPos.length < 3 then return none
  else
    let (maxExtrema, minExtrema) ← preparePoints cfg.convert cfg.nbsym S T e.maxPos e.minPos
    let (_, maxSpline) ← splinePoints cfg.convert sp T maxExtrema cfg.splineKind
    let (_, minSpline) ← splinePoints cfg.convert sp T minExtrema cfg.splineKind
    return some (maxSpline, minSpline)

/-- `num / den > thr` for numpy floats: a positive number over zero is inf, zero over zero is NaN.
/repo/PyEMD/EMD_matlab.py:420-423. -/
def divGt (num den thr : α) : Bool := if den == lit 0 then decide (lit 0 < num) else decide (thr < num / den)

/-- `stop_sifting`.  /repo/PyEMD/EMD_matlab.py:397-429. -/
def stopSifting (cfg : Cfg α) (envMax envMin mean : List α) (extNo : Int) : PyM Bool := do
  let diff ← bcast (fun a b => a - b) envMax envMin
  let amp := diff.map (fun x => pyAbs x / lit 2)
  let over := fun stop => List.zipWith (fun m a => divGt (pyAbs m) a stop) mean amp
  let f1 := divGt (lit (((over cfg.stop1).filter id).length : ℚ)) (lit ((over cfg.stop1).length : ℚ)) cfg.stop3
  let f2 := (over cfg.stop2).any id
  let f3 := decide (extNo > 2)
  return !(f1 || f2) && f3

/-- Local variables of the inner loop.  /repo/PyEMD/EMD_matlab.py:508-513. -/
structure Sift (α : Type) where
  n : Int
  nh : Int
  extNo : Int
  imf : List α
  mean : List α

/-- Why the inner loop ended.  /repo/PyEMD/EMD_matlab.py:520-600. -/
inductive SiftEnd
  /-- `n < self.MAX_ITERATION` is false, line 520 -/
  | limit
  /-- the envelopes could not be built, lines 541-543 -/
  | lost
  /-- more than `maxIteration` iterations, lines 557-559 -/
  | tooMany
  /-- line 564 -/
  | fixe
  /-- line 583 -/
  | fixeH
  /-- line 596 -/
  | converged
  /-- at most two extrema, lines 598-600 -/
  | trend
  deriving DecidableEq, Repr

/-- Outcome of the body of the inner loop.  /repo/PyEMD/EMD_matlab.py:521-600. -/
inductive SiftStep (α : Type)
  | cont (s : Sift α)
  | brk (s : Sift α) (why : SiftEnd)

/-- Number of extrema and of zero crossings.  /repo/PyEMD/EMD_matlab.py:526-531, 569-572, 587-589. -/
def countExt (T imf : List α) : PyM (Int × Int) := do
  let e ← findExtrema T imf
  return ((e.minPos.length : Int) + (e.maxPos.length : Int), (e.indzer.length : Int))

/-- Body of the inner loop.  /repo/PyEMD/EMD_matlab.py:521-600. -/
def siftBody (sp : SciPy α) (cfg : Cfg α) (T : List α) (s : Sift α) : PyM (SiftStep α) := do
  let n := s.n + 1
  let (extNo, _) ← countExt T s.imf
  if extNo > 2 then
    let imf ← bcast (fun a b => a - b) s.imf (s.mean.map (fun m => cfg.reduceScale * m))
    match ← extractMaxMinSpline sp cfg T imf with
    | none => return .brk { s with n, extNo, imf } .lost
    | some (maxEnv, minEnv) =>
      let sum ← bcast (fun a b => a + b) maxEnv minEnv
      let mean := sum.map (fun x => lit (1 / 2) * x)
      if n > cfg.maxIteration then return .brk { s with n, extNo, imf, mean } .tooMany
      else if cfg.FIXE ≠ 0 then
        if n ≥ cfg.FIXE + 1 then return .brk { s with n, extNo, imf, mean } .fixe
        else return .cont { s with n, extNo, imf, mean }
      else if cfg.FIXE_H ≠ 0 then
        let (extNo, nzm) ← countExt T imf
        if n = 1 then return .cont { s with n, extNo, imf, mean }
        else
          let nh := if |extNo - nzm| > 1 then 0 else s.nh + 1
          if nh ≥ cfg.FIXE_H then return .brk { n, nh, extNo, imf, mean } .fixeH
          else return .cont { n, nh, extNo, imf, mean }
      else
        let (extNo, nzm) ← countExt T imf
        let f1 ← stopSifting cfg maxEnv minEnv mean extNo
        let f2 := decide (|extNo - nzm| < 2)
        if f1 && f2 then return .brk { s with n, extNo, imf, mean } .converged
        else return .cont { s with n, extNo, imf, mean }
  else return .brk { s with n, extNo } .trend

/-- The inner loop `while n < self.MAX_ITERATION`.  /repo/PyEMD/EMD_matlab.py:520-600.  `fuel` is one more than the number of
iterations left, so it is never exhausted. -/
def siftLoop (sp : SciPy α) (cfg : Cfg α) (T : List α) : Nat → Sift α → PyM (Sift α × SiftEnd)
  | 0, _ => .error .outOfFuel
  | fuel + 1, s =>
    if s.n < cfg.MAX_ITERATION then do
      match ← siftBody sp cfg T s with
      | .brk s' why => return (s', why)
      | .cont s' => siftLoop sp cfg T fuel s'
    else .ok (s, .limit)

/-- `d[key] = value` for a dictionary with integer keys, in order of insertion.  /repo/PyEMD/EMD_matlab.py:602-604, 615-617. -/
def dictSet {β : Type} : List (Nat × β) → Nat → β → List (Nat × β)
  | [], k, v => [(k, v)]
  | p :: r, k, v => if p.1 = k then (k, v) :: r else p :: dictSet r k v

/-- Variables of the outer loop.  /repo/PyEMD/EMD_matlab.py:495-501. -/
structure State (α : Type) where
  Res : List α
  imf : List α
  IMF : List (Nat × List α)
  EXT : List (Nat × Int)
  ITER : List (Nat × Int)
  imfNo : Nat
  extNo : Int
  /-- not in the code: why the inner loop ended, round by round -/
  ends : List SiftEnd

/-- One round of the outer loop; the flag tells whether it is the last one.  /repo/PyEMD/EMD_matlab.py:503-610.  `Res -= imf` is in
place, so the shape of `Res` stays. -/
def emdRound (sp : SciPy α) (cfg : Cfg α) (T : List α) (n : Nat) (maxImf : Int) (st : State α) : PyM (State α × Bool) := do
  if st.imf.length ≠ st.Res.length then .error .valueError
  else
    let Res := vsub st.Res st.imf
    let (s, why) ← siftLoop sp cfg T (cfg.MAX_ITERATION.toNat + 1)
      { n := 0, nh := 0, extNo := st.extNo, imf := Res, mean := vzeros n }
    let imfNo := st.imfNo + 1
    return ({ Res, imf := s.imf, IMF := dictSet st.IMF st.imfNo s.imf, EXT := dictSet st.EXT st.imfNo s.extNo,
              ITER := dictSet st.ITER st.imfNo s.n, imfNo, extNo := s.extNo, ends := st.ends ++ [why] },
            why == .trend || decide ((imfNo : Int) = maxImf - 1))

/-- `while notFinish`.  /repo/PyEMD/EMD_matlab.py:503-610. -/
def emdLoop (sp : SciPy α) (cfg : Cfg α) (T : List α) (n : Nat) (maxImf : Int) : Nat → State α → PyM (State α)
  | 0, _ => .error .outOfFuel
  | fuel + 1, st => do
    let (st, fin) ← emdRound sp cfg T n maxImf st
    if fin then return st else emdLoop sp cfg T n maxImf fuel st

/-- `IMF[i]` for every `i` in `ks`; `KeyError` (a `LookupError`, like `IndexError`) for a missing key.
/repo/PyEMD/EMD_matlab.py:613. -/
def dictGets {β : Type} (d : List (Nat × β)) : List Nat → PyM (List β)
  | [] => .ok []
  | k :: ks => do
    match d.lookup k with
    | none => .error .indexError
    | some v =>
      let vs ← dictGets d ks
      return v :: vs

/-- What `emd` returns.  /repo/PyEMD/EMD_matlab.py:623. -/
structure Result (α : Type) where
  IMF : List (Nat × List α)
  EXT : List (Nat × Int)
  ITER : List (Nat × Int)
  imfNo : Nat
  ends : List SiftEnd

/-- Residue, appended if it is meaningful.  /repo/PyEMD/EMD_matlab.py:612-623.  Rows of different shapes cannot be summed. -/
def finish (scaledS : List α) (scale : α) (st : State α) : PyM (Result α) := do
  let rows ← dictGets st.IMF (List.range st.imfNo)
  if rows.all (fun r => decide (r.length = scaledS.length)) then
    let Res := vsub scaledS (sumRows scaledS.length rows)
    let more := decide (lit (1 / 10000000000) < npSum (Res.map pyAbs))
    let IMF := if more then dictSet st.IMF st.imfNo Res else st.IMF
    let ITER := if more then dictSet st.ITER st.imfNo 0 else st.ITER
    let EXT := if more then dictSet st.EXT st.imfNo st.extNo else st.EXT
    let imfNo := if more then st.imfNo + 1 else st.imfNo
    return { IMF := IMF.map (fun p => (p.1, p.2.map (fun x => x * scale))), EXT, ITER, imfNo, ends := st.ends }
  else .error .valueError

/-- `emd(S, T, maxImf)`; `maxImf = None` is `-1`.  /repo/PyEMD/EMD_matlab.py:431-623. -/
def emd (fuel : Nat) (sp : SciPy α) (cfg : Cfg α) (S : List α) (T : Option (List α)) (maxImf : Int) : PyM (Result α) := do
  let T := T.getD ((List.range S.length).map (fun k : Nat => lit (k : ℚ)))
  let scale : α := lit 1
  let Res := S.map (fun x => x / scale)
  let scaledS := S.map (fun x => x / scale)
  if S.length ≠ T.length then .error .valueError
  else
    let st ← emdLoop sp cfg T S.length maxImf fuel
      { Res, imf := vzeros S.length, IMF := [], EXT := [], ITER := [], imfNo := 0, extNo := 0, ends := [] }
    finish scaledS scale st

end Matlab
end PyEMD
