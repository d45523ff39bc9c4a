import Verif.Model.Py

/-!
# Extremum and zero-crossing detection of `EMD`

Transcription of /repo/PyEMD/EMD.py:500-687.
-/

namespace PyEMD
namespace EMD

variable {α : Type} [Add α] [Sub α] [Mul α] [Div α] [Neg α] [LT α] [LE α] [BEq α]
  [DecidableLT α] [DecidableLE α] [NpScalar α]

/-- The five arrays returned by `find_extrema`, /repo/PyEMD/EMD.py:521-540 (type
`FindExtremaOutput`, line 18). -/
structure Extrema (α : Type) where
  maxPos : List α
  maxVal : List α
  minPos : List α
  minVal : List α
  indzer : List Nat

/-- Middles of the runs of `True`, `np.round((debz + finz) / 2.0)` with `debz`/`finz` the first/last index
of each run.  /repo/PyEMD/EMD.py:628-631 (and 567-570).  `finz = nonzero(dz == -1) - 1` never underflows
because `dz[0] >= 0`. -/
def zeroRunMids (zer : List Bool) : List Nat :=
  let dz := runDiff zer
  let debz := nonzero (dz.map (fun x => x == 1))
  let finz := (nonzero (dz.map (fun x => x == -1))).map (fun k => k - 1)
  List.zipWith (fun a b => roundHalf (a + b)) debz finz

/-- Zero-crossing indices.  /repo/PyEMD/EMD.py:622-633; the same statements occur at lines 561-572. -/
def zeroCrossings (S : List α) : List Nat :=
  let S1 := S.dropLast
  let S2 := S.tail
  let indzer := nonzero (List.zipWith (fun a b => decide (a * b < lit 0)) S1 S2)
  let zer := S.map (fun s => s == lit 0)
  if zer.any id then
    let indz := nonzero zer
    let indz :=
      if (npDiff (indz.map (fun k : Nat => (k : Int)))).any (fun x => x == 1) then
        zeroRunMids zer
      else indz
    npSort (indzer ++ indz)
  else indzer

/-- First/last indices of the flat runs, `debs` and `fins` of /repo/PyEMD/EMD.py:644-647: `debs[k]` is the first
sample of the run and `fins[k]` its last sample (both are indices into `d`, hence `d[fins]` is the step
leaving the run). -/
def flatRuns (d : List α) : List Nat × List Nat :=
  let bad := d.map (fun x => x == lit 0)
  let dd := runDiff bad
  (nonzero (dd.map (fun x => x == 1)), nonzero (dd.map (fun x => x == -1)))

/-- /repo/PyEMD/EMD.py:649-656: drop the first run when it starts at index 1. -/
def dropFirstRun (df : List Nat × List Nat) : List Nat × List Nat :=
  match df.1 with
  | 1 :: _ => if df.1.length > 1 then (df.1.tail, df.2.tail) else ([], [])
  | _ => df

/-- /repo/PyEMD/EMD.py:658-665: drop the last run when it reaches the last sample. -/
def dropLastRun (n : Nat) (df : List Nat × List Nat) : List Nat × List Nat :=
  if df.1.length > 0 ∧ df.2.getLast? = some (n - 1) then
    (if df.1.length > 1 then (df.1.dropLast, df.2.dropLast) else ([], []))
  else df

/-- Indices of maxima and minima (in this order).  /repo/PyEMD/EMD.py:636-680.  `d[debs - 1]` uses Python's
negative indexing, so `debs = 0` reads the last difference. -/
def extremaIdx (S : List α) : PyM (List Nat × List Nat) := do
  let d := npDiff S
  let d1 := d.dropLast
  let d2 := d.tail
  let sign_change := List.zipWith (fun a b => decide (a * b < lit 0)) d1 d2
  let indmin := (nonzero (List.zipWith (fun sc a => sc && decide (a < lit 0)) sign_change d1)).map (· + 1)
  let indmax := (nonzero (List.zipWith (fun sc a => sc && decide (lit 0 < a)) sign_change d1)).map (· + 1)
  if d.any (fun x => x == lit 0) then
    let (debs, fins) := dropLastRun S.length (dropFirstRun (flatRuns d))
    if debs.length > 0 then
      let d_before ← pyTake d (debs.map (fun k : Nat => (k : Int) - 1))
      let d_after ← pyTake d (fins.map (fun k : Nat => (k : Int)))
      let midpoints := List.zipWith (fun f b => roundHalf (f + b)) fins debs
      let max_mask := List.zipWith (fun b a => decide (lit 0 < b) && decide (a < lit 0)) d_before d_after
      let min_mask := List.zipWith (fun b a => decide (b < lit 0) && decide (lit 0 < a)) d_before d_after
      let indmax := if max_mask.any id then npSort (indmax ++ maskSel midpoints max_mask) else indmax
      let indmin := if min_mask.any id then npSort (indmin ++ maskSel midpoints min_mask) else indmin
      return (indmax, indmin)
    else return (indmax, indmin)
  else return (indmax, indmin)

/-- `EMD._find_extrema_simple(T, S)`.  /repo/PyEMD/EMD.py:612-687. -/
def findExtremaSimple (T S : List α) : PyM (Extrema α) := do
  let indzer := zeroCrossings S
  let (indmax, indmin) ← extremaIdx S
  let imax := indmax.map (fun k : Nat => (k : Int))
  let imin := indmin.map (fun k : Nat => (k : Int))
  let maxPos ← pyTake T imax
  let maxVal ← pyTake S imax
  let minPos ← pyTake T imin
  let minVal ← pyTake S imin
  return { maxPos, maxVal, minPos, minVal, indzer }

/-- `EMD._not_duplicate(S)`: indices of samples which do not equal both their neighbours; the first and the last
index are always kept.  /repo/PyEMD/EMD.py:500-519.  (For `len(S) < 2` Python writes index `len(S) - 1` twice;
callers have `len(S) >= 2`.) -/
def notDuplicate (S : List α) : List Nat :=
  let mid := S.tail.dropLast
  let dup := List.zipWith (fun a b => a && b)
    (List.zipWith (fun x y => x == y) mid S.dropLast.dropLast)
    (List.zipWith (fun x y => x == y) mid S.tail.tail)
  [0] ++ maskSel ((List.range (S.length - 2)).map (· + 1)) (dup.map (fun b => !b)) ++ [S.length - 1]

/-- One vertex candidate: coefficients and position of the parabola through three consecutive points, and
whether the vertex is accepted.  /repo/PyEMD/EMD.py:584-605 for one index of the arrays. Division by
`scale` (the Vandermonde determinant) is only meaningful for pairwise distinct times. -/
def parabolVertex (Tp T0 Tn Sp S0 Sn : α) : Option (α × α × α) :=
  let TnTp := Tn - Tp
  let T0Tn := T0 - Tn
  let TpT0 := Tp - T0
  let scale := Tp * Tn * Tn + Tp * Tp * T0 + T0 * T0 * Tn - Tp * Tp * Tn - Tp * T0 * T0 - T0 * Tn * Tn
  let a := T0Tn * Sp + TnTp * S0 + TpT0 * Sn
  let b := (S0 - Sn) * (Tp * Tp) + (Sn - Sp) * (T0 * T0) + (Sp - S0) * (Tn * Tn)
  let c := T0 * Tn * T0Tn * Sp + Tn * Tp * TnTp * S0 + Tp * T0 * TpT0 * Sn
  let a := a / scale
  let b := b / scale
  let c := c / scale
  let a := if a == lit 0 then lit (1 / 100000000000000) else a
  let tVertex := lit (-1 / 2) * b / a
  if tVertex < T0 + lit (1 / 2) * (Tn - T0) ∧ T0 - lit (1 / 2) * (T0 - Tp) ≤ tVertex then
    some (a, tVertex, a * tVertex * tVertex + b * tVertex + c)
  else none

/-- The vertices over all triples of consecutive points, in order.  /repo/PyEMD/EMD.py:584-605. -/
def parabolVertices : List α → List α → List (α × α × α)
  | Tp :: T0 :: Tn :: ts, Sp :: S0 :: Sn :: ss =>
    let rest := parabolVertices (T0 :: Tn :: ts) (S0 :: Sn :: ss)
    match parabolVertex Tp T0 Tn Sp S0 Sn with
    | some v => v :: rest
    | none => rest
  | _, _ => []

/-- `EMD._find_extrema_parabol(T, S)`.  /repo/PyEMD/EMD.py:552-610.  `T[1] - T[0]` (line 574) raises for fewer
than two samples; `scale` computed from it is overwritten at line 590. -/
def findExtremaParabol (T S : List α) : PyM (Extrema α) := do
  let indzer := zeroCrossings S
  let _ ← pyGet T 1
  let _ ← pyGet T 0
  let idx := (notDuplicate S).map (fun k : Nat => (k : Int))
  let T ← pyTake T idx
  let S ← pyTake S idx
  let vs := parabolVertices T S
  let mx := vs.filter (fun v => decide (v.1 < lit 0))
  let mn := vs.filter (fun v => decide (lit 0 < v.1))
  return { maxPos := mx.map (·.2.1), maxVal := mx.map (·.2.2),
           minPos := mn.map (·.2.1), minVal := mn.map (·.2.2), indzer }

/-- Values of the attribute `extrema_detection` (a string in Python; `unknown` is any other string, which the
constructor refuses but attribute assignment allows).  /repo/PyEMD/EMD.py:103-107. -/
inductive Detection
  | simple
  | parabol
  | unknown
  deriving DecidableEq, Repr

/-- `EMD.find_extrema`: dispatch on `extrema_detection`.  /repo/PyEMD/EMD.py:521-550. -/
def findExtrema (detection : Detection) (T S : List α) : PyM (Extrema α) :=
  match detection with
  | .parabol => findExtremaParabol T S
  | .simple => findExtremaSimple T S
  | .unknown => .error .valueError

end EMD
end PyEMD
